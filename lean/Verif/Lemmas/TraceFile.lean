import Verif.Lemmas.Trace
import Verif.Lemmas.Channel
import Verif.Lemmas.ParseShow
import Verif.Spec.TraceFile
/-! Trace files: what one operation adds to the log together with what the queues report. -/

namespace Verif
open Spec

/-- What one operation makes the queues report and what it adds to the log. -/
inductive QBlock : List QEv → List Ev → Prop where
  | plain (l) (h : ∀ e ∈ l, Plain e) : QBlock [] l
  | down (d p dest proto) : QBlock [] [.macTxDrop d p, .sendRet d p dest proto false p]
  | full (d p dest proto f) (hf : f ≠ p) :
      QBlock [.drop d f] [.macTx d f, .macTxDrop d f, .sendRet d p dest proto false f]
  | queued (d p dest proto f) (hf : f ≠ p) : QBlock [.enqueue d f] [.macTx d f, .sendRet d p dest proto true f]
  | start (d p dest proto f a) (l) (hf : f ≠ p) (hl : Tail d f l) :
      QBlock [.enqueue d f, .dequeue d f]
        ([.macTx d f, .promiscSniffer d f, .sniffer d f, .phyTxBegin d f, .onAir d f a] ++ l ++
          [.sendRet d p dest proto true f])
  | stop (d f) : QBlock [] [.phyTxEnd d f]
  | next (d f g a) (l) (hl : Tail d g l) :
      QBlock [.dequeue d g] ([.phyTxEnd d f, .sniffer d g, .promiscSniffer d g, .phyTxBegin d g, .onAir d g a] ++ l)
  | own (d f rx) : QBlock [] [.recvCall d f d rx, .macRxDrop d f]
  | lost (d f src rx g) (h : src ≠ d) : QBlock [] [.recvCall d f src rx, .phyRxEnd d f, .phyRxDrop d g]
  | good (d f src rx) (pr up : Bool) (p proto sa da ty) (h : src ≠ d) :
      QBlock [] ([.recvCall d f src rx, .phyRxEnd d f, .promiscSniffer d f] ++
        (if pr then [.macPromiscRx d f, .promiscCallback d p proto sa da ty] else []) ++
        (if up then [.macRx d f, .rxCallback d p proto sa] else []))

theorem qblock_receive {E : Env} {s s' : Sys} {d : DevId} {f : Bytes} {src : DevId} {rx : Power}
    (h : receive E s d f src rx = .ok s') : ∃ l, QBlock [] l ∧ s'.log = s.log ++ l.map (fun e => (s.now, e)) := by
  unfold receive at h
  simp only at h
  split at h
  · rename_i hs; subst hs
    injection h with h; subst h
    exact ⟨_, .own src f rx, by simp [Sys.emit]⟩
  · rename_i hs
    split at h
    · injection h with h; subst h
      exact ⟨_, .lost d f src rx f hs, by simp [Sys.emit]⟩
    · split at h
      · injection h with h; subst h
        exact ⟨_, .lost d f src rx f hs, by simp [Sys.emit]⟩
      · rw [Outcome.bind_eq_ok] at h
        obtain ⟨r, hr, h⟩ := h
        cases r with
        | badFcs rest =>
          injection h with h; subst h
          exact ⟨_, .lost d f src rx rest hs, by simp [Sys.emit]⟩
        | good p proto sa da =>
          simp only at h
          split at h
          · injection h with h; subst h
            refine ⟨_, .good d f src rx ((s.emit (.recvCall d f src rx)).dev d).promiscCb false p proto sa da
              (packetType da ((s.emit (.recvCall d f src rx)).dev d).addr) hs, ?_⟩
            cases ((s.emit (.recvCall d f src rx)).dev d).promiscCb <;> simp [Sys.emit]
          · split at h
            · injection h with h; subst h
              refine ⟨_, .good d f src rx ((s.emit (.recvCall d f src rx)).dev d).promiscCb true p proto sa da
                (packetType da ((s.emit (.recvCall d f src rx)).dev d).addr) hs, ?_⟩
              cases ((s.emit (.recvCall d f src rx)).dev d).promiscCb <;> simp [Sys.emit]
            · cases h

/-- The queue of `d` after the reports `l`. -/
def follow (d : DevId) : List Bytes → List QEv → Option (List Bytes)
  | q, [] => some q
  | q, .enqueue x f :: l => if x = d then follow d (q ++ [f]) l else follow d q l
  | q, .dequeue x f :: l =>
    if x = d then
      match q with
      | g :: q => if g = f then follow d q l else none
      | [] => none
    else follow d q l
  | q, .drop _ _ :: l => follow d q l

theorem tx_queue {E : Env} {s s' : Sys} {d : DevId} {f : Bytes} {dest : Addr} (h : transmitStart E s d f dest = .ok s')
    (x : DevId) : (s'.dev x).queue = (s.dev x).queue := by
  obtain ⟨_, c, src, rs, b, _, _, _, rfl⟩ := transmitStart_ok h
  simp only [txState]
  split
  · rename_i hx; subst hx; rfl
  · rfl

theorem qblock_step {E : Env} {s s' : Sys} {op : Op} (hi : Inv s) (h : step E s op = .ok s') :
    ∃ l, QBlock (queueEvents E s op) l ∧ s'.log = s.log ++ l.map (fun e => (s'.now, e)) ∧
      ∀ x, follow x (s.dev x).queue (queueEvents E s op) = some (s'.dev x).queue := by
  have nothing : ∀ {s' : Sys}, queueEvents E s op = [] → s'.log = s.log → (∀ x, (s'.dev x).queue = (s.dev x).queue) →
      ∃ l, QBlock (queueEvents E s op) l ∧ s'.log = s.log ++ l.map (fun e => (s'.now, e)) ∧
        ∀ x, follow x (s.dev x).queue (queueEvents E s op) = some (s'.dev x).queue := fun h0 h hq => by
    refine ⟨[], ?_, by simp [h], fun x => ?_⟩
    · rw [h0]; exact .plain [] (by simp)
    · rw [h0, hq]; rfl
  have setter : ∀ (d : DevId) (v : Dev), v.queue = (s.dev d).queue → ∀ x, ((s.setDev d v).dev x).queue = (s.dev x).queue := by
    intro d v hv x
    simp only [Sys.setDev]
    split
    · rename_i hx; subst hx; exact hv
    · rfl
  cases op with
  | send d p dest proto =>
    rcases send_ok h with ⟨hl, rfl⟩ | ⟨hl, _, m, rfl, f, hf, ⟨hc, rfl⟩ | ⟨hc, hb, rfl⟩ | ⟨hc, hb, g, rest, s3, hg, hts, rfl⟩⟩
    · have hq : queueEvents E s (.send d p dest proto) = [] := by
        cases dest <;> simp [queueEvents, hl]
      rw [hq]
      exact ⟨_, .down d p dest proto, by simp, fun x => rfl⟩
    · have hq : queueEvents E s (.send d p (.mac m) proto) = [.drop d f] := by
        simp [queueEvents, hl, hc, hf]
      rw [hq]
      exact ⟨_, .full d p (.mac m) proto f (hf ▸ addHeader_ne _ _ _ _ _), by simp, fun x => rfl⟩
    · have hq : queueEvents E s (.send d p (.mac m) proto) = [.enqueue d f] := by
        simp [queueEvents, hl, hc, hf, hb]
      rw [hq]
      refine ⟨_, .queued d p (.mac m) proto f (hf ▸ addHeader_ne _ _ _ _ _), by simp, fun x => ?_⟩
      by_cases hx : x = d
      · subst hx; simp [follow]
      · simp [follow, hx, Ne.symm hx]
    · rw [((hi.dev d).ready hb).2.1] at hg
      simp only [List.nil_append, List.cons.injEq] at hg
      obtain ⟨rfl, rfl⟩ := hg
      have hq : queueEvents E s (.send d p (.mac m) proto) = [.enqueue d f, .dequeue d f] := by
        rw [((hi.dev d).ready hb).2.1] at hc
        simp [queueEvents, hl, ← hf, hb, ((hi.dev d).ready hb).2.1, show 0 < (s.dev d).cap from hc]
      obtain ⟨l, hl, hlog, hn⟩ := block_tx hts
      rw [hq]
      refine ⟨_, .start d p (.mac m) proto f (.mac m) l (hf ▸ addHeader_ne _ _ _ _ _) hl, ?_, fun x => ?_⟩
      · simp only [hlog, hn]
        simp
      · skip
        have hx' := tx_queue hts x
        simp only at hx' ⊢
        rw [hx']
        by_cases hx : x = d
        · subst hx
          simp [follow, ((hi.dev x).ready hb).2.1]
        · simp [follow, hx, Ne.symm hx]
  | attach d c =>
    obtain ⟨g, t, _, rfl⟩ := attach_ok h
    refine ⟨[.linkChange d, .attachRet d c _], .plain _ (by simp [Plain]), rfl, fun x => ?_⟩
    simp only [queueEvents, follow]
    split
    · rename_i hx; subst hx; rfl
    · rfl
  | sendFrom d p src dest proto =>
    injection h with h; subst h
    exact ⟨[.sendFromRet d false], .plain _ (by simp [Plain]), rfl, fun x => rfl⟩
  | detach c slot =>
    obtain ⟨g, t, _, h⟩ := detach_ok h
    rcases h with ⟨d, _, _, rfl⟩ | ⟨_, rfl⟩
    · refine ⟨[.linkChange d, .detachRet ..], .plain _ (by simp [Plain]), rfl, fun x => ?_⟩
      simp only [queueEvents, follow]
      split
      · rename_i hx; subst hx; rfl
      · rfl
    · exact ⟨[.detachRet ..], .plain _ (by simp [Plain]), rfl, fun x => rfl⟩
  | setAddress d a =>
    cases a with
    | other => cases h
    | mac m => injection h with h; subst h; exact nothing rfl rfl (setter d _ rfl)
  | run =>
    simp only [step, run] at h
    split at h
    · rename_i hp
      injection h with h; subst h; exact nothing (by simp [queueEvents, hp]) rfl (fun _ => rfl)
    · rename_i q ps hp
      obtain ⟨t, a⟩ := q
      cases a with
      | receive d f src rx =>
        simp only [dispatch] at h
        have hq : queueEvents E s .run = [] := by simp [queueEvents, hp]
        obtain ⟨l, hl, hlog⟩ := qblock_receive h
        obtain ⟨_, _, hs'⟩ := receive_ok h
        rw [hq]
        refine ⟨l, hl, ?_, fun x => ?_⟩
        · rw [hlog]
          have : s'.now = t := by rw [hs']
          rw [this]
        · rw [hs']; rfl
      | txComplete d dest =>
        simp only [dispatch] at h
        obtain ⟨_, _, f, _, ⟨he, rfl⟩ | ⟨g, rest, he, hts⟩⟩ := transmitComplete_ok h
        · simp only at he
          have hq : queueEvents E s .run = [] := by simp [queueEvents, hp, he]
          rw [hq]
          refine ⟨_, .stop d f, rfl, fun x => ?_⟩
          simp only [follow]
          split
          · rename_i hx; subst hx; rfl
          · rfl
        · simp only at he
          have hq : queueEvents E s .run = [.dequeue d g] := by simp [queueEvents, hp, he]
          obtain ⟨l, hl, hlog, hn⟩ := block_tx hts
          rw [hq]
          refine ⟨_, .next d f g dest l hl, ?_, fun x => ?_⟩
          · rw [hlog, hn]
            simp
          · skip
            have hx' := tx_queue hts x
            simp only at hx'
            rw [hx']
            by_cases hx : x = d
            · subst hx; simp [follow, he]
            · simp [follow, hx, Ne.symm hx]
  | wait dt =>
    simp only [step] at h
    split at h <;> injection h with h <;> subst h <;> exact nothing rfl rfl (fun _ => rfl)
  | _ => injection h with h; subst h; exact nothing rfl rfl (setter _ _ rfl)

/-- The records of device `d` in the log of one operation. -/
theorem captured_skip (d : DevId) {t : Time} {e : Ev} {m : List (Time × Ev)} (h1 : ∀ x f a, e ≠ .onAir x f a)
    (h2 : ∀ x f, e ≠ .phyRxEnd x f) : captured d ((t, e) :: m) = captured d m := by
  cases e <;> first | rfl | exact absurd rfl (h1 _ _ _) | exact absurd rfl (h2 _ _)

theorem captured_tail (d : DevId) {x : DevId} {f : Bytes} {l : List Ev} (hl : Tail x f l) (t : Time)
    (m : List (Time × Ev)) : captured d (l.map (fun e => (t, e)) ++ m) = captured d m := by
  obtain ⟨rs, b, hrs, rfl⟩ := hl
  induction rs with
  | nil => cases b <;> simp [captured]
  | cons e rs ih =>
    obtain ⟨c, f, s, y, tt, del, rfl⟩ := hrs e (by simp)
    simp only [List.cons_append, List.map_cons]
    rw [captured_skip d (by simp) (by simp)]
    exact ih fun e he => hrs e (by simp [he])

theorem captured_plain (d : DevId) {l : List Ev} (hl : ∀ e ∈ l, Plain e) (t : Time)
    (m : List (Time × Ev)) : captured d (l.map (fun e => (t, e)) ++ m) = captured d m := by
  induction l with
  | nil => rfl
  | cons e l ih =>
    have he := hl e (by simp)
    simp only [List.map_cons, List.cons_append]
    rw [captured_skip d (by rintro x f a rfl; exact he) (by rintro x f rfl; exact he)]
    exact ih fun e he => hl e (by simp [he])

/-- Records of a pcap file for timed effects. -/
theorem pcap_map (d : DevId) (t : Time) (l : List Ev) :
    (l.map fun e => (t, e)).filterMap (pcapRecord d) =
      l.filterMap fun e => match e with | .promiscSniffer x f => if x = d then some (t, f) else none | _ => none := by
  rw [List.filterMap_map]
  congr 1

theorem projT_map {α : Type} (g : Ev → Option α) (t : Time) (l : List Ev) :
    projT g (l.map fun e => (t, e)) = l.filterMap fun e => (g e).map fun a => (t, a) := by
  simp [projT, List.filterMap_map]

theorem none_plain {α : Type} {g : Ev → Option α} (hg : ∀ e, Plain e → g e = none) {l : List Ev}
    (h : ∀ e ∈ l, Plain e) : l.filterMap g = [] := by
  rw [List.filterMap_eq_nil_iff]
  exact fun e he => hg e (h e he)

theorem none_tail {α : Type} {g : Ev → Option α} (hg : ∀ c f s y t del, g (.txrx c f s y t del) = none)
    (hd : ∀ d f, g (.phyTxDrop d f) = none) {d : DevId} {f : Bytes} {l : List Ev} (h : Tail d f l) :
    l.filterMap g = [] := by
  obtain ⟨rs, b, hrs, rfl⟩ := h
  rw [List.filterMap_eq_nil_iff]
  intro e he
  rcases List.mem_append.mp he with he | he
  · obtain ⟨c, f, s, y, t, del, rfl⟩ := hrs e he
    exact hg ..
  · cases b
    · simp at he; subst he; exact hd ..
    · simp at he

theorem captured_block (d : DevId) {q : List QEv} {l : List Ev} (h : QBlock q l) (t : Time) (m : List (Time × Ev)) :
    captured d (l.map (fun e => (t, e)) ++ m) = (l.map fun e => (t, e)).filterMap (pcapRecord d) ++ captured d m := by
  rw [pcap_map]
  cases h with
  | plain l hl =>
    rw [captured_plain d hl, none_plain (fun e he => ?_) hl]
    · rfl
    · cases e <;> first | rfl | cases he
  | start x p dest proto f a l hf hl =>
    simp only [List.map_append, List.map_cons, List.map_nil, List.append_assoc, List.cons_append, List.nil_append]
    rw [captured_skip d (by simp) (by simp), captured_skip d (by simp) (by simp), captured_skip d (by simp) (by simp),
      captured_skip d (by simp) (by simp)]
    simp only [captured]
    rw [captured_tail d hl, captured_skip d (by simp) (by simp)]
    simp only [List.filterMap_cons, List.filterMap_append]
    rw [none_tail (by intros; rfl) (by intros; rfl) hl]
    by_cases hx : x = d <;> simp [hx]
  | next x f g a l hl =>
    simp only [List.map_append, List.map_cons, List.map_nil, List.append_assoc, List.cons_append, List.nil_append]
    rw [captured_skip d (by simp) (by simp), captured_skip d (by simp) (by simp), captured_skip d (by simp) (by simp),
      captured_skip d (by simp) (by simp)]
    simp only [captured]
    rw [captured_tail d hl]
    simp only [List.filterMap_cons]
    rw [none_tail (by intros; rfl) (by intros; rfl) hl]
    by_cases hx : x = d <;> simp [hx]
  | good x f src rx pr up p proto sa da ty hs =>
    cases pr <;> cases up <;> by_cases hx : x = d <;> simp [captured, Discards, hx]
  | lost x f src rx g hs => by_cases hx : x = d <;> simp [captured, Discards, hx]
  | _ => simp [captured]

/-- The ascii records of one operation for device `d`. -/
def dline (d : DevId) (t : Time) (q : List QEv) (l : List Ev) : List (Time × Line) :=
  (q.map (fun x => (t, x.line)) ++ (l.map fun e => (t, e)).filterMap (fun e => (devLine e.2).map fun x => (e.1, x))).filterMap
    (asciiRecord d)

theorem dline_eq (d : DevId) (t : Time) (q : List QEv) (l : List Ev) :
    dline d t q l = (q.filterMap fun x => if x.line.1 = d then some (t, x.line.2) else none) ++
      l.filterMap fun e => (devLine e).bind fun x => if x.1 = d then some (t, x.2) else none := by
  unfold dline
  rw [List.filterMap_append]
  congr 1
  · rw [List.filterMap_map]; congr 1
  · rw [List.filterMap_map, List.filterMap_filterMap]
    congr 1
    funext e
    cases h : devLine e <;> simp [h, asciiRecord]

/-- The ascii records of one operation for device `d` agree with what it adds to the log. -/
def Faith (d : DevId) (t : Time) (q : List QEv) (l : List Ev) : Prop :=
  pluses (dline d t q l) = projT (acceptedEv d) (l.map fun e => (t, e)) ∧
  minuses (dline d t q l) = projT (begunEv d) (l.map fun e => (t, e)) ∧
  losses (dline d t q l) = projT (lostEv d) (l.map fun e => (t, e)) ∧
  receipts (dline d t q l) = projT (handedUpEv d) (l.map fun e => (t, e))

theorem faith_start (d : DevId) (t : Time) (x p dest proto f a) (l) (hl : Tail x f l) :
    Faith d t [.enqueue x f, .dequeue x f]
      ([.macTx x f, .promiscSniffer x f, .sniffer x f, .phyTxBegin x f, .onAir x f a] ++ l ++
        [.sendRet x p dest proto true f]) := by
  unfold Faith
  simp only [projT_map]
  rw [dline_eq]
  simp only [List.filterMap_append]
  rw [none_tail (by intros; rfl) (by intros; rfl) hl,
      none_tail (by intros; rfl) (by intros; rfl) hl,
      none_tail (by intros; rfl) (by intros; rfl) hl,
      none_tail (by intros; rfl) (by intros; rfl) hl,
      none_tail (by intros; rfl) (by intros; rfl) hl]
  by_cases hx : x = d <;> simp [hx, QEv.line, devLine, pluses, minuses, losses, receipts, acceptedEv, begunEv, lostEv, handedUpEv]

theorem faith_next (d : DevId) (t : Time) (x f g a) (l) (hl : Tail x g l) :
    Faith d t [.dequeue x g]
      ([.phyTxEnd x f, .sniffer x g, .promiscSniffer x g, .phyTxBegin x g, .onAir x g a] ++ l) := by
  unfold Faith
  simp only [projT_map]
  rw [dline_eq]
  simp only [List.filterMap_append]
  rw [none_tail (by intros; rfl) (by intros; rfl) hl,
      none_tail (by intros; rfl) (by intros; rfl) hl,
      none_tail (by intros; rfl) (by intros; rfl) hl,
      none_tail (by intros; rfl) (by intros; rfl) hl,
      none_tail (by intros; rfl) (by intros; rfl) hl]
  by_cases hx : x = d <;> simp [hx, QEv.line, devLine, pluses, minuses, losses, receipts, acceptedEv, begunEv, lostEv, handedUpEv]

theorem faith_good (d : DevId) (t : Time) (x f src rx) (pr up : Bool) (p proto sa da ty) :
    Faith d t [] ([.recvCall x f src rx, .phyRxEnd x f, .promiscSniffer x f] ++
      (if pr then [.macPromiscRx x f, .promiscCallback x p proto sa da ty] else []) ++
      (if up then [.macRx x f, .rxCallback x p proto sa] else [])) := by
  unfold Faith
  simp only [projT_map]
  rw [dline_eq]
  simp only [List.filterMap_append, List.filterMap_nil, List.nil_append]
  cases pr <;> cases up <;> by_cases hx : x = d <;>
    simp [hx, devLine, pluses, minuses, losses, receipts, acceptedEv, begunEv, lostEv, handedUpEv]

theorem faith_plain (d : DevId) (t : Time) {l : List Ev} (hl : ∀ e ∈ l, Plain e) : Faith d t [] l := by
  unfold Faith
  simp only [projT_map]
  rw [dline_eq]
  rw [none_plain (fun e he => ?_) hl, none_plain (fun e he => ?_) hl, none_plain (fun e he => ?_) hl,
    none_plain (fun e he => ?_) hl, none_plain (fun e he => ?_) hl]
  · simp [pluses, minuses, losses, receipts]
  all_goals cases e <;> first | rfl | cases he

theorem dline_block (d : DevId) {q : List QEv} {l : List Ev} (h : QBlock q l) (t : Time) : Faith d t q l := by
  cases h with
  | plain l hl => exact faith_plain d t hl
  | start x p dest proto f a l hf hl => exact faith_start d t x p dest proto f a l hl
  | next x f g a l hl => exact faith_next d t x f g a l hl
  | good x f src rx pr up p proto sa da ty hs => exact faith_good d t x f src rx pr up p proto sa da ty
  | full x p dest proto f hf =>
    unfold Faith; simp only [projT_map]; rw [dline_eq]
    by_cases hx : x = d <;> simp [hx, hf, QEv.line, devLine, pluses, minuses, losses, receipts, acceptedEv, begunEv, lostEv, handedUpEv]
  | queued x p dest proto f hf =>
    unfold Faith; simp only [projT_map]; rw [dline_eq]
    by_cases hx : x = d <;> simp [hx, QEv.line, devLine, pluses, minuses, losses, receipts, acceptedEv, begunEv, lostEv, handedUpEv]
  | lost x f src rx g hs =>
    unfold Faith; simp only [projT_map]; rw [dline_eq]
    by_cases hx : x = d <;> simp [hx, devLine, pluses, minuses, losses, receipts, acceptedEv, begunEv, lostEv, handedUpEv]
  | _ =>
    unfold Faith; simp only [projT_map]; rw [dline_eq]
    simp [devLine, pluses, minuses, losses, receipts, acceptedEv, begunEv, lostEv, handedUpEv]

theorem replay_other {q : List Bytes} {l m : List (Time × Line)} (h : ∀ e ∈ l, (∃ f, e.2 = .drop f) ∨ ∃ f, e.2 = .recv f) :
    replay q (l ++ m) = replay q m := by
  induction l with
  | nil => rfl
  | cons e l ih =>
    obtain ⟨t, e⟩ := e
    have he := h _ (List.mem_cons_self ..)
    have := ih fun e he => h e (by simp [he])
    simp only at he
    rcases he with ⟨f, rfl⟩ | ⟨f, rfl⟩ <;> cases q <;> simp only [List.cons_append, replay] <;> exact this

theorem replay_queue (d : DevId) (t : Time) (m : List (Time × Line)) : ∀ (l : List QEv) (q q' : List Bytes),
    follow d q l = some q' →
    replay q ((l.filterMap fun x => if x.line.1 = d then some (t, x.line.2) else none) ++ m) = replay q' m
  | [], q, q', h => by injection h with h; subst h; rfl
  | .enqueue x f :: l, q, q', h => by
    by_cases hx : x = d
    · simp only [follow, hx, if_true] at h
      simp only [List.filterMap_cons, QEv.line, hx, if_true, List.cons_append]
      cases q <;> simp only [replay] <;> exact replay_queue d t m l _ _ h
    · simp only [follow, hx, if_false] at h
      simp only [List.filterMap_cons, QEv.line, hx, if_false]
      exact replay_queue d t m l _ _ h
  | .dequeue x f :: l, q, q', h => by
    by_cases hx : x = d
    · simp only [follow, hx, if_true] at h
      simp only [List.filterMap_cons, QEv.line, hx, if_true, List.cons_append]
      cases q with
      | nil => cases h
      | cons g q =>
        simp only at h
        split at h
        · rename_i hg
          simp only [replay, hg, if_true]
          exact replay_queue d t m l _ _ h
        · cases h
    · simp only [follow, hx, if_false] at h
      simp only [List.filterMap_cons, QEv.line, hx, if_false]
      exact replay_queue d t m l _ _ h
  | .drop x f :: l, q, q', h => by
    simp only [follow] at h
    by_cases hx : x = d
    · simp only [List.filterMap_cons, QEv.line, hx, if_true, List.cons_append]
      cases q <;> simp only [replay] <;> exact replay_queue d t m l _ _ h
    · simp only [List.filterMap_cons, QEv.line, hx, if_false]
      exact replay_queue d t m l _ _ h

theorem dline_replay (d : DevId) (t : Time) {q : List QEv} (l : List Ev) {b b' : List Bytes} (h : follow d b q = some b')
    (m : List (Time × Line)) : replay b (dline d t q l ++ m) = replay b' m := by
  rw [dline_eq, List.append_assoc, replay_queue d t _ q b b' h, replay_other]
  intro e he
  obtain ⟨a, _, ha⟩ := List.mem_filterMap.mp he
  cases a <;> simp [devLine] at ha
  · obtain ⟨_, rfl⟩ := ha; simp
  · obtain ⟨_, rfl⟩ := ha; simp

end Verif
