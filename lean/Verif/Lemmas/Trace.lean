import Verif.Lemmas.NetTx
import Verif.Lemmas.Frame
import Verif.Spec.Trace
/-! The shape of what one operation adds to the log. -/

namespace Verif
open Spec

/-- Effects no trace source of a device reports. -/
def Plain : Ev → Prop
  | .linkChange _ | .sendFromRet .. | .detachRet .. | .attachRet .. => True
  | _ => False

/-- The part of a transmission behind `onAir`. -/
def Tail (d : DevId) (f : Bytes) (l : List Ev) : Prop :=
  ∃ (rs : List Ev) (b : Bool), (∀ e ∈ rs, ∃ c f s y t del, e = Ev.txrx c f s y t del) ∧ l = rs ++ if b then [] else [.phyTxDrop d f]

/-- What one operation adds to the log. -/
inductive Block : List Ev → Prop where
  | plain (l) (h : ∀ e ∈ l, Plain e) : Block l
  | down (d p dest proto) : Block [.macTxDrop d p, .sendRet d p dest proto false p]
  | full (d p dest proto f) (hf : f ≠ p) : Block [.macTx d f, .macTxDrop d f, .sendRet d p dest proto false f]
  | queued (d p dest proto f) (hf : f ≠ p) : Block [.macTx d f, .sendRet d p dest proto true f]
  | start (d p dest proto f a) (l) (hf : f ≠ p) (hl : Tail d f l) :
      Block ([.macTx d f, .promiscSniffer d f, .sniffer d f, .phyTxBegin d f, .onAir d f a] ++ l ++
        [.sendRet d p dest proto true f])
  | stop (d f) : Block [.phyTxEnd d f]
  | next (d f g a) (l) (hl : Tail d g l) :
      Block ([.phyTxEnd d f, .sniffer d g, .promiscSniffer d g, .phyTxBegin d g, .onAir d g a] ++ l)
  | own (d f rx) : Block [.recvCall d f d rx, .macRxDrop d f]
  | lost (d f src rx g) (h : src ≠ d) : Block [.recvCall d f src rx, .phyRxEnd d f, .phyRxDrop d g]
  | good (d f src rx) (pr up : Bool) (p proto sa da ty) (h : src ≠ d) :
      Block ([.recvCall d f src rx, .phyRxEnd d f, .promiscSniffer d f] ++
        (if pr then [.macPromiscRx d f, .promiscCallback d p proto sa da ty] else []) ++
        (if up then [.macRx d f, .rxCallback d p proto sa] else []))

theorem tail_entries (now : Time) (c : ChanId) (d src : DevId) (f : Bytes) (T : Time) (rs : List Recv) (b : Bool) :
    ∃ l, Tail d f l ∧ rs.map (Recv.entry now c f src T) ++ (if b then [] else [(now, Ev.phyTxDrop d f)]) =
      l.map (fun e => (now, e)) := by
  refine ⟨rs.map (fun r => (Recv.entry now c f src T r).2) ++ if b then [] else [.phyTxDrop d f], ⟨_, b, ?_, rfl⟩, ?_⟩
  · intro e he
    obtain ⟨r, _, rfl⟩ := List.mem_map.mp he
    exact ⟨_, _, _, _, _, _, rfl⟩
  · rw [List.map_append, List.map_map]
    congr 1
    cases b <;> rfl

theorem addHeader_ne (k : Fcs) (p : Bytes) (src dst : Mac48) (proto : UInt16) : addHeader k p src dst proto ≠ p := by
  intro h
  have := congrArg List.length h
  unfold addHeader llcHeader at this
  simp only at this
  split at this <;> simp only [List.length_append, le32_length, List.length_replicate] at this <;> omega

theorem block_receive {E : Env} {s s' : Sys} {d : DevId} {f : Bytes} {src : DevId} {rx : Power}
    (h : receive E s d f src rx = .ok s') : ∃ l, Block l ∧ s'.log = s.log ++ l.map (fun e => (s.now, e)) := by
  unfold receive at h
  simp only at h
  split at h
  · rename_i hs; subst hs
    injection h with h; subst h
    exact ⟨_, .own src f rx, by simp [Sys.emit]⟩
  · rename_i hs
    split at h
    · injection h with h; subst h
      exact ⟨_, .lost d f src rx f hs, by simp [Sys.emit]⟩
    · split at h
      · injection h with h; subst h
        exact ⟨_, .lost d f src rx f hs, by simp [Sys.emit]⟩
      · rw [Outcome.bind_eq_ok] at h
        obtain ⟨r, hr, h⟩ := h
        cases r with
        | badFcs rest =>
          injection h with h; subst h
          exact ⟨_, .lost d f src rx rest hs, by simp [Sys.emit]⟩
        | good p proto sa da =>
          simp only at h
          split at h
          · injection h with h; subst h
            refine ⟨_, .good d f src rx ((s.emit (.recvCall d f src rx)).dev d).promiscCb false p proto sa da
              (packetType da ((s.emit (.recvCall d f src rx)).dev d).addr) hs, ?_⟩
            cases ((s.emit (.recvCall d f src rx)).dev d).promiscCb <;> simp [Sys.emit]
          · split at h
            · injection h with h; subst h
              refine ⟨_, .good d f src rx ((s.emit (.recvCall d f src rx)).dev d).promiscCb true p proto sa da
                (packetType da ((s.emit (.recvCall d f src rx)).dev d).addr) hs, ?_⟩
              cases ((s.emit (.recvCall d f src rx)).dev d).promiscCb <;> simp [Sys.emit]
            · cases h

/-- Log of a transmission. -/
theorem block_tx {E : Env} {s s' : Sys} {d : DevId} {f : Bytes} {dest : Addr}
    (h : transmitStart E s d f dest = .ok s') :
    ∃ l, Tail d f l ∧ s'.log = s.log ++ ([Ev.phyTxBegin d f, .onAir d f dest] ++ l).map (fun e => (s.now, e)) ∧
      s'.now = s.now := by
  obtain ⟨_, c, src, rs, b, _, _, _, rfl⟩ := transmitStart_ok h
  obtain ⟨l, hl, he⟩ : ∃ l, Tail d f l ∧ rs.map (Recv.entry s.now c f src (E.txTime (s.dev d).rate f.length)) ++
      (if b then [] else [(s.now, Ev.phyTxDrop d f)]) = l.map (fun e => (s.now, e)) := tail_entries ..
  refine ⟨l, hl, ?_, rfl⟩
  simp only [txState]
  rw [he]
  simp

theorem block_step {E : Env} {s s' : Sys} {op : Op} (hi : Inv s) (h : step E s op = .ok s') :
    ∃ l, Block l ∧ s'.log = s.log ++ l.map (fun e => (s'.now, e)) := by
  have nothing : ∀ {s' : Sys}, s'.log = s.log → ∃ l, Block l ∧ s'.log = s.log ++ l.map (fun e => (s'.now, e)) := fun h =>
    ⟨[], .plain [] (by simp), by simp [h]⟩
  cases op with
  | send d p dest proto =>
    rcases send_ok h with ⟨_, rfl⟩ | ⟨_, _, m, _, f, hf, ⟨_, rfl⟩ | ⟨_, _, rfl⟩ | ⟨_, _, g, rest, s3, hg, hts, rfl⟩⟩
    · exact ⟨_, .down d p dest proto, by simp⟩
    · exact ⟨_, .full d p dest proto f (hf ▸ addHeader_ne _ _ _ _ _), by simp⟩
    · exact ⟨_, .queued d p dest proto f (hf ▸ addHeader_ne _ _ _ _ _), by simp⟩
    · rename_i hb
      rw [((hi.dev d).ready hb).2.1] at hg
      simp only [List.nil_append, List.cons.injEq] at hg
      obtain ⟨rfl, rfl⟩ := hg
      obtain ⟨l, hl, hlog, hn⟩ := block_tx hts
      refine ⟨_, .start d p dest proto f dest l (hf ▸ addHeader_ne _ _ _ _ _) hl, ?_⟩
      simp only [hlog, hn]
      simp
  | attach d c =>
    obtain ⟨g, t, _, rfl⟩ := attach_ok h
    exact ⟨[.linkChange d, .attachRet d c _], .plain _ (by simp [Plain]), rfl⟩
  | sendFrom d p src dest proto =>
    injection h with h; subst h
    exact ⟨[.sendFromRet d false], .plain _ (by simp [Plain]), rfl⟩
  | detach c slot =>
    obtain ⟨g, t, _, h⟩ := detach_ok h
    rcases h with ⟨d, _, _, rfl⟩ | ⟨_, rfl⟩
    · exact ⟨[.linkChange d, .detachRet ..], .plain _ (by simp [Plain]), rfl⟩
    · exact ⟨[.detachRet ..], .plain _ (by simp [Plain]), rfl⟩
  | setAddress d a =>
    cases a with
    | other => cases h
    | mac m => injection h with h; subst h; exact nothing rfl
  | run =>
    simp only [step, run] at h
    split at h
    · injection h with h; subst h; exact nothing rfl
    · rename_i q ps hp
      obtain ⟨t, a⟩ := q
      cases a with
      | receive d f src rx =>
        simp only [dispatch] at h
        obtain ⟨l, hl, hlog⟩ := block_receive h
        obtain ⟨_, _, hs'⟩ := receive_ok h
        refine ⟨l, hl, ?_⟩
        rw [hlog]
        have : s'.now = t := by rw [hs']
        rw [this]
      | txComplete d dest =>
        simp only [dispatch] at h
        obtain ⟨_, _, f, _, ⟨_, rfl⟩ | ⟨g, rest, _, hts⟩⟩ := transmitComplete_ok h
        · exact ⟨_, .stop d f, rfl⟩
        · obtain ⟨l, hl, hlog, hn⟩ := block_tx hts
          refine ⟨_, .next d f g dest l hl, ?_⟩
          rw [hlog, hn]
          simp
  | wait dt =>
    simp only [step] at h
    split at h <;> injection h with h <;> subst h <;> exact nothing rfl
  | _ => injection h with h; subst h; exact nothing rfl

end Verif
