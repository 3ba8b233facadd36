import Verif.Lemmas.Flow
import Verif.Props.Device
/-! C81: flow control between the device and the layer above. -/

namespace Verif
open Spec

/-- The flag is off and the queue empty when the sinks are connected before anything is sent. -/
theorem connected_exact {E : Env} {h0 h : FSys} {pre rest : List FOp} {d : DevId} (hi : FInitial h0)
    (hpre : sends d pre = 0) (hcap : 0 < (h0.sys.dev d).cap) (hrun : execF E h0 (pre ++ .connect d :: rest) = .ok h) :
    Exact h d ∧ h.conns d ≠ 0 ∧ Inv h.sys := by
  obtain ⟨h1, hs1, hs2⟩ := execF_split hrun
  obtain ⟨g1, g2, g3, g4⟩ := unused_exec pre (inv_initial hi.sys) hpre (hi.sys.idle d).2.2.1 hcap (hi.stopped d) hs1
  simp only [execF] at hs2
  rw [Outcome.bind_eq_ok] at hs2
  obtain ⟨h2, hc, hs2⟩ := hs2
  have hc' := hc
  simp only [stepF] at hc'
  split at hc'
  · cases hc'
  · injection hc' with hc'
    have k1 : h2.conns d ≠ 0 := by rw [← hc']; simp
    have k2 : h2.sys = h1.sys := by rw [← hc']
    have k3 : h2.stopped = h1.stopped := by rw [← hc']
    refine exact_exec rest (by rw [k2]; exact g1) k1 ?_ hs2
    unfold Exact
    rw [k2, k3, g2, g3, g4]
    simp; omega

/-- **C81.** If the sinks of the `NetDeviceQueueInterface` are connected before the first `Send` on a device, then at every
moment the transmission queue is stopped exactly while the queue of the device is full, however often the sinks are
connected again later.  Missing: devices without the interface, for which it is false. -/
theorem C81_stopped_iff_full_partial {E : Env} {h0 h : FSys} {pre rest : List FOp} {d : DevId} (hi : FInitial h0)
    (hpre : sends d pre = 0) (hcap : 0 < (h0.sys.dev d).cap) (hrun : execF E h0 (pre ++ .connect d :: rest) = .ok h) :
    h.stopped d = true ↔ (h.sys.dev d).queue.length = (h0.sys.dev d).cap := by
  obtain ⟨hx, _, hinv⟩ := connected_exact hi hpre hcap hrun
  have hc : (h.sys.dev d).cap = (h0.sys.dev d).cap := by
    have hn := execF_net hrun
    exact exec_induct (P := fun s => (s.dev d).cap = (h0.sys.dev d).cap)
      (fun s s' op hP hs => (cap_step hs d).trans hP) rfl hn
  have := (hinv.dev d).cap
  unfold Exact at hx
  rw [hx, hc]
  rw [hc] at this
  omega

theorem sends_snoc (d : DevId) (a : List FOp) (o : FOp) : sends d (a ++ [o]) = sends d a + if isSend d o then 1 else 0 := by
  unfold sends
  rw [List.countP_append, List.countP_singleton]

/-- **C81.** A layer above that calls `Send` only while the link is up and the transmission queue is not stopped never has a
packet refused: as many packets are accepted as are sent.  Missing: devices without the interface, for which it is false. -/
theorem C81_obedient_sender_never_refused_partial {E : Env} {h0 h : FSys} {pre rest : List FOp} {d : DevId} (hi : FInitial h0)
    (hpre : sends d pre = 0) (hcap : 0 < (h0.sys.dev d).cap) (hrun : execF E h0 (pre ++ .connect d :: rest) = .ok h)
    (hob : Obeys E h0 d (pre ++ .connect d :: rest)) : (accepted d h.sys.log).length = sends d rest := by
  -- over the prefixes of the history
  have key : ∀ (b a : List FOp) (h1 : FSys), rest = a ++ b → execF E h0 (pre ++ .connect d :: a) = .ok h1 →
      (accepted d h1.sys.log).length = sends d a → ∀ h, execF E h1 b = .ok h → (accepted d h.sys.log).length = sends d (a ++ b) := by
    intro b
    induction b with
    | nil => intro a h1 _ _ hacc h hh; injection hh with hh; subst hh; simpa using hacc
    | cons o b ih =>
      intro a h1 hr h1e hacc h hh
      simp only [execF] at hh
      rw [Outcome.bind_eq_ok] at hh
      obtain ⟨h2, ho, hh⟩ := hh
      obtain ⟨hx, _, hinv⟩ := connected_exact hi hpre hcap h1e
      have h2e : execF E h0 (pre ++ .connect d :: (a ++ [o])) = .ok h2 := by
        rw [show pre ++ .connect d :: (a ++ [o]) = (pre ++ .connect d :: a) ++ [o] by simp, execF_append, h1e]
        show execF E h1 [o] = _
        simp only [execF]
        rw [ho]; rfl
      rw [show a ++ o :: b = (a ++ [o]) ++ b by simp]
      refine ih (a ++ [o]) h2 (by rw [hr]; simp) h2e ?_ h hh
      rw [sends_snoc]
      cases hsend : isSend d o with
      | true =>
        obtain ⟨hst, hl⟩ := hob (pre ++ .connect d :: a) o b h1 (by rw [hr]; simp) hsend h1e
        match o, hsend with
        | .op (.send x p dest proto), hsend =>
          have hxd : x = d := by simpa [isSend] using hsend
          subst hxd
          obtain ⟨hstep, _⟩ := stepF_op ho
          obtain ⟨r, after, new, hlog, hr, _⟩ := C06_send_accepted_iff hstep
          have hroom : (h1.sys.dev x).queue.length < (h1.sys.dev x).cap := by
            by_contra hc
            have := hx.mpr (by omega)
            rw [hst] at this; cases this
          have hrt : r = true := hr.mpr ⟨hl, hroom⟩
          subst hrt
          have hgrow : ∃ l, accepted x h2.sys.log = accepted x h1.sys.log ++ l ++ [after] := by
            rw [hlog]
            refine ⟨accepted x new, ?_⟩
            unfold accepted
            rw [proj_append, proj_append]
            congr 1
            simp [proj, acceptedEv]
          obtain ⟨l, hl⟩ := hgrow
          have hone : ∃ acc, accepted x h2.sys.log = accepted x h1.sys.log ++ acc ∧ acc.length ≤ 1 := by
            cases devStep_step hinv.dev hstep x with
            | keep acc _ _ _ hacc _ hl =>
              refine ⟨acc, hl.acc, ?_⟩
              rcases hacc with rfl | ⟨_, _, f, rfl, _⟩ <;> simp
            | start f dest _ _ _ _ _ _ hl => exact ⟨_, hl.acc, by simp⟩
            | stop f dest _ _ _ _ _ _ hl => exact ⟨_, hl.acc, by simp⟩
            | next f g dest rest _ _ _ _ _ _ _ _ hl => exact ⟨_, hl.acc, by simp⟩
          obtain ⟨acc, ha, hlen⟩ := hone
          have hl1 : (accepted x h2.sys.log).length = (accepted x h1.sys.log).length + acc.length := by rw [ha]; simp
          have h2' : (accepted x h2.sys.log).length = (accepted x h1.sys.log).length + l.length + 1 := by rw [hl]; simp; omega
          simp only [if_true]
          omega
      | false =>
        rw [if_neg (by simp), Nat.add_zero, ← hacc]
        cases o with
        | op o =>
          have hne : ∀ p dest proto, o ≠ .send d p dest proto := by intro p dest proto hh; subst hh; simp [isSend] at hsend
          rw [accepted_other hinv hne (stepF_op ho).1]
        | _ => rw [(stepF_other ho (by intro op hh; cases hh)).1]
  obtain ⟨h1, hs1, hs2⟩ := execF_split (a := pre ++ [.connect d]) (b := rest) (by simpa using hrun)
  have hempty : ∀ (ops : List FOp) (h h' : FSys), Inv h.sys → sends d ops = 0 → execF E h ops = .ok h' →
      accepted d h'.sys.log = accepted d h.sys.log := by
    intro ops
    induction ops with
    | nil => intro h h' _ _ hs; injection hs with hs; subst hs; rfl
    | cons o ops ih =>
      intro h h' hinv hn hs
      simp only [execF] at hs
      rw [Outcome.bind_eq_ok] at hs
      obtain ⟨h1, hs1, hs2⟩ := hs
      unfold sends at hn
      rw [List.countP_cons] at hn
      have hn1 : isSend d o = false := by
        cases hb : isSend d o
        · rfl
        · rw [hb] at hn; simp at hn
      rw [ih h1 h' (invF_step hinv hs1) (by unfold sends; omega) hs2]
      cases o with
      | op o => exact accepted_other hinv (by intro p dest proto hh; subst hh; simp [isSend] at hn1) (stepF_op hs1).1
      | _ => rw [(stepF_other hs1 (by intro op hh; cases hh)).1]
  have h0' := hempty _ _ _ (inv_initial hi.sys) (by rw [sends_snoc, hpre]; rfl) hs1
  have := key rest [] h1 rfl hs1 (by rw [h0', hi.sys.log]; rfl) h hs2
  simpa using this

/-- **C81.** A stopped queue is woken: the device is busy, and the completion of its current transmission clears the flag.  Missing: as before. -/
theorem C81_completion_wakes_partial {E : Env} {h0 h h' : FSys} {pre rest : List FOp} {d : DevId} (hi : FInitial h0)
    (hpre : sends d pre = 0) (hcap : 0 < (h0.sys.dev d).cap) (hrun : execF E h0 (pre ++ .connect d :: rest) = .ok h)
    (hst : h.stopped d = true) :
    (h.sys.dev d).busy = true ∧ (∃ t dest, txc d h.sys.pending = [(t, dest)]) ∧
      (∀ p ps dest, h.sys.pending = p :: ps → p.act = .txComplete d dest → stepF E h (.op .run) = .ok h' →
        h'.stopped d = false) := by
  obtain ⟨hx, hc, hinv⟩ := connected_exact hi hpre hcap hrun
  have hfull := (C81_stopped_iff_full_partial hi hpre hcap hrun).mp hst
  have hb : (h.sys.dev d).busy = true := by
    by_contra hb
    have := ((hinv.dev d).ready (by simpa using hb)).2.1
    rw [this] at hfull
    simp at hfull; omega
  obtain ⟨f, t, dest, hcur, ht⟩ := (hinv.dev d).busy hb
  refine ⟨hb, ⟨t, dest, ht⟩, ?_⟩
  intro p ps dest' hp hact hs
  have hx' := exact_op hinv hc hx hs
  obtain ⟨hstep, _⟩ := stepF_op hs
  unfold Exact at hx'
  rw [cap_step hstep d] at hx'
  have hcap' := (hinv.dev d).cap
  have hq : queueEvents E h.sys .run = (h.sys.dev d).queue.head?.toList.map (QEv.dequeue d) := by
    simp [queueEvents, hp, hact]
  have hlen : (h'.sys.dev d).queue.length < (h.sys.dev d).queue.length := by
    cases hqq : (h.sys.dev d).queue with
    | nil => rw [hqq] at hfull; simp at hfull; omega
    | cons g q =>
      rw [hqq] at hq
      simp only [List.head?_cons, Option.toList_some, List.map_cons, List.map_nil] at hq
      rcases queueEvents_cases hinv hstep with ⟨he, _⟩ | ⟨x, _, hcase⟩
      · rw [hq] at he; cases he
      · rcases hcase with ⟨f, he, _⟩ | ⟨f, he, _⟩ | ⟨f, he, _⟩ | ⟨f, he, h2⟩
        · rw [hq] at he; cases he
        · rw [hq] at he; cases he
        · rw [hq] at he; cases he
        · rw [hq] at he
          injection he with he
          injection he with he1 he2
          subst he1
          rw [hqq] at h2
          rw [h2]; simp
  cases hb' : h'.stopped d
  · rfl
  · have := hx'.mp hb'
    omega

/-- Without connected sinks, as after `IslHelper::Install`, the queue is never stopped, also not while packets are refused. -/
theorem C81_unconnected_never_stops {E : Env} {h0 h : FSys} {ops : List FOp} {d : DevId} (hi : FInitial h0)
    (hno : .connect d ∉ ops) (hna : .aggregate d ∉ ops) (hrun : execF E h0 ops = .ok h) : h.stopped d = false := by
  have key : ∀ (ops : List FOp) (h0 h : FSys), .connect d ∉ ops → .aggregate d ∉ ops → h0.conns d = 0 →
      h0.aggregated d = false → h0.stopped d = false → execF E h0 ops = .ok h → h.stopped d = false := by
    intro ops
    induction ops with
    | nil => intro h0 h _ _ _ _ hs hh; injection hh with hh; subst hh; exact hs
    | cons o ops ih =>
      intro h0 h hno hna hc ha hst hh
      simp only [execF] at hh
      rw [Outcome.bind_eq_ok] at hh
      obtain ⟨h1, hs1, hh⟩ := hh
      have hno' : .connect d ∉ ops := fun hx => hno (by simp [hx])
      have hna' : .aggregate d ∉ ops := fun hx => hna (by simp [hx])
      cases o with
      | connect x =>
        have hx : d ≠ x := fun hx => hno (by simp [hx])
        refine ih h1 h hno' hna' ?_ ?_ ?_ hh <;>
        · simp only [stepF] at hs1
          split at hs1
          · cases hs1
          · injection hs1 with hs1; subst hs1
            simpa [hx]
      | aggregate x =>
        have hx : d ≠ x := fun hx => hna (by simp [hx])
        refine ih h1 h hno' hna' ?_ ?_ ?_ hh <;>
        · injection hs1 with hs1; subst hs1
          simpa [hx]
      | init x =>
        refine ih h1 h hno' hna' ?_ ?_ ?_ hh <;>
        · simp only [stepF] at hs1
          split at hs1
          · injection hs1 with hs1; subst hs1
            assumption
          · split at hs1
            · rename_i hagg
              have hx : d ≠ x := fun hx => by rw [← hx, ha] at hagg; cases hagg
              split at hs1
              · cases hs1
              · injection hs1 with hs1; subst hs1
                simpa [hx]
            · injection hs1 with hs1; subst hs1
              assumption
      | op o =>
        obtain ⟨c1, c2, _⟩ := op_conns hs1
        refine ih h1 h hno' hna' (by rw [c1]; exact hc) (by rw [c2]; exact ha) ?_ hh
        obtain ⟨_, h2⟩ := stepF_op hs1
        rw [h2]
        exact (reports_unconnected hc _ _).trans hst
  exact key ops h0 h hno hna (hi.conns d) (hi.aggregated d) (hi.stopped d) hrun

theorem init_conns {E : Env} {h h' : FSys} {o : FOp} {d : DevId} (hs : stepF E h o = .ok h') (h1 : o ≠ .connect d)
    (h2 : o ≠ .init d) : h'.conns d = h.conns d := by
  cases o with
  | op o => rw [(op_conns hs).1]
  | connect x =>
    have hx : d ≠ x := fun hx => h1 (by rw [hx])
    simp only [stepF] at hs
    split at hs
    · cases hs
    · injection hs with hs; subst hs; simp [hx]
  | aggregate x => injection hs with hs; subst hs; rfl
  | init x =>
    have hx : d ≠ x := fun hx => h2 (by rw [hx])
    simp only [stepF] at hs
    split at hs
    · injection hs with hs; subst hs; rfl
    · split at hs
      · split at hs
        · cases hs
        · injection hs with hs; subst hs; simp [hx]
      · injection hs with hs; subst hs; rfl

/-- **C81.** If a device is connected and initialized before the first `Send` on it, the bytes reported as queued exceed those
reported as transmitted by the bytes in the queue, counted once for each connection. -/
theorem C81_bytes_per_connection {E : Env} {h0 h1 h : FSys} {pre rest : List FOp} {d : DevId} (hi : FInitial h0)
    (hpre : sends d pre = 0) (hc : .connect d ∉ rest) (hn : .init d ∉ rest)
    (hrun1 : execF E h0 pre = .ok h1) (hrun2 : execF E h1 rest = .ok h) :
    h.bytesIn d = h.bytesOut d + h1.conns d * queuedBytes (h.sys.dev d).queue := by
  have key1 : ∀ (ops : List FOp) (h0 h : FSys), Inv h0.sys → sends d ops = 0 → (h0.sys.dev d).queue = [] →
      h0.bytesIn d = h0.bytesOut d → execF E h0 ops = .ok h → h.bytesIn d = h.bytesOut d ∧ (h.sys.dev d).queue = [] := by
    intro ops
    induction ops with
    | nil => intro h0 h _ _ hq hb hh; injection hh with hh; subst hh; exact ⟨hb, hq⟩
    | cons o ops ih =>
      intro h0 h hinv hn hq hb hh
      simp only [execF] at hh
      rw [Outcome.bind_eq_ok] at hh
      obtain ⟨h2, hs1, hh⟩ := hh
      unfold sends at hn
      rw [List.countP_cons] at hn
      have hn1 : isSend d o = false := by
        cases hb : isSend d o
        · rfl
        · rw [hb] at hn; simp at hn
      suffices hk : (h2.sys.dev d).queue = [] ∧ h2.bytesIn d = h2.bytesOut d from
        ih h2 h (invF_step hinv hs1) (by unfold sends; omega) hk.1 hk.2 hh
      cases o with
      | op o =>
        have hne : ∀ p dest proto, o ≠ .send d p dest proto := by intro p dest proto hh; subst hh; simp [isSend] at hn1
        have hq2 := unused_op hinv hne hq (stepF_op hs1).1
        have hbal := balanced_op (d := d) hinv (by unfold Balanced; rw [hq, hb]; simp [queuedBytes]) hs1
        unfold Balanced at hbal
        rw [hq2] at hbal
        exact ⟨hq2, by simpa [queuedBytes] using hbal⟩
      | _ =>
        obtain ⟨g1, _, g3, g4, _⟩ := stepF_other hs1 (by intro op hh; cases hh)
        rw [g1, g3, g4]
        exact ⟨hq, hb⟩
  obtain ⟨hb1, hq1⟩ := key1 pre h0 h1 (inv_initial hi.sys) hpre (hi.sys.idle d).2.2.1 (by rw [(hi.bytes d).1, (hi.bytes d).2]) hrun1
  have key2 : ∀ (ops : List FOp) (h1 h : FSys), Inv h1.sys → .connect d ∉ ops → .init d ∉ ops → Balanced h1 d →
      execF E h1 ops = .ok h → Balanced h d ∧ h.conns d = h1.conns d := by
    intro ops
    induction ops with
    | nil => intro h1 h _ _ _ hb hh; injection hh with hh; subst hh; exact ⟨hb, rfl⟩
    | cons o ops ih =>
      intro h1 h hinv hc hn hb hh
      simp only [execF] at hh
      rw [Outcome.bind_eq_ok] at hh
      obtain ⟨h2, hs1, hh⟩ := hh
      have hcons := init_conns hs1 (fun hx => hc (by rw [hx]; exact List.mem_cons_self)) (fun hx => hn (by rw [hx]; exact List.mem_cons_self))
      have hb2 : Balanced h2 d := by
        cases o with
        | op o => exact balanced_op hinv hb hs1
        | _ =>
          obtain ⟨g1, _, g3, g4, _⟩ := stepF_other hs1 (by intro op hh; cases hh)
          unfold Balanced at hb ⊢
          rw [g1, g3, g4, hcons]
          exact hb
      obtain ⟨r1, r2⟩ := ih h2 h (invF_step hinv hs1) (fun hx => hc (by simp [hx])) (fun hx => hn (by simp [hx])) hb2 hh
      exact ⟨r1, r2.trans hcons⟩
  obtain ⟨r1, r2⟩ := key2 rest h1 h (inv_exec (inv_initial hi.sys) (execF_net hrun1)) hc hn
    (by unfold Balanced; rw [hq1, hb1]; simp [queuedBytes]) hrun2
  unfold Balanced at r1
  rw [r2] at r1
  exact r1

/-- A device installed by `LeoChannelHelper` and then initialized is connected twice: its bytes are counted twice. -/
theorem C81_helper_connects_twice {E : Env} {h0 h : FSys} {d : DevId} {c : ChanId} (hi : FInitial h0)
    (hrun : execF E h0 (flowInstall d c ++ [.init d]) = .ok h) : h.conns d = 2 := by
  unfold flowInstall at hrun
  simp only [List.cons_append, List.nil_append, execF] at hrun
  rw [Outcome.bind_eq_ok] at hrun
  obtain ⟨h1, s1, hrun⟩ := hrun
  rw [Outcome.bind_eq_ok] at hrun
  obtain ⟨h2, s2, hrun⟩ := hrun
  rw [Outcome.bind_eq_ok] at hrun
  obtain ⟨h3, s3, hrun⟩ := hrun
  rw [Outcome.bind_eq_ok] at hrun
  obtain ⟨h4, s4, hrun⟩ := hrun
  injection hrun with hrun
  subst hrun
  obtain ⟨c3, a3, i3⟩ := op_conns s3
  have c1 : h1.conns d = 1 ∧ h1.initialized d = false := by
    simp only [stepF] at s1
    split at s1
    · cases s1
    · injection s1 with s1; subst s1; simp [hi.conns d, hi.initialized d]
  have c2 : h2.conns d = 1 ∧ h2.initialized d = false ∧ h2.aggregated d = true := by
    injection s2 with s2; subst s2; simp [c1]
  simp only [stepF] at s4
  rw [i3, a3, c2.2.1, c2.2.2] at s4
  simp only [Bool.false_eq_true, if_false, if_true] at s4
  split at s4
  · cases s4
  · injection s4 with s4; subst s4
    simp [c3, c2.1]

/-! ### Concrete cases -/

namespace Demo

/-- The demo network without connections. -/
def fsys : FSys := ⟨sys, fun _ => false, fun _ => false, fun _ => 0, fun _ => false, fun _ => 0, fun _ => 0⟩

theorem fsys_initial : FInitial fsys := ⟨sys_initial, fun _ => rfl, fun _ => rfl, fun _ => rfl, fun _ => rfl, fun _ => ⟨rfl, rfl⟩⟩

/-- Does a history end without fault in a state with the given property? -/
def checkF (h : FSys) (ops : List FOp) (test : FSys → Bool) : Bool :=
  match execF env h ops with
  | .ok h' => test h'
  | .fail _ => false

theorem exists_of_checkF {h : FSys} {ops : List FOp} {test : FSys → Bool} (hc : checkF h ops test = true) :
    ∃ h', execF env h ops = .ok h' ∧ test h' = true := by
  unfold checkF at hc
  split at hc
  · rename_i h' he; exact ⟨h', he, hc⟩
  · cases hc

/-- `Send` on device 0. -/
def fsend (x : UInt8) : FOp := .op (.send 0 [x] (.mac (mac 2)) 2048)

end Demo

/-- Capacity 2: stopped by the third packet, woken by the completion of the first. -/
example : Demo.checkF Demo.fsys (flowInstall 0 0 ++ [.init 0, Demo.fsend 1, Demo.fsend 2]) (fun h => !h.stopped 0) = true := by
  decide +kernel
example : Demo.checkF Demo.fsys (flowInstall 0 0 ++ [.init 0, Demo.fsend 1, Demo.fsend 2, Demo.fsend 3])
    (fun h => h.stopped 0 && (h.sys.dev 0).queue.length == 2) = true := by decide +kernel
example : Demo.checkF Demo.fsys (flowInstall 0 0 ++ [.init 0, Demo.fsend 1, Demo.fsend 2, Demo.fsend 3, .op .run])
    (fun h => !h.stopped 0 && (h.sys.dev 0).busy && (h.sys.dev 0).queue.length == 1) = true := by decide +kernel

/-- The histories of the theorems: `flowInstall` begins with the connection, nothing is sent before. -/
example : ∃ rest, flowInstall 0 0 = [] ++ .connect 0 :: rest ∧ sends 0 [] = 0 ∧ 0 < (Demo.fsys.sys.dev 0).cap :=
  ⟨_, rfl, rfl, by decide⟩

/-- Evaluation of `Obeys`. -/
def Demo.obeys (d : DevId) : FSys → List FOp → Bool
  | _, [] => true
  | h, o :: ops => (!isSend d o || (!h.stopped d && (h.sys.dev d).linkUp)) &&
    match stepF Demo.env h o with
    | .ok h' => Demo.obeys d h' ops
    | .fail _ => true

theorem Demo.obeys_sound {d : DevId} {h0 : FSys} {ops : List FOp} (hc : Demo.obeys d h0 ops = true) :
    Obeys Demo.env h0 d ops := by
  intro a
  induction a generalizing h0 ops with
  | nil =>
    intro o b h hs hsend hx
    injection hx with hx; subst hx; subst hs
    simp only [List.nil_append, Demo.obeys, hsend, Bool.and_eq_true] at hc
    simpa using hc.1
  | cons o' a ih =>
    intro o b h hs hsend hx
    subst hs
    simp only [List.cons_append, Demo.obeys, Bool.and_eq_true] at hc
    simp only [execF] at hx
    rw [Outcome.bind_eq_ok] at hx
    obtain ⟨h1, hs1, hx⟩ := hx
    have hc2 := hc.2
    rw [hs1] at hc2
    exact ih hc2 o b h rfl hsend hx

/-- An obedient sender: three packets while the flag is off. -/
example : Obeys Demo.env Demo.fsys 0 (flowInstall 0 0 ++ [Demo.fsend 1, Demo.fsend 2, Demo.fsend 3]) :=
  Demo.obeys_sound (by decide +kernel)

/-- Byte counts of a device connected twice: one packet waits, its 64 bytes are outstanding twice. -/
example : Demo.checkF Demo.fsys (flowInstall 0 0 ++ [.init 0, Demo.fsend 1, Demo.fsend 2])
    (fun h => queuedBytes (h.sys.dev 0).queue != 0 &&
      decide (h.bytesIn 0 = h.bytesOut 0 + 2 * queuedBytes (h.sys.dev 0).queue)) = true := by decide +kernel

/-- C81 is false in general: a device without an interface, as installed by `IslHelper`, refuses a packet while its queue is not stopped. -/
theorem C81_refused_while_not_stopped : ∃ h0 ops h h' p dest proto f, FInitial h0 ∧ execF Demo.env h0 ops = .ok h ∧
    .connect 0 ∉ ops ∧ .aggregate 0 ∉ ops ∧ (h.sys.dev 0).linkUp = true ∧ h.stopped 0 = false ∧
    stepF Demo.env h (.op (.send 0 p dest proto)) = .ok h' ∧ h'.stopped 0 = false ∧
    (h'.sys.now, Ev.sendRet 0 p dest proto false f) ∈ h'.sys.log := by
  obtain ⟨h, hx, ht⟩ := Demo.exists_of_checkF (h := Demo.fsys)
    (ops := [.op (.attach 0 1), .op (.attach 2 1), .init 0, Demo.fsend 1, Demo.fsend 2, Demo.fsend 3])
    (test := fun h => (h.sys.dev 0).linkUp && !h.stopped 0 && Demo.checkF h [Demo.fsend 4] (fun h' => !h'.stopped 0 &&
      h'.sys.log.any (fun e => match e.2 with
        | .sendRet d p dest proto r _ => decide (e.1 = h'.sys.now ∧ d = 0 ∧ p = [4] ∧ dest = .mac (Demo.mac 2) ∧ proto = 2048 ∧ r = false)
        | _ => false)))
    (by decide +kernel)
  simp only [Bool.and_eq_true, Bool.not_eq_true'] at ht
  obtain ⟨⟨hl, hst⟩, hc⟩ := ht
  obtain ⟨h', hx', ht'⟩ := Demo.exists_of_checkF hc
  simp only [Bool.and_eq_true, Bool.not_eq_true', List.any_eq_true] at ht'
  obtain ⟨hst', ⟨t, e⟩, hmem, he⟩ := ht'
  cases e with
  | sendRet d p dest proto r f =>
    simp only [decide_eq_true_eq] at he
    obtain ⟨rfl, rfl, rfl, rfl, rfl, rfl⟩ := he
    refine ⟨Demo.fsys, _, h, h', _, _, _, f, Demo.fsys_initial, hx, by simp [Demo.fsend], by simp [Demo.fsend], hl, hst, ?_, hst', hmem⟩
    simp only [execF, Demo.fsend] at hx'
    rw [Outcome.bind_eq_ok] at hx'
    obtain ⟨h1, h2, h3⟩ := hx'
    injection h3 with h3; subst h3
    exact h2
  | _ => simp at he

end Verif
