import Verif.Model.Helper
import Verif.Lemmas.Index
import Verif.Lemmas.NetStep
/-! # Lemmas on factories and installation -/

namespace Verif

theorem Mac48.toNat_ofNat {n : Nat} (h : n < 2 ^ 48) : (Mac48.ofNat n).toNat = n := by
  simp only [Mac48.ofNat, Mac48.toNat, UInt8.toNat_ofNat']
  omega

theorem Mac48.ofNat_inj {m n : Nat} (hm : m < 2 ^ 48) (hn : n < 2 ^ 48) (h : Mac48.ofNat m = Mac48.ofNat n) : m = n := by
  rw [← Mac48.toNat_ofNat hm, ← Mac48.toNat_ofNat hn, h]

/-- The parts of a device no attribute touches. -/
theorem create_fixed (f : DevFactory) :
    f.create.leo = f.leo ∧ f.create.linkUp = false ∧ f.create.busy = false ∧ f.create.cur = none ∧
    f.create.chan = none ∧ f.create.promiscCb = false := by
  unfold DevFactory.create
  have key : ∀ (l : List DevAttr) (v : Dev),
      (l.foldl DevAttr.apply v).leo = v.leo ∧ (l.foldl DevAttr.apply v).linkUp = v.linkUp ∧
      (l.foldl DevAttr.apply v).busy = v.busy ∧ (l.foldl DevAttr.apply v).cur = v.cur ∧
      (l.foldl DevAttr.apply v).chan = v.chan ∧ (l.foldl DevAttr.apply v).promiscCb = v.promiscCb := by
    intro l
    induction l with
    | nil => intro v; simp
    | cons a l ih =>
      intro v
      rw [List.foldl_cons]
      have := ih (DevAttr.apply v a)
      cases a <;> simpa [DevAttr.apply] using this
  simpa [Dev.blank] using key f.params (Dev.blank f.leo)

/-- A device as the installation leaves it. -/
def installed (f : DevFactory) (qf : QueueFactory) (n : NodeId) (a : Mac48) (c : ChanId) (slot : Nat) : Dev :=
  { f.create with
    addr := a, node := some n, rxCb := true, hasQueue := true, queue := [], cap := qf.create.cap, chan := some c,
    chanSlot := slot, linkUp := true }

/-- One index of the channel after one more attachment. -/
def indexAdd (s : Side) (f : DevFactory) (k : ChanKind) (a : Mac48) (d : DevId) (m : List (Mac48 × DevId)) :
    List (Mac48 × DevId) :=
  if k = .leo ∧ f.create.side = s then mapInsert a d m else m

theorem installOne_eq {f : DevFactory} {qf : QueueFactory} {c : ChanId} {n : NodeId} {b : Build}
    (hk : (b.sys.chan c).kind = .isl ∨ f.leo = true) :
    Build.installOne f qf c n b = .ok ({ b with
      sys := { b.sys with
        dev := fun x => if x = b.nextDev then
            installed f qf n (Mac48.ofNat (b.lastMac + 1)) c (b.sys.chan c).link.length else b.sys.dev x
        chan := fun x => if x = c then { b.sys.chan c with
            link := (b.sys.chan c).link ++ [b.nextDev]
            gnd := indexAdd .gnd f (b.sys.chan c).kind (Mac48.ofNat (b.lastMac + 1)) b.nextDev (b.sys.chan c).gnd
            sat := indexAdd .sat f (b.sys.chan c).kind (Mac48.ofNat (b.lastMac + 1)) b.nextDev (b.sys.chan c).sat }
          else b.sys.chan x
        log := b.sys.log ++ [(b.sys.now, .linkChange b.nextDev),
          (b.sys.now, .attachRet b.nextDev c (b.sys.chan c).link.length)] }
      nextDev := b.nextDev + 1, lastMac := b.lastMac + 1
      nodeDevs := fun x => if x = n then b.nodeDevs n ++ [b.nextDev] else b.nodeDevs x
      ifIndex := fun x => if x = b.nextDev then (b.nodeDevs n).length else b.ifIndex x
      queueOf := fun x => if x = b.nextDev then some qf.create else b.queueOf x }, b.nextDev) := by
  have hl := (create_fixed f).1
  unfold Build.installOne
  simp only [attach, Sys.setDev, Sys.setChan, Sys.emit, indexAdd, installed]
  rcases hc : b.sys.chan c with ⟨k, l, g, t⟩
  rw [hc] at hk
  cases k with
  | isl => simp; funext x; split <;> simp_all
  | leo =>
    have hf : f.leo = true := by simpa using hk
    rw [hf] at hl
    cases hs : f.create.side <;> (simp [hl]; funext x; split <;> simp_all)

theorem mapInsert_last {a : Mac48} {d : DevId} {m : List (Mac48 × DevId)} (h : ∀ p ∈ m, p.1.toNat < a.toNat) :
    mapInsert a d m = m ++ [(a, d)] := by
  induction m with
  | nil => rfl
  | cons p m ih =>
    obtain ⟨k, e⟩ := p
    have hk : k.toNat < a.toNat := h (k, e) (by simp)
    have h1 : a ≠ k := by rintro rfl; omega
    have h2 : ¬ a.toNat < k.toNat := by omega
    simp only [mapInsert, if_neg h1, if_neg h2, List.cons_append]
    rw [ih fun p hp => h p (by simp [hp])]

/-- The entries `k` successive installations add to an index: the next addresses and devices. -/
def newEntries (mac dev k : Nat) : List (Mac48 × DevId) :=
  (List.range k).map fun i => (Mac48.ofNat (mac + i + 1), dev + i)

theorem newEntries_succ (mac dev k : Nat) :
    newEntries mac dev (k + 1) = (Mac48.ofNat (mac + 1), dev) :: newEntries (mac + 1) (dev + 1) k := by
  simp only [newEntries, List.range_succ_eq_map, List.map_cons, List.map_map, Nat.add_zero]
  congr 1
  apply List.map_congr_left
  intro i _
  simp only [Function.comp_apply, Nat.succ_eq_add_one, Prod.mk.injEq]
  constructor
  · congr 1; omega
  · exact (show (dev + (i + 1) : Nat) = dev + 1 + i by omega)

/-- Addresses in the indices of a channel were given out before. -/
def IdxLe (ch : Chan) (k : Nat) : Prop := (∀ p ∈ ch.gnd, p.1.toNat ≤ k) ∧ ∀ p ∈ ch.sat, p.1.toNat ≤ k

/-- What an installation loop does. -/
structure Installed (f : DevFactory) (qf : QueueFactory) (c : ChanId) (ns : List NodeId) (b b' : Build) : Prop where
  nextDev : b'.nextDev = b.nextDev + ns.length
  nextChan : b'.nextChan = b.nextChan
  lastMac : b'.lastMac = b.lastMac + ns.length
  lossOf : b'.lossOf = b.lossOf
  delayOf : b'.delayOf = b.delayOf
  now : b'.sys.now = b.sys.now
  pending : b'.sys.pending = b.sys.pending
  new : ∀ (i : Nat) (n : NodeId), ns[i]? = some n →
    b'.sys.dev (b.nextDev + i) =
      installed f qf n (Mac48.ofNat (b.lastMac + i + 1)) c ((b.sys.chan c).link.length + i) ∧
    b'.ifIndex (b.nextDev + i) = (b.nodeDevs n).length + (ns.take i).count n ∧
    b'.queueOf (b.nextDev + i) = some qf.create
  old : ∀ d : Nat, d < b.nextDev ∨ b.nextDev + ns.length ≤ d →
    b'.sys.dev d = b.sys.dev d ∧ b'.ifIndex d = b.ifIndex d ∧ b'.queueOf d = b.queueOf d
  chan : b'.sys.chan c = { b.sys.chan c with
    link := (b.sys.chan c).link ++ List.range' b.nextDev ns.length
    gnd := (b.sys.chan c).gnd ++ if (b.sys.chan c).kind = .leo ∧ f.create.side = .gnd then
      newEntries b.lastMac b.nextDev ns.length else []
    sat := (b.sys.chan c).sat ++ if (b.sys.chan c).kind = .leo ∧ f.create.side = .sat then
      newEntries b.lastMac b.nextDev ns.length else [] }
  otherChan : ∀ x, x ≠ c → b'.sys.chan x = b.sys.chan x
  nodeDevs : ∀ n, (b'.nodeDevs n).length = (b.nodeDevs n).length + ns.count n

theorem indexAdd_eq {s : Side} {f : DevFactory} {k : ChanKind} {a : Mac48} {d : DevId} {m : List (Mac48 × DevId)}
    (h : ∀ p ∈ m, p.1.toNat < a.toNat) :
    indexAdd s f k a d m = m ++ if k = .leo ∧ f.create.side = s then [(a, d)] else [] := by
  unfold indexAdd
  split
  · exact mapInsert_last h
  · simp

theorem ok_split {α β : Type} {x : Outcome (α × β)} {a : α} {d : β} (h : x = .ok (a, d)) :
    ∃ a', x = .ok (a', d) ∧ a' = a := ⟨a, h, rfl⟩

theorem installAll_eq {f : DevFactory} {qf : QueueFactory} {c : ChanId} {ns : List NodeId} {b : Build}
    (hk : (b.sys.chan c).kind = .isl ∨ f.leo = true) (hm : b.lastMac + ns.length < 2 ^ 48)
    (hi : IdxLe (b.sys.chan c) b.lastMac) :
    ∃ b', Build.installAll f qf c ns b = .ok (b', List.range' b.nextDev ns.length) ∧ Installed f qf c ns b b' := by
  induction ns generalizing b with
  | nil =>
    refine ⟨b, rfl, ?_⟩
    constructor <;> simp [newEntries]
  | cons n ns ih =>
    simp only [List.length_cons] at hm
    have hlt : ∀ p : Mac48 × DevId, p.1.toNat ≤ b.lastMac → p.1.toNat < (Mac48.ofNat (b.lastMac + 1)).toNat := by
      intro p hp
      rw [Mac48.toNat_ofNat (by omega)]
      omega
    have hone := installOne_eq (f := f) (qf := qf) (n := n) hk
    rw [indexAdd_eq (fun p hp => hlt p (hi.1 p hp)), indexAdd_eq (fun p hp => hlt p (hi.2 p hp))] at hone
    obtain ⟨b1, hone, hb1⟩ := ok_split hone
    have hchan : b1.sys.chan c = { b.sys.chan c with
        link := (b.sys.chan c).link ++ [b.nextDev]
        gnd := (b.sys.chan c).gnd ++ if (b.sys.chan c).kind = .leo ∧ f.create.side = .gnd then
          [(Mac48.ofNat (b.lastMac + 1), b.nextDev)] else []
        sat := (b.sys.chan c).sat ++ if (b.sys.chan c).kind = .leo ∧ f.create.side = .sat then
          [(Mac48.ofNat (b.lastMac + 1), b.nextDev)] else [] } := by
      rw [hb1]; simp
    have hmac : b1.lastMac = b.lastMac + 1 := by rw [hb1]
    have hdev : b1.nextDev = b.nextDev + 1 := by rw [hb1]
    obtain ⟨b', he, hs⟩ := ih (b := b1) (by rw [hchan]; exact hk) (by rw [hmac]; omega) (by
      rw [hchan, hmac]
      constructor <;>
      · intro p hp
        rcases List.mem_append.mp hp with hp | hp
        · first | exact Nat.le_succ_of_le (hi.1 p hp) | exact Nat.le_succ_of_le (hi.2 p hp)
        · split at hp
          · rw [List.mem_singleton.mp hp, Mac48.toNat_ofNat (by omega)]; exact Nat.le_refl _
          · simp at hp)
    refine ⟨b', ?_, ?_⟩
    · simp only [Build.installAll, hone, he, Outcome.ok_bind, hdev, List.length_cons, List.range'_succ]
    · constructor
      · rw [hs.nextDev, hdev, List.length_cons]; omega
      · rw [hs.nextChan, hb1]
      · rw [hs.lastMac, hmac, List.length_cons]; omega
      · rw [hs.lossOf, hb1]
      · rw [hs.delayOf, hb1]
      · rw [hs.now, hb1]
      · rw [hs.pending, hb1]
      · intro i x hx
        cases i with
        | zero =>
          simp only [List.getElem?_cons_zero, Option.some.injEq] at hx
          subst hx
          have ho := hs.old b.nextDev (by rw [hdev]; omega)
          simp only [Nat.add_zero, List.take_zero, List.count_nil]
          rw [ho.1, ho.2.1, ho.2.2, hb1]
          simp
        | succ i =>
          have hx' : ns[i]? = some x := by simpa using hx
          have h := hs.new i x hx'
          rw [hdev, hmac, hchan] at h
          have e1 : b.nextDev + 1 + i = b.nextDev + (i + 1) := by omega
          have e2 : b.lastMac + 1 + i + 1 = b.lastMac + (i + 1) + 1 := by omega
          have e3 : ((b.sys.chan c).link ++ [b.nextDev]).length + i = (b.sys.chan c).link.length + (i + 1) := by
            simp; omega
          rw [e1, e2] at h
          simp only [e3] at h
          refine ⟨h.1, ?_, h.2.2⟩
          rw [h.2.1, hb1]
          simp only [List.take_succ_cons, List.count_cons]
          by_cases hxn : x = n
          · subst hxn; simp; omega
          · have : (n == x) = false := by simpa using fun h => hxn h.symm
            simp [hxn, this]
      · intro d hd
        have h := hs.old d (by rw [hdev]; simp only [List.length_cons] at hd; omega)
        have hne : d ≠ b.nextDev := by simp only [List.length_cons] at hd; omega
        rw [h.1, h.2.1, h.2.2, hb1]
        simp [hne]
      · rw [hs.chan, hchan, hmac, hdev]
        simp only [List.length_cons, List.range'_succ, List.append_assoc, newEntries_succ, List.singleton_append]
        congr 2 <;> (congr 1; split <;> simp)
      · intro x hx
        rw [hs.otherChan x hx, hb1]
        simp [hx]
      · intro x
        rw [hs.nodeDevs x, hb1]
        simp only [List.count_cons]
        by_cases hxn : x = n
        · subst hxn; simp; omega
        · have : (n == x) = false := by simpa using fun h => hxn h.symm
          simp [hxn, this]

/-- What `Install` of the ground/space helper does. -/
structure LeoInstalled (h : LeoChannelHelper) (sats gnds : List NodeId) (b b' : Build) : Prop where
  nextDev : b'.nextDev = b.nextDev + (sats ++ gnds).length
  nextChan : b'.nextChan = b.nextChan + 1
  lastMac : b'.lastMac = b.lastMac + (sats ++ gnds).length
  loss : b'.lossOf b.nextChan = some (.leo h.loss)
  delay : b'.delayOf b.nextChan = some (.constantSpeed h.speed)
  otherModels : ∀ x, x ≠ b.nextChan → b'.lossOf x = b.lossOf x ∧ b'.delayOf x = b.delayOf x
  now : b'.sys.now = b.sys.now
  pending : b'.sys.pending = b.sys.pending
  new : ∀ (i : Nat) (n : NodeId), (sats ++ gnds)[i]? = some n →
    b'.sys.dev (b.nextDev + i) = installed (if i < sats.length then h.satDev else h.gndDev)
      (if i < sats.length then h.satQueue else h.gndQueue) n (Mac48.ofNat (b.lastMac + i + 1)) b.nextChan i ∧
    b'.ifIndex (b.nextDev + i) = (b.nodeDevs n).length + ((sats ++ gnds).take i).count n ∧
    b'.queueOf (b.nextDev + i) = some (if i < sats.length then h.satQueue else h.gndQueue).create
  old : ∀ d : Nat, d < b.nextDev ∨ b.nextDev + (sats ++ gnds).length ≤ d →
    b'.sys.dev d = b.sys.dev d ∧ b'.ifIndex d = b.ifIndex d ∧ b'.queueOf d = b.queueOf d
  link : (b'.sys.chan b.nextChan).link = List.range' b.nextDev (sats ++ gnds).length
  kind : (b'.sys.chan b.nextChan).kind = .leo
  index : h.satDev.create.side = .sat → h.gndDev.create.side = .gnd →
    (b'.sys.chan b.nextChan).sat = newEntries b.lastMac b.nextDev sats.length ∧
    (b'.sys.chan b.nextChan).gnd = newEntries (b.lastMac + sats.length) (b.nextDev + sats.length) gnds.length
  otherChan : ∀ x, x ≠ b.nextChan → b'.sys.chan x = b.sys.chan x
  nodeDevs : ∀ n, (b'.nodeDevs n).length = (b.nodeDevs n).length + (sats ++ gnds).count n

theorem newEntries_le {mac dev k : Nat} (h : mac + k < 2 ^ 48) : ∀ p ∈ newEntries mac dev k, p.1.toNat ≤ mac + k := by
  intro p hp
  obtain ⟨i, hi, rfl⟩ := List.mem_map.mp hp
  have := List.mem_range.mp hi
  simp only
  rw [Mac48.toNat_ofNat (by omega)]
  omega

theorem leo_install_eq {h : LeoChannelHelper} {sats gnds : List NodeId} {b : Build} (hs : h.satDev.leo = true)
    (hg : h.gndDev.leo = true) (hm : b.lastMac + (sats ++ gnds).length < 2 ^ 48) :
    ∃ b', h.install sats gnds b = .ok (b', List.range' b.nextDev (sats ++ gnds).length) ∧
      LeoInstalled h sats gnds b b' := by
  simp only [List.length_append] at hm
  obtain ⟨b0, hb0⟩ : ∃ b0 : Build, b0 = ((b.newChannel .leo h.chan).setLoss b.nextChan (.leo h.loss)).setDelay b.nextChan
      (.constantSpeed h.speed) := ⟨_, rfl⟩
  have hc0 : b0.sys.chan b.nextChan = ⟨.leo, [], [], []⟩ := by
    rw [hb0]; simp [Build.setDelay, Build.setLoss, Build.newChannel, Sys.setChan]
  have hd0 : b0.nextDev = b.nextDev := by rw [hb0]; rfl
  have hm0 : b0.lastMac = b.lastMac := by rw [hb0]; rfl
  obtain ⟨b1, e1, i1⟩ := installAll_eq (f := h.satDev) (qf := h.satQueue) (c := b.nextChan) (ns := sats) (b := b0)
    (Or.inr hs) (by omega) (by rw [hc0]; simp [IdxLe])
  have hc1 := i1.chan
  rw [hc0, hd0, hm0] at hc1
  simp only [List.nil_append] at hc1
  obtain ⟨b2, e2, i2⟩ := installAll_eq (f := h.gndDev) (qf := h.gndQueue) (c := b.nextChan) (ns := gnds) (b := b1)
    (Or.inr hg) (by rw [i1.lastMac]; omega) (by
      rw [hc1, i1.lastMac, hm0]
      constructor <;>
      · intro p hp
        simp only at hp
        split at hp
        · exact newEntries_le (by omega) p hp
        · simp at hp)
  have hc2 := i2.chan
  rw [hc1, i1.nextDev, i1.lastMac, hd0, hm0] at hc2
  refine ⟨b2, ?_, ?_⟩
  · unfold LeoChannelHelper.install
    simp only
    rw [← hb0, e1]
    simp only [Outcome.ok_bind]
    rw [e2]
    simp only [Outcome.ok_bind]
    rw [i1.nextDev, hd0, List.length_append, ← List.range'_append_1]
  · constructor
    · rw [i2.nextDev, i1.nextDev, hd0, List.length_append]; omega
    · rw [i2.nextChan, i1.nextChan, hb0]; rfl
    · rw [i2.lastMac, i1.lastMac, hm0, List.length_append]; omega
    · rw [i2.lossOf, i1.lossOf, hb0]; simp [Build.setDelay, Build.setLoss]
    · rw [i2.delayOf, i1.delayOf, hb0]; simp [Build.setDelay]
    · intro x hx
      rw [i2.lossOf, i1.lossOf, i2.delayOf, i1.delayOf, hb0]
      simp [Build.setDelay, Build.setLoss, Build.newChannel, hx]
    · rw [i2.now, i1.now, hb0]; rfl
    · rw [i2.pending, i1.pending, hb0]; rfl
    · intro i n hi
      by_cases hlt : i < sats.length
      · have hi' : sats[i]? = some n := by rw [List.getElem?_append_left hlt] at hi; exact hi
        have hn := i1.new i n hi'
        rw [hd0, hm0, hc0] at hn
        have ho := i2.old (b.nextDev + i) (by rw [i1.nextDev, hd0]; omega)
        rw [ho.1, ho.2.1, ho.2.2]
        simp only [if_pos hlt]
        refine ⟨by simpa using hn.1, ?_, hn.2.2⟩
        rw [hn.2.1, hb0, List.take_append_of_le_length (by omega)]
        rfl
      · have hi' : gnds[i - sats.length]? = some n := by rw [List.getElem?_append_right (by omega)] at hi; exact hi
        have hn := i2.new (i - sats.length) n hi'
        have e : b1.nextDev + (i - sats.length) = b.nextDev + i := by rw [i1.nextDev, hd0]; omega
        rw [e, hc1, i1.lastMac, hm0] at hn
        simp only [if_neg hlt]
        have e' : b.lastMac + sats.length + (i - sats.length) + 1 = b.lastMac + i + 1 := by omega
        have e'' : (List.range' b.nextDev sats.length).length + (i - sats.length) = i := by simp; omega
        rw [e'] at hn
        simp only [e''] at hn
        refine ⟨hn.1, ?_, hn.2.2⟩
        rw [hn.2.1, i1.nodeDevs, hb0, List.take_append, List.take_of_length_le (by omega : sats.length ≤ i),
          List.count_append]
        simp only [Build.setDelay, Build.setLoss, Build.newChannel]
        omega
    · intro d hd
      rw [List.length_append] at hd
      have h2 := i2.old d (by rw [i1.nextDev, hd0]; omega)
      have h1 := i1.old d (by rw [hd0]; omega)
      rw [h2.1, h2.2.1, h2.2.2, h1.1, h1.2.1, h1.2.2, hb0]
      exact ⟨rfl, rfl, rfl⟩
    · rw [hc2, List.length_append, ← List.range'_append_1]
    · rw [hc2]
    · intro s1 s2
      rw [hc2]
      simp [s1, s2]
    · intro x hx
      rw [i2.otherChan x hx, i1.otherChan x hx, hb0]
      simp [Build.setDelay, Build.setLoss, Build.newChannel, Sys.setChan, hx]
    · intro n
      rw [i2.nodeDevs, i1.nodeDevs, hb0, List.count_append]
      simp only [Build.setDelay, Build.setLoss, Build.newChannel]
      omega

/-- What `Install` of the inter-satellite helper does. -/
structure IslInstalled (h : IslHelper) (nodes : List NodeId) (b b' : Build) : Prop where
  nextDev : b'.nextDev = b.nextDev + nodes.length
  nextChan : b'.nextChan = b.nextChan + 1
  lastMac : b'.lastMac = b.lastMac + nodes.length
  loss : b'.lossOf b.nextChan = h.chan.loss.getD none
  delay : b'.delayOf b.nextChan = h.chan.delay.getD none
  otherModels : ∀ x, x ≠ b.nextChan → b'.lossOf x = b.lossOf x ∧ b'.delayOf x = b.delayOf x
  now : b'.sys.now = b.sys.now
  pending : b'.sys.pending = b.sys.pending
  new : ∀ (i : Nat) (n : NodeId), nodes[i]? = some n →
    b'.sys.dev (b.nextDev + i) = installed h.dev h.queue n (Mac48.ofNat (b.lastMac + i + 1)) b.nextChan i ∧
    b'.ifIndex (b.nextDev + i) = (b.nodeDevs n).length + (nodes.take i).count n ∧
    b'.queueOf (b.nextDev + i) = some h.queue.create
  old : ∀ d : Nat, d < b.nextDev ∨ b.nextDev + nodes.length ≤ d →
    b'.sys.dev d = b.sys.dev d ∧ b'.ifIndex d = b.ifIndex d ∧ b'.queueOf d = b.queueOf d
  chan : b'.sys.chan b.nextChan = ⟨.isl, List.range' b.nextDev nodes.length, [], []⟩
  otherChan : ∀ x, x ≠ b.nextChan → b'.sys.chan x = b.sys.chan x
  nodeDevs : ∀ n, (b'.nodeDevs n).length = (b.nodeDevs n).length + nodes.count n

theorem isl_install_eq {h : IslHelper} {nodes : List NodeId} {b : Build} (hm : b.lastMac + nodes.length < 2 ^ 48) :
    ∃ b', h.install nodes b = .ok (b', List.range' b.nextDev nodes.length) ∧ IslInstalled h nodes b b' := by
  obtain ⟨b0, hb0⟩ : ∃ b0 : Build, b0 = b.newChannel .isl h.chan := ⟨_, rfl⟩
  have hc0 : b0.sys.chan b.nextChan = ⟨.isl, [], [], []⟩ := by
    rw [hb0]; simp [Build.newChannel, Sys.setChan]
  have hd0 : b0.nextDev = b.nextDev := by rw [hb0]; rfl
  have hm0 : b0.lastMac = b.lastMac := by rw [hb0]; rfl
  obtain ⟨b1, e1, i1⟩ := installAll_eq (f := h.dev) (qf := h.queue) (c := b.nextChan) (ns := nodes) (b := b0)
    (Or.inl (by rw [hc0])) (by omega) (by rw [hc0]; simp [IdxLe])
  have hc1 := i1.chan
  rw [hc0, hd0, hm0] at hc1
  refine ⟨b1, ?_, ?_⟩
  · unfold IslHelper.install
    simp only
    rw [← hb0, e1, hd0]
  · constructor
    · rw [i1.nextDev, hd0]
    · rw [i1.nextChan, hb0]; rfl
    · rw [i1.lastMac, hm0]
    · rw [i1.lossOf, hb0]; simp [Build.newChannel]
    · rw [i1.delayOf, hb0]; simp [Build.newChannel]
    · intro x hx
      rw [i1.lossOf, i1.delayOf, hb0]
      simp [Build.newChannel, hx]
    · rw [i1.now, hb0]; rfl
    · rw [i1.pending, hb0]; rfl
    · intro i n hi
      have hn := i1.new i n hi
      rw [hd0, hm0, hc0] at hn
      refine ⟨by simpa using hn.1, ?_, hn.2.2⟩
      rw [hn.2.1, hb0]
      rfl
    · intro d hd
      have h1 := i1.old d (by rw [hd0]; omega)
      rw [h1.1, h1.2.1, h1.2.2, hb0]
      exact ⟨rfl, rfl, rfl⟩
    · rw [hc1]; simp
    · intro x hx
      rw [i1.otherChan x hx, hb0]
      simp [Build.newChannel, Sys.setChan, hx]
    · intro n
      rw [i1.nodeDevs, hb0]
      rfl

theorem mem_newEntries {mac dev k : Nat} {a : Mac48} {d : DevId} :
    (a, d) ∈ newEntries mac dev k ↔ ∃ i, i < k ∧ a = Mac48.ofNat (mac + i + 1) ∧ d = dev + i := by
  simp only [newEntries, List.mem_map, List.mem_range, Prod.mk.injEq]
  constructor
  · rintro ⟨i, hi, h1, h2⟩; exact ⟨i, hi, h1.symm, h2.symm⟩
  · rintro ⟨i, hi, h1, h2⟩; exact ⟨i, hi, h1.symm, h2.symm⟩

/-- What holds of all devices after any installations. -/
structure Wf (b : Build) : Prop where
  mac : b.lastMac = b.nextDev
  dev : ∀ d : Nat, d < b.nextDev → (b.sys.dev d).addr = Mac48.ofNat (d + 1) ∧ (b.sys.dev d).linkUp = true ∧
    ∃ (n : NodeId) (c : Nat), (b.sys.dev d).node = some n ∧ (b.nodeDevs n)[b.ifIndex d]? = some d ∧
      (b.sys.dev d).chan = some c ∧ c < b.nextChan ∧ (b.sys.chan c).link[(b.sys.dev d).chanSlot]? = some d

theorem wf_start (s : Sys) : Wf (Build.start s) := ⟨rfl, fun d h => absurd h (Nat.not_lt_zero d)⟩

theorem wf_newChannel {b : Build} {k : ChanKind} {f : ChanFactory} (h : Wf b) : Wf (b.newChannel k f) := by
  refine ⟨h.mac, fun d hd => ?_⟩
  obtain ⟨h1, h2, n, c, h3, h4, h5, h6, h7⟩ := h.dev d hd
  have hne : c ≠ b.nextChan := Nat.ne_of_lt h6
  refine ⟨h1, h2, n, c, h3, h4, h5, Nat.lt_succ_of_lt h6, ?_⟩
  simp only [Build.newChannel, Sys.setChan, if_neg hne]
  exact h7

theorem wf_models {b : Build} {c : ChanId} {m : LossModel} {m' : DelayModel} (h : Wf b) :
    Wf ((b.setLoss c m).setDelay c m') := ⟨h.mac, h.dev⟩

theorem wf_installOne {f : DevFactory} {qf : QueueFactory} {c : Nat} {n : NodeId} {b b' : Build} {d : DevId}
    (h : Wf b) (hk : (b.sys.chan c).kind = .isl ∨ f.leo = true) (hc : c < b.nextChan)
    (e : Build.installOne f qf c n b = .ok (b', d)) :
    Wf b' ∧ b'.nextChan = b.nextChan ∧ (b'.sys.chan c).kind = (b.sys.chan c).kind := by
  rw [installOne_eq hk] at e
  injection e with e
  injection e with e _
  subst e
  refine ⟨⟨?_, ?_⟩, rfl, by simp⟩
  · simp only [h.mac]
  · intro x hx
    simp only at hx ⊢
    by_cases hxd : x = b.nextDev
    · subst hxd
      refine ⟨?_, ?_, n, c, ?_, ?_, ?_, hc, ?_⟩
      · rw [if_pos rfl, h.mac]; rfl
      · rw [if_pos rfl]; rfl
      · rw [if_pos rfl]; rfl
      · simp
      · rw [if_pos rfl]; rfl
      · simp [installed]
    · obtain ⟨h1, h2, m, c', h3, h4, h5, h6, h7⟩ := h.dev x (by omega)
      simp only [if_neg hxd]
      refine ⟨h1, h2, m, c', h3, ?_, h5, h6, ?_⟩
      · by_cases hm : m = n
        · subst hm
          rw [if_pos rfl, List.getElem?_append_left (List.getElem?_eq_some_iff.mp h4).1]
          exact h4
        · rw [if_neg hm]; exact h4
      · by_cases hcc : c' = c
        · subst hcc
          rw [if_pos rfl, List.getElem?_append_left (List.getElem?_eq_some_iff.mp h7).1]
          exact h7
        · rw [if_neg hcc]; exact h7

theorem wf_installAll {f : DevFactory} {qf : QueueFactory} {c : Nat} {ns : List NodeId} {b b' : Build} {l : List DevId}
    (h : Wf b) (hk : (b.sys.chan c).kind = .isl ∨ f.leo = true) (hc : c < b.nextChan)
    (e : Build.installAll f qf c ns b = .ok (b', l)) : Wf b' ∧ b'.nextChan = b.nextChan := by
  induction ns generalizing b l with
  | nil => injection e with e; injection e with e _; subst e; exact ⟨h, rfl⟩
  | cons n ns ih =>
    obtain ⟨⟨b1, d⟩, e1, e⟩ := Outcome.bind_eq_ok.mp e
    obtain ⟨⟨b2, ds⟩, e2, e⟩ := Outcome.bind_eq_ok.mp e
    injection e with e
    injection e with e _
    subst e
    obtain ⟨w1, w2, w3⟩ := wf_installOne h hk hc e1
    obtain ⟨w4, w5⟩ := ih w1 (by rw [w3]; exact hk) (by rw [w2]; exact hc) e2
    exact ⟨w4, w5.trans w2⟩

theorem wf_leo {h : LeoChannelHelper} {sats gnds : List NodeId} {b b' : Build} {l : List DevId} (w : Wf b)
    (hs : h.satDev.leo = true) (hg : h.gndDev.leo = true) (e : h.install sats gnds b = .ok (b', l)) : Wf b' := by
  unfold LeoChannelHelper.install at e
  obtain ⟨⟨b1, l1⟩, e1, e⟩ := Outcome.bind_eq_ok.mp e
  obtain ⟨⟨b2, l2⟩, e2, e⟩ := Outcome.bind_eq_ok.mp e
  injection e with e
  injection e with e _
  subst e
  obtain ⟨w1, n1⟩ := wf_installAll (wf_models (wf_newChannel w)) (Or.inr hs) (Nat.lt_succ_self _) e1
  refine (wf_installAll w1 (Or.inr hg) ?_ e2).1
  rw [n1]
  exact Nat.lt_succ_self _

theorem wf_isl {h : IslHelper} {nodes : List NodeId} {b b' : Build} {l : List DevId} (w : Wf b)
    (e : h.install nodes b = .ok (b', l)) : Wf b' := by
  unfold IslHelper.install at e
  refine (wf_installAll (wf_newChannel w) (Or.inl ?_) (Nat.lt_succ_self _) e).1
  simp [Build.newChannel, Sys.setChan]

end Verif
