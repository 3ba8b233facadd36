import Verif.Spec.Helper
import Verif.Lemmas.Helper
/-! # Lemmas on settings, presets and neighbour caches -/

namespace Verif
open Spec

/-! ## Device factories -/

theorem inForce_apply (v : Dev) (a : DevAttr) : InForce (DevAttr.apply v a) a := by
  cases a <;> simp [InForce, DevAttr.apply]

theorem inForce_other {v : Dev} {a x : DevAttr} (h : InForce v a) (hk : x.key ≠ a.key) : InForce (DevAttr.apply v x) a := by
  cases a <;> cases x <;> simp_all [InForce, DevAttr.apply, DevAttr.key]

theorem inForce_foldl {l : List DevAttr} {v : Dev} {a : DevAttr} (h : InForce v a) (hk : ∀ x ∈ l, x.key ≠ a.key) :
    InForce (l.foldl DevAttr.apply v) a := by
  induction l generalizing v with
  | nil => exact h
  | cons x l ih => exact ih (inForce_other h (hk x (by simp))) fun y hy => hk y (by simp [hy])

/-- The factory's value for the name of `a` is `a`. -/
def LastIs (f : DevFactory) (a : DevAttr) : Prop :=
  ∃ l1 l2, f.params = l1 ++ a :: l2 ∧ ∀ x ∈ l2, x.key ≠ a.key

theorem LastIs.create {f : DevFactory} {a : DevAttr} (h : LastIs f a) : InForce f.create a := by
  obtain ⟨l1, l2, hp, hk⟩ := h
  unfold DevFactory.create
  rw [hp, List.foldl_append, List.foldl_cons]
  exact inForce_foldl (inForce_apply _ a) hk

/-- The factory has no value for a name. -/
def Unset (f : DevFactory) (k : DevKey) : Prop := ∀ x ∈ f.params, x.key ≠ k

theorem Unset.create {f : DevFactory} {a : DevAttr} (h : Unset f a.key) (hd : InForce (Dev.blank f.leo) a) :
    InForce f.create a := inForce_foldl hd h

theorem set_ok {f f' : DevFactory} {a : DevAttr} (h : f.set a = .ok f') :
    f'.leo = f.leo ∧ f'.params = f.params.filter (fun p => p.key ≠ a.key) ++ [a] := by
  unfold DevFactory.set at h
  split at h
  · cases h
  · injection h with h; subst h; exact ⟨rfl, rfl⟩

theorem set_leo {f : DevFactory} {a : DevAttr} (h : f.leo = true) : ∃ f', f.set a = .ok f' :=
  ⟨{ f with params := f.params.filter (fun p => p.key ≠ a.key) ++ [a] }, by simp [DevFactory.set, h]⟩

theorem set_lastIs {f f' : DevFactory} {a : DevAttr} (h : f.set a = .ok f') : LastIs f' a :=
  ⟨_, [], (set_ok h).2, by simp⟩

theorem set_keeps {f f' : DevFactory} {a x : DevAttr} (h : f.set x = .ok f') (hl : LastIs f a) (hk : x.key ≠ a.key) :
    LastIs f' a := by
  obtain ⟨l1, l2, hp, hl2⟩ := hl
  refine ⟨l1.filter (fun p => p.key ≠ x.key), l2.filter (fun p => p.key ≠ x.key) ++ [x], ?_, ?_⟩
  · rw [(set_ok h).2, hp, List.filter_append, List.filter_cons, if_pos (by simpa using fun h => hk h.symm)]
    simp
  · intro y hy
    rcases List.mem_append.mp hy with hy | hy
    · exact hl2 y (List.mem_of_mem_filter hy)
    · rw [List.mem_singleton.mp hy]; exact hk

theorem set_unset {f f' : DevFactory} {x : DevAttr} {k : DevKey} (h : f.set x = .ok f') (hl : Unset f k)
    (hk : x.key ≠ k) : Unset f' k := by
  intro y hy
  rw [(set_ok h).2] at hy
  rcases List.mem_append.mp hy with hy | hy
  · exact hl y (List.mem_of_mem_filter hy)
  · rw [List.mem_singleton.mp hy]; exact hk

/-! ## Queue factories -/

theorem queue_set_param (f : QueueFactory) (n : String) (v : Nat) (m : String) :
    queueParam (f.set n v).create m = if n ≠ "" ∧ m = n then some v else queueParam f.create m := by
  unfold QueueFactory.set QueueFactory.create queueParam
  by_cases hn : n = ""
  · simp [hn]
  · simp only [ne_eq, hn, not_false_eq_true, true_and]
    by_cases hm : m = n
    · subst hm
      have : (f.params.filter (fun p => p.1 ≠ m)).find? (fun p => p.1 == m) = none := by
        rw [List.find?_eq_none]
        intro p hp
        have := (List.mem_filter.mp hp).2
        simpa using this
      simp only [ne_eq, decide_not] at this
      simp [List.find?_append, this]
    · simp only [if_neg hm, if_false]
      rw [List.find?_append]
      have h1 : [(n, v)].find? (fun p => p.1 == m) = none := by simpa using fun h : n = m => hm h.symm
      have h2 : (f.params.filter (fun p => ¬ p.1 = n)).find? (fun p => p.1 == m) = f.params.find? (fun p => p.1 == m) := by
        rw [List.find?_filter]
        congr 1
        funext p
        by_cases hp : p.1 = m
        · simp [hp, hm]
        · simp [hp]
      rw [h1, h2]
      simp

theorem queue_set_tid (f : QueueFactory) (n : String) (v : Nat) : (f.set n v).tid = f.tid := by
  unfold QueueFactory.set; split <;> rfl

/-- Effect of a queue setting on the value of a name. -/
theorem setQueue_param (f : QueueFactory) (a : QueueArgs) (m : String) :
    queueParam (f.setQueue a).create m =
      (((argPairs a).reverse.find? (fun p => p.1 == m)).map (·.2)).or (queueParam f.create m) := by
  have key : ∀ (l : List (String × Nat)) (g : QueueFactory),
      queueParam (l.foldl (fun g p => g.set p.1 p.2) g).create m =
        (((l.filter (fun p => p.1 ≠ "")).reverse.find? (fun p => p.1 == m)).map (·.2)).or (queueParam g.create m) := by
    intro l
    induction l with
    | nil => intro g; simp
    | cons p l ih =>
      intro g
      rw [List.foldl_cons, ih, queue_set_param]
      by_cases hp : p.1 = ""
      · simp [hp]
      · have hf : (p :: l).filter (fun p => p.1 ≠ "") = p :: l.filter (fun p => p.1 ≠ "") := by simp [hp]
        rw [hf, List.reverse_cons, List.find?_append]
        by_cases hm : m = p.1
        · subst hm
          simp only [ne_eq, hp, not_false_eq_true, and_self, if_true, decide_not]
          cases List.find? (fun q => q.1 == p.1) (List.filter (fun q => !decide (q.1 = "")) l).reverse <;> simp
        · have hm' : ¬ p.1 = m := fun h => hm h.symm
          simp only [hm, and_false, if_false]
          simp [hm']
  have h := key [a.n1, a.n2, a.n3, a.n4] (f.setTypeId (appendItemType a.type))
  simp only [List.foldl_cons, List.foldl_nil] at h
  unfold argPairs
  exact h

theorem setQueue_tid (f : QueueFactory) (a : QueueArgs) : (f.setQueue a).tid = appendItemType a.type := by
  simp only [QueueFactory.setQueue, queue_set_tid, QueueFactory.setTypeId]

/-! ## Settings of `LeoHelper` -/

/-- The device factory for a kind. -/
def LeoHelper.devFactory (h : LeoHelper) : Kind → DevFactory
  | .isl => h.isl.dev
  | .gwSat => h.gw.satDev
  | .gwGnd => h.gw.gndDev
  | .utSat => h.ut.satDev
  | .utGnd => h.ut.gndDev

/-- The queue factory for a kind. -/
def LeoHelper.queueFactory (h : LeoHelper) : Kind → QueueFactory
  | .isl => h.isl.queue
  | .gwSat => h.gw.satQueue
  | .gwGnd => h.gw.gndQueue
  | .utSat => h.ut.satQueue
  | .utGnd => h.ut.gndQueue

/-- The channel factory of a network. -/
def LeoHelper.chanFactory (h : LeoHelper) : Net → ChanFactory
  | .isl => h.isl.chan
  | .gw => h.gw.chan
  | .ut => h.ut.chan

theorem setGnd_ok {h h' : LeoChannelHelper} {a : DevAttr} (e : h.setGndDevice a = .ok h') :
    ∃ f, h.gndDev.set a = .ok f ∧ h' = { h with gndDev := f } := by
  unfold LeoChannelHelper.setGndDevice at e
  obtain ⟨f, e1, e2⟩ := Outcome.bind_eq_ok.mp e
  injection e2 with e2
  exact ⟨f, e1, e2.symm⟩

theorem setSat_ok {h h' : LeoChannelHelper} {a : DevAttr} (e : h.setSatDevice a = .ok h') :
    ∃ f, h.satDev.set a = .ok f ∧ h' = { h with satDev := f } := by
  unfold LeoChannelHelper.setSatDevice at e
  obtain ⟨f, e1, e2⟩ := Outcome.bind_eq_ok.mp e
  injection e2 with e2
  exact ⟨f, e1, e2.symm⟩

theorem setIsl_ok {h h' : IslHelper} {a : DevAttr} (e : h.setDevice a = .ok h') :
    ∃ f, h.dev.set a = .ok f ∧ h' = { h with dev := f } := by
  unfold IslHelper.setDevice at e
  obtain ⟨f, e1, e2⟩ := Outcome.bind_eq_ok.mp e
  injection e2 with e2
  exact ⟨f, e1, e2.symm⟩

/-- What a setting does to the factories. -/
structure Applied (s : Setting) (h h' : LeoHelper) : Prop where
  dev : ∀ k, (∀ a, devFor k s = some a → (h.devFactory k).set a = .ok (h'.devFactory k)) ∧
    (devFor k s = none → h'.devFactory k = h.devFactory k)
  queue : ∀ k, k ≠ .isl → (∀ a, queueFor k s = some a → h'.queueFactory k = (h.queueFactory k).setQueue a) ∧
    (queueFor k s = none → h'.queueFactory k = h.queueFactory k)
  islQueue : h'.queueFactory .isl = h.queueFactory .isl
  chan : ∀ n, (∀ a, chanFor n s = some a → h'.chanFactory n = (h.chanFactory n).set a) ∧
    (chanFor n s = none → h'.chanFactory n = h.chanFactory n)
  models : h'.gw.loss = h.gw.loss ∧ h'.gw.speed = h.gw.speed ∧ h'.ut.loss = h.ut.loss ∧ h'.ut.speed = h.ut.speed

theorem apply_ok {s : Setting} {h h' : LeoHelper} (e : h.apply s = .ok h') : Applied s h h' := by
  cases s with
  | device a =>
    simp only [LeoHelper.apply] at e
    obtain ⟨i, e1, e⟩ := Outcome.bind_eq_ok.mp e
    obtain ⟨g1, e2, e⟩ := Outcome.bind_eq_ok.mp e
    obtain ⟨g2, e3, e⟩ := Outcome.bind_eq_ok.mp e
    obtain ⟨u1, e4, e⟩ := Outcome.bind_eq_ok.mp e
    obtain ⟨u2, e5, e⟩ := Outcome.bind_eq_ok.mp e
    injection e with e
    obtain ⟨f1, e1, rfl⟩ := setIsl_ok e1
    obtain ⟨f2, e2, rfl⟩ := setGnd_ok e2
    obtain ⟨f3, e3, rfl⟩ := setSat_ok e3
    obtain ⟨f4, e4, rfl⟩ := setGnd_ok e4
    obtain ⟨f5, e5, rfl⟩ := setSat_ok e5
    subst e
    simp only at e3 e5
    constructor
    · intro k
      cases k <;> simp_all [devFor, LeoHelper.devFactory]
    · intro k; cases k <;> simp [queueFor, LeoHelper.queueFactory]
    · rfl
    · intro n; cases n <;> simp [chanFor, LeoHelper.chanFactory]
    · simp
  | gndGwDevice a | gndUtDevice a =>
    simp only [LeoHelper.apply] at e
    obtain ⟨i, e1, e⟩ := Outcome.bind_eq_ok.mp e
    injection e with e
    obtain ⟨f1, e1, rfl⟩ := setGnd_ok e1
    subst e
    constructor
    · intro k
      cases k <;> simp_all [devFor, LeoHelper.devFactory]
    · intro k; cases k <;> simp [queueFor, LeoHelper.queueFactory]
    · rfl
    · intro n; cases n <;> simp [chanFor, LeoHelper.chanFactory]
    · simp
  | satGwDevice a | satUtDevice a =>
    simp only [LeoHelper.apply] at e
    obtain ⟨i, e1, e⟩ := Outcome.bind_eq_ok.mp e
    injection e with e
    obtain ⟨f1, e1, rfl⟩ := setSat_ok e1
    subst e
    constructor
    · intro k
      cases k <;> simp_all [devFor, LeoHelper.devFactory]
    · intro k; cases k <;> simp [queueFor, LeoHelper.queueFactory]
    · rfl
    · intro n; cases n <;> simp [chanFor, LeoHelper.chanFactory]
    · simp
  | islDevice a =>
    simp only [LeoHelper.apply] at e
    obtain ⟨i, e1, e⟩ := Outcome.bind_eq_ok.mp e
    injection e with e
    obtain ⟨f1, e1, rfl⟩ := setIsl_ok e1
    subst e
    constructor
    · intro k
      cases k <;> simp_all [devFor, LeoHelper.devFactory]
    · intro k; cases k <;> simp [queueFor, LeoHelper.queueFactory]
    · rfl
    · intro n; cases n <;> simp [chanFor, LeoHelper.chanFactory]
    · simp
  | queue a | gndGwQueue a | gndUtQueue a | satGwQueue a | satUtQueue a | channel a | islChannel a | utChannel a
  | gwChannel a =>
    simp only [LeoHelper.apply] at e
    injection e with e
    subst e
    constructor
    · intro k
      cases k <;> simp [devFor, LeoHelper.devFactory, LeoChannelHelper.setGndQueue, LeoChannelHelper.setSatQueue,
        LeoChannelHelper.setChannel, IslHelper.setChannel]
    · intro k; cases k <;> simp [queueFor, LeoHelper.queueFactory, LeoChannelHelper.setGndQueue,
        LeoChannelHelper.setSatQueue, LeoChannelHelper.setChannel]
    · rfl
    · intro n; cases n <;> simp [chanFor, LeoHelper.chanFactory, LeoChannelHelper.setGndQueue,
        LeoChannelHelper.setSatQueue, LeoChannelHelper.setChannel, IslHelper.setChannel]
    · simp [LeoChannelHelper.setGndQueue, LeoChannelHelper.setSatQueue, LeoChannelHelper.setChannel]

theorem configure_cons {s : Setting} {ss : List Setting} {h h' : LeoHelper} (e : h.configure (s :: ss) = .ok h') :
    ∃ h1, h.apply s = .ok h1 ∧ h1.configure ss = .ok h' := Outcome.bind_eq_ok.mp e

theorem configure_append {s1 s2 : List Setting} {h h' : LeoHelper} (e : h.configure (s1 ++ s2) = .ok h') :
    ∃ h1, h.configure s1 = .ok h1 ∧ h1.configure s2 = .ok h' := by
  induction s1 generalizing h with
  | nil => exact ⟨h, rfl, e⟩
  | cons s s1 ih =>
    obtain ⟨h1, e1, e2⟩ := configure_cons e
    obtain ⟨h2, e3, e4⟩ := ih e2
    exact ⟨h2, by simp [LeoHelper.configure, e1, e3], e4⟩

theorem configure_leo {ss : List Setting} {h h' : LeoHelper} (e : h.configure ss = .ok h') (k : Kind) :
    (h'.devFactory k).leo = (h.devFactory k).leo := by
  induction ss generalizing h with
  | nil => injection e with e; rw [e]
  | cons s ss ih =>
    obtain ⟨h1, e1, e2⟩ := configure_cons e
    rw [ih e2]
    have ha := (apply_ok e1).dev k
    cases hd : devFor k s with
    | none => rw [ha.2 hd]
    | some a => rw [(set_ok (ha.1 a hd)).1]

theorem configure_lastIs {ss : List Setting} {h h' : LeoHelper} (e : h.configure ss = .ok h') {k : Kind} {a : DevAttr}
    (hl : LastIs (h.devFactory k) a) (hn : ∀ s ∈ ss, ∀ x, devFor k s = some x → x.key ≠ a.key) :
    LastIs (h'.devFactory k) a := by
  induction ss generalizing h with
  | nil => injection e with e; rw [← e]; exact hl
  | cons s ss ih =>
    obtain ⟨h1, e1, e2⟩ := configure_cons e
    refine ih e2 ?_ fun t ht => hn t (by simp [ht])
    have ha := (apply_ok e1).dev k
    cases hd : devFor k s with
    | none => rw [ha.2 hd]; exact hl
    | some x => exact set_keeps (ha.1 x hd) hl (hn s (by simp) x hd)

theorem configure_unset {ss : List Setting} {h h' : LeoHelper} (e : h.configure ss = .ok h') {k : Kind} {key : DevKey}
    (hl : Unset (h.devFactory k) key) (hn : ∀ s ∈ ss, ∀ x, devFor k s = some x → x.key ≠ key) :
    Unset (h'.devFactory k) key := by
  induction ss generalizing h with
  | nil => injection e with e; rw [← e]; exact hl
  | cons s ss ih =>
    obtain ⟨h1, e1, e2⟩ := configure_cons e
    refine ih e2 ?_ fun t ht => hn t (by simp [ht])
    have ha := (apply_ok e1).dev k
    cases hd : devFor k s with
    | none => rw [ha.2 hd]; exact hl
    | some x => exact set_unset (ha.1 x hd) hl (hn s (by simp) x hd)

theorem configure_islQueue {ss : List Setting} {h h' : LeoHelper} (e : h.configure ss = .ok h') :
    h'.queueFactory .isl = h.queueFactory .isl := by
  induction ss generalizing h with
  | nil => injection e with e; rw [e]
  | cons s ss ih =>
    obtain ⟨h1, e1, e2⟩ := configure_cons e
    rw [ih e2, (apply_ok e1).islQueue]

theorem configure_models {ss : List Setting} {h h' : LeoHelper} (e : h.configure ss = .ok h') :
    h'.gw.loss = h.gw.loss ∧ h'.gw.speed = h.gw.speed ∧ h'.ut.loss = h.ut.loss ∧ h'.ut.speed = h.ut.speed := by
  induction ss generalizing h with
  | nil => injection e with e; rw [e]; simp
  | cons s ss ih =>
    obtain ⟨h1, e1, e2⟩ := configure_cons e
    have h1' := (apply_ok e1).models
    have h2' := ih e2
    rw [h2'.1, h2'.2.1, h2'.2.2.1, h2'.2.2.2]
    exact h1'

/-- The queue factory of a kind after settings: the queue settings for the kind, in order. -/
theorem configure_queue {ss : List Setting} {h h' : LeoHelper} (e : h.configure ss = .ok h') {k : Kind} (hk : k ≠ .isl) :
    h'.queueFactory k = (ss.filterMap (queueFor k)).foldl QueueFactory.setQueue (h.queueFactory k) := by
  induction ss generalizing h with
  | nil => injection e with e; rw [e]; rfl
  | cons s ss ih =>
    obtain ⟨h1, e1, e2⟩ := configure_cons e
    have ha := (apply_ok e1).queue k hk
    rw [ih e2]
    cases hd : queueFor k s with
    | none => rw [ha.2 hd, List.filterMap_cons_none hd]
    | some x => rw [ha.1 x hd, List.filterMap_cons_some hd, List.foldl_cons]

theorem configure_chan {ss : List Setting} {h h' : LeoHelper} (e : h.configure ss = .ok h') (n : Net) :
    h'.chanFactory n = (ss.filterMap (chanFor n)).foldl ChanFactory.set (h.chanFactory n) := by
  induction ss generalizing h with
  | nil => injection e with e; rw [e]; rfl
  | cons s ss ih =>
    obtain ⟨h1, e1, e2⟩ := configure_cons e
    have ha := (apply_ok e1).chan n
    rw [ih e2]
    cases hd : chanFor n s with
    | none => rw [ha.2 hd, List.filterMap_cons_none hd]
    | some x => rw [ha.1 x hd, List.filterMap_cons_some hd, List.foldl_cons]

/-! ## The three networks -/

/-- What the installation of the three networks does. -/
structure NetsInstalled (h : LeoHelper) (sats gws uts : List NodeId) (b b' : Build) (n : LeoHelper.Nets) : Prop where
  isl : n.isl = List.range' b.nextDev sats.length
  gw : n.gw = List.range' (b.nextDev + sats.length) (sats ++ gws).length
  ut : n.ut = List.range' (b.nextDev + sats.length + (sats ++ gws).length) (sats ++ uts).length
  dev : ∀ k, ∀ d ∈ devsOf n sats.length k, (∃ nd c i, b'.sys.dev d =
      installed (h.devFactory k) (h.queueFactory k) nd (Mac48.ofNat (b.lastMac + (d - b.nextDev) + 1)) c i) ∧
    b'.queueOf d = some (h.queueFactory k).create
  islModels : b'.lossOf b.nextChan = h.isl.chan.loss.getD none ∧ b'.delayOf b.nextChan = h.isl.chan.delay.getD none
  gwModels : b'.lossOf (b.nextChan + 1) = some (.leo h.gw.loss) ∧
    b'.delayOf (b.nextChan + 1) = some (.constantSpeed h.gw.speed)
  utModels : b'.lossOf (b.nextChan + 2) = some (.leo h.ut.loss) ∧
    b'.delayOf (b.nextChan + 2) = some (.constantSpeed h.ut.speed)
  links : (b'.sys.chan b.nextChan).link = n.isl ∧ (b'.sys.chan (b.nextChan + 1)).link = n.gw ∧
    (b'.sys.chan (b.nextChan + 2)).link = n.ut

theorem mem_range'_one {s k d : Nat} (h : d ∈ List.range' s k) : ∃ i, i < k ∧ d = s + i := by
  obtain ⟨h1, h2⟩ := List.mem_range'_1.mp h
  exact ⟨d - s, by omega, by omega⟩

theorem installNets_eq {h : LeoHelper} {sats gws uts : List NodeId} {b : Build}
    (hl : ∀ k, k ≠ .isl → (h.devFactory k).leo = true)
    (hm : b.lastMac + 3 * sats.length + gws.length + uts.length < 2 ^ 48) :
    ∃ b' n, h.installNets sats gws uts b = .ok (b', n) ∧ NetsInstalled h sats gws uts b b' n := by
  obtain ⟨b1, e1, i1⟩ := isl_install_eq (h := h.isl) (nodes := sats) (b := b) (by omega)
  obtain ⟨b2, e2, i2⟩ := leo_install_eq (h := h.gw) (sats := sats) (gnds := gws) (b := b1) (hl .gwSat (by decide))
    (hl .gwGnd (by decide)) (by rw [i1.lastMac, List.length_append]; omega)
  obtain ⟨b3, e3, i3⟩ := leo_install_eq (h := h.ut) (sats := sats) (gnds := uts) (b := b2) (hl .utSat (by decide))
    (hl .utGnd (by decide)) (by rw [i2.lastMac, i1.lastMac, List.length_append, List.length_append]; omega)
  refine ⟨b3, ⟨List.range' b.nextDev sats.length, List.range' b1.nextDev (sats ++ gws).length,
    List.range' b2.nextDev (sats ++ uts).length⟩, ?_, ?_⟩
  · simp only [LeoHelper.installNets, e1, e2, e3, Outcome.ok_bind]
  have hget : ∀ (l : List NodeId) (i : Nat), i < l.length → ∃ n, l[i]? = some n := fun l i hi => ⟨l[i], by simp [hi]⟩
  constructor
  · rfl
  · simp only [i1.nextDev]
  · simp only [i2.nextDev, i1.nextDev]
  · intro k d hd
    have key1 : ∀ (i : Nat), i < (sats ++ gws).length → ∃ n, b3.sys.dev (b1.nextDev + i) =
        installed (if i < sats.length then h.gw.satDev else h.gw.gndDev)
          (if i < sats.length then h.gw.satQueue else h.gw.gndQueue) n (Mac48.ofNat (b1.lastMac + i + 1)) b1.nextChan i ∧
        b3.queueOf (b1.nextDev + i) = some (if i < sats.length then h.gw.satQueue else h.gw.gndQueue).create := by
      intro i hi
      obtain ⟨n, hn⟩ := hget (sats ++ gws) i hi
      have ho := i3.old (b1.nextDev + i) (by rw [i2.nextDev]; omega)
      have hw := i2.new i n hn
      exact ⟨n, ho.1.trans hw.1, ho.2.2.trans hw.2.2⟩
    have key2 : ∀ (i : Nat), i < (sats ++ uts).length → ∃ n, b3.sys.dev (b2.nextDev + i) =
        installed (if i < sats.length then h.ut.satDev else h.ut.gndDev)
          (if i < sats.length then h.ut.satQueue else h.ut.gndQueue) n (Mac48.ofNat (b2.lastMac + i + 1)) b2.nextChan i ∧
        b3.queueOf (b2.nextDev + i) = some (if i < sats.length then h.ut.satQueue else h.ut.gndQueue).create := by
      intro i hi
      obtain ⟨n, hn⟩ := hget (sats ++ uts) i hi
      have hw := i3.new i n hn
      exact ⟨n, hw.1, hw.2.2⟩
    cases k with
    | isl =>
      obtain ⟨i, hi, rfl⟩ := mem_range'_one hd
      obtain ⟨n, hn⟩ := hget sats i hi
      have hw := i1.new i n hn
      have h2 := i2.old (b.nextDev + i) (by rw [i1.nextDev]; omega)
      have h3 := i3.old (b.nextDev + i) (by rw [i2.nextDev, i1.nextDev]; omega)
      rw [Nat.add_sub_cancel_left]
      exact ⟨⟨_, _, _, h3.1.trans (h2.1.trans hw.1)⟩, h3.2.2.trans (h2.2.2.trans hw.2.2)⟩
    | gwSat =>
      simp only [devsOf] at hd
      rw [List.length_append, ← List.range'_append_1, List.take_left' (by simp)] at hd
      obtain ⟨i, hi, rfl⟩ := mem_range'_one hd
      obtain ⟨n, h1, h2⟩ := key1 i (by rw [List.length_append]; omega)
      rw [if_pos hi, if_pos hi] at h1
      rw [if_pos hi] at h2
      rw [show b.lastMac + (b1.nextDev + i - b.nextDev) + 1 = b1.lastMac + i + 1 by rw [i1.nextDev, i1.lastMac]; omega]
      exact ⟨⟨_, _, _, h1⟩, h2⟩
    | gwGnd =>
      simp only [devsOf] at hd
      rw [List.length_append, ← List.range'_append_1, List.drop_left' (by simp)] at hd
      obtain ⟨i, hi, rfl⟩ := mem_range'_one hd
      obtain ⟨n, h1, h2⟩ := key1 (sats.length + i) (by rw [List.length_append]; omega)
      have hlt : ¬ sats.length + i < sats.length := by omega
      rw [if_neg hlt, if_neg hlt, ← Nat.add_assoc] at h1
      rw [if_neg hlt, ← Nat.add_assoc] at h2
      rw [show b.lastMac + (b1.nextDev + sats.length + i - b.nextDev) + 1 = b1.lastMac + (sats.length + i) + 1 by
        rw [i1.nextDev, i1.lastMac]; omega]
      exact ⟨⟨_, _, _, h1⟩, h2⟩
    | utSat =>
      simp only [devsOf] at hd
      rw [List.length_append, ← List.range'_append_1, List.take_left' (by simp)] at hd
      obtain ⟨i, hi, rfl⟩ := mem_range'_one hd
      obtain ⟨n, h1, h2⟩ := key2 i (by rw [List.length_append]; omega)
      rw [if_pos hi, if_pos hi] at h1
      rw [if_pos hi] at h2
      rw [show b.lastMac + (b2.nextDev + i - b.nextDev) + 1 = b2.lastMac + i + 1 by
        rw [i2.nextDev, i2.lastMac, i1.nextDev, i1.lastMac]; omega]
      exact ⟨⟨_, _, _, h1⟩, h2⟩
    | utGnd =>
      simp only [devsOf] at hd
      rw [List.length_append, ← List.range'_append_1, List.drop_left' (by simp)] at hd
      obtain ⟨i, hi, rfl⟩ := mem_range'_one hd
      obtain ⟨n, h1, h2⟩ := key2 (sats.length + i) (by rw [List.length_append]; omega)
      have hlt : ¬ sats.length + i < sats.length := by omega
      rw [if_neg hlt, if_neg hlt, ← Nat.add_assoc] at h1
      rw [if_neg hlt, ← Nat.add_assoc] at h2
      rw [show b.lastMac + (b2.nextDev + sats.length + i - b.nextDev) + 1 = b2.lastMac + (sats.length + i) + 1 by
        rw [i2.nextDev, i2.lastMac, i1.nextDev, i1.lastMac]; omega]
      exact ⟨⟨_, _, _, h1⟩, h2⟩
  · have h2 := i2.otherModels b.nextChan (by rw [i1.nextChan]; exact Nat.ne_of_lt (Nat.lt_succ_self _))
    have h3 := i3.otherModels b.nextChan (by
      rw [i2.nextChan, i1.nextChan]; exact Nat.ne_of_lt (by omega))
    exact ⟨h3.1.trans (h2.1.trans i1.loss), h3.2.trans (h2.2.trans i1.delay)⟩
  · have h2 := i2.loss
    have h2' := i2.delay
    have h3 := i3.otherModels (b.nextChan + 1) (by rw [i2.nextChan, i1.nextChan]; exact Nat.ne_of_lt (by omega))
    rw [i1.nextChan] at h2 h2'
    exact ⟨h3.1.trans h2, h3.2.trans h2'⟩
  · have h3 := i3.loss
    have h3' := i3.delay
    rw [i2.nextChan, i1.nextChan] at h3 h3'
    exact ⟨h3, h3'⟩
  · have h1 := i1.chan
    have h12 := i2.otherChan b.nextChan (by rw [i1.nextChan]; exact Nat.ne_of_lt (Nat.lt_succ_self _))
    have h13 := i3.otherChan b.nextChan (by rw [i2.nextChan, i1.nextChan]; exact Nat.ne_of_lt (by omega))
    have h2 := i2.link
    have h23 := i3.otherChan (b.nextChan + 1) (by rw [i2.nextChan, i1.nextChan]; exact Nat.ne_of_lt (by omega))
    have h3 := i3.link
    rw [i1.nextChan] at h2
    rw [i2.nextChan, i1.nextChan] at h3
    refine ⟨?_, ?_, h3⟩
    · rw [h13, h12, h1]
    · rw [h23, h2]

/-! ## Presets -/

/-- The names `SetConstellationAttributes` sets on both device factories. -/
def presetKeys : List DevKey := [.txPower, .rxLoss, .rxGain, .rate]

/-- What `SetConstellationAttributes` does to a device factory. -/
structure Preconfigured (eirp g l : Rat) (r : Nat) (f f' : DevFactory) : Prop where
  leo : f'.leo = f.leo
  txPower : LastIs f' (.txPower eirp)
  rxLoss : LastIs f' (.rxLoss l)
  rxGain : LastIs f' (.rxGain g)
  rate : LastIs f' (.rate r)
  keeps : ∀ a, LastIs f a → a.key ∉ presetKeys → LastIs f' a
  unset : ∀ k, Unset f k → k ∉ presetKeys → Unset f' k

theorem preconfigured {eirp g l : Rat} {r : Nat} {f f1 f2 f3 f4 : DevFactory} (e1 : f.set (.txPower eirp) = .ok f1)
    (e2 : f1.set (.rxLoss l) = .ok f2) (e3 : f2.set (.rxGain g) = .ok f3) (e4 : f3.set (.rate r) = .ok f4) :
    Preconfigured eirp g l r f f4 := by
  constructor
  · rw [(set_ok e4).1, (set_ok e3).1, (set_ok e2).1, (set_ok e1).1]
  · exact set_keeps e4 (set_keeps e3 (set_keeps e2 (set_lastIs e1) (by simp [DevAttr.key])) (by simp [DevAttr.key])) (by simp [DevAttr.key])
  · exact set_keeps e4 (set_keeps e3 (set_lastIs e2) (by simp [DevAttr.key])) (by simp [DevAttr.key])
  · exact set_keeps e4 (set_lastIs e3) (by simp [DevAttr.key])
  · exact set_lastIs e4
  · intro a ha hk
    simp only [presetKeys, List.mem_cons, List.not_mem_nil, or_false, not_or] at hk
    exact set_keeps e4 (set_keeps e3 (set_keeps e2 (set_keeps e1 ha (fun h => hk.1 h.symm)) (fun h => hk.2.1 h.symm))
      (fun h => hk.2.2.1 h.symm)) (fun h => hk.2.2.2 h.symm)
  · intro k ha hk
    simp only [presetKeys, List.mem_cons, List.not_mem_nil, or_false, not_or] at hk
    exact set_unset e4 (set_unset e3 (set_unset e2 (set_unset e1 ha (fun h => hk.1 h.symm)) (fun h => hk.2.1 h.symm))
      (fun h => hk.2.2.1 h.symm)) (fun h => hk.2.2.2 h.symm)

theorem setConst_ok {h h' : LeoChannelHelper} {eirp elev fspl atm margin g l : Rat} {r : Nat}
    (e : h.setConstellationAttributes eirp elev fspl atm margin r g l = .ok h') :
    Preconfigured eirp g l r h.gndDev h'.gndDev ∧ Preconfigured eirp g l r h.satDev h'.satDev ∧
    h'.loss = ⟨elev, atm, fspl, margin⟩ ∧ h'.speed = h.speed ∧ h'.chan = h.chan ∧ h'.gndQueue = h.gndQueue ∧
    h'.satQueue = h.satQueue := by
  unfold LeoChannelHelper.setConstellationAttributes at e
  obtain ⟨h1, e1, e⟩ := Outcome.bind_eq_ok.mp e
  obtain ⟨h2, e2, e⟩ := Outcome.bind_eq_ok.mp e
  obtain ⟨h3, e3, e⟩ := Outcome.bind_eq_ok.mp e
  obtain ⟨h4, e4, e⟩ := Outcome.bind_eq_ok.mp e
  obtain ⟨h5, e5, e⟩ := Outcome.bind_eq_ok.mp e
  obtain ⟨h6, e6, e⟩ := Outcome.bind_eq_ok.mp e
  obtain ⟨h7, e7, e⟩ := Outcome.bind_eq_ok.mp e
  obtain ⟨h8, e8, e⟩ := Outcome.bind_eq_ok.mp e
  injection e with e
  obtain ⟨f1, p1, rfl⟩ := setGnd_ok e1
  obtain ⟨f2, p2, rfl⟩ := setSat_ok e2
  obtain ⟨f3, p3, rfl⟩ := setGnd_ok e3
  obtain ⟨f4, p4, rfl⟩ := setGnd_ok e4
  obtain ⟨f5, p5, rfl⟩ := setSat_ok e5
  obtain ⟨f6, p6, rfl⟩ := setSat_ok e6
  obtain ⟨f7, p7, rfl⟩ := setGnd_ok e7
  obtain ⟨f8, p8, rfl⟩ := setSat_ok e8
  subst e
  exact ⟨preconfigured p1 p3 p4 p7, preconfigured p2 p5 p6 p8, rfl, rfl, rfl, rfl, rfl⟩

theorem setConst_total {h : LeoChannelHelper} (hg : h.gndDev.leo = true) (hs : h.satDev.leo = true)
    (eirp elev fspl atm margin g l : Rat) (r : Nat) :
    ∃ h', h.setConstellationAttributes eirp elev fspl atm margin r g l = .ok h' := by
  simp [LeoChannelHelper.setConstellationAttributes, LeoChannelHelper.setGndDevice, LeoChannelHelper.setSatDevice,
    DevFactory.set, hg, hs]

/-- What the settings of `LeoChannelHelper` leave alone, as long as they do not name the device type. -/
structure Sided (h : LeoChannelHelper) : Prop where
  gnd : h.gndDev.leo = true ∧ LastIs h.gndDev (.deviceType .gnd)
  sat : h.satDev.leo = true ∧ LastIs h.satDev (.deviceType .sat)

theorem sided_create : Sided LeoChannelHelper.create :=
  ⟨⟨rfl, [], [], rfl, by simp⟩, ⟨rfl, [], [], rfl, by simp⟩⟩

theorem sided_const {h h' : LeoChannelHelper} {eirp elev fspl atm margin g l : Rat} {r : Nat} (hs : Sided h)
    (e : h.setConstellationAttributes eirp elev fspl atm margin r g l = .ok h') : Sided h' := by
  obtain ⟨h1, h2, _⟩ := setConst_ok e
  exact ⟨⟨h1.leo.trans hs.gnd.1, h1.keeps _ hs.gnd.2 (by decide)⟩,
    ⟨h2.leo.trans hs.sat.1, h2.keeps _ hs.sat.2 (by decide)⟩⟩

theorem sided_apply {h h' : LeoChannelHelper} {s : ChanSetting} (hs : Sided h) (hn : ¬ namesType s)
    (e : h.apply s = .ok h') : Sided h' := by
  cases s with
  | gndQueue a | satQueue a | channel a =>
    injection e with e; subst e; exact ⟨hs.gnd, hs.sat⟩
  | gndDevice a =>
    obtain ⟨f, p, rfl⟩ := setGnd_ok e
    exact ⟨⟨(set_ok p).1.trans hs.gnd.1, set_keeps p hs.gnd.2 hn⟩, hs.sat⟩
  | satDevice a =>
    obtain ⟨f, p, rfl⟩ := setSat_ok e
    exact ⟨hs.gnd, ⟨(set_ok p).1.trans hs.sat.1, set_keeps p hs.sat.2 hn⟩⟩
  | constellation n =>
    simp only [LeoChannelHelper.apply, LeoChannelHelper.setConstellation] at e
    split at e
    · exact sided_const hs e
    split at e
    · exact sided_const hs e
    split at e
    · exact sided_const hs e
    split at e
    · exact sided_const hs e
    · cases e

theorem sided_configure {ss : List ChanSetting} {h h' : LeoChannelHelper} (hs : Sided h) (hn : ∀ s ∈ ss, ¬ namesType s)
    (e : h.configure ss = .ok h') : Sided h' := by
  induction ss generalizing h with
  | nil => injection e with e; rw [← e]; exact hs
  | cons s ss ih =>
    obtain ⟨h1, e1, e2⟩ := Outcome.bind_eq_ok.mp e
    exact ih (sided_apply hs (hn s (by simp)) e1) (fun t ht => hn t (by simp [ht])) e2

theorem leo_apply {h h' : LeoChannelHelper} {s : ChanSetting} (hl : h.gndDev.leo = true ∧ h.satDev.leo = true)
    (e : h.apply s = .ok h') : h'.gndDev.leo = true ∧ h'.satDev.leo = true := by
  have hconst : ∀ {eirp elev fspl atm margin g l : Rat} {r : Nat},
      h.setConstellationAttributes eirp elev fspl atm margin r g l = .ok h' → h'.gndDev.leo = true ∧ h'.satDev.leo = true := by
    intro eirp elev fspl atm margin g l r e
    obtain ⟨h1, h2, _⟩ := setConst_ok e
    exact ⟨h1.leo.trans hl.1, h2.leo.trans hl.2⟩
  cases s with
  | gndQueue a | satQueue a | channel a => injection e with e; subst e; exact hl
  | gndDevice a =>
    obtain ⟨f, p, rfl⟩ := setGnd_ok e
    exact ⟨(set_ok p).1.trans hl.1, hl.2⟩
  | satDevice a =>
    obtain ⟨f, p, rfl⟩ := setSat_ok e
    exact ⟨hl.1, (set_ok p).1.trans hl.2⟩
  | constellation n =>
    simp only [LeoChannelHelper.apply, LeoChannelHelper.setConstellation] at e
    split at e
    · exact hconst e
    split at e
    · exact hconst e
    split at e
    · exact hconst e
    split at e
    · exact hconst e
    · cases e

theorem leo_configure {ss : List ChanSetting} {h h' : LeoChannelHelper} (hl : h.gndDev.leo = true ∧ h.satDev.leo = true)
    (e : h.configure ss = .ok h') : h'.gndDev.leo = true ∧ h'.satDev.leo = true := by
  induction ss generalizing h with
  | nil => injection e with e; rw [← e]; exact hl
  | cons s ss ih =>
    obtain ⟨h1, e1, e2⟩ := Outcome.bind_eq_ok.mp e
    exact ih (leo_apply hl e1) e2

end Verif
