import Verif.Spec.Schedule
import Verif.Lemmas.Constrain

/-! # Workloads the API can build, and what reaches the scheduler -/
namespace Verif.Sched

variable {W ε : Type}

/-- No private label. -/
def Users (ls : List Label) : Prop := ∀ l ∈ ls, l.user

theorem Users.not_unique {ls : List Label} (h : Users ls) (n : Nat) : Label.unique n ∉ ls :=
  fun hm => h _ hm

theorem mem_addLabel (ls : List Label) (l x : Label) : x ∈ addLabel ls l ↔ x ∈ ls ∨ x = l := by
  unfold addLabel
  split
  · rename_i h
    constructor
    · exact .inl
    · rintro (h' | rfl)
      · exact h'
      · exact h
  · simp

theorem mem_extendLabels (ls new : List Label) (x : Label) : x ∈ extendLabels ls new ↔ x ∈ ls ∨ x ∈ new := by
  unfold extendLabels
  induction new generalizing ls with
  | nil => simp
  | cons a t ih =>
    rw [List.foldl_cons, ih, mem_addLabel, List.mem_cons, or_assoc]

theorem Users.nil : Users [] := fun _ h => by cases h

theorem Users.addLabel {ls : List Label} (h : Users ls) {l : Label} (hl : l.user) : Users (addLabel ls l) := by
  intro x hx
  rcases (mem_addLabel _ _ _).mp hx with h' | rfl
  · exact h x h'
  · exact hl

theorem Users.append {ls ls' : List Label} (h : Users ls) (h' : Users ls') : Users (ls ++ ls') := by
  intro x hx
  rcases List.mem_append.mp hx with hx | hx
  · exact h x hx
  · exact h' x hx

theorem Users.single {l : Label} (h : l.user) : Users [l] := by
  intro x hx
  rw [List.mem_singleton.mp hx]
  exact h

theorem Users.extend {ls ls' : List Label} (h : Users ls) (h' : Users ls') : Users (extendLabels ls ls') := by
  intro x hx
  rcases (mem_extendLabels _ _ _).mp hx with hx | hx
  · exact h x hx
  · exact h' x hx

/-- What holds of a system of a built workload, apart from its number. -/
structure WSys.Wf (s : WSys W ε) : Prop where
  before : s.before = []
  tags : Users s.tags
  beforeAll : Users s.beforeAll
  afterAll : Users s.afterAll
  reqIn : Users s.reqIn
  reqBefore : Users s.reqBefore
  reqAfter : Users s.reqAfter
  valid : checkBorrows s.borrows = .ok ()

theorem Fresh.wf {s : WSys W ε} (h : Fresh s) : s.Wf ∧ s.uid = 0 := by
  induction h with
  | @ofFn t bs f tr s hs =>
    unfold WSys.ofFn at hs
    cases hc : checkBorrows bs with
    | error e => rw [hc] at hs; cases hs
    | ok u =>
      rw [hc] at hs
      cases hs
      refine ⟨⟨rfl, Users.single trivial, Users.nil, Users.nil, Users.nil, Users.nil, Users.nil, ?_⟩, rfl⟩
      exact hc
  | runIf c _ ih => obtain ⟨⟨a, b, d, e, f, g, h, i⟩, j⟩ := ih; exact ⟨⟨a, b, d, e, f, g, h, i⟩, j⟩
  | skipIf c _ ih => obtain ⟨⟨a, b, d, e, f, g, h, i⟩, j⟩ := ih; exact ⟨⟨a, b, d, e, f, g, h, i⟩, j⟩
  | beforeAll l hl _ ih =>
    obtain ⟨⟨a, b, d, e, f, g, h, i⟩, j⟩ := ih; exact ⟨⟨a, b, d.addLabel hl, e, f, g, h, i⟩, j⟩
  | afterAll l hl _ ih =>
    obtain ⟨⟨a, b, d, e, f, g, h, i⟩, j⟩ := ih; exact ⟨⟨a, b, d, e.addLabel hl, f, g, h, i⟩, j⟩
  | displayName l hl _ ih => obtain ⟨⟨a, b, d, e, f, g, h, i⟩, j⟩ := ih; exact ⟨⟨a, b, d, e, f, g, h, i⟩, j⟩
  | tag l hl _ ih =>
    obtain ⟨⟨a, b, d, e, f, g, h, i⟩, j⟩ := ih; exact ⟨⟨a, b.append (Users.single hl), d, e, f, g, h, i⟩, j⟩
  | requireIn l hl _ ih =>
    obtain ⟨⟨a, b, d, e, f, g, h, i⟩, j⟩ := ih; exact ⟨⟨a, b, d, e, f.addLabel hl, g, h, i⟩, j⟩
  | requireBefore l hl _ ih =>
    obtain ⟨⟨a, b, d, e, f, g, h, i⟩, j⟩ := ih; exact ⟨⟨a, b, d, e, f, g.addLabel hl, h, i⟩, j⟩
  | requireAfter l hl _ ih =>
    obtain ⟨⟨a, b, d, e, f, g, h, i⟩, j⟩ := ih; exact ⟨⟨a, b, d, e, f, g, h.addLabel hl, i⟩, j⟩

structure Workload.Wf (w : Workload W ε) : Prop where
  sys : ∀ (i : Nat) s, w.systems[i]? = some s → s.uid = i ∧ s.Wf
  tags : Users w.tags
  beforeAll : Users w.beforeAll
  afterAll : Users w.afterAll
  reqBefore : Users w.reqBefore
  reqAfter : Users w.reqAfter
  barriers : ∀ k ∈ w.barriers, k ≤ w.systems.length

theorem Workload.Wf.propagate {w : Workload W ε} (h : w.Wf) : w.propagate.Wf := by
  refine ⟨?_, Users.nil, Users.nil, Users.nil, Users.nil, Users.nil, ?_⟩
  · intro i s hs
    have hs' : (w.systems.map fun s =>
      { s with
        runIf := propagateRunIf s.runIf w.runIf
        tags := s.tags ++ w.tags
        beforeAll := extendLabels s.beforeAll w.beforeAll
        afterAll := extendLabels s.afterAll w.afterAll
        reqBefore := extendLabels s.reqBefore w.reqBefore
        reqAfter := extendLabels s.reqAfter w.reqAfter })[i]? = some s := hs
    rw [List.getElem?_map] at hs'
    cases hg : w.systems[i]? with
    | none => rw [hg] at hs'; cases hs'
    | some x =>
      rw [hg] at hs'
      simp only [Option.map_some, Option.some.injEq] at hs'
      subst hs'
      obtain ⟨hu, a, b, c, d, e, f, g, v⟩ := h.sys i x hg
      exact ⟨hu, a, b.append h.tags, c.extend h.beforeAll, d.extend h.afterAll, e, f.extend h.reqBefore,
        g.extend h.reqAfter, v⟩
  · intro k hk
    show k ≤ (List.map _ w.systems).length
    rw [List.length_map]
    exact h.barriers k hk

theorem Workload.Wf.append {w w' : Workload W ε} (h : w.Wf) (h' : w'.Wf) : (w.append w').1.Wf := by
  refine ⟨?_, h.tags, h.beforeAll, h.afterAll, h.reqBefore, h.reqAfter, ?_⟩
  · intro i s hs
    have hs' : (w.systems ++ w'.systems.map fun s => { s with uid := s.uid + w.systems.length })[i]? = some s := hs
    by_cases hi : i < w.systems.length
    · rw [List.getElem?_append_left hi] at hs'
      exact h.sys i s hs'
    · rw [List.getElem?_append_right (by omega), List.getElem?_map] at hs'
      cases hg : w'.systems[i - w.systems.length]? with
      | none => rw [hg] at hs'; cases hs'
      | some x =>
        rw [hg] at hs'
        simp only [Option.map_some, Option.some.injEq] at hs'
        subst hs'
        obtain ⟨hu, a, b, c, d, e, f, g, v⟩ := h'.sys _ x hg
        refine ⟨?_, a, b, c, d, e, f, g, v⟩
        show x.uid + _ = i
        omega
  · intro k hk
    have := h.barriers k hk
    show k ≤ (w.systems ++ _).length
    rw [List.length_append]
    omega

theorem Workload.Wf.merge {w w' : Workload W ε} (h : w.Wf) (h' : w'.Wf) : (w.merge w').Wf := by
  have hp := h.propagate
  have hp' := h'.propagate
  have hlen : w.propagate.systems.length = w.systems.length := by
    show (List.map _ w.systems).length = _
    rw [List.length_map]
  have ha := hp.append hp'
  refine ⟨ha.sys, ha.tags, ha.beforeAll, ha.afterAll, ha.reqBefore, ha.reqAfter, ?_⟩
  intro k hk
  have hk' : k ∈ w.propagate.barriers ++ w'.propagate.barriers.map (· + w.propagate.systems.length) := hk
  have hl : (w.merge w').systems.length = w.propagate.systems.length + w'.propagate.systems.length := by
    show (w.propagate.systems ++ List.map _ w'.propagate.systems).length = _
    rw [List.length_append, List.length_map]
  rw [hl]
  rcases List.mem_append.mp hk' with hm | hm
  · have := hp.barriers k hm
    omega
  · obtain ⟨b, hb, rfl⟩ := List.mem_map.mp hm
    have := hp'.barriers b hb
    omega

theorem Workload.Wf.withSystem {w : Workload W ε} (h : w.Wf) {s : WSys W ε} (hs : s.Wf) (hu : s.uid = 0) :
    (w.withSystem s).Wf := by
  refine ⟨?_, h.tags, h.beforeAll, h.afterAll, h.reqBefore, h.reqAfter, ?_⟩
  · intro i t ht
    have ht' : (w.systems ++ [{ s with uid := s.uid + w.systems.length }])[i]? = some t := ht
    by_cases hi : i < w.systems.length
    · rw [List.getElem?_append_left hi] at ht'
      exact h.sys i t ht'
    · rw [List.getElem?_append_right (by omega)] at ht'
      have hi' : i - w.systems.length = 0 := by
        have := (List.getElem?_eq_some_iff.mp ht').1
        simpa using this
      rw [hi'] at ht'
      cases ht'
      refine ⟨?_, hs.before, hs.tags, hs.beforeAll, hs.afterAll, hs.reqIn, hs.reqBefore, hs.reqAfter, hs.valid⟩
      show s.uid + _ = i
      omega
  · intro k hk
    have := h.barriers k hk
    show k ≤ (w.systems ++ _).length
    rw [List.length_append]
    omega

theorem chainSystems_get (l : List (WSys W ε)) : (Workload.chainSystems l).length = l.length ∧
    ∀ (i : Nat) s, (Workload.chainSystems l)[i]? = some s → ∃ t, l[i]? = some t ∧
      (s = t ∨ ∃ n, s = t.addBeforeAll (.sequential (.typeId n))) := by
  match l with
  | [] => exact ⟨rfl, fun i s hs => ⟨s, hs, .inl rfl⟩⟩
  | [x] => exact ⟨rfl, fun i s hs => ⟨s, hs, .inl rfl⟩⟩
  | x :: y :: rest =>
    obtain ⟨h1, h2⟩ := chainSystems_get (y :: rest)
    refine ⟨?_, ?_⟩
    · show (_ :: Workload.chainSystems (y :: rest)).length = _
      rw [List.length_cons, h1]
      rfl
    · intro i s hs
      have hs' : (x.addBeforeAll (.sequential (.typeId y.typeId)) :: Workload.chainSystems (y :: rest))[i]?
        = some s := hs
      cases i with
      | zero =>
        rw [List.getElem?_cons_zero] at hs'
        cases hs'
        exact ⟨x, rfl, .inr ⟨_, rfl⟩⟩
      | succ i =>
        rw [List.getElem?_cons_succ] at hs'
        exact h2 i s hs'

theorem Built.wf {w : Workload W ε} (h : Built w) : w.Wf := by
  induction h with
  | new l hl =>
    exact ⟨(fun i s hs => by cases hs), Users.single hl, Users.nil, Users.nil, Users.nil, Users.nil,
      (fun k hk => by cases hk)⟩
  | @ofSystem t s hs =>
    refine ⟨?_, Users.single trivial, Users.nil, Users.nil, Users.nil, Users.nil, fun k hk => by cases hk⟩
    intro i x hx
    have hx' : [s][i]? = some x := hx
    cases i with
    | zero => cases hx'; exact ⟨hs.wf.2, hs.wf.1⟩
    | succ i => cases hx'
  | emptyTuple t =>
    exact ⟨(fun i s hs => by cases hs), Users.single trivial, Users.nil, Users.nil, Users.nil, Users.nil,
      (fun k hk => by cases hk)⟩
  | withSystem _ hs ih => exact ih.withSystem hs.wf.1 hs.wf.2
  | merge _ _ ih1 ih2 => exact ih1.merge ih2
  | append _ _ ih1 ih2 => exact ih1.append ih2
  | @withBarrier w _ ih =>
    refine ⟨ih.sys, ih.tags, ih.beforeAll, ih.afterAll, ih.reqBefore, ih.reqAfter, ?_⟩
    intro k hk
    rcases List.mem_append.mp (show k ∈ w.barriers ++ [w.systems.length] from hk) with hk | hk
    · exact ih.barriers k hk
    · rw [List.mem_singleton.mp hk]; exact Nat.le_refl _
  | runIf c _ ih => exact ⟨ih.sys, ih.tags, ih.beforeAll, ih.afterAll, ih.reqBefore, ih.reqAfter, ih.barriers⟩
  | skipIf c _ ih => exact ⟨ih.sys, ih.tags, ih.beforeAll, ih.afterAll, ih.reqBefore, ih.reqAfter, ih.barriers⟩
  | beforeAll l hl _ ih =>
    exact ⟨ih.sys, ih.tags, ih.beforeAll.addLabel hl, ih.afterAll, ih.reqBefore, ih.reqAfter, ih.barriers⟩
  | afterAll l hl _ ih =>
    exact ⟨ih.sys, ih.tags, ih.beforeAll, ih.afterAll.addLabel hl, ih.reqBefore, ih.reqAfter, ih.barriers⟩
  | rename l hl _ ih =>
    exact ⟨ih.sys, ih.tags.append (Users.single hl), ih.beforeAll, ih.afterAll, ih.reqBefore, ih.reqAfter, ih.barriers⟩
  | tag l hl _ ih =>
    exact ⟨ih.sys, ih.tags.append (Users.single hl), ih.beforeAll, ih.afterAll, ih.reqBefore, ih.reqAfter, ih.barriers⟩
  | ofFn t _ ih =>
    exact ⟨ih.sys, ih.tags.append (Users.single trivial), ih.beforeAll, ih.afterAll, ih.reqBefore, ih.reqAfter, ih.barriers⟩
  | @intoSequential w w' _ hw ih =>
    unfold Workload.intoSequential at hw
    split at hw
    · cases hw
      obtain ⟨hl, hg⟩ := chainSystems_get w.systems
      refine ⟨?_, ih.tags, ih.beforeAll, ih.afterAll, ih.reqBefore, ih.reqAfter, ?_⟩
      · intro i s hs
        obtain ⟨t, ht, he⟩ := hg i s hs
        obtain ⟨hu, a, b, c, d, e, f, g, v⟩ := ih.sys i t ht
        rcases he with rfl | ⟨n, rfl⟩
        · exact ⟨hu, a, b, c, d, e, f, g, v⟩
        · exact ⟨hu, a, b, c.addLabel trivial, d, e, f, g, v⟩
      · intro k hk
        show k ≤ (Workload.chainSystems w.systems).length
        rw [hl]
        exact ih.barriers k hk
    · cases hw

/-! ## `insert_systems_in_scheduler` -/

/-- The `ToBePlacedSystem` of a system. -/
structure Placed (x : Sys W ε) (s : WSys W ε) : Prop where
  uid : x.uid = s.uid
  name : x.name = s.name
  borrows : x.borrows = s.borrows
  tags : x.tags = s.tags ++ [.unique s.uid]
  beforeAll : x.beforeAll = s.beforeAll
  afterAll : x.afterAll = s.afterAll
  reqIn : x.reqIn = s.reqIn
  reqBefore : x.reqBefore = s.reqBefore
  reqAfter : x.reqAfter = s.reqAfter
  runIf : x.runIf = s.runIf

/-- What inserting leaves alone. -/
structure Grows (sch sch' : Scheduler W ε) : Prop where
  systems : sch.systems <+: sch'.systems
  workloads : sch'.workloads = sch.workloads
  default : sch'.default = sch.default

theorem Grows.refl (sch : Scheduler W ε) : Grows sch sch := ⟨List.prefix_refl _, rfl, rfl⟩

theorem Grows.trans {a b c : Scheduler W ε} (h : Grows a b) (h' : Grows b c) : Grows a c :=
  ⟨h.systems.trans h'.systems, h'.workloads.trans h.workloads, h'.default.trans h.default⟩

theorem prefix_get {α : Type} {l l' : List α} (h : l <+: l') {i : Nat} {x : α} (hx : l[i]? = some x) :
    l'[i]? = some x := by
  obtain ⟨t, rfl⟩ := h
  rw [List.getElem?_append_left (List.getElem?_eq_some_iff.mp hx).1]
  exact hx

theorem insertSystem_ok (sch : Scheduler W ε) (s : WSys W ε) :
    Placed (insertSystem sch s).2 s ∧ (insertSystem sch s).2.hardAfter = []
    ∧ (insertSystem sch s).2.softAfter = [] ∧ (s.before = [] → (insertSystem sch s).2.hardBefore = [])
    ∧ Grows sch (insertSystem sch s).1 := by
  unfold insertSystem
  refine ⟨⟨rfl, rfl, rfl, rfl, rfl, rfl, rfl, rfl, rfl, rfl⟩, rfl, rfl, ?_, ?_⟩
  · intro h
    show extendLabels [] (s.before.map _) = []
    rw [h]; rfl
  · dsimp only
    split
    · exact .refl _
    · exact ⟨List.prefix_append _ _, rfl, rfl⟩

theorem insertSystem_fn {fnOf : Nat → SysFn W ε} {sch : Scheduler W ε} (h : sch.Ok fnOf) (s : WSys W ε)
    (hs : s.fn = fnOf s.typeId) : (insertSystem sch s).1.Ok fnOf
    ∧ (insertSystem sch s).1.systems[(insertSystem sch s).2.index]? = some s.fn := by
  unfold insertSystem
  dsimp only
  cases hf : sch.lookup.find? (fun p => p.1 == s.typeId) with
  | some p =>
    refine ⟨h, ?_⟩
    have h1 := h p (List.mem_of_find?_eq_some hf)
    have h2 := List.find?_some hf
    simp only [beq_iff_eq] at h2
    show sch.systems[p.2]? = _
    rw [h1, h2, hs]
  | none =>
    refine ⟨?_, ?_⟩
    · intro p hp
      rcases List.mem_append.mp (show p ∈ sch.lookup ++ [(s.typeId, sch.systems.length)] from hp) with hp | hp
      · exact prefix_get (List.prefix_append _ _) (h p hp)
      · rw [List.mem_singleton.mp hp]
        show (sch.systems ++ [s.fn])[sch.systems.length]? = _
        simp [hs]
    · show (sch.systems ++ [s.fn])[sch.systems.length]? = _
      simp

theorem insertSystems_ok (ws : List (WSys W ε)) : ∀ (sch : Scheduler W ε),
    (insertSystems sch ws).2.length = ws.length
    ∧ (∀ (i : Nat) x, (insertSystems sch ws).2[i]? = some x → ∃ s, ws[i]? = some s ∧ Placed x s ∧ x.hardAfter = []
        ∧ x.softAfter = [] ∧ (s.before = [] → x.hardBefore = []))
    ∧ Grows sch (insertSystems sch ws).1 := by
  induction ws with
  | nil => intro sch; exact ⟨rfl, (fun i x hx => by cases hx), .refl _⟩
  | cons s rest ih =>
    intro sch
    obtain ⟨h1, h2, h3⟩ := ih (insertSystem sch s).1
    obtain ⟨k1, k2, k3, k4, k5⟩ := insertSystem_ok sch s
    refine ⟨?_, ?_, k5.trans h3⟩
    · show (_ :: (insertSystems (insertSystem sch s).1 rest).2).length = _
      rw [List.length_cons, h1]; rfl
    · intro i x hx
      cases i with
      | zero => cases hx; exact ⟨s, rfl, k1, k2, k3, k4⟩
      | succ i => exact h2 i x hx

theorem insertSystems_fn {fnOf : Nat → SysFn W ε} (ws : List (WSys W ε)) : ∀ (sch : Scheduler W ε),
    sch.Ok fnOf → (∀ s ∈ ws, s.fn = fnOf s.typeId) →
    (insertSystems sch ws).1.Ok fnOf ∧ ∀ (i : Nat) x s, (insertSystems sch ws).2[i]? = some x → ws[i]? = some s →
      (insertSystems sch ws).1.systems[x.index]? = some s.fn := by
  induction ws with
  | nil => intro sch h _; exact ⟨h, fun i x s hx => by cases hx⟩
  | cons s rest ih =>
    intro sch h hs
    obtain ⟨k1, k2⟩ := insertSystem_fn h s (hs s (by simp))
    obtain ⟨h1, h2⟩ := ih (insertSystem sch s).1 k1 (fun t ht => hs t (List.mem_cons_of_mem _ ht))
    refine ⟨h1, ?_⟩
    intro i x t hx ht
    cases i with
    | zero =>
      cases hx; cases ht
      exact prefix_get (insertSystems_ok rest (insertSystem sch s).1).2.2.systems k2
    | succ i => exact h2 i x t hx ht

end Verif.Sched
