import Verif.Lemmas.Built

/-! # The constraint graph and the schedule -/
namespace Verif.Sched

variable {W ε : Type}

open Relation (TransGen)

theorem conflictT_iff (a b : TypeInfo) : conflictT a b = true ↔ Clash a b := by
  unfold conflictT
  simp only [Bool.or_eq_true, Bool.and_eq_true, Bool.not_eq_true', decide_eq_true_eq]
  constructor
  · rintro (((⟨h1, h2⟩ | ⟨h1, h2⟩) | h) | h)
    · exact .thread h1 h2
    · exact .share h1 h2
    · exact .allLeft h
    · exact .allRight h
  · rintro (⟨h1, h2⟩ | ⟨h1, h2⟩ | h | h)
    · exact .inl (.inl (.inr ⟨h1, h2⟩))
    · exact .inl (.inl (.inl ⟨h1, h2⟩))
    · exact .inl (.inr h)
    · exact .inr h

theorem conflicts_iff (x y : WSys W ε) : Conflicts x y ↔ conflict x.borrows y.borrows = true := by
  rw [conflict_iff]
  unfold Conflicts
  simp only [conflictT_iff]

theorem Conflicts.symm {x y : WSys W ε} (h : Conflicts x y) : Conflicts y x := by
  rw [conflicts_iff] at h ⊢
  rw [conflict_symm]
  exact h

theorem optedOut_iff (x : Sys W ε) : x.optedOut = false ↔ x.beforeAll = [] ∧ x.afterAll = [] := by
  unfold Sys.optedOut
  simp

/-- The systems that reach the scheduler are those of the workload. -/
structure Link (w : Workload W ε) (xs : List (Sys W ε)) : Prop where
  len : xs.length = w.systems.length
  sys : ∀ (i : Nat) x, xs[i]? = some x → ∃ s, w.systems[i]? = some s ∧ Placed x s

theorem Link.fwd {w : Workload W ε} {xs : List (Sys W ε)} (h : Link w xs) {i : Nat} {s : WSys W ε}
    (hs : w.systems[i]? = some s) : ∃ x, xs[i]? = some x ∧ Placed x s := by
  have hi : i < xs.length := by
    rw [h.len]; exact (List.getElem?_eq_some_iff.mp hs).1
  obtain ⟨s', hs', hp⟩ := h.sys i xs[i] (List.getElem?_eq_getElem hi)
  rw [hs] at hs'; cases hs'
  exact ⟨_, List.getElem?_eq_getElem hi, hp⟩

theorem link (sch : Scheduler W ε) (w : Workload W ε) : Link w (insertSystems sch w.systems).2 := by
  obtain ⟨h1, h2, _⟩ := insertSystems_ok w.systems sch
  refine ⟨h1, ?_⟩
  intro i x hx
  obtain ⟨s, hs, hp, _⟩ := h2 i x hx
  exact ⟨s, hs, hp⟩

theorem Placed.unordered {x : Sys W ε} {s : WSys W ε} (h : Placed x s) : x.optedOut = false ↔ Unordered s := by
  rw [optedOut_iff, h.beforeAll, h.afterAll]
  exact Iff.rfl

theorem Link.blocks {w : Workload W ε} {xs : List (Sys W ε)} (h : Link w xs) {x : Sys W ε} {s : WSys W ε}
    (hp : Placed x s) (j : Nat) : blocks xs x j = true ↔
      ∃ z, w.systems[j]? = some z ∧ Unordered z ∧ Conflicts z s := by
  unfold Sched.blocks
  cases hj : xs[j]? with
  | none =>
    simp only [Bool.false_eq_true, false_iff]
    rintro ⟨z, hz, _⟩
    obtain ⟨y, hy, _⟩ := h.fwd hz
    rw [hj] at hy; cases hy
  | some o =>
    obtain ⟨z, hz, hpz⟩ := h.sys j o hj
    simp only [Bool.and_eq_true, Bool.not_eq_true']
    rw [hpz.unordered, hp.borrows, hpz.borrows]
    constructor
    · rintro ⟨h1, h2⟩
      exact ⟨z, hz, h1, Conflicts.symm ((conflicts_iff _ _).mpr h2)⟩
    · rintro ⟨z', hz', h1, h2⟩
      rw [hz] at hz'; cases hz'
      exact ⟨h1, (conflicts_iff _ _).mp h2.symm⟩

theorem Link.isImplicit {w : Workload W ε} {xs : List (Sys W ε)} (h : Link w xs) (j : Nat) :
    isImplicit xs j = true ↔ ∃ z, w.systems[j]? = some z ∧ Unordered z := by
  unfold Sched.isImplicit
  cases hj : xs[j]? with
  | none =>
    simp only [Bool.false_eq_true, false_iff]
    rintro ⟨z, hz, _⟩
    obtain ⟨y, hy, _⟩ := h.fwd hz
    rw [hj] at hy; cases hy
  | some o =>
    obtain ⟨z, hz, hpz⟩ := h.sys j o hj
    simp only [Bool.not_eq_true']
    rw [hpz.unordered]
    constructor
    · intro h1; exact ⟨z, hz, h1⟩
    · rintro ⟨z', hz', h1⟩
      rw [hz] at hz'; cases hz'
      exact h1

/-- `findDown` finds the greatest index. -/
theorem findDown_eq {p : Nat → Bool} {i j : Nat} :
    findDown p i = some j ↔ j < i ∧ p j = true ∧ ∀ k, j < k → k < i → p k = false := by
  constructor
  · exact findDown_some
  · rintro ⟨h1, h2, h3⟩
    cases hf : findDown p i with
    | none =>
      have := findDown_none hf j h1
      rw [h2] at this; cases this
    | some k =>
      obtain ⟨k1, k2, k3⟩ := findDown_some hf
      rcases Nat.lt_trichotomy j k with h | h | h
      · rw [h3 k h k1] at k2; cases k2
      · rw [h]
      · rw [k3 j h h1] at h2; cases h2

theorem hardSpec_iff {w : Workload W ε} (hw : w.Wf) {xs : List (Sys W ε)} (h : Link w xs) {a b : Nat}
    (hb : b < w.systems.length) : HardSpec xs w.barriers a b ↔ Explicit w a b ∨ Nearest w a b := by
  have user : ∀ {i : Nat} {x : Sys W ε} {s : WSys W ε} {l : Label}, Placed x s → w.systems[i]? = some s →
      l.user → (l ∈ x.tags ↔ l ∈ s.tags) := by
    intro i x s l hp _ hl
    rw [hp.tags, List.mem_append, List.mem_singleton]
    constructor
    · rintro (h | rfl)
      · exact h
      · cases hl
    · exact .inl
  unfold HardSpec
  constructor
  · rintro (⟨k, hk, h1, h2⟩ | ⟨x, hx, ho, hf⟩ | ⟨hne, x, y, hx, hy, l, h1, h2⟩ | ⟨hne, x, y, hx, hy, l, h1, h2⟩)
    · exact .inl (.barrier hk h1 h2 hb)
    · obtain ⟨s, hs, hp⟩ := h.sys b x hx
      obtain ⟨h1, h2, h3⟩ := findDown_some hf
      obtain ⟨z, hz, hz1, hz2⟩ := (h.blocks hp a).mp h2
      refine .inr ⟨z, s, hz, hs, h1, hz1, hp.unordered.mp ho, hz2, ?_⟩
      intro k u hk1 hk2 hu1 hu2 hu3
      have := (h.blocks hp k).mpr ⟨u, hu1, hu2, hu3⟩
      rw [h3 k hk1 hk2] at this; cases this
    · obtain ⟨s, hs, hp⟩ := h.sys a x hx
      obtain ⟨t, ht, hq⟩ := h.sys b y hy
      rw [hp.beforeAll] at h1
      have hl := (hw.sys a s hs).2.beforeAll l h1
      exact .inl (.beforeAll hs ht hne h1 ((user hq ht hl).mp h2))
    · obtain ⟨s, hs, hp⟩ := h.sys a x hx
      obtain ⟨t, ht, hq⟩ := h.sys b y hy
      rw [hq.afterAll] at h1
      have hl := (hw.sys b t ht).2.afterAll l h1
      exact .inl (.afterAll hs ht hne h1 ((user hp hs hl).mp h2))
  · rintro (he | ⟨x, y, hx, hy, hab, u1, u2, hc, hn⟩)
    · cases he with
      | @beforeAll x y l hx hy hne h1 h2 =>
        obtain ⟨x', hx', hp⟩ := h.fwd hx
        obtain ⟨y', hy', hq⟩ := h.fwd hy
        have hl := (hw.sys a x hx).2.beforeAll l h1
        exact .inr (.inr (.inl ⟨hne, x', y', hx', hy', l, by rw [hp.beforeAll]; exact h1, (user hq hy hl).mpr h2⟩))
      | @afterAll x y l hx hy hne h1 h2 =>
        obtain ⟨x', hx', hp⟩ := h.fwd hx
        obtain ⟨y', hy', hq⟩ := h.fwd hy
        have hl := (hw.sys b y hy).2.afterAll l h1
        exact .inr (.inr (.inr ⟨hne, x', y', hx', hy', l, by rw [hq.afterAll]; exact h1, (user hp hx hl).mpr h2⟩))
      | barrier hk h1 h2 _ => exact .inl ⟨_, hk, h1, h2⟩
    · obtain ⟨y', hy', hq⟩ := h.fwd hy
      refine .inr (.inl ⟨y', hy', hq.unordered.mpr u2, findDown_eq.mpr ⟨hab, (h.blocks hq a).mpr ⟨x, hx, u1, hc⟩, ?_⟩⟩)
      intro k hk1 hk2
      cases hb : Sched.blocks xs y' k with
      | false => rfl
      | true =>
        obtain ⟨z, hz, hz1, hz2⟩ := (h.blocks hq k).mp hb
        exact absurd hz2 (hn k z hk1 hk2 hz hz1)

theorem softSpec_implicit {w : Workload W ε} {xs : List (Sys W ε)} (h : Link w xs) {a b : Nat}
    (hs : SoftSpec xs a b) : Implicit w a b := by
  obtain ⟨x, hx, ho, hf⟩ := hs
  obtain ⟨h1, h2, _⟩ := findDown_some hf
  obtain ⟨s, hs, hp⟩ := h.sys b x hx
  obtain ⟨z, hz, hz1⟩ := (h.isImplicit a).mp h2
  exact ⟨h1, z, s, hz, hs, hz1, hp.unordered.mp ho⟩

theorem implicit_soft {w : Workload W ε} {xs : List (Sys W ε)} (h : Link w xs) (a : Nat) : ∀ (b : Nat),
    Implicit w a b → TransGen (SoftSpec xs) a b := by
  intro b
  induction b using Nat.strongRecOn with
  | _ b ih =>
    rintro ⟨hab, x, y, hx, hy, ux, uy⟩
    obtain ⟨y', hy', hq⟩ := h.fwd hy
    cases hf : findDown (Sched.isImplicit xs) b with
    | none =>
      have := findDown_none hf a hab
      rw [(h.isImplicit a).mpr ⟨x, hx, ux⟩] at this; cases this
    | some k =>
      have hedge : SoftSpec xs k b := ⟨y', hy', hq.unordered.mpr uy, hf⟩
      obtain ⟨k1, k2, k3⟩ := findDown_some hf
      rcases Nat.lt_trichotomy a k with hk | hk | hk
      · obtain ⟨z, hz, uz⟩ := (h.isImplicit k).mp k2
        exact .tail (ih k k1 ⟨hk, x, z, hx, hz, ux, uz⟩) hedge
      · subst hk; exact .single hedge
      · have := (h.isImplicit a).mpr ⟨x, hx, ux⟩
        rw [k3 a hk hab] at this; cases this

theorem nearest_implicit {w : Workload W ε} {a b : Nat} (h : Nearest w a b) : Implicit w a b := by
  obtain ⟨x, y, hx, hy, hab, ux, uy, _⟩ := h
  exact ⟨hab, x, y, hx, hy, ux, uy⟩

/-- The systems after the constraint passes. -/
structure Graph (w : Workload W ε) (xs ss : List (Sys W ε)) : Prop where
  len : ss.length = w.systems.length
  sys : ∀ (i : Nat) y, ss[i]? = some y → ∃ x s, xs[i]? = some x ∧ w.systems[i]? = some s ∧ Placed x s ∧ Same x y
    ∧ (∀ j, j ∈ y.hardAfter ↔ Explicit w j i ∨ Nearest w j i) ∧ (∀ j, j ∈ y.softAfter ↔ SoftSpec xs j i)

theorem Graph.noted {w : Workload W ε} {xs ss : List (Sys W ε)} (h : Graph w xs ss) :
    Graph w xs (ss.map Sys.noteAfter) := by
  refine ⟨by rw [List.length_map]; exact h.len, ?_⟩
  intro i y hy
  rw [List.getElem?_map] at hy
  cases hz : ss[i]? with
  | none => rw [hz] at hy; cases hy
  | some z =>
    rw [hz] at hy
    simp only [Option.map_some, Option.some.injEq] at hy
    subst hy
    obtain ⟨x, s, h1, h2, h3, h4, h5, h6⟩ := h.sys i z hz
    refine ⟨x, s, h1, h2, h3, ?_, h5, h6⟩
    unfold Same at h4 ⊢
    unfold Sys.noteAfter
    conv => lhs; rw [h4]

theorem graph {w : Workload W ε} (hw : w.Wf) (sch : Scheduler W ε) :
    ∃ ss, constrain (insertSystems sch w.systems).2 w.barriers = .ok ss
      ∧ Graph w (insertSystems sch w.systems).2 ss
      ∧ ∀ (i : Nat) y, ss[i]? = some y → ∃ x, (insertSystems sch w.systems).2[i]? = some x
        ∧ y.notes = notesOf (insertSystems sch w.systems).2 i x := by
  have hl := link sch w
  obtain ⟨_, h2, _⟩ := insertSystems_ok w.systems sch
  obtain ⟨ss, e, hp⟩ := constrain_ok (insertSystems sch w.systems).2 w.barriers
    (fun b hb => by rw [hl.len]; exact hw.barriers b hb) (by
      intro x hx
      obtain ⟨i, hi⟩ := List.mem_iff_getElem?.mp hx
      obtain ⟨s, hs, _, p1, p2, p3⟩ := h2 i x hi
      exact ⟨p1, p2, p3 (hw.sys i s hs).2.before⟩)
  refine ⟨ss, e, ⟨hp.1.trans hl.len, ?_⟩, fun i y hy => (hp.back hy).imp fun x h => ⟨h.1, h.2.2.2.2⟩⟩
  intro i y hy
  obtain ⟨x, hx, hsame, hh, hs, _⟩ := hp.back hy
  obtain ⟨s, hs', hpl⟩ := hl.sys i x hx
  refine ⟨x, s, hx, hs', hpl, hsame, ?_, hs⟩
  intro j
  rw [hh j]
  exact hardSpec_iff hw hl (List.getElem?_eq_some_iff.mp hs').1

theorem explicit_lt {w : Workload W ε} {a b : Nat} (h : Explicit w a b) :
    a < w.systems.length ∧ b < w.systems.length ∧ a ≠ b := by
  cases h with
  | beforeAll hx hy hne => exact ⟨(List.getElem?_eq_some_iff.mp hx).1, (List.getElem?_eq_some_iff.mp hy).1, hne⟩
  | afterAll hx hy hne => exact ⟨(List.getElem?_eq_some_iff.mp hx).1, (List.getElem?_eq_some_iff.mp hy).1, hne⟩
  | barrier hk h1 h2 h3 => exact ⟨by omega, h3, by omega⟩

theorem implicit_lt {w : Workload W ε} {a b : Nat} (h : Implicit w a b) :
    a < w.systems.length ∧ b < w.systems.length := by
  obtain ⟨_, x, y, hx, hy, _⟩ := h
  exact ⟨(List.getElem?_eq_some_iff.mp hx).1, (List.getElem?_eq_some_iff.mp hy).1⟩

theorem Same.tags {x y : Sys W ε} (h : Same x y) : y.tags = x.tags := by rw [h]
theorem Same.uid {x y : Sys W ε} (h : Same x y) : y.uid = x.uid := by rw [h]
theorem Same.borrows {x y : Sys W ε} (h : Same x y) : y.borrows = x.borrows := by rw [h]
theorem Same.index {x y : Sys W ε} (h : Same x y) : y.index = x.index := by rw [h]
theorem Same.name {x y : Sys W ε} (h : Same x y) : y.name = x.name := by rw [h]
theorem Same.runIf {x y : Sys W ε} (h : Same x y) : y.runIf = x.runIf := by rw [h]
theorem Same.reqBefore {x y : Sys W ε} (h : Same x y) : y.reqBefore = x.reqBefore := by rw [h]
theorem Same.reqAfter {x y : Sys W ε} (h : Same x y) : y.reqAfter = x.reqAfter := by rw [h]

theorem Graph.num {w : Workload W ε} (hw : w.Wf) {sch : Scheduler W ε} {ss : List (Sys W ε)}
    (h : Graph w (insertSystems sch w.systems).2 ss) : Num ss := by
  intro i y hy
  obtain ⟨x, s, hx, hs, hp, hsame, hh, hso⟩ := h.sys i y hy
  obtain ⟨hu, hwf⟩ := hw.sys i s hs
  refine ⟨?_, ?_, ?_, ?_⟩
  · rw [hsame.uid, hp.uid, hu]
  · intro n
    rw [hsame.tags, hp.tags, List.mem_append, List.mem_singleton, hu]
    constructor
    · rintro (h' | h')
      · exact absurd h' (hwf.tags.not_unique n)
      · cases h'; rfl
    · rintro rfl; exact .inr rfl
  · intro j hj
    rw [h.len]
    rcases (hh j).mp hj with h' | h'
    · exact (explicit_lt h').1
    · exact (implicit_lt (nearest_implicit h')).1
  · intro j hj
    rw [h.len]
    exact (implicit_lt (softSpec_implicit (link sch w) ((hso j).mp hj))).1

/-! ## Cycles -/

theorem TransGen.mono {α : Type} {R S : α → α → Prop} (h : ∀ a b, R a b → S a b) {a b : α} (hr : TransGen R a b) :
    TransGen S a b := by
  induction hr with
  | single h' => exact .single (h _ _ h')
  | tail _ h' ih => exact .tail ih (h _ _ h')

theorem TransGen.trans' {α : Type} {R : α → α → Prop} {a b c : α} (h1 : TransGen R a b) (h2 : TransGen R b c) :
    TransGen R a c := by
  induction h2 with
  | single h => exact .tail h1 h
  | tail _ h ih => exact .tail ih h

theorem TransGen.join {α : Type} {R S : α → α → Prop} (h : ∀ a b, R a b → TransGen S a b) {a b : α}
    (hr : TransGen R a b) : TransGen S a b := by
  induction hr with
  | single h' => exact h _ _ h'
  | tail _ h' ih => exact TransGen.trans' ih (h _ _ h')

theorem TransGen.cons {α : Type} {R : α → α → Prop} {a b c : α} (h1 : R a b) (h2 : TransGen R b c) :
    TransGen R a c := TransGen.trans' (.single h1) h2

/-- A finite non-empty set has a minimal element for a transitive irreflexive relation. -/
theorem minimal {T : Nat → Nat → Prop} (irr : ∀ a, ¬ T a a) (tr : ∀ a b c, T a b → T b c → T a c) :
    ∀ (l : List Nat), l ≠ [] → ∃ m ∈ l, ∀ a ∈ l, ¬ T a m := by
  intro l
  induction l with
  | nil => intro h; exact absurd rfl h
  | cons x t ih =>
    intro _
    by_cases ht : t = []
    · subst ht
      refine ⟨x, by simp, ?_⟩
      intro a ha
      rw [List.mem_singleton.mp ha]
      exact irr x
    · obtain ⟨m, hm, hmin⟩ := ih ht
      rcases Classical.em (T x m) with h | h
      · refine ⟨x, by simp, ?_⟩
        intro a ha
        rcases List.mem_cons.mp ha with rfl | ha
        · exact irr a
        · intro hax
          exact hmin a ha (tr a x m hax h)
      · refine ⟨m, List.mem_cons_of_mem _ hm, ?_⟩
        intro a ha
        rcases List.mem_cons.mp ha with rfl | ha
        · exact h
        · exact hmin a ha

theorem no_source_cycle {R : Nat → Nat → Prop} (l : List Nat) (hne : l ≠ []) (h : ∀ b ∈ l, ∃ a ∈ l, R a b) :
    ∃ a, TransGen R a a := by
  apply Classical.byContradiction
  intro hno
  obtain ⟨m, hm, hmin⟩ := minimal (T := TransGen R) (fun a ha => hno ⟨a, ha⟩)
    (fun a b c h1 h2 => TransGen.trans' h1 h2) l hne
  obtain ⟨a, ha, hr⟩ := h m hm
  exact hmin a ha (.single hr)

/-- All the edges the scheduler keeps. -/
def Edge (xs : List (Sys W ε)) (w : Workload W ε) (a b : Nat) : Prop :=
  Explicit w a b ∨ Nearest w a b ∨ SoftSpec xs a b

theorem edge_before {w : Workload W ε} {xs : List (Sys W ε)} (h : Link w xs) {a b : Nat} (he : Edge xs w a b) :
    Before w a b := by
  rcases he with h' | h' | h'
  · exact .inl h'
  · exact .inr (nearest_implicit h')
  · exact .inr (softSpec_implicit h h')

theorem before_edge {w : Workload W ε} {xs : List (Sys W ε)} (h : Link w xs) {a b : Nat} (hb : Before w a b) :
    TransGen (Edge xs w) a b := by
  rcases hb with h' | h'
  · exact .single (.inl h')
  · exact TransGen.mono (fun _ _ hs => .inr (.inr hs)) (implicit_soft h a b h')

/-- What `order_systems` returns, also for an empty workload. -/
structure Out (ss : List (Sys W ε)) (o : Order W ε) : Prop where
  perm : o.placed.Perm (List.range ss.length)
  trace : TraceOk ss o.trace
  par : o.parallel.length = o.info.length
  info : o.info = (List.range o.info.length).map (batchOf o.trace)
  bound : ∀ p ∈ o.trace, p.1 < o.info.length
  mono : o.trace.Pairwise fun p q => p.1 ≤ q.1
  sep : o.trace.Pairwise fun p q => p.1 = q.1 → conflict q.2.borrows p.2.borrows = false
  seq : o.sequential = o.trace.map (·.2.index)
  parSys : o.parallel = o.info.map fun b => (b.1.map (·.index), b.2.map (·.index))
  seqIf : o.sequentialRunIf.map (resolve o.runIfs) = o.trace.map (·.2.runIf)
  parIf : o.parallelRunIf.map (fun b => (resolve o.runIfs b.1, b.2.map (resolve o.runIfs)))
    = o.info.map fun b => (b.1.bind (·.runIf), b.2.map (·.runIf))
  seqVal : ∀ i ∈ o.sequentialRunIf, Valid o.runIfs i
  parVal1 : ∀ b ∈ o.parallelRunIf, Valid o.runIfs b.1
  parVal2 : ∀ b ∈ o.parallelRunIf, ∀ i ∈ b.2, Valid o.runIfs i

theorem Out.none : Out ([] : List (Sys W ε)) Order.none where
  perm := .refl _
  trace := by
    intro pre p post h
    have : ([] : List (Nat × Sys W ε)) = pre ++ p :: post := h
    simp at this
  par := rfl
  info := rfl
  bound := fun p hp => by cases hp
  mono := .nil
  sep := .nil
  seq := rfl
  parSys := rfl
  seqIf := rfl
  parIf := rfl
  seqVal := fun _ h => by cases h
  parVal1 := fun _ h => by cases h
  parVal2 := fun _ h => by cases h

/-- `order_systems`: either a full schedule, or a cycle among the edges. -/
theorem order_ok {w : Workload W ε} (hw : w.Wf) {sch : Scheduler W ε} {ss : List (Sys W ε)}
    (h : Graph w (insertSystems sch w.systems).2 ss) :
    (∃ o, orderSystems ss = .ok o ∧ Out (ss.map Sys.noteAfter) o) ∨
    (∃ names, orderSystems ss = .error (.err (.cycle names)) ∧ names ≠ []
      ∧ ∃ a, TransGen (Edge (insertSystems sch w.systems).2 w) a a) := by
  have hn := h.num hw
  by_cases hne : ss = []
  · subst hne
    exact .inl ⟨Order.none, rfl, Out.none⟩
  · obtain ⟨o, hd, hf, he⟩ := orderSystems_ok hn hne
    replace hn := hn.noted
    replace h := h.noted
    generalize ss.map Sys.noteAfter = ss at hn h hf ⊢
    by_cases hr : o.rest = []
    · left
      refine ⟨o, by rw [he, hr]; rfl, ?_⟩
      have hp := hf.perm
      rw [hr, List.map_nil, List.append_nil] at hp
      exact ⟨hp, hf.trace, by rw [hd.par, List.length_map], hd.info, hd.bound, hd.mono, hd.sep, hd.seq, hd.par,
        hd.seqIf, hd.parIf, hd.seqVal, hd.parVal1, hd.parVal2⟩
    · right
      refine ⟨o.rest.map (·.name), ?_, by simpa using hr, ?_⟩
      · rw [he]
        have : o.rest.isEmpty = false := by simp [hr]
        rw [this]; rfl
      · refine no_source_cycle (o.rest.map (·.uid)) (by simpa using hr) ?_
        intro b hb
        obtain ⟨x, hx, rfl⟩ := List.mem_map.mp hb
        obtain ⟨s, his, j, hj, hjp⟩ := hf.stuck x hx
        obtain ⟨x', t, hx', ht, hp, hsame, hh, hso⟩ := h.sys x.uid s his.1
        obtain ⟨_, _, n3, n4⟩ := hn x.uid s his.1
        have hjl : j < ss.length := by
          rcases hj with h' | h'
          · exact n4 j h'
          · exact n3 j h'
        refine ⟨j, ?_, ?_⟩
        · have := (hf.perm.mem_iff (a := j)).mpr (List.mem_range.mpr hjl)
          rcases List.mem_append.mp this with h' | h'
          · exact absurd h' hjp
          · exact h'
        · rcases hj with h' | h'
          · exact .inr (.inr ((hso j).mp h'))
          · rcases (hh j).mp h' with h' | h'
            · exact .inl h'
            · exact .inr (.inl h')

end Verif.Sched
