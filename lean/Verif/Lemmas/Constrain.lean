import Verif.Lemmas.OrderInv

/-! # The constraint passes of `create_workload` -/
namespace Verif.Sched

variable {W ε : Type}

/-- `ys` is `xs` with each system changed according to `P position old new`. -/
def Pass (P : Nat → Sys W ε → Sys W ε → Prop) (xs ys : List (Sys W ε)) : Prop :=
  ys.length = xs.length ∧ ∀ (i : Nat) x, xs[i]? = some x → ∃ y, ys[i]? = some y ∧ P i x y

theorem Pass.refl {P : Nat → Sys W ε → Sys W ε → Prop} (xs : List (Sys W ε)) (h : ∀ i x, P i x x) :
    Pass P xs xs := ⟨rfl, fun i x hx => ⟨x, hx, h i x⟩⟩

theorem Pass.trans {P Q R : Nat → Sys W ε → Sys W ε → Prop} {xs ys zs : List (Sys W ε)}
    (h1 : Pass P xs ys) (h2 : Pass Q ys zs) (h : ∀ i x y z, P i x y → Q i y z → R i x z) :
    Pass R xs zs := by
  refine ⟨h2.1.trans h1.1, ?_⟩
  intro i x hx
  obtain ⟨y, hy, hp⟩ := h1.2 i x hx
  obtain ⟨z, hz, hq⟩ := h2.2 i y hy
  exact ⟨z, hz, h i x y z hp hq⟩

theorem Pass.mono {P Q : Nat → Sys W ε → Sys W ε → Prop} {xs ys : List (Sys W ε)}
    (h1 : Pass P xs ys) (h : ∀ i x y, P i x y → Q i x y) : Pass Q xs ys :=
  ⟨h1.1, fun i x hx => let ⟨y, hy, hp⟩ := h1.2 i x hx; ⟨y, hy, h i x y hp⟩⟩

theorem Pass.mapIdx (f : Nat → Sys W ε → Sys W ε) (xs : List (Sys W ε)) :
    Pass (fun i x y => y = f i x) xs (xs.mapIdx f) := by
  refine ⟨by simp, ?_⟩
  intro i x hx
  exact ⟨f i x, by simp [hx], rfl⟩

/-- Reading a pass backwards. -/
theorem Pass.back {P : Nat → Sys W ε → Sys W ε → Prop} {xs ys : List (Sys W ε)} (h : Pass P xs ys)
    {i : Nat} {y : Sys W ε} (hy : ys[i]? = some y) : ∃ x, xs[i]? = some x ∧ P i x y := by
  have hi : i < xs.length := by
    rw [← h.1]
    exact (List.getElem?_eq_some_iff.mp hy).1
  obtain ⟨z, hz, hp⟩ := h.2 i xs[i] (List.getElem?_eq_getElem hi)
  rw [hy] at hz
  cases hz
  exact ⟨_, List.getElem?_eq_getElem hi, hp⟩

/-- Only `hard_after` changed, and `j` is in the new one iff it was in the old one or `p j`. -/
def Hard (p : Nat → Sys W ε → Nat → Prop) (i : Nat) (x y : Sys W ε) : Prop :=
  y = { x with hardAfter := y.hardAfter } ∧ ∀ j, j ∈ y.hardAfter ↔ j ∈ x.hardAfter ∨ p i x j

theorem barriers_ok (bs : List Nat) : ∀ (xs : List (Sys W ε)), (∀ b ∈ bs, b ≤ xs.length) →
    ∃ ys, propagateBarriers xs bs = .ok ys ∧ Pass (Hard fun i _ j => ∃ b ∈ bs, j < b ∧ b ≤ i) xs ys := by
  induction bs with
  | nil =>
    intro xs _
    refine ⟨xs, rfl, Pass.refl xs ?_⟩
    intro i x
    exact ⟨rfl, by simp⟩
  | cons b bs ih =>
    intro xs hb
    have hl := hb b (by simp)
    have hp := Pass.mapIdx (fun k (s : Sys W ε) => if b ≤ k then s.after (List.range b) else s) xs
    obtain ⟨ys, h1, h2⟩ := ih (xs.mapIdx fun k s => if b ≤ k then s.after (List.range b) else s) (by
      intro c hc
      rw [hp.1]
      exact hb c (List.mem_cons_of_mem _ hc))
    refine ⟨ys, ?_, ?_⟩
    · unfold propagateBarriers
      rw [if_neg (by omega)]
      exact h1
    · refine hp.trans h2 ?_
      rintro i x y z hy ⟨hz, hm⟩
      subst hy
      by_cases hbi : b ≤ i
      · simp only [hbi, if_true] at hz hm ⊢
        refine ⟨?_, ?_⟩
        · rw [hz]; rfl
        · intro j
          rw [hm j]
          show (j ∈ (List.range b).foldl addId x.hardAfter ∨ _) ↔ _
          rw [mem_foldl_addId, List.mem_range]
          simp only [List.mem_cons, exists_eq_or_imp, hbi, and_true]
          exact or_assoc
      · simp only [hbi, if_false] at hz hm ⊢
        refine ⟨hz, ?_⟩
        intro j
        rw [hm j]
        simp [hbi]

theorem findDown_some {p : Nat → Bool} {i j : Nat} (h : findDown p i = some j) :
    j < i ∧ p j = true ∧ ∀ k, j < k → k < i → p k = false := by
  induction i with
  | zero => cases h
  | succ i ih =>
    unfold findDown at h
    cases hp : p i with
    | true =>
      rw [hp] at h
      simp only [if_true] at h
      cases h
      exact ⟨Nat.lt_succ_self _, hp, fun k h1 h2 => by omega⟩
    | false =>
      rw [hp] at h
      simp only [Bool.false_eq_true, if_false] at h
      obtain ⟨h1, h2, h3⟩ := ih h
      refine ⟨by omega, h2, ?_⟩
      intro k hk1 hk2
      by_cases he : k = i
      · subst he; exact hp
      · exact h3 k hk1 (by omega)

theorem findDown_none {p : Nat → Bool} {i : Nat} (h : findDown p i = none) :
    ∀ k, k < i → p k = false := by
  induction i with
  | zero => intro k hk; omega
  | succ i ih =>
    unfold findDown at h
    cases hp : p i with
    | true =>
      rw [hp] at h
      simp at h
    | false =>
      rw [hp] at h
      simp only [Bool.false_eq_true, if_false] at h
      intro k hk
      by_cases he : k = i
      · subst he; exact hp
      · exact ih h k (by omega)

/-- The conflict the implicit ordering writes down for the system at position `i`. -/
def implicitConflict (xs : List (Sys W ε)) (i : Nat) (x : Sys W ε) : Option Conflict :=
  if x.optedOut then x.notes.conflict
  else
    match findDown (blocks xs x) i with
    | some j => conflictWith xs x j
    | none => x.notes.conflict

/-- Only `hard_after` and `confict` changed. -/
def HardC (xs : List (Sys W ε)) (p : Nat → Sys W ε → Nat → Prop) (i : Nat) (x y : Sys W ε) : Prop :=
  y = { x with hardAfter := y.hardAfter, notes := { x.notes with conflict := implicitConflict xs i x } }
    ∧ ∀ j, j ∈ y.hardAfter ↔ j ∈ x.hardAfter ∨ p i x j

theorem implicitHard_ok (xs : List (Sys W ε)) :
    Pass (HardC xs fun i x j => x.optedOut = false ∧ findDown (blocks xs x) i = some j) xs (implicitHard xs) := by
  refine (Pass.mapIdx _ xs).mono ?_
  intro i x y hy
  subst hy
  unfold HardC implicitConflict
  cases ho : x.optedOut with
  | true => exact ⟨rfl, fun j => by simp [ho]⟩
  | false =>
    simp only [Bool.false_eq_true, if_false]
    cases hf : findDown (blocks xs x) i with
    | none => exact ⟨rfl, fun j => by simp⟩
    | some k =>
      refine ⟨rfl, fun j => ?_⟩
      show j ∈ addId x.hardAfter k ↔ _
      rw [mem_addId]
      simp only [ho, true_and, Option.some.injEq]
      constructor
      · rintro (h | h)
        · exact .inr h.symm
        · exact .inl h
      · rintro (h | h)
        · exact .inr h
        · exact .inl h.symm

def Soft (p : Nat → Sys W ε → Nat → Prop) (i : Nat) (x y : Sys W ε) : Prop :=
  y = { x with softAfter := y.softAfter } ∧ ∀ j, j ∈ y.softAfter ↔ j ∈ x.softAfter ∨ p i x j

theorem implicitSoft_ok (xs : List (Sys W ε)) :
    Pass (Soft fun i x j => x.optedOut = false ∧ findDown (isImplicit xs) i = some j) xs (implicitSoft xs) := by
  refine (Pass.mapIdx _ xs).mono ?_
  intro i x y hy
  subst hy
  cases ho : x.optedOut with
  | true => exact ⟨rfl, fun j => by simp [ho]⟩
  | false =>
    simp only [Bool.false_eq_true, if_false]
    cases hf : findDown (isImplicit xs) i with
    | none => exact ⟨rfl, fun j => by simp [hf]⟩
    | some k =>
      refine ⟨rfl, fun j => ?_⟩
      show j ∈ addId x.softAfter k ↔ _
      rw [mem_addId]
      simp only [ho, hf, true_and, Option.some.injEq]
      constructor
      · rintro (h | h)
        · exact .inr h.symm
        · exact .inl h
      · rintro (h | h)
        · exact .inr h
        · exact .inl h.symm

/-- `a`'s `before_all` names a tag of `b`. -/
def BeforeAll (xs : List (Sys W ε)) (a b : Nat) : Prop :=
  ∃ x y, xs[a]? = some x ∧ xs[b]? = some y ∧ ∃ l, l ∈ x.beforeAll ∧ l ∈ y.tags

/-- `b`'s `after_all` names a tag of `a`. -/
def AfterAll (xs : List (Sys W ε)) (a b : Nat) : Prop :=
  ∃ x y, xs[a]? = some x ∧ xs[b]? = some y ∧ ∃ l, l ∈ y.afterAll ∧ l ∈ x.tags

theorem beforeAllNotes_congr {xs ys : List (Sys W ε)}
    (h : ys.map (fun s => (s.tags, s.index)) = xs.map (fun s => (s.tags, s.index))) (i : Nat) (l : List Label) :
    beforeAllNotes ys i l = beforeAllNotes xs i l := by
  have hl : ys.length = xs.length := by simpa using congrArg List.length h
  unfold beforeAllNotes
  rw [hl]
  congr 1
  funext j
  have hj := congrArg (fun l => l[j]?) h
  simp only [List.getElem?_map] at hj
  cases h1 : ys[j]? with
  | none =>
    cases h2 : xs[j]? with
    | none => rfl
    | some b => rw [h1, h2] at hj; cases hj
  | some a =>
    cases h2 : xs[j]? with
    | none => rw [h1, h2] at hj; cases hj
    | some b =>
      rw [h1, h2] at hj
      simp only [Option.map_some, Option.some.injEq, Prod.mk.injEq] at hj
      simp only
      rw [hj.1, hj.2]

theorem afterAllNotes_congr {xs ys : List (Sys W ε)}
    (h : ys.map (fun s => s.tags) = xs.map (fun s => s.tags)) (i : Nat) (l : List Label) :
    afterAllNotes ys i l = afterAllNotes xs i l := by
  have hl : ys.length = xs.length := by simpa using congrArg List.length h
  unfold afterAllNotes
  rw [hl]
  congr 1
  funext j
  have hj := congrArg (fun l => l[j]?) h
  simp only [List.getElem?_map] at hj
  cases h1 : ys[j]? with
  | none =>
    cases h2 : xs[j]? with
    | none => rfl
    | some b => rw [h1, h2] at hj; cases hj
  | some a =>
    cases h2 : xs[j]? with
    | none => rw [h1, h2] at hj; cases hj
    | some b =>
      rw [h1, h2] at hj
      simp only [Option.map_some, Option.some.injEq] at hj
      simp only
      rw [hj]

theorem Pass.map_eq {α : Type} {P : Nat → Sys W ε → Sys W ε → Prop} {xs ys : List (Sys W ε)}
    (h : Pass P xs ys) (f : Sys W ε → α) (hf : ∀ i x y, P i x y → f y = f x) : ys.map f = xs.map f := by
  apply List.ext_getElem?
  intro i
  rw [List.getElem?_map, List.getElem?_map]
  by_cases hi : i < xs.length
  · obtain ⟨y, hy, hp⟩ := h.2 i xs[i] (List.getElem?_eq_getElem hi)
    rw [hy, List.getElem?_eq_getElem hi]
    simp only [Option.map_some]
    rw [hf i _ y hp]
  · rw [List.getElem?_eq_none (l := ys) (by rw [h.1]; omega), List.getElem?_eq_none (l := xs) (by omega)]

theorem mapBeforeAll_prefix (xs : List (Sys W ε)) (k : Nat) (hk : k ≤ xs.length) :
    Pass (fun i x y => y = { x with hardAfter := y.hardAfter, beforeAll := y.beforeAll, notes := y.notes }
      ∧ y.beforeAll = (if i < k then [] else x.beforeAll)
      ∧ y.notes = (if i < k then { x.notes with beforeAll := beforeAllNotes xs i x.beforeAll } else x.notes)
      ∧ ∀ j, j ∈ y.hardAfter ↔ j ∈ x.hardAfter ∨ (j < k ∧ j ≠ i ∧ BeforeAll xs j i))
      xs ((List.range k).foldl beforeAllStep xs) := by
  induction k with
  | zero =>
    refine Pass.refl xs ?_
    intro i x
    exact ⟨rfl, rfl, rfl, by simp⟩
  | succ k ih =>
    have ih := ih (by omega)
    have hidx : ∀ i l, beforeAllNotes ((List.range k).foldl beforeAllStep xs) i l = beforeAllNotes xs i l := fun i l =>
      beforeAllNotes_congr (ih.map_eq (fun s => (s.tags, s.index)) (fun i x y h => by rw [h.1])) i l
    rw [List.range_succ, List.foldl_append, List.foldl_cons, List.foldl_nil]
    generalize (List.range k).foldl beforeAllStep xs = ys at ih hidx
    obtain ⟨me, hme, hme1, hme2, _, _⟩ := ih.2 k xs[k] (List.getElem?_eq_getElem (by omega))
    rw [if_neg (by omega)] at hme2
    unfold beforeAllStep
    rw [hme]
    simp only
    have hp := Pass.mapIdx (fun j (o : Sys W ε) =>
      if k = j then
        { o with
          beforeAll := []
          notes := { o.notes with beforeAll := beforeAllNotes ys k me.beforeAll } }
      else if o.tags.any (fun tag => decide (tag ∈ me.beforeAll)) then
        { o with hardAfter := addId o.hardAfter k }
      else o) ys
    refine ⟨hp.1.trans ih.1, ?_⟩
    intro i x hx
    obtain ⟨y, hy, e1, e2, en, e3⟩ := ih.2 i x hx
    obtain ⟨z, hz, hze⟩ := hp.2 i y hy
    refine ⟨z, hz, ?_⟩
    subst hze
    have htags : y.tags = x.tags := by rw [e1]
    by_cases hki : k = i
    · subst hki
      simp only [if_true]
      rw [if_neg (Nat.lt_irrefl k)] at en
      refine ⟨?_, by simp, ?_, ?_⟩
      · conv => lhs; rw [e1]
        done
      · rw [if_pos (Nat.lt_succ_self k), en, hidx]
        have : me = y := by rw [hme] at hy; cases hy; rfl
        rw [hme2]
        have hxx : xs[k] = x := by
          have := List.getElem?_eq_getElem (l := xs) (i := k) (by omega)
          rw [hx] at this; cases this; rfl
        rw [hxx]
      · intro j
        rw [e3 j]
        constructor
        · rintro (h | ⟨h1, h2, h3⟩)
          · exact .inl h
          · exact .inr ⟨by omega, h2, h3⟩
        · rintro (h | ⟨h1, h2, h3⟩)
          · exact .inl h
          · exact .inr ⟨by omega, h2, h3⟩
    · have hB : BeforeAll xs k i ↔ y.tags.any (fun tag => decide (tag ∈ me.beforeAll)) = true := by
        rw [htags, hme2, List.any_eq_true]
        constructor
        · rintro ⟨a, b, ha, hb, l, hl1, hl2⟩
          rw [List.getElem?_eq_getElem (by omega)] at ha
          rw [hx] at hb
          cases ha; cases hb
          exact ⟨l, hl2, by simpa using hl1⟩
        · rintro ⟨l, hl1, hl2⟩
          exact ⟨xs[k], x, List.getElem?_eq_getElem (by omega), hx, l, by simpa using hl2, hl1⟩
      have hlt : (if i < k + 1 then [] else x.beforeAll) = if i < k then [] else x.beforeAll := by
        by_cases h : i < k
        · rw [if_pos h, if_pos (by omega)]
        · rw [if_neg h, if_neg (by omega)]
      have hnt : (if i < k + 1 then { x.notes with beforeAll := beforeAllNotes xs i x.beforeAll } else x.notes)
          = if i < k then { x.notes with beforeAll := beforeAllNotes xs i x.beforeAll } else x.notes := by
        by_cases h : i < k
        · rw [if_pos h, if_pos (by omega)]
        · rw [if_neg h, if_neg (by omega)]
      rw [hlt, hnt]
      cases hany : y.tags.any (fun tag => decide (tag ∈ me.beforeAll)) with
      | true =>
        simp only [hki, if_false, if_true]
        refine ⟨?_, e2, en, ?_⟩
        · conv => lhs; rw [e1]
        · intro j
          show j ∈ addId y.hardAfter k ↔ _
          rw [mem_addId, e3 j]
          constructor
          · rintro (h | h | ⟨h1, h2, h3⟩)
            · subst h
              exact .inr ⟨by omega, hki, hB.mpr hany⟩
            · exact .inl h
            · exact .inr ⟨by omega, h2, h3⟩
          · rintro (h | ⟨h1, h2, h3⟩)
            · exact .inr (.inl h)
            · by_cases hjk : j = k
              · exact .inl hjk
              · exact .inr (.inr ⟨by omega, h2, h3⟩)
      | false =>
        simp only [hki, if_false, Bool.false_eq_true]
        refine ⟨e1, e2, en, ?_⟩
        intro j
        rw [e3 j]
        constructor
        · rintro (h | ⟨h1, h2, h3⟩)
          · exact .inl h
          · exact .inr ⟨by omega, h2, h3⟩
        · rintro (h | ⟨h1, h2, h3⟩)
          · exact .inl h
          · by_cases hjk : j = k
            · subst hjk
              rw [hB.mp h3] at hany
              cases hany
            · exact .inr ⟨by omega, h2, h3⟩

theorem beforeAll_lt {xs : List (Sys W ε)} {a b : Nat} (h : BeforeAll xs a b) : a < xs.length := by
  obtain ⟨x, y, hx, _⟩ := h
  exact (List.getElem?_eq_some_iff.mp hx).1

theorem afterAll_lt {xs : List (Sys W ε)} {a b : Nat} (h : AfterAll xs a b) : a < xs.length := by
  obtain ⟨x, y, hx, _⟩ := h
  exact (List.getElem?_eq_some_iff.mp hx).1

theorem mapBeforeAll_ok (xs : List (Sys W ε)) :
    Pass (fun i x y => y = { x with
          hardAfter := y.hardAfter
          beforeAll := []
          notes := { x.notes with beforeAll := beforeAllNotes xs i x.beforeAll } }
      ∧ ∀ j, j ∈ y.hardAfter ↔ j ∈ x.hardAfter ∨ (j ≠ i ∧ BeforeAll xs j i)) xs (mapBeforeAll xs) := by
  have h := mapBeforeAll_prefix xs xs.length (Nat.le_refl _)
  refine ⟨h.1, ?_⟩
  intro i x hx
  obtain ⟨y, hy, h1, h2, hn, h3⟩ := h.2 i x hx
  have hi := (List.getElem?_eq_some_iff.mp hx).1
  rw [if_pos hi] at h2 hn
  refine ⟨y, hy, ?_, ?_⟩
  · rw [h2, hn] at h1; exact h1
  · intro j
    rw [h3 j]
    constructor
    · rintro (h | ⟨_, h1, h2⟩)
      · exact .inl h
      · exact .inr ⟨h1, h2⟩
    · rintro (h | ⟨h1, h2⟩)
      · exact .inl h
      · exact .inr ⟨beforeAll_lt h2, h1, h2⟩

theorem mapAfterAll_ok (xs : List (Sys W ε)) :
    Pass (fun i x y => y = { x with
          hardAfter := y.hardAfter
          afterAll := []
          notes := { x.notes with afterAll := afterAllNotes xs i x.afterAll } }
      ∧ ∀ j, j ∈ y.hardAfter ↔ j ∈ x.hardAfter ∨ (j ≠ i ∧ AfterAll xs j i)) xs (mapAfterAll xs) := by
  have h := Pass.mapIdx (fun i (s : Sys W ε) =>
    { (s.after (afterAllHits xs i s.afterAll)) with
      afterAll := []
      notes := { s.notes with afterAll := afterAllNotes xs i s.afterAll } }) xs
  refine ⟨h.1, ?_⟩
  intro i x hx
  obtain ⟨y, hy, he⟩ := h.2 i x hx
  refine ⟨y, hy, ?_⟩
  subst he
  refine ⟨rfl, ?_⟩
  intro j
  show j ∈ (afterAllHits xs i x.afterAll).foldl addId x.hardAfter ↔ _
  rw [mem_foldl_addId]
  refine or_congr Iff.rfl ?_
  unfold afterAllHits
  rw [List.mem_filter, List.mem_range, Bool.and_eq_true, decide_eq_true_eq]
  constructor
  · rintro ⟨hj, hne, hm⟩
    rw [List.getElem?_eq_getElem hj] at hm
    obtain ⟨l, hl1, hl2⟩ := List.any_eq_true.mp hm
    exact ⟨Ne.symm hne, xs[j], x, List.getElem?_eq_getElem hj, hx, l, hl1, by simpa using hl2⟩
  · rintro ⟨hne, a, b, ha, hb, l, hl1, hl2⟩
    rw [hx] at hb
    cases hb
    refine ⟨(List.getElem?_eq_some_iff.mp ha).1, Ne.symm hne, ?_⟩
    rw [ha]
    exact List.any_eq_true.mpr ⟨l, hl1, by simpa using hl2⟩

theorem beforeStep_id (xs : List (Sys W ε)) (h : ∀ x ∈ xs, x.hardBefore = []) (i : Nat) :
    beforeStep xs i = xs := by
  unfold beforeStep
  cases hi : xs[i]? with
  | none => rfl
  | some me =>
    have hme : me.hardBefore = [] := h me (List.mem_of_getElem? hi)
    have hhit : beforeHit xs i me.hardBefore = none := by
      unfold beforeHit
      rw [List.find?_eq_none]
      intro j _
      rw [hme]
      cases xs[j]? with
      | none => simp
      | some o => simp
    simp only
    rw [hhit]
    apply List.ext_getElem?
    intro j
    rw [List.getElem?_mapIdx]
    cases hj : xs[j]? with
    | none => rfl
    | some o =>
      have ho : o.hardBefore = [] := h o (List.mem_of_getElem? hj)
      simp only [Option.map_some]
      by_cases hij : i = j
      · subst hij
        rw [if_neg (by simp)]
        simp only [if_true]
        congr 1
        cases o
        simp only at ho
        subst ho
        rfl
      · simp [hij]

/-- The API never fills `before`, so this pass does nothing. -/
theorem mapBefore_id (xs : List (Sys W ε)) (h : ∀ x ∈ xs, x.hardBefore = []) : mapBefore xs = xs := by
  unfold mapBefore
  generalize List.range xs.length = l
  induction l with
  | nil => rfl
  | cons a t ih =>
    rw [List.foldl_cons, beforeStep_id xs h a]
    exact ih

/-- Fields that no pass changes. -/
def Same (x y : Sys W ε) : Prop :=
  y = { x with hardAfter := y.hardAfter, softAfter := y.softAfter, beforeAll := y.beforeAll,
               afterAll := y.afterAll, notes := y.notes }

/-- The hard constraint `a` before `b` of the final constraint graph. -/
def HardSpec (xs : List (Sys W ε)) (bs : List Nat) (a b : Nat) : Prop :=
  (∃ k ∈ bs, a < k ∧ k ≤ b)
    ∨ (∃ x, xs[b]? = some x ∧ x.optedOut = false ∧ findDown (blocks xs x) b = some a)
    ∨ (a ≠ b ∧ BeforeAll xs a b) ∨ (a ≠ b ∧ AfterAll xs a b)

def SoftSpec (xs : List (Sys W ε)) (a b : Nat) : Prop :=
  ∃ x, xs[b]? = some x ∧ x.optedOut = false ∧ findDown (isImplicit xs) b = some a

theorem blocks_congr {xs ys : List (Sys W ε)}
    (h : xs.map (fun s => (s.optedOut, s.borrows)) = ys.map (fun s => (s.optedOut, s.borrows)))
    {x y : Sys W ε} (hb : x.borrows = y.borrows) : blocks xs x = blocks ys y := by
  funext j
  have hj := congrArg (fun l => l[j]?) h
  simp only [List.getElem?_map] at hj
  unfold blocks
  rw [hb]
  cases h1 : xs[j]? with
  | none =>
    cases h2 : ys[j]? with
    | none => rfl
    | some b => rw [h1, h2] at hj; cases hj
  | some a =>
    cases h2 : ys[j]? with
    | none => rw [h1, h2] at hj; cases hj
    | some b =>
      rw [h1, h2] at hj
      simp only [Option.map_some, Option.some.injEq, Prod.mk.injEq] at hj
      simp only
      rw [hj.1, hj.2]

theorem isImplicit_congr {xs ys : List (Sys W ε)}
    (h : xs.map (fun s => s.optedOut) = ys.map (fun s => s.optedOut)) : isImplicit xs = isImplicit ys := by
  funext j
  have hj := congrArg (fun l => l[j]?) h
  simp only [List.getElem?_map] at hj
  unfold isImplicit
  cases h1 : xs[j]? with
  | none =>
    cases h2 : ys[j]? with
    | none => rfl
    | some b => rw [h1, h2] at hj; cases hj
  | some a =>
    cases h2 : ys[j]? with
    | none => rw [h1, h2] at hj; cases hj
    | some b =>
      rw [h1, h2] at hj
      simp only [Option.map_some, Option.some.injEq] at hj
      simp only
      rw [hj]

/-- What the passes write down about the system at position `i`. -/
def notesOf (xs : List (Sys W ε)) (i : Nat) (x : Sys W ε) : Notes :=
  { conflict := implicitConflict xs i x, after := x.notes.after, afterAll := afterAllNotes xs i x.afterAll,
    beforeAll := beforeAllNotes xs i x.beforeAll }

theorem conflictWith_congr {xs ys : List (Sys W ε)}
    (h : ys.map (fun s => (s.index, s.borrows)) = xs.map (fun s => (s.index, s.borrows)))
    {x y : Sys W ε} (hb : y.borrows = x.borrows) (j : Nat) : conflictWith ys y j = conflictWith xs x j := by
  have hj := congrArg (fun l => l[j]?) h
  simp only [List.getElem?_map] at hj
  unfold conflictWith
  rw [hb]
  cases h1 : ys[j]? with
  | none =>
    cases h2 : xs[j]? with
    | none => rfl
    | some b => rw [h1, h2] at hj; cases hj
  | some a =>
    cases h2 : xs[j]? with
    | none => rw [h1, h2] at hj; cases hj
    | some b =>
      rw [h1, h2] at hj
      simp only [Option.map_some, Option.some.injEq, Prod.mk.injEq] at hj
      simp only
      rw [hj.1, hj.2]

theorem constrain_ok (xs : List (Sys W ε)) (bs : List Nat) (hb : ∀ b ∈ bs, b ≤ xs.length)
    (h0 : ∀ x ∈ xs, x.hardAfter = [] ∧ x.softAfter = [] ∧ x.hardBefore = []) :
    ∃ ss, constrain xs bs = .ok ss ∧
      Pass (fun i x y => Same x y ∧ (∀ j, j ∈ y.hardAfter ↔ HardSpec xs bs j i)
        ∧ (∀ j, j ∈ y.softAfter ↔ SoftSpec xs j i) ∧ y.notes = notesOf xs i x) xs ss := by
  obtain ⟨y1, e1, p1⟩ := barriers_ok bs xs hb
  have p2 := implicitHard_ok y1
  have p3 := implicitSoft_ok (implicitHard y1)
  have p4 := mapBeforeAll_ok (implicitSoft (implicitHard y1))
  have p5 := mapAfterAll_ok (mapBeforeAll (implicitSoft (implicitHard y1)))
  generalize hy2 : implicitHard y1 = y2 at p2 p3 p4 p5
  generalize hy3 : implicitSoft y2 = y3 at p3 p4 p5
  generalize hy4 : mapBeforeAll y3 = y4 at p4 p5
  generalize hy5 : mapAfterAll y4 = y5 at p5
  have q2 : y1.map (fun s => (s.optedOut, s.borrows)) = xs.map (fun s => (s.optedOut, s.borrows)) :=
    p1.map_eq _ (fun i x y h => by rw [h.1]; rfl)
  have q3 : y2.map (fun s => s.optedOut) = xs.map (fun s => s.optedOut) :=
    (p2.map_eq (fun s => s.optedOut) (fun i x y h => by rw [h.1]; rfl)).trans
      (p1.map_eq _ (fun i x y h => by rw [h.1]; rfl))
  have q1 : y1.map (fun s => (s.index, s.borrows)) = xs.map (fun s => (s.index, s.borrows)) :=
    p1.map_eq _ (fun i x y h => by rw [h.1])
  -- the first three passes keep labels
  have p123 : Pass (fun i x y => y = { x with hardAfter := y.hardAfter, softAfter := y.softAfter, notes := y.notes }) xs y3 := by
    refine (p1.trans p2 (R := fun i x y => y = { x with hardAfter := y.hardAfter, notes := y.notes }) ?_).trans p3 ?_
    · rintro i x y z ⟨h1, _⟩ ⟨h2, _⟩
      rw [h2, h1]
    · rintro i x y z h1 ⟨h2, _⟩
      rw [h2, h1]
  have b4 : ∀ a b, BeforeAll y3 a b ↔ BeforeAll xs a b := by
    intro a b
    constructor
    · rintro ⟨x, y, hx, hy, l, h1, h2⟩
      obtain ⟨x', hx', ex⟩ := p123.back hx
      obtain ⟨y', hy', ey⟩ := p123.back hy
      rw [ex] at h1
      rw [ey] at h2
      exact ⟨x', y', hx', hy', l, h1, h2⟩
    · rintro ⟨x, y, hx, hy, l, h1, h2⟩
      obtain ⟨x', hx', ex⟩ := p123.2 a x hx
      obtain ⟨y', hy', ey⟩ := p123.2 b y hy
      exact ⟨x', y', hx', hy', l, by rw [ex]; exact h1, by rw [ey]; exact h2⟩
  have p1234 : Pass (fun i x y => y = { x with hardAfter := y.hardAfter, softAfter := y.softAfter, beforeAll := [], notes := y.notes }) xs y4 := by
    refine p123.trans p4 ?_
    rintro i x y z h1 ⟨h2, _⟩
    rw [h2, h1]
  have b5 : ∀ a b, AfterAll y4 a b ↔ AfterAll xs a b := by
    intro a b
    constructor
    · rintro ⟨x, y, hx, hy, l, h1, h2⟩
      obtain ⟨x', hx', ex⟩ := p1234.back hx
      obtain ⟨y', hy', ey⟩ := p1234.back hy
      rw [ey] at h1
      rw [ex] at h2
      exact ⟨x', y', hx', hy', l, h1, h2⟩
    · rintro ⟨x, y, hx, hy, l, h1, h2⟩
      obtain ⟨x', hx', ex⟩ := p1234.2 a x hx
      obtain ⟨y', hy', ey⟩ := p1234.2 b y hy
      exact ⟨x', y', hx', hy', l, by rw [ey]; exact h1, by rw [ex]; exact h2⟩
  have hfin : Pass (fun i x y => y = { x with hardAfter := y.hardAfter, softAfter := y.softAfter, beforeAll := [], afterAll := [], notes := y.notes }) xs y5 := by
    refine p1234.trans p5 ?_
    rintro i x y z h1 ⟨h2, _⟩
    rw [h2, h1]
  refine ⟨y5, ?_, hfin.1, ?_⟩
  · unfold constrain
    rw [e1]
    show Except.ok (mapBefore (mapAfterAll (mapBeforeAll (implicitSoft (implicitHard y1))))) = _
    rw [hy2, hy3, hy4, hy5, mapBefore_id]
    intro y hy
    obtain ⟨i, hi⟩ := List.mem_iff_getElem?.mp hy
    obtain ⟨x, hx, ex⟩ := hfin.back hi
    rw [ex]
    exact (h0 x (List.mem_of_getElem? hx)).2.2
  · intro i x hx
    obtain ⟨x1, g1, r1, m1⟩ := p1.2 i x hx
    obtain ⟨x2, g2, r2, m2⟩ := p2.2 i x1 g1
    obtain ⟨x3, g3, r3, m3⟩ := p3.2 i x2 g2
    obtain ⟨x4, g4, r4, m4⟩ := p4.2 i x3 g3
    obtain ⟨x5, g5, r5, m5⟩ := p5.2 i x4 g4
    obtain ⟨x6, g6, r6⟩ := hfin.2 i x hx
    rw [g5] at g6
    cases g6
    have hb1 : x1.borrows = x.borrows := by rw [r1]
    have ho1 : x1.optedOut = x.optedOut := by rw [r1]; rfl
    have ho2 : x2.optedOut = x.optedOut := by rw [r2]; exact ho1
    obtain ⟨z1, z2, _⟩ := h0 x (List.mem_of_getElem? hx)
    refine ⟨x5, g5, ?_, ?_, ?_, ?_⟩
    · unfold Same
      conv => lhs; rw [r6]
      have w1 : x5.beforeAll = [] := by rw [r6]
      have w2 : x5.afterAll = [] := by rw [r6]
      rw [w1, w2]
    · intro j
      have t3 : x3.hardAfter = x2.hardAfter := by rw [r3]
      rw [m5 j, m4 j, t3, m2 j, m1 j, z1, b4, b5]
      dsimp only
      rw [ho1, blocks_congr q2 hb1]
      unfold HardSpec
      constructor
      · rintro ((((h | h) | ⟨h, h'⟩) | h) | h)
        · cases h
        · exact .inl h
        · exact .inr (.inl ⟨x, hx, h, h'⟩)
        · exact .inr (.inr (.inl h))
        · exact .inr (.inr (.inr h))
      · rintro (h | ⟨x', hx', h, h'⟩ | h | h)
        · exact .inl (.inl (.inl (.inr h)))
        · rw [hx] at hx'; cases hx'
          exact .inl (.inl (.inr ⟨h, h'⟩))
        · exact .inl (.inr h)
        · exact .inr h
    · intro j
      have t5 : x5.softAfter = x4.softAfter := by rw [r5]
      have t4 : x4.softAfter = x3.softAfter := by rw [r4]
      have t2 : x2.softAfter = x1.softAfter := by rw [r2]
      have t1 : x1.softAfter = x.softAfter := by rw [r1]
      rw [t5, t4, m3 j, t2, t1, z2]
      dsimp only
      rw [ho2, isImplicit_congr q3]
      unfold SoftSpec
      constructor
      · rintro (h | ⟨h, h'⟩)
        · cases h
        · exact ⟨x, hx, h, h'⟩
      · rintro ⟨x', hx', h, h'⟩
        rw [hx] at hx'; cases hx'
        exact .inr ⟨h, h'⟩
    · have n1 : x1.notes = x.notes := by rw [r1]
      have n2 : x2.notes = { x1.notes with conflict := implicitConflict y1 i x1 } := by rw [r2]
      have n3 : x3.notes = x2.notes := by rw [r3]
      have n4 : x4.notes = { x3.notes with beforeAll := beforeAllNotes y3 i x3.beforeAll } := by rw [r4]
      have n5 : x5.notes = { x4.notes with afterAll := afterAllNotes y4 i x4.afterAll } := by rw [r5]
      have hc : implicitConflict y1 i x1 = implicitConflict xs i x := by
        unfold implicitConflict
        rw [ho1, blocks_congr q2 hb1, n1]
        split
        · rfl
        · split
          · exact conflictWith_congr q1 hb1 _
          · rfl
      have l3 : x3.beforeAll = x.beforeAll := by rw [r3, r2, r1]
      have l4 : x4.afterAll = x.afterAll := by rw [r4, r3, r2, r1]
      rw [n5, n4, n3, n2, n1, hc, l3, l4,
        beforeAllNotes_congr (p123.map_eq (fun s => (s.tags, s.index)) (fun i x y h => by rw [h])),
        afterAllNotes_congr (p1234.map_eq (fun s => s.tags) (fun i x y h => by rw [h]))]
      rfl

end Verif.Sched
