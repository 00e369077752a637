import Verif.Spec.MixedUnique
import Verif.Props.Mixed

/-!
# C105: uniques and entities do not depend on each other
-/
namespace Verif.Mix
open Tracking (UniqueStorage)
variable {V U X : Type} {isU : Nat → Bool}

/-- `Typed` for the entries. -/
def TypedL (isU : Nat → Bool) (l : List (Nat × Sto V U X)) : Prop := ∀ x ∈ shape l, (isU x.1 = true ↔ x.2 = .unique)

/-- The value of a unique in a list of entries. -/
def valueL (l : List (Nat × Sto V U X)) (k : Nat) : Option U :=
  match lookupK l k with
  | some (.unique u) => some u.value
  | _ => none

theorem typedL_cons {k : Nat} {s : Sto V U X} {l : List (Nat × Sto V U X)} (h : TypedL isU ((k, s) :: l)) :
    (isU k = true ↔ s.kind = .unique) ∧ TypedL isU l :=
  ⟨h (k, s.kind) List.mem_cons_self, fun x hx => h x (List.mem_cons_of_mem _ hx)⟩

theorem valueL_uniques : ∀ {l : List (Nat × Sto V U X)}, TypedL isU l → ∀ {k : Nat}, isU k = true →
    valueL l k = (lookupK (uniques l) k).map (fun u => u.value)
  | [], _, _, _ => rfl
  | (j, s) :: l, h, k, hk => by
    obtain ⟨h1, h2⟩ := typedL_cons h
    have ih := valueL_uniques h2 hk
    unfold valueL at ih ⊢
    have hne : s.kind ≠ .unique → ¬ k = j := fun hs e => hs (h1.1 (e ▸ hk))
    cases s with
    | unique u =>
      show (match (if k = j then some (Sto.unique u) else lookupK l k) with
        | some (.unique u) => some u.value | _ => none) = (if k = j then some u else lookupK (uniques l) k).map (fun u => u.value)
      split
      · rename_i heq
        split at heq
        · injection heq with heq; injection heq with heq; subst heq
          rw [if_pos ‹_›]; rfl
        · rw [if_neg ‹_›, ← ih, heq]
      · rename_i hn
        split
        · exact absurd (by rw [if_pos ‹_›]) (hn u)
        · rw [← ih]
          rename_i hkj
          rw [if_neg hkj] at hn
          split
          · rename_i u' heq; exact absurd heq (hn u')
          · rfl
    | component s0 =>
      have : lookupK ((j, Sto.component (U := U) (X := X) s0) :: l) k = lookupK l k := if_neg (hne (fun h => by cases h))
      rw [this]; exact ih
    | entities s0 =>
      have : lookupK ((j, Sto.entities (V := V) (U := U) (X := X) s0) :: l) k = lookupK l k := if_neg (hne (fun h => by cases h))
      rw [this]; exact ih
    | user s0 =>
      have : lookupK ((j, Sto.user (V := V) (U := U) s0) :: l) k = lookupK l k := if_neg (hne (fun h => by cases h))
      rw [this]; exact ih

theorem valueL_other : ∀ {l : List (Nat × Sto V U X)}, TypedL isU l → ∀ {k : Nat}, isU k = false → valueL l k = none
  | [], _, _, _ => rfl
  | (j, s) :: l, h, k, hk => by
    obtain ⟨h1, h2⟩ := typedL_cons h
    have ih := valueL_other h2 hk
    unfold valueL at ih ⊢
    show (match (if k = j then some s else lookupK l k) with | some (.unique u) => some u.value | _ => none) = none
    by_cases hkj : k = j
    · subst hkj
      rw [if_pos rfl]
      cases s with
      | unique u => rw [hk] at h1; exact absurd (h1.2 rfl) (by simp)
      | _ => rfl
    · rw [if_neg hkj]; exact ih

theorem typedL_setK : ∀ {l : List (Nat × Sto V U X)}, TypedL isU l → ∀ {k : Nat}, isU k = true → ∀ (u : UniqueStorage U),
    TypedL isU (setK l k (.unique u)) ∧ comps (setK l k (.unique u)) = comps l ∧ ents (setK l k (.unique u)) = ents l ∧
      users (setK l k (.unique u)) = users l
  | [], _, k, hk, u => by
    refine ⟨fun x hx => ?_, rfl, rfl, rfl⟩
    rw [List.mem_singleton.1 hx]
    exact ⟨fun _ => rfl, fun _ => hk⟩
  | (j, s) :: l, h, k, hk, u => by
    obtain ⟨h1, h2⟩ := typedL_cons h
    by_cases hkj : k = j
    · subst hkj
      have he : setK ((k, s) :: l) k (.unique u) = (k, .unique u) :: l := if_pos rfl
      rw [he]
      have hs := h1.1 hk
      cases s with
      | unique u0 => exact ⟨fun x hx => h x hx, rfl, rfl, rfl⟩
      | component _ => cases hs
      | entities _ => cases hs
      | user _ => cases hs
    · have he : setK ((j, s) :: l) k (.unique u) = (j, s) :: setK l k (.unique u) := if_neg hkj
      rw [he]
      obtain ⟨i1, i2, i3, i4⟩ := typedL_setK h2 hk u
      refine ⟨fun x hx => ?_, ?_, ?_, ?_⟩
      · rcases List.mem_cons.1 hx with rfl | hx
        · exact h1
        · exact i1 x hx
      · cases s with
        | component s0 => exact List.cons_eq_cons.2 ⟨rfl, i2⟩
        | _ => exact i2
      · cases s with
        | entities s0 => exact List.cons_eq_cons.2 ⟨rfl, i3⟩
        | _ => exact i3
      · cases s with
        | user s0 => exact List.cons_eq_cons.2 ⟨rfl, i4⟩
        | _ => exact i4

theorem typedL_eraseK : ∀ {l : List (Nat × Sto V U X)}, TypedL isU l → ∀ {k : Nat}, isU k = true →
    TypedL isU (eraseK l k) ∧ comps (eraseK l k) = comps l ∧ ents (eraseK l k) = ents l ∧ users (eraseK l k) = users l ∧
      ∀ (j : Nat), valueL (eraseK l k) j = if j = k then none else valueL l j
  | [], _, k, _ => ⟨fun _ hx => (by cases hx), rfl, rfl, rfl, fun j => (by split <;> rfl)⟩
  | (i, s) :: l, h, k, hk => by
    obtain ⟨h1, h2⟩ := typedL_cons h
    obtain ⟨i1, i2, i3, i4, i5⟩ := typedL_eraseK h2 hk
    by_cases hki : i = k
    · subst hki
      have he : eraseK ((i, s) :: l) i = eraseK l i := List.filter_cons_of_neg (by simp)
      rw [he]
      have hs := h1.1 hk
      cases s with
      | unique u0 =>
        refine ⟨i1, i2, i3, i4, fun j => ?_⟩
        rw [i5 j]
        by_cases hj : j = i
        · rw [if_pos hj, if_pos hj]
        · rw [if_neg hj, if_neg hj]
          unfold valueL
          have : lookupK ((i, Sto.unique (V := V) (X := X) u0) :: l) j = lookupK l j := if_neg hj
          rw [this]
      | component _ => cases hs
      | entities _ => cases hs
      | user _ => cases hs
    · have he : eraseK ((i, s) :: l) k = (i, s) :: eraseK l k := List.filter_cons_of_pos (by simp [hki])
      rw [he]
      refine ⟨fun x hx => ?_, ?_, ?_, ?_, fun j => ?_⟩
      · rcases List.mem_cons.1 hx with rfl | hx
        · exact h1
        · exact i1 x hx
      · cases s with
        | component s0 => exact List.cons_eq_cons.2 ⟨rfl, i2⟩
        | _ => exact i2
      · cases s with
        | entities s0 => exact List.cons_eq_cons.2 ⟨rfl, i3⟩
        | _ => exact i3
      · cases s with
        | user s0 => exact List.cons_eq_cons.2 ⟨rfl, i4⟩
        | _ => exact i4
      · have ih := i5 j
        unfold valueL at ih ⊢
        by_cases hj : j = i
        · have e1 : ∀ l', lookupK ((i, s) :: l') j = some s := fun l' => if_pos hj
          rw [e1, e1, if_neg (fun e => hki (hj.symm.trans e))]
        · have e1 : ∀ l', lookupK ((i, s) :: l') j = lookupK l' j := fun l' => if_neg hj
          rw [e1, e1]; exact ih

theorem lookup_kind {j : Nat} (hj : isU j = true) : ∀ {l : List (Nat × Sto V U X)}, TypedL isU l → ∀ {s}, lookupK l j = some s →
    s.kind = .unique
  | [], _, _, h => by cases h
  | (i, y) :: l, h, s, hl => by
    obtain ⟨h1, h2⟩ := typedL_cons h
    by_cases hji : j = i
    · have : lookupK ((i, y) :: l) j = some y := if_pos hji
      rw [this] at hl
      cases hl
      exact h1.1 (hji ▸ hj)
    · have : lookupK ((i, y) :: l) j = lookupK l j := if_neg hji
      rw [this] at hl
      exact lookup_kind hj h2 hl

variable {um : User X} {m : All V U X}

/-- C105: run any program of calls on entities and on uniques. Entities and components are as if the calls on uniques had not been
made; the uniques have the values they would have without the calls on entities; and the program as a whole returns when its calls on
entities do. -/
theorem C105_independent : ∀ (l : List (Step U)) (m : All V U X) (w w' : World V), Typed isU m → Names isU l → Shows m w →
    (onlyCalls l).foldlM Call.onWorld w = .ok w' →
    ∃ m', l.foldlM (Step.onAll um) m = .ok m' ∧ Shows m' w' ∧ Typed isU m' ∧ ∀ (k : Nat), value m' k = onlyUniques l (value m) k
  | [], m, w, w', ht, _, hs, hw => by
    cases hw
    exact ⟨m, rfl, hs, ht, fun _ => rfl⟩
  | .call c :: l, m, w, w', ht, hn, hs, hw => by
    have hw : (c :: onlyCalls l).foldlM Call.onWorld w = .ok w' := hw
    rw [List.foldlM_cons] at hw
    simp only [bind, Except.bind] at hw
    split at hw
    · cases hw
    rename_i w1 hw1
    obtain ⟨m1, h1, h2, h3, h4⟩ := call_ok (um := um) hs c hw1
    have ht1 : Typed isU m1 := fun x hx => ht x (h4 ▸ hx)
    have hv : value m1 = value m := by
      funext k
      show valueL m1.stos k = valueL m.stos k
      cases hk : isU k with
      | true => rw [valueL_uniques ht1 hk, valueL_uniques ht hk, h3]
      | false => rw [valueL_other ht1 hk, valueL_other ht hk]
    obtain ⟨m', g1, g2, g3, g4⟩ := C105_independent l m1 w1 w' ht1
      (fun k h => hn k (h.imp (fun ⟨v, hv⟩ => ⟨v, hv.imp (List.mem_cons_of_mem _) (List.mem_cons_of_mem _)⟩) (List.mem_cons_of_mem _))) h2 hw
    refine ⟨m', ?_, g2, g3, fun k => ?_⟩
    · rw [List.foldlM_cons]
      have : Step.onAll um m (.call c) = .ok m1 := h1
      simp only [bind, Except.bind, this]
      exact g1
    · rw [g4 k, hv]; rfl
  | .addUnique j v :: l, m, w, w', ht, hn, hs, hw => by
    have hj := hn j (.inl ⟨v, .inl List.mem_cons_self⟩)
    obtain ⟨i1, i2, i3, _⟩ := typedL_setK ht hj (UniqueStorage.new v m.counter)
    obtain ⟨m', g1, g2, g3, g4⟩ := C105_independent l (m.addUnique j v) w w' i1
      (fun k h => hn k (h.imp (fun ⟨v, hv⟩ => ⟨v, hv.imp (List.mem_cons_of_mem _) (List.mem_cons_of_mem _)⟩) (List.mem_cons_of_mem _)))
      ⟨i2.trans hs.comps, i3.trans hs.ents, hs.clock⟩ hw
    refine ⟨m', ?_, g2, g3, fun k => ?_⟩
    · rw [List.foldlM_cons]
      exact g1
    · rw [g4 k]
      show onlyUniques l _ k = onlyUniques l _ k
      congr 1
      funext i
      unfold value All.addUnique
      simp only [World.lookupK_setK]
      by_cases hi : i = j
      · rw [if_pos hi, if_pos hi]; rfl
      · rw [if_neg hi, if_neg hi]
  | .addUniqueLocal j v :: l, m, w, w', ht, hn, hs, hw => by
    have hj := hn j (.inl ⟨v, .inr List.mem_cons_self⟩)
    have hn' : Names isU l :=
      fun k h => hn k (h.imp (fun ⟨v, hv⟩ => ⟨v, hv.imp (List.mem_cons_of_mem _) (List.mem_cons_of_mem _)⟩) (List.mem_cons_of_mem _))
    cases hl : lookupK m.stos j with
    | some s =>
      have hk := lookup_kind hj ht hl
      cases s with
      | component _ => cases hk
      | entities _ => cases hk
      | user _ => cases hk
      | unique u =>
        obtain ⟨m', g1, g2, g3, g4⟩ := C105_independent l m w w' ht hn' hs hw
        refine ⟨m', ?_, g2, g3, fun k => ?_⟩
        · rw [List.foldlM_cons]
          have : Step.onAll um m (.addUniqueLocal j v) = .ok m := by
            simp only [Step.onAll, All.addUniqueLocal, hl]
          simp only [bind, Except.bind, this]
          exact g1
        · rw [g4 k]
          show onlyUniques l _ k = onlyUniques l _ k
          congr 1
          funext i
          have hv : value m j = some u.value := by unfold value; rw [hl]
          by_cases hi : i = j
          · rw [if_pos hi, hi, hv]; rfl
          · rw [if_neg hi]
    | none =>
      obtain ⟨i1, i2, i3, _⟩ := typedL_setK ht hj (UniqueStorage.new v m.counter)
      obtain ⟨m', g1, g2, g3, g4⟩ := C105_independent l (m.addUnique j v) w w' i1 hn'
        ⟨i2.trans hs.comps, i3.trans hs.ents, hs.clock⟩ hw
      refine ⟨m', ?_, g2, g3, fun k => ?_⟩
      · rw [List.foldlM_cons]
        have : Step.onAll um m (.addUniqueLocal j v) = .ok (m.addUnique j v) := by
          simp only [Step.onAll, All.addUniqueLocal, hl]; rfl
        simp only [bind, Except.bind, this]
        exact g1
      · rw [g4 k]
        show onlyUniques l _ k = onlyUniques l _ k
        congr 1
        funext i
        have hv : value m j = none := by unfold value; rw [hl]
        rw [hv]
        unfold value All.addUnique
        simp only [World.lookupK_setK]
        by_cases hi : i = j
        · rw [if_pos hi, if_pos hi]; rfl
        · rw [if_neg hi, if_neg hi]
  | .removeUnique j :: l, m, w, w', ht, hn, hs, hw => by
    have hj := hn j (.inr List.mem_cons_self)
    have hn' : Names isU l :=
      fun k h => hn k (h.imp (fun ⟨v, hv⟩ => ⟨v, hv.imp (List.mem_cons_of_mem _) (List.mem_cons_of_mem _)⟩) (List.mem_cons_of_mem _))
    cases hl : lookupK m.stos j with
    | none =>
      obtain ⟨m', g1, g2, g3, g4⟩ := C105_independent l m w w' ht hn' hs hw
      refine ⟨m', ?_, g2, g3, fun k => ?_⟩
      · rw [List.foldlM_cons]
        have : Step.onAll um m (.removeUnique j) = .ok m := by
          simp only [Step.onAll, All.removeUnique, hl]; rfl
        simp only [bind, Except.bind, this]
        exact g1
      · rw [g4 k]
        show onlyUniques l _ k = onlyUniques l _ k
        congr 1
        funext i
        by_cases hi : i = j
        · rw [if_pos hi]; subst hi; unfold value; rw [hl]
        · rw [if_neg hi]
    | some s =>
      have hk := lookup_kind hj ht hl
      cases s with
      | component _ => cases hk
      | entities _ => cases hk
      | user _ => cases hk
      | unique u =>
        obtain ⟨i1, i2, i3, _, i5⟩ := typedL_eraseK ht hj
        obtain ⟨m', g1, g2, g3, g4⟩ := C105_independent l { m with stos := eraseK m.stos j } w w' i1 hn'
          ⟨i2.trans hs.comps, i3.trans hs.ents, hs.clock⟩ hw
        refine ⟨m', ?_, g2, g3, fun k => ?_⟩
        · rw [List.foldlM_cons]
          have : Step.onAll um m (.removeUnique j) = .ok { m with stos := eraseK m.stos j } := by
            simp only [Step.onAll, All.removeUnique, hl]; rfl
          simp only [bind, Except.bind, this]
          exact g1
        · rw [g4 k]
          show onlyUniques l _ k = onlyUniques l _ k
          congr 1
          funext i
          exact i5 i

/-- C105, `add_unique`: the new value replaces an older one; nothing else changes, storages of the user included. -/
theorem C105_added (ht : Typed isU m) {k : Nat} (hk : isU k = true) (v : U) :
    value (m.addUnique k v) k = some v ∧ (∀ (j : Nat), j ≠ k → lookupK (m.addUnique k v).stos j = lookupK m.stos j) ∧
      comps (m.addUnique k v).stos = comps m.stos ∧ ents (m.addUnique k v).stos = ents m.stos ∧
      users (m.addUnique k v).stos = users m.stos ∧ (m.addUnique k v).counter = m.counter := by
  obtain ⟨_, i2, i3, i4⟩ := typedL_setK ht hk (UniqueStorage.new v m.counter)
  refine ⟨?_, fun j hj => ?_, i2, i3, i4, rfl⟩
  · unfold value All.addUnique
    simp only [World.lookupK_setK, if_true]
    rfl
  · unfold All.addUnique
    simp only [World.lookupK_setK]
    rw [if_neg hj]

/-- C105, `remove_unique`: the value last added comes back, or the error for a missing unique; nothing else changes. -/
theorem C105_removed (ht : Typed isU m) {k : Nat} (hk : isU k = true) :
    ∃ m', m.removeUnique k = .ok (value m k, m') ∧ value m' k = none ∧ (∀ (j : Nat), j ≠ k → value m' j = value m j) ∧
      comps m'.stos = comps m.stos ∧ ents m'.stos = ents m.stos ∧ users m'.stos = users m.stos ∧ m'.counter = m.counter := by
  unfold All.removeUnique
  cases hl : lookupK m.stos k with
  | none =>
    have hv : value m k = none := by unfold value; rw [hl]
    exact ⟨m, by rw [hv], hv, fun _ _ => rfl, rfl, rfl, rfl, rfl⟩
  | some s =>
    have hs := lookup_kind hk ht hl
    cases s with
    | component _ => cases hs
    | entities _ => cases hs
    | user _ => cases hs
    | unique u =>
      have hv : value m k = some u.value := by unfold value; rw [hl]
      obtain ⟨_, i2, i3, i4, i5⟩ := typedL_eraseK ht hk
      exact ⟨{ m with stos := eraseK m.stos k }, by rw [hv], (i5 k).trans (if_pos rfl), fun j hj => (i5 j).trans (if_neg hj), i2, i3,
        i4, rfl⟩

/-- The uniques of `mixedDemo` and of the program below have ids from 70 to 79. -/
def demoU (k : Nat) : Bool := decide (70 ≤ k ∧ k < 80)

/-- A unique is added among calls on entities, another one removed. -/
def demoSteps : List (Step Nat) :=
  [.addUnique 71 5, .addUniqueLocal 71 4, .addUniqueLocal 72 3, .call (.deleteEntity ⟨0, 0⟩), .removeUnique 70, .call .clear, .addUnique 71 6]

example : Typed demoU mixedDemo := by
  unfold Typed
  decide

example : Names demoU demoSteps := by
  intro k h
  simp [demoSteps] at h
  rcases h with ⟨_, (h | h) | h | h⟩ | h <;> first | (rw [h.1]; rfl) | (rw [h]; rfl)

example : ∃ w', (onlyCalls demoSteps).foldlM Call.onWorld WSpec.demo = .ok w' := ⟨_, rfl⟩

example : onlyUniques demoSteps (value mixedDemo) 70 = none ∧ onlyUniques demoSteps (value mixedDemo) 71 = some 6 ∧
    onlyUniques demoSteps (value mixedDemo) 72 = some 3 := ⟨rfl, rfl, rfl⟩

end Verif.Mix
