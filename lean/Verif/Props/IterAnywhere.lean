import Verif.Props.SailTime

/-!
# `!view` and `as_optional` at any position of a tuple: C30
-/
namespace Verif.IterSpec
open StoSpec TrkSpec Iter
variable {V : Type}

theorem itemsOf_at (st : Win V → Sto V) (e : EId) (q : Qry V) (l2 : List (Qry V)) : ∀ (l1 : List (Qry V)),
    itemsOf st (l1 ++ q :: l2) e = (itemsOf st l1 e).bind fun os1 => (item st q e).bind fun o =>
      (itemsOf st l2 e).map fun os2 => os1 ++ o :: os2
  | [] => by
    simp only [List.nil_append, itemsOf, Option.bind_some]
  | q' :: l => by
    simp only [List.cons_append, itemsOf, itemsOf_at st e q l2 l]
    cases item st q' e with
    | none => rfl
    | some o =>
      simp only [Option.bind_some]
      cases itemsOf st l e with
      | none => rfl
      | some os =>
        cases item st q e with
        | none => rfl
        | some o' => cases itemsOf st l2 e <;> rfl

theorem tup_captain {st : Win V → Sto V} {l : List (Qry V)} (hf : Fine st (.tup l)) : (Qry.tup l).canCaptain = true := by
  simp only [Fine] at hf
  obtain ⟨q, hq, hqc⟩ := hf.2.1
  simp only [Qry.canCaptain]
  clear hf
  induction l with
  | nil => cases hq
  | cons a l ih =>
    simp only [Qry.canCaptains, Bool.or_eq_true]
    rcases List.mem_cons.1 hq with rfl | h
    · exact Or.inl hqc
    · exact Or.inr (ih h)

/-- C30. `!view` at any position of a tuple keeps exactly the entities that the other members match and that are not in
that view. -/
theorem C30_not_anywhere_partial (r : Rnd) {st : Win V → Sto V} {l1 l2 : List (Qry V)} {w : Win V} {excl : Bool}
    (hf : Fine st (.tup (l1 ++ .absent w excl :: l2))) (hs : Sails r (.tup (l1 ++ .absent w excl :: l2))) :
    ∃ (it : It V) (items : List (EId × Out V)), iter r (.tup (l1 ++ .absent w excl :: l2)) = .ok it ∧
      it.fold = .ok (items.map (·.2)) ∧ (items.map (·.1)).Nodup ∧
      ∀ e o, (e, o) ∈ items ↔ ∃ os1 os2, itemsOf st l1 e = some os1 ∧ itemsOf st l2 e = some os2 ∧
        lookup (st w).rows e = none ∧ o = .tup (os1 ++ .unit :: os2) := by
  obtain ⟨it, items, h1, h2, h3, _⟩ := C29_query_partial r hf hs (tup_captain hf)
  refine ⟨it, items, h1, h2, h3.1, fun e o => ?_⟩
  have hlen : (l1 ++ Qry.absent w excl :: l2).length ≠ 1 := by
    intro h
    have h1 : l1 = [] ∧ l2 = [] := by
      simp only [List.length_append, List.length_cons] at h
      exact ⟨List.eq_nil_of_length_eq_zero (by omega), List.eq_nil_of_length_eq_zero (by omega)⟩
    have := tup_captain hf
    rw [h1.1, h1.2] at this
    simp [Qry.canCaptain, Qry.canCaptains] at this
  rw [h3.2, item_tup st hlen, itemsOf_at, ← lookup_rowAt]
  cases itemsOf st l1 e with
  | none => simp
  | some os =>
    simp only [item, Option.bind_some]
    cases rowAt (st w) e with
    | some x => simp
    | none =>
      cases itemsOf st l2 e with
      | none => simp
      | some os2 => simp [eq_comm]

/-- C30. `view.as_optional()` at any position of a tuple filters nothing and yields the component of the entity if it has
one. -/
theorem C30_optional_anywhere_partial (r : Rnd) {st : Win V → Sto V} {l1 l2 : List (Qry V)} {w : Win V}
    (hf : Fine st (.tup (l1 ++ .opt w :: l2))) (hs : Sails r (.tup (l1 ++ .opt w :: l2))) :
    ∃ (it : It V) (items : List (EId × Out V)), iter r (.tup (l1 ++ .opt w :: l2)) = .ok it ∧
      it.fold = .ok (items.map (·.2)) ∧ (items.map (·.1)).Nodup ∧
      ∀ e o, (e, o) ∈ items ↔ ∃ os1 os2, itemsOf st l1 e = some os1 ∧ itemsOf st l2 e = some os2 ∧
        o = .tup (os1 ++ .maybe (lookup (st w).rows e) :: os2) := by
  obtain ⟨it, items, h1, h2, h3, _⟩ := C29_query_partial r hf hs (tup_captain hf)
  refine ⟨it, items, h1, h2, h3.1, fun e o => ?_⟩
  have hlen : (l1 ++ Qry.opt w :: l2).length ≠ 1 := by
    intro h
    have h1 : l1 = [] ∧ l2 = [] := by
      simp only [List.length_append, List.length_cons] at h
      exact ⟨List.eq_nil_of_length_eq_zero (by omega), List.eq_nil_of_length_eq_zero (by omega)⟩
    have := tup_captain hf
    rw [h1.1, h1.2] at this
    simp [Qry.canCaptain, Qry.canCaptains] at this
  rw [h3.2, item_tup st hlen, itemsOf_at, ← lookup_rowAt]
  cases itemsOf st l1 e with
  | none => simp
  | some os =>
    simp only [item, Option.bind_some]
    cases itemsOf st l2 e with
    | none => simp
    | some os2 => simp [eq_comm]

/-- Both at once, with `!&mut view` first, `as_optional` in the middle. -/
def mixQ : Qry Nat := .tup [.absent bW true, .opt bW, .view aW]
theorem mixQ_fine : Fine demoSt mixQ := by
  simp only [mixQ, Fine, Fines]
  exact ⟨⟨bW_reads, bW_reads, aW_reads, trivial⟩, ⟨.view aW, by simp, rfl⟩, by decide⟩
theorem mixQ_sails : Sails f32 mixQ := C29_sails mixQ_fine rfl (by simp [mixQ, ShortIds, ShortIdss]) (by decide)
example := C30_not_anywhere_partial f32 (l1 := []) mixQ_fine mixQ_sails
example := C30_optional_anywhere_partial f32 (l1 := [.absent bW true]) mixQ_fine mixQ_sails
example : runFold mixQ = .ok [.tup [.unit, .maybe none, .comp 10]] := rfl

end Verif.IterSpec
