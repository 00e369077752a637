import Verif.Props.WorldReports

/-!
# C95 for `delete_component` of several types
-/
namespace Verif
open EntSpec (Event)
open WSpec
open World
variable {V : Type} {fl : Flags}

theorem World.deleteFirst_each {e : EId} (now : Nat) : ∀ (ks : List Nat) {w : World V} {A : Nat → Option (StoSpec.Sto V)} {Q : List Nat}
    {I : List EId}, Ok w A Q I → w.ents.isAlive e = true → ks.Nodup →
    ∃ b w' reached rest, deleteFirst fl e now ks w = .ok (b, w') ∧ ks = reached ++ rest ∧
      (∀ k ∈ reached, ∃ s', lookupK w'.stos k = some s' ∧ Deleted e now (w.stoOr fl k) s') ∧
      (∀ k, k ∉ reached → lookupK w'.stos k = lookupK w.stos k) ∧
      (b = true → ∃ before k v, reached = before ++ [k] ∧ (w.stoOr fl k).get e = .ok (some v) ∧
        ∀ j ∈ before, (w.stoOr fl j).get e = .ok none) ∧
      (b = false → rest = [] ∧ ∀ j ∈ ks, (w.stoOr fl j).get e = .ok none)
  | [], w, A, Q, I, _, _, _ => ⟨false, w, [], [], rfl, rfl, (fun _ h => by cases h), fun _ _ => rfl, (fun h => by cases h),
      fun _ => ⟨rfl, fun _ h => by cases h⟩⟩
  | j :: ks, w, A, Q, I, hok, he, hn => by
    have hv := hok.ent.valid he
    obtain ⟨L, ha⟩ := hok.stoOr (fl := fl) j
    obtain ⟨s', L', h1, h2⟩ := dynDelete_tab ha hv now
    have hd := deleted_of ha h2 hv.1 (hok.own_or he j)
    have hg := ha.get hv.1
    rw [List.nodup_cons] at hn
    cases hb : StoSpec.lookup (tabOr fl A j).rows e with
    | some v =>
      rw [hb] at h1 hg
      refine ⟨true, w.put j s', [j], ks, ?_, rfl, fun k hk => ?_, fun k hk => ?_, fun _ => ⟨[], j, v, rfl, hg, fun _ h => by cases h⟩,
        (fun h => by cases h)⟩
      · simp only [deleteFirst, h1, bind, Except.bind, Option.isSome, if_true]
      · rw [List.mem_singleton.1 hk]
        exact ⟨s', by rw [lookupK_put, if_pos rfl], hd⟩
      · rw [lookupK_put, if_neg (by simpa using hk)]
    | none =>
      rw [hb] at h1 hg
      have hput := hok.put j h2 ((delTab_shrinks e now _).owned (hok.tabOr_owned (fl := fl) j))
      obtain ⟨b, w', reached, rest, g1, g2, g3, g4, g5, g6⟩ := deleteFirst_each now ks hput he hn.2
      have hne : ∀ k ∈ ks, k ≠ j := fun k hk hkj => hn.1 (hkj ▸ hk)
      have hre : ∀ k ∈ reached, k ∈ ks := fun k hk => by rw [g2]; exact List.mem_append_left _ hk
      refine ⟨b, w', j :: reached, rest, ?_, by rw [g2]; rfl, fun k hk => ?_, fun k hk => ?_, fun hbt => ?_, fun hbf => ?_⟩
      · simp only [deleteFirst, h1, bind, Except.bind, Option.isSome, Bool.false_eq_true, if_false]
        exact g1
      · cases hk with
        | head =>
          refine ⟨s', ?_, hd⟩
          rw [g4 j (fun hm => hne j (hre j hm) rfl), lookupK_put, if_pos rfl]
        | tail _ hk =>
          obtain ⟨t, ht, hdt⟩ := g3 k hk
          rw [stoOr_put_ne (hne k (hre k hk))] at hdt
          exact ⟨t, ht, hdt⟩
      · rw [List.mem_cons, not_or] at hk
        rw [g4 k hk.2, lookupK_put, if_neg hk.1]
      · obtain ⟨before, k, v, q1, q2, q3⟩ := g5 hbt
        have hkr : k ∈ reached := by rw [q1]; exact List.mem_append_right _ List.mem_cons_self
        refine ⟨j :: before, k, v, by rw [q1]; rfl, ?_, fun i hi => ?_⟩
        · rw [stoOr_put_ne (hne k (hre k hkr))] at q2; exact q2
        · cases hi with
          | head => exact hg
          | tail _ hi =>
            have := q3 i hi
            rw [stoOr_put_ne (hne i (hre i (by rw [q1]; exact List.mem_append_left _ hi)))] at this
            exact this
      · obtain ⟨q1, q2⟩ := g6 hbf
        refine ⟨q1, fun i hi => ?_⟩
        cases hi with
        | head => exact hg
        | tail _ hi =>
          have := q2 i hi
          rw [stoOr_put_ne (hne i hi)] at this
          exact this

theorem WSpec.get_stoOr (w : World V) (k : Nat) (e : EId) : (w.stoOr fl k).get e = w.get k e := by
  unfold World.stoOr World.get
  cases lookupK w.stos k with
  | none => rfl
  | some s => rfl

/-- C95 for `delete_component` of several types: the types are gone through in their order, up to the first one the entity has a
component of, which is recorded as deleted at the time of the call (in the ones before there is nothing to record); the others are not
touched. -/
theorem C95_delete_components {w : World V} {h : List Event} (hr : Reach fl w h) {e : EId} (he : w.isAlive e = true) {ks : List Nat}
    (hn : ks.Nodup) :
    ∃ b w' reached rest, w.deleteComponent fl ks e = .ok (b, w') ∧ ks = reached ++ rest ∧
      (∀ k ∈ reached, ∃ s', lookupK w'.stos k = some s' ∧ Deleted e w.counter (w.stoOr fl k) s') ∧
      (∀ k, k ∉ reached → lookupK w'.stos k = lookupK w.stos k) ∧
      (b = true → ∃ before k v, reached = before ++ [k] ∧ w.get k e = .ok (some v) ∧ ∀ j ∈ before, w.get j e = .ok none) ∧
      (b = false → rest = [] ∧ ∀ j ∈ ks, w.get j e = .ok none) := by
  obtain ⟨A, Q, hok⟩ := reach_ok hr
  obtain ⟨b, w', r, t, h1, h2, h3, h4, h5, h6⟩ := deleteFirst_each (fl := fl) w.counter ks hok.tick he hn
  refine ⟨b, w', r, t, h1, h2, h3, h4, fun hb => ?_, fun hb => ?_⟩
  · obtain ⟨before, k, v, q1, q2, q3⟩ := h5 hb
    exact ⟨before, k, v, q1, (get_stoOr (fl := fl) w k e).symm.trans q2, fun j hj => (get_stoOr (fl := fl) w j e).symm.trans (q3 j hj)⟩
  · obtain ⟨q1, q2⟩ := h6 hb
    exact ⟨q1, fun j hj => (get_stoOr (fl := fl) w j e).symm.trans (q2 j hj)⟩

/-- Entity `1` has a component of type 0 and none of type 1: of the types 1, 0 and 2 the first two are reached. -/
example : ∃ w', WSpec.tracked.deleteComponent WSpec.demoAll [1, 0, 2] ⟨1, 0⟩ = .ok (true, w') ∧
    (lookupK w'.stos 1).map (·.deletionData) = some [] ∧ (lookupK w'.stos 0).map (·.deletionData) = some [(⟨1, 0⟩, 3, 11)] ∧
    lookupK w'.stos 2 = none ∧ ([1, 0, 2] : List Nat).Nodup :=
  ⟨_, rfl, rfl, rfl, rfl, by decide⟩

end Verif
