import Verif.Lemmas.WorldOps2

/-!
# Entities of the last generations under `delete_entity` and `delete_any`
-/

namespace Verif.World
open StoSpec (Sto Valid)

variable {V : Type}

theorem ents_of_strip {w w' : World V} {e : EId} (h : w.strip e = .ok w') : w'.ents = w.ents := by
  unfold World.strip at h
  simp only [bind, Except.bind] at h
  split at h
  · cases h
  · cases h; rfl

/-- `delete_entity` changes nothing about who is alive among the ids of generation 65533 and above. -/
theorem Ok.deleteEntity_last {w w' : World V} {A : Nat → Option (Sto V)} {Q : List Nat} {I : List EId}
    (h : Ok w A Q I) {e : EId} {b : Bool} (hd : w.deleteEntity e = .ok (b, w')) {x : EId}
    (hx : 65533 ≤ x.gen) : w'.ents.isAlive x = w.ents.isAlive x := by
  obtain ⟨s', Q', h1, _, h3, _, _, h6⟩ := ent_delete h.ent e
  have he : w'.ents = s' := by
    unfold World.deleteEntity at hd
    simp only [h1, bind, Except.bind] at hd
    split at hd
    · split at hd
      · cases hd
      · rename_i hs
        cases hd
        exact ents_of_strip hs
    · cases hd; rfl
  rw [he]
  by_cases hxe : x = e
  · subst hxe; exact h6 hx
  · exact h3 x hxe

theorem Ok.deleteEntities_last {w w' : World V} {A : Nat → Option (Sto V)} {Q : List Nat} {I : List EId}
    (h : Ok w A Q I) {es : List EId} (he : ∀ e ∈ es, Valid e) (hd : World.deleteEntities es w = .ok w') {x : EId}
    (hx : 65533 ≤ x.gen) : w'.ents.isAlive x = w.ents.isAlive x := by
  induction es generalizing w A Q with
  | nil => cases hd; rfl
  | cons e es ih =>
    obtain ⟨w1, A1, Q1, h1, h2, _⟩ := h.deleteEntity (he e List.mem_cons_self)
    simp only [World.deleteEntities, h1, bind, Except.bind] at hd
    rw [ih h2 (fun e he' => he e (List.mem_cons_of_mem _ he')) hd, h.deleteEntity_last h1 hx]

theorem Ok.deleteAny_last {w w' : World V} {A : Nat → Option (Sto V)} {Q : List Nat} {I : List EId}
    (h : Ok w A Q I) {ks : List Nat} {order : List EId → List EId}
    (ho : ∀ (ids : List EId) (e : EId), e ∈ order ids ↔ e ∈ ids) (hd : w.deleteAny ks order = .ok w')
    {x : EId} (hx : 65533 ≤ x.gen) : w'.ents.isAlive x = w.ents.isAlive x := by
  obtain ⟨ids, w1, A1, h1, h2, h3, h4, h5, h6⟩ := h.tick.deleteAnyCollect w.counter ks
  have hval : ∀ e ∈ order ids, Valid e := by
    intro e he
    obtain ⟨k, _, hk⟩ := (h5 e).1 ((ho ids e).1 he)
    cases hv : look A k e with
    | none => exact absurd hv hk
    | some v => exact h.ent.valid (h.look_alive hv)
  simp only [World.deleteAny, h1, bind, Except.bind] at hd
  rw [h4.deleteEntities_last hval hd hx, h2]
  rfl

/-- `move_entity` neither. -/
theorem Ok.moveEntity_last {fl : Flags} {w o w' o' : World V} {A : Nat → Option (Sto V)} {Q : List Nat}
    {I : List EId} (h : Ok w A Q I) {e : EId} {r : Ended} (hd : w.moveEntity fl o e = .ok (r, w', o'))
    {x : EId} (hx : 65533 ≤ x.gen) : w'.ents.isAlive x = w.ents.isAlive x := by
  obtain ⟨s', Q', h1, _, h3, _, _, h6⟩ := ent_delete h.ent e
  have he : w'.ents = s' := by
    unfold World.moveEntity at hd
    simp only [h1, bind, Except.bind] at hd
    split at hd
    · split at hd
      · cases hd
      · split at hd
        · split at hd
          · cases hd
          · cases hd; rfl
        · cases hd; rfl
    · cases hd; rfl
  rw [he]
  by_cases hxe : x = e
  · subst hxe; exact h6 hx
  · exact h3 x hxe

/-- A refused `spawn` changes nothing. -/
theorem spawn_refused {s s' : Entities} {e : EId} (h : s.spawn e = .ok (false, s')) : s' = s := by
  unfold Entities.spawn at h
  simp only [bind, Except.bind] at h
  repeat' split at h
  all_goals first
    | (cases h; done)
    | (cases h; rfl)

end Verif.World
