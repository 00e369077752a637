import Verif.Props.World
import Verif.Lemmas.Exhausted

/-!
# Deleting and moving entities of any generation (C40, C45, C46, C47)

`C40_delete_entity_partial` and `C45_delete_any_partial` leave out the entities of generation 65533 and
65534, and `C46_move_entity_partial` also an entity already alive with that id. The theorems of this file hold of all of them and say exactly which ids are alive afterwards.
-/
namespace Verif
open EntSpec (Event)
open WSpec (Reach Fits FreeFor Same Cloneable demo demo_reach demoFlags)
open World
variable {V : Type} {fl : Flags}

/-- C40 for every id: what `delete_entity` returns tells if the entity was alive; an entity that was alive
loses all its components; it is dead afterwards except for generations 65533 and 65534; the other entities
are unchanged; with a dead id the whole world is unchanged. -/
theorem C40_exact {w : World V} {h : List Event} (hr : Reach fl w h) (e : EId) :
    ∃ w', w.deleteEntity e = .ok (w.isAlive e, w') ∧
      (w'.isAlive e = true ↔ w.isAlive e = true ∧ 65533 ≤ e.gen) ∧
      (w.isAlive e = true → ∀ k, w'.get k e = .ok none) ∧
      (∀ x, x ≠ e → x.gen < 65535 → Same w w' x) ∧
      (w.isAlive e = false → w' = w) := by
  by_cases hg : w.isAlive e = true → e.gen < 65533
  · obtain ⟨w', h1, h2, h3⟩ := C40_delete_entity_partial hr e hg
    refine ⟨w', h1, ⟨fun h => ?_, fun ⟨ha, hl⟩ => ?_⟩, h3⟩
    · rw [h2] at h; cases h
    · have := hg ha; omega
  · have ha : w.isAlive e = true := by
      cases ha : w.isAlive e with
      | true => rfl
      | false => exact absurd (fun h => by rw [ha] at h; cases h) hg
    have hl : 65533 ≤ e.gen := by
      rcases Nat.lt_or_ge e.gen 65533 with h | h
      · exact absurd (fun _ => h) hg
      · exact h
    obtain ⟨A, Q, hok⟩ := reach_ok hr
    have hv := hok.ent.valid ha
    obtain ⟨w', A', Q', h1, h2, h3, h4, h5, h6⟩ := hok.deleteEntity hv
    have h7 : w'.isAlive e = true := by
      show w'.ents.isAlive e = true
      rw [hok.deleteEntity_last h1 hl]; exact ha
    refine ⟨w', h1, ⟨fun _ => ⟨ha, hl⟩, fun _ => h7⟩, ?_, ?_, h5⟩
    · intro _ k
      rw [h2.get k hv.1, h6, if_pos rfl]
    · intro x hx hxg
      refine ⟨h3 x hx, fun k => ?_⟩
      rw [h2.get k hxg, hok.get k hxg, h6, if_neg hx]

/-- C45 for entities of every generation: the entities that have a component of a listed type lose all their
components, and are dead afterwards except for generations 65533 and 65534; the others are unchanged. -/
theorem C45_exact {w : World V} {h : List Event} (hr : Reach fl w h) (ks : List Nat)
    {order : List EId → List EId} (ho : ∀ (ids : List EId) (e : EId), e ∈ order ids ↔ e ∈ ids) :
    ∃ w', w.deleteAny ks order = .ok w' ∧
      (∀ x, x.gen < 65535 → (∃ k ∈ ks, ∃ v, w.get k x = .ok (some v)) →
        (w'.isAlive x = true ↔ 65533 ≤ x.gen) ∧ ∀ k, w'.get k x = .ok none) ∧
      ∀ x, x.gen < 65535 → (∀ k ∈ ks, w.get k x = .ok none) → Same w w' x := by
  obtain ⟨A, Q, hok⟩ := reach_ok hr
  obtain ⟨w', A', Q', h1, h2, h3, h4, h5⟩ := hok.deleteAny ks ho
  obtain ⟨w'', g1, _, g3⟩ := C45_delete_any_partial hr ks ho
  rw [h1] at g1
  injection g1 with g1
  subst g1
  refine ⟨w', h1, ?_, g3⟩
  rintro x hxg ⟨k, hk, v, hg⟩
  rw [hok.get k hxg] at hg
  injection hg with hg
  have hex : ∃ k ∈ ks, look A k x ≠ none := ⟨k, hk, by rw [hg]; intro h; cases h⟩
  refine ⟨?_, fun j => by rw [h2.get j hxg, h5, if_pos hex]⟩
  show w'.ents.isAlive x = true ↔ _
  by_cases hx : x.gen < 65533
  · rw [h4 x hex hx]
    refine ⟨(fun h => by cases h), fun h => by omega⟩
  · rw [hok.deleteAny_last ho h1 (by omega), hok.look_alive hg]
    exact ⟨fun _ => by omega, fun _ => rfl⟩

/-- A world with an entity of generation 65533 that has a component of type 0. -/
theorem WSpec.last_reach : ∃ (w : World Nat) (h : List Event), Reach demoFlags w h ∧
    w.isAlive ⟨0, 65533⟩ = true ∧ w.get 0 ⟨0, 65533⟩ = .ok (some 7) ∧
    (∃ w', w.deleteAny [0] id = .ok w' ∧ w'.isAlive ⟨0, 65533⟩ = true ∧ w'.get 0 ⟨0, 65533⟩ = .ok none) :=
  ⟨_, _, .addComponent (e := ⟨0, 65533⟩) (cs := [(0, some 7)]) (r := .returned)
    (.spawn (e := ⟨0, 65533⟩) (b := true) (.init false) (by decide)
    (fun x hx => by simp [World.isAlive, Entities.isAlive, Entities.new] at hx) rfl
    (by unfold Fits; decide)) rfl, rfl, rfl, ⟨_, rfl, rfl, rfl⟩⟩

/-- C45 is false of an entity of generation 65533: `delete_any` takes its components and leaves it alive. -/
theorem C45_exhausted_fails :
    ∃ (w w' : World Nat) (h : List Event), Reach demoFlags w h ∧ w.get 0 ⟨0, 65533⟩ = .ok (some 7) ∧
      w.deleteAny [0] id = .ok w' ∧ w'.isAlive ⟨0, 65533⟩ = true := by
  obtain ⟨w, h, h1, _, h3, w', h4, h5, _⟩ := WSpec.last_reach
  exact ⟨w, w', h, h1, h3, h4, h5⟩

/-! ## C46 -/

theorem WSpec.spawn_ents {o o1 : World V} {e : EId} {b : Bool} (hs : o.spawn e = .ok (b, o1)) :
    o.ents.spawn e = .ok (b, o1.ents) := by
  unfold World.spawn at hs
  cases hse : o.ents.spawn e with
  | error f => rw [hse] at hs; cases hs
  | ok p =>
    rw [hse] at hs
    simp only [bind, Except.bind, Except.ok.injEq, Prod.mk.injEq] at hs
    rw [← hs.2, ← hs.1]

/-- C46 for every generation, and for an id that may be alive in the other world too: when the other world
accepts the id, the entity has no component left here and is dead here except for generations 65533 and
65534; there it is alive with the components it had here, and keeps those it had there of other types. The
other entities of both worlds are unchanged. -/
theorem C46_move_exact {w o : World V} {h ho : List Event} (hr : Reach fl w h) (hro : Reach fl o ho)
    {e : EId} (he : w.isAlive e = true) (hfree : FreeFor o e) {o1 : World V}
    (hs : o.spawn e = .ok (true, o1)) (hfit : Fits o1) :
    ∃ w' o', w.moveEntity fl o e = .ok (.returned, w', o') ∧
      (w'.isAlive e = true ↔ 65533 ≤ e.gen) ∧ (∀ k, w'.get k e = .ok none) ∧
      o'.isAlive e = true ∧
      (∀ k v, w.get k e = .ok (some v) → o'.get k e = .ok (some v)) ∧
      (∀ k, w.get k e = .ok none → o'.get k e = o.get k e) ∧
      ∀ x, x ≠ e → x.gen < 65535 → Same w w' x ∧ Same o o' x := by
  obtain ⟨A, Q, hok⟩ := reach_ok hr
  obtain ⟨B, Q2, hoko⟩ := reach_ok hro
  have hv := (hok.ent.valid he).1
  have hsp := WSpec.spawn_ents hs
  obtain ⟨w', o', A', B', Q', Q2', h1, h2, h3, h4, h5, h6, h7, h8, h9⟩ := hok.moveEntity (fl := fl) hoko he
    hfree hsp hfit
  refine ⟨w', o', h1, ?_, fun k => ?_, (h7 e).2 (Or.inr rfl), fun k v hkv => ?_, fun k hkv => ?_, ?_⟩
  · by_cases hg : e.gen < 65533
    · show w'.ents.isAlive e = true ↔ _
      rw [h6 hg]
      exact ⟨(fun h => by cases h), fun h => by omega⟩
    · refine ⟨fun _ => by omega, fun _ => ?_⟩
      show w'.ents.isAlive e = true
      rw [hok.moveEntity_last h1 (by omega)]
      exact he
  · rw [h3.get k hv, h8, if_pos rfl]
  · rw [hok.get k hv] at hkv
    injection hkv with hkv
    rw [h4.get k hv, h9, if_pos rfl, hkv]
    rfl
  · rw [hok.get k hv] at hkv
    injection hkv with hkv
    rw [h4.get k hv, hoko.get k hv, h9, if_pos rfl, hkv]
    rfl
  · intro x hx hxg
    refine ⟨⟨h5 x hx, fun k => ?_⟩, ⟨?_, fun k => ?_⟩⟩
    · rw [h3.get k hxg, hok.get k hxg, h8, if_neg hx]
    · apply Bool.eq_iff_iff.2
      rw [show o'.isAlive x = true ↔ _ from h7 x]
      exact ⟨fun h => h.resolve_right hx, Or.inl⟩
    · rw [h4.get k hxg, hoko.get k hxg, h9, if_neg hx]

/-- C46 when the other world refuses the id: the call panics; the other world is unchanged; here every
component stays where it was, the entity is dead except for generations 65533 and 65534, and the other
entities are as alive as before. -/
theorem C46_move_refused {w o o1 : World V} {h : List Event} (hr : Reach fl w h)
    {e : EId} (he : w.isAlive e = true) (hs : o.spawn e = .ok (false, o1)) :
    ∃ w' o', w.moveEntity fl o e = .ok (.panicked, w', o') ∧
      (w'.isAlive e = true ↔ 65533 ≤ e.gen) ∧ (∀ k x, w'.get k x = w.get k x) ∧
      (∀ x, x ≠ e → w'.isAlive x = w.isAlive x) ∧
      ∀ x, Same o o' x := by
  obtain ⟨A, Q, hok⟩ := reach_ok hr
  obtain ⟨s', Q', h1, _, h3, h4, _, h6⟩ := ent_delete hok.ent e
  rw [show w.ents.isAlive e = true from he] at h1 h6
  have ho1 : o1.ents = o.ents := spawn_refused (WSpec.spawn_ents hs)
  refine ⟨{ w.tick with ents := s' }, { o.tick with ents := o1.ents }, ?_, ?_, fun k x => rfl, h3,
    fun x => ⟨?_, fun k => rfl⟩⟩
  rotate_right
  · show o1.ents.isAlive x = o.ents.isAlive x
    rw [ho1]
  · simp only [World.moveEntity, h1, WSpec.spawn_ents hs, bind, Except.bind, if_true, Bool.false_eq_true, if_false]
  · show s'.isAlive e = true ↔ _
    by_cases hg : e.gen < 65533
    · rw [h4 hg]
      exact ⟨(fun h => by cases h), fun h => by omega⟩
    · exact ⟨fun _ => by omega, fun _ => h6 (by omega)⟩

/-- A world that refuses the id of an entity of `demo`: it has a newer entity at that index. -/
example : ∃ (o o1 : World Nat) (ho : List Event), Reach demoFlags o ho ∧ demo.isAlive ⟨0, 0⟩ = true ∧
    o.spawn ⟨0, 0⟩ = .ok (false, o1) ∧ o1 = o :=
  ⟨_, _, _, .spawn (e := ⟨0, 5⟩) (b := true) (.init false) (by decide)
    (fun x hx => by simp [World.isAlive, Entities.isAlive, Entities.new] at hx) rfl
    (by unfold Fits; decide), rfl, rfl, rfl⟩

/-- A world with the same id alive. -/
example : ∃ (o o1 : World Nat) (ho : List Event), Reach demoFlags o ho ∧ demo.isAlive ⟨0, 0⟩ = true ∧
    o.isAlive ⟨0, 0⟩ = true ∧ FreeFor o ⟨0, 0⟩ ∧ o.spawn ⟨0, 0⟩ = .ok (true, o1) ∧ Fits o1 := by
  refine ⟨demo, _, _, demo_reach, rfl, rfl, ?_, rfl, by unfold Fits; decide⟩
  intro x hx hi
  obtain ⟨A, Q, hok⟩ := reach_ok demo_reach
  have h1 := ((hok.ent.inv.isAlive_iff_genAt x).1 hx).2
  rw [hi, show demo.ents.genAt 0 = some 0 from rfl] at h1
  injection h1 with h1
  cases x
  simp_all

/-! ## C47 -/

/-- C47, `clone_entity_to` when the id may be alive in the other world too: it is alive there with the clones
of the components of the cloneable types, and keeps what it had there of the other types. -/
theorem C47_clone_entity_exact {w o : World V} {h ho : List Event} (hr : Reach fl w h) (hro : Reach fl o ho)
    {e : EId} (he : w.isAlive e = true) (cl : Nat → V → V) (hfree : FreeFor o e) {o1 : World V}
    (hs : o.spawn e = .ok (true, o1)) (hfit : Fits o1) :
    ∃ o', w.cloneEntityTo fl cl o e = .ok (.returned, o') ∧ o'.isAlive e = true ∧
      (∀ k v, Cloneable w k → w.get k e = .ok (some v) → o'.get k e = .ok (some (cl k v))) ∧
      (∀ k, ¬ Cloneable w k ∨ w.get k e = .ok none → o'.get k e = o.get k e) ∧
      ∀ x, x ≠ e → x.gen < 65535 → Same o o' x := by
  obtain ⟨A, Q, hok⟩ := reach_ok hr
  obtain ⟨B, Q2, hoko⟩ := reach_ok hro
  obtain ⟨o', B', Q2', h1, h2, h3, h4, h5⟩ := hok.cloneEntityTo (fl := fl) hoko he cl
    hfree (WSpec.spawn_ents hs) hfit
  have hv := (hok.ent.valid he).1
  refine ⟨o', h1, (h4 e).2 (Or.inr rfl), fun k v hc hg => ?_, fun k hc => ?_, fun x hx hxg => ⟨?_, fun k => ?_⟩⟩
  · rw [hok.get k hv] at hg
    injection hg with hg
    rw [h3.get k hv, h5, if_pos rfl, cloned_eq.1 hc, hg]
    rfl
  · rw [h3.get k hv, hoko.get k hv, h5, if_pos rfl]
    by_cases hck : Cloneable w k
    · have hg := hc.resolve_left (fun h => h hck)
      rw [hok.get k hv] at hg
      injection hg with hg
      rw [cloned_eq.1 hck, hg]
      rfl
    · rw [cloned_eq.2 hck]
      rfl
  · apply Bool.eq_iff_iff.2
    rw [show o'.isAlive x = true ↔ _ from h4 x]
    exact ⟨fun h => h.resolve_right hx, Or.inl⟩
  · rw [h3.get k hxg, hoko.get k hxg, h5, if_neg hx]

/-- C47: a dead entity, or an id the other world refuses, panics and leaves the other world unchanged. -/
theorem C47_clone_entity_refused {w o : World V} (e : EId) (cl : Nat → V → V)
    (hs : w.isAlive e = false ∨ ∃ o1, o.spawn e = .ok (false, o1)) :
    ∃ o', w.cloneEntityTo fl cl o e = .ok (.panicked, o') ∧ ∀ x, Same o o' x := by
  cases ha : w.ents.isAlive e with
  | false =>
    refine ⟨o.tick, ?_, fun x => ⟨rfl, fun k => rfl⟩⟩
    simp only [World.cloneEntityTo, ha, Bool.false_eq_true, if_false]
  | true =>
    rcases hs with hs | ⟨o1, hs⟩
    · rw [show w.isAlive e = w.ents.isAlive e from rfl, ha] at hs; cases hs
    · have ho1 : o1.ents = o.ents := spawn_refused (WSpec.spawn_ents hs)
      refine ⟨{ o.tick with ents := o1.ents }, ?_, fun x => ⟨?_, fun k => rfl⟩⟩
      · simp only [World.cloneEntityTo, ha, WSpec.spawn_ents hs, bind, Except.bind, if_true, Bool.false_eq_true,
          if_false]
      · show o1.ents.isAlive x = o.ents.isAlive x
        rw [ho1]

example : ∃ o', demo.cloneEntityTo demoFlags (fun _ v => v) (World.new : World Nat) ⟨0, 9⟩ = .ok (.panicked, o') ∧
    demo.isAlive ⟨0, 9⟩ = false :=
  ⟨_, rfl, rfl⟩

end Verif
