import Verif.Props.Exhausted
import Verif.Lemmas.MoveOver
import Verif.Lemmas.CustomStorage

/-!
# Every move and clone of an entity that the other world accepts (C46, C47)

`C46_move_exact` and `C47_clone_entity_exact` leave out an entity alive at the same index of the other world. Here nothing is left
out: together with `C46_move_dead`, `C46_move_refused` and `C47_clone_entity_refused` every call is covered.
-/
namespace Verif
open EntSpec (Event)
open WSpec (Reach Fits Same Cloneable demo demo_reach demo2_reach demoFlags)
open World
variable {V : Type} {fl : Flags}

/-- C46 for every move the other world accepts. Here: as in `C46_move_exact`. There: the entity that was alive at that index, if any,
is dead; the moved entity is alive; of the types it had a component of here, it has exactly that one and no other entity has one at that
index; of the other types every id has what it had, also the entity that was killed. Entities of other indices are unchanged. -/
theorem C46_move_accepted {w o : World V} {h ho : List Event} (hr : Reach fl w h) (hro : Reach fl o ho)
    {e : EId} (he : w.isAlive e = true) {o1 : World V} (hs : o.spawn e = .ok (true, o1)) (hfit : Fits o1) :
    ∃ w' o', w.moveEntity fl o e = .ok (.returned, w', o') ∧
      (w'.isAlive e = true ↔ 65533 ≤ e.gen) ∧ (∀ k, w'.get k e = .ok none) ∧
      (∀ x, x ≠ e → x.gen < 65535 → Same w w' x) ∧
      (∀ x, o'.isAlive x = true ↔ (o.isAlive x = true ∧ x.idx ≠ e.idx) ∨ x = e) ∧
      (∀ k v, w.get k e = .ok (some v) → o'.get k e = .ok (some v)
        ∧ ∀ x, x.idx = e.idx → x ≠ e → x.gen < 65535 → o'.get k x = .ok none) ∧
      (∀ k, w.get k e = .ok none → ∀ x, o'.get k x = o.get k x) ∧
      ∀ k x, x.idx ≠ e.idx → x.gen < 65535 → o'.get k x = o.get k x := by
  obtain ⟨A, Q, hok⟩ := reach_ok hr
  obtain ⟨B, Q2, hoko⟩ := reach_ok hro
  have hv := hok.ent.valid he
  have hsp := WSpec.spawn_ents hs
  obtain ⟨s', Q', d1, d2, d3, d4, _, d6⟩ := ent_delete hok.ent e
  rw [show w.ents.isAlive e = true from he] at d1 d6
  obtain ⟨_, hal, _⟩ := ent_spawn hoko.ent hv hsp hfit
  have hins : ∀ k v, ∃ r t, (({ o.tick with ents := o1.ents } : World V).stoOr fl k).insert e v o.counter = .ok (r, t) ∧
      ∀ x : EId, x.gen < 65535 → t.get x = .ok (handedOver e (some v) x (look B k x)) := fun k v =>
    hoko.over (fl := fl) hv hsp k v o.counter
  obtain ⟨l', o', hm⟩ := moveLoop_total (fl := fl) (src := e) (dst := e) (now := w.counter) (nowO := o.counter) w.stos
    { o.tick with ents := o1.ents } hok.nodup
    (fun k s hks => by
      obtain ⟨a, L, hA, ha⟩ := hok.all_abs k s hks
      obtain ⟨s', L', hq, _⟩ := dynRemove_tab ha hv w.counter
      exact ⟨_, hq⟩)
    (fun k v _ => by obtain ⟨r, t, ht, _⟩ := hins k v; exact ⟨_, ht⟩)
  obtain ⟨e1, e2⟩ := moveLoop_each hm hok.nodup
  have hents : o'.ents = o1.ents := (moveLoop_ents _ _ _ _ _ hm).trans rfl
  -- what happens in the storages of one type
  have hkey : ∀ k, (∀ x : EId, x.gen < 65535 → World.get { w.tick with ents := s', stos := l' } k x =
        .ok (if x = e then none else look A k x)) ∧
      (look A k e = none → lookupK o'.stos k = lookupK o.stos k) ∧
      ∀ x : EId, x.gen < 65535 → o'.get k x = .ok (handedOver e (look A k e) x (look B k x)) := by
    intro k
    cases hk : lookupK w.stos k with
    | none =>
      have hA : A k = none := by
        have := hok.sto k
        rw [hk] at this
        generalize A k = ao at this
        cases this; rfl
      have hl : ∀ x, look A k x = none := fun x => by unfold look; rw [hA]; rfl
      obtain ⟨f1, f2⟩ := e1 k hk
      refine ⟨fun x _ => ?_, fun _ => f2, fun x hx => ?_⟩
      · unfold World.get
        simp only [f1, hl]
        split <;> rfl
      · rw [hl]
        have := hoko.get k hx
        unfold World.get at this ⊢
        rw [f2]
        exact this
    | some s =>
      obtain ⟨c, t, f1, f2, f3, f4⟩ := e2 k s hk
      obtain ⟨a, L, hA, ha⟩ := hok.all_abs k s (lookupK_mem hk)
      obtain ⟨t', L', g1, g2⟩ := dynRemove_tab ha hv w.counter
      rw [g1] at f1
      cases f1
      have hl : ∀ x, look A k x = StoSpec.lookup a.rows x := fun x => by unfold look; rw [hA]; rfl
      refine ⟨fun x hx => ?_, fun hn => f3 (by rw [← hl]; exact hn), fun x hx => ?_⟩
      · unfold World.get
        simp only [f2]
        rw [g2.get hx, lookup_remTab (fun r hrow => hok.rowAt hA he hrow), hl]
      · rw [hl]
        cases hc : StoSpec.lookup a.rows e with
        | none =>
          have := hoko.get k hx
          unfold World.get at this ⊢
          rw [f3 hc]
          exact this
        | some v =>
          obtain ⟨r, u, i1, i2⟩ := f4 v hc
          obtain ⟨r', u', j1, j2⟩ := hins k v
          rw [j1] at i1
          cases i1
          unfold World.get
          rw [i2]
          exact j2 x hx
  refine ⟨{ w.tick with ents := s', stos := l' }, o', ?_, ?_, fun k => ?_, fun x hx hxg => ⟨d3 x hx, fun k => ?_⟩, fun x => ?_,
    fun k v hkv => ?_, fun k hkv x => ?_, fun k x hx hxg => ?_⟩
  · simp only [World.moveEntity, d1, hsp, hm, bind, Except.bind, if_true]
  · show s'.isAlive e = true ↔ _
    by_cases hg : e.gen < 65533
    · rw [d4 hg]
      exact ⟨(fun h => by cases h), fun h => by omega⟩
    · exact ⟨fun _ => by omega, fun h => d6 h⟩
  · rw [(hkey k).1 e hv.1, if_pos rfl]
  · rw [(hkey k).1 x hxg, if_neg hx, hok.get k hxg]
  · show o'.ents.isAlive x = true ↔ _
    rw [hents]
    exact hal rfl x
  · rw [hok.get k hv.1] at hkv
    injection hkv with hkv
    refine ⟨?_, fun x hi hx hxg => ?_⟩
    · rw [(hkey k).2.2 e hv.1, hkv]
      simp [handedOver]
    · rw [(hkey k).2.2 x hxg, hkv]
      simp [handedOver, hi, hx]
  · rw [hok.get k hv.1] at hkv
    injection hkv with hkv
    unfold World.get
    rw [(hkey k).2.1 hkv]
  · rw [(hkey k).2.2 x hxg, hoko.get k hxg]
    unfold handedOver
    split
    · rfl
    · rw [if_neg hx]

/-- C47, every `clone_entity_to` the other world accepts. -/
theorem C47_clone_entity_accepted {w o : World V} {h ho : List Event} (hr : Reach fl w h) (hro : Reach fl o ho)
    {e : EId} (he : w.isAlive e = true) (cl : Nat → V → V) {o1 : World V} (hs : o.spawn e = .ok (true, o1)) (hfit : Fits o1) :
    ∃ o', w.cloneEntityTo fl cl o e = .ok (.returned, o') ∧
      (∀ x, o'.isAlive x = true ↔ (o.isAlive x = true ∧ x.idx ≠ e.idx) ∨ x = e) ∧
      (∀ k v, Cloneable w k → w.get k e = .ok (some v) → o'.get k e = .ok (some (cl k v))
        ∧ ∀ x, x.idx = e.idx → x ≠ e → x.gen < 65535 → o'.get k x = .ok none) ∧
      (∀ k, ¬ Cloneable w k ∨ w.get k e = .ok none → ∀ x, o'.get k x = o.get k x) ∧
      ∀ k x, x.idx ≠ e.idx → x.gen < 65535 → o'.get k x = o.get k x := by
  obtain ⟨A, Q, hok⟩ := reach_ok hr
  obtain ⟨B, Q2, hoko⟩ := reach_ok hro
  have hv := hok.ent.valid he
  have hsp := WSpec.spawn_ents hs
  obtain ⟨_, hal, _⟩ := ent_spawn hoko.ent hv hsp hfit
  have hins : ∀ k v, ∃ r t, (({ o.tick with ents := o1.ents } : World V).stoOr fl k).insert e v o.counter = .ok (r, t) ∧
      ∀ x : EId, x.gen < 65535 → t.get x = .ok (handedOver e (some v) x (look B k x)) := fun k v =>
    hoko.over (fl := fl) hv hsp k v o.counter
  have hcl : ∀ k s, (k, s) ∈ w.stos → cloneOf cl e k s = .ok (cloned cl w A k e) := by
    intro k s hks
    obtain ⟨a, L, hA, ha⟩ := hok.all_abs k s hks
    have hl : look A k e = StoSpec.lookup a.rows e := by unfold look; rw [hA]; rfl
    unfold cloneOf cloned
    rw [lookupK_of_mem hok.nodup hks, ha.get hv.1, hl]
    simp only [bind, Except.bind]
    split <;> rfl
  obtain ⟨o', hm⟩ := cloneCompLoop_total (fl := fl) (cl := cl) (src := e) (dst := e) (nowO := o.counter) w.stos
    { o.tick with ents := o1.ents } hok.nodup (fun k s hks => ⟨_, hcl k s hks⟩)
    (fun k v _ => by obtain ⟨r, t, ht, _⟩ := hins k v; exact ⟨_, ht⟩)
  obtain ⟨e1, e2⟩ := cloneCompLoop_each hm hok.nodup
  have hents : o'.ents = o1.ents := (cloneCompLoop_ents _ _ _ _ _ hm).trans rfl
  have hkey : ∀ k, (cloned cl w A k e = none → lookupK o'.stos k = lookupK o.stos k) ∧
      ∀ x : EId, x.gen < 65535 → o'.get k x = .ok (handedOver e (cloned cl w A k e) x (look B k x)) := by
    intro k
    have hsame : cloned cl w A k e = none → lookupK o'.stos k = lookupK o.stos k := by
      intro hn
      cases hk : lookupK w.stos k with
      | none => exact e1 k hk
      | some s =>
        obtain ⟨c, f1, f3, _⟩ := e2 k s hk
        rw [hcl k s (lookupK_mem hk)] at f1
        cases f1
        exact f3 hn
    refine ⟨hsame, fun x hx => ?_⟩
    cases hc : cloned cl w A k e with
    | none =>
      have := hoko.get k hx
      unfold World.get at this ⊢
      rw [hsame hc]
      exact this
    | some v =>
      cases hk : lookupK w.stos k with
      | none => unfold cloned at hc; rw [hk] at hc; cases hc
      | some s =>
        obtain ⟨c, f1, _, f4⟩ := e2 k s hk
        rw [hcl k s (lookupK_mem hk)] at f1
        cases f1
        obtain ⟨r, u, i1, i2⟩ := f4 v hc
        obtain ⟨r', u', j1, j2⟩ := hins k v
        rw [j1] at i1
        cases i1
        unfold World.get
        rw [i2]
        exact j2 x hx
  refine ⟨o', ?_, fun x => ?_, fun k v hck hkv => ?_, fun k hkv x => ?_, fun k x hx hxg => ?_⟩
  · simp only [World.cloneEntityTo, show w.ents.isAlive e = true from he, hsp, hm, bind, Except.bind, if_true]
  · show o'.ents.isAlive x = true ↔ _
    rw [hents]
    exact hal rfl x
  · rw [hok.get k hv.1] at hkv
    injection hkv with hkv
    have hc : cloned cl w A k e = some (cl k v) := by rw [cloned_eq.1 hck, hkv]; rfl
    refine ⟨?_, fun x hi hx hxg => ?_⟩
    · rw [(hkey k).2 e hv.1, hc]
      simp [handedOver]
    · rw [(hkey k).2 x hxg, hc]
      simp [handedOver, hi, hx]
  · have hc : cloned cl w A k e = none := by
      by_cases hck : Cloneable w k
      · have hg := hkv.resolve_left (fun h => h hck)
        rw [hok.get k hv.1] at hg
        injection hg with hg
        rw [cloned_eq.1 hck, hg]; rfl
      · exact cloned_eq.2 hck
    unfold World.get
    rw [(hkey k).1 hc]
  · rw [(hkey k).2 x hxg, hoko.get k hxg]
    unfold handedOver
    split
    · rfl
    · rw [if_neg hx]

/-- A move over another entity that is alive: the hypotheses are met, and so is each of the cases. -/
example : ∃ (w : World Nat) (h : List Event) (o1 : World Nat), Reach demoFlags w h ∧ w.isAlive ⟨0, 1⟩ = true ∧
    demo.isAlive ⟨0, 0⟩ = true ∧ demo.spawn ⟨0, 1⟩ = .ok (true, o1) ∧ Fits o1 ∧
    w.get 0 ⟨0, 1⟩ = .ok (some 91) ∧ demo.get 0 ⟨0, 0⟩ = .ok (some 10) ∧
    w.get 1 ⟨0, 1⟩ = .ok none ∧ demo.get 1 ⟨0, 0⟩ = .ok (some 20) ∧ Cloneable (w.registerClone demoFlags 0) 0 :=
  ⟨_, _, _, .addEntity (cs := [(0, some 91)]) (r := .returned) demo2_reach rfl (by unfold Fits; decide),
    rfl, rfl, rfl, by unfold Fits; decide, rfl, rfl, rfl, rfl, _, rfl, rfl⟩

end Verif
