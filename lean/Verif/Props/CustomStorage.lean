import Verif.Lemmas.CustomStorage
import Verif.Props.World

/-!
# C87: custom storages when entities are moved and cloned

`ty j` is the id of the ordinary storage for the type of the components kept under the id `j`, see
`Model/CustomStorage.lean`: `ty j = j` says that `j` is not a custom id. Worlds with custom storages are worlds with
more ids (`WSpec.Reach`), so what C40-C45 and `C47_clone_storages` say of all `k` holds of custom storages.
-/
namespace Verif
open EntSpec (Event)
open WSpec (Reach Fits Same demo demoFlags demo_reach)
open World
variable {V : Type} {fl : Flags} {ty : Nat → Nat}

/-- `v` is the component of `e` in the last of the storages of the type of `k` in which `e` has one. The order
is the one of the storage map. -/
def WSpec.LastOf (ty : Nat → Nat) (w : World V) (e : EId) (k : Nat) (v : V) : Prop :=
  ∃ pre j s post, w.stos = pre ++ (j, s) :: post ∧ ty j = k ∧ w.get j e = .ok (some v) ∧
    ∀ i t, (i, t) ∈ post → ty i = k → w.get i e = .ok none
open WSpec (LastOf)

theorem World.sent_lastOf {w : World V} {A : Nat → Option (StoSpec.Sto V)} {Q : List Nat} {I : List EId} (h : Ok w A Q I) {e : EId}
    (he : e.gen < 65535) {k : Nat} {v : V} (hl : LastOf ty w e k v) :
    sent ty (fun j _ => look A j e) k w.stos = some v := by
  obtain ⟨pre, j, s, post, hw, hj, hg, hp⟩ := hl
  rw [hw]
  rw [h.get j he] at hg
  refine sent_some hj (by injection hg) fun i t hm hi => ?_
  have := hp i t hm hi
  rw [h.get i he] at this
  injection this

/-- The same of the storages that can be cloned. -/
def WSpec.LastClone (ty : Nat → Nat) (w : World V) (e : EId) (k : Nat) (v : V) : Prop :=
  ∃ pre j s post, w.stos = pre ++ (j, s) :: post ∧ ty j = k ∧ s.canClone = true ∧ w.get j e = .ok (some v) ∧
    ∀ i t, (i, t) ∈ post → ty i = k → t.canClone = true → w.get i e = .ok none
open WSpec (LastClone)

theorem World.sent_lastClone {w : World V} {A : Nat → Option (StoSpec.Sto V)} {Q : List Nat} {I : List EId} (h : Ok w A Q I) {e : EId}
    (he : e.gen < 65535) (cl : Nat → V → V) {k : Nat} {v : V} (hl : LastClone ty w e k v) :
    sent ty (clonedC ty cl A e) k w.stos = some (cl k v) := by
  obtain ⟨pre, j, s, post, hw, hj, hc, hg, hp⟩ := hl
  rw [hw]
  rw [h.get j he] at hg
  refine sent_some hj ?_ fun i t hm hi => ?_
  · unfold clonedC
    injection hg with hg
    rw [if_pos hc, hg, hj]
    rfl
  · unfold clonedC
    split
    · rename_i hct
      have := hp i t hm hi hct
      rw [h.get i he] at this
      injection this with this
      rw [this]
      rfl
    · rfl

theorem World.sent_noClone {w : World V} {A : Nat → Option (StoSpec.Sto V)} {Q : List Nat} {I : List EId} (h : Ok w A Q I) {e : EId}
    (he : e.gen < 65535) (cl : Nat → V → V) {k : Nat}
    (hn : ∀ j s, lookupK w.stos j = some s → ty j = k → s.canClone = true → w.get j e = .ok none) :
    sent ty (clonedC ty cl A e) k w.stos = none := by
  refine sent_none fun i t hm hi => ?_
  unfold clonedC
  split
  · rename_i hct
    have := hn i t (lookupK_of_mem h.nodup hm) hi hct
    rw [h.get i he] at this
    injection this with this
    rw [this]
    rfl
  · rfl

theorem World.sent_own {w : World V} {A : Nat → Option (StoSpec.Sto V)} {Q : List Nat} {I : List EId} (h : Ok w A Q I) {e : EId}
    (he : e.gen < 65535) (hty : ∀ j v, w.get j e = .ok (some v) → ty j = j) (k : Nat) :
    sent ty (fun j _ => look A j e) k w.stos = look A k e := by
  have hown : ∀ j v, look A j e = some v → ty j = j := fun j v hv => hty j v (by rw [h.get j he, hv])
  cases hk : look A k e with
  | none =>
    refine sent_none fun i t _ hi => ?_
    show look A i e = none
    cases hv : look A i e with
    | none => rfl
    | some v => rw [← hown i v hv, hi, hk] at hv; cases hv
  | some v =>
    have hm : k ∈ w.stos.map Prod.fst := by
      have := h.sto k
      unfold look at hk
      cases hA : A k with
      | none => rw [hA] at hk; cases hk
      | some a =>
        rw [hA] at this
        generalize hl : lookupK w.stos k = o at this
        cases this with
        | some ha =>
          rcases Classical.em (k ∈ w.stos.map Prod.fst) with hm | hm
          · exact hm
          · rw [lookupK_none.2 hm] at hl; cases hl
    obtain ⟨⟨k', s⟩, hks, rfl⟩ := List.mem_map.1 hm
    obtain ⟨pre, post, hsp⟩ := List.append_of_mem hks
    have hnd := h.nodup
    rw [hsp]
    refine sent_some (hown _ v hk) hk fun i t hmem hi => ?_
    show look A i e = none
    cases hv : look A i e with
    | none => rfl
    | some u =>
      exfalso
      have hik : i = k' := (hown i u hv).symm.trans hi
      rw [hsp, List.map_append, List.nodup_append] at hnd
      have := hnd.2.1
      rw [List.map_cons, List.nodup_cons] at this
      exact this.1 (List.mem_map.2 ⟨(i, t), hmem, hik⟩)

/-! ## Moving -/

/-- C87, exactly what `move_components` does when there are custom storages: the components of `src` leave all
the storages; for each type the last of them arrives in the ordinary storage of the type and the others are
lost; all else is unchanged. -/
theorem C87_move_components {w o : World V} {h ho : List Event} (hr : Reach fl w h) (hro : Reach fl o ho)
    {src dst : EId} (hsrc : w.isAlive src = true) (hdst : o.isAlive dst = true) :
    ∃ w' o', w.moveComponentsC fl ty o src dst = .ok (.returned, w', o') ∧
      (∀ x, w'.isAlive x = w.isAlive x) ∧ (∀ x, o'.isAlive x = o.isAlive x) ∧
      (∀ k, w'.get k src = .ok none) ∧
      (∀ k v, LastOf ty w src k v → o'.get k dst = .ok (some v)) ∧
      (∀ k, (∀ j, ty j = k → w.get j src = .ok none) → o'.get k dst = o.get k dst) ∧
      (∀ k x, x ≠ src → x.gen < 65535 → w'.get k x = w.get k x) ∧
      ∀ k x, x ≠ dst → x.gen < 65535 → o'.get k x = o.get k x := by
  obtain ⟨A, Q, hok⟩ := reach_ok hr
  obtain ⟨B, Q2, hoko⟩ := reach_ok hro
  obtain ⟨w', o', A', B', h1, h2, h3, h4, h5, h6, h7⟩ := hok.moveComponentsC (fl := fl) (ty := ty) hoko hsrc hdst
  have hs := (hok.ent.valid hsrc).1
  have hd := (hoko.ent.valid hdst).1
  refine ⟨w', o', h1, fun x => by unfold World.isAlive; rw [h2], fun x => by unfold World.isAlive; rw [h3],
    fun k => ?_, fun k v hl => ?_, fun k hg => ?_, fun k x hx hxg => ?_, fun k x hx hxg => ?_⟩
  · rw [h4.get k hs, h6, if_pos rfl]
  · rw [h5.get k hd, h7, if_pos rfl, sent_lastOf hok hs hl]
    rfl
  · rw [h5.get k hd, hoko.get k hd, h7, if_pos rfl, sent_none]
    · rfl
    · intro i t _ hi
      have := hg i hi
      rw [hok.get i hs] at this
      injection this
  · rw [h4.get k hxg, hok.get k hxg, h6, if_neg hx]
  · rw [h5.get k hxg, hoko.get k hxg, h7, if_neg hx]

/-- C87, `move_components` of an entity that has no component in a custom storage: every component arrives in
the storage of the same id. Missing: components in custom storages, see `C87_move_fails`. -/
theorem C87_move_components_partial {w o : World V} {h ho : List Event} (hr : Reach fl w h) (hro : Reach fl o ho)
    {src dst : EId} (hsrc : w.isAlive src = true) (hdst : o.isAlive dst = true)
    (hty : ∀ j v, w.get j src = .ok (some v) → ty j = j) :
    ∃ w' o', w.moveComponentsC fl ty o src dst = .ok (.returned, w', o') ∧
      (∀ k, w'.get k src = .ok none) ∧
      (∀ k v, w.get k src = .ok (some v) → o'.get k dst = .ok (some v)) ∧
      ∀ k, w.get k src = .ok none → o'.get k dst = o.get k dst := by
  obtain ⟨A, Q, hok⟩ := reach_ok hr
  obtain ⟨B, Q2, hoko⟩ := reach_ok hro
  obtain ⟨w', o', A', B', h1, h2, h3, h4, h5, h6, h7⟩ := hok.moveComponentsC (fl := fl) (ty := ty) hoko hsrc hdst
  have hs := (hok.ent.valid hsrc).1
  have hd := (hoko.ent.valid hdst).1
  refine ⟨w', o', h1, fun k => ?_, fun k v hg => ?_, fun k hg => ?_⟩
  · rw [h4.get k hs, h6, if_pos rfl]
  · rw [hok.get k hs] at hg
    injection hg with hg
    rw [h5.get k hd, h7, if_pos rfl, sent_own hok hs hty, hg]
    rfl
  · rw [hok.get k hs] at hg
    injection hg with hg
    rw [h5.get k hd, hoko.get k hd, h7, if_pos rfl, sent_own hok hs hty, hg]
    rfl

/-- C87, exactly what `move_entity` does when there are custom storages, under the conditions of C46: for each
type the last of the components arrives in the ordinary storage of the type; nothing arrives in a storage of
another id. -/
theorem C87_move_entity {w o : World V} {h ho : List Event} (hr : Reach fl w h) (hro : Reach fl o ho)
    {e : EId} (he : w.isAlive e = true) (hg : e.gen < 65533)
    (hfree : ∀ x, o.isAlive x = true → x.idx ≠ e.idx) {o1 : World V}
    (hs : o.spawn e = .ok (true, o1)) (hfit : Fits o1) :
    ∃ w' o', w.moveEntityC fl ty o e = .ok (.returned, w', o') ∧
      w'.isAlive e = false ∧ (∀ k, w'.get k e = .ok none) ∧ o'.isAlive e = true ∧
      (∀ k v, LastOf ty w e k v → o'.get k e = .ok (some v)) ∧
      (∀ k, (∀ j, ty j = k → w.get j e = .ok none) → o'.get k e = .ok none) ∧
      ((∀ j v, w.get j e = .ok (some v) → ty j = j) → ∀ k, o'.get k e = w.get k e) ∧
      ∀ x, x ≠ e → x.gen < 65535 → Same w w' x ∧ Same o o' x := by
  obtain ⟨A, Q, hok⟩ := reach_ok hr
  obtain ⟨B, Q2, hoko⟩ := reach_ok hro
  have hsp : o.ents.spawn e = .ok (true, o1.ents) := by
    unfold World.spawn at hs
    cases hse : o.ents.spawn e with
    | error f => rw [hse] at hs; cases hs
    | ok p =>
      rw [hse] at hs
      simp only [bind, Except.bind, Except.ok.injEq, Prod.mk.injEq] at hs
      rw [← hs.2, ← hs.1]
  obtain ⟨w', o', A', B', Q', Q2', h1, h2, h3, h4, h5, h6, h7, h8, h9⟩ := hok.moveEntityC (fl := fl) (ty := ty) hoko he
    (fun x hx hi => absurd hi (hfree x hx)) hsp hfit
  have hv : e.gen < 65535 := by omega
  have hBe : ∀ k, look B k e = none := by
    intro k
    cases hl : look B k e with
    | none => rfl
    | some v => exact absurd rfl (hfree e (hoko.look_alive hl))
  refine ⟨w', o', h1, h6 hg, fun k => ?_, (h7 e).2 (Or.inr rfl), fun k v hl => ?_, fun k hn => ?_, fun hty k => ?_, ?_⟩
  · rw [h3.get k hv, h8, if_pos rfl]
  · rw [h4.get k hv, h9, if_pos rfl, sent_lastOf hok hv hl]
    rfl
  · rw [h4.get k hv, h9, if_pos rfl, sent_none, hBe]
    · rfl
    · intro i t _ hi
      have := hn i hi
      rw [hok.get i hv] at this
      injection this
  · rw [h4.get k hv, hok.get k hv, h9, if_pos rfl, hBe, sent_own hok hv hty]
    cases look A k e <;> rfl
  · intro x hx hxg
    refine ⟨⟨h5 x hx, fun k => ?_⟩, ⟨?_, fun k => ?_⟩⟩
    · rw [h3.get k hxg, hok.get k hxg, h8, if_neg hx]
    · apply Bool.eq_iff_iff.2
      rw [show o'.isAlive x = true ↔ _ from h7 x]
      exact ⟨fun h => h.resolve_right hx, Or.inl⟩
    · rw [h4.get k hxg, hoko.get k hxg, h9, if_neg hx]

/-- Without custom storages the calls are those of C46 and C47. -/
theorem C87_no_custom (w o : World V) (cl : Nat → V → V) (a b : EId) :
    w.moveEntityC fl id o a = w.moveEntity fl o a ∧ w.moveComponentsC fl id o a b = w.moveComponents fl o a b ∧
    w.cloneEntityToC fl id cl o a = w.cloneEntityTo fl cl o a ∧
    w.cloneComponentsToC fl id cl o a b = w.cloneComponentsTo fl cl o a b := by
  refine ⟨?_, ?_, ?_, ?_⟩
  · unfold moveEntityC moveEntity; simp only [moveLoopC_id]
  · unfold moveComponentsC moveComponents; simp only [moveLoopC_id]
  · unfold cloneEntityToC cloneEntityTo; simp only [cloneCompLoopC_id]
  · unfold cloneComponentsToC cloneComponentsTo; simp only [cloneCompLoopC_id]

/-! ## Cloning -/

/-- C87, exactly what `clone_components_to` does when there are custom storages: for each type the clone of the
last of the components that can be cloned arrives in the ordinary storage of the type; all else is unchanged. -/
theorem C87_clone_components {w o : World V} {h ho : List Event} (hr : Reach fl w h) (hro : Reach fl o ho)
    {src dst : EId} (hsrc : w.isAlive src = true) (hdst : o.isAlive dst = true) (cl : Nat → V → V) :
    ∃ o', w.cloneComponentsToC fl ty cl o src dst = .ok (.returned, o') ∧ (∀ x, o'.isAlive x = o.isAlive x) ∧
      (∀ k v, LastClone ty w src k v → o'.get k dst = .ok (some (cl k v))) ∧
      (∀ k, (∀ j s, lookupK w.stos j = some s → ty j = k → s.canClone = true → w.get j src = .ok none) →
        o'.get k dst = o.get k dst) ∧
      ∀ k x, x ≠ dst → x.gen < 65535 → o'.get k x = o.get k x := by
  obtain ⟨A, Q, hok⟩ := reach_ok hr
  obtain ⟨B, Q2, hoko⟩ := reach_ok hro
  obtain ⟨o', B', h1, h2, h3, h4⟩ := hok.cloneComponentsToC (fl := fl) (ty := ty) hoko hsrc hdst cl
  have hs := (hok.ent.valid hsrc).1
  have hd := (hoko.ent.valid hdst).1
  refine ⟨o', h1, fun x => by unfold World.isAlive; rw [h2], fun k v hl => ?_, fun k hn => ?_, fun k x hx hxg => ?_⟩
  · rw [h3.get k hd, h4, if_pos rfl, sent_lastClone hok hs cl hl]
    rfl
  · rw [h3.get k hd, hoko.get k hd, h4, if_pos rfl, sent_noClone hok hs cl hn]
    rfl
  · rw [h3.get k hxg, hoko.get k hxg, h4, if_neg hx]

/-- C87, exactly what `clone_entity_to` does when there are custom storages, under the conditions of C47. -/
theorem C87_clone_entity {w o : World V} {h ho : List Event} (hr : Reach fl w h) (hro : Reach fl o ho)
    {e : EId} (he : w.isAlive e = true) (cl : Nat → V → V)
    (hfree : ∀ x, o.isAlive x = true → x.idx ≠ e.idx) {o1 : World V}
    (hs : o.spawn e = .ok (true, o1)) (hfit : Fits o1) :
    ∃ o', w.cloneEntityToC fl ty cl o e = .ok (.returned, o') ∧ o'.isAlive e = true ∧
      (∀ k v, LastClone ty w e k v → o'.get k e = .ok (some (cl k v))) ∧
      (∀ k, (∀ j s, lookupK w.stos j = some s → ty j = k → s.canClone = true → w.get j e = .ok none) →
        o'.get k e = .ok none) ∧
      ∀ x, x ≠ e → x.gen < 65535 → Same o o' x := by
  obtain ⟨A, Q, hok⟩ := reach_ok hr
  obtain ⟨B, Q2, hoko⟩ := reach_ok hro
  have hsp : o.ents.spawn e = .ok (true, o1.ents) := by
    unfold World.spawn at hs
    cases hse : o.ents.spawn e with
    | error f => rw [hse] at hs; cases hs
    | ok p =>
      rw [hse] at hs
      simp only [bind, Except.bind, Except.ok.injEq, Prod.mk.injEq] at hs
      rw [← hs.2, ← hs.1]
  obtain ⟨o', B', Q2', h1, h2, h3, h4, h5⟩ := hok.cloneEntityToC (fl := fl) (ty := ty) hoko he cl
    (fun x hx hi => absurd hi (hfree x hx)) hsp hfit
  have hv := (hok.ent.valid he).1
  have hBe : ∀ k, look B k e = none := by
    intro k
    cases hl : look B k e with
    | none => rfl
    | some v => exact absurd rfl (hfree e (hoko.look_alive hl))
  refine ⟨o', h1, (h4 e).2 (Or.inr rfl), fun k v hl => ?_, fun k hn => ?_, fun x hx hxg => ⟨?_, fun k => ?_⟩⟩
  · rw [h3.get k hv, h5, if_pos rfl, sent_lastClone hok hv cl hl]
    rfl
  · rw [h3.get k hv, h5, if_pos rfl, sent_noClone hok hv cl hn, hBe]
    rfl
  · apply Bool.eq_iff_iff.2
    rw [show o'.isAlive x = true ↔ _ from h4 x]
    exact ⟨fun h => h.resolve_right hx, Or.inl⟩
  · rw [h3.get k hxg, hoko.get k hxg, h5, if_neg hx]

/-- C87, `clone_components_to` of an entity that has no component in a custom storage of a cloneable kind: every
cloneable component arrives in the storage of the same id. Missing: see `C87_clone_fails`. -/
theorem C87_clone_components_partial {w o : World V} {h ho : List Event} (hr : Reach fl w h) (hro : Reach fl o ho)
    {src dst : EId} (hsrc : w.isAlive src = true) (hdst : o.isAlive dst = true) (cl : Nat → V → V)
    (hty : ∀ j s v, lookupK w.stos j = some s → s.canClone = true → w.get j src = .ok (some v) → ty j = j) :
    ∃ o', w.cloneComponentsToC fl ty cl o src dst = .ok (.returned, o') ∧ (∀ x, o'.isAlive x = o.isAlive x) ∧
      (∀ k s v, lookupK w.stos k = some s → s.canClone = true → w.get k src = .ok (some v) →
        o'.get k dst = .ok (some (cl k v))) ∧
      (∀ k, (∀ s, lookupK w.stos k = some s → s.canClone = true → w.get k src = .ok none) → o'.get k dst = o.get k dst) ∧
      ∀ k x, x ≠ dst → x.gen < 65535 → o'.get k x = o.get k x := by
  obtain ⟨A, Q, hok⟩ := reach_ok hr
  obtain ⟨B, Q2, hoko⟩ := reach_ok hro
  obtain ⟨o', B', h1, h2, h3, h4⟩ := hok.cloneComponentsToC (fl := fl) (ty := ty) hoko hsrc hdst cl
  have hs := (hok.ent.valid hsrc).1
  have hd := (hoko.ent.valid hdst).1
  have hown : ∀ i t u, (i, t) ∈ w.stos → clonedC ty cl A src i t = some u → ty i = i := by
    intro i t u hm hu
    unfold clonedC at hu
    split at hu
    · rename_i hc
      cases hv : look A i src with
      | none => rw [hv] at hu; cases hu
      | some v => exact hty i t v (lookupK_of_mem hok.nodup hm) hc (by rw [hok.get i hs, hv])
    · cases hu
  refine ⟨o', h1, fun x => by unfold World.isAlive; rw [h2], fun k s v hl hc hg => ?_, fun k hn => ?_, fun k x hx hxg => ?_⟩
  · have hk := hty k s v hl hc hg
    rw [hok.get k hs] at hg
    injection hg with hg
    have hm : (k, s) ∈ w.stos := by
      clear hty hg hown
      have : ∀ l : List (Nat × SparseSet V), lookupK l k = some s → (k, s) ∈ l := by
        intro l
        induction l with
        | nil => intro h; cases h
        | cons y l ih =>
          obtain ⟨j, t⟩ := y
          simp only [lookupK]
          split
          · rename_i hj; intro ht; cases ht; subst hj; exact List.mem_cons_self
          · exact fun h => List.mem_cons_of_mem _ (ih h)
      exact this _ hl
    obtain ⟨pre, post, hsp⟩ := List.append_of_mem hm
    have hnd := hok.nodup
    rw [h3.get k hd, h4, if_pos rfl, hsp, sent_some (v := cl k v) hk]
    · rfl
    · unfold clonedC
      rw [hc, hg, hk]
      rfl
    · intro i t hmem hi
      cases hu : clonedC ty cl A src i t with
      | none => rfl
      | some u =>
        exfalso
        have hik : i = k := (hown i t u (by rw [hsp]; simp [hmem]) hu).symm.trans hi
        rw [hsp, List.map_append, List.nodup_append] at hnd
        have := hnd.2.1
        rw [List.map_cons, List.nodup_cons] at this
        exact this.1 (List.mem_map.2 ⟨(i, t), hmem, hik⟩)
  · rw [h3.get k hd, hoko.get k hd, h4, if_pos rfl, sent_none]
    · rfl
    · intro i t hmem hi
      cases hu : clonedC ty cl A src i t with
      | none => rfl
      | some u =>
        exfalso
        have hik : i = k := (hown i t u hmem hu).symm.trans hi
        subst hik
        unfold clonedC at hu
        split at hu
        · rename_i hc
          have := hn t (lookupK_of_mem hok.nodup hmem) hc
          rw [hok.get i hs] at this
          injection this with this
          rw [this] at hu
          cases hu
        · cases hu
  · rw [h3.get k hxg, hoko.get k hxg, h4, if_neg hx]

/-! ## Where it fails -/

/-- The storages 5 and 6 are custom storages for the type of the storage 0. -/
def WSpec.tyDemo (j : Nat) : Nat := if j = 5 ∨ j = 6 then 0 else j
open WSpec (tyDemo)

/-- Adding a component through a view. -/
def WSpec.addVia (w : World Nat) (k : Nat) (e : EId) (v : Nat) : World Nat :=
  match lookupK w.stos k with
  | none => w
  | some s =>
    match s.insert e v w.counter with
    | .ok (_, s') => w.put k s'
    | .error _ => w

/-- A world with two custom storages; entity 0 has a component in both, and one of type 1; entity 1 has only
ordinary ones. -/
def WSpec.cworld : World Nat :=
  WSpec.addVia (WSpec.addVia ((((demo.strip ⟨0, 0⟩).toOption.getD demo).create demoFlags 5).create demoFlags 6) 5 ⟨0, 0⟩ 50)
    6 ⟨0, 0⟩ 60
open WSpec (cworld)

theorem WSpec.cworld_reach : Reach demoFlags cworld [.added ⟨0, 0⟩, .added ⟨1, 0⟩, .added ⟨2, 0⟩] := by
  refine .viewAdd (k := 6) (e := ⟨0, 0⟩) (v := 60) (r := .inserted) (.viewAdd (k := 5) (e := ⟨0, 0⟩) (v := 50) (r := .inserted)
    (.create 6 (.create 5 (.strip (e := ⟨0, 0⟩) demo_reach (by unfold StoSpec.Valid; decide) rfl))) rfl rfl rfl) rfl rfl rfl
open WSpec (cworld_reach)

/-- C87 is false of components in custom storages: both leave their storages, none arrives in a storage of
the same id; one arrives in the ordinary storage of the type, the other is lost. -/
theorem C87_move_fails : ∃ (w w' o' : World Nat) (h : List Event) (ty : Nat → Nat), Reach demoFlags w h ∧
    w.isAlive ⟨0, 0⟩ = true ∧ w.get 5 ⟨0, 0⟩ = .ok (some 50) ∧ w.get 6 ⟨0, 0⟩ = .ok (some 60) ∧ w.get 0 ⟨0, 0⟩ = .ok none ∧
    w.moveEntityC demoFlags ty World.new ⟨0, 0⟩ = .ok (.returned, w', o') ∧
    (∀ k ∈ [0, 5, 6], w'.get k ⟨0, 0⟩ = .ok none) ∧
    o'.isAlive ⟨0, 0⟩ = true ∧ o'.get 5 ⟨0, 0⟩ = .ok none ∧ o'.get 6 ⟨0, 0⟩ = .ok none ∧ o'.get 0 ⟨0, 0⟩ = .ok (some 60) := by
  refine ⟨cworld, _, _, _, tyDemo, cworld_reach, rfl, rfl, rfl, rfl, rfl, ?_, rfl, rfl, rfl, rfl⟩
  intro k hk
  simp only [List.mem_cons, List.not_mem_nil, or_false] at hk
  rcases hk with rfl | rfl | rfl <;> rfl

/-- C87 is false of clones of components in custom storages, in the same way; here the clone also replaces the
component the entity had in the ordinary storage of the type. -/
theorem C87_clone_fails : ∃ (w o' : World Nat) (h : List Event) (ty : Nat → Nat), Reach demoFlags w h ∧
    w.isAlive ⟨0, 0⟩ = true ∧ w.get 5 ⟨0, 0⟩ = .ok (some 50) ∧ w.get 0 ⟨0, 0⟩ = .ok none ∧
    demo.get 0 ⟨1, 0⟩ = .ok (some 11) ∧
    w.cloneComponentsToC demoFlags ty (fun _ v => v) demo ⟨0, 0⟩ ⟨1, 0⟩ = .ok (.returned, o') ∧
    o'.get 5 ⟨1, 0⟩ = .ok none ∧ o'.get 0 ⟨1, 0⟩ = .ok (some 50) :=
  ⟨cworld.registerClone demoFlags 5, _, _, tyDemo, .registerClone 5 cworld_reach, rfl, rfl, rfl, rfl, rfl, rfl, rfl⟩

/-! ## Non-vacuity -/

theorem WSpec.cworld_last : LastOf tyDemo cworld ⟨0, 0⟩ 0 60 :=
  ⟨cworld.stos.take 3, 6, (lookupK cworld.stos 6).getD (SparseSet.new false false false false), [], rfl, rfl, rfl, by simp⟩

example := C87_move_components cworld_reach demo_reach (ty := tyDemo) (src := ⟨0, 0⟩) (dst := ⟨1, 0⟩) rfl rfl
example : ∃ w' o', cworld.moveComponentsC demoFlags tyDemo demo ⟨1, 0⟩ ⟨2, 0⟩ = .ok (.returned, w', o') ∧
    w'.get 0 ⟨1, 0⟩ = .ok none ∧ o'.get 0 ⟨2, 0⟩ = .ok (some 11) ∧ o'.get 1 ⟨2, 0⟩ = .ok (some 22) :=
  ⟨_, _, rfl, rfl, rfl, rfl⟩
/-- Entity 1 of the demo has no component in a custom storage. -/
example : ∀ j v, demo.get j ⟨1, 0⟩ = .ok (some v) → tyDemo j = j := by
  intro j v hj
  unfold tyDemo
  split
  · rename_i h
    rcases h with rfl | rfl <;> cases hj
  · rfl

end Verif
