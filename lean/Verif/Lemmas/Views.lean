import Verif.Spec.Views
import Verif.Props.World

/-!
# One call on one view, in terms of what a user observes
-/
namespace Verif.World
open EntSpec (Event issued)
open StoSpec (Valid Sto Row lookup)
open WSpec (Reach Viewed Did Untouched)
open SparseSet (Abs)
variable {V : Type} {fl : Flags}

theorem put_lookup (w : World V) (k : Nat) (s : SparseSet V) (j : Nat) :
    lookupK (w.put k s).stos j = if j = k then some s else lookupK w.stos j :=
  lookupK_setK _ _ _ _

theorem sto_abs {w : World V} {A Q I} (hok : Ok w A Q I) {k : Nat} {s : SparseSet V}
    (hl : lookupK w.stos k = some s) : ∃ a L, A k = some a ∧ AbsW s a L := by
  have hk := hok.sto k
  rw [hl] at hk
  generalize hA : A k = ao at hk
  cases hk with
  | some ha => exact ⟨_, _, rfl, ha⟩

theorem get_of_sto {w : World V} {k : Nat} {s : SparseSet V} (hl : lookupK w.stos k = some s) (e : EId) :
    w.get k e = s.get e := by
  unfold World.get; rw [hl]

/-- Inserting for an alive entity. -/
theorem view_insert {w : World V} {h : List Event} (hr : Reach fl w h) {k : Nat} {s : SparseSet V}
    (hl : lookupK w.stos k = some s) {e : EId} (he : w.isAlive e = true) (v : V) (t : Nat) :
    ∃ r s', s.insert e v t = .ok (r, s') ∧ r.wasInserted = true ∧ Valid e ∧ Reach fl (w.put k s') h ∧
      ∀ j x, x.gen < 65535 →
        (w.put k s').get j x = if j = k ∧ x = e then .ok (some v) else w.get j x := by
  obtain ⟨A, Q, hok⟩ := reach_ok hr
  obtain ⟨a, L, hA, ha⟩ := sto_abs hok hl
  have hown : ∀ r, a.rows e.idx = some r → r.gen = e.gen := fun r hr => hok.rowAt hA he hr
  have hv := hok.ent.valid he
  obtain ⟨r, s', L', h1, h2, h3⟩ := insert_tab ha hv hown v t
  have hok' := hok.put k h3 (insTab_owned (hok.owned k a hA) he hown v t)
  refine ⟨r, s', h1, h2, hv, .viewAdd hr hl he h1, fun j x hx => ?_⟩
  rw [hok'.get j hx, hok.get j hx, look_setTab]
  by_cases hj : j = k
  · subst hj
    simp only [if_true, true_and]
    rw [lookup_insTab hown]
    split
    · rfl
    · unfold look; rw [hA]; rfl
  · rw [if_neg hj, if_neg (fun h => hj h.1)]

/-- Deleting the component of an id of this world. -/
theorem view_delete {w : World V} {h : List Event} (hr : Reach fl w h) {k : Nat} {s : SparseSet V}
    (hl : lookupK w.stos k = some s) {e : EId} (he : e ∈ issued h) (t : Nat) :
    ∃ c s', w.get k e = .ok c ∧ s.dynDelete e t = .ok (c.isSome, s') ∧ StoSpec.Step s (.deleted e t c) s' ∧
      Reach fl (w.put k s') h ∧
      ∀ j x, x.gen < 65535 →
        (w.put k s').get j x = if j = k ∧ x = e then .ok none else w.get j x := by
  obtain ⟨A, Q, hok⟩ := reach_ok hr
  obtain ⟨a, L, hA, ha⟩ := sto_abs hok hl
  have hv := issued_valid hok he
  obtain ⟨s', L', h1, h3⟩ := dynDelete_tab ha hv t
  have hok' := hok.put k h3 ((delTab_shrinks e t a).owned (hok.owned k a hA))
  have hst : StoSpec.Step s (.deleted e t (lookup a.rows e)) s' := .delete hv (ha.get hv.1) h1
  refine ⟨_, s', ?_, h1, hst, .view hr hl hst trivial, fun j x hx => ?_⟩
  · rw [get_of_sto hl, ha.get hv.1]
  · rw [hok'.get j hx, hok.get j hx, look_setTab]
    by_cases hj : j = k
    · subst hj
      simp only [if_true, true_and]
      rw [lookup_delTab']
      have hlk : look A j x = lookup a.rows x := by unfold look; rw [hA]; rfl
      by_cases hxe : x = e
      · subst hxe; simp
      · rw [if_neg hxe]
        split
        · rename_i hc
          rw [look_issued hok he j hxe hc.1 hc.2]
        · rw [hlk]
    · rw [if_neg hj, if_neg (fun h => hj h.1)]

/-- Removing the component of an id of this world. -/
theorem view_remove {w : World V} {h : List Event} (hr : Reach fl w h) {k : Nat} {s : SparseSet V}
    (hl : lookupK w.stos k = some s) {e : EId} (he : e ∈ issued h) (t : Nat) :
    ∃ c s', w.get k e = .ok c ∧ s.dynRemove e t = .ok (c, s') ∧ StoSpec.Step s (.removed e t c) s' ∧
      Reach fl (w.put k s') h ∧
      ∀ j x, x.gen < 65535 →
        (w.put k s').get j x = if j = k ∧ x = e then .ok none else w.get j x := by
  obtain ⟨A, Q, hok⟩ := reach_ok hr
  obtain ⟨a, L, hA, ha⟩ := sto_abs hok hl
  have hv := issued_valid hok he
  obtain ⟨s', L', h1, h3⟩ := dynRemove_tab ha hv t
  have hok' := hok.put k h3 ((remTab_shrinks e t a).owned (hok.owned k a hA))
  have hst : StoSpec.Step s (.removed e t (lookup a.rows e)) s' := .remove hv h1
  refine ⟨_, s', ?_, h1, hst, .view hr hl hst trivial, fun j x hx => ?_⟩
  · rw [get_of_sto hl, ha.get hv.1]
  · rw [hok'.get j hx, hok.get j hx, look_setTab]
    by_cases hj : j = k
    · subst hj
      simp only [if_true, true_and]
      show Except.ok (lookup (delTab e t a).rows x) = _
      rw [lookup_delTab']
      have hlk : look A j x = lookup a.rows x := by unfold look; rw [hA]; rfl
      by_cases hxe : x = e
      · subst hxe; simp
      · rw [if_neg hxe]
        split
        · rename_i hc
          rw [look_issued hok he j hxe hc.1 hc.2]
        · rw [hlk]
    · rw [if_neg hj, if_neg (fun h => hj h.1)]

theorem lookup_wrote (a : Sto V) {e : EId} {c : V} (hc : lookup a.rows e = some c) (v : V) (t : Nat) (x : EId) :
    lookup (StoSpec.step a (.wrote [(e, v)] t)).rows x = if x = e then some v else lookup a.rows x := by
  obtain ⟨r, hr, hg⟩ : ∃ r, a.rows e.idx = some r ∧ r.gen = e.gen := by
    unfold lookup at hc
    cases hr : a.rows e.idx with
    | none => rw [hr] at hc; cases hc
    | some r =>
      rw [hr] at hc
      simp only [Option.bind] at hc
      split at hc
      · exact ⟨r, rfl, by assumption⟩
      · cases hc
  simp only [StoSpec.step, StoSpec.writeRows]
  unfold lookup StoSpec.setRow
  split
  · rename_i hi
    rw [hi, hr]
    simp only [Option.map, Option.bind, StoSpec.writeRow, hg]
    by_cases hxg : e.gen = x.gen
    · rw [if_pos hxg, if_pos (by cases x; cases e; simp_all)]
    · rw [if_neg hxg, if_neg (by rintro rfl; exact hxg rfl), if_neg hxg]
  · rename_i hi
    rw [if_neg (fun h => hi (by rw [h]))]

/-- Writing the component of an id of this world. -/
theorem view_write {w : World V} {h : List Event} (hr : Reach fl w h) {k : Nat} {s : SparseSet V}
    (hl : lookupK w.stos k = some s) {e : EId} (he : e ∈ issued h) {c : V}
    (hc : w.get k e = .ok (some c)) (v : V) (t : Nat) :
    ∃ s', s.modify e t (fun _ => v) = .ok (true, s') ∧ StoSpec.Step s (.wrote [(e, v)] t) s' ∧
      Reach fl (w.put k s') h ∧
      ∀ j x, x.gen < 65535 →
        (w.put k s').get j x = if j = k ∧ x = e then .ok (some v) else w.get j x := by
  obtain ⟨A, Q, hok⟩ := reach_ok hr
  obtain ⟨a, L, hA, ha⟩ := sto_abs hok hl
  have hv := issued_valid hok he
  have hc' : lookup a.rows e = some c := by
    rw [get_of_sto hl, ha.get hv.1] at hc; injection hc
  have hm : ∃ s', s.modify e t (fun _ => v) = .ok (true, s') := by
    have hsh := ha.shape
    rcases SparseSet.modify_ok (s := s) ha.ok hv.1 t (fun _ => v) with ⟨h0, _⟩ | ⟨i, d, hi, hce, hcg, h1, _⟩
    · exfalso
      have hrow := ha.rows e.idx
      unfold lookup at hc'
      rw [hrow] at hc'
      cases hcell : SparseSet.cellAt L e.idx with
      | none => rw [hcell] at hc'; cases hc'
      | some d =>
        rw [hcell] at hc'
        obtain ⟨hd1, hd2⟩ := (SparseSet.cellAt_some ha.ok).1 hcell
        simp only [Option.map, Option.bind] at hc'
        split at hc'
        · rename_i hg
          exact h0 d hd1 ⟨hd2, hg⟩
        · cases hc'
    · rw [← hsh] at h1
      exact ⟨_, h1⟩
  obtain ⟨s', hm⟩ := hm
  obtain ⟨L', h3⟩ := ha.call (.write hv hm) (fun _ _ _ h => by cases h)
  have hst : StoSpec.Step s (.wrote [(e, v)] t) s' := .write hv hm
  have hok' := hok.put k h3 ((step_shrinks (ev := .wrote [(e, v)] t) trivial a).owned (hok.owned k a hA))
  refine ⟨s', hm, hst, .view hr hl hst trivial, fun j x hx => ?_⟩
  rw [hok'.get j hx, hok.get j hx, look_setTab]
  by_cases hj : j = k
  · subst hj
    simp only [if_true, true_and]
    rw [lookup_wrote a hc']
    split
    · rfl
    · unfold look; rw [hA]; rfl
  · rw [if_neg hj, if_neg (fun h => hj h.1)]

/-- Reading and finding agree. -/
theorem view_find {w : World V} {h : List Event} (hr : Reach fl w h) {k : Nat} {s : SparseSet V}
    (hl : lookupK w.stos k = some s) {e : EId} (hg : e.gen < 65535) :
    ∃ c i, w.get k e = .ok c ∧ s.get e = .ok c ∧ s.indexOf e = .ok i ∧ i.isSome = c.isSome ∧
      s.contains e = .ok c.isSome := by
  obtain ⟨A, Q, hok⟩ := reach_ok hr
  obtain ⟨a, L, hA, ha⟩ := sto_abs hok hl
  have hget := ha.get hg
  have hi : ∃ i, s.indexOf e = .ok i := by
    have hsh := ha.shape
    rcases SparseSet.indexOf_ok (s := s) ha.ok e hg with ⟨_, h2⟩ | ⟨i, d, hi, hce, hcg, h2⟩
    · rw [← hsh] at h2; exact ⟨_, h2⟩
    · rw [← hsh] at h2; exact ⟨_, h2⟩
  obtain ⟨i, hi⟩ := hi
  refine ⟨lookup a.rows e, i, by rw [get_of_sto hl, hget], hget, hi, ?_, ?_⟩
  · unfold SparseSet.get at hget
    rw [hi] at hget
    simp only [bind, Except.bind] at hget
    cases i with
    | none => simp only at hget; injection hget with hget; rw [← hget]; rfl
    | some i =>
      simp only at hget
      cases hv : vecGetU s.data i with
      | error _ => rw [hv] at hget; cases hget
      | ok c => rw [hv] at hget; simp only at hget; injection hget with hget; rw [← hget]; rfl
  · have : i.isSome = (lookup a.rows e).isSome := by
      unfold SparseSet.get at hget
      rw [hi] at hget
      simp only [bind, Except.bind] at hget
      cases i with
      | none => simp only at hget; injection hget with hget; rw [← hget]; rfl
      | some i =>
        simp only at hget
        cases hv : vecGetU s.data i with
        | error _ => rw [hv] at hget; cases hget
        | ok c => rw [hv] at hget; simp only at hget; injection hget with hget; rw [← hget]; rfl
    unfold SparseSet.contains
    rw [hi]
    simp only [bind, Except.bind, this]

/-- Inserting for a dead id of this world: refused when the place is taken. -/
theorem view_insert_dead {w : World V} {h : List Event} (hr : Reach fl w h) {k : Nat} {s : SparseSet V}
    (hl : lookupK w.stos k = some s) {e : EId} (he : e ∈ issued h) (hd : w.isAlive e = false) (v : V) (t : Nat) :
    ((∃ x c, x.idx = e.idx ∧ x.gen < 65535 ∧ w.get k x = .ok (some c)) →
      ∃ s', s.insert e v t = .ok (.notInserted, s') ∧ ∀ x, x.gen < 65535 → s'.get x = s.get x) ∧
    ((∀ x, x.idx = e.idx → x.gen < 65535 → w.get k x = .ok none) →
      ∃ s', s.insert e v t = .ok (.inserted, s') ∧ s'.get e = .ok (some v) ∧
        ∀ x, x.idx ≠ e.idx → x.gen < 65535 → s'.get x = s.get x) := by
  obtain ⟨A, Q, hok⟩ := reach_ok hr
  obtain ⟨a, L, hA, ha⟩ := sto_abs hok hl
  have hv := issued_valid hok he
  obtain ⟨r, hook, sp', L', h1, _, h3⟩ := SparseSet.insert_ok (s := s) ha.ok hv v t
  rw [← ha.shape] at h1
  have hgetx : ∀ x, x.gen < 65535 → w.get k x = .ok (lookup a.rows x) := fun x hx => by
    rw [get_of_sto hl, ha.get hx]
  have hcell : ∀ c ∈ L, c.id.idx = e.idx → e.gen < c.gen ∧ w.get k ⟨e.idx, c.gen⟩ = .ok (some c.val) := by
    intro c hc hce
    have hrow : a.rows e.idx = some c.toRow := by
      rw [ha.rows, (SparseSet.cellAt_some ha.ok).2 ⟨hc, hce⟩]; rfl
    have hal := hok.owned k a hA _ _ hrow
    have hle := hok.ent.issued_le he hal rfl
    have hne : c.gen ≠ e.gen := by
      intro hg
      have h4 : w.ents.isAlive e = true := by
        have : (⟨e.idx, c.toRow.gen⟩ : EId) = e := by
          cases e; simp only [EId.mk.injEq, true_and]; exact hg
        rw [this] at hal; exact hal
      unfold World.isAlive at hd
      rw [hd] at h4; cases h4
    have hval := hok.ent.valid hal
    refine ⟨by have h5 : e.gen ≤ c.gen := hle; omega, ?_⟩
    rw [hgetx ⟨e.idx, c.gen⟩ hval.1]
    unfold lookup
    rw [hrow]
    simp only [Option.bind]
    rw [if_pos (show c.toRow.gen = c.gen from rfl)]
    rfl
  refine ⟨?_, ?_⟩
  · rintro ⟨x, c, hi, hg, hx⟩
    have hx' : lookup a.rows x = some c := by rw [hgetx x hg] at hx; injection hx
    have hex : ∃ d ∈ L, d.id.idx = e.idx := by
      unfold lookup at hx'
      rw [ha.rows] at hx'
      cases hcell' : SparseSet.cellAt L x.idx with
      | none => rw [hcell'] at hx'; cases hx'
      | some d =>
        obtain ⟨hd1, hd2⟩ := (SparseSet.cellAt_some ha.ok).1 hcell'
        exact ⟨d, hd1, by rw [hd2, hi]⟩
    obtain ⟨d, hd1, hd2⟩ := hex
    cases h3 with
    | new hn => exact absurd hd2 (hn d hd1)
    | override hj hce hcg =>
      have := hcell _ (List.mem_of_getElem? hj) hce
      omega
    | newer hj hce hcg =>
      have := hcell _ (List.mem_of_getElem? hj) hce
      omega
    | @older cc hc hce hcg =>
      refine ⟨_, h1, fun y hy => ?_⟩
      obtain ⟨L2, h2⟩ := SparseSet.abs_insert (Q := True) ha.toAbs hv h1 (fun q => ⟨q, fun h => by cases h⟩)
      rw [h2.get hy, ha.get hy]
      have hacc : a.rows e.idx = some cc.toRow := by
        rw [ha.rows, (SparseSet.cellAt_some ha.ok).2 ⟨hc, hce⟩]; rfl
      simp only [StoSpec.step]
      unfold lookup StoSpec.setRow StoSpec.insertRow
      rw [hacc]
      have n1 : ¬ cc.toRow.gen = e.gen := by show ¬ cc.gen = e.gen; omega
      have n2 : ¬ cc.toRow.gen < e.gen := by show ¬ cc.gen < e.gen; omega
      simp only [if_neg n1, if_neg n2]
      split
      · rename_i hi'
        rw [hi', hacc]
      · rfl
  · intro hno
    have hempty : ∀ c ∈ L, c.id.idx ≠ e.idx := by
      intro c hc hce
      obtain ⟨_, h5⟩ := hcell c hc hce
      have hrow : a.rows e.idx = some c.toRow := by
        rw [ha.rows, (SparseSet.cellAt_some ha.ok).2 ⟨hc, hce⟩]; rfl
      have hg := (hok.ent.valid (hok.owned k a hA _ _ hrow)).1
      rw [hno ⟨e.idx, c.gen⟩ rfl hg] at h5
      cases h5
    cases h3 with
    | new hn =>
      obtain ⟨L2, h2⟩ := SparseSet.abs_insert (Q := True) ha.toAbs hv h1 (fun q => ⟨q, fun h => by cases h⟩)
      have hnone : a.rows e.idx = none := by
        rw [ha.rows, SparseSet.cellAt_none.2 hempty]; rfl
      refine ⟨_, h1, ?_, fun y hy hyg => ?_⟩
      · rw [h2.get hv.1]
        simp only [StoSpec.step]
        unfold lookup StoSpec.setRow StoSpec.insertRow
        rw [hnone]
        simp
      · rw [h2.get hyg, ha.get hyg]
        simp only [StoSpec.step]
        unfold lookup StoSpec.setRow
        rw [if_neg hy]
    | override hj hce hcg => exact absurd hce (hempty _ (List.mem_of_getElem? hj))
    | newer hj hce hcg => exact absurd hce (hempty _ (List.mem_of_getElem? hj))
    | older hc hce hcg => exact absurd hce (hempty _ hc)

end Verif.World
