import Verif.Spec.Track
import Verif.Lemmas.Tracking

namespace Verif.TrkSpec
open StoSpec Tracking Track
variable {T : Type}

/-! ## Histories split in two -/

theorem after_append (A : Sto T) (h1 h2 : List (Event T)) : after A (h1 ++ h2) = after (after A h1) h2 := by
  unfold after; rw [List.foldl_append]

theorem good_last {A0 : Sto T} {h : List (Event T)} {ev : Event T} (hg : Good A0 (h ++ [ev])) :
    Good A0 h ∧ Cons (after A0 h) ev ∧ ∀ e v now, ev ≠ .inserted e v now .otherComponentOverride := by
  generalize hx : h ++ [ev] = x at hg
  cases hg with
  | nil => simp at hx
  | snoc h1 h2 h3 =>
    obtain ⟨e1, e2⟩ := List.append_inj' hx rfl
    injection e2 with e2
    subst e1; subst e2
    exact ⟨h1, h2, h3⟩

theorem good_split {A0 : Sto T} {h1 h2 : List (Event T)} (hg : Good A0 (h1 ++ h2)) :
    Good A0 h1 ∧ Good (after A0 h1) h2 := by
  have key : ∀ (n : Nat) (h2 : List (Event T)), h2.length = n → Good A0 (h1 ++ h2) →
      Good A0 h1 ∧ Good (after A0 h1) h2 := by
    intro n
    induction n with
    | zero =>
      intro h2 hl hg
      have : h2 = [] := List.length_eq_zero_iff.1 hl
      subst this
      rw [List.append_nil] at hg
      exact ⟨hg, .nil⟩
    | succ n ih =>
      intro h2 hl hg
      have hne : h2 ≠ [] := by intro h; subst h; cases hl
      rw [← List.dropLast_concat_getLast hne] at hg ⊢
      rw [← List.append_assoc] at hg
      obtain ⟨g1, g2, g3⟩ := good_last hg
      obtain ⟨g4, g5⟩ := ih h2.dropLast (by rw [List.length_dropLast]; omega) g1
      rw [after_append] at g2
      exact ⟨g4, .snoc g5 g2 g3⟩
  exact key h2.length h2 rfl hg

/-! ## Logs do not depend on what else is tracked -/

theorem step_removed (A B : Sto T) (ev : Event T) (h1 : A.removed = B.removed) (h2 : A.trkRem = B.trkRem) :
    (step A ev).removed = (step B ev).removed ∧ (step A ev).trkRem = (step B ev).trkRem := by
  cases ev <;> simp only [step, h1, h2, and_self]

theorem step_deleted (A B : Sto T) (ev : Event T) (h1 : A.deleted = B.deleted) (h2 : A.trkDel = B.trkDel) :
    (step A ev).deleted = (step B ev).deleted ∧ (step A ev).trkDel = (step B ev).trkDel := by
  cases ev <;> simp only [step, h1, h2, and_self]

theorem after_removed (A B : Sto T) (h : List (Event T)) (h1 : A.removed = B.removed) (h2 : A.trkRem = B.trkRem) :
    (after A h).removed = (after B h).removed := by
  induction h generalizing A B with
  | nil => exact h1
  | cons ev h ih =>
    obtain ⟨h3, h4⟩ := step_removed A B ev h1 h2
    exact ih _ _ h3 h4

theorem after_deleted (A B : Sto T) (h : List (Event T)) (h1 : A.deleted = B.deleted) (h2 : A.trkDel = B.trkDel) :
    (after A h).deleted = (after B h).deleted := by
  induction h generalizing A B with
  | nil => exact h1
  | cons ev h ih =>
    obtain ⟨h3, h4⟩ := step_deleted A B ev h1 h2
    exact ih _ _ h3 h4

/-- Nothing is logged before tracking is turned on. -/
theorem after_untracked_removed (A : Sto T) (h : List (Event T)) (h1 : A.removed = []) (h2 : A.trkRem = false)
    (hn : Event.trackRemoval ∉ h) : (after A h).removed = [] ∧ (after A h).trkRem = false := by
  induction h generalizing A with
  | nil => exact ⟨h1, h2⟩
  | cons ev h ih =>
    have hn' : Event.trackRemoval ∉ h := fun hm => hn (List.mem_cons_of_mem _ hm)
    have hne : ev ≠ .trackRemoval := fun he => hn (by rw [he]; exact List.mem_cons_self)
    refine ih _ ?_ ?_ hn'
    · cases ev <;> simp_all [step] <;> split <;> rfl
    · cases ev <;> first | exact h2 | exact absurd rfl hne

theorem after_untracked_deleted (A : Sto T) (h : List (Event T)) (h1 : A.deleted = []) (h2 : A.trkDel = false)
    (hn : Event.trackDeletion ∉ h) : (after A h).deleted = [] ∧ (after A h).trkDel = false := by
  induction h generalizing A with
  | nil => exact ⟨h1, h2⟩
  | cons ev h ih =>
    have hn' : Event.trackDeletion ∉ h := fun hm => hn (List.mem_cons_of_mem _ hm)
    have hne : ev ≠ .trackDeletion := fun he => hn (by rw [he]; exact List.mem_cons_self)
    refine ih _ ?_ ?_ hn'
    · cases ev <;> simp_all [step] <;> split <;> rfl
    · cases ev <;> first | exact h2 | exact absurd rfl hne

theorem after_trkIns (A : Sto T) (h : List (Event T)) (h2 : A.trkIns = false)
    (hn : Event.trackInsertion ∉ h) : (after A h).trkIns = false := by
  induction h generalizing A with
  | nil => exact h2
  | cons ev h ih =>
    have hn' : Event.trackInsertion ∉ h := fun hm => hn (List.mem_cons_of_mem _ hm)
    have hne : ev ≠ .trackInsertion := fun he => hn (by rw [he]; exact List.mem_cons_self)
    refine ih _ ?_ hn'
    cases ev <;> first | exact h2 | exact absurd rfl hne

theorem after_trkMod (A : Sto T) (h : List (Event T)) (h2 : A.trkMod = false)
    (hn : Event.trackModification ∉ h) : (after A h).trkMod = false := by
  induction h generalizing A with
  | nil => exact h2
  | cons ev h ih =>
    have hn' : Event.trackModification ∉ h := fun hm => hn (List.mem_cons_of_mem _ hm)
    have hne : ev ≠ .trackModification := fun he => hn (by rw [he]; exact List.mem_cons_self)
    refine ih _ ?_ hn'
    cases ev <;> first | exact h2 | exact absurd rfl hne

/-! ## Flags from a state in which nothing is stamped -/

theorem window_zero (l cur : Nat) : ¬ InWindow 0 l cur := fun h => Nat.not_lt_zero _ h.1

theorem has_row {P : Prop} {s : SparseSet T} {A : Sto T} {L : List (SparseSet.Cell T)} (hL : SparseSet.Abs P s A L)
    {e : EId} (he : e.gen < 65535) : (∃ x, s.get e = .ok (some x)) ↔ ∃ r, rowOf A e = some r := by
  rw [hL.get he]
  constructor
  · rintro ⟨x, hx⟩
    injection hx with hx
    obtain ⟨r, hr, _⟩ := lookup_iff.1 hx
    exact ⟨r, hr⟩
  · rintro ⟨r, hr⟩
    exact ⟨r.val, by rw [lookup_iff.2 ⟨r, hr, rfl⟩]⟩

theorem inserted_from {P : Prop} {s : SparseSet T} {A0 : Sto T} {h : List (Event T)} {L : List (SparseSet.Cell T)}
    (hL : SparseSet.Abs P s (after A0 h) L) (hg : Good A0 h) (ht : A0.trkIns = true) {e : EId} (he : Valid e)
    (h0 : ∀ r, rowOf A0 e = some r → r.ins = 0) (v : View T) (hv : v.set = s) :
    ∃ i, v.isInserted e = .ok i ∧ (i = true ↔ (∃ x, s.get e = .ok (some x)) ∧ ∃ t, bornAt h e = some t ∧
      InWindow t v.lastInsertion v.current) := by
  refine ⟨_, (flags_ok hL he.1 v hv).1 ((good_trk hg).1 ht), ?_⟩
  rw [has_row hL he.1]
  cases hro : rowOf (after A0 h) e with
  | none => simp
  | some r =>
    simp only [isWithin_iff]
    rw [(good_rows hg e).1 ht h0 r hro]
    constructor
    · intro hw
      refine ⟨⟨r, rfl⟩, ?_⟩
      cases hb : bornAt h e with
      | none => rw [hb] at hw; exact absurd hw (window_zero _ _)
      | some t => rw [hb] at hw; exact ⟨t, rfl, hw⟩
    · rintro ⟨_, t, hb, hw⟩
      rw [hb]; exact hw

theorem modified_from {P : Prop} {s : SparseSet T} {A0 : Sto T} {h : List (Event T)} {L : List (SparseSet.Cell T)}
    (hL : SparseSet.Abs P s (after A0 h) L) (hg : Good A0 h) (ht : A0.trkMod = true) {e : EId} (he : Valid e)
    (h0 : ∀ r, rowOf A0 e = some r → r.mod = 0) (v : View T) (hv : v.set = s) :
    ∃ i, v.isModified e = .ok i ∧ (i = true ↔ (∃ x, s.get e = .ok (some x)) ∧ ∃ t, writtenAt h e = some t ∧
      InWindow t v.lastModification v.current) := by
  refine ⟨_, (flags_ok hL he.1 v hv).2 ((good_trk hg).2 ht), ?_⟩
  rw [has_row hL he.1]
  cases hro : rowOf (after A0 h) e with
  | none => simp
  | some r =>
    simp only [isWithin_iff]
    rw [(good_rows hg e).2.1 ht h0 r hro]
    constructor
    · intro hw
      refine ⟨⟨r, rfl⟩, ?_⟩
      cases hb : writtenAt h e with
      | none => rw [hb] at hw; exact absurd hw (window_zero _ _)
      | some t => rw [hb] at hw; exact ⟨t, rfl, hw⟩
    · rintro ⟨_, t, hb, hw⟩
      rw [hb]; exact hw

/-! ## Queries over the logs -/

theorem mem_removed {v : View T} {e : EId} :
    e ∈ v.removed ↔ ∃ t, (e, t) ∈ v.set.removalData ∧ InWindow t v.lastRemovalOrDeletion v.current := by
  unfold View.removed
  rw [List.mem_filterMap]
  constructor
  · rintro ⟨x, hx, hxe⟩
    split at hxe
    · rename_i hw
      injection hxe with hxe
      subst hxe
      exact ⟨x.2, hx, (isWithin_iff _ _ _).1 hw⟩
    · cases hxe
  · rintro ⟨t, hx, hw⟩
    exact ⟨(e, t), hx, by rw [if_pos ((isWithin_iff _ _ _).2 hw)]⟩

theorem mem_deleted {v : View T} {e : EId} {x : T} :
    (e, x) ∈ v.deleted ↔ ∃ t, (e, t, x) ∈ v.set.deletionData ∧ InWindow t v.lastRemovalOrDeletion v.current := by
  unfold View.deleted
  rw [List.mem_filterMap]
  constructor
  · rintro ⟨y, hy, hye⟩
    split at hye
    · rename_i hw
      injection hye with hye
      injection hye with h1 h2
      subst h1; subst h2
      exact ⟨y.2.1, hy, (isWithin_iff _ _ _).1 hw⟩
    · cases hye
  · rintro ⟨t, hx, hw⟩
    exact ⟨(e, t, x), hx, by rw [if_pos ((isWithin_iff _ _ _).2 hw)]⟩

theorem isRemoved_iff {v : View T} {e : EId} : v.isRemoved e = true ↔ e ∈ v.removed := by
  rw [mem_removed]
  unfold View.isRemoved
  rw [List.any_eq_true]
  constructor
  · rintro ⟨x, hx, hb⟩
    rw [Bool.and_eq_true, decide_eq_true_eq] at hb
    exact ⟨x.2, by rw [← hb.1]; exact hx, (isWithin_iff _ _ _).1 hb.2⟩
  · rintro ⟨t, hx, hw⟩
    exact ⟨(e, t), hx, by simp [(isWithin_iff _ _ _).2 hw]⟩

theorem isDeleted_iff {v : View T} {e : EId} : v.isDeleted e = true ↔ ∃ x, (e, x) ∈ v.deleted := by
  unfold View.isDeleted
  rw [List.any_eq_true]
  constructor
  · rintro ⟨y, hy, hb⟩
    rw [Bool.and_eq_true, decide_eq_true_eq] at hb
    exact ⟨y.2.2, mem_deleted.2 ⟨y.2.1, by rw [← hb.1]; exact hy, (isWithin_iff _ _ _).1 hb.2⟩⟩
  · rintro ⟨x, hx⟩
    obtain ⟨t, ht, hw⟩ := mem_deleted.1 hx
    exact ⟨(e, t, x), ht, by simp [(isWithin_iff _ _ _).2 hw]⟩

theorem removedOrDeleted_eq (v : View T) (k : Kind) : removedOrDeleted k v =
    (if k.hasDeletion then v.deleted.map (·.1) else []) ++ (if k.hasRemoval then v.removed else []) := by
  unfold removedOrDeleted logOf
  rw [List.filterMap_append]
  congr 1
  · split
    · unfold View.deleted
      rw [List.filterMap_map, List.map_filterMap]
      congr 1
      funext x
      simp only [Function.comp]
      split <;> rfl
    · rfl
  · split <;> rfl

/-! ## The derive macro -/

theorem readTokens_ok {toks : List String} (hw : WellFormed toks) (f : Flags) : ∃ g, readTokens toks f = some g ∧
    (g.ins = true ↔ f.ins = true ∨ Declared toks .insertion) ∧ (g.mod = true ↔ f.mod = true ∨ Declared toks .modification) ∧
    (g.del = true ↔ f.del = true ∨ Declared toks .deletion) ∧ (g.rem = true ↔ f.rem = true ∨ Declared toks .removal) := by
  induction toks generalizing f with
  | nil => exact ⟨f, rfl, by simp [Declared]⟩
  | cons t ts ih =>
    have hw' : WellFormed ts := fun x hx => hw x (List.mem_cons_of_mem _ hx)
    rcases hw t List.mem_cons_self with rfl | rfl | rfl | rfl | rfl
    · obtain ⟨g, h1, h2⟩ := ih hw' { f with ins := true }
      refine ⟨g, by simp [readTokens, h1], ?_⟩
      simp [Declared, What.name] at h2 ⊢
      simp [h2]
    · obtain ⟨g, h1, h2⟩ := ih hw' { f with mod := true }
      refine ⟨g, by simp [readTokens, h1], ?_⟩
      simp [Declared, What.name] at h2 ⊢
      simp [h2]
    · obtain ⟨g, h1, h2⟩ := ih hw' { f with del := true }
      refine ⟨g, by simp [readTokens, h1], ?_⟩
      simp [Declared, What.name] at h2 ⊢
      simp [h2]
    · obtain ⟨g, h1, h2⟩ := ih hw' { f with rem := true }
      refine ⟨g, by simp [readTokens, h1], ?_⟩
      simp [Declared, What.name] at h2 ⊢
      simp [h2]
    · obtain ⟨g, h1, h2⟩ := ih hw' ⟨true, true, true, true⟩
      refine ⟨g, by simp [readTokens, h1], ?_⟩
      simp [Declared, What.name] at h2 ⊢
      simp [h2]

theorem kindOf_offers (g : Flags) : (kindOf g).hasInsertion = g.ins ∧ (kindOf g).hasModification = g.mod ∧
    (kindOf g).hasDeletion = g.del ∧ (kindOf g).hasRemoval = g.rem := by
  rcases g with ⟨a, b, c, d⟩
  cases a <;> cases b <;> cases c <;> cases d <;> exact ⟨rfl, rfl, rfl, rfl⟩

theorem kind_tracks (k : Kind) : k.trackInsertion = k.hasInsertion ∧ k.trackModification = k.hasModification ∧
    k.trackDeletion = k.hasDeletion ∧ (k ≠ .modificationAndRemoval → k.trackRemoval = k.hasRemoval) := by
  cases k <;> exact ⟨rfl, rfl, rfl, fun h => by first | rfl | exact absurd rfl h⟩

theorem kindOf_modRem (g : Flags) : kindOf g = .modificationAndRemoval ↔ g = ⟨false, true, false, true⟩ := by
  rcases g with ⟨a, b, c, d⟩
  cases a <;> cases b <;> cases c <;> cases d <;> simp [kindOf]

theorem derive_offers {toks : List String} {k : Kind} (hw : WellFormed toks) (hk : derive toks = some k) (w : What) :
    Offers k w = true ↔ Declared toks w := by
  obtain ⟨g, h1, h2, h3, h4, h5⟩ := readTokens_ok hw ⟨false, false, false, false⟩
  unfold derive at hk
  rw [h1] at hk
  injection hk with hk
  subst hk
  obtain ⟨o1, o2, o3, o4⟩ := kindOf_offers g
  cases w
  · exact (by rw [show Offers (kindOf g) .insertion = g.ins from o1, h2]; simp)
  · exact (by rw [show Offers (kindOf g) .modification = g.mod from o2, h3]; simp)
  · exact (by rw [show Offers (kindOf g) .deletion = g.del from o3, h4]; simp)
  · exact (by rw [show Offers (kindOf g) .removal = g.rem from o4, h5]; simp)

end Verif.TrkSpec
