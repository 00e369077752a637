import Verif.Spec.Unique

/-! # Uniques: C48 and C63 -/
namespace Verif.UMem
variable {V : Type}

/-- Shared views of `ty`. -/
def St.shared (s : St V) (ty : Nat) : Nat := s.held.countP (fun h => h.2.1 == ty && !h.2.2)

/-- The memory stores what the specification says. -/
structure Rel (w : World V) (s : St V) : Prop where
  none : ∀ ty, w.mem.storages ty = none → s.val ty = none
  box : ∀ ty a, w.mem.storages ty = some a →
    ∃ v, s.val ty = some v ∧ w.mem.heap a = some ⟨v, s.shared ty, s.locked ty⟩
  inj : ∀ ty ty' a, w.mem.storages ty = some a → w.mem.storages ty' = some a → ty = ty'
  lt : ∀ ty a, w.mem.storages ty = some a → a < w.mem.next
  views : w.views = s.held.map (fun h => (h.1, ⟨(w.mem.storages h.2.1).getD 0, h.2.2⟩))
  live : ∀ h ∈ s.held, (w.mem.storages h.2.1).isSome
  one : ∀ ty, s.locked ty = true → s.held.countP (fun h => h.2.1 == ty) = 1

theorem set_same {α : Type} (f : Nat → α) (i : Nat) (x : α) : set f i x i = x := by simp [set]
theorem set_other {α : Type} (f : Nat → α) {i j : Nat} (x : α) (h : j ≠ i) : set f i x j = f j := by simp [set, h]

theorem Rel.find {w : World V} {s : St V} (h : Rel w s) (p : Nat) :
    w.find p = (s.find p).map (fun x => ⟨(w.mem.storages x.1).getD 0, x.2⟩) := by
  unfold World.find St.find
  rw [h.views, List.find?_map]
  cases hf : s.held.find? (fun h => h.1 == p) with
  | none => simp [Function.comp_def, hf]
  | some x => simp [Function.comp_def, hf]

theorem find_mem {s : St V} {p ty : Nat} {ex : Bool} (h : s.find p = some (ty, ex)) :
    ∃ q, (q, ty, ex) ∈ s.held ∧ q = p := by
  unfold St.find at h
  rw [Option.map_eq_some_iff] at h
  obtain ⟨x, hx, hxe⟩ := h
  have h1 := List.mem_of_find?_eq_some hx
  have h2 := List.find?_some hx
  refine ⟨x.1, ?_, by simpa using h2⟩
  rw [← hxe]; exact h1

theorem inUse_eq (s : St V) (ty : Nat) : s.inUse ty = (s.locked ty || s.shared ty != 0) := by
  unfold St.inUse St.locked St.shared
  induction s.held with
  | nil => rfl
  | cons x l ih =>
    rw [List.any_cons, List.any_cons, List.countP_cons, ih]
    cases h1 : (x.2.1 == ty) <;> cases h2 : x.2.2 <;> simp
    all_goals try simp [h1, h2]

theorem not_inUse {s : St V} {ty : Nat} (h : s.inUse ty = false) : s.shared ty = 0 ∧ s.locked ty = false := by
  rw [inUse_eq] at h
  simp only [Bool.or_eq_false_iff, bne_eq_false_iff_eq] at h
  exact ⟨h.2, h.1⟩

/-- A new box, when no view of the type is held. -/
theorem rel_alloc {w : World V} {s : St V} (h : Rel w s) (ty : Nat) (v : V) (hu : s.inUse ty = false)
    (hfree : ∀ a, w.mem.storages ty = some a → True) :
    (w.mem.storages ty = none → Rel { w with mem := w.mem.alloc ty v } { s with val := set s.val ty (some v) }) ∧
    (∀ a, w.mem.storages ty = some a →
      Rel { w with mem := (w.mem.alloc ty v).free a } { s with val := set s.val ty (some v) }) := by
  obtain ⟨h0, h1⟩ := not_inUse hu
  have hheld : ∀ x ∈ s.held, x.2.1 ≠ ty := by
    intro x hx he
    unfold St.inUse at hu
    rw [List.any_eq_false] at hu
    exact hu x hx (by simpa using he)
  have hviews : ∀ m : Mem V, m.storages = set w.mem.storages ty (some w.mem.next) →
      w.views = s.held.map (fun h => (h.1, ⟨(m.storages h.2.1).getD 0, h.2.2⟩)) := by
    intro m hm
    rw [h.views]
    apply List.map_congr_left
    intro x hx
    rw [hm, set_other _ _ (hheld x hx)]
  have hlive : ∀ m : Mem V, m.storages = set w.mem.storages ty (some w.mem.next) →
      ∀ x ∈ s.held, (m.storages x.2.1).isSome := by
    intro m hm x hx
    rw [hm, set_other _ _ (hheld x hx)]
    exact h.live x hx
  have key : ∀ (m : Mem V), m.storages = set w.mem.storages ty (some w.mem.next) → m.next = w.mem.next + 1 →
      m.heap w.mem.next = some ⟨v, 0, false⟩ →
      (∀ ty' a', ty' ≠ ty → w.mem.storages ty' = some a' → m.heap a' = w.mem.heap a') →
      Rel { w with mem := m } { s with val := set s.val ty (some v) } := by
    intro m hs hn hnew hold
    refine ⟨?_, ?_, ?_, ?_, hviews m hs, hlive m hs, h.one⟩
    · intro ty' hn'
      show set s.val ty (some v) ty' = _
      change m.storages ty' = none at hn'
      rw [hs] at hn'
      by_cases he : ty' = ty
      · rw [he, set_same] at hn'; cases hn'
      · rw [set_other _ _ he] at hn' ⊢; exact h.none ty' hn'
    · intro ty' a' ha'
      change m.storages ty' = some a' at ha'
      rw [hs] at ha'
      by_cases he : ty' = ty
      · rw [he, set_same] at ha'
        injection ha' with ha'
        subst ha'
        refine ⟨v, by rw [he]; exact set_same _ _ _, ?_⟩
        rw [he]
        show m.heap w.mem.next = some ⟨v, s.shared ty, s.locked ty⟩
        rw [hnew, h0, h1]
      · rw [set_other _ _ he] at ha'
        obtain ⟨x, hx, hb⟩ := h.box ty' a' ha'
        refine ⟨x, by show set s.val ty (some v) ty' = _; rw [set_other _ _ he]; exact hx, ?_⟩
        show m.heap a' = _
        rw [hold ty' a' he ha']; exact hb
    · intro t1 t2 a' h1 h2
      change m.storages t1 = some a' at h1
      change m.storages t2 = some a' at h2
      rw [hs] at h1 h2
      by_cases e1 : t1 = ty <;> by_cases e2 : t2 = ty
      · rw [e1, e2]
      · rw [e1, set_same] at h1; rw [set_other _ _ e2] at h2
        injection h1 with h1
        have := h.lt t2 a' h2; omega
      · rw [e2, set_same] at h2; rw [set_other _ _ e1] at h1
        injection h2 with h2
        have := h.lt t1 a' h1; omega
      · rw [set_other _ _ e1] at h1; rw [set_other _ _ e2] at h2
        exact h.inj t1 t2 a' h1 h2
    · intro ty' a' ha'
      show a' < m.next
      change m.storages ty' = some a' at ha'
      rw [hs] at ha'
      rw [hn]
      by_cases he : ty' = ty
      · rw [he, set_same] at ha'; injection ha' with ha'; omega
      · rw [set_other _ _ he] at ha'; have := h.lt ty' a' ha'; omega
  constructor
  · intro _
    refine key _ rfl rfl (set_same _ _ _) ?_
    intro ty' a' he ha'
    have := h.lt ty' a' ha'
    exact set_other _ _ (by omega)
  · intro a ha
    have hlt := h.lt ty a ha
    refine key _ rfl rfl ?_ ?_
    · show set (set w.mem.heap w.mem.next _) a none w.mem.next = _
      rw [set_other _ _ (by omega), set_same]
    · intro ty' a' he ha'
      have hlt' := h.lt ty' a' ha'
      show set (set w.mem.heap w.mem.next _) a none a' = _
      rw [set_other, set_other _ _ (by omega)]
      intro hc; subst hc; exact he (h.inj ty' ty a' ha' ha)

theorem rel_add {w : World V} {s : St V} (h : Rel w s) (ty : Nat) (v : V) (hu : s.inUse ty = false) :
    Rel { w with mem := w.mem.addUnique ty v } { s with val := set s.val ty (some v) } := by
  have := rel_alloc h ty v hu (fun _ _ => trivial)
  unfold Mem.addUnique
  cases hs : w.mem.storages ty with
  | none => exact this.1 hs
  | some a => exact this.2 a hs

theorem unused_of_none {w : World V} {s : St V} (h : Rel w s) {ty : Nat} (hn : w.mem.storages ty = none) :
    s.inUse ty = false := by
  unfold St.inUse
  rw [List.any_eq_false]
  intro x hx he
  have := h.live x hx
  rw [show x.2.1 = ty by simpa using he, hn] at this
  cases this

theorem set_id {α : Type} (f : Nat → α) (i : Nat) (x : α) (h : f i = x) : set f i x = f := by
  funext j
  by_cases hj : j = i
  · rw [hj, set_same, h]
  · rw [set_other _ _ hj]

theorem rel_addKeep {w : World V} {s : St V} (h : Rel w s) (ty : Nat) (v : V) :
    Rel { w with mem := w.mem.addUniqueKeep ty v } { s with val := set s.val ty (some ((s.val ty).getD v)) } := by
  unfold Mem.addUniqueKeep
  cases hs : w.mem.storages ty with
  | none =>
    rw [h.none ty hs]
    exact (rel_alloc h ty v (unused_of_none h hs) (fun _ _ => trivial)).1 hs
  | some a =>
    obtain ⟨x, hx, _⟩ := h.box ty a hs
    rw [hx]
    rw [set_id _ _ _ (by rw [hx]; rfl)]
    exact h

theorem rel_val {w : World V} {s : St V} (h : Rel w s) {ty : Nat} {v : V} (hv : s.val ty = some v) :
    ∃ a, w.mem.storages ty = some a ∧ w.mem.heap a = some ⟨v, s.shared ty, s.locked ty⟩ := by
  cases hs : w.mem.storages ty with
  | none => rw [h.none ty hs] at hv; cases hv
  | some a =>
    obtain ⟨x, hx, hb⟩ := h.box ty a hs
    rw [hv] at hx
    injection hx with hx
    subst hx
    exact ⟨a, rfl, hb⟩

/-- Changing one box, its value and the views held. -/
theorem rel_update {w : World V} {s s' : St V} (h : Rel w s) {ty a : Nat} {v : V} {b : Box V}
    (ha : w.mem.storages ty = some a)
    (hv : s'.val = set s.val ty (some v))
    (hb : b = ⟨v, s'.shared ty, s'.locked ty⟩)
    (hother : ∀ ty', ty' ≠ ty → s'.shared ty' = s.shared ty' ∧ s'.locked ty' = s.locked ty')
    (hlive : ∀ x ∈ s'.held, (w.mem.storages x.2.1).isSome)
    (hone : ∀ ty', s'.locked ty' = true → s'.held.countP (fun h => h.2.1 == ty') = 1) :
    Rel ⟨{ w.mem with heap := set w.mem.heap a (some b) },
      s'.held.map (fun h => (h.1, ⟨(w.mem.storages h.2.1).getD 0, h.2.2⟩))⟩ s' := by
  refine ⟨?_, ?_, h.inj, h.lt, rfl, hlive, hone⟩
  · intro ty' hn
    rw [hv]
    by_cases he : ty' = ty
    · rw [he] at hn; change w.mem.storages ty = none at hn; rw [ha] at hn; cases hn
    · rw [set_other _ _ he]; exact h.none ty' hn
  · intro ty' a' ha'
    change w.mem.storages ty' = some a' at ha'
    by_cases he : ty' = ty
    · subst he
      rw [ha] at ha'
      injection ha' with ha'
      subst ha'
      exact ⟨v, by rw [hv, set_same], by show set _ _ _ _ = _; rw [set_same, hb]⟩
    · obtain ⟨x, hx, hbx⟩ := h.box ty' a' ha'
      refine ⟨x, by rw [hv, set_other _ _ he]; exact hx, ?_⟩
      show set _ _ _ _ = _
      rw [set_other, (hother ty' he).1, (hother ty' he).2]
      · exact hbx
      · intro hc; subst hc; exact he (h.inj ty' ty a' ha' ha)

theorem locked_append (s : St V) (p ty ty' : Nat) (ex : Bool) :
    ({ s with held := s.held ++ [(p, ty, ex)] } : St V).locked ty' = (s.locked ty' || (ty == ty' && ex)) := by
  simp [St.locked]

theorem shared_append (s : St V) (p ty ty' : Nat) (ex : Bool) :
    ({ s with held := s.held ++ [(p, ty, ex)] } : St V).shared ty' =
      s.shared ty' + (if ty == ty' && !ex then 1 else 0) := by
  simp [St.shared, List.countP_append, List.countP_cons]

theorem countP_zero_of {s : St V} {ty : Nat} (h : s.inUse ty = false) :
    s.held.countP (fun h => h.2.1 == ty) = 0 := by
  unfold St.inUse at h
  rw [List.any_eq_false] at h
  rw [List.countP_eq_zero]
  exact h

/-- Borrowing. -/
theorem rel_hold {w : World V} {s : St V} (h : Rel w s) (p ty : Nat) (ex : Bool)
    (hp : s.find p = none) :
    ∃ w', w.keep p (w.mem.borrow ty ex) = .ok ((s.hold p ty ex).1, w') ∧ Rel w' (s.hold p ty ex).2 := by
  unfold St.hold
  rw [hp]
  simp only [Option.isSome_none, Bool.false_eq_true, if_false]
  cases hs : w.mem.storages ty with
  | none =>
    rw [h.none ty hs]
    simp only [Option.isNone_none, if_true]
    exact ⟨w, by unfold Mem.borrow; rw [hs]; rfl, h⟩
  | some a =>
    obtain ⟨v, hv, hb⟩ := h.box ty a hs
    rw [hv]
    simp only [Option.isNone_some, Bool.false_eq_true, if_false]
    have hvid : set s.val ty (some v) = s.val := set_id _ _ _ hv
    have hlive : ∀ x ∈ s.held ++ [(p, ty, ex)], (w.mem.storages x.2.1).isSome := by
      intro x hx
      rw [List.mem_append, List.mem_singleton] at hx
      rcases hx with hx | rfl
      · exact h.live x hx
      · simp [hs]
    have hviews : w.views ++ [(p, ⟨a, ex⟩)] =
        (s.held ++ [(p, ty, ex)]).map (fun h => (h.1, ⟨(w.mem.storages h.2.1).getD 0, h.2.2⟩)) := by
      rw [List.map_append, ← h.views]; simp [hs]
    cases ex with
    | true =>
      simp only [if_true]
      cases hu : s.inUse ty with
      | true =>
        simp only [if_true]
        refine ⟨w, ?_, h⟩
        unfold Mem.borrow
        rw [hs]
        simp only [hb]
        rw [inUse_eq] at hu
        rw [hu]
        rfl
      | false =>
        simp only [Bool.false_eq_true, if_false]
        obtain ⟨h0, h1⟩ := not_inUse hu
        refine ⟨⟨{ w.mem with heap := set w.mem.heap a (some ⟨v, s.shared ty, true⟩) },
          w.views ++ [(p, ⟨a, true⟩)]⟩, ?_, ?_⟩
        · unfold Mem.borrow
          rw [hs]
          simp only [hb]
          rw [h0, h1]
          rfl
        · rw [hviews]
          refine rel_update (s' := { s with held := s.held ++ [(p, ty, true)] }) h hs hvid.symm ?_ ?_ hlive ?_
          · rw [shared_append, locked_append]; simp
          · intro ty' hne
            rw [shared_append, locked_append]
            have : (ty == ty') = false := by simpa using fun h => hne h.symm
            simp [this]
          · intro ty' hl
            rw [locked_append] at hl
            show (s.held ++ [(p, ty, true)]).countP _ = 1
            rw [List.countP_append, List.countP_cons, List.countP_nil]
            by_cases he : ty = ty'
            · subst he
              rw [countP_zero_of hu]; simp
            · have hbe : (ty == ty') = false := by simpa using he
              simp only [hbe, Bool.false_and, Bool.or_false] at hl
              have := h.one ty' hl
              simp only [hbe]
              simpa using this
    | false =>
      simp only [Bool.false_eq_true, if_false]
      cases hu : s.locked ty with
      | true =>
        simp only [if_true]
        refine ⟨w, ?_, h⟩
        unfold Mem.borrow
        rw [hs]
        simp only [hb, hu]
        rfl
      | false =>
        simp only [Bool.false_eq_true, if_false]
        refine ⟨⟨{ w.mem with heap := set w.mem.heap a (some ⟨v, s.shared ty + 1, false⟩) },
          w.views ++ [(p, ⟨a, false⟩)]⟩, ?_, ?_⟩
        · unfold Mem.borrow
          rw [hs]
          simp only [hb, hu]
          rfl
        · rw [hviews]
          refine rel_update (s' := { s with held := s.held ++ [(p, ty, false)] }) h hs hvid.symm ?_ ?_ hlive ?_
          · rw [shared_append, locked_append, hu]; simp
          · intro ty' hne
            rw [shared_append, locked_append]
            have : (ty == ty') = false := by simpa using fun h => hne h.symm
            simp [this]
          · intro ty' hl
            rw [locked_append] at hl
            simp only [Bool.and_false, Bool.or_false] at hl
            show (s.held ++ [(p, ty, false)]).countP _ = 1
            rw [List.countP_append, List.countP_cons, List.countP_nil]
            have hne : (ty == ty') = false := by
              simp only [beq_eq_false_iff_ne, ne_eq]
              intro he; subst he; rw [hu] at hl; cases hl
            simp only [hne]
            simpa using h.one ty' hl

theorem find_split {s : St V} {p ty : Nat} {ex : Bool} (h : s.find p = some (ty, ex)) :
    ∃ l1 l2 q, s.held = l1 ++ (q, ty, ex) :: l2 ∧ s.held.eraseP (fun h => h.1 == p) = l1 ++ l2 := by
  unfold St.find at h
  rw [Option.map_eq_some_iff] at h
  obtain ⟨x, hx, hxe⟩ := h
  generalize s.held = l at hx
  induction l with
  | nil => cases hx
  | cons y l ih =>
    rw [List.find?_cons] at hx
    cases hy : (y.1 == p) with
    | true =>
      rw [hy] at hx
      injection hx with hx
      subst hx
      refine ⟨[], l, y.1, ?_, ?_⟩
      · rw [← hxe]; rfl
      · rw [List.eraseP_cons, hy]; rfl
    | false =>
      rw [hy] at hx
      obtain ⟨l1, l2, q, h1, h2⟩ := ih hx
      refine ⟨y :: l1, l2, q, by rw [h1]; rfl, ?_⟩
      rw [List.eraseP_cons, hy, h2]; rfl

theorem counts_split {l1 l2 : List (Nat × Nat × Bool)} {q ty : Nat} {ex : Bool} (f : Nat × Nat × Bool → Bool) :
    (l1 ++ (q, ty, ex) :: l2).countP f = (l1 ++ l2).countP f + (if f (q, ty, ex) then 1 else 0) := by
  rw [List.countP_append, List.countP_append, List.countP_cons]; omega

theorem locked_iff (s : St V) (ty : Nat) : s.locked ty = true ↔
    0 < s.held.countP (fun h => h.2.1 == ty && h.2.2) := by
  unfold St.locked
  rw [List.any_eq_true, List.countP_pos_iff]

theorem excl_le (l : List (Nat × Nat × Bool)) (ty : Nat) :
    l.countP (fun h => h.2.1 == ty) =
      l.countP (fun h => h.2.1 == ty && h.2.2) + l.countP (fun h => h.2.1 == ty && !h.2.2) := by
  induction l with
  | nil => rfl
  | cons x l ih =>
    simp only [List.countP_cons, ih]
    cases h1 : (x.2.1 == ty) <;> cases h2 : x.2.2 <;> simp <;> omega

/-- Dropping a view. -/
theorem rel_drop {w : World V} {s : St V} (h : Rel w s) {p ty : Nat} {ex : Bool}
    (hp : s.find p = some (ty, ex)) :
    ∃ m, w.mem.drop ⟨(w.mem.storages ty).getD 0, ex⟩ = .ok m ∧
      Rel ⟨m, w.views.eraseP (fun h => h.1 == p)⟩ { s with held := s.held.eraseP (fun h => h.1 == p) } := by
  obtain ⟨q, hmem, _⟩ := find_mem hp
  obtain ⟨a, ha⟩ := Option.isSome_iff_exists.1 (h.live _ hmem)
  simp only at ha
  obtain ⟨v, hv, hb⟩ := h.box ty a ha
  obtain ⟨l1, l2, q', hl, her⟩ := find_split hp
  refine ⟨{ w.mem with heap := set w.mem.heap a (some (Mem.release ⟨v, s.shared ty, s.locked ty⟩ ex)) }, ?_, ?_⟩
  · unfold Mem.drop
    rw [ha]
    simp only [Option.getD_some, hb]
  · have hviews : w.views.eraseP (fun h => h.1 == p) =
        (s.held.eraseP (fun h => h.1 == p)).map
          (fun h => (h.1, (⟨(w.mem.storages h.2.1).getD 0, h.2.2⟩ : View))) := by
      rw [h.views, List.eraseP_map]; rfl
    rw [hviews]
    have hvid : set s.val ty (some v) = s.val := set_id _ _ _ hv
    rw [her]
    have hsh : ∀ ty', s.shared ty' = ({ s with held := l1 ++ l2 } : St V).shared ty' +
        (if ty == ty' && !ex then 1 else 0) := by
      intro ty'; unfold St.shared; rw [hl, counts_split]
    have hlk : ∀ ty', s.locked ty' = (({ s with held := l1 ++ l2 } : St V).locked ty' || (ty == ty' && ex)) := by
      intro ty'
      unfold St.locked
      rw [hl]
      simp only [List.any_append, List.any_cons]
      cases l1.any (fun h => h.2.1 == ty' && h.2.2) <;> cases l2.any (fun h => h.2.1 == ty' && h.2.2) <;>
        cases (ty == ty' && ex) <;> rfl
    have hcnt : ∀ ty', s.held.countP (fun h => h.2.1 == ty') =
        (l1 ++ l2).countP (fun h => h.2.1 == ty') + (if ty == ty' then 1 else 0) := by
      intro ty'; rw [hl, counts_split]
    refine rel_update (s' := { s with held := l1 ++ l2 }) h ha hvid.symm ?_ ?_ ?_ ?_
    · unfold Mem.release
      cases ex with
      | false =>
        simp only [Bool.false_eq_true, if_false]
        have h1 := hsh ty
        have h2 := hlk ty
        simp only [beq_self_eq_true, Bool.not_false, Bool.and_self, if_true, Bool.and_false, Bool.or_false] at h1 h2
        rw [h1, h2, Nat.add_sub_cancel]
      | true =>
        simp only [if_true]
        have h1 := hsh ty
        have h2 := hlk ty
        simp only [beq_self_eq_true, Bool.not_true, Bool.and_false, Bool.false_eq_true, if_false, Nat.add_zero,
          Bool.and_self, Bool.or_true] at h1 h2
        have h3 := h.one ty h2
        rw [hcnt ty] at h3
        simp only [beq_self_eq_true, if_true] at h3
        have h4 := excl_le (l1 ++ l2) ty
        have h5 : ({ s with held := l1 ++ l2 } : St V).locked ty = false := by
          cases hx : ({ s with held := l1 ++ l2 } : St V).locked ty with
          | false => rfl
          | true =>
            have := (locked_iff _ _).1 hx
            simp only at this
            omega
        rw [h1, h5]
    · intro ty' hne
      have hbe : (ty == ty') = false := by simpa using fun h => hne h.symm
      have h1 := hsh ty'
      have h2 := hlk ty'
      simp only [hbe, Bool.false_and, Bool.false_eq_true, if_false, Nat.add_zero, Bool.or_false] at h1 h2
      exact ⟨h1.symm, h2.symm⟩
    · intro x hx
      refine h.live x ?_
      rw [hl]
      simp only [List.mem_append, List.mem_cons] at hx ⊢
      rcases hx with hx | hx
      · exact .inl hx
      · exact .inr (.inr hx)
    · intro ty' hlx
      have h2 := hlk ty'
      rw [hlx] at h2
      simp only [Bool.true_or] at h2
      have h3 := h.one ty' h2
      rw [hcnt ty'] at h3
      have h4 := (locked_iff _ _).1 hlx
      have h5 := excl_le (l1 ++ l2) ty'
      simp only at h4
      show (l1 ++ l2).countP _ = 1
      omega

/-- One call. -/
theorem rel_step {w : World V} {s : St V} (h : Rel w s) (op : Op V)
    (hpol : ∀ ty v, op = .add ty v → s.inUse ty = false) :
    ∃ w', w.exec op = .ok ((s.step op).1, w') ∧ Rel w' (s.step op).2 := by
  cases op with
  | add ty v => exact ⟨_, rfl, rel_add h ty v (hpol ty v rfl)⟩
  | addKeep ty v => exact ⟨_, rfl, rel_addKeep h ty v⟩
  | remove ty =>
    simp only [World.exec, St.step]
    unfold Mem.removeUnique
    cases hs : w.mem.storages ty with
    | none => rw [h.none ty hs]; exact ⟨w, rfl, h⟩
    | some a =>
      obtain ⟨v, hv, hb⟩ := h.box ty a hs
      rw [hv]
      simp only [hb]
      have hu := inUse_eq s ty
      cases hx : s.inUse ty with
      | true => rw [hx] at hu; rw [← hu]; exact ⟨w, rfl, h⟩
      | false =>
        rw [hx] at hu
        rw [← hu]
        refine ⟨_, rfl, ?_⟩
        have hheld : ∀ x ∈ s.held, x.2.1 ≠ ty := by
          intro x hxm he
          unfold St.inUse at hx
          rw [List.any_eq_false] at hx
          exact hx x hxm (by simpa using he)
        have hne : ∀ ty' a', set w.mem.storages ty none ty' = some a' → ty' ≠ ty ∧ w.mem.storages ty' = some a' := by
          intro ty' a' h'
          by_cases he : ty' = ty
          · rw [he, set_same] at h'; cases h'
          · rw [set_other _ _ he] at h'; exact ⟨he, h'⟩
        refine ⟨?_, ?_, ?_, ?_, ?_, ?_, h.one⟩
        · intro ty' hn
          change set w.mem.storages ty none ty' = none at hn
          show set s.val ty none ty' = none
          by_cases he : ty' = ty
          · rw [he, set_same]
          · rw [set_other _ _ he] at hn ⊢; exact h.none ty' hn
        · intro ty' a' ha'
          obtain ⟨he, ha2⟩ := hne ty' a' ha'
          obtain ⟨y, hy, hby⟩ := h.box ty' a' ha2
          refine ⟨y, by show set s.val ty none ty' = _; rw [set_other _ _ he]; exact hy, ?_⟩
          show set w.mem.heap a none a' = _
          rw [set_other]
          · exact hby
          · intro hc; subst hc; exact he (h.inj ty' ty a' ha2 hs)
        · intro t1 t2 a' h1 h2
          exact h.inj t1 t2 a' (hne t1 a' h1).2 (hne t2 a' h2).2
        · intro ty' a' ha'
          exact h.lt ty' a' (hne ty' a' ha').2
        · show w.views = s.held.map _
          rw [h.views]
          apply List.map_congr_left
          intro x hxm
          show _ = (x.1, (⟨(set w.mem.storages ty none x.2.1).getD 0, x.2.2⟩ : View))
          rw [set_other _ _ (hheld x hxm)]
        · intro x hxm
          show (set w.mem.storages ty none x.2.1).isSome
          rw [set_other _ _ (hheld x hxm)]
          exact h.live x hxm
  | hold p ty ex =>
    show ∃ w', (if (w.find p).isSome then .ok (.nonsense, w) else w.keep p (w.mem.borrow ty ex)) =
      .ok ((s.hold p ty ex).1, w') ∧ Rel w' (s.hold p ty ex).2
    rw [h.find p]
    cases hp : s.find p with
    | some x =>
      refine ⟨w, ?_, ?_⟩
      · simp [St.hold, hp]
      · simp [St.hold, hp]; exact h
    | none =>
      simp only [Option.map_none, Option.isSome_none, Bool.false_eq_true, if_false]
      exact rel_hold h p ty ex hp
  | holdOrDefault p ty ex v =>
    show ∃ w', (if (w.find p).isSome then .ok (.nonsense, w) else w.keep p (w.mem.borrowOrDefault ty ex v)) =
      .ok ((if (s.find p).isSome then (.nonsense, s)
        else ({ s with val := set s.val ty (some ((s.val ty).getD v)) } : St V).hold p ty ex).1, w') ∧
      Rel w' (if (s.find p).isSome then (.nonsense, s)
        else ({ s with val := set s.val ty (some ((s.val ty).getD v)) } : St V).hold p ty ex).2
    rw [h.find p]
    cases hp : s.find p with
    | some x => exact ⟨w, by simp, by simpa using h⟩
    | none =>
      simp only [Option.map_none, Option.isSome_none, Bool.false_eq_true, if_false]
      unfold Mem.borrowOrDefault
      simp only [bind, Except.bind]
      cases hs : w.mem.storages ty with
      | none =>
        have hb : w.mem.borrow ty ex = .ok (.error .missing) := by unfold Mem.borrow; rw [hs]
        rw [hb]
        simp only
        rw [h.none ty hs]
        have hadd := rel_add h ty v (unused_of_none h hs)
        obtain ⟨w', hw', hr'⟩ := rel_hold hadd p ty ex hp
        refine ⟨w', ?_, hr'⟩
        simp only [Option.getD_none]
        rw [← hw']
        have hdone : (({ s with val := set s.val ty (some v) } : St V).hold p ty ex).1 = .done := by
          have hu := unused_of_none h hs
          have hl := (not_inUse hu).2
          have e1 : ({ s with val := set s.val ty (some v) } : St V).find p = none := hp
          have e2 : ({ s with val := set s.val ty (some v) } : St V).inUse ty = false := hu
          have e3 : ({ s with val := set s.val ty (some v) } : St V).locked ty = false := hl
          unfold St.hold
          rw [e1, e2, e3]
          simp [set_same]
        rw [hdone] at hw'
        cases hbr : (w.mem.addUnique ty v).borrow ty ex with
        | error f => rfl
        | ok r =>
          cases r with
          | error e => rw [hbr] at hw'; cases hw'
          | ok x => rfl
      | some a =>
        obtain ⟨x, hx, hbx⟩ := h.box ty a hs
        have hid : set s.val ty (some ((s.val ty).getD v)) = s.val := set_id _ _ _ (by rw [hx]; rfl)
        rw [hid]
        have hh := rel_hold h p ty ex hp
        cases hb : w.mem.borrow ty ex with
        | error f => rw [hb] at hh; exact hh
        | ok r =>
          rw [hb] at hh
          cases r with
          | ok y => exact hh
          | error e =>
            cases e with
            | borrowed => exact hh
            | missing =>
              unfold Mem.borrow at hb
              rw [hs] at hb
              simp only [hbx] at hb
              cases ex <;> simp only [Bool.false_eq_true, if_false, if_true] at hb <;> split at hb <;> cases hb
  | read p =>
    simp only [World.exec, St.step]
    rw [h.find p]
    cases hp : s.find p with
    | none => exact ⟨w, rfl, h⟩
    | some x =>
      obtain ⟨ty, ex⟩ := x
      obtain ⟨q, hmem, _⟩ := find_mem hp
      obtain ⟨a, ha⟩ := Option.isSome_iff_exists.1 (h.live _ hmem)
      simp only at ha
      obtain ⟨v, hv, hb⟩ := h.box ty a ha
      simp only [Option.map_some, ha, Option.getD_some, hv]
      refine ⟨w, ?_, h⟩
      unfold Mem.read
      simp only [hb]
  | write p x =>
    simp only [World.exec, St.step]
    rw [h.find p]
    cases hp : s.find p with
    | none => exact ⟨w, rfl, h⟩
    | some y =>
      obtain ⟨ty, ex⟩ := y
      cases ex with
      | false => exact ⟨w, rfl, h⟩
      | true =>
        obtain ⟨q, hmem, _⟩ := find_mem hp
        obtain ⟨a, ha⟩ := Option.isSome_iff_exists.1 (h.live _ hmem)
        simp only at ha
        obtain ⟨v, hv, hb⟩ := h.box ty a ha
        simp only [Option.map_some, ha, Option.getD_some]
        refine ⟨⟨{ w.mem with heap := set w.mem.heap a (some ⟨x, s.shared ty, s.locked ty⟩) }, w.views⟩, ?_, ?_⟩
        · unfold Mem.write
          simp only [hb]
        · rw [h.views]
          exact rel_update (s' := { s with val := set s.val ty (some x) }) h ha rfl rfl
            (fun _ _ => ⟨rfl, rfl⟩) h.live h.one
  | drop p =>
    simp only [World.exec, St.step]
    rw [h.find p]
    cases hp : s.find p with
    | none => exact ⟨w, rfl, h⟩
    | some y =>
      obtain ⟨ty, ex⟩ := y
      obtain ⟨m, hm, hrel⟩ := rel_drop h hp
      simp only [Option.map_some]
      refine ⟨_, ?_, hrel⟩
      simp only [hm]

theorem rel_run {w : World V} {s : St V} (h : Rel w s) (ops : List (Op V)) (hpol : s.Polite ops) :
    ∃ w', w.run ops = .ok ((s.run ops).1, w') ∧ Rel w' (s.run ops).2 := by
  induction ops generalizing w s with
  | nil => exact ⟨w, rfl, h⟩
  | cons op ops ih =>
    obtain ⟨w1, he, h1⟩ := rel_step h op hpol.1
    obtain ⟨w2, he2, h2⟩ := ih h1 hpol.2
    refine ⟨w2, ?_, h2⟩
    simp only [World.run, he, he2, St.run]

theorem rel_init : Rel (World.init : World V) St.init where
  none := fun _ _ => rfl
  box := fun _ _ h => by cases h
  inj := fun _ _ _ h => by cases h
  lt := fun _ _ h => by cases h
  views := rfl
  live := fun _ h => by cases h
  one := fun _ h => by cases h

/-- C48. Any program that does not add a unique of a type while it holds a view of that type gets from every
call what the specification says: a value per type, that stays until it is replaced, written or removed;
`remove_unique` returns it and afterwards there is none; views of other types never interfere. No call
touches a freed box. -/
theorem C48_uniques (ops : List (Op V)) (hpol : St.init.Polite ops) :
    ∃ w, (World.init : World V).run ops = .ok ((St.init.run ops).1, w) :=
  (rel_run rel_init ops hpol).elim fun w h => ⟨w, h.1⟩

/-- The type a call is about, in the state `s`. -/
def St.about (s : St V) : Op V → Option Nat
  | .add ty _ | .addKeep ty _ | .remove ty | .hold _ ty _ | .holdOrDefault _ ty _ _ => some ty
  | .read p | .write p _ | .drop p => (s.find p).map (·.1)

/-- No call of the list is about `ty`. -/
def St.Elsewhere (s : St V) (ty : Nat) : List (Op V) → Prop
  | [] => True
  | op :: ops => s.about op ≠ some ty ∧ (s.step op).2.Elsewhere ty ops

/-- C48. In the specification, calls about other types leave the unique of `ty` as it is. -/
theorem C48_other_types (s : St V) (ty : Nat) (ops : List (Op V)) (h : s.Elsewhere ty ops) :
    (s.run ops).2.val ty = s.val ty := by
  induction ops generalizing s with
  | nil => rfl
  | cons op ops ih =>
    show ((s.step op).2.run ops).2.val ty = _
    rw [ih _ h.2]
    have h1 := h.1
    have hhold : ∀ (s : St V) p t ex, (s.hold p t ex).2.val = s.val := by
      intro s p t ex
      unfold St.hold
      split
      · rfl
      · split
        · rfl
        · cases ex <;> (simp only [Bool.false_eq_true, if_false, if_true]; split <;> rfl)
    cases op with
    | add t v =>
      show set s.val t _ ty = _
      exact set_other _ _ (fun he => h1 (by rw [he]; rfl))
    | addKeep t v =>
      show set s.val t _ ty = _
      exact set_other _ _ (fun he => h1 (by rw [he]; rfl))
    | remove t =>
      have hne : ty ≠ t := fun he => h1 (by rw [he]; rfl)
      unfold St.step
      simp only
      split
      · rfl
      · split
        · rfl
        · exact set_other _ _ hne
    | hold p t ex => show (s.hold p t ex).2.val ty = _; rw [hhold]
    | holdOrDefault p t ex v =>
      have hne : ty ≠ t := fun he => h1 (by rw [he]; rfl)
      unfold St.step
      simp only
      split
      · rfl
      · rw [hhold]; exact set_other _ _ hne
    | read p =>
      unfold St.step
      simp only
      split
      · rfl
      · split <;> rfl
    | write p v =>
      unfold St.step
      simp only
      split
      · rename_i t hp
        have hne : ty ≠ t := fun he => h1 (by show (s.find p).map _ = _; rw [hp, he]; rfl)
        exact set_other _ _ hne
      · rfl
    | drop p =>
      unfold St.step
      simp only
      split <;> rfl

/-- Non-vacuity: adding, replacing, sharing, refusing, removing. -/
def demoOps : List (Op Nat) :=
  [.add 0 10, .add 1 20, .hold 100 0 false, .hold 101 0 false, .hold 102 0 true, .add 1 21, .read 100,
   .remove 0, .drop 100, .drop 101, .hold 102 0 true, .write 102 11, .hold 103 1 false, .read 103, .drop 102,
   .remove 0, .hold 104 0 false, .holdOrDefault 105 0 true 7, .read 105]
example : St.init.Polite demoOps := by
  refine ⟨?_, ?_, ?_, ?_, ?_, ?_, ?_, ?_, ?_, ?_, ?_, ?_, ?_, ?_, ?_, ?_, ?_, ?_, ?_, trivial⟩ <;>
    (intro ty v h; first | (cases h; rfl) | cases h)
example : (St.init.run demoOps).1 =
    [.done, .done, .done, .done, .refused .borrowed, .done, .value 10, .refused .borrowed, .done, .done,
     .done, .done, .done, .value 21, .done, .value 11, .refused .missing, .done, .value 7] := by decide

/-! ## C63 -/

/-- C63, in part: a view stays valid as long as it is held, in programs that do not add a unique of a type
of which a view is held: from any state reached by such a program, reading through a held view succeeds and
gives the value of its unique. What is missing is `add_unique` on a type that is being viewed. -/
theorem C63_views_valid_partial (ops : List (Op V)) (hpol : St.init.Polite ops) {p ty : Nat} {ex : Bool}
    (hp : (St.init.run ops).2.find p = some (ty, ex)) :
    ∃ w os v, (World.init : World V).run ops = .ok (os, w) ∧ (St.init.run ops).2.val ty = some v ∧
      w.exec (.read p) = .ok (.value v, w) := by
  obtain ⟨w, hw, hrel⟩ := rel_run rel_init ops hpol
  obtain ⟨q, hmem, _⟩ := find_mem hp
  obtain ⟨a, ha⟩ := Option.isSome_iff_exists.1 (hrel.live _ hmem)
  simp only at ha
  obtain ⟨v, hv, hb⟩ := hrel.box ty a ha
  refine ⟨w, _, v, hw, hv, ?_⟩
  simp only [World.exec]
  rw [hrel.find p, hp]
  simp only [Option.map_some, ha, Option.getD_some]
  unfold Mem.read
  simp only [hb]

/-- C63 is false: `add_unique` takes `&self`, does not look at the borrow state of the unique it replaces and
frees its box. A view held across the call reads freed memory, and dropping it writes to freed memory. Safe
code can do this: `let v = world.borrow::<UniqueView<T>>()?; world.add_unique(x); v.method()`. -/
theorem C63_fails : ∃ ops : List (Op Nat),
    ops = [.add 0 10, .hold 100 0 false, .add 0 11, .read 100] ∧
    (World.init : World Nat).run ops = .error .oob ∧
    (World.init : World Nat).run [.add 0 10, .hold 100 0 true, .add 0 11, .write 100 12] = .error .oob ∧
    (World.init : World Nat).run [.add 0 10, .hold 100 0 false, .add 0 11, .drop 100] = .error .oob :=
  ⟨_, rfl, rfl, rfl, rfl⟩

/-- C63 is false even when the second call only borrows through the documented API: while an exclusive view
is held, adding again gives a second exclusive view of the same unique. -/
theorem C63_two_exclusive_fails : ∃ w os,
    (World.init : World Nat).run [.add 0 10, .hold 100 0 true, .add 0 11, .hold 101 0 true] = .ok (os, w) ∧
    os = [.done, .done, .done, .done] := ⟨_, _, rfl, rfl⟩

end Verif.UMem
