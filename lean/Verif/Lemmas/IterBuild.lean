import Verif.Lemmas.Iter

/-! # Lemmas: what building an iterator gives -/
namespace Verif.IterSpec
open StoSpec TrkSpec Iter
open SparseSet (Abs Cell cellAt cellAt_none cellAt_some cellAt_mem build)
variable {V : Type}

/-! ## Shapes -/

mutual
/-- The shiperator `s` is one for the query, whatever its flags and masks. -/
def Of (s : Ship V) : Qry V → Prop
  | .view w => s = .view w
  | .ids l => s = .ids l
  | .opt w => s = .opt w
  | .absent w x => s = .absent w x
  | .flag k n w => s = .flag k n w
  | .or a b => ∃ sa sb c p, s = .or sa sb c p ∧ Of sa a ∧ Of sb b
  | .tup [q] => Of s q
  | .tup l => ∃ ls m, s = .mixed ls m ∧ Ofs ls l
def Ofs (ls : List (Ship V)) : List (Qry V) → Prop
  | [] => ls = []
  | q :: l => ∃ s ls', ls = s :: ls' ∧ Of s q ∧ Ofs ls' l
end

mutual
theorem of_unpick : ∀ (q : Qry V) (s : Ship V), Of s q → Of s.unpick q
  | .view w, s, h | .ids l, s, h | .opt w, s, h | .absent w x, s, h | .flag k n w, s, h => by
    simp only [Of] at h; subst h; simp [Of, Ship.unpick]
  | .or a b, s, h => by
    simp only [Of] at h
    obtain ⟨sa, sb, c, p, rfl, ha, hb⟩ := h
    simp only [Of, Ship.unpick]
    exact ⟨_, _, _, _, rfl, of_unpick a sa ha, of_unpick b sb hb⟩
  | .tup [], s, h => by
    simp only [Of] at h
    obtain ⟨ls, m, rfl, hl⟩ := h
    simp only [Of, Ship.unpick]
    exact ⟨_, _, rfl, ofs_unpick [] ls hl⟩
  | .tup [q], s, h => by
    simp only [Of] at h ⊢; exact of_unpick q s h
  | .tup (q :: q' :: l), s, h => by
    simp only [Of] at h
    obtain ⟨ls, m, rfl, hl⟩ := h
    simp only [Of, Ship.unpick]
    exact ⟨_, _, rfl, ofs_unpick (q :: q' :: l) ls hl⟩
theorem ofs_unpick : ∀ (l : List (Qry V)) (ls : List (Ship V)), Ofs ls l → Ofs (Ship.unpicks ls) l
  | [], ls, h => by simp only [Ofs] at h; subst h; simp only [Ofs, Ship.unpicks]
  | q :: l, ls, h => by
    simp only [Ofs] at h
    obtain ⟨s, ls', rfl, h1, h2⟩ := h
    simp only [Ofs, Ship.unpicks]
    exact ⟨_, _, rfl, of_unpick q s h1, ofs_unpick l ls' h2⟩
end

mutual
theorem of_next : ∀ (q : Qry V) (s : Ship V), Of s q → Of s.nextSlice q
  | .view w, s, h | .ids l, s, h | .opt w, s, h | .absent w x, s, h | .flag k n w, s, h => by
    simp only [Of] at h; subst h; simp [Of, Ship.nextSlice]
  | .or a b, s, h => by
    simp only [Of] at h
    obtain ⟨sa, sb, c, p, rfl, ha, hb⟩ := h
    simp only [Of, Ship.nextSlice]
    exact ⟨_, _, _, _, rfl, ha, hb⟩
  | .tup [], s, h => by
    simp only [Of] at h
    obtain ⟨ls, m, rfl, hl⟩ := h
    simp only [Of, Ship.nextSlice]
    exact ⟨_, _, rfl, ofs_next [] ls hl⟩
  | .tup [q], s, h => by
    simp only [Of] at h ⊢; exact of_next q s h
  | .tup (q :: q' :: l), s, h => by
    simp only [Of] at h
    obtain ⟨ls, m, rfl, hl⟩ := h
    simp only [Of, Ship.nextSlice]
    exact ⟨_, _, rfl, ofs_next (q :: q' :: l) ls hl⟩
theorem ofs_next : ∀ (l : List (Qry V)) (ls : List (Ship V)), Ofs ls l → Ofs (Ship.nextSlices ls) l
  | [], ls, h => by simp only [Ofs] at h; subst h; simp only [Ofs, Ship.nextSlices]
  | q :: l, ls, h => by
    simp only [Ofs] at h
    obtain ⟨s, ls', rfl, h1, h2⟩ := h
    simp only [Ofs, Ship.nextSlices]
    exact ⟨_, _, rfl, of_next q s h1, ofs_next l ls' h2⟩
end

mutual
theorem next_unpick : ∀ (s : Ship V), s.unpick.nextSlice = s.nextSlice.unpick
  | .view _ | .ids _ | .opt _ | .absent _ _ | .flag _ _ _ => by simp only [Ship.unpick, Ship.nextSlice]
  | .or a b c p => by simp only [Ship.unpick, Ship.nextSlice]
  | .mixed l m => by simp only [Ship.unpick, Ship.nextSlice, next_unpicks l]
theorem next_unpicks : ∀ (l : List (Ship V)), Ship.nextSlices (Ship.unpicks l) = Ship.unpicks (Ship.nextSlices l)
  | [] => by simp only [Ship.unpicks, Ship.nextSlices]
  | s :: l => by simp only [Ship.unpicks, Ship.nextSlices, next_unpick s, next_unpicks l]
end

/-! ## Sailors -/

theorem item_tup (st : Win V → Sto V) {l : List (Qry V)} (hl : l.length ≠ 1) (e : EId) :
    item st (.tup l) e = (itemsOf st l e).map .tup := by
  match l, hl with
  | [], _ => simp only [item]
  | [_], h => exact absurd rfl h
  | _ :: _ :: _, _ => simp only [item]

mutual
theorem sailor_ok (st : Win V → Sto V) : ∀ (q : Qry V) (s : Ship V), Fine st q → q.canSailor = true → Of s q →
    Sailor st q s.unpick
  | .view w, s, hf, _, h => by
    simp only [Of] at h; subst h; simp only [Fine] at hf; simp only [Ship.unpick]; exact sees_view hf
  | .ids l, s, _, hc, _ => by simp [Qry.canSailor] at hc
  | .opt w, s, hf, _, h => by
    simp only [Of] at h; subst h; simp only [Fine] at hf; simp only [Ship.unpick]; exact sees_opt hf
  | .absent w x, s, hf, _, h => by
    simp only [Of] at h; subst h; simp only [Fine] at hf; simp only [Ship.unpick]; exact sees_absent hf
  | .flag k n w, s, hf, _, h => by
    simp only [Of] at h; subst h; simp only [Fine] at hf; simp only [Ship.unpick]
    exact sees_flag hf.1 hf.2
  | .or a b, s, hf, hc, h => by
    simp only [Of] at h
    obtain ⟨sa, sb, c, p, rfl, ha, hb⟩ := h
    simp only [Fine] at hf
    obtain ⟨hl, _, _, hcb, hfa, hfb⟩ := hf
    have hca : a.canSailor = true := by cases a <;> simp_all [isLeaf, Qry.canSailor]
    simp only [Ship.unpick]
    exact sees_or (sailor_ok st a sa hfa hca ha) (sailor_ok st b sb hfb hcb hb)
  | .tup [], s, hf, hc, h => by
    simp only [Fine] at hf
    obtain ⟨_, ⟨q, hq, _⟩, _⟩ := hf
    cases hq
  | .tup [q], s, hf, hc, h => by
    simp only [Fine, Fines] at hf
    simp only [Qry.canSailor, Qry.canSailors, Bool.and_true] at hc
    simp only [Of] at h
    have := sailor_ok st q s hf.1.1 hc h
    intro e i he
    have h2 := this e i he
    simp only [item]; exact h2
  | .tup (q :: q' :: l), s, hf, hc, h => by
    simp only [Of] at h
    obtain ⟨ls, m, rfl, hl⟩ := h
    simp only [Fine] at hf
    simp only [Qry.canSailor] at hc
    have := sailors_ok st (q :: q' :: l) ls hf.1 hc hl
    intro e i he
    rw [item_tup st (by simp), itemsOf_eq]
    simp only [Ship.unpick]
    exact sees_mixed (this e i 0 he)
theorem sailors_ok (st : Win V → Sto V) : ∀ (l : List (Qry V)) (ls : List (Ship V)), Fines st l →
    Qry.canSailors l = true → Ofs ls l →
    ∀ e i j, Valid e → SeesL none e i j (Ship.unpicks ls) (l.map fun q => item st q e)
  | [], ls, _, _, h => by
    simp only [Ofs] at h; subst h
    intro e i j he
    simp only [Ship.unpicks]
    exact SeesL.nil
  | q :: l, ls, hf, hc, h => by
    simp only [Ofs] at h
    obtain ⟨s, ls', rfl, h1, h2⟩ := h
    simp only [Fines] at hf
    simp only [Qry.canSailors, Bool.and_eq_true] at hc
    intro e i j he
    simp only [Ship.unpicks, List.map_cons]
    exact SeesL.ask (by simp) (sailor_ok st q s hf.1 hc.1 h1 e i he) (sailors_ok st l ls' hf.2 hc.2 h2 e i (j + 1) he)
end

/-! ## Phases -/

/-- The ids walked in one phase, and what is yielded for each. -/
abbrev Ph (V : Type) := List EId × (EId → Option (Out V))

/-- The items of a phase. -/
def Ph.items (p : Ph V) : List (EId × Out V) := p.1.filterMap fun e => (p.2 e).map fun o => (e, o)

/-- The shiperator, walking the ids of the phase, yields its items. -/
structure Phase (s : Ship V) (p : Ph V) : Prop where
  nodup : p.1.Nodup
  valid : ∀ e ∈ p.1, Valid e
  sees : ∀ (i : Nat) (e : EId), p.1[i]? = some e → Sees s e i (p.2 e)
  gives : s.isExact = true → ∀ (i : Nat) (e : EId), p.1[i]? = some e → ∃ x, p.2 e = some x ∧ Gives s i x

/-- The phases one after the other. -/
def Phases : Ship V → List (Ph V) → Prop
  | _, [] => True
  | s, p :: ph => Phase s p ∧ Phases s.nextSlice ph

/-- What a captain provides. -/
structure Cap (st : Win V → Sto V) (q : Qry V) (s : Ship V) (n : Nat) (acc : Acc) (p : Ph V) (ph : List (Ph V)) :
    Prop where
  slice : acc.slice = p.1
  len : n = p.1.length
  rest : acc.rest = (ph.map fun p => (p.1, p.1.length)).reverse
  phases : Phases s (p :: ph)
  exact : Exactly st q ((p :: ph).flatMap Ph.items)

theorem Ph.mem_items {p : Ph V} {e : EId} {o : Out V} : (e, o) ∈ p.items ↔ e ∈ p.1 ∧ p.2 e = some o := by
  unfold Ph.items
  rw [List.mem_filterMap]
  constructor
  · rintro ⟨a, ha, h⟩
    rw [Option.map_eq_some_iff] at h
    obtain ⟨x, hx, h⟩ := h
    injection h with h1 h2
    subst h1; subst h2
    exact ⟨ha, hx⟩
  · rintro ⟨ha, h⟩
    exact ⟨e, ha, by rw [h]; rfl⟩

theorem Ph.ids_eq (p : Ph V) : p.items.map (·.1) = p.1.filter fun e => (p.2 e).isSome := by
  obtain ⟨l, f⟩ := p
  unfold Ph.items
  simp only
  induction l with
  | nil => rfl
  | cons e l ih =>
    rw [List.filterMap_cons, List.filter_cons]
    cases h : f e with
    | none => simpa using ih
    | some o => simpa using ih

theorem Ph.nodup_ids {p : Ph V} (h : p.1.Nodup) : (p.items.map (·.1)).Nodup := by
  rw [Ph.ids_eq]; exact h.filter _

/-- A query that one phase covers. -/
theorem cap_single {st : Win V → Sto V} {q : Qry V} {s : Ship V} {S : List EId} (hp : Phase s (S, item st q))
    (hc : ∀ e o, item st q e = some o → e ∈ S) : Cap st q s S.length ⟨S, []⟩ (S, item st q) [] where
  slice := rfl
  len := rfl
  rest := rfl
  phases := ⟨hp, trivial⟩
  exact := by
    simp only [List.flatMap_cons, List.flatMap_nil, List.append_nil]
    refine ⟨Ph.nodup_ids hp.nodup, fun e o => ?_⟩
    rw [Ph.mem_items]
    exact ⟨fun h => h.2, fun h => ⟨hc e o h, h⟩⟩

theorem Sailor.phase {st : Win V → Sto V} {q : Qry V} {s : Ship V} {S : List EId} (h : Sailor st q s)
    (hn : S.Nodup) (hv : ∀ e ∈ S, Valid e) (hx : s.isExact = false) : Phase s (S, item st q) where
  nodup := hn
  valid := hv
  sees := fun i e hi => h e i (hv e (List.mem_of_getElem? hi))
  gives := fun h' => by rw [hx] at h'; cases h'

theorem cap_view {st : Win V → Sto V} {w : Win V} (h : Reads w (st w)) :
    Phase (.view w) (w.set.dense, item st (.view w)) ∧ ∀ e o, item st (.view w) e = some o → e ∈ w.set.dense := by
  obtain ⟨L, hL⟩ := h.looks
  refine ⟨⟨hL.nodup, hL.valid, fun i e hi => sees_view h e i (hL.valid e (List.mem_of_getElem? hi)), ?_⟩, ?_⟩
  · intro _ i e hi
    obtain ⟨c, hc, rfl⟩ := hL.at_pos hi
    refine ⟨.comp c.val, ?_, ?_, .at i, ?_, ?_⟩
    · simp only [item, hL.row i c hc]; rfl
    · simp only [Ship.captainData, hL.data i c hc]; rfl
    · simp only [Ship.fromUsize]
    · simp only [Ship.sailorData, hL.data i c hc]; rfl
  · intro e o ho
    simp only [item, Option.map_eq_some_iff] at ho
    obtain ⟨r, hr, _⟩ := ho
    exact hL.mem e r hr

theorem cap_flag {st : Win V → Sto V} {w : Win V} {k : Flag} {n : Bool} (h : Reads w (st w)) (ht : Tracks k (st w)) :
    Phase (.flag k n w) (w.set.dense, item st (.flag k n w)) ∧
    ∀ e o, item st (.flag k n w) e = some o → e ∈ w.set.dense := by
  obtain ⟨L, hL⟩ := h.looks
  refine ⟨(sees_flag h ht).phase hL.nodup hL.valid rfl, ?_⟩
  intro e o ho
  cases hr : rowAt (st w) e with
  | none => cases n <;> simp [item, hr] at ho
  | some r => exact hL.mem e r hr

theorem cap_ids {st : Win V → Sto V} {l : List EId} (hn : l.Nodup) (hv : ∀ e ∈ l, Valid e) :
    Phase (.ids l : Ship V) (l, item st (.ids l)) where
  nodup := hn
  valid := hv
  sees := by
    intro i e hi
    right
    refine ⟨.id e, .id e, ?_, ?_, ?_⟩
    · simp only [item, if_pos (List.mem_of_getElem? hi)]
    · simp only [Ship.indicesOf]
    · simp only [Ship.sailorData]
  gives := fun h => by simp [Ship.isExact] at h

/-- Views and filters. -/
theorem cap_leaf (r : Rnd) {st : Win V → Sto V} {q : Qry V} (hl : isLeaf q = true) (hf : Fine st q) :
    ∃ s S, q.intoShip r = .ok (s, S.length, ⟨S, []⟩) ∧ Phase s (S, item st q) ∧ Sailor st q s ∧ Of s q ∧
      (∀ e o, item st q e = some o → e ∈ S) := by
  cases q with
  | view w =>
    simp only [Fine] at hf
    exact ⟨.view w, _, by simp only [Qry.intoShip], (cap_view hf).1, sees_view hf, by simp only [Of], (cap_view hf).2⟩
  | flag k n w =>
    simp only [Fine] at hf
    exact ⟨.flag k n w, _, by simp only [Qry.intoShip], (cap_flag hf.1 hf.2).1, sees_flag hf.1 hf.2, by simp only [Of],
      (cap_flag hf.1 hf.2).2⟩
  | _ => simp [isLeaf] at hl

theorem cap_or (r : Rnd) {st : Win V → Sto V} {a b : Qry V} (hla : isLeaf a = true) (hfa : Fine st a)
    {sb : Ship V} {nb : Nat} {accb : Acc} {pb : Ph V} (hb : b.intoShip r = .ok (sb, nb, accb))
    (hcb : Cap st b sb nb accb pb []) (hob : Of sb b) :
    ∃ s n acc p ph, Qry.intoShip r (.or a b) = .ok (s, n, acc) ∧ Of s (.or a b) ∧ Cap st (.or a b) s n acc p ph := by
  obtain ⟨sa, S, ha, hpa, hsa, hoa, hca⟩ := cap_leaf r hla hfa
  refine ⟨.or sa sb true false, S.length, ⟨S, [(accb.slice, nb)]⟩,
    (S, fun e => (item st a e).map .one),
    [(pb.1, fun e => if (item st a e).isSome then none else (pb.2 e).map .two)], ?_, ?_, ?_⟩
  · simp only [Qry.intoShip, ha, hb]
  · simp only [Of]; exact ⟨_, _, _, _, rfl, hoa, hob⟩
  · refine ⟨rfl, rfl, by simp [hcb.slice, hcb.len], ⟨⟨hpa.nodup, hpa.valid, ?_, ?_⟩, ⟨?_, ?_, ?_, ?_⟩, trivial⟩, ?_, ?_⟩
    · intro i e hi
      rcases hpa.sees i e hi with ⟨h1, h2⟩ | ⟨ix, x, h1, h2, h3⟩
      · left
        simp only at h1
        simp only [h1, Ship.indicesOf, h2]; exact ⟨rfl, rfl⟩
      · right
        simp only at h1
        refine ⟨.one ix, .one x, by simp only [h1]; rfl, by simp only [Ship.indicesOf, h2]; rfl, ?_⟩
        simp only [Ship.sailorData, h3]; rfl
    · intro h; simp [Ship.isExact] at h
    · exact hcb.phases.1.nodup
    · exact hcb.phases.1.valid
    · intro i e hi
      have hv := hcb.phases.1.valid e (List.mem_of_getElem? hi)
      simp only [Ship.nextSlice]
      rcases hcb.phases.1.sees i e hi with ⟨h1, h2⟩ | ⟨ix, x, h1, h2, h3⟩
      · left
        refine ⟨?_, by simp only [Ship.indicesOf, h2]⟩
        rw [h1]; split <;> rfl
      · rcases hsa e 0 hv with ⟨h4, h5⟩ | ⟨iy, y, h4, h5, h6⟩
        · right
          refine ⟨.two ix, .two x, by simp [h4, h1], by simp only [Ship.indicesOf, h2, h5], ?_⟩
          simp only [Ship.sailorData, h3]; rfl
        · left
          refine ⟨by simp [h4], by simp only [Ship.indicesOf, h2, h5]⟩
    · intro h; simp [Ship.isExact, Ship.nextSlice] at h
    · simp only [List.flatMap_cons, List.flatMap_nil, List.append_nil, List.map_append]
      rw [List.nodup_append]
      refine ⟨Ph.nodup_ids hpa.nodup, Ph.nodup_ids hcb.phases.1.nodup, ?_⟩
      intro x hx y hy hxy
      subst hxy
      rw [Ph.ids_eq, List.mem_filter] at hx hy
      have h1 := hx.2
      have h2 := hy.2
      simp only [Option.isSome_map] at h1
      simp [h1] at h2
    · intro e o
      have hbx := hcb.exact.2
      simp only [List.flatMap_cons, List.flatMap_nil, List.append_nil, List.mem_append, Ph.mem_items] at hbx ⊢
      cases hia : item st a e with
      | some x =>
        simp only [item, hia, Option.map_some, Option.isSome_some, if_true]
        constructor
        · rintro (h | h)
          · exact h.2
          · exact absurd h.2 (by simp)
        · intro h; exact Or.inl ⟨hca e x hia, h⟩
      | none =>
        simp only [item, hia, Option.map_none]
        constructor
        · rintro (h | h)
          · exact absurd h.2 (by simp)
          · have h2 := h.2
            simp only [Option.isSome_none, Bool.false_eq_true, if_false, Option.map_eq_some_iff] at h2
            obtain ⟨y, hy, rfl⟩ := h2
            rw [(hbx e y).1 ⟨h.1, hy⟩]; rfl
        · intro h
          rw [Option.map_eq_some_iff] at h
          obtain ⟨y, hy, rfl⟩ := h
          have := (hbx e y).2 hy
          exact Or.inr ⟨this.1, by simp [this.2]⟩

end Verif.IterSpec
