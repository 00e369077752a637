import Verif.Lemmas.IterWalk

/-!
# Sequences of calls, splits and size hints
-/
namespace Verif.IterSpec
open StoSpec TrkSpec Iter
variable {V : Type}

/-! ## Lists -/

theorem pulls_once {α : Type} : ∀ (ops : List End) (l : List α),
    l = given .front ops (pulls ops l).1 ++ (pulls ops l).2 ++ (given .back ops (pulls ops l).1).reverse
  | [], l => by simp [pulls, given]
  | .front :: ops, l => by
    simp only [pulls, given]
    have ih := pulls_once ops l.tail
    simp only [if_true, if_neg (show ¬ End.front = End.back by decide), List.nil_append]
    cases l with
    | nil => simpa using ih
    | cons a l =>
      simp only [List.tail_cons, List.head?_cons, Option.toList_some, List.cons_append, List.nil_append] at ih ⊢
      rw [← ih]
  | .back :: ops, l => by
    simp only [pulls, given]
    have ih := pulls_once ops l.dropLast
    simp only [if_true, if_neg (show ¬ End.back = End.front by decide), List.nil_append]
    rcases List.eq_nil_or_concat l with rfl | ⟨l', a, rfl⟩
    · simpa using ih
    · simp only [List.concat_eq_append, List.dropLast_concat, List.getLast?_append, List.getLast?_singleton, Option.some_or,
        Option.toList_some, List.reverse_append, List.reverse_cons, List.reverse_nil, List.nil_append] at ih ⊢
      rw [← List.append_assoc, ← ih]

/-- The calls on a list of chunks. -/
def pullsC {α : Type} : List End → List (List α) → List (Option α) × List (List α)
  | [], C => ([], C)
  | c :: ops, C =>
    let x := match c with | .front => pullFront C | .back => pullBack C
    let y := pullsC ops x.2
    (x.1 :: y.1, y.2)

theorem pullsC_live {α : Type} : ∀ (ops : List End) {C D : List (List α)}, live C = live D →
    (pullsC ops C).1 = (pullsC ops D).1 ∧ live (pullsC ops C).2 = live (pullsC ops D).2
  | [], _, _, h => ⟨rfl, h⟩
  | c :: ops, C, D, h => by
    simp only [pullsC]
    have : (match c with | .front => pullFront C | .back => pullBack C) =
        (match c with | .front => pullFront D | .back => pullBack D) := by
      cases c
      · exact pullFront_live h
      · exact pullBack_live h
    rw [this]
    exact ⟨rfl, rfl⟩

theorem pullFront_one {α : Type} (c : List α) :
    (pullFront [c]).1 = c.head? ∧ live (pullFront [c]).2 = live [c.tail] := by
  cases c <;> exact ⟨rfl, rfl⟩

theorem pullBack_one {α : Type} (c : List α) :
    (pullBack [c]).1 = c.getLast? ∧ live (pullBack [c]).2 = live [c.dropLast] := by
  cases c <;> exact ⟨rfl, rfl⟩

theorem pullsC_one {α : Type} : ∀ (ops : List End) (c : List α),
    (pullsC ops [c]).1 = (pulls ops c).1 ∧ live (pullsC ops [c]).2 = live [(pulls ops c).2]
  | [], c => ⟨rfl, rfl⟩
  | .front :: ops, c => by
    simp only [pullsC, pulls]
    obtain ⟨h1, h2⟩ := pullFront_one c
    obtain ⟨h3, h4⟩ := pullsC_live ops h2
    obtain ⟨h5, h6⟩ := pullsC_one ops c.tail
    exact ⟨by rw [h1, h3, h5], h4.trans h6⟩
  | .back :: ops, c => by
    simp only [pullsC, pulls]
    obtain ⟨h1, h2⟩ := pullBack_one c
    obtain ⟨h3, h4⟩ := pullsC_live ops h2
    obtain ⟨h5, h6⟩ := pullsC_one ops c.dropLast
    exact ⟨by rw [h1, h3, h5], h4.trans h6⟩

theorem live_flatten {α : Type} : ∀ (C : List (List α)), (live C).flatten = C.flatten
  | [] => rfl
  | [] :: C => by rw [live_nil_cons, live_flatten C]; rfl
  | (_ :: _) :: _ => rfl

theorem flatten_of_live {α : Type} {C D : List (List α)} (h : live C = live D) : C.flatten = D.flatten := by
  rw [← live_flatten C, h, live_flatten]

theorem pullFront_flatten {α : Type} (C : List (List α)) :
    C.flatten = (pullFront C).1.toList ++ (pullFront C).2.flatten := by
  conv => lhs; rw [← live_flatten C]
  unfold pullFront live
  cases h : C.dropWhile List.isEmpty with
  | nil => rfl
  | cons c D => cases c <;> rfl

theorem pullBack_perm {α : Type} (C : List (List α)) :
    ((pullBack C).1.toList ++ (pullBack C).2.flatten).Perm C.flatten := by
  conv => rhs; rw [← live_flatten C]
  unfold pullBack live
  cases h : C.dropWhile List.isEmpty with
  | nil => exact List.Perm.refl _
  | cons c D =>
    rcases List.eq_nil_or_concat c with rfl | ⟨l', a, rfl⟩
    · exact List.Perm.refl _
    · simp only [List.concat_eq_append, List.dropLast_concat, List.getLast?_append, List.getLast?_singleton, Option.some_or,
        Option.toList_some, List.flatten_cons, List.append_assoc, List.singleton_append]
      exact List.perm_middle.symm

theorem pullsC_perm {α : Type} : ∀ (ops : List End) (C : List (List α)),
    ((pullsC ops C).1.filterMap id ++ (pullsC ops C).2.flatten).Perm C.flatten
  | [], C => List.Perm.refl _
  | c :: ops, C => by
    simp only [pullsC]
    have key : ∀ x : Option α × List (List α), (x.1.toList ++ x.2.flatten).Perm C.flatten →
        ((x.1 :: (pullsC ops x.2).1).filterMap id ++ (pullsC ops x.2).2.flatten).Perm C.flatten := by
      intro x hx
      refine List.Perm.trans ?_ hx
      have : (x.1 :: (pullsC ops x.2).1).filterMap id = x.1.toList ++ (pullsC ops x.2).1.filterMap id := by
        cases h : x.1 <;> simp
      rw [this, List.append_assoc]
      exact (pullsC_perm ops x.2).append_left _
    cases c with
    | front => exact key _ (by rw [← pullFront_flatten])
    | back => exact key _ (pullBack_perm C)

/-! ## Calls -/

theorem calls_ok : ∀ (ops : List End) (it : It V) (C : List (List (EId × Out V))), Ready it C →
    ∃ it', calls ops it = .ok ((pullsC ops C).1.map (Option.map (·.2)), it') ∧ Ready it' (pullsC ops C).2
  | [], it, C, h => ⟨it, rfl, h⟩
  | c :: ops, it, C, ⟨p, ph, h1, h2, h3⟩ => by
    have fin : ∀ (x : Option (EId × Out V) × List (List (EId × Out V))) (it1 : It V), Ready it1 x.2 →
        ∃ it', (calls ops it1).map (fun y => (x.1.map (·.2) :: y.1, y.2)) =
            .ok ((x.1 :: (pullsC ops x.2).1).map (Option.map (·.2)), it') ∧ Ready it' (pullsC ops x.2).2 := by
      intro x it1 hr
      obtain ⟨it2, hc, hr2⟩ := calls_ok ops it1 _ hr
      exact ⟨it2, by rw [hc]; rfl, hr2⟩
    cases c with
    | front =>
      obtain ⟨it', p', ph', e1, e2, e3, e4, _⟩ := next_ok it.fuel it p ph h1 h2 (need_lt_fuel h1)
      rw [pullFront_live h3] at e1 e4
      simp only [calls, It.next, e1]
      exact fin _ it' ⟨p', ph', e2, e3, e4⟩
    | back =>
      obtain ⟨it', p', ph', e1, e2, e3, e4, _⟩ := nextBack_ok it.fuel it p ph h1 h2 (need_lt_fuel h1)
      rw [pullBack_live h3] at e1 e4
      simp only [calls, It.nextBack, e1]
      exact fin _ it' ⟨p', ph', e2, e3, e4⟩

theorem Ready.fold {it : It V} {C : List (List (EId × Out V))} (h : Ready it C) : it.fold = .ok (C.flatten.map (·.2)) := by
  obtain ⟨p, ph, h1, _, h3⟩ := h
  rw [fold_ok h1, flatten_of_live h3]

/-! ## Ids -/

theorem nextId_ok {it : It V} {C : List (List (EId × Out V))} (h : Ready it C) :
    ∃ it', it.nextId = .ok ((pullFront C).1, it') ∧ Ready it' (pullFront C).2 := by
  obtain ⟨p, ph, h1, h2, h3⟩ := h
  obtain ⟨it', p', ph', e1, e2, e3, e4, e5⟩ := next_ok it.fuel it p ph h1 h2 (need_lt_fuel h1)
  rw [pullFront_live h3] at e1 e4 e5
  refine ⟨it', ?_, p', ph', e2, e3, e4⟩
  unfold It.nextId It.next
  rw [e1]
  cases hx : (pullFront C).1 with
  | none => rfl
  | some x =>
    simp only [Option.map_some]
    rw [e5 x.1 x.2 hx]

theorem head?_drop_flatten {α : Type} (C : List (List α)) : (pullFront C).1 = C.flatten.head? ∧
    (pullFront C).2.flatten = C.flatten.tail := by
  have h := pullFront_flatten C
  cases hx : (pullFront C).1 with
  | some x => rw [hx] at h; rw [h]; exact ⟨rfl, rfl⟩
  | none =>
    have : (pullFront C).2.flatten = [] := by
      unfold pullFront at hx ⊢
      cases hd : C.dropWhile List.isEmpty with
      | nil => rfl
      | cons c D =>
        rw [hd] at hx
        simp only at hx
        have h2 : c.isEmpty = false := by
          have := List.head?_dropWhile_not List.isEmpty C
          rw [hd] at this
          simpa using this
        cases c with
        | nil => simp at h2
        | cons _ _ => simp at hx
    rw [hx, this] at h
    rw [h, this]; exact ⟨rfl, rfl⟩

theorem nextsId_ok : ∀ (n : Nat) (it : It V) (C : List (List (EId × Out V))), Ready it C →
    ∃ it' D, nextsId n it = .ok ((List.range n).map (fun i => C.flatten[i]?), it') ∧ Ready it' D ∧ D.flatten = C.flatten.drop n
  | 0, it, C, h => ⟨it, C, rfl, h, rfl⟩
  | n + 1, it, C, h => by
    obtain ⟨it1, h1, h2⟩ := nextId_ok h
    obtain ⟨it2, D, h3, h4, h5⟩ := nextsId_ok n it1 _ h2
    refine ⟨it2, D, ?_, h4, ?_⟩
    · simp only [nextsId]
      rw [h1]
      simp only
      rw [h3]
      simp only [Except.map, Except.ok.injEq, Prod.mk.injEq, and_true]
      rw [(head?_drop_flatten C).1, (head?_drop_flatten C).2, List.range_succ_eq_map, List.map_cons, List.map_map]
      congr 1
      · rw [List.head?_eq_getElem?]
      · apply List.map_congr_left
        intro i _
        simp
    · rw [h5, (head?_drop_flatten C).2, List.drop_tail]

/-! ## Splits -/

theorem parts_ok : ∀ (t : Splits) (it : It V) (p : Ph V), Inv it p [] →
    runAll (t.parts it) = .ok ((seg p it.start it.stop).map (·.2))
  | .leaf, it, p, h => by
    simp only [Splits.parts, runAll]
    rw [fold_ok h]
    simp [chunks, Except.map]
  | .node l r, it, p, h => by
    have hb := h.bound
    have hle := h.le
    have hrest : it.acc.rest = [] := by rw [h.rest]; rfl
    simp only [Splits.parts]
    unfold It.split
    simp only [Acc.followLen, hrest, List.map_nil, List.sum_nil]
    by_cases hd : it.stop - it.start + 0 ≤ 1
    · rw [if_pos hd]
      simp only [runAll]
      rw [fold_ok h]
      simp [chunks, Except.map]
    · rw [if_neg hd]
      have hsplit : it.acc.splitAt (0 / 2) = (it.acc, it.acc) := by
        unfold Acc.splitAt
        rw [hrest]
        simp only [Acc.splitPoint]
        rw [← hrest]
      simp only [hsplit]
      have hl := parts_ok l { it with stop := it.start + (it.stop - it.start) / 2 } p
        ⟨h.slice, h.rest, h.phases, h.exact, by simp only; omega, by simp only; omega⟩
      have hr := parts_ok r { it with start := it.start + (it.stop - it.start) / 2 } p
        ⟨h.slice, h.rest, h.phases, h.exact, by simp only; omega, h.bound⟩
      have happ : ∀ (xs ys : List (It V)) (a b : List (Out V)), runAll xs = .ok a → runAll ys = .ok b →
          runAll (xs ++ ys) = .ok (a ++ b) := by
        intro xs
        induction xs with
        | nil => intro ys a b h1 h2; cases h1; exact h2
        | cons x xs ih =>
          intro ys a b h1 h2
          simp only [List.cons_append, runAll] at h1 ⊢
          cases hx : x.fold with
          | error f => rw [hx] at h1; cases h1
          | ok os =>
            rw [hx] at h1
            simp only at h1 ⊢
            cases hxs : runAll xs with
            | error f => rw [hxs] at h1; cases h1
            | ok zs =>
              rw [hxs] at h1
              simp only [Except.map, Except.ok.injEq] at h1
              rw [ih ys zs b hxs h2]
              simp only [Except.map, Except.ok.injEq]
              rw [← h1, List.append_assoc]
      rw [happ _ _ _ _ hl hr, ← List.map_append]
      simp only
      rw [← seg_split p (by omega) (by omega)]

/-! ## Size hints -/

theorem seg_full {s : Ship V} {p : Ph V} (h : Phase s p) (hx : s.isExact = true) : ∀ (a b : Nat), b ≤ p.1.length →
    (seg p a b).length = b - a := by
  intro a b hb
  unfold seg
  have key : ∀ (l : List Nat), (∀ i ∈ l, i < p.1.length) → (l.filterMap (itemAt p)).length = l.length := by
    intro l
    induction l with
    | nil => intro _; rfl
    | cons i l ih =>
      intro hl
      have hi := hl i (by simp)
      obtain ⟨x, hx1, _⟩ := h.gives hx i p.1[i] (List.getElem?_eq_getElem hi)
      rw [List.filterMap_cons, itemAt_eq (List.getElem?_eq_getElem hi), hx1]
      simp only [Option.map_some, List.length_cons]
      rw [ih fun j hj => hl j (by simp [hj])]
  rw [key _ (by intro i hi; rw [List.mem_range'_1] at hi; omega)]
  simp

theorem phases_full : ∀ (ph : List (Ph V)) (s : Ship V), Phases s ph → s.isExact = true →
    (ph.map Ph.items).flatten.length = (ph.map fun p => p.1.length).sum
  | [], _, _, _ => rfl
  | p :: ph, s, h, hx => by
    simp only [List.map_cons, List.flatten_cons, List.length_append, List.sum_cons]
    rw [phases_full ph s.nextSlice h.2 (by rw [isExact_next]; exact hx), ← seg_all, seg_full h.1 hx _ _ (Nat.le_refl _)]
    omega

theorem phases_le : ∀ (ph : List (Ph V)), (ph.map Ph.items).flatten.length ≤ (ph.map fun p => p.1.length).sum
  | [] => Nat.le_refl _
  | p :: ph => by
    simp only [List.map_cons, List.flatten_cons, List.length_append, List.sum_cons]
    have := phases_le ph
    have h := seg_length_le p 0 p.1.length
    rw [seg_all] at h
    omega

theorem sizeHint_ok {it : It V} {p : Ph V} {ph : List (Ph V)} (h : Inv it p ph) :
    ∃ lo hi, it.sizeHint = .ok (lo, hi) ∧ lo ≤ (chunks it p ph).flatten.length ∧ (chunks it p ph).flatten.length ≤ hi ∧
      (it.exact = true → lo = hi) := by
  have hle := h.le
  have hb := h.bound
  have hfl : it.acc.followLen = (ph.map fun p => p.1.length).sum := by
    unfold Acc.followLen
    rw [h.rest, List.map_reverse, List.sum_reverse, List.map_map]
    rfl
  have hup : (chunks it p ph).flatten.length ≤ it.stop - it.start + it.acc.followLen := by
    rw [hfl]
    simp only [chunks, List.flatten_cons, List.length_append]
    have h1 := seg_length_le p it.start it.stop
    have h2 := phases_le ph
    omega
  unfold It.sizeHint
  rw [if_neg (by omega)]
  refine ⟨_, _, rfl, ?_, hup, fun hx => by rw [if_pos hx]⟩
  split
  · rename_i hx
    rw [h.exact] at hx
    rw [hfl]
    simp only [chunks, List.flatten_cons, List.length_append]
    rw [seg_full h.phases.1 hx _ _ hb, phases_full ph _ h.phases.2 (by rw [isExact_next]; exact hx)]
    exact Nat.le_refl _
  · exact Nat.zero_le _

theorem Ready.sizeHint {it : It V} {C : List (List (EId × Out V))} (h : Ready it C) :
    ∃ lo hi, it.sizeHint = .ok (lo, hi) ∧ lo ≤ C.flatten.length ∧ C.flatten.length ≤ hi ∧ (it.exact = true → lo = hi) := by
  obtain ⟨p, ph, h1, _, h3⟩ := h
  rw [← flatten_of_live h3]
  exact sizeHint_ok h1

/-! ## What calls do not change -/

theorem nextF_keep : ∀ (n : Nat) (it it' : It V) (r : Option (Out V)), It.nextF n it = .ok (r, it') →
    it'.exact = it.exact ∧ (it.acc.rest = [] → it'.acc.rest = [])
  | 0, _, _, _, h => by cases h
  | n + 1, it, it', r, h => by
    simp only [It.nextF] at h
    cases hr : it.refill with
    | none => rw [hr] at h; cases h; exact ⟨rfl, id⟩
    | some it1 =>
      rw [hr] at h
      have hk : it1.exact = it.exact ∧ (it.acc.rest = [] → it1.acc.rest = []) := by
        unfold It.refill at hr
        split at hr
        · unfold Acc.nextSlice at hr
          cases hg : it.acc.rest.getLast? with
          | none => rw [hg] at hr; cases hr
          | some x =>
            rw [hg] at hr
            cases hr
            exact ⟨rfl, fun h0 => by simp [h0]⟩
        · cases hr; exact ⟨rfl, id⟩
      simp only at h
      cases hv : it1.visit it1.start with
      | error f => rw [hv] at h; cases h
      | ok o =>
        rw [hv] at h
        cases o with
        | some o => cases h; exact hk
        | none =>
          obtain ⟨e1, e2⟩ := nextF_keep n _ _ _ h
          exact ⟨e1.trans hk.1, fun h0 => e2 (hk.2 h0)⟩

theorem nextBackF_keep : ∀ (n : Nat) (it it' : It V) (r : Option (Out V)), It.nextBackF n it = .ok (r, it') →
    it'.exact = it.exact ∧ (it.acc.rest = [] → it'.acc.rest = [])
  | 0, _, _, _, h => by cases h
  | n + 1, it, it', r, h => by
    simp only [It.nextBackF] at h
    cases hr : it.refill with
    | none => rw [hr] at h; cases h; exact ⟨rfl, id⟩
    | some it1 =>
      rw [hr] at h
      have hk : it1.exact = it.exact ∧ (it.acc.rest = [] → it1.acc.rest = []) := by
        unfold It.refill at hr
        split at hr
        · unfold Acc.nextSlice at hr
          cases hg : it.acc.rest.getLast? with
          | none => rw [hg] at hr; cases hr
          | some x =>
            rw [hg] at hr
            cases hr
            exact ⟨rfl, fun h0 => by simp [h0]⟩
        · cases hr; exact ⟨rfl, id⟩
      simp only at h
      split at h
      · cases h
      · cases hv : it1.visit (it1.stop - 1) with
        | error f => rw [hv] at h; cases h
        | ok o =>
          rw [hv] at h
          cases o with
          | some o => cases h; exact hk
          | none =>
            obtain ⟨e1, e2⟩ := nextBackF_keep n _ _ _ h
            exact ⟨e1.trans hk.1, fun h0 => e2 (hk.2 h0)⟩

theorem calls_keep : ∀ (ops : List End) (it it' : It V) (rs : List (Option (Out V))), calls ops it = .ok (rs, it') →
    it'.exact = it.exact ∧ (it.acc.rest = [] → it'.acc.rest = [])
  | [], _, _, _, h => by cases h; exact ⟨rfl, id⟩
  | c :: ops, it, it', rs, h => by
    have fin : ∀ (x : Res (Option (Out V) × It V)), (∀ r it1, x = .ok (r, it1) → it1.exact = it.exact ∧ (it.acc.rest = [] → it1.acc.rest = [])) →
        (match x with
          | .error f => .error f
          | .ok (r, it) => (calls ops it).map fun x => (r :: x.1, x.2)) = Except.ok (rs, it') →
        it'.exact = it.exact ∧ (it.acc.rest = [] → it'.acc.rest = []) := by
      intro x hx h
      cases x with
      | error f => cases h
      | ok y =>
        obtain ⟨r, it1⟩ := y
        simp only at h
        cases hc : calls ops it1 with
        | error f => rw [hc] at h; cases h
        | ok z =>
          rw [hc] at h
          cases h
          obtain ⟨e1, e2⟩ := calls_keep ops it1 z.2 z.1 hc
          obtain ⟨e3, e4⟩ := hx r it1 rfl
          exact ⟨e1.trans e3, fun h0 => e2 (e4 h0)⟩
    cases c with
    | front => exact fin it.next (fun r it1 hx => nextF_keep _ _ _ _ hx) h
    | back => exact fin it.nextBack (fun r it1 hx => nextBackF_keep _ _ _ _ hx) h

theorem calls_exact (ops : List End) (it : It V) {it' : It V} {rs : List (Option (Out V))}
    (h : calls ops it = .ok (rs, it')) : it'.exact = it.exact := (calls_keep ops it it' rs h).1

theorem calls_rest (ops : List End) (it : It V) (p : Ph V) (hi : Inv it p []) {it' : It V} {rs : List (Option (Out V))}
    (h : calls ops it = .ok (rs, it')) {p' : Ph V} {ph' : List (Ph V)} (hi' : Inv it' p' ph') : ph' = [] := by
  have := (calls_keep ops it it' rs h).2 (by rw [hi.rest]; rfl)
  rw [hi'.rest] at this
  simpa using this

end Verif.IterSpec
