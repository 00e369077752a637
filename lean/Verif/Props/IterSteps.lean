import Verif.Lemmas.IterSteps
import Verif.Spec.IterDemo

/-!
# Iteration step by step, with ids, in parallel: C31, C33–C36
-/
namespace Verif.IterSpec
open StoSpec TrkSpec Iter
variable {V : Type}

/-! ## C34 -/

/-- C34, queries without `|`. Any interleaving of `next` and `next_back` gives what the same calls give on the
list of the items; `next` and `next_back` agree with `fold` about what remains. -/
theorem C34_both_ends_partial (r : Rnd) {st : Win V → Sto V} {q : Qry V} (hf : Fine st q) (hs : Sails r q)
    (hc : q.canCaptain = true) (ho : orFree q = true) :
    ∃ (it : It V) (items : List (EId × Out V)), iter r q = .ok it ∧ Exactly st q items ∧
      ∀ ops, ∃ it', calls ops it = .ok ((pulls ops items).1.map (Option.map (·.2)), it') ∧
        it'.fold = .ok ((pulls ops items).2.map (·.2)) := by
  obtain ⟨it, p, ph, h1, h2, h3, h4, _⟩ := iter_inv r hf hs hc
  cases h4 ho
  refine ⟨it, _, h1, h3, fun ops => ?_⟩
  have hch : chunks it p [] = [(chunks it p []).flatten] := by simp [chunks]
  obtain ⟨it', h5, h6⟩ := calls_ok ops it (chunks it p []) ⟨p, [], h2, (fun p hp => by cases hp), rfl⟩
  obtain ⟨e1, e2⟩ := pullsC_one ops (chunks it p []).flatten
  rw [← hch] at e1 e2
  refine ⟨it', by rw [h5, e1], ?_⟩
  rw [h6.fold, flatten_of_live e2]
  simp

/-- C34. In particular each item is given exactly once: the items are those given at the front, in order, then
those that remain, then those given at the back, in reverse order. -/
theorem C34_once {α : Type} (ops : List End) (items : List α) :
    items = given .front ops (pulls ops items).1 ++ (pulls ops items).2 ++ (given .back ops (pulls ops items).1).reverse :=
  pulls_once ops items

/-- C34. Once everything was given, every further call gives nothing. -/
theorem C34_exhausted {α : Type} (ops : List End) (r : Option α) (h : r ∈ (pulls ops ([] : List α)).1) : r = none := by
  induction ops with
  | nil => cases h
  | cons c ops ih =>
    cases c <;> simp only [pulls, List.tail_nil, List.dropLast_nil, List.head?_nil, List.getLast?_nil, List.mem_cons] at h <;>
      exact h.elim id ih

theorem lookup_dense {w : Win V} {a : Sto V} (h : Reads w a) {e : EId} {v : V} (hv : lookup a.rows e = some v) :
    w.set.dense ≠ [] := by
  obtain ⟨L, hL⟩ := h.looks
  have : ∃ row, rowAt a e = some row := by
    unfold lookup at hv
    unfold rowAt
    cases hr : a.rows e.idx with
    | none => rw [hr] at hv; cases hv
    | some row =>
      rw [hr] at hv
      simp only [Option.bind_some] at hv ⊢
      split at hv
      · rename_i hg; exact ⟨row, by rw [if_pos hg]⟩
      · cases hv
  obtain ⟨row, hrow⟩ := this
  have hm := hL.mem e row hrow
  intro hn
  rw [hn] at hm
  cases hm

theorem or_ready (r : Rnd) {st : Win V → Sto V} {a b : Win V} (ha : Reads a (st a)) (hb : Reads b (st b))
    (hne : ∃ e v, lookup (st b).rows e = some v) :
    ∃ (it : It V) (C : List (List (EId × Out V))), iter r (.or (.view a) (.view b)) = .ok it ∧ Ready it C ∧
      Exactly st (.or (.view a) (.view b)) C.flatten := by
  obtain ⟨e, v, hv⟩ := hne
  obtain ⟨it, p, ph, h1, h2, h3, _⟩ := iter_inv r (st := st) (q := .or (.view a) (.view b))
    (by simp only [Fine]; exact ⟨rfl, by simp [orFree], by simp [Qry.canCaptain], by simp [Qry.canSailor], ha, hb⟩)
    (by simp [Sails]) (by simp [Qry.canCaptain])
  refine ⟨it, _, h1, ⟨p, ph, h2, ?_, rfl⟩, h3⟩
  intro x hx hnil
  have hit : it.acc.rest = [(b.set.dense, b.set.dense.length)] := by
    simp only [iter, Qry.intoShip, Except.ok.injEq] at h1
    rw [← h1]
  have hmem : (x.1, x.1.length) ∈ it.acc.rest := by
    rw [h2.rest, List.mem_reverse]
    exact List.mem_map_of_mem (f := fun p : Ph V => (p.1, p.1.length)) hx
  rw [hit, List.mem_singleton] at hmem
  have hd := lookup_dense hb hv
  apply hd
  have := congrArg Prod.fst hmem
  simp only at this
  rw [← this, hnil]

/-- C31 and C34 for `&a | &b`, when `b` has at least one component (see `C31_next_fails` for the other case): any
interleaving of `next` and `next_back` gives items of the union, each at most once; those not yet given are what
`fold` gives next. The order of the backs is not the reverse order: the two storages are walked one after the
other, both from their own back. -/
theorem C31_both_ends_partial (r : Rnd) {st : Win V → Sto V} {a b : Win V} (ha : Reads a (st a)) (hb : Reads b (st b))
    (hne : ∃ e v, lookup (st b).rows e = some v) :
    ∃ (it : It V) (items : List (EId × Out V)), iter r (.or (.view a) (.view b)) = .ok it ∧
      (items.map (·.1)).Nodup ∧
      (∀ e o, (e, o) ∈ items ↔ item st (.or (.view a) (.view b)) e = some o) ∧
      ∀ ops, ∃ (it' : It V) (results : List (Option (EId × Out V))) (rest : List (EId × Out V)),
        calls ops it = .ok (results.map (Option.map (·.2)), it') ∧
        it'.fold = .ok (rest.map (·.2)) ∧ (results.filterMap id ++ rest).Perm items := by
  obtain ⟨it, C, h1, h2, h3⟩ := or_ready r ha hb hne
  refine ⟨it, C.flatten, h1, h3.1, h3.2, fun ops => ?_⟩
  obtain ⟨it', h4, h5⟩ := calls_ok ops it C h2
  exact ⟨it', _, _, h4, h5.fold, pullsC_perm ops C⟩

example := C31_both_ends_partial demoR aW_reads bW_reads ⟨⟨7, 0⟩, 8, rfl⟩
example : (withIter (.or (.view aW) (.view bW)) (calls [.front, .back, .front, .front, .back, .front])).map (·.1) =
    .ok [some (.one (.comp 10)), some (.one (.comp 30)), some (.one (.comp 20)), some (.two (.comp 8)),
      some (.two (.comp 9)), none] := rfl

/-- The hypotheses of the theorems about queries without `|` are met. -/
def demoQ : Qry Nat := .tup [.view aW, .opt bW]
theorem demoQ_fine : Fine demoSt demoQ := by
  simp only [demoQ, Fine, Fines]
  exact ⟨⟨aW_reads, bW_reads, trivial⟩, ⟨.view aW, by simp, rfl⟩, by decide⟩
theorem demoQ_sails : Sails demoR demoQ := by
  simp only [demoQ, Sails, Sailss]
  refine ⟨⟨trivial, trivial, trivial⟩, ⟨.view aW, by simp, rfl, ?_⟩, ?_⟩
  · intro s n acc h
    cases h
    decide
  · intro q hq s n acc h
    simp only [List.mem_cons, List.not_mem_nil, or_false] at hq
    rcases hq with rfl | rfl <;> cases h <;> rfl
example := C34_both_ends_partial demoR demoQ_fine demoQ_sails rfl rfl
example : (withIter demoQ (calls [.back, .front, .back, .back, .front])).map (·.1) =
    .ok [some (.tup [.comp 30, .maybe (some 6)]), some (.tup [.comp 10, .maybe none]),
      some (.tup [.comp 20, .maybe (some 5)]), none, none] := rfl

/-- C34 is false of `&a | &b` as to the order: what `next_back` gives first is not the last item. -/
theorem C34_or_order_fails : Reads aW (demoSt aW) ∧ Reads bW (demoSt bW) ∧
    runFold (.or (.view aW) (.view bW)) =
      .ok [.one (.comp 10), .one (.comp 20), .one (.comp 30), .two (.comp 8), .two (.comp 9)] ∧
    (withIter (.or (.view aW) (.view bW)) (calls [.back])).map (·.1) = .ok [some (.one (.comp 30))] :=
  ⟨aW_reads, bW_reads, rfl, rfl⟩

/-! ## C33 -/

/-- C33 for `next`, queries without `|`: the items come with the ids of their entities. -/
theorem C33_next_partial (r : Rnd) {st : Win V → Sto V} {q : Qry V} (hf : Fine st q) (hs : Sails r q)
    (hc : q.canCaptain = true) (ho : orFree q = true) :
    ∃ (it : It V) (items : List (EId × Out V)), iter r q = .ok it ∧ Exactly st q items ∧
      ∀ n, ∃ it', nextsId n it = .ok ((List.range n).map (fun i => items[i]?), it') := by
  obtain ⟨it, p, ph, h1, h2, h3, h4, _⟩ := iter_inv r hf hs hc
  cases h4 ho
  refine ⟨it, _, h1, h3, fun n => ?_⟩
  obtain ⟨it', _, h5, _⟩ := nextsId_ok n it (chunks it p []) ⟨p, [], h2, (fun p hp => by cases hp), rfl⟩
  exact ⟨it', h5⟩

/-- C33 for `next` on `&a | &b`, when `b` is not empty. -/
theorem C33_next_or_partial (r : Rnd) {st : Win V → Sto V} {a b : Win V} (ha : Reads a (st a)) (hb : Reads b (st b))
    (hne : ∃ e v, lookup (st b).rows e = some v) :
    ∃ (it : It V) (items : List (EId × Out V)), iter r (.or (.view a) (.view b)) = .ok it ∧
      Exactly st (.or (.view a) (.view b)) items ∧
      ∀ n, ∃ it', nextsId n it = .ok ((List.range n).map (fun i => items[i]?), it') := by
  obtain ⟨it, C, h1, h2, h3⟩ := or_ready r ha hb hne
  refine ⟨it, C.flatten, h1, h3, fun n => ?_⟩
  obtain ⟨it', _, h5, _⟩ := nextsId_ok n it C h2
  exact ⟨it', h5⟩

/-- C33 for `fold`, queries without `|`. -/
theorem C33_fold_partial (r : Rnd) {st : Win V → Sto V} {q : Qry V} (hf : Fine st q) (hs : Sails r q)
    (hc : q.canCaptain = true) (ho : orFree q = true) :
    ∃ (it : It V) (items : List (EId × Out V)), iter r q = .ok it ∧ it.foldId = .ok items ∧ Exactly st q items := by
  obtain ⟨it, p, ph, h1, h2, h3, h4, _⟩ := iter_inv r hf hs hc
  cases h4 ho
  refine ⟨it, _, h1, foldId_ok h2, ?_⟩
  simpa [chunks] using h3

/-- C33 for `rfold`, any query. -/
theorem C33_rfold_partial (r : Rnd) {st : Win V → Sto V} {q : Qry V} (hf : Fine st q) (hs : Sails r q)
    (hc : q.canCaptain = true) :
    ∃ (it : It V) (items : List (EId × Out V)), iter r q = .ok it ∧ it.rfoldId = .ok items ∧ Exactly st q items := by
  obtain ⟨it, p, ph, h1, h2, h3, _⟩ := iter_inv r hf hs hc
  have hp : ∀ C : List (List (EId × Out V)), ((C.map List.reverse).flatten).Perm C.flatten := by
    intro C
    induction C with
    | nil => exact List.Perm.refl _
    | cons c C ih =>
      simp only [List.map_cons, List.flatten_cons]
      exact (List.reverse_perm c).append ih
  refine ⟨it, _, h1, rfoldId_ok h2, ?_⟩
  refine ⟨(((hp _).map _).nodup_iff).2 h3.1, fun e o => ?_⟩
  rw [(hp _).mem_iff, h3.2]

example := C33_next_partial demoR demoQ_fine demoQ_sails rfl rfl
example := C33_fold_partial demoR demoQ_fine demoQ_sails rfl rfl
example := C33_rfold_partial demoR demoQ_fine demoQ_sails rfl
example : withIter (.view aW) It.foldId = .ok [(⟨0, 0⟩, .comp 10), (⟨4, 1⟩, .comp 20), (⟨40, 0⟩, .comp 30)] := rfl
example : (withIter (.tup [.view aW, .view bW]) (nextsId 3)).map (·.1) =
    .ok [some (⟨4, 1⟩, .tup [.comp 20, .comp 5]), some (⟨40, 0⟩, .tup [.comp 30, .comp 6]), none] := rfl

/-- C33 is false of `next_back`: on a view with three components, the id is read out of bounds. -/
theorem C33_next_back_fails : Reads aW (demoSt aW) ∧
    (withIter (.view aW) It.nextBackId).map (·.1) = .error .oob :=
  ⟨aW_reads, rfl⟩

/-- C33 is false of `next_back`: the component 10 of one entity comes with the id of another. -/
theorem C33_next_back_wrong_id_fails : Reads aW (demoSt aW) ∧ lookup (demoSt aW).rows ⟨0, 0⟩ = some 10 ∧
    (withIter (.view aW) fun it => match calls [.back, .back] it with
      | .ok (_, it) => it.nextBackId.map (·.1)
      | .error f => .error f) = .ok (some (⟨4, 1⟩, .comp 10)) :=
  ⟨aW_reads, rfl, rfl⟩

/-- C33 is false of `fold` on `&a | &b`: the entities of both are given twice (two exclusive references to the same
component, if the views are exclusive), those of `b` only are not given. -/
theorem C33_or_fold_fails : Reads aW (demoSt aW) ∧ Reads bW (demoSt bW) ∧
    withIter (.or (.view aW) (.view bW)) It.foldId =
      .ok [(⟨0, 0⟩, .one (.comp 10)), (⟨4, 1⟩, .one (.comp 20)), (⟨40, 0⟩, .one (.comp 30)),
        (⟨40, 0⟩, .one (.comp 30)), (⟨4, 1⟩, .one (.comp 20))] :=
  ⟨aW_reads, bW_reads, rfl⟩

/-! ## C35 -/

/-- The slices of ids that are still to come, one after the other. -/
def _root_.Verif.Iter.Acc.ids (a : Acc) : List EId := (a.rest.map fun x => x.1.take x.2).flatten

theorem Acc.splitPoint_lengths : ∀ (l : List (List EId × Nat)) (i count total : Nat), total ≤ count →
    count ≤ total + (l.map (·.2)).sum → l ≠ [] → ∃ p k, Acc.splitPoint count l i total = some (i + p, k) ∧ p < l.length ∧
      total + ((l.take p).map (·.2)).sum + k = count ∧ ∀ x, l[p]? = some x → k ≤ x.2
  | [], _, _, _, _, _, h => absurd rfl h
  | (s, n) :: l, i, count, total, h1, h2, _ => by
    unfold Acc.splitPoint
    by_cases hc : total + n ≥ count
    · rw [if_pos hc]
      refine ⟨0, count - total, rfl, by simp, by simp; omega, fun x hx => ?_⟩
      simp at hx
      subst hx
      show count - total ≤ n
      omega
    · rw [if_neg hc]
      simp only [List.map_cons, List.sum_cons] at h2
      have hl : l ≠ [] := by
        rintro rfl
        simp at h2
        omega
      obtain ⟨p, k, g1, g2, g3, g4⟩ := Acc.splitPoint_lengths l (i + 1) count (total + n) (by omega) (by omega) hl
      refine ⟨p + 1, k, by rw [g1]; congr 2; omega, by simp; omega,
        by simp only [List.take_succ_cons, List.map_cons, List.sum_cons]; omega, fun x hx => g4 x (by simpa using hx)⟩

/-- C35, cutting what is still to come: no length is lost or made up. -/
theorem C35_split_lengths (a : Acc) (count : Nat) (h : count ≤ a.followLen) :
    (a.splitAt count).1.followLen = count ∧ (a.splitAt count).2.followLen = a.followLen - count := by
  by_cases hl : a.rest = []
  · unfold Acc.followLen at *
    unfold Acc.splitAt
    rw [hl] at h ⊢
    simp only [Acc.splitPoint, List.map_nil, List.sum_nil] at h ⊢
    omega
  · obtain ⟨p, k, g1, g2, g3, g4⟩ := Acc.splitPoint_lengths a.rest 0 count 0 (by omega) (by unfold Acc.followLen at h; omega) hl
    have hx := List.getElem?_eq_getElem g2
    have hk := g4 _ hx
    have hsum : a.followLen = ((a.rest.take p).map (·.2)).sum + ((a.rest.drop p).map (·.2)).sum := by
      unfold Acc.followLen
      conv => lhs; rw [← List.take_append_drop p a.rest]
      simp only [List.map_append, List.sum_append]
    have hd : a.rest.drop p = a.rest[p] :: a.rest.drop (p + 1) := List.drop_eq_getElem_cons g2
    have hsd : ((a.rest.drop p).map (·.2)).sum = a.rest[p].2 + ((a.rest.drop (p + 1)).map (·.2)).sum := by
      rw [hd, List.map_cons, List.sum_cons]
    unfold Acc.splitAt
    rw [g1]
    simp only [Nat.zero_add]
    rcases k with _ | k
    · unfold Acc.followLen at *
      dsimp only
      omega
    · rw [hd]
      unfold Acc.followLen at *
      simp only [List.map_append, List.sum_append, List.map_cons, List.map_nil, List.sum_cons, List.sum_nil]
      omega

/-- C35 is false of the cut itself when it falls inside a slice: the right half starts again at the beginning of the slice, so some ids
are in both halves and others in none. Iterators with `|`, the only ones with slices to come, are not `Clone`, so they cannot be made
parallel. -/
theorem C35_split_at_fails : ∃ (a : Acc) (count : Nat), count ≤ a.followLen ∧ a.ids = [⟨1, 0⟩, ⟨2, 0⟩, ⟨3, 0⟩] ∧
    (a.splitAt count).1.ids = [⟨1, 0⟩] ∧ (a.splitAt count).2.ids = [⟨1, 0⟩, ⟨2, 0⟩] :=
  ⟨⟨[⟨0, 0⟩], [([⟨1, 0⟩, ⟨2, 0⟩, ⟨3, 0⟩], 3)]⟩, 1, by decide, rfl, rfl, rfl⟩

/-- C35. Splitting an iterator in any way (also one of which items were already taken) and running all parts gives,
from left to right, the items that running it would give. Queries with `|` cannot be iterated in parallel: the types do
not allow it. -/
theorem C35_splits_partial (r : Rnd) {st : Win V → Sto V} {q : Qry V} (hf : Fine st q) (hs : Sails r q)
    (hc : q.canCaptain = true) (ho : orFree q = true) :
    ∃ (it : It V) (items : List (EId × Out V)), iter r q = .ok it ∧ Exactly st q items ∧
      (∀ t : Splits, runAll (t.parts it) = .ok (items.map (·.2))) ∧
      ∀ ops, ∃ rs it', calls ops it = .ok (rs, it') ∧
        ∀ t : Splits, runAll (t.parts it') = .ok ((pulls ops items).2.map (·.2)) := by
  obtain ⟨it, p, ph, h1, h2, h3, h4, _⟩ := iter_inv r hf hs hc
  cases h4 ho
  refine ⟨it, _, h1, h3, fun t => ?_, fun ops => ?_⟩
  · rw [parts_ok t it p h2]; simp [chunks]
  · obtain ⟨it', h5, p', ph', h6, _, h7⟩ :=
      calls_ok ops it (chunks it p []) ⟨p, [], h2, (fun p hp => by cases hp), rfl⟩
    refine ⟨_, it', h5, fun t => ?_⟩
    have hch : chunks it p [] = [(chunks it p []).flatten] := by simp [chunks]
    obtain ⟨_, e2⟩ := pullsC_one ops (chunks it p []).flatten
    rw [← hch] at e2
    have hph : ph' = [] := calls_rest ops it p h2 h5 h6
    cases hph
    rw [parts_ok t it' p' h6]
    have := flatten_of_live (h7.trans e2)
    simp only [chunks, List.map_nil, List.flatten_cons, List.flatten_nil, List.append_nil] at this
    rw [this]
    simp [chunks]

example := C35_splits_partial demoR demoQ_fine demoQ_sails rfl rfl
example : withIter demoQ (fun it => runAll ((Splits.node (.node .leaf .leaf) .leaf).parts it)) = runFold demoQ ∧
    withIter demoQ (fun it => .ok ((Splits.node (.node .leaf .leaf) .leaf).parts it).length) = .ok 2 := ⟨rfl, rfl⟩

/-! ## C36 -/

/-- C36, queries without `|`: after any calls, `size_hint` gives bounds on the number of items that remain. -/
theorem C36_bounds_partial (r : Rnd) {st : Win V → Sto V} {q : Qry V} (hf : Fine st q) (hs : Sails r q)
    (hc : q.canCaptain = true) (ho : orFree q = true) :
    ∃ (it : It V) (items : List (EId × Out V)), iter r q = .ok it ∧ Exactly st q items ∧
      ∀ ops, ∃ rs it' lo hi, calls ops it = .ok (rs, it') ∧ it'.sizeHint = .ok (lo, hi) ∧
        lo ≤ (pulls ops items).2.length ∧ (pulls ops items).2.length ≤ hi := by
  obtain ⟨it, p, ph, h1, h2, h3, h4, _⟩ := iter_inv r hf hs hc
  cases h4 ho
  refine ⟨it, _, h1, h3, fun ops => ?_⟩
  obtain ⟨it', h5, h6⟩ := calls_ok ops it (chunks it p []) ⟨p, [], h2, (fun p hp => by cases hp), rfl⟩
  obtain ⟨lo, hi, h7, h8, h9, _⟩ := h6.sizeHint
  have hch : chunks it p [] = [(chunks it p []).flatten] := by simp [chunks]
  obtain ⟨_, e2⟩ := pullsC_one ops (chunks it p []).flatten
  rw [← hch] at e2
  have hl := congrArg List.length (flatten_of_live e2)
  simp only [List.flatten_cons, List.flatten_nil, List.append_nil] at hl
  exact ⟨_, it', lo, hi, h5, h7, by omega, by omega⟩

/-- C36 for `&a | &b`: the bounds hold when iteration starts, and after any calls if `b` is not empty. -/
theorem C36_or_partial (r : Rnd) {st : Win V → Sto V} {a b : Win V} (ha : Reads a (st a)) (hb : Reads b (st b)) :
    ∃ (it : It V) (items : List (EId × Out V)), iter r (.or (.view a) (.view b)) = .ok it ∧
      Exactly st (.or (.view a) (.view b)) items ∧
      (∃ lo hi, it.sizeHint = .ok (lo, hi) ∧ lo ≤ items.length ∧ items.length ≤ hi) ∧
      ((∃ e v, lookup (st b).rows e = some v) → ∀ ops, ∃ rs it' rest lo hi, calls ops it = .ok (rs, it') ∧
        it'.fold = .ok rest ∧ it'.sizeHint = .ok (lo, hi) ∧ lo ≤ rest.length ∧ rest.length ≤ hi) := by
  obtain ⟨it, p, ph, h1, h2, h3, _⟩ := iter_inv r (st := st) (q := .or (.view a) (.view b))
    (by simp only [Fine]; exact ⟨rfl, by simp [orFree], by simp [Qry.canCaptain], by simp [Qry.canSailor], ha, hb⟩)
    (by simp [Sails]) (by simp [Qry.canCaptain])
  obtain ⟨lo, hi, h7, h8, h9, _⟩ := sizeHint_ok h2
  refine ⟨it, _, h1, h3, ⟨lo, hi, h7, h8, h9⟩, fun hne ops => ?_⟩
  obtain ⟨it0, C, h1', hr, _⟩ := or_ready r ha hb hne
  rw [h1] at h1'
  cases h1'
  obtain ⟨it', h5, h6⟩ := calls_ok ops it C hr
  obtain ⟨lo, hi, h7, h8, h9, _⟩ := h6.sizeHint
  exact ⟨_, it', _, lo, hi, h5, h6.fold, h7, by rw [List.length_map]; exact h8, by rw [List.length_map]; exact h9⟩

/-- C36, a single view: the exact number of items that remain. -/
theorem C36_exact_partial (r : Rnd) {st : Win V → Sto V} {w : Win V} (hw : Reads w (st w)) :
    ∃ (it : It V) (items : List (EId × Out V)), iter r (.view w) = .ok it ∧ Exactly st (.view w) items ∧
      ∀ ops, ∃ rs it', calls ops it = .ok (rs, it') ∧
        it'.sizeHint = .ok ((pulls ops items).2.length, (pulls ops items).2.length) := by
  obtain ⟨it, p, ph, h1, h2, h3, h4, _⟩ := iter_inv r (st := st) (q := .view w) (by simpa only [Fine] using hw)
    (by simp only [Sails]) (by simp only [Qry.canCaptain])
  cases h4 (by simp only [orFree])
  refine ⟨it, _, h1, h3, fun ops => ?_⟩
  obtain ⟨it', h5, h6⟩ := calls_ok ops it (chunks it p []) ⟨p, [], h2, (fun p hp => by cases hp), rfl⟩
  obtain ⟨lo, hi, h7, h8, h9, h10⟩ := h6.sizeHint
  have hch : chunks it p [] = [(chunks it p []).flatten] := by simp [chunks]
  obtain ⟨_, e2⟩ := pullsC_one ops (chunks it p []).flatten
  rw [← hch] at e2
  have hl := congrArg List.length (flatten_of_live e2)
  simp only [List.flatten_cons, List.flatten_nil, List.append_nil] at hl
  have hx : it'.exact = true := by
    rw [calls_exact ops it h5]
    simp only [iter, Qry.intoShip, Except.ok.injEq] at h1
    rw [← h1]
    simp only [Ship.isExact]
  have := h10 hx
  refine ⟨_, it', h5, ?_⟩
  rw [h7]
  congr 2 <;> omega

example := C36_bounds_partial demoR demoQ_fine demoQ_sails rfl rfl
example := C36_or_partial demoR aW_reads bW_reads
example := C36_exact_partial demoR aW_reads
example : withIter (.tup [.view aW, .view bW]) It.sizeHint = .ok (0, 3) ∧ withIter (.view aW) It.sizeHint = .ok (3, 3) ∧
    withIter (.or (.view aW) (.view bW)) It.sizeHint = .ok (0, 7) := ⟨rfl, rfl, rfl⟩

end Verif.IterSpec
