import Verif.Lemmas.IterTuple

/-! # Lemmas: walking -/
namespace Verif.IterSpec
open StoSpec TrkSpec Iter
variable {V : Type}

/-! ## Items at positions -/

/-- The item at position `i` of a phase. -/
def itemAt (p : Ph V) (i : Nat) : Option (EId × Out V) := (p.1[i]?).bind fun e => (p.2 e).map fun o => (e, o)

/-- The items between two positions. -/
def seg (p : Ph V) (a b : Nat) : List (EId × Out V) := (List.range' a (b - a)).filterMap (itemAt p)

theorem span_eq (it : It V) : it.span = List.range' it.start (it.stop - it.start) := by
  unfold It.span; rw [List.range'_eq_map_range]

theorem seg_nil (p : Ph V) {a b : Nat} (h : b ≤ a) : seg p a b = [] := by
  unfold seg; rw [show b - a = 0 by omega]; rfl

theorem seg_front (p : Ph V) {a b : Nat} (h : a < b) : seg p a b = (itemAt p a).toList ++ seg p (a + 1) b := by
  unfold seg
  rw [show b - a = (b - (a + 1)) + 1 by omega, List.range'_succ, List.filterMap_cons]
  cases itemAt p a <;> rfl

theorem seg_split (p : Ph V) {a m b : Nat} (h1 : a ≤ m) (h2 : m ≤ b) : seg p a b = seg p a m ++ seg p m b := by
  unfold seg
  rw [← List.filterMap_append]
  congr 1
  rw [show b - a = (m - a) + (b - m) by omega, ← List.range'_append_1, show a + (m - a) = m by omega]

theorem seg_back (p : Ph V) {a b : Nat} (h : a < b) : seg p a b = seg p a (b - 1) ++ (itemAt p (b - 1)).toList := by
  rw [seg_split p (m := b - 1) (by omega) (by omega), seg_front p (a := b - 1) (by omega), seg_nil p (a := b - 1 + 1) (by omega),
    List.append_nil]

theorem seg_length_le (p : Ph V) (a b : Nat) : (seg p a b).length ≤ b - a := by
  unfold seg
  refine Nat.le_trans (List.length_filterMap_le _ _) ?_
  simp

theorem seg_all (p : Ph V) : seg p 0 p.1.length = p.items := by
  unfold seg Ph.items itemAt
  obtain ⟨l, f⟩ := p
  simp only
  rw [Nat.sub_zero, ← List.range_eq_range']
  have : l = (List.range l.length).filterMap (fun i => l[i]?) := by
    apply List.ext_getElem?
    intro i
    have h : (List.range l.length).filterMap (fun i => l[i]?) = l := by
      clear f i
      induction l with
      | nil => rfl
      | cons a l ih =>
        rw [List.length_cons, List.range_succ_eq_map, List.filterMap_cons]
        simp only [List.getElem?_cons_zero]
        congr 1
        rw [List.filterMap_map]
        exact ih
    rw [h]
  conv => rhs; rw [this]
  rw [List.filterMap_filterMap]

/-! ## The invariant of an iterator -/

structure Inv (it : It V) (p : Ph V) (ph : List (Ph V)) : Prop where
  slice : it.acc.slice = p.1
  rest : it.acc.rest = (ph.map fun p => (p.1, p.1.length)).reverse
  phases : Phases it.ship (p :: ph)
  exact : it.exact = it.ship.isExact
  le : it.start ≤ it.stop
  bound : it.stop ≤ p.1.length

theorem Inv.visit {it : It V} {p : Ph V} {ph : List (Ph V)} (h : Inv it p ph) {i : Nat} (hi : i < p.1.length) :
    ∃ e, p.1[i]? = some e ∧ it.acc.get i = .ok e ∧ it.visit i = .ok (p.2 e) := by
  refine ⟨p.1[i], List.getElem?_eq_getElem hi, ?_, ?_⟩
  · unfold Acc.get vecGetU; rw [h.slice, List.getElem?_eq_getElem hi]
  · have hs := List.getElem?_eq_getElem hi
    unfold It.visit
    rw [h.exact]
    cases hx : it.ship.isExact with
    | true =>
      rw [if_pos rfl]
      obtain ⟨x, h1, h2, _⟩ := h.phases.1.gives hx i _ hs
      rw [h2, h1]; rfl
    | false =>
      rw [if_neg (by simp)]
      have : it.acc.get i = .ok p.1[i] := by unfold Acc.get vecGetU; rw [h.slice, hs]
      rw [this]
      simp only
      rcases h.phases.1.sees i _ hs with ⟨h1, h2⟩ | ⟨ix, x, h1, h2, h3⟩
      · rw [h2, h1]
      · rw [h2, h1]; simp only [h3]; rfl

theorem itemAt_eq {p : Ph V} {i : Nat} {e : EId} (h : p.1[i]? = some e) : itemAt p i = (p.2 e).map fun o => (e, o) := by
  unfold itemAt; rw [h]; rfl

theorem visits_ok {it : It V} {p : Ph V} {ph : List (Ph V)} (h : Inv it p ph) : ∀ (ps : List Nat),
    (∀ i ∈ ps, i < p.1.length) → it.visits ps = .ok ((ps.filterMap (itemAt p)).map (·.2))
  | [], _ => rfl
  | i :: ps, hp => by
    obtain ⟨e, h1, _, h3⟩ := h.visit (hp i (by simp))
    simp only [It.visits, h3]
    rw [visits_ok h ps (fun j hj => hp j (by simp [hj])), List.filterMap_cons, itemAt_eq h1]
    cases p.2 e <;> rfl

theorem visitsId_ok {it : It V} {p : Ph V} {ph : List (Ph V)} (h : Inv it p ph) : ∀ (ps : List Nat),
    (∀ i ∈ ps, i < p.1.length) → it.visitsId ps = .ok (ps.filterMap (itemAt p))
  | [], _ => rfl
  | i :: ps, hp => by
    obtain ⟨e, h1, h2, h3⟩ := h.visit (hp i (by simp))
    simp only [It.visitsId, h3, h2]
    rw [visitsId_ok h ps (fun j hj => hp j (by simp [hj])), List.filterMap_cons, itemAt_eq h1]
    cases p.2 e <;> rfl

/-- The iterator at the beginning of the next phase. -/
def nextIt (it : It V) (p : Ph V) (ph : List (Ph V)) : It V :=
  { it with acc := ⟨p.1, (ph.map fun p => (p.1, p.1.length)).reverse⟩, start := 0, stop := p.1.length, ship := it.ship.nextSlice }

theorem nextIt_inv {it : It V} {p : Ph V} {ph : List (Ph V)} (hx : it.exact = it.ship.isExact)
    (hp : Phases it.ship.nextSlice (p :: ph)) : Inv (nextIt it p ph) p ph :=
  ⟨rfl, rfl, hp, by rw [show (nextIt it p ph).exact = it.exact from rfl, hx]; exact (isExact_next _).symm, Nat.zero_le _, Nat.le_refl _⟩

/-- Either order of walking a slice. -/
def turned (back : Bool) (l : List Nat) : List Nat := if back then l.reverse else l
def turnedL {α : Type} (back : Bool) (l : List α) : List α := if back then l.reverse else l

theorem turned_filterMap (back : Bool) (l : List Nat) (p : Ph V) :
    (turned back l).filterMap (itemAt p) = turnedL back (l.filterMap (itemAt p)) := by
  cases back
  · rfl
  · exact List.filterMap_reverse

theorem mem_turned {back : Bool} {l : List Nat} {i : Nat} : i ∈ turned back l ↔ i ∈ l := by
  cases back <;> simp [turned]

theorem foldRest_ok (back : Bool) (turn : List Nat → List Nat) (ht : turn = turned back) : ∀ (ph : List (Ph V)) (it : It V),
    it.exact = it.ship.isExact → Phases it.ship.nextSlice ph →
    it.foldRest turn (ph.map fun p => (p.1, p.1.length)) =
      .ok ((ph.flatMap fun p => turnedL back p.items).map (·.2))
  | [], _, _, _ => rfl
  | p :: ph, it, hx, hp => by
    have hinv := nextIt_inv hx hp
    have hv := visits_ok hinv (turn (List.range p.1.length)) (by
      intro i hi; subst ht; rw [mem_turned] at hi; simpa using hi)
    have hr := foldRest_ok back turn ht ph (nextIt it p ph) hinv.exact hp.2
    simp only [List.map_cons, It.foldRest]
    show (match (nextIt it p ph).visits (turn (List.range p.1.length)) with | .error f => _ | .ok os => _) = _
    rw [hv]
    simp only
    show ((nextIt it p ph).foldRest turn _).map _ = _
    rw [hr, ht, turned_filterMap]
    have : (List.range p.1.length).filterMap (itemAt p) = p.items := by
      rw [← seg_all, seg, Nat.sub_zero, List.range_eq_range']
    rw [this]
    simp [Except.map]

theorem foldRestId_ok (back : Bool) (turn : List Nat → List Nat) (ht : turn = turned back) : ∀ (ph : List (Ph V)) (it : It V),
    it.exact = it.ship.isExact → Phases it.ship.nextSlice ph →
    it.foldRestId true turn (ph.map fun p => (p.1, p.1.length)) =
      .ok (ph.flatMap fun p => turnedL back p.items)
  | [], _, _, _ => rfl
  | p :: ph, it, hx, hp => by
    have hinv := nextIt_inv hx hp
    have hv := visitsId_ok hinv (turn (List.range p.1.length)) (by
      intro i hi; subst ht; rw [mem_turned] at hi; simpa using hi)
    have hr := foldRestId_ok back turn ht ph (nextIt it p ph) hinv.exact hp.2
    simp only [List.map_cons, It.foldRestId]
    show (match (nextIt it p ph).visitsId (turn (List.range p.1.length)) with | .error f => _ | .ok os => _) = _
    rw [hv]
    simp only
    show ((nextIt it p ph).foldRestId true turn _).map _ = _
    rw [hr, ht, turned_filterMap]
    have : (List.range p.1.length).filterMap (itemAt p) = p.items := by
      rw [← seg_all, seg, Nat.sub_zero, List.range_eq_range']
    rw [this]
    simp [Except.map]

/-- What remains. -/
def chunks (it : It V) (p : Ph V) (ph : List (Ph V)) : List (List (EId × Out V)) :=
  seg p it.start it.stop :: ph.map Ph.items

theorem Inv.span_lt {it : It V} {p : Ph V} {ph : List (Ph V)} (h : Inv it p ph) : ∀ i ∈ it.span, i < p.1.length := by
  intro i hi
  rw [span_eq, List.mem_range'_1] at hi
  have := h.bound
  omega

theorem fold_ok {it : It V} {p : Ph V} {ph : List (Ph V)} (h : Inv it p ph) :
    it.fold = .ok ((chunks it p ph).flatten.map (·.2)) := by
  unfold It.fold
  rw [if_neg (by have := h.le; omega), visits_ok h _ h.span_lt]
  simp only
  have hr := foldRest_ok false id rfl ph it h.exact h.phases.2
  rw [h.rest, List.reverse_reverse, hr]
  simp only [chunks, List.flatten_cons, List.map_append, span_eq, Except.map, turnedL]
  rw [List.flatMap_def]
  rfl

theorem rfold_ok {it : It V} {p : Ph V} {ph : List (Ph V)} (h : Inv it p ph) :
    it.rfold = .ok (((chunks it p ph).map List.reverse).flatten.map (·.2)) := by
  unfold It.rfold
  rw [if_neg (by have := h.le; omega), visits_ok h _ (by intro i hi; exact h.span_lt i (by simpa using hi))]
  simp only
  have hr := foldRest_ok true List.reverse rfl ph it h.exact h.phases.2
  rw [h.rest, List.reverse_reverse, hr]
  simp only [chunks, List.map_cons, List.flatten_cons, List.map_append, span_eq, Except.map, turnedL, List.filterMap_reverse]
  rw [List.flatMap_def, List.map_map]
  rfl

theorem rfoldId_ok {it : It V} {p : Ph V} {ph : List (Ph V)} (h : Inv it p ph) :
    it.rfoldId = .ok ((chunks it p ph).map List.reverse).flatten := by
  unfold It.rfoldId
  rw [if_neg (by have := h.le; omega), visitsId_ok h _ (by intro i hi; exact h.span_lt i (by simpa using hi))]
  simp only
  have hr := foldRestId_ok true List.reverse rfl ph it h.exact h.phases.2
  rw [h.rest, List.reverse_reverse, hr]
  simp only [chunks, List.map_cons, List.flatten_cons, span_eq, Except.map, turnedL, List.filterMap_reverse]
  rw [List.flatMap_def, List.map_map]
  rfl

theorem foldId_ok {it : It V} {p : Ph V} (h : Inv it p []) : it.foldId = .ok (seg p it.start it.stop) := by
  unfold It.foldId
  rw [if_neg (by have := h.le; omega), visitsId_ok h _ h.span_lt, h.rest]
  simp only [span_eq, List.map_nil, List.reverse_nil, It.foldRestId, Except.map, List.append_nil]
  rfl

/-! ## One step at a time -/

/-- Take from the front of the first chunk that has something. -/
def pullFront {α : Type} (C : List (List α)) : Option α × List (List α) :=
  match C.dropWhile List.isEmpty with
  | [] => (none, [])
  | c :: C => (c.head?, c.tail :: C)

/-- Take from the back of the first chunk that has something. -/
def pullBack {α : Type} (C : List (List α)) : Option α × List (List α) :=
  match C.dropWhile List.isEmpty with
  | [] => (none, [])
  | c :: C => (c.getLast?, c.dropLast :: C)

def live {α : Type} (C : List (List α)) : List (List α) := C.dropWhile List.isEmpty

theorem live_nil_cons {α : Type} (C : List (List α)) : live ([] :: C) = live C := rfl

theorem pullFront_live {α : Type} {C D : List (List α)} (h : live C = live D) : pullFront C = pullFront D := by
  unfold pullFront; unfold live at h; rw [h]
theorem pullBack_live {α : Type} {C D : List (List α)} (h : live C = live D) : pullBack C = pullBack D := by
  unfold pullBack; unfold live at h; rw [h]
theorem pullFront_cons {α : Type} {a : α} {c : List α} {C : List (List α)} : pullFront ((a :: c) :: C) = (some a, c :: C) := rfl
theorem pullBack_concat {α : Type} {a : α} {c : List α} {C : List (List α)} : pullBack ((c ++ [a]) :: C) = (some a, c :: C) := by
  unfold pullBack
  have : ((c ++ [a]) :: C).dropWhile List.isEmpty = (c ++ [a]) :: C := by
    rw [List.dropWhile_cons, if_neg (by simp)]
  rw [this]
  simp

/-- No phase to come is empty: true of every query without `|`. -/
def Stocked (ph : List (Ph V)) : Prop := ∀ p ∈ ph, p.1 ≠ []

/-- What one call does. `fin` is the position of the item just yielded. -/
def Done (r : Option (EId × Out V) × List (List (EId × Out V))) (fin : It V → Nat)
    (x : Res (Option (Out V) × It V)) : Prop :=
  ∃ it' p' ph', x = .ok (r.1.map (·.2), it') ∧ Inv it' p' ph' ∧ Stocked ph' ∧ live (chunks it' p' ph') = live r.2 ∧
    (∀ e o, r.1 = some (e, o) → it'.acc.get (fin it') = .ok e)

/-- Enough fuel. -/
def need (it : It V) (ph : List (Ph V)) : Nat := (it.stop - it.start) + (ph.map fun p => p.1.length + 1).sum

theorem refill_rest {it : It V} {p : Ph V} {p' : Ph V} {ph : List (Ph V)} (h : Inv it p (p' :: ph))
    (he : it.start = it.stop) : it.refill = some (nextIt it p' ph) := by
  unfold It.refill
  rw [if_pos he]
  unfold Acc.nextSlice
  rw [h.rest]
  simp only [List.map_cons, List.reverse_cons, List.getLast?_append, List.getLast?_singleton, Option.some_or, List.dropLast_concat]
  rfl

theorem refill_none {it : It V} {p : Ph V} (h : Inv it p []) (he : it.start = it.stop) : it.refill = none := by
  unfold It.refill
  rw [if_pos he]
  unfold Acc.nextSlice
  rw [h.rest]; rfl

theorem refill_same {it : It V} (he : it.start ≠ it.stop) : it.refill = some it := by
  unfold It.refill; rw [if_neg he]

theorem next_ok : ∀ (n : Nat) (it : It V) (p : Ph V) (ph : List (Ph V)), Inv it p ph → Stocked ph → need it ph < n →
    Done (pullFront (chunks it p ph)) (fun it' => it'.start - 1) (It.nextF n it)
  | 0, _, _, _, _, _, hn => by omega
  | n + 1, it, p, ph, h, hs, hn => by
    have key : ∀ (it : It V) (p : Ph V) (ph : List (Ph V)), Inv it p ph → Stocked ph → it.start < it.stop → need it ph < n + 1 →
        Done (pullFront (chunks it p ph)) (fun it' => it'.start - 1)
          (match it.visit it.start with
            | .error f => .error f
            | .ok (some o) => .ok (some o, { it with start := it.start + 1 })
            | .ok none => It.nextF n { it with start := it.start + 1 }) := by
      intro it p ph h hs hlt hn
      have hb := h.bound
      obtain ⟨e, h1, h2, h3⟩ := h.visit (i := it.start) (by omega)
      have hinv : Inv { it with start := it.start + 1 } p ph :=
        ⟨h.slice, h.rest, h.phases, h.exact, hlt, h.bound⟩
      rw [h3]
      cases ho : p.2 e with
      | none =>
        simp only
        have hneed : need { it with start := it.start + 1 } ph < n := by
          unfold need at hn ⊢; simp only at hn ⊢; omega
        have ih := next_ok n _ p ph hinv hs hneed
        have : chunks it p ph = chunks { it with start := it.start + 1 } p ph := by
          unfold chunks
          rw [seg_front p hlt, itemAt_eq h1, ho]; rfl
        rw [this]; exact ih
      | some o =>
        simp only
        have : chunks it p ph = ((e, o) :: seg p (it.start + 1) it.stop) :: ph.map Ph.items := by
          unfold chunks
          rw [seg_front p hlt, itemAt_eq h1, ho]; rfl
        rw [this, pullFront_cons]
        refine ⟨_, p, ph, rfl, hinv, hs, rfl, ?_⟩
        intro e' o' heq
        simp only [Option.some.injEq, Prod.mk.injEq] at heq
        obtain ⟨rfl, rfl⟩ := heq
        show it.acc.get (it.start + 1 - 1) = _
        rw [Nat.add_sub_cancel]; exact h2
    simp only [It.nextF]
    by_cases he : it.start = it.stop
    · have hempty : chunks it p ph = [] :: ph.map Ph.items := by
        unfold chunks; rw [seg_nil p (by omega)]
      cases ph with
      | nil =>
        rw [refill_none h he, hempty]
        refine ⟨it, p, [], rfl, h, hs, ?_, by intro e o h; cases h⟩
        rw [hempty]; rfl
      | cons p' ph =>
        rw [refill_rest h he]
        simp only
        have hinv := nextIt_inv (p := p') (ph := ph) h.exact h.phases.2
        have hne : p'.1 ≠ [] := hs p' (by simp)
        have hlt : (nextIt it p' ph).start < (nextIt it p' ph).stop := by
          show 0 < p'.1.length
          exact List.length_pos_iff.2 hne
        have hneed : need (nextIt it p' ph) ph < n + 1 := by
          unfold need at hn ⊢
          simp only [nextIt, List.map_cons, List.sum_cons] at hn ⊢
          omega
        have := key _ p' ph hinv (fun q hq => hs q (by simp [hq])) hlt hneed
        have hc : pullFront (chunks it p (p' :: ph)) = pullFront (chunks (nextIt it p' ph) p' ph) := by
          apply pullFront_live
          rw [hempty]
          show live (p'.items :: _) = live (seg p' 0 p'.1.length :: _)
          rw [seg_all]
        rw [hc]; exact this
    · rw [refill_same he]
      have := h.le
      exact key it p ph h hs (by omega) hn

theorem nextBack_ok : ∀ (n : Nat) (it : It V) (p : Ph V) (ph : List (Ph V)), Inv it p ph → Stocked ph → need it ph < n →
    Done (pullBack (chunks it p ph)) (fun it' => it'.stop) (It.nextBackF n it)
  | 0, _, _, _, _, _, hn => by omega
  | n + 1, it, p, ph, h, hs, hn => by
    have key : ∀ (it : It V) (p : Ph V) (ph : List (Ph V)), Inv it p ph → Stocked ph → it.start < it.stop → need it ph < n + 1 →
        Done (pullBack (chunks it p ph)) (fun it' => it'.stop)
          (if it.stop = 0 then .error .panic
          else match it.visit (it.stop - 1) with
            | .error f => .error f
            | .ok (some o) => .ok (some o, { it with stop := it.stop - 1 })
            | .ok none => It.nextBackF n { it with stop := it.stop - 1 }) := by
      intro it p ph h hs hlt hn
      have hb := h.bound
      rw [if_neg (by omega)]
      obtain ⟨e, h1, h2, h3⟩ := h.visit (i := it.stop - 1) (by omega)
      have hinv : Inv { it with stop := it.stop - 1 } p ph :=
        ⟨h.slice, h.rest, h.phases, h.exact, by show it.start ≤ it.stop - 1; omega, by show it.stop - 1 ≤ _; omega⟩
      rw [h3]
      cases ho : p.2 e with
      | none =>
        simp only
        have hneed : need { it with stop := it.stop - 1 } ph < n := by
          unfold need at hn ⊢; simp only at hn ⊢; omega
        have ih := nextBack_ok n _ p ph hinv hs hneed
        have : chunks it p ph = chunks { it with stop := it.stop - 1 } p ph := by
          unfold chunks
          rw [seg_back p hlt, itemAt_eq h1, ho]; simp
        rw [this]; exact ih
      | some o =>
        simp only
        have : chunks it p ph = (seg p it.start (it.stop - 1) ++ [(e, o)]) :: ph.map Ph.items := by
          unfold chunks
          rw [seg_back p hlt, itemAt_eq h1, ho]; rfl
        rw [this, pullBack_concat]
        refine ⟨_, p, ph, rfl, hinv, hs, rfl, ?_⟩
        intro e' o' heq
        simp only [Option.some.injEq, Prod.mk.injEq] at heq
        obtain ⟨rfl, rfl⟩ := heq
        exact h2
    simp only [It.nextBackF]
    by_cases he : it.start = it.stop
    · have hempty : chunks it p ph = [] :: ph.map Ph.items := by
        unfold chunks; rw [seg_nil p (by omega)]
      cases ph with
      | nil =>
        rw [refill_none h he, hempty]
        refine ⟨it, p, [], rfl, h, hs, ?_, by intro e o h; cases h⟩
        rw [hempty]; rfl
      | cons p' ph =>
        rw [refill_rest h he]
        simp only
        have hinv := nextIt_inv (p := p') (ph := ph) h.exact h.phases.2
        have hne : p'.1 ≠ [] := hs p' (by simp)
        have hlt : (nextIt it p' ph).start < (nextIt it p' ph).stop := by
          show 0 < p'.1.length
          exact List.length_pos_iff.2 hne
        have hneed : need (nextIt it p' ph) ph < n + 1 := by
          unfold need at hn ⊢
          simp only [nextIt, List.map_cons, List.sum_cons] at hn ⊢
          omega
        have := key _ p' ph hinv (fun q hq => hs q (by simp [hq])) hlt hneed
        have hc : pullBack (chunks it p (p' :: ph)) = pullBack (chunks (nextIt it p' ph) p' ph) := by
          apply pullBack_live
          rw [hempty]
          show live (p'.items :: _) = live (seg p' 0 p'.1.length :: _)
          rw [seg_all]
        rw [hc]; exact this
    · rw [refill_same he]
      have := h.le
      exact key it p ph h hs (by omega) hn

theorem need_lt_fuel {it : It V} {p : Ph V} {ph : List (Ph V)} (h : Inv it p ph) : need it ph < it.fuel := by
  unfold need It.fuel
  have : ((it.acc.rest.map fun x => x.2 + x.1.length + 1).sum) ≥ (ph.map fun p => p.1.length + 1).sum := by
    rw [h.rest, List.map_reverse, List.sum_reverse, List.map_map]
    clear h
    induction ph with
    | nil => simp
    | cons p ph ih =>
      simp only [List.map_cons, List.sum_cons, Function.comp_def] at ih ⊢
      omega
  omega

/-! ## Starting -/

/-- `it` is an iterator with the items of the query still to be yielded, in the chunks `C`. -/
def Ready (it : It V) (C : List (List (EId × Out V))) : Prop :=
  ∃ p ph, Inv it p ph ∧ Stocked ph ∧ live (chunks it p ph) = live C

theorem iter_inv (r : Rnd) {st : Win V → Sto V} {q : Qry V} (hf : Fine st q) (hs : Sails r q) (hc : q.canCaptain = true) :
    ∃ it p ph, iter r q = .ok it ∧ Inv it p ph ∧ Exactly st q (chunks it p ph).flatten ∧ (orFree q = true → ph = []) ∧
      it.start = 0 ∧ it.stop = p.1.length := by
  obtain ⟨⟨s, n, acc⟩, h1, _, h3⟩ := built_ok r st q hf hs
  obtain ⟨p, ph, hcap, hor⟩ := h3 hc
  refine ⟨⟨s, acc, s.isExact, 0, n⟩, p, ph, ?_, ⟨hcap.slice, hcap.rest, hcap.phases, rfl, Nat.zero_le _, Nat.le_of_eq hcap.len⟩,
    ?_, hor, rfl, hcap.len⟩
  · unfold iter; rw [h1]
  · have := hcap.exact
    have hch : (chunks (⟨s, acc, s.isExact, 0, n⟩ : It V) p ph).flatten = (p :: ph).flatMap Ph.items := by
      unfold chunks
      simp only
      have hl : n = p.1.length := hcap.len
      rw [hl, seg_all, List.flatMap_def]; rfl
    rw [hch]; exact this

end Verif.IterSpec
