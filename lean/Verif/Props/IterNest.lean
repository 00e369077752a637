import Verif.Lemmas.IterNest
import Verif.Lemmas.IterSteps
import Verif.Props.IterWorld

/-!
# `World::iter` with one component and with tuples in tuples: C29, C36
-/
namespace Verif.IterSpec
open StoSpec TrkSpec Iter
open SparseSet (Cell)
variable {V : Type}

/-- C29 for `World::iter` with any argument of up to 8192 components, tuples in tuples included, and with the arithmetic
of the code: building the iterator does not panic; running it, from the front, from the back or from both ends in any
order, yields each matching entity exactly once. Missing: the hypothesis `hb`, as in `C29_world_iter_partial`. -/
theorem C29_world_nested_partial {st : Win V → Sto V} {q : WQ V} (hs : Solid q) (hl : (viewsOf q).length ≤ 2 ^ 13)
    (hr : ∀ v ∈ viewsOf q, Reads (Win.ofView v) (st (Win.ofView v)))
    (hb : ∀ v ∈ viewsOf q, ∀ u ∈ viewsOf q, ∀ e x, lookup (st (Win.ofView v)).rows e = some x →
      (e.bucket < u.set.dense.length ↔ e.bucket < u.set.sparse.length)) :
    ∃ (it : It V) (items : List (EId × Out V)), q.run f32 = .ok it ∧
      ((items.map (·.1)).Nodup ∧ ∀ e o, (e, o) ∈ items ↔ wItem st e q = some o) ∧
      it.fold = .ok (items.map (·.2)) ∧ it.foldId = .ok items ∧ it.rfold = .ok (items.reverse.map (·.2)) ∧
      ∀ ops, ∃ it', calls ops it = .ok ((pulls ops items).1.map (·.map (·.2)), it') ∧
        it'.fold = .ok ((pulls ops items).2.map (·.2)) := by
  have hfit : ∀ v ∈ viewsOf q, ∀ e ∈ v.set.dense, Fits (viewsOf q) e := by
    intro v hv e he
    obtain ⟨L, hL⟩ := (hr v hv).looks
    obtain ⟨i, hi⟩ := List.mem_iff_getElem?.1 he
    obtain ⟨c, hc1, hc2⟩ := hL.at_pos hi
    have hrow := hL.row i c hc1
    rw [hc2] at hrow
    have hlook : lookup (st (Win.ofView v)).rows e = some c.toRow.val := by rw [← lookup_rowAt, hrow]; rfl
    refine ⟨hL.valid e he, fun u hu => ?_⟩
    have := hb v hv u hu e _ hlook
    unfold Win.indexOf Win.sparseIndex Win.ofOwned Win.ofView
    simp only
    by_cases hh : e.bucket < u.set.sparse.length
    · rw [if_pos (this.2 hh), if_pos hh]
    · rw [if_neg (fun h => hh (this.1 h)), if_neg hh]
  obtain ⟨⟨s, n, acc⟩, S, h1, h2, _⟩ := wbuilt q hs hr hl hfit
  obtain ⟨_, hlen, hacc, hph, hall⟩ := h2
  simp only at hlen hacc
  subst hlen hacc
  have hinv : Inv (⟨s, ⟨S, []⟩, s.isExact, 0, S.length⟩ : It V) (S, fun e => wItem st e q) [] :=
    ⟨rfl, rfl, ⟨hph, trivial⟩, rfl, Nat.zero_le _, Nat.le_refl _⟩
  have hseg : seg (S, fun e => wItem st e q) 0 S.length = Ph.items (S, fun e => wItem st e q) :=
    seg_all (S, fun e => wItem st e q)
  have hch : chunks (⟨s, ⟨S, []⟩, s.isExact, 0, S.length⟩ : It V) (S, fun e => wItem st e q) [] =
      [Ph.items (S, fun e => wItem st e q)] := by
    unfold chunks
    simp only [List.map_nil]
    rw [hseg]
  refine ⟨⟨s, ⟨S, []⟩, s.isExact, 0, S.length⟩, Ph.items (S, fun e => wItem st e q), by simp only [WQ.run, h1],
    ⟨Ph.nodup_ids hph.nodup, fun e o => ?_⟩, ?_, ?_, ?_, fun ops => ?_⟩
  · rw [Ph.mem_items]
    exact ⟨fun h => h.2, fun h => ⟨hall e o h, h⟩⟩
  · have := fold_ok hinv
    rw [hch] at this
    simpa using this
  · rw [foldId_ok hinv, hseg]
  · have := rfold_ok hinv
    rw [hch] at this
    simpa using this
  · obtain ⟨it', h5, h6⟩ := calls_ok ops _ _ ⟨_, [], hinv, (fun p hp => by cases hp), rfl⟩
    rw [hch] at h5 h6
    obtain ⟨e1, e2⟩ := pullsC_one ops (Ph.items (S, fun e => wItem st e q))
    refine ⟨it', ?_, ?_⟩
    · rw [h5, e1]
    · rw [h6.fold, flatten_of_live e2]
      simp

/-- C29 and C36 for `World::iter` with one component, alone or in a tuple of one: no hypothesis is missing, and the size
announced is exact. -/
theorem C29_world_alone {st : Win V → Sto V} {v : Tracking.View V} (hr : Reads (Win.ofView v) (st (Win.ofView v))) (r : Rnd) :
    ∃ (it it1 : It V) (items : List (EId × V)), (WQ.one v).run r = .ok it ∧ (WQ.tup [.one v]).run r = .ok it1 ∧
      ((items.map (·.1)).Nodup ∧ ∀ e x, (e, x) ∈ items ↔ lookup (st (Win.ofView v)).rows e = some x) ∧
      it.fold = .ok (items.map fun p => .comp p.2) ∧ it1.fold = .ok (items.map fun p => .tup [.comp p.2]) ∧
      it.sizeHint = .ok (items.length, items.length) ∧ it1.sizeHint = .ok (items.length, items.length) := by
  obtain ⟨L, hL⟩ := hr.looks
  have hlook : ∀ (i : Nat) (c : Cell V), L[i]? = some c → lookup (st (Win.ofView v)).rows c.id = some c.val := by
    intro i c hc
    rw [← lookup_rowAt, hL.row i c hc]; rfl
  have hdense : v.set.dense = L.map (·.id) := hL.dense
  have hlen : v.set.dense.length = L.length := by rw [hdense, List.length_map]
  have hvis : ∀ (it : It V) (f : V → Out V), (∀ (i : Nat) (c : Cell V), L[i]? = some c → it.visit i = .ok (some (f c.val))) →
      ∀ (n a : Nat), a + n ≤ L.length → it.visits (List.range' a n) = .ok (((L.drop a).take n).map fun c => f c.val) := by
    intro it f h n
    induction n with
    | zero => intro a _; simp only [List.range'_zero, It.visits, List.take_zero, List.map_nil]
    | succ n ih =>
      intro a ha
      have hlt : a < L.length := by omega
      rw [List.range'_succ]
      simp only [It.visits]
      rw [h a L[a] (List.getElem?_eq_getElem hlt), ih (a + 1) (by omega)]
      rw [List.drop_eq_getElem_cons hlt, List.take_succ_cons, List.map_cons]
      rfl
  have hfold : ∀ (s : Ship V) (f : V → Out V), s.isExact = true →
      (∀ (i : Nat) (c : Cell V), L[i]? = some c → s.captainData i = .ok (f c.val)) →
      (⟨s, ⟨v.set.dense, []⟩, s.isExact, 0, v.set.dense.length⟩ : It V).fold = .ok ((L.map fun c => (c.id, c.val)).map fun p => f p.2) ∧
      (⟨s, ⟨v.set.dense, []⟩, s.isExact, 0, v.set.dense.length⟩ : It V).sizeHint =
        .ok ((L.map fun c => (c.id, c.val)).length, (L.map fun c => (c.id, c.val)).length) := by
    intro s f hx hs
    refine ⟨?_, ?_⟩
    · unfold It.fold
      rw [span_eq]
      simp only [Nat.not_lt_zero, if_false, Nat.sub_zero, List.reverse_nil, It.foldRest]
      rw [hvis _ f (fun i c hc => by
        unfold It.visit
        simp only [hx, if_true]
        rw [hs i c hc]; rfl) v.set.dense.length 0 (by omega)]
      simp only [List.drop_zero, hlen, List.take_length, Except.map, List.append_nil, List.map_map]
      rfl
    · unfold It.sizeHint
      simp only [Acc.followLen, List.map_nil, List.sum_nil, Nat.not_lt_zero, if_false, Nat.sub_zero, Nat.add_zero, hx,
        if_true, List.length_map, hlen]
  have hd : ∀ (i : Nat) (c : Cell V), L[i]? = some c → (Win.ofOwned v).data i = .ok c.val := fun i c hc => hL.data i c hc
  have hlt : (Win.ofOwned v).set.dense.length < usizeMax := hr.short
  obtain ⟨a1, a2⟩ := hfold (.view (Win.ofOwned v)) .comp rfl (fun i c hc => by
    simp only [Ship.captainData, hd i c hc]; rfl)
  obtain ⟨b1, b2⟩ := hfold (.mixed [.view (Win.ofOwned v)] (some 0)) (fun x => .tup [.comp x]) rfl (fun i c hc => by
    simp only [Ship.captainData, Ship.captainDatas, hd i c hc]; rfl)
  refine ⟨_, ⟨.mixed [.view (Win.ofOwned v)] (some 0), ⟨v.set.dense, []⟩, (Ship.mixed [.view (Win.ofOwned v)] (some 0)).isExact, 0,
    v.set.dense.length⟩, L.map fun c => (c.id, c.val), by simp only [WQ.run, WQ.ship], ?_, ⟨?_, ?_⟩, a1, b1, a2, b2⟩
  · have hfew : WQ.fewest r [(.view (Win.ofOwned v) : Ship V)] 0 none usizeMax = some 0 := by
      unfold WQ.fewest
      exact if_pos (by simp only [Ship.sailTime]; exact hlt)
    simp only [WQ.run, WQ.ship, WQ.ships, Except.map, List.map_cons, List.map_nil, Ship.sailOvers, Ship.sailOver, Bool.or_false,
      Bool.false_eq_true, if_false, hfew]
    rfl
  · rw [List.map_map, show ((fun x : EId × V => x.1) ∘ fun c : Cell V => (c.id, c.val)) = fun c => c.id from rfl, ← hdense]
    exact hL.nodup
  · intro e x
    rw [List.mem_map]
    constructor
    · rintro ⟨c, hc, h⟩
      obtain ⟨i, hi⟩ := List.mem_iff_getElem?.1 hc
      injection h with h1 h2
      subst h1 h2
      exact hlook i c hi
    · intro h
      have h' := h
      rw [← lookup_rowAt, Option.map_eq_some_iff] at h'
      obtain ⟨row, hrow, _⟩ := h'
      have hm : e ∈ v.set.dense := hL.mem e row hrow
      rw [hdense, List.mem_map] at hm
      obtain ⟨c, hc, rfl⟩ := hm
      obtain ⟨i, hi⟩ := List.mem_iff_getElem?.1 hc
      rw [hlook i c hi] at h
      exact ⟨c, hc, by rw [Option.some.inj h]⟩

theorem ships_ones (r : Rnd) : ∀ (vs : List (Tracking.View V)), WQ.ships r (vs.map .one) = .ok ((vs.map Win.ofOwned).map viewPart)
  | [] => by simp only [List.map_nil, WQ.ships]
  | v :: vs => by
    simp only [List.map_cons, WQ.ships, WQ.ship, ships_ones r vs, Except.map]
    rfl

theorem fewest_views (r : Rnd) : ∀ (ws : List (Win V)) (i : Nat) (best : Option Nat) (least : Nat),
    WQ.fewest r (ws.map .view) i best least = worldShip.pick ws i best least
  | [], _, _, _ => rfl
  | w :: ws, i, best, least => by
    simp only [List.map_cons, WQ.fewest, worldShip.pick]
    have h1 : (Ship.view w).sailTime r = w.set.dense.length := by simp only [Ship.sailTime]
    by_cases h : w.set.dense.length < least
    · rw [if_pos h, if_pos (by rw [h1]; exact h), h1, fewest_views r ws]
    · rw [if_neg h, if_neg (by rw [h1]; exact h), fewest_views r ws]

theorem sailOvers_views (r : Rnd) : ∀ (ws : List (Win V)), Ship.sailOvers r (ws.map .view) = false
  | [] => by simp only [List.map_nil, Ship.sailOvers]
  | w :: ws => by simp only [List.map_cons, Ship.sailOvers, Ship.sailOver, sailOvers_views r ws, Bool.or_false]

/-- A tuple of components is the iterator of `C29_world_iter_partial` and `C101_world_hint`. -/
theorem C29_world_flat (r : Rnd) (vs : List (Tracking.View V)) : (WQ.tup (vs.map .one)).run r = .ok (worldIter vs) := by
  have hm : ((vs.map Win.ofOwned).map viewPart).map (·.1) = (vs.map (Win.ofOwned (V := V))).map .view := by
    rw [List.map_map]; rfl
  simp only [WQ.run, WQ.ship, ships_ones, hm, sailOvers_views, Bool.false_eq_true, if_false, fewest_views]
  rfl

/-- `((A,), (B, A))`, `B` with four components and `A` with three. -/
def nestQ : WQ Nat := .tup [.tup [.one aV], .tup [.one bV, .one aV]]

/-- The hypotheses are met by a query with tuples in a tuple. -/
example := C29_world_nested_partial (st := demoSt) (q := nestQ)
  (by simp only [nestQ, Solid, Solids]; simp)
  (by decide)
  (by
    intro v hv
    have : v = aV ∨ v = bV := by
      simp only [nestQ, viewsOf, viewsOfs, List.append_nil, List.cons_append, List.nil_append, List.mem_cons,
        List.not_mem_nil, or_false] at hv
      rcases hv with h | h | h <;> simp [h]
    rcases this with rfl | rfl
    · exact aW_reads
    · exact bW_reads)
  (by
    intro v hv u hu e x hx
    have mem : ∀ v ∈ viewsOf nestQ, v = aV ∨ v = bV := by
      intro v hv
      simp only [nestQ, viewsOf, viewsOfs, List.append_nil, List.cons_append, List.nil_append, List.mem_cons,
        List.not_mem_nil, or_false] at hv
      rcases hv with h | h | h <;> simp [h]
    have key : ∀ w : Win Nat, Reads w (demoSt w) → (∀ e ∈ w.set.dense, e.bucket < 2) →
        lookup (demoSt w).rows e = some x → e.bucket < 2 := by
      intro w hw hall hx
      obtain ⟨L, hL⟩ := hw.looks
      rw [← lookup_rowAt, Option.map_eq_some_iff] at hx
      obtain ⟨row, hrow, _⟩ := hx
      exact hall e (hL.mem e row hrow)
    have hlt : e.bucket < 2 := by
      rcases mem v hv with rfl | rfl
      · exact key aW aW_reads (by decide) hx
      · exact key bW bW_reads (by decide) hx
    rcases mem u hu with rfl | rfl
    · have h1 : aV.set.dense.length = 3 := rfl
      have h2 : aV.set.sparse.length = 2 := rfl
      omega
    · have h1 : bV.set.dense.length = 4 := rfl
      have h2 : bV.set.sparse.length = 2 := rfl
      omega)
example : ((nestQ.run f32).bind fun it => it.fold) =
    .ok [.tup [.tup [.comp 20], .tup [.comp 5, .comp 20]], .tup [.tup [.comp 30], .tup [.comp 6, .comp 30]]] := rfl

/-- The entity of `C29_world_iter_fails`, lost in a pair, is found alone. -/
example := C29_world_alone (st := fun _ => after (Sto.init true true true true) (fillHist [(⟨40, 0⟩, 1)] 1)) (v := lonelyV 1)
  C29_world_iter_fails.1 f32
example : (((WQ.one (lonelyV 1)).run f32).bind fun it => it.fold) = .ok [.comp 1] ∧
    (((WQ.tup [.one (lonelyV 1)]).run f32).bind fun it => it.fold) = .ok [.tup [.comp 1]] ∧
    (((WQ.tup [.tup [.one (lonelyV 1)], .one (lonelyV 2)]).run f32).bind fun it => it.fold) = .ok [] := ⟨rfl, rfl, rfl⟩

end Verif.IterSpec
