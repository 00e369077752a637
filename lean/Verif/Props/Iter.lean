import Verif.Lemmas.IterWalk
import Verif.Spec.IterDemo

/-!
# Iteration: C29–C32

`item st q e` is the meaning of a query (`Verif/Spec/Iter.lean`); `Exactly st q items` says that `items` holds each
matching entity once, with its item. `r` is any rounding of the sail times.
-/
namespace Verif.IterSpec
open StoSpec TrkSpec Iter
variable {V : Type}

theorem lookup_rowAt (a : Sto V) (e : EId) : (rowAt a e).map (·.val) = lookup a.rows e := by
  unfold rowAt lookup
  cases a.rows e.idx with
  | none => rfl
  | some r =>
    simp only [Option.bind_some]
    split <;> rfl

/-! ## C29 -/

/-- C29, any query: building the iterator does not panic, and running it yields each matching entity
exactly once, with its item. Running it from the back yields the same items in another order. -/
theorem C29_query_partial (r : Rnd) {st : Win V → Sto V} {q : Qry V} (hf : Fine st q) (hs : Sails r q)
    (hc : q.canCaptain = true) :
    ∃ (it : It V) (items : List (EId × Out V)), iter r q = .ok it ∧ it.fold = .ok (items.map (·.2)) ∧ Exactly st q items ∧
      ∃ back : List (EId × Out V), it.rfold = .ok (back.map (·.2)) ∧ back.Perm items := by
  obtain ⟨it, p, ph, h1, h2, h3, _⟩ := iter_inv r hf hs hc
  refine ⟨it, _, h1, fold_ok h2, h3, _, rfold_ok h2, ?_⟩
  generalize chunks it p ph = C
  induction C with
  | nil => exact List.Perm.refl _
  | cons c C ih =>
    simp only [List.map_cons, List.flatten_cons]
    exact (List.reverse_perm c).append ih

theorem fines_views {st : Win V → Sto V} : ∀ {ws : List (Win V)}, (∀ w ∈ ws, Reads w (st w)) → Fines st (ws.map .view)
  | [], _ => by simp only [List.map_nil, Fines]
  | w :: ws, h => by
    simp only [List.map_cons, Fines, Fine]
    exact ⟨h w (by simp), fines_views fun w' hw => h w' (by simp [hw])⟩

theorem sailss_views {r : Rnd} : ∀ {ws : List (Win V)}, Sailss r (ws.map .view)
  | [] => by simp only [List.map_nil, Sailss]
  | w :: ws => by
    simp only [List.map_cons, Sailss, Sails]
    exact ⟨trivial, sailss_views⟩

theorem views_sail : ∀ (ws : List (Win V)), (ws.map (Qry.view (V := V))).filter (fun q => !q.canSailor) = []
  | [] => rfl
  | w :: ws => by
    rw [List.map_cons, List.filter_cons, if_neg (by simp [Qry.canSailor])]
    exact views_sail ws

theorem fine_views {st : Win V → Sto V} {ws : List (Win V)} (h0 : ws ≠ []) (hr : ∀ w ∈ ws, Reads w (st w)) :
    Fine st (.tup (ws.map .view)) := by
  simp only [Fine]
  refine ⟨fines_views hr, ?_, by rw [views_sail]; simp⟩
  obtain ⟨w, hw⟩ := List.exists_mem_of_ne_nil ws h0
  exact ⟨.view w, List.mem_map_of_mem hw, by simp [Qry.canCaptain]⟩

theorem sails_views {r : Rnd} {ws : List (Win V)} (hl : ∃ w ∈ ws, w.set.dense.length < usizeMax) :
    Sails r (.tup (ws.map (Qry.view (V := V)))) := by
  simp only [Sails]
  obtain ⟨w, hw, hlt⟩ := hl
  refine ⟨sailss_views, ⟨.view w, List.mem_map_of_mem hw, by simp [Qry.canCaptain], ?_⟩, ?_⟩
  · intro s n acc h
    simp only [Qry.intoShip, Except.ok.injEq, Prod.mk.injEq] at h
    rw [← h.1]; simpa only [Ship.sailTime] using hlt
  · intro q hq s n acc h
    obtain ⟨w', _, rfl⟩ := List.mem_map.1 hq
    simp only [Qry.intoShip, Except.ok.injEq, Prod.mk.injEq] at h
    rw [← h.1]; simp only [Ship.sailOver]

theorem allOf_eq {α : Type} : ∀ {os : List (Option α)} {xs : List α}, allOf os = some xs ↔ os = xs.map some
  | [], xs => by
    simp only [allOf, Option.some.injEq]
    constructor
    · rintro rfl; rfl
    · intro h; exact (List.map_eq_nil_iff.1 h.symm).symm
  | none :: os, xs => by
    simp only [allOf, Option.bind_none]
    constructor
    · intro h; cases h
    · cases xs <;> simp
  | some a :: os, xs => by
    simp only [allOf, Option.bind_some, Option.map_eq_some_iff]
    constructor
    · rintro ⟨ys, h1, rfl⟩
      rw [allOf_eq.1 h1]; rfl
    · cases xs with
      | nil => simp
      | cons x xs =>
        simp only [List.map_cons, List.cons.injEq, Option.some.injEq]
        rintro ⟨rfl, h⟩
        exact ⟨xs, allOf_eq.2 h, rfl, rfl⟩

theorem item_views {st : Win V → Sto V} {ws : List (Win V)} (h2 : 2 ≤ ws.length) (e : EId) (o : Out V) :
    item st (.tup (ws.map .view)) e = some o ↔
      ∃ vs : List V, ws.map (fun w => lookup (st w).rows e) = vs.map some ∧ o = .tup (vs.map .comp) := by
  rw [item_tup st (by simp; omega), itemsOf_eq, Option.map_eq_some_iff]
  simp only [allOf_eq, List.map_map]
  have hmap : ∀ ws : List (Win V), ws.map ((fun q => item st q e) ∘ Qry.view) =
      (ws.map (fun w => lookup (st w).rows e)).map (Option.map Out.comp) := by
    intro ws
    rw [List.map_map]
    apply List.map_congr_left
    intro w _
    simp only [Function.comp, item, ← lookup_rowAt, Option.map_map]
    rfl
  rw [hmap]
  constructor
  · rintro ⟨xs, h1, rfl⟩
    have : ∀ (l : List (Option V)) (xs : List (Out V)), l.map (Option.map Out.comp) = xs.map some →
        ∃ vs : List V, l = vs.map some ∧ xs = vs.map Out.comp := by
      intro l
      induction l with
      | nil => intro xs h; cases xs with
        | nil => exact ⟨[], rfl, rfl⟩
        | cons _ _ => simp at h
      | cons a l ih =>
        intro xs h
        cases xs with
        | nil => simp at h
        | cons x xs =>
          simp only [List.map_cons, List.cons.injEq] at h
          obtain ⟨vs, h3, h4⟩ := ih xs h.2
          rw [Option.map_eq_some_iff] at h
          obtain ⟨⟨v, rfl, rfl⟩, _⟩ := h
          exact ⟨v :: vs, by rw [h3]; rfl, by rw [h4]; rfl⟩
    obtain ⟨vs, h3, h4⟩ := this _ _ h1
    exact ⟨vs, h3, by rw [h4]⟩
  · rintro ⟨vs, h1, rfl⟩
    exact ⟨vs.map .comp, by rw [h1, List.map_map, List.map_map]; rfl, rfl⟩

/-- C29. A tuple of at least two views yields exactly the entities present in every view, each once, with
that entity's own components. -/
theorem C29_views_partial (r : Rnd) {st : Win V → Sto V} {ws : List (Win V)} (h2 : 2 ≤ ws.length)
    (hr : ∀ w ∈ ws, Reads w (st w)) :
    ∃ (it : It V) (items : List (EId × Out V)), iter r (.tup (ws.map .view)) = .ok it ∧ it.fold = .ok (items.map (·.2)) ∧
      (items.map (·.1)).Nodup ∧
      ∀ e o, (e, o) ∈ items ↔
        ∃ vs : List V, ws.map (fun w => lookup (st w).rows e) = vs.map some ∧ o = .tup (vs.map .comp) := by
  have hl : ∃ w ∈ ws, w.set.dense.length < usizeMax := by
    obtain ⟨w, hw⟩ := List.exists_mem_of_ne_nil ws (by intro h; simp [h] at h2)
    exact ⟨w, hw, (hr w hw).short⟩
  obtain ⟨it, items, h1, h3, h4, _⟩ := C29_query_partial r (fine_views (by intro h; simp [h] at h2) hr) (sails_views hl)
    (by
      cases ws with
      | nil => simp at h2
      | cons w ws => simp [Qry.canCaptain, Qry.canCaptains])
  exact ⟨it, items, h1, h3, h4.1, fun e o => by rw [h4.2, item_views h2]⟩

example : ∃ (it : It Nat) (items : List (EId × Out Nat)), iter demoR (.tup [.view aW, .view bW]) = .ok it ∧
    it.fold = .ok (items.map (·.2)) ∧ (items.map (·.1)).Nodup ∧
    ∀ e o, (e, o) ∈ items ↔ ∃ vs : List Nat,
      [aW, bW].map (fun w => lookup (demoSt w).rows e) = vs.map some ∧ o = .tup (vs.map .comp) :=
  C29_views_partial demoR (ws := [aW, bW]) (by decide) (by
    intro w hw
    rcases List.mem_cons.1 hw with rfl | hw
    · exact aW_reads
    · rw [List.mem_singleton.1 hw]; exact bW_reads)
example : runFold (.tup [.view aW, .view bW]) = .ok [.tup [.comp 20, .comp 5], .tup [.comp 30, .comp 6]] := rfl
example : runFold (.tup [.view bW, .tup [.view aW, .view bW]]) =
    .ok [.tup [.comp 6, .tup [.comp 30, .comp 6]], .tup [.comp 5, .tup [.comp 20, .comp 5]]] := rfl

/-- C29. The choice of the driving storage does not matter: with the storage at any position `k` as
captain, the iterator yields the same entities with the same components. -/
theorem C29_any_driver_partial (r : Rnd) {st : Win V → Sto V} {ws : List (Win V)} (h2 : 2 ≤ ws.length)
    (hr : ∀ w ∈ ws, Reads w (st w)) {k : Nat} (hk : k < ws.length) :
    ∃ parts ship n acc, ∃ (items : List (EId × Out V)), Qry.intoShips r (ws.map .view) = .ok parts ∧
      Qry.assemble parts (some k) = (ship, n, acc) ∧
      (⟨ship, acc, ship.isExact, 0, n⟩ : It V).fold = .ok (items.map (·.2)) ∧ (items.map (·.1)).Nodup ∧
      ∀ e o, (e, o) ∈ items ↔
        ∃ vs : List V, ws.map (fun w => lookup (st w).rows e) = vs.map some ∧ o = .tup (vs.map .comp) := by
  obtain ⟨parts, hp, hlen, hget⟩ := builts_ok r st _ (fines_views hr) (sailss_views (r := r))
  have hk' : (ws.map (Qry.view (V := V)))[k]? = some (.view ws[k]) := by
    rw [List.getElem?_map, List.getElem?_eq_getElem hk]; rfl
  have hx := List.getElem?_eq_getElem (l := parts) (i := k) (by rw [hlen]; simpa using hk)
  obtain ⟨_, p, ph, hcap, _⟩ := tup_cap (by simp; omega) (fines_views hr) hlen hget hk' hx (by simp [Qry.canCaptain])
    (by
      intro j q hj _
      rw [List.getElem?_map, Option.map_eq_some_iff] at hj
      obtain ⟨w, _, rfl⟩ := hj
      simp [Qry.canSailor])
  rcases hass : Qry.assemble parts (some k) with ⟨ship, n, acc⟩
  rw [hass] at hcap
  have hinv : Inv ⟨ship, acc, ship.isExact, 0, n⟩ p ph :=
    ⟨hcap.slice, hcap.rest, hcap.phases, rfl, Nat.zero_le _, Nat.le_of_eq hcap.len⟩
  refine ⟨parts, ship, n, acc, _, hp, hass, fold_ok hinv, ?_⟩
  have hch : (chunks (⟨ship, acc, ship.isExact, 0, n⟩ : It V) p ph).flatten = (p :: ph).flatMap Ph.items := by
    unfold chunks
    simp only
    have hlen' : n = p.1.length := hcap.len
    rw [hlen', seg_all, List.flatMap_def]; rfl
  rw [hch]
  exact ⟨hcap.exact.1, fun e o => by rw [hcap.exact.2, item_views h2]⟩

/-! ## C30 -/

theorem itemsOf_append (st : Win V → Sto V) (e : EId) (q : Qry V) : ∀ (l : List (Qry V)),
    itemsOf st (l ++ [q]) e = (itemsOf st l e).bind fun os => (item st q e).map fun o => os ++ [o]
  | [] => by
    simp only [List.nil_append, itemsOf]
    cases item st q e <;> rfl
  | q' :: l => by
    simp only [List.cons_append, itemsOf, itemsOf_append st e q l]
    cases item st q' e with
    | none => rfl
    | some o =>
      simp only [Option.bind_some]
      cases itemsOf st l e with
      | none => rfl
      | some os => cases item st q e <;> rfl

/-- C30. Adding `!view` to a tuple keeps exactly the entities that are not in that view. -/
theorem C30_not_partial (r : Rnd) {st : Win V → Sto V} {l : List (Qry V)} {w : Win V} {excl : Bool} (hl : l ≠ [])
    (hf : Fine st (.tup (l ++ [.absent w excl]))) (hs : Sails r (.tup (l ++ [.absent w excl]))) :
    ∃ (it : It V) (items : List (EId × Out V)), iter r (.tup (l ++ [.absent w excl])) = .ok it ∧ it.fold = .ok (items.map (·.2)) ∧
      (items.map (·.1)).Nodup ∧
      ∀ e o, (e, o) ∈ items ↔
        ∃ os, itemsOf st l e = some os ∧ lookup (st w).rows e = none ∧ o = .tup (os ++ [.unit]) := by
  have hc : (Qry.tup (l ++ [.absent w excl])).canCaptain = true := by
    simp only [Fine] at hf
    obtain ⟨_, ⟨q, hq, hqc⟩, _⟩ := hf
    simp only [Qry.canCaptain]
    clear hs hl
    generalize l ++ [Qry.absent w excl] = l' at hq
    induction l' with
    | nil => cases hq
    | cons a l' ih =>
      simp only [Qry.canCaptains, Bool.or_eq_true]
      rcases List.mem_cons.1 hq with rfl | h
      · exact Or.inl hqc
      · exact Or.inr (ih h)
  obtain ⟨it, items, h1, h2, h3, _⟩ := C29_query_partial r hf hs hc
  refine ⟨it, items, h1, h2, h3.1, fun e o => ?_⟩
  have hlen : (l ++ [Qry.absent w excl]).length ≠ 1 := by
    cases l with
    | nil => exact absurd rfl hl
    | cons _ _ => simp
  rw [h3.2, item_tup st hlen, itemsOf_append, ← lookup_rowAt]
  cases itemsOf st l e with
  | none => simp
  | some os =>
    simp only [item, Option.bind_some]
    cases rowAt (st w) e with
    | none => simp [eq_comm]
    | some x => simp

/-- C30. Adding `view.as_optional()` never filters; it yields the component of the entity if it has one. -/
theorem C30_optional_partial (r : Rnd) {st : Win V → Sto V} {l : List (Qry V)} {w : Win V} (hl : l ≠ [])
    (hf : Fine st (.tup (l ++ [.opt w]))) (hs : Sails r (.tup (l ++ [.opt w]))) :
    ∃ (it : It V) (items : List (EId × Out V)), iter r (.tup (l ++ [.opt w])) = .ok it ∧ it.fold = .ok (items.map (·.2)) ∧
      (items.map (·.1)).Nodup ∧
      ∀ e o, (e, o) ∈ items ↔
        ∃ os, itemsOf st l e = some os ∧ o = .tup (os ++ [.maybe (lookup (st w).rows e)]) := by
  have hc : (Qry.tup (l ++ [.opt w])).canCaptain = true := by
    simp only [Fine] at hf
    obtain ⟨_, ⟨q, hq, hqc⟩, _⟩ := hf
    simp only [Qry.canCaptain]
    clear hs hl
    generalize l ++ [Qry.opt w] = l' at hq
    induction l' with
    | nil => cases hq
    | cons a l' ih =>
      simp only [Qry.canCaptains, Bool.or_eq_true]
      rcases List.mem_cons.1 hq with rfl | h
      · exact Or.inl hqc
      · exact Or.inr (ih h)
  obtain ⟨it, items, h1, h2, h3, _⟩ := C29_query_partial r hf hs hc
  refine ⟨it, items, h1, h2, h3.1, fun e o => ?_⟩
  have hlen : (l ++ [Qry.opt w]).length ≠ 1 := by
    cases l with
    | nil => exact absurd rfl hl
    | cons _ _ => simp
  rw [h3.2, item_tup st hlen, itemsOf_append, ← lookup_rowAt]
  cases itemsOf st l e with
  | none => simp
  | some os => simp [item, eq_comm]

example : ∃ (it : It Nat) (items : List (EId × Out Nat)), iter demoR (.tup ([.view aW] ++ [.absent bW false])) = .ok it ∧
    it.fold = .ok (items.map (·.2)) ∧ (items.map (·.1)).Nodup ∧
    ∀ e o, (e, o) ∈ items ↔
      ∃ os, itemsOf demoSt [.view aW] e = some os ∧ lookup (demoSt bW).rows e = none ∧ o = .tup (os ++ [.unit]) :=
  C30_not_partial demoR (by simp)
    (by
      simp only [List.cons_append, List.nil_append, Fine, Fines]
      exact ⟨⟨aW_reads, bW_reads, trivial⟩, ⟨.view aW, by simp, rfl⟩, by decide⟩)
    (by
      simp only [List.cons_append, List.nil_append, Sails, Sailss]
      refine ⟨⟨trivial, trivial, trivial⟩, ⟨.view aW, by simp, rfl, ?_⟩, ?_⟩
      · intro s n acc h
        cases h
        decide
      · intro q hq s n acc h
        simp only [List.mem_cons, List.not_mem_nil, or_false] at hq
        rcases hq with rfl | rfl <;> cases h <;> rfl)
example : runFold (.tup [.view aW, .absent bW false]) = .ok [.tup [.comp 10, .unit]] := rfl
example : ∃ (it : It Nat) (items : List (EId × Out Nat)), iter demoR (.tup ([.view aW] ++ [.opt bW])) = .ok it ∧
    it.fold = .ok (items.map (·.2)) ∧ (items.map (·.1)).Nodup ∧
    ∀ e o, (e, o) ∈ items ↔
      ∃ os, itemsOf demoSt [.view aW] e = some os ∧ o = .tup (os ++ [.maybe (lookup (demoSt bW).rows e)]) :=
  C30_optional_partial demoR (by simp)
    (by
      simp only [List.cons_append, List.nil_append, Fine, Fines]
      exact ⟨⟨aW_reads, bW_reads, trivial⟩, ⟨.view aW, by simp, rfl⟩, by decide⟩)
    (by
      simp only [List.cons_append, List.nil_append, Sails, Sailss]
      refine ⟨⟨trivial, trivial, trivial⟩, ⟨.view aW, by simp, rfl, ?_⟩, ?_⟩
      · intro s n acc h
        cases h
        decide
      · intro q hq s n acc h
        simp only [List.mem_cons, List.not_mem_nil, or_false] at hq
        rcases hq with rfl | rfl <;> cases h <;> rfl)
example : runFold (.tup [.view aW, .opt bW]) =
    .ok [.tup [.comp 10, .maybe none], .tup [.comp 20, .maybe (some 5)], .tup [.comp 30, .maybe (some 6)]] := rfl

/-! ## C31 -/

/-- C31, for `fold` and `rfold` (`for_each`, `rev().for_each()`, collecting). `&a | &b` yields each entity having
`a` or `b` exactly once: with its component of `a` if it has one, else with its component of `b`. -/
theorem C31_or_fold_partial (r : Rnd) {st : Win V → Sto V} {a b : Win V} (ha : Reads a (st a)) (hb : Reads b (st b)) :
    ∃ (it : It V) (items : List (EId × Out V)), iter r (.or (.view a) (.view b)) = .ok it ∧ it.fold = .ok (items.map (·.2)) ∧
      (items.map (·.1)).Nodup ∧
      (∀ e o, (e, o) ∈ items ↔
        (∃ v, lookup (st a).rows e = some v ∧ o = .one (.comp v)) ∨
        (lookup (st a).rows e = none ∧ ∃ v, lookup (st b).rows e = some v ∧ o = .two (.comp v))) ∧
      ∃ back : List (EId × Out V), it.rfold = .ok (back.map (·.2)) ∧ back.Perm items := by
  obtain ⟨it, items, h1, h2, h3, h4⟩ := C29_query_partial r (st := st) (q := .or (.view a) (.view b))
    (by simp only [Fine]; exact ⟨rfl, by simp [orFree], by simp [Qry.canCaptain], by simp [Qry.canSailor], ha, hb⟩)
    (by simp [Sails]) (by simp [Qry.canCaptain])
  refine ⟨it, items, h1, h2, h3.1, fun e o => ?_, h4⟩
  rw [h3.2]
  simp only [item, ← lookup_rowAt]
  cases rowAt (st a) e with
  | some x => simp [eq_comm]
  | none =>
    simp only [Option.map_none, Option.map_map]
    cases rowAt (st b) e <;> simp [eq_comm]

example : runFold (.or (.view aW) (.view bW)) =
    .ok [.one (.comp 10), .one (.comp 20), .one (.comp 30), .two (.comp 8), .two (.comp 9)] := rfl
example := C31_or_fold_partial demoR aW_reads bW_reads

/-- C31 is false of `next` when the second storage is empty: after the items of the first, `next` reads an
id out of bounds, because an empty slice is entered without looking at its length. -/
theorem C31_next_fails : Reads aW (demoSt aW) ∧ Reads nW (demoSt nW) ∧
    (withIter (.or (.view aW) (.view nW)) (calls [.front, .front, .front])).map (·.1) =
      .ok [some (.one (.comp 10)), some (.one (.comp 20)), some (.one (.comp 30))] ∧
    withIter (.or (.view aW) (.view nW)) (calls [.front, .front, .front, .front]) = .error .oob :=
  ⟨aW_reads, nW_reads, rfl, rfl⟩

/-- C31 is false of `next_back` when the second storage is empty: `end - 1` underflows. -/
theorem C31_next_back_fails : Reads aW (demoSt aW) ∧ Reads nW (demoSt nW) ∧
    (withIter (.or (.view aW) (.view nW)) (calls [.back, .back, .back])).map (·.1) =
      .ok [some (.one (.comp 30)), some (.one (.comp 20)), some (.one (.comp 10))] ∧
    withIter (.or (.view aW) (.view nW)) (calls [.back, .back, .back, .back]) = .error .panic :=
  ⟨aW_reads, nW_reads, rfl, rfl⟩

/-- C31 is false of `a | (b | c)`: the entities that have `c` only are never yielded. Here `b` is empty and `c`
has an entity that `a` does not have. -/
theorem C31_nested_fails : Reads aW (demoSt aW) ∧ Reads nW (demoSt nW) ∧ Reads bW (demoSt bW) ∧
    item demoSt (.or (.view aW) (.or (.view nW) (.view bW))) ⟨7, 0⟩ = some (.two (.two (.comp 8))) ∧
    runFold (.or (.view aW) (.or (.view nW) (.view bW))) = .ok [.one (.comp 10), .one (.comp 20), .one (.comp 30)] :=
  ⟨aW_reads, nW_reads, bW_reads, rfl, rfl⟩

/-- C31 is false of `a | ids` inside a tuple: entities that are in neither are yielded. -/
theorem C31_ids_fails : Reads aW (demoSt aW) ∧ Reads bW (demoSt bW) ∧
    item demoSt (.tup [.view bW, .or (.view aW) (.ids [⟨4, 1⟩])]) ⟨7, 0⟩ = none ∧
    lookup (demoSt bW).rows ⟨7, 0⟩ = some 8 ∧
    ∃ x y, runFold (.tup [.view bW, .or (.view aW) (.ids [⟨4, 1⟩])]) =
      .ok (x ++ [.tup [.comp 8, .two (.id ⟨7, 0⟩)]] ++ y) :=
  ⟨aW_reads, bW_reads, rfl, rfl, [.tup [.comp 6, .one (.comp 30)]],
    [.tup [.comp 5, .one (.comp 20)], .tup [.comp 9, .two (.id ⟨0, 3⟩)]], rfl⟩

/-- C31 is false of `a | !n` inside a tuple: which entities are yielded depends on the storage that drives
the iteration. Every entity of `b` satisfies `!n`, since `n` is empty, but only those of `a` are yielded. -/
theorem C31_not_inside_fails : Reads aW (demoSt aW) ∧ Reads bW (demoSt bW) ∧ Reads nW (demoSt nW) ∧
    item demoSt (.tup [.view bW, .or (.view aW) (.absent nW false)]) ⟨7, 0⟩ =
      some (.tup [.comp 8, .two .unit]) ∧
    runFold (.tup [.view bW, .or (.view aW) (.absent nW false)]) =
      .ok [.tup [.comp 5, .one (.comp 20)], .tup [.comp 6, .one (.comp 30)]] :=
  ⟨aW_reads, bW_reads, nW_reads, rfl, rfl⟩

/-! ## C32 -/

/-- C32. `view.inserted()`, `view.modified()` and `view.inserted_or_modified()`, on storages that track
what they ask for, yield exactly the components for which the flag holds in the window of the view. -/
theorem C32_flag_partial (r : Rnd) (k : Flag) {st : Win V → Sto V} {w : Win V} (hw : Reads w (st w)) (ht : Tracks k (st w)) :
    ∃ (it : It V) (items : List (EId × Out V)), iter r (.flag k false w) = .ok it ∧ it.fold = .ok (items.map (·.2)) ∧ (items.map (·.1)).Nodup ∧
      ∀ e o, (e, o) ∈ items ↔ ∃ row, rowAt (st w) e = some row ∧ Holds k w row ∧ o = .comp row.val := by
  obtain ⟨it, items, h1, h2, h3, _⟩ := C29_query_partial r (st := st) (q := .flag k false w) (by simp only [Fine]; exact ⟨hw, ht⟩)
    (by simp [Sails]) (by simp [Qry.canCaptain])
  refine ⟨it, items, h1, h2, h3.1, fun e o => ?_⟩
  rw [h3.2]
  simp only [item]
  cases rowAt (st w) e with
  | none => simp
  | some row =>
    simp only [Option.bind_some, Option.some.injEq, exists_eq_left']
    split
    · rename_i h; simp [h, eq_comm]
    · rename_i h; simp [h]

/-- C32. Their negations yield exactly the other components of the storage. -/
theorem C32_not_flag_partial (r : Rnd) (k : Flag) {st : Win V → Sto V} {w : Win V} (hw : Reads w (st w))
    (ht : Tracks k (st w)) :
    ∃ (it : It V) (items : List (EId × Out V)), iter r (.flag k true w) = .ok it ∧ it.fold = .ok (items.map (·.2)) ∧ (items.map (·.1)).Nodup ∧
      ∀ e o, (e, o) ∈ items ↔ ∃ row, rowAt (st w) e = some row ∧ ¬ Holds k w row ∧ o = .comp row.val := by
  obtain ⟨it, items, h1, h2, h3, _⟩ := C29_query_partial r (st := st) (q := .flag k true w) (by simp only [Fine]; exact ⟨hw, ht⟩)
    (by simp [Sails]) (by simp [Qry.canCaptain])
  refine ⟨it, items, h1, h2, h3.1, fun e o => ?_⟩
  rw [h3.2]
  simp only [item]
  cases rowAt (st w) e with
  | none => simp
  | some row =>
    simp only [Option.bind_some, Option.some.injEq, exists_eq_left']
    split
    · rename_i h; simp [h]
    · rename_i h; simp [h, eq_comm]

example := C32_flag_partial demoR .either aW_reads ⟨rfl, rfl⟩
example := C32_not_flag_partial demoR .inserted aW_reads rfl
example : runFold (.flag .inserted false aW) = .ok [.comp 20, .comp 30] ∧ runFold (.flag .inserted true aW) = .ok [.comp 10] :=
  ⟨rfl, rfl⟩

/-- C32 is false of a storage that does not track insertions: `inserted()` reads the ticks out of bounds. -/
theorem C32_untracked_fails : ∃ w : Win Nat, Reads w (after (Sto.init false false false false) (fillHist aL 1)) ∧
    runFold (.flag .inserted false w) = .error .oob ∧ runFold (.flag .modified false w) = .error .oob :=
  ⟨Win.ofView ⟨setOf false aL, 1, 1, 1, 9⟩, ⟨⟨_, rfl⟩, .ofRun
    ((((Run.nil (s0 := (SparseSet.new false false false false : SparseSet Nat))).snoc
      (Step.insert (e := ⟨0, 0⟩) (v := 10) (now := 1) (by decide) rfl)).snoc
      (Step.insert (e := ⟨4, 1⟩) (v := 20) (now := 2) (by decide) rfl)).snoc
      (Step.insert (e := ⟨40, 0⟩) (v := 30) (now := 3) (by decide) rfl)) (fillHist_noTakeover aL 1)⟩, rfl, rfl⟩

end Verif.IterSpec
