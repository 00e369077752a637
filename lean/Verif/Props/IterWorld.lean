import Verif.Props.Iter

/-!
# `World::iter`: C29
-/
namespace Verif.IterSpec
open StoSpec TrkSpec Iter
variable {V : Type}

def viewPart (w : Win V) : Ship V × Nat × Acc := (.view w, w.set.dense.length, ⟨w.set.dense, []⟩)

theorem unpickBut_views (k : Option Nat) : ∀ (ws : List (Win V)) (i : Nat),
    Qry.unpickBut k i (ws.map fun w => (Ship.view w : Ship V)) = ws.map .view
  | [], _ => rfl
  | w :: ws, i => by
    simp only [List.map_cons, Qry.unpickBut, unpickBut_views k ws (i + 1), Ship.unpick, ite_self]

theorem assemble_views {ws : List (Win V)} {k : Nat} (hk : k < ws.length) :
    Qry.assemble (ws.map viewPart) (some k) =
      (.mixed (ws.map .view) (some k), ws[k].set.dense.length, ⟨ws[k].set.dense, []⟩) := by
  unfold Qry.assemble
  have h1 : (ws.map viewPart)[k]? = some (viewPart ws[k]) := by
    rw [List.getElem?_map, List.getElem?_eq_getElem hk]; rfl
  simp only [Option.bind_some, h1, List.map_map]
  have h2 : ((fun x => x.1) ∘ viewPart : Win V → Ship V) = fun w => Ship.view w := rfl
  rw [h2, unpickBut_views]
  simp only [viewPart, Ship.isExact, if_true]

theorem worldPick_ok : ∀ (ws : List (Win V)) (i : Nat) (best : Option Nat) (least : Nat),
    (∃ w ∈ ws, w.set.dense.length < least) →
    ∃ t, t < ws.length ∧ worldShip.pick ws i best least = some (i + t)
  | [], _, _, _, h => by obtain ⟨w, hw, _⟩ := h; cases hw
  | w :: ws, i, best, least, h => by
    simp only [worldShip.pick]
    have none : ∀ (ws : List (Win V)) (i : Nat) (best : Option Nat) (least : Nat),
        (¬ ∃ w ∈ ws, w.set.dense.length < least) → worldShip.pick ws i best least = best := by
      intro ws
      induction ws with
      | nil => intros; rfl
      | cons w ws ih =>
        intro i best least h
        simp only [worldShip.pick]
        rw [if_neg (fun hh => h ⟨w, by simp, hh⟩)]
        exact ih _ _ _ fun ⟨w', hw', hh⟩ => h ⟨w', by simp [hw'], hh⟩
    by_cases hlt : w.set.dense.length < least
    · rw [if_pos hlt]
      by_cases hl : ∃ w' ∈ ws, w'.set.dense.length < w.set.dense.length
      · obtain ⟨t, h1, h2⟩ := worldPick_ok ws (i + 1) (some i) _ hl
        exact ⟨t + 1, by simpa using h1, by rw [h2]; congr 1; omega⟩
      · exact ⟨0, by simp, by rw [none _ _ _ _ hl]; rfl⟩
    · rw [if_neg hlt]
      obtain ⟨w', hw', hh⟩ := h
      rcases List.mem_cons.1 hw' with rfl | hw'
      · exact absurd hh hlt
      · obtain ⟨t, h1, h2⟩ := worldPick_ok ws (i + 1) best _ ⟨w', hw', hh⟩
        exact ⟨t + 1, by simpa using h1, by rw [h2]; congr 1; omega⟩

theorem indicesOfs_congr {f g : Tracking.View V → Win V} (mask : Option Nat) (e : EId) (i : Nat) :
    ∀ (vs : List (Tracking.View V)) (j : Nat), (∀ v ∈ vs, (f v).indexOf e = (g v).indexOf e) →
    Ship.indicesOfs (vs.map fun v => (.view (f v) : Ship V)) mask j e i = Ship.indicesOfs (vs.map fun v => .view (g v)) mask j e i
  | [], _, _ => rfl
  | v :: vs, j, h => by
    simp only [List.map_cons, Ship.indicesOfs, Ship.indicesOf, Ship.fromUsize, h v (by simp),
      indicesOfs_congr mask e i vs (j + 1) fun v' hv => h v' (by simp [hv])]

theorem sailorDatas_congr {f g : Tracking.View V → Win V} (hs : ∀ v, (f v).set = (g v).set) :
    ∀ (vs : List (Tracking.View V)) (ixs : List Ix),
    Ship.sailorDatas (vs.map fun v => (.view (f v) : Ship V)) ixs = Ship.sailorDatas (vs.map fun v => .view (g v)) ixs
  | [], [] => rfl
  | [], _ :: _ => rfl
  | _ :: _, [] => by simp only [List.map_cons, Ship.sailorDatas]
  | v :: vs, ix :: ixs => by
    simp only [List.map_cons, Ship.sailorDatas, sailorDatas_congr hs vs ixs]
    have : (Ship.view (f v) : Ship V).sailorData ix = (Ship.view (g v)).sailorData ix := by
      cases ix <;> simp only [Ship.sailorData, Win.data, hs]
    rw [this]

theorem visits_congr {it it' : It V} : ∀ (ps : List Nat), (∀ i ∈ ps, it.visit i = it'.visit i) → it.visits ps = it'.visits ps
  | [], _ => rfl
  | i :: ps, h => by
    simp only [It.visits]
    rw [h i (by simp), visits_congr ps fun j hj => h j (by simp [hj])]

/-- C29 for `World::iter`. Missing: the hypothesis `hb`. The windows of `World::iter` take the number of components
of a storage for the number of its pages; `hb` says that for the entities met this makes no difference. -/
theorem C29_world_iter_partial {st : Win V → Sto V} {vs : List (Tracking.View V)} (h2 : 2 ≤ vs.length)
    (hr : ∀ v ∈ vs, Reads (Win.ofView v) (st (Win.ofView v)))
    (hb : ∀ v ∈ vs, ∀ u ∈ vs, ∀ e x, lookup (st (Win.ofView v)).rows e = some x →
      (e.bucket < u.set.dense.length ↔ e.bucket < u.set.sparse.length)) :
    ∃ items : List (EId × Out V), (worldIter vs).fold = .ok (items.map (·.2)) ∧ (items.map (·.1)).Nodup ∧
      ∀ e o, (e, o) ∈ items ↔ ∃ xs : List V,
        vs.map (fun v => lookup (st (Win.ofView v)).rows e) = xs.map some ∧ o = .tup (xs.map .comp) := by
  obtain ⟨v0, hv0⟩ := List.exists_mem_of_ne_nil vs (by intro h; simp [h] at h2)
  have hlt : v0.set.dense.length < usizeMax := (hr v0 hv0).short
  obtain ⟨k, hk, hpick⟩ := worldPick_ok (vs.map Win.ofOwned) 0 none usizeMax ⟨Win.ofOwned v0, List.mem_map_of_mem hv0, hlt⟩
  rw [Nat.zero_add] at hpick
  have hk' : k < vs.length := by simpa using hk
  obtain ⟨parts, ship, n, acc, items, h3, h4, h5, h6, h7⟩ := C29_any_driver_partial ⟨id, id, id, id⟩ (st := st)
    (ws := vs.map Win.ofView) (by simpa using h2)
    (by intro w hw; obtain ⟨v, hv, rfl⟩ := List.mem_map.1 hw; exact hr v hv) (k := k) (by simpa using hk')
  have hparts : parts = (vs.map Win.ofView).map viewPart := by
    have : ∀ ws : List (Win V), Qry.intoShips ⟨id, id, id, id⟩ (ws.map .view) = .ok (ws.map viewPart) := by
      intro ws
      induction ws with
      | nil => rfl
      | cons w ws ih => simp only [List.map_cons, Qry.intoShips, Qry.intoShip, ih, Except.map, viewPart]
    rw [this] at h3
    cases h3; rfl
  rw [hparts, assemble_views (by simpa using hk')] at h4
  cases h4
  refine ⟨items, ?_, h6, fun e o => by rw [h7, List.map_map]; rfl⟩
  rw [← h5]
  unfold worldIter worldShip
  have hpe : (vs.map Win.ofOwned).map (fun w => (Ship.view w, w.set.dense.length, (⟨w.set.dense, []⟩ : Acc))) =
      (vs.map (Win.ofOwned (V := V))).map viewPart := rfl
  simp only [hpick]
  rw [hpe, assemble_views hk]
  simp only [List.getElem_map, List.map_map]
  have hset : (Win.ofOwned vs[k]).set = (Win.ofView vs[k]).set := rfl
  rw [hset]
  have hfold : ∀ (l l' : List (Ship V)) (x : Bool), (∀ i < (Win.ofView vs[k]).set.dense.length,
      (⟨.mixed l (some k), ⟨(Win.ofView vs[k]).set.dense, []⟩, x, 0, (Win.ofView vs[k]).set.dense.length⟩ : It V).visit i =
      (⟨.mixed l' (some k), ⟨(Win.ofView vs[k]).set.dense, []⟩, x, 0, (Win.ofView vs[k]).set.dense.length⟩ : It V).visit i) →
      (⟨.mixed l (some k), ⟨(Win.ofView vs[k]).set.dense, []⟩, x, 0, (Win.ofView vs[k]).set.dense.length⟩ : It V).fold =
      (⟨.mixed l' (some k), ⟨(Win.ofView vs[k]).set.dense, []⟩, x, 0, (Win.ofView vs[k]).set.dense.length⟩ : It V).fold := by
    intro l l' x h
    unfold It.fold
    simp only [List.reverse_nil, It.foldRest, It.span]
    rw [visits_congr (it' := ⟨.mixed l' (some k), ⟨(Win.ofView vs[k]).set.dense, []⟩, x, 0, (Win.ofView vs[k]).set.dense.length⟩)]
    intro i hi
    apply h
    rw [List.mem_map] at hi
    obtain ⟨a, ha, rfl⟩ := hi
    rw [List.mem_range] at ha
    omega
  have hx : ∀ l : List (Ship V), 2 ≤ l.length → (Ship.mixed l (some k)).isExact = false := by
    intro l hl
    simp only [Ship.isExact, beq_eq_false_iff_ne, ne_eq, Option.isSome_some, if_true]
    omega
  rw [hx _ (by simpa using h2), hx _ (by simpa using h2)]
  apply hfold
  intro i hi
  unfold It.visit
  simp only [Bool.false_eq_true, if_false]
  cases hg : (⟨(Win.ofView vs[k]).set.dense, []⟩ : Acc).get i with
  | error f => rfl
  | ok e =>
    simp only
    have hmem : (Win.ofView vs[k]).set.dense[i]? = some e := by
      unfold Acc.get vecGetU at hg
      rw [List.getElem?_eq_getElem hi] at hg ⊢
      simpa using hg
    have hrk := hr vs[k] (List.getElem_mem hk')
    obtain ⟨L, hL⟩ := hrk.looks
    obtain ⟨c, hc1, hc2⟩ := hL.at_pos hmem
    have hrow := hL.row i c hc1
    rw [hc2] at hrow
    have hlook : lookup (st (Win.ofView vs[k])).rows e = some c.toRow.val := by rw [← lookup_rowAt, hrow]; rfl
    have hidx : ∀ v ∈ vs, (Win.ofOwned v).indexOf e = (Win.ofView v).indexOf e := by
      intro v hv
      have := hb vs[k] (List.getElem_mem hk') v hv e _ hlook
      unfold Win.indexOf Win.sparseIndex Win.ofOwned Win.ofView
      simp only
      by_cases hh : e.bucket < v.set.sparse.length
      · rw [if_pos (this.2 hh), if_pos hh]
      · rw [if_neg (fun h => hh (this.1 h)), if_neg hh]
    have e1 := indicesOfs_congr (f := Win.ofOwned) (g := Win.ofView) (some k) e i vs 0 hidx
    have e2 := sailorDatas_congr (f := Win.ofOwned) (g := Win.ofView) (fun v => rfl) vs
    simp only [Ship.indicesOf]
    rw [show (vs.map (Ship.view ∘ Win.ofOwned) : List (Ship V)) = vs.map fun v => .view (Win.ofOwned v) from rfl,
      show (vs.map (Ship.view ∘ Win.ofView) : List (Ship V)) = vs.map fun v => .view (Win.ofView v) from rfl, e1]
    cases Ship.indicesOfs (vs.map fun v => (.view (Win.ofView v) : Ship V)) (some k) 0 e i with
    | error f => rfl
    | ok o =>
      cases o with
      | none => rfl
      | some ixs =>
        simp only [Except.map, Option.map_some, Ship.sailorData]
        rw [e2]

example : ∃ items : List (EId × Out Nat), (worldIter [aV, bV]).fold = .ok (items.map (·.2)) ∧ (items.map (·.1)).Nodup ∧
    ∀ e o, (e, o) ∈ items ↔ ∃ xs : List Nat,
      [aV, bV].map (fun v => lookup (demoSt (Win.ofView v)).rows e) = xs.map some ∧ o = .tup (xs.map .comp) := by
  refine C29_world_iter_partial (by decide) ?_ ?_
  · intro v hv
    rcases List.mem_cons.1 hv with rfl | hv
    · exact aW_reads
    · rw [List.mem_singleton.1 hv]; exact bW_reads
  · intro v hv u hu e x hx
    have key : ∀ w : Win Nat, Reads w (demoSt w) → (∀ e ∈ w.set.dense, e.bucket < 2) →
        lookup (demoSt w).rows e = some x → e.bucket < 2 := by
      intro w hw hall hx
      obtain ⟨L, hL⟩ := hw.looks
      rw [← lookup_rowAt, Option.map_eq_some_iff] at hx
      obtain ⟨row, hrow, _⟩ := hx
      exact hall e (hL.mem e row hrow)
    have hlt : e.bucket < 2 := by
      rcases List.mem_cons.1 hv with rfl | hv
      · exact key aW aW_reads (by decide) hx
      · rw [List.mem_singleton.1 hv] at hx; exact key bW bW_reads (by decide) hx
    rcases List.mem_cons.1 hu with rfl | hu
    · have h1 : aV.set.dense.length = 3 := rfl
      have h2 : aV.set.sparse.length = 2 := rfl
      omega
    · rw [List.mem_singleton.1 hu]
      have h1 : bV.set.dense.length = 4 := rfl
      have h2 : bV.set.sparse.length = 2 := rfl
      omega
example : (worldIter [aV, bV]).fold = .ok [.tup [.comp 20, .comp 5], .tup [.comp 30, .comp 6]] := rfl

/-- One component of the entity at index 40. -/
def lonelyV (now : Nat) : Tracking.View Nat := ⟨setOf true [(⟨40, 0⟩, now)], 1, 1, 1, now⟩
theorem lonely_run (now : Nat) : Run (SparseSet.new true true true true) (fillHist [(⟨40, 0⟩, now)] 1) (lonelyV now).set :=
  (Run.nil (s0 := (SparseSet.new true true true true : SparseSet Nat))).snoc
    (Step.insert (e := ⟨40, 0⟩) (v := now) (now := 1) (by decide) rfl)

/-- C29 is false of `World::iter`: an entity has both components, but nothing is yielded. Its index is 40, beyond the
first page, and each storage has one component. The same query on views yields the entity. -/
theorem C29_world_iter_fails :
    Reads (Win.ofView (lonelyV 1)) (after (Sto.init true true true true) (fillHist [(⟨40, 0⟩, 1)] 1)) ∧
    Reads (Win.ofView (lonelyV 2)) (after (Sto.init true true true true) (fillHist [(⟨40, 0⟩, 2)] 1)) ∧
    (worldIter [lonelyV 1, lonelyV 2]).fold = .ok [] ∧
    runFold (.tup [.view (Win.ofView (lonelyV 1)), .view (Win.ofView (lonelyV 2))]) = .ok [.tup [.comp 1, .comp 2]] :=
  ⟨⟨⟨_, rfl⟩, .ofRun (lonely_run 1) (fillHist_noTakeover [(⟨40, 0⟩, 1)] 1)⟩,
    ⟨⟨_, rfl⟩, .ofRun (lonely_run 2) (fillHist_noTakeover [(⟨40, 0⟩, 2)] 1)⟩, rfl, rfl⟩

def lowV : Tracking.View Nat := ⟨setOf true [(⟨0, 0⟩, 7), (⟨1, 0⟩, 8)], 1, 1, 1, 3⟩

/-- C29 is false of `World::iter`: a page is read out of bounds when a storage has more components than pages and
the entity is beyond them. -/
theorem C29_world_iter_oob_fails :
    Reads (Win.ofView (lonelyV 1)) (after (Sto.init true true true true) (fillHist [(⟨40, 0⟩, 1)] 1)) ∧
    Reads (Win.ofView lowV) (after (Sto.init true true true true) (fillHist [(⟨0, 0⟩, 7), (⟨1, 0⟩, 8)] 1)) ∧
    (worldIter [lonelyV 1, lowV]).fold = .error .oob ∧
    runFold (.tup [.view (Win.ofView (lonelyV 1)), .view (Win.ofView lowV)]) = .ok [] :=
  ⟨⟨⟨_, rfl⟩, .ofRun (lonely_run 1) (fillHist_noTakeover [(⟨40, 0⟩, 1)] 1)⟩,
    ⟨⟨_, rfl⟩, .ofRun
      (((Run.nil (s0 := (SparseSet.new true true true true : SparseSet Nat))).snoc
        (Step.insert (e := ⟨0, 0⟩) (v := 7) (now := 1) (by decide) rfl)).snoc
        (Step.insert (e := ⟨1, 0⟩) (v := 8) (now := 2) (by decide) rfl))
      (fillHist_noTakeover [(⟨0, 0⟩, 7), (⟨1, 0⟩, 8)] 1)⟩, rfl, rfl⟩

end Verif.IterSpec
