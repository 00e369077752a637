import Verif.Lemmas.WorldIter
import Verif.Props.IterWorld
import Verif.Props.World

/-!
# C86: iterating over the storages of a world yields what single lookups tell

The theorems about iteration (C29-C36) are about storages that never had a component inserted over the one
of another entity. Worlds used through their API have no other storages.
-/
namespace Verif.WorldIter
open StoSpec IterSpec Iter TrkSpec
open WSpec (Reach demo)
open EntSpec (Event)
variable {V : Type} {fl : Flags}

/-- C86. Every storage of a world used through its API was made empty or cloned from such a storage, and
then only called in ways that insert nothing over the component of another entity; its table is what
`world.get` sees; its components belong to alive entities. -/
theorem C86_lives {wd : World V} {h : List Event} (hr : Reach fl wd h) {k : Nat} {s : SparseSet V}
    (hk : lookupK wd.stos k = some s) :
    ∃ a, Lives s a ∧ (∀ e, e.gen < 65535 → wd.get k e = .ok (lookup a.rows e)) ∧
      ∀ e v, lookup a.rows e = some v → wd.isAlive e = true := reach_lives hr hk

/-- C86. A view of a storage of a world is a view the theorems about iteration speak of. -/
theorem C86_reads {wd : World V} {h : List Event} (hr : Reach fl wd h) {v : Tracking.View V} (ho : Of wd v) :
    ∃ a, Reads (Win.ofView v) a := ⟨_, of_reads hr ho⟩

mutual
theorem item_valid {st : Win V → Sto V} : (q : Qry V) → Fine st q → q.canCaptain = true → (e : EId) → (o : Out V) →
    item st q e = some o → Valid e
  | .view w, hq, _, e, o, ho => by
    simp only [Fine] at hq
    simp only [item, Option.map_eq_some_iff] at ho
    obtain ⟨r, hr, _⟩ := ho
    obtain ⟨L, hL⟩ := hq.looks
    exact hL.valid e (hL.mem e r hr)
  | .opt w, _, hc, _, _, _ => by simp [Qry.canCaptain] at hc
  | .absent w _, _, hc, _, _, _ => by simp [Qry.canCaptain] at hc
  | .ids l, hq, _, e, o, ho => by
    simp only [Fine] at hq
    simp only [item] at ho
    split at ho
    · exact hq.2 e (by assumption)
    · cases ho
  | .flag k neg w, hq, _, e, o, ho => by
    simp only [Fine] at hq
    obtain ⟨L, hL⟩ := hq.1.looks
    cases hrow : rowAt (st w) e with
    | none => cases neg <;> simp [item, hrow] at ho
    | some r => exact hL.valid e (hL.mem e r hrow)
  | .or a b, hq, _, e, o, ho => by
    simp only [Fine] at hq
    obtain ⟨h1, h2, h3, h4, h5, h6⟩ := hq
    simp only [item] at ho
    cases ha : item st a e with
    | some x =>
      refine item_valid a h5 ?_ e x ha
      cases a <;> first | rfl | (simp [isLeaf] at h1)
    | none =>
      rw [ha] at ho
      simp only [Option.map_eq_some_iff] at ho
      obtain ⟨x, hx, _⟩ := ho
      exact item_valid b h6 h3 e x hx
  | .tup [], _, hc, _, _, _ => by simp [Qry.canCaptain, Qry.canCaptains] at hc
  | .tup [q], hq, hc, e, o, ho => by
    simp only [Fine, Fines] at hq
    simp only [Qry.canCaptain, Qry.canCaptains, Bool.or_false] at hc
    simp only [item] at ho
    exact item_valid q hq.1.1 hc e o ho
  | .tup (q :: q' :: l), hq, hc, e, o, ho => by
    simp only [Fine] at hq
    simp only [item, Option.map_eq_some_iff] at ho
    obtain ⟨os, hos, _⟩ := ho
    simp only [Qry.canCaptain] at hc
    exact items_valid (q :: q' :: l) hq.1 hc e os hos
theorem items_valid {st : Win V → Sto V} : (l : List (Qry V)) → Fines st l → Qry.canCaptains l = true → (e : EId) →
    (os : List (Out V)) → itemsOf st l e = some os → Valid e
  | [], _, hc, _, _, _ => by simp [Qry.canCaptains] at hc
  | q :: l, hq, hc, e, os, ho => by
    simp only [Fines] at hq
    simp only [itemsOf, Option.bind_eq_some_iff, Option.map_eq_some_iff] at ho
    obtain ⟨o, h1, os', h2, _⟩ := ho
    simp only [Qry.canCaptains, Bool.or_eq_true] at hc
    rcases hc with hc | hc
    · exact item_valid q hq.1 hc e o h1
    · exact items_valid l hq.2 hc e os' h2
end

/-- C86, any query over storages of a world used through its API: building the iterator does not panic,
and running it yields exactly the entities single lookups on the views tell, each once, with the
components these lookups give; from the back in another order. -/
theorem C86_query (r : Rnd) {wd : World V} {h : List Event} (hr : Reach fl wd h) {q : VQry V} (hq : Over wd q)
    (hs : Sails r q.qry) (hc : q.qry.canCaptain = true) :
    ∃ (it : It V) (items : List (EId × Out V)), iter r q.qry = .ok it ∧ it.fold = .ok (items.map (·.2)) ∧
      (items.map (·.1)).Nodup ∧ (∀ x ∈ items, Valid x.1) ∧
      (∀ e o, e.gen < 65535 → ((e, o) ∈ items ↔ seen q e = some o)) ∧
      ∃ back : List (EId × Out V), it.rfold = .ok (back.map (·.2)) ∧ back.Perm items := by
  have hf := over_fine hr q hq
  obtain ⟨it, items, h1, h2, h3, h4⟩ := C29_query_partial r hf hs hc
  refine ⟨it, items, h1, h2, h3.1, ?_, ?_, h4⟩
  · rintro ⟨e, o⟩ hx
    exact item_valid q.qry hf hc e o ((h3.2 e o).1 hx)
  · intro e o he
    rw [h3.2, item_seen q hf e he]

/-- C86, tuples of at least two views of storages of a world: exactly the alive entities that have all the
components according to `world.get`, each once, with these components. -/
theorem C86_views (r : Rnd) {wd : World V} {h : List Event} (hr : Reach fl wd h)
    {vs : List (Nat × Tracking.View V)} (hv : ∀ x ∈ vs, lookupK wd.stos x.1 = some x.2.set) (h2 : 2 ≤ vs.length) :
    ∃ (it : It V) (items : List (EId × Out V)),
      iter r (.tup (vs.map fun x => .view (Win.ofView x.2))) = .ok it ∧ it.fold = .ok (items.map (·.2)) ∧
      (items.map (·.1)).Nodup ∧
      ∀ e o, (e, o) ∈ items ↔ wd.isAlive e = true ∧ ∃ cs : List V,
        vs.map (fun x => wd.get x.1 e) = cs.map (fun c => .ok (some c)) ∧ o = .tup (cs.map .comp) := by
  have hmap : (vs.map fun x => Qry.view (Win.ofView x.2)) = (vs.map fun x => Win.ofView x.2).map .view := by
    rw [List.map_map]; rfl
  rw [hmap]
  have hreads : ∀ w ∈ vs.map (fun x => Win.ofView x.2), Reads w (tab w) := by
    intro w hw
    obtain ⟨x, hx, rfl⟩ := List.mem_map.1 hw
    exact of_reads hr ⟨x.1, hv x hx⟩
  obtain ⟨it, items, h3, h4, h5, h6⟩ := C29_views_partial r (st := tab)
    (ws := vs.map fun x => Win.ofView x.2) (by simpa using h2) hreads
  refine ⟨it, items, h3, h4, h5, ?_⟩
  have hget : ∀ e, e.gen < 65535 → ∀ x ∈ vs, wd.get x.1 e = .ok (lookup (tab (Win.ofView x.2)).rows e) := by
    intro e he x hx
    have hk := hv x hx
    obtain ⟨L, hL⟩ := (hreads _ (List.mem_map_of_mem hx)).2.abs
    unfold World.get
    rw [hk]
    exact hL.get he
  have hlist : ∀ (l : List (Nat × Tracking.View V)) (e : EId) (cs : List V),
      (∀ x ∈ l, wd.get x.1 e = .ok (lookup (tab (Win.ofView x.2)).rows e)) →
      ((l.map fun x => lookup (tab (Win.ofView x.2)).rows e) = cs.map some ↔
        l.map (fun x => wd.get x.1 e) = cs.map fun c => .ok (some c)) := by
    intro l
    induction l with
    | nil => intro e cs _; cases cs <;> simp
    | cons x l ih =>
      intro e cs hl
      cases cs with
      | nil => simp
      | cons c cs =>
        simp only [List.map_cons, List.cons.injEq]
        rw [hl x List.mem_cons_self, ih e cs fun y hy => hl y (List.mem_cons_of_mem _ hy)]
        simp
  intro e o
  rw [h6, List.map_map]
  constructor
  · rintro ⟨cs, hcs, rfl⟩
    have hx0 : ∃ x, x ∈ vs := List.exists_mem_of_ne_nil vs (by intro h; simp [h] at h2)
    obtain ⟨x, hx⟩ := hx0
    have hsome : ∃ c, lookup (tab (Win.ofView x.2)).rows e = some c := by
      have hm : lookup (tab (Win.ofView x.2)).rows e ∈ cs.map some := by
        rw [← hcs]
        exact List.mem_map.2 ⟨x, hx, rfl⟩
      obtain ⟨c, _, hc⟩ := List.mem_map.1 hm
      exact ⟨c, hc.symm⟩
    obtain ⟨c, hc⟩ := hsome
    have hvalid : Valid e := by
      have hrd := hreads _ (List.mem_map_of_mem hx)
      obtain ⟨L, hL⟩ := hrd.looks
      rw [← lookup_rowAt, Option.map_eq_some_iff] at hc
      obtain ⟨row, hrow, _⟩ := hc
      exact hL.valid e (hL.mem e row hrow)
    obtain ⟨a, _, ha2, ha3⟩ := C86_lives hr (hv x hx)
    refine ⟨?_, cs, (hlist vs e cs (hget e hvalid.1)).1 hcs, rfl⟩
    refine ha3 e c ?_
    have h7 := ha2 e hvalid.1
    rw [hget e hvalid.1 x hx, hc] at h7
    injection h7 with h7
    exact h7.symm
  · rintro ⟨hal, cs, hcs, rfl⟩
    obtain ⟨A, Q, hok⟩ := World.reach_ok hr
    have hvalid := hok.ent.valid hal
    exact ⟨cs, (hlist vs e cs (hget e hvalid.1)).2 hcs, rfl⟩

/-- C32, in terms of the view: for a view `v` of any storage that tracks what is asked for, the filter (its
negation when `neg`) yields exactly the components `v.get` finds of the entities for which `v.is_inserted`,
`v.is_modified` or one of both says yes (does not say yes). -/
theorem C32_view_partial (r : Rnd) (k : Flag) (neg : Bool) {v : Tracking.View V} {a : Sto V}
    (hr : Reads (Win.ofView v) a) (ht : SetTracks k v.set) :
    ∃ (it : It V) (items : List (EId × Out V)), iter r (.flag k neg (Win.ofView v)) = .ok it ∧
      it.fold = .ok (items.map (·.2)) ∧ (items.map (·.1)).Nodup ∧
      ∀ e o, (e, o) ∈ items ↔ Valid e ∧ ∃ c, v.set.get e = .ok (some c) ∧ o = .comp c ∧
        (neg = false ↔ flagged k v e) := by
  have hf : Fine (fun _ => a) (.flag k neg (Win.ofView v)) := by simp only [Fine]; exact ⟨hr, tracks_eq hr ht⟩
  obtain ⟨it, items, h1, h2, h3, _⟩ := C29_query_partial r hf (by simp [Sails]) (by simp [Qry.canCaptain])
  refine ⟨it, items, h1, h2, h3.1, fun e o => ?_⟩
  rw [h3.2]
  obtain ⟨L, hL⟩ := hr.2.abs
  constructor
  · intro ho
    have hv := item_valid _ hf (by simp [Qry.canCaptain]) e o ho
    refine ⟨hv, ?_⟩
    have hget : v.set.get e = .ok (lookup a.rows e) := hL.get hv.1
    rw [hget, ← comp_eq hr hv.1, comp_rowAt hr hv.1]
    cases hrow : rowAt a e with
    | none => cases neg <;> simp [item, hrow] at ho
    | some row =>
      have := flagged_eq hr (tracks_eq hr ht) hv.1 hrow
      cases neg <;> simp [item, hrow] at ho <;> exact ⟨_, rfl, ho.2.symm, by simp [this, ho.1]⟩
  · rintro ⟨hv, c, hc, rfl, hn⟩
    have hget : v.set.get e = .ok (lookup a.rows e) := hL.get hv.1
    rw [hget, ← comp_eq hr hv.1, comp_rowAt hr hv.1] at hc
    cases hrow : rowAt a e with
    | none => simp [hrow] at hc
    | some row =>
      have := flagged_eq hr (tracks_eq hr ht) hv.1 hrow
      rw [this] at hn
      simp [hrow] at hc
      cases neg <;> simp at hn <;> simp [item, hrow, hn, hc]

/-! ## Non-vacuity -/

/-- A world with two entities and a storage that tracks everything. -/
def trkDemo : World Nat :=
  match (World.new : World Nat).addEntity (fun _ => (true, true, true, true)) [(0, some 10)] with
  | .ok (_, _, w1) =>
    match w1.addEntity (fun _ => (true, true, true, true)) [(0, some 11)] with
    | .ok (_, _, w2) => w2
    | .error _ => w1
  | .error _ => World.new

theorem trkDemo_reach : Reach (fun _ => (true, true, true, true)) trkDemo [.added ⟨0, 0⟩, .added ⟨1, 0⟩] :=
  .addEntity (cs := [(0, some 11)]) (r := .returned)
    (.addEntity (cs := [(0, some 10)]) (r := .returned) (.init false) rfl (by unfold WSpec.Fits; decide))
    rfl (by unfold WSpec.Fits; decide)

/-- Views of the two storages of `demo`. -/
def v0 : Tracking.View Nat := ⟨(lookupK demo.stos 0).getD (SparseSet.new false false false false), 0, 0, 0, 9⟩
def v1 : Tracking.View Nat := ⟨(lookupK demo.stos 1).getD (SparseSet.new false false false false), 0, 0, 0, 9⟩

theorem v0_of : lookupK demo.stos 0 = some v0.set := rfl
theorem v1_of : lookupK demo.stos 1 = some v1.set := rfl

example := C86_views demoR WSpec.demo_reach (vs := [(0, v0), (1, v1)]) (by
  intro x hx
  rcases List.mem_cons.1 hx with rfl | hx
  · exact v0_of
  · rw [List.mem_singleton.1 hx]; exact v1_of) (Nat.le_refl 2)

example : runFold (.tup [.view (Win.ofView v0), .view (Win.ofView v1)]) = .ok [.tup [.comp 10, .comp 20]] := rfl
example : demo.get 0 ⟨0, 0⟩ = .ok (some 10) ∧ demo.get 1 ⟨0, 0⟩ = .ok (some 20) ∧
    demo.get 0 ⟨1, 0⟩ = .ok (some 11) ∧ demo.get 1 ⟨1, 0⟩ = .ok none := ⟨rfl, rfl, rfl, rfl⟩

/-- The first storage and not the second. -/
def only0 : VQry Nat := .tup [.view v0, .absent v1 false]

theorem only0_over : Over demo only0 := by
  simp only [only0, Over, Overs]
  exact ⟨⟨⟨0, v0_of⟩, ⟨1, v1_of⟩, trivial⟩,
    ⟨_, List.mem_cons_self, by simp [VQry.qry, Qry.canCaptain]⟩, by simp [VQry.qrys, VQry.qry, Qry.canSailor]⟩

theorem only0_sails : Sails demoR only0.qry := by
  simp only [only0, VQry.qry, VQry.qrys, Sails, Sailss]
  refine ⟨⟨trivial, trivial, trivial⟩, ⟨_, List.mem_cons_self, by simp [Qry.canCaptain], ?_⟩, ?_⟩
  · intro s n acc h
    simp only [Qry.intoShip, Except.ok.injEq, Prod.mk.injEq] at h
    rw [← h.1]
    simp only [Ship.sailTime]
    exact (of_reads WSpec.demo_reach ⟨0, v0_of⟩).short
  · intro q hq s n acc h
    simp only [List.mem_cons, List.not_mem_nil, or_false] at hq
    rcases hq with rfl | rfl <;> simp only [Qry.intoShip, Except.ok.injEq, Prod.mk.injEq] at h <;> rw [← h.1] <;>
      simp only [Ship.sailOver]

example := C86_query demoR WSpec.demo_reach only0_over only0_sails rfl
example : runFold only0.qry = .ok [.tup [.comp 11, .unit]] := rfl
example : seen only0 ⟨1, 0⟩ = some (.tup [.comp 11, .unit]) ∧ seen only0 ⟨0, 0⟩ = none := ⟨rfl, rfl⟩

/-- A filter, on a storage that tracks: the component inserted last is the one that is new to the view. -/
def flagged0 : VQry Nat := .flag .inserted false ⟨(lookupK trkDemo.stos 0).getD (SparseSet.new false false false false),
  1, 1, 1, 9⟩

example := C32_view_partial demoR .inserted true (v := ⟨(lookupK trkDemo.stos 0).getD (SparseSet.new false false false false),
  1, 1, 1, 9⟩) (of_reads trkDemo_reach ⟨0, rfl⟩) rfl
example := C86_query demoR trkDemo_reach (q := flagged0) (by
  simp only [flagged0, Over]
  exact ⟨⟨0, rfl⟩, rfl⟩) (by simp only [flagged0, VQry.qry, Sails]) rfl
example : runFold flagged0.qry = .ok [.comp 11] := rfl
example : seen flagged0 ⟨1, 0⟩ = some (.comp 11) ∧ seen flagged0 ⟨0, 0⟩ = none := ⟨rfl, rfl⟩

end Verif.WorldIter
