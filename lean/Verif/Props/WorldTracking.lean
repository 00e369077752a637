import Verif.Props.World
import Verif.Model.Tracking

/-!
# The tracking methods of a world (C26)

`World::clear_all_inserted`, `clear_all_modified`, `clear_all_removed_and_deleted` and
`clear_all_removed_and_deleted_older_than_tracking_timestamp` on every storage of a world made through the API.
-/
namespace Verif
open EntSpec (Event)
open WSpec (Reach InsertsNothing demoFlags demo demo_reach)
open World
open Tracking (View)
variable {V : Type} {fl : Flags}

/-- What two storages let a user see of the components, whatever the view. -/
def WSpec.SameRows (s s' : SparseSet V) : Prop :=
  (∀ e, s'.get e = s.get e) ∧ s'.dense = s.dense

/-- Everything a view reports about changes. -/
structure WSpec.Reports (V : Type) where
  inserted : EId → Res Bool
  modified : EId → Res Bool
  removed : List EId
  deleted : List (EId × V)

def WSpec.reports (v : View V) : WSpec.Reports V := ⟨v.isInserted, v.isModified, v.removed, v.deleted⟩
open WSpec (SameRows reports)

theorem setK_middle {α : Type} (pre : List (Nat × α)) (k : Nat) (a b : α) (suf : List (Nat × α))
    (hn : k ∉ pre.map Prod.fst) : setK (pre ++ (k, a) :: suf) k b = pre ++ (k, b) :: suf := by
  induction pre with
  | nil => simp [setK]
  | cons x pre ih =>
    obtain ⟨j, c⟩ := x
    simp only [List.map_cons, List.mem_cons, not_or] at hn
    simp only [List.cons_append, setK, if_neg hn.1]
    rw [ih hn.2]

theorem lookupK_map {α : Type} (l : List (Nat × α)) (f : α → α) (k : Nat) :
    lookupK (l.map fun x => (x.1, f x.2)) k = (lookupK l k).map f := by
  induction l with
  | nil => rfl
  | cons x l ih =>
    obtain ⟨j, a⟩ := x
    simp only [List.map_cons, lookupK]
    split
    · rfl
    · exact ih

/-- A call of the same kind on every storage is a sequence of calls through views. -/
theorem reach_mapStos {w : World V} {h : List Event} (hr : Reach fl w h) (f : SparseSet V → SparseSet V)
    (ev : StoSpec.Event V) (hi : InsertsNothing ev) (hf : ∀ s, StoSpec.Step s ev (f s)) :
    Reach fl { w with stos := w.stos.map fun x => (x.1, f x.2) } h := by
  obtain ⟨A, Q, hok⟩ := reach_ok hr
  have hn := hok.nodup
  have key : ∀ (suf pre : List (Nat × SparseSet V)), ((pre ++ suf).map Prod.fst).Nodup →
      Reach fl { w with stos := pre ++ suf } h →
      Reach fl { w with stos := pre ++ suf.map fun x => (x.1, f x.2) } h := by
    intro suf
    induction suf with
    | nil => intro pre _ h; exact h
    | cons x suf ih =>
      obtain ⟨k, s⟩ := x
      intro pre hn hr
      have hk : k ∉ pre.map Prod.fst := by
        rw [List.map_append, List.nodup_append] at hn
        exact fun hm => hn.2.2 k hm k (by simp) rfl
      have hl : lookupK (pre ++ (k, s) :: suf) k = some s := lookupK_of_mem hn (by simp)
      have h1 := Reach.view (k := k) (s := s) hr hl (hf s) hi
      unfold World.put at h1
      simp only at h1
      rw [setK_middle _ _ _ _ _ hk] at h1
      have h2 := ih (pre ++ [(k, f s)]) (by simpa [List.append_assoc] using hn)
        (by simpa [List.append_assoc] using h1)
      simpa [List.append_assoc] using h2
  exact key w.stos [] hn hr

/-- C26, on worlds. The four calls keep the world reachable, touch no entity, no component and no timestamp counter,
and change what views report as follows. `clear_all_inserted`: views borrowed outside of workloads only look at
insertions later than the counter; systems of workloads keep their windows. `clear_all_modified`: the same for
modifications. `clear_all_removed_and_deleted`: nothing is reported as removed or deleted, by anyone. The variant with
a timestamp: what happened at or before it is no longer reported, everything later is. -/
theorem C26_world_storages {w : World V} {h : List Event} (hr : Reach fl w h) (t : Nat) :
    (∀ w' ∈ [w.clearAllInserted, w.clearAllModified, w.clearAllRemovedAndDeleted, w.clearAllRemovedAndDeletedOlderThan t],
      Reach fl w' h ∧ w'.counter = w.counter ∧ (∀ e, w'.isAlive e = w.isAlive e) ∧ ∀ k e, w'.get k e = w.get k e) ∧
    ∀ k s, lookupK w.stos k = some s →
      (∃ s', lookupK w.clearAllInserted.stos k = some s' ∧ SameRows s s' ∧ ∀ now,
        reports (View.new s' none now) = reports ((View.new s none now).overrideLastInsertion w.counter) ∧
        ∀ last, reports (View.new s' (some last) now) = reports (View.new s (some last) now)) ∧
      (∃ s', lookupK w.clearAllModified.stos k = some s' ∧ SameRows s s' ∧ ∀ now,
        reports (View.new s' none now) = reports ((View.new s none now).overrideLastModification w.counter) ∧
        ∀ last, reports (View.new s' (some last) now) = reports (View.new s (some last) now)) ∧
      (∃ s', lookupK w.clearAllRemovedAndDeleted.stos k = some s' ∧ SameRows s s' ∧ ∀ now last,
        reports (View.new s' last now) = { reports (View.new s last now) with removed := [], deleted := [] }) ∧
      (∃ s', lookupK (w.clearAllRemovedAndDeletedOlderThan t).stos k = some s' ∧ SameRows s s' ∧ ∀ now last,
        reports (View.new s' last now) =
          reports ((View.new s last now).overrideLastRemovalOrDeletion (max (last.getD 0) t))) := by
  refine ⟨?_, fun k s hk => ⟨?_, ?_, ?_, ?_⟩⟩
  · have hget : ∀ (f : SparseSet V → SparseSet V), (∀ s e, (f s).get e = s.get e) → ∀ k e,
        ({ w with stos := w.stos.map fun x => (x.1, f x.2) } : World V).get k e = w.get k e := by
      intro f hf k e
      unfold World.get
      simp only
      rw [lookupK_map]
      cases lookupK w.stos k with
      | none => rfl
      | some s => exact hf s e
    intro w' hw
    simp only [List.mem_cons, List.not_mem_nil, or_false] at hw
    rcases hw with rfl | rfl | rfl | rfl
    · exact ⟨reach_mapStos hr _ (.clearInserted w.counter) trivial fun _ => .clearInserted, rfl, fun _ => rfl,
        hget (fun s => s.clearAllInserted w.counter) fun _ _ => rfl⟩
    · exact ⟨reach_mapStos hr _ (.clearModified w.counter) trivial fun _ => .clearModified, rfl, fun _ => rfl,
        hget (fun s => s.clearAllModified w.counter) fun _ _ => rfl⟩
    · exact ⟨reach_mapStos hr _ .clearBoth trivial fun _ => .clearBoth, rfl, fun _ => rfl, hget (fun s => s.storageClearAllRemovedAndDeleted) fun _ _ => rfl⟩
    · exact ⟨reach_mapStos hr _ (.clearOlder t) trivial fun _ => .clearOlder, rfl, fun _ => rfl,
        hget (fun s => s.clearAllRemovedAndDeletedOlderThan t) fun _ _ => rfl⟩
  · exact ⟨s.clearAllInserted w.counter, by
        have := lookupK_map w.stos (fun s => s.clearAllInserted w.counter) k
        rw [hk] at this
        exact this,
      ⟨fun _ => rfl, rfl⟩, fun now => ⟨rfl, fun last => rfl⟩⟩
  · exact ⟨s.clearAllModified w.counter, by
        have := lookupK_map w.stos (fun s => s.clearAllModified w.counter) k
        rw [hk] at this
        exact this,
      ⟨fun _ => rfl, rfl⟩, fun now => ⟨rfl, fun last => rfl⟩⟩
  · exact ⟨s.storageClearAllRemovedAndDeleted, by
        have := lookupK_map w.stos (fun s => s.storageClearAllRemovedAndDeleted) k
        rw [hk] at this
        exact this,
      ⟨fun _ => rfl, rfl⟩, fun now last => rfl⟩
  · refine ⟨s.clearAllRemovedAndDeletedOlderThan t, by
        have := lookupK_map w.stos (fun s => s.clearAllRemovedAndDeletedOlderThan t) k
        rw [hk] at this
        exact this,
      ⟨fun _ => rfl, rfl⟩, fun now last => ?_⟩
    have hin : ∀ x : Nat, (decide (t < x) && Tracking.isWithin x (last.getD 0) now) =
        Tracking.isWithin x (max (last.getD 0) t) now := by
      intro x
      unfold Tracking.isWithin
      rw [Bool.eq_iff_iff]
      simp only [Bool.and_eq_true, decide_eq_true_eq]
      omega
    have h1 : (View.new (s.clearAllRemovedAndDeletedOlderThan t) last now).removed =
        ((View.new s last now).overrideLastRemovalOrDeletion (max (last.getD 0) t)).removed := by
      unfold View.removed
      show List.filterMap _ (s.removalData.filter _) = List.filterMap _ s.removalData
      rw [List.filterMap_filter]
      congr 1
      funext x
      have := hin x.2
      show (if decide (t < x.2) = true then (if Tracking.isWithin x.2 (last.getD 0) now = true then some x.1 else none) else none) =
        (if Tracking.isWithin x.2 (max (last.getD 0) t) now = true then some x.1 else none)
      rw [← this]
      cases decide (t < x.2) <;> simp
    have h2 : (View.new (s.clearAllRemovedAndDeletedOlderThan t) last now).deleted =
        ((View.new s last now).overrideLastRemovalOrDeletion (max (last.getD 0) t)).deleted := by
      unfold View.deleted
      show List.filterMap _ (s.deletionData.filter _) = List.filterMap _ s.deletionData
      rw [List.filterMap_filter]
      congr 1
      funext x
      have := hin x.2.1
      show (if decide (t < x.2.1) = true then (if Tracking.isWithin x.2.1 (last.getD 0) now = true then some (x.1, x.2.2) else none) else none) =
        (if Tracking.isWithin x.2.1 (max (last.getD 0) t) now = true then some (x.1, x.2.2) else none)
      rw [← this]
      cases decide (t < x.2.1) <;> simp
    unfold reports
    rw [h1, h2]
    rfl

/-- C26, on worlds. `clear_all_inserted_and_modified` is `clear_all_inserted` followed by `clear_all_modified`: views borrowed outside of
workloads only look at insertions and modifications later than the counter. -/
theorem C26_world_both {w : World V} {h : List Event} (hr : Reach fl w h) :
    w.clearAllInsertedAndModified = w.clearAllInserted.clearAllModified ∧ Reach fl w.clearAllInsertedAndModified h ∧
    ∀ k s, lookupK w.stos k = some s → ∃ s', lookupK w.clearAllInsertedAndModified.stos k = some s' ∧ SameRows s s' ∧ ∀ now,
      reports (View.new s' none now) =
        reports (((View.new s none now).overrideLastInsertion w.counter).overrideLastModification w.counter) ∧
      ∀ last, reports (View.new s' (some last) now) = reports (View.new s (some last) now) := by
  have heq : w.clearAllInsertedAndModified = w.clearAllInserted.clearAllModified := by
    unfold World.clearAllInsertedAndModified World.clearAllInserted World.clearAllModified
    simp only [List.map_map]
    rfl
  have h1 := ((C26_world_storages hr 0).1 w.clearAllInserted (by simp)).1
  refine ⟨heq, ?_, fun k s hk => ?_⟩
  · rw [heq]
    exact ((C26_world_storages h1 0).1 w.clearAllInserted.clearAllModified (by simp)).1
  · refine ⟨(s.clearAllInserted w.counter).clearAllModified w.counter, ?_, ⟨fun _ => rfl, rfl⟩, fun now => ⟨rfl, fun last => rfl⟩⟩
    have := lookupK_map w.stos (fun s => (s.clearAllInserted w.counter).clearAllModified w.counter) k
    rw [hk] at this
    exact this

example : lookupK demo.stos 0 ≠ none ∧ demo.clearAllInserted.get 0 ⟨1, 0⟩ = .ok (some 11) ∧
    ∃ h, Reach demoFlags demo.clearAllRemovedAndDeleted h :=
  ⟨by decide, rfl, _, ((C26_world_storages demo_reach 0).1 _ (by simp)).1⟩

end Verif
