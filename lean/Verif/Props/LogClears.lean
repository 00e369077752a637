import Verif.Props.SparseSet
import Verif.Model.Tracking
import Verif.Spec.Tracking

/-!
# C17 and C27 over histories

What `removed()` and `deleted()` of a view list after the logs were cleared: the removals and deletions that a later part of the
history made. Nothing here mentions the logs.
-/
namespace Verif
open StoSpec TrkSpec Tracking SparseSet
variable {T : Type}

/-- The removals made by the calls `h`, with the time. -/
def StoSpec.removedIn (h : List (Event T)) : List (EId × Nat) :=
  h.flatMap fun
    | .removed e now (some _) => [(e, now)]
    | .drained now rows => rows.map fun x => (x.1, now)
    | _ => []

/-- The deletions made by the calls `h`, with the time and the component. -/
def StoSpec.deletedIn (h : List (Event T)) : List (EId × Nat × T) :=
  h.flatMap fun
    | .deleted e now (some v) => [(e, now, v)]
    | .retained now calls => (rejected calls).map fun c => (c.id, now, c.left)
    | .cleared now rows => rows.map fun x => (x.1, now, x.2)
    | _ => []

/-- None of the calls clears a log. -/
def StoSpec.NoLogClear (h : List (Event T)) : Prop :=
  ∀ ev ∈ h, match ev with
    | .clearDeleted | .clearRemoved | .clearBoth | .clearOlder _ | .clearDeletedOlder _ | .clearRemovedOlder _ => False
    | _ => True
open StoSpec (removedIn deletedIn NoLogClear)

theorem after_logs (h : List (Event T)) (hc : NoLogClear h) :
    ∀ a : Sto T, a.trkRem = true → a.trkDel = true →
      (after a h).removed = a.removed ++ removedIn h ∧ (after a h).deleted = a.deleted ++ deletedIn h ∧
      (after a h).trkRem = true ∧ (after a h).trkDel = true := by
  induction h with
  | nil => intro a h1 h2; simp [after, removedIn, deletedIn, h1, h2]
  | cons ev h ih =>
    intro a h1 h2
    have hc' : NoLogClear h := fun x hx => hc x (List.mem_cons_of_mem _ hx)
    have hev := hc ev List.mem_cons_self
    have key : (step a ev).removed = a.removed ++ removedIn [ev] ∧ (step a ev).deleted = a.deleted ++ deletedIn [ev] ∧
        (step a ev).trkRem = true ∧ (step a ev).trkDel = true := by
      cases ev with
      | removed e now r => cases r <;> simp [step, removedIn, deletedIn, h1, h2]
      | deleted e now r => cases r <;> simp [step, removedIn, deletedIn, h1, h2]
      | clearDeleted => exact absurd hev id
      | clearRemoved => exact absurd hev id
      | clearBoth => exact absurd hev id
      | clearOlder => exact absurd hev id
      | clearDeletedOlder => exact absurd hev id
      | clearRemovedOlder => exact absurd hev id
      | _ => simp [step, removedIn, deletedIn, h1, h2]
    obtain ⟨k1, k2, k3, k4⟩ := key
    obtain ⟨i1, i2, i3, i4⟩ := ih hc' (step a ev) k3 k4
    have e1 : removedIn (ev :: h) = removedIn [ev] ++ removedIn h := by simp [removedIn]
    have e2 : deletedIn (ev :: h) = deletedIn [ev] ++ deletedIn h := by simp [deletedIn]
    refine ⟨?_, ?_, i3, i4⟩
    · show (after (step a ev) h).removed = _
      rw [i1, k1, e1, List.append_assoc]
    · show (after (step a ev) h).deleted = _
      rw [i2, k2, e2, List.append_assoc]

theorem after_flags (h : List (Event T)) : ∀ a : Sto T, a.trkRem = true → a.trkDel = true →
    (after a h).trkRem = true ∧ (after a h).trkDel = true := by
  induction h with
  | nil => intro a h1 h2; exact ⟨h1, h2⟩
  | cons ev h ih =>
    intro a h1 h2
    refine ih (step a ev) ?_ ?_ <;> cases ev <;> simp [step, h1, h2]

theorem after_append (a : Sto T) (h1 h2 : List (Event T)) : after a (h1 ++ h2) = after (after a h1) h2 := by
  simp [after, List.foldl_append]

/-- The items of a log within the window of a view. -/
theorem view_lists (s : SparseSet T) (last : Option Nat) (now : Nat) :
    (View.new s last now).removed =
      s.removalData.filterMap (fun x => if last.getD 0 < x.2 ∧ x.2 ≤ now then some x.1 else none) ∧
    (View.new s last now).deleted =
      s.deletionData.filterMap (fun x => if last.getD 0 < x.2.1 ∧ x.2.1 ≤ now then some (x.1, x.2.2) else none) := by
  constructor
  · simp only [View.removed, View.new]
    congr 1
    funext x
    simp [isWithin]
  · simp only [View.deleted, View.new]
    congr 1
    funext x
    simp [isWithin]

theorem run_then {s0 s1 s2 s : SparseSet T} {h1 h2 : List (Event T)} {ev : Event T} (r1 : Run s0 h1 s1) (st : Step s1 ev s2)
    (r2 : Run s2 h2 s) : Run s0 (h1 ++ ev :: h2) s := by
  induction r2 with
  | nil => exact r1.snoc st
  | snoc _ hst ih =>
    have := ih.snoc hst
    simpa using this

/-- C17 for the call the world makes, over histories: whatever happened before it, every view, of a system or not, that is borrowed
later lists exactly what was removed and deleted after it, within its window and in order. -/
theorem C17_since_partial {a b : Bool} {h1 h2 : List (Event T)} {s1 s : SparseSet T}
    (hr1 : Run (SparseSet.new a b true true) h1 s1) (hr2 : Run s1.storageClearAllRemovedAndDeleted h2 s) (hc : NoLogClear h2) (last : Option Nat) (now : Nat) :
    (View.new s last now).removed =
      (removedIn h2).filterMap (fun x => if last.getD 0 < x.2 ∧ x.2 ≤ now then some x.1 else none) ∧
    (NoTakeover (h1 ++ h2) → (View.new s last now).deleted =
      (deletedIn h2).filterMap (fun x => if last.getD 0 < x.2.1 ∧ x.2.1 ≤ now then some (x.1, x.2.2) else none)) := by
  have hfl := after_flags h1 (Sto.init a b true true : Sto T) rfl rfl
  have hl := after_logs h2 hc (step (after (Sto.init a b true true) h1) .clearBoth) hfl.1 hfl.2
  have hr := run_then hr1 (ev := .clearBoth) .clearBoth hr2
  have heq : after (Sto.init a b true true) (h1 ++ .clearBoth :: h2) =
      after (step (after (Sto.init a b true true) h1) .clearBoth) h2 := by rw [after_append]; rfl
  constructor
  · have h3 := C16_removed_log hr
    rw [heq, hl.1] at h3
    rw [(view_lists s last now).1, h3]
    simp [step]
  · intro hn
    have h4 := C16_deleted_log_partial hr (fun e v now hm => by
      rcases List.mem_append.1 hm with hm | hm
      · exact hn e v now (List.mem_append_left _ hm)
      · rcases List.mem_cons.1 hm with hm | hm
        · cases hm
        · exact hn e v now (List.mem_append_right _ hm))
    rw [heq, hl.2.1] at h4
    rw [(view_lists s last now).2, h4]
    simp [step]

/-- C27 over histories: every view that is borrowed later lists exactly, within its window and in order, what was removed and deleted
before the call at times later than `t`, and what was removed and deleted after it. The change made at `t` itself is missing
(`C27_fails`). -/
theorem C27_since_partial {a b : Bool} {h1 h2 : List (Event T)} {t : Nat} {s1 s : SparseSet T}
    (hr1 : Run (SparseSet.new a b true true) h1 s1) (hr2 : Run (s1.clearAllRemovedAndDeletedOlderThan t) h2 s) (hc1 : NoLogClear h1) (hc2 : NoLogClear h2)
    (last : Option Nat) (now : Nat) :
    (View.new s last now).removed =
      ((removedIn h1).filter (fun x => decide (t < x.2)) ++ removedIn h2).filterMap
        (fun x => if last.getD 0 < x.2 ∧ x.2 ≤ now then some x.1 else none) ∧
    (NoTakeover (h1 ++ h2) → (View.new s last now).deleted =
      ((deletedIn h1).filter (fun x => decide (t < x.2.1)) ++ deletedIn h2).filterMap
        (fun x => if last.getD 0 < x.2.1 ∧ x.2.1 ≤ now then some (x.1, x.2.2) else none)) := by
  have hfl := after_logs h1 hc1 (Sto.init a b true true : Sto T) rfl rfl
  have hl := after_logs h2 hc2 (step (after (Sto.init a b true true) h1) (.clearOlder t)) hfl.2.2.1 hfl.2.2.2
  have hr := run_then hr1 (ev := .clearOlder t) .clearOlder hr2
  have heq : after (Sto.init a b true true) (h1 ++ .clearOlder t :: h2) =
      after (step (after (Sto.init a b true true) h1) (.clearOlder t)) h2 := by rw [after_append]; rfl
  constructor
  · have h3 := C16_removed_log hr
    rw [heq, hl.1] at h3
    rw [(view_lists s last now).1, h3]
    simp only [step]
    rw [hfl.1]
    rfl
  · intro hn
    have h4 := C16_deleted_log_partial hr (fun e v now hm => by
      rcases List.mem_append.1 hm with hm | hm
      · exact hn e v now (List.mem_append_left _ hm)
      · rcases List.mem_cons.1 hm with hm | hm
        · cases hm
        · exact hn e v now (List.mem_append_right _ hm))
    rw [heq, hl.2.1] at h4
    rw [(view_lists s last now).2, h4]
    simp only [step]
    rw [hfl.2.1]
    rfl

/-- The views' own call over histories (see `C17_fails`): later views list the removals made after it, but still the deletions
made before it. -/
theorem C17_view_since_partial {a b : Bool} {h1 h2 : List (Event T)} {s1 s : SparseSet T}
    (hr1 : Run (SparseSet.new a b true true) h1 s1) (hr2 : Run s1.clearAllRemovedAndDeleted h2 s) (hc1 : NoLogClear h1) (hc2 : NoLogClear h2)
    (last : Option Nat) (now : Nat) :
    (View.new s last now).removed =
      (removedIn h2).filterMap (fun x => if last.getD 0 < x.2 ∧ x.2 ≤ now then some x.1 else none) ∧
    (NoTakeover (h1 ++ h2) → (View.new s last now).deleted =
      (deletedIn h1 ++ deletedIn h2).filterMap
        (fun x => if last.getD 0 < x.2.1 ∧ x.2.1 ≤ now then some (x.1, x.2.2) else none)) := by
  have hfl := after_logs h1 hc1 (Sto.init a b true true : Sto T) rfl rfl
  have hl := after_logs h2 hc2 (step (after (Sto.init a b true true) h1) .clearRemoved) hfl.2.2.1 hfl.2.2.2
  have hr := run_then hr1 (ev := .clearRemoved) .clearRemoved hr2
  have heq : after (Sto.init a b true true) (h1 ++ .clearRemoved :: h2) =
      after (step (after (Sto.init a b true true) h1) .clearRemoved) h2 := by rw [after_append]; rfl
  constructor
  · have h3 := C16_removed_log hr
    rw [heq, hl.1] at h3
    rw [(view_lists s last now).1, h3]
    simp [step]
  · intro hn
    have h4 := C16_deleted_log_partial hr (fun e v now hm => by
      rcases List.mem_append.1 hm with hm | hm
      · exact hn e v now (List.mem_append_left _ hm)
      · rcases List.mem_cons.1 hm with hm | hm
        · cases hm
        · exact hn e v now (List.mem_append_right _ hm))
    rw [heq, hl.2.1] at h4
    rw [(view_lists s last now).2, h4]
    simp only [step]
    rw [hfl.2.1]
    rfl

/-- The hypotheses are met: entity 3 loses its component at time 2, the world clears the logs, entity 4 loses its at time 4. -/
example : ∃ (s1 s : SparseSet Nat), Run (SparseSet.new true true true true)
      [.inserted ⟨3, 0⟩ 10 1 .inserted, .inserted ⟨4, 0⟩ 20 1 .inserted, .removed ⟨3, 0⟩ 2 (some 10)] s1 ∧
    Run s1.storageClearAllRemovedAndDeleted [.deleted ⟨4, 0⟩ 4 (some 20)] s ∧ (View.new s none 5).removed = [] ∧
    (View.new s none 5).deleted = [(⟨4, 0⟩, 20)] := by
  have h0 : Run (SparseSet.new true true true true) ([] : List (Event Nat)) _ := .nil
  have h1 := h0.snoc (Step.insert (e := ⟨3, 0⟩) (v := 10) (now := 1) (by decide) rfl)
  have h2 := h1.snoc (Step.insert (e := ⟨4, 0⟩) (v := 20) (now := 1) (by decide) rfl)
  have h3 := h2.snoc (Step.remove (e := ⟨3, 0⟩) (now := 2) (by decide) rfl)
  have g : ∀ {s0 s1 : SparseSet Nat} {h : List (Event Nat)}, Run s0 h s1 →
      Run s1.storageClearAllRemovedAndDeleted [] s1.storageClearAllRemovedAndDeleted := fun _ => .nil
  have g0 := g h3
  have g1 := g0.snoc (Step.delete (e := ⟨4, 0⟩) (now := 4) (by decide) rfl rfl)
  have hq := C17_since_partial h3 g1 (by intro ev hev; simp at hev; subst hev; trivial) none 5
  refine ⟨_, _, h3, g1, hq.1, hq.2 ?_⟩
  intro e v now hm
  simp at hm

end Verif
