import Verif.Model.SparseSet

/-!
# Tracking: timestamps, the windows of views, clocks of systems, uniques

Models `src/advanced/tracking.rs`, `src/track/*.rs`, the tracking half of `src/views/view.rs` and
`src/views/view_mut.rs`, the part of `src/scheduler/into_workload_system.rs` that keeps the time of the
last run, `World::get_current` / `get_tracking_timestamp`, `AllStorages::clear_all_inserted` /
`clear_all_modified`, and `src/unique.rs` with its views.

Timestamps are `Nat`: the `u64` counter starts at 1 and is only ever incremented, its wrap-around after
2^64 borrows is not modelled.
-/
namespace Verif.Tracking

/-- `src/advanced/tracking.rs:206-209` `is_within`. -/
def isWithin (t last current : Nat) : Bool := decide (last < t) && decide (t ≤ current)

/-- The fields of `View` / `ViewMut` that matter here (`src/views/view.rs:19-28`,
`src/views/view_mut.rs`). -/
structure View (T : Type) where
  set : SparseSet T
  lastInsertion : Nat
  lastModification : Nat
  lastRemovalOrDeletion : Nat
  current : Nat

namespace View
variable {T : Type}

/-- `src/views/view.rs:52-75` `new`; `ViewMut` is built the same way (`src/borrow/mod.rs:291-293`,
`325-327`, `359-361`, `393-395`). `lastRun` is `None` outside of workloads. -/
def new (set : SparseSet T) (lastRun : Option Nat) (current : Nat) : View T where
  set := set
  lastInsertion := lastRun.getD set.lastInsert
  lastModification := lastRun.getD set.lastModified
  lastRemovalOrDeletion := lastRun.getD 0
  current := current

/-- `v[dense].is_within(last, current)`: `[]` panics out of bounds. -/
def flag (v : List Nat) (dense last current : Nat) : Res Bool :=
  match v[dense]? with
  | some t => .ok (isWithin t last current)
  | none => .error .panic

/-- `src/views/view.rs:212-214`, `src/views/view_mut.rs:316-318` `is_inserted`; the body is
`src/track/all.rs:20-31`, the same for every tracking with insertion. -/
def isInserted (v : View T) (e : EId) : Res Bool := do
  match ← v.set.indexOf e with
  | some dense => flag v.set.insertionData dense v.lastInsertion v.current
  | none => .ok false

/-- `src/views/view.rs:231-238`, `src/views/view_mut.rs:380-387` `is_modified`. -/
def isModified (v : View T) (e : EId) : Res Bool := do
  match ← v.set.indexOf e with
  | some dense => flag v.set.modificationData dense v.lastModification v.current
  | none => .ok false

/-- `src/views/view.rs:255-263` `is_inserted_or_modified`. -/
def isInsertedOrModified (v : View T) (e : EId) : Res Bool := do
  if ← v.isInserted e then .ok true else v.isModified e

/-- `src/views/view.rs:271-282` `deleted`: the items in order. -/
def deleted (v : View T) : List (EId × T) :=
  v.set.deletionData.filterMap fun x =>
    if isWithin x.2.1 v.lastRemovalOrDeletion v.current then some (x.1, x.2.2) else none

/-- `src/views/view.rs:298-309` `removed`. -/
def removed (v : View T) : List EId :=
  v.set.removalData.filterMap fun x =>
    if isWithin x.2 v.lastRemovalOrDeletion v.current then some x.1 else none

/-- `src/views/view.rs:288-290` `is_deleted`. -/
def isDeleted (v : View T) (e : EId) : Bool :=
  v.set.deletionData.any fun x =>
    decide (x.1 = e) && isWithin x.2.1 v.lastRemovalOrDeletion v.current

/-- `src/views/view.rs:315-317` `is_removed`. -/
def isRemoved (v : View T) (e : EId) : Bool :=
  v.set.removalData.any fun x => decide (x.1 = e) && isWithin x.2 v.lastRemovalOrDeletion v.current

/-- `src/views/view.rs:325-333` `removed_or_deleted`: the deletions, then the removals. -/
def removedOrDeleted (v : View T) : List EId := (v.deleted.map (·.1)) ++ v.removed

/-- `src/views/view.rs:94-99` `override_last_insertion`. -/
def overrideLastInsertion (v : View T) (t : Nat) : View T := { v with lastInsertion := t }
/-- `src/views/view.rs:114-119` `override_last_modification`. -/
def overrideLastModification (v : View T) (t : Nat) : View T := { v with lastModification := t }
/-- `src/views/view.rs:134-139` `override_last_removal_or_deletion`. -/
def overrideLastRemovalOrDeletion (v : View T) (t : Nat) : View T :=
  { v with lastRemovalOrDeletion := t }

end View

/-! ## Clocks -/

/-- One borrow: `Some(last_run)` when it is made by a system of a workload, and the timestamp taken
from the counter. -/
structure Session where
  lastRun : Option Nat
  current : Nat
  deriving DecidableEq, Repr

/-- The counter of the world (`src/world.rs:47`) and the `last_run` of each system
(`src/scheduler/into_workload_system.rs:145`). -/
structure Clock where
  counter : Nat
  lastRun : Nat → Nat

/-- `src/world.rs:47`, `src/scheduler/into_workload_system.rs:145`. -/
def Clock.new : Clock := ⟨1, fun _ => 0⟩

/-- `src/world.rs:842-847`, `src/all_storages/mod.rs:1232-1237` `get_current`: `fetch_add(1)`. -/
def Clock.getCurrent (c : Clock) : Nat × Clock := (c.counter, { c with counter := c.counter + 1 })

/-- `src/world.rs:850-852`, `src/all_storages/mod.rs:1240-1242` `get_tracking_timestamp`: `load`. -/
def Clock.timestamp (c : Clock) : Nat := c.counter

/-- The beginning of a borrow. A system of a workload (`some b`) takes a timestamp and swaps it into its
`last_run` before it borrows anything (`src/scheduler/into_workload_system.rs:151-153`); every other
borrow only takes a timestamp (`src/world.rs:397`, `src/all_storages/mod.rs:808` and the methods of
`World` and `AllStorages` that call `get_current`). -/
def Clock.start (c : Clock) (sys : Option Nat) : Session × Clock :=
  let (current, c) := c.getCurrent
  match sys with
  | none => (⟨none, current⟩, c)
  | some b =>
    (⟨some (c.lastRun b), current⟩,
      { c with lastRun := fun x => if x = b then current else c.lastRun x })

/-- `src/all_storages/mod.rs:496-502` `clear_all_inserted` on one component storage. -/
def worldClearInserted {T : Type} (c : Clock) (s : SparseSet T) : SparseSet T :=
  s.clearAllInserted c.timestamp
/-- `src/all_storages/mod.rs:506-512` `clear_all_modified` on one component storage. -/
def worldClearModified {T : Type} (c : Clock) (s : SparseSet T) : SparseSet T :=
  s.clearAllModified c.timestamp

/-! ## Uniques -/

/-- `src/unique.rs:12-19`. -/
structure UniqueStorage (T : Type) where
  value : T
  insert : Nat
  modification : Nat
  lastInsert : Nat
  lastModification : Nat
  canClone : Bool
  deriving DecidableEq, Repr

namespace UniqueStorage
variable {T : Type}

/-- `src/unique.rs:58-67` `new`. -/
def new (value : T) (current : Nat) : UniqueStorage T := ⟨value, current, 0, 0, 0, false⟩

/-- `src/unique.rs:35-37` `Storage::clear_all_inserted`. -/
def clearAllInserted (u : UniqueStorage T) (current : Nat) : UniqueStorage T :=
  { u with insert := current }
/-- `src/unique.rs:39-41` `Storage::clear_all_modified`. -/
def clearAllModified (u : UniqueStorage T) (current : Nat) : UniqueStorage T :=
  { u with modification := current }
/-- `src/unique.rs:43-54` `try_clone`; `none` when no clone function was registered. -/
def tryClone (u : UniqueStorage T) (clone : T → T) (otherCurrent : Nat) : Option (UniqueStorage T) :=
  if u.canClone then some ⟨clone u.value, otherCurrent, 0, 0, 0, false⟩ else none
/-- `src/unique.rs:71-73` `register_clone`. -/
def registerClone (u : UniqueStorage T) : UniqueStorage T := { u with canClone := true }

end UniqueStorage

/-- `UniqueView` / `UniqueViewMut` (`src/views/unique_view.rs:9-16`, `unique_view_mut.rs:9-16`). -/
structure UniqueView (T : Type) where
  unique : UniqueStorage T
  lastInsertion : Nat
  lastModification : Nat
  current : Nat

namespace UniqueView
variable {T : Type}

/-- `src/borrow/mod.rs:419-427` and `540-547` (and the thread local variants). -/
def new (u : UniqueStorage T) (lastRun : Option Nat) (current : Nat) : UniqueView T where
  unique := u
  lastInsertion := lastRun.getD u.lastInsert
  lastModification := lastRun.getD u.lastModification
  current := current

/-- `src/views/unique_view.rs:81-85`, `unique_view_mut.rs:23-27` `is_inserted`. -/
def isInserted (v : UniqueView T) : Bool := isWithin v.unique.insert v.lastInsertion v.current
/-- `src/views/unique_view.rs:90-94`, `unique_view_mut.rs:32-36` `is_modified`. -/
def isModified (v : UniqueView T) : Bool :=
  isWithin v.unique.modification v.lastModification v.current
/-- `src/views/unique_view.rs:100-102` `is_inserted_or_modified`. -/
def isInsertedOrModified (v : UniqueView T) : Bool := v.isInserted || v.isModified
/-- `Deref` (`src/views/unique_view.rs:105-112`, `unique_view_mut.rs:110-117`). -/
def read (v : UniqueView T) : T := v.unique.value
/-- `DerefMut` / `AsMut` followed by a write (`src/views/unique_view_mut.rs:119-126`, `135-142`). -/
def write (v : UniqueView T) (x : T) : UniqueView T :=
  { v with unique := { v.unique with modification := v.current, value := x } }
/-- `src/views/unique_view_mut.rs:47-49` `clear_inserted`: the storage left behind. -/
def clearInserted (v : UniqueView T) : UniqueStorage T := { v.unique with lastInsert := v.current }
/-- `src/views/unique_view_mut.rs:52-54` `clear_modified`. -/
def clearModified (v : UniqueView T) : UniqueStorage T :=
  { v.unique with lastModification := v.current }

end UniqueView
end Verif.Tracking
