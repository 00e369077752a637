import Verif.Model.Tracking

/-!
# The sixteen tracking types, declared and run-time tracking

Models `src/track.rs`, `src/track/*.rs`, the constants and checks of `src/advanced/tracking.rs`,
`shipyard_proc/src/component_expand.rs`, `SparseSet::check_tracking` / `enable_tracking`, the checks made when
a view is borrowed (`src/borrow/mod.rs`), `World::track_*` on one storage, and what `&mut ViewMut` iterators
hand out (`src/iter/output.rs`, `src/iter/captain.rs`, `src/iter/sailor.rs`).

The functions `clear_all_removed_and_deleted*` of `src/track/*.rs` have no caller and are not modelled.
-/
namespace Verif.Track
open Tracking

/-- `src/track.rs:18-49`. -/
inductive Kind where
  | untracked | insertion | insertionAndModification | insertionAndModificationAndDeletion
  | insertionAndModificationAndRemoval | insertionAndDeletion | insertionAndRemoval
  | insertionAndDeletionAndRemoval | modification | modificationAndDeletion | modificationAndRemoval
  | modificationAndDeletionAndRemoval | deletion | deletionAndRemoval | removal | all
  deriving DecidableEq, Repr

namespace Kind

/-- `Tracking::VALUE`, one constant per file of `src/track/`. The one of `modification_removal.rs:12` is
written `0b10 & 0b1010`. -/
def value : Kind → Nat
  | untracked => 0
  | insertion => 0b0001
  | insertionAndModification => 0b0011
  | insertionAndModificationAndDeletion => 0b0111
  | insertionAndModificationAndRemoval => 0b1011
  | insertionAndDeletion => 0b0101
  | insertionAndRemoval => 0b1001
  | insertionAndDeletionAndRemoval => 0b1101
  | modification => 0b0010
  | modificationAndDeletion => 0b0110
  | modificationAndRemoval => 0b10 &&& 0b1010
  | modificationAndDeletionAndRemoval => 0b1110
  | deletion => 0b0100
  | deletionAndRemoval => 0b1100
  | removal => 0b1000
  | all => 0b1111

/-- `src/advanced/tracking.rs:33-35` `track_insertion`. -/
def trackInsertion (k : Kind) : Bool := k.value &&& 0b0001 != 0
/-- `src/advanced/tracking.rs:53-55` `track_modification`. -/
def trackModification (k : Kind) : Bool := k.value &&& 0b0010 != 0
/-- `src/advanced/tracking.rs:73-75` `track_deletion`. -/
def trackDeletion (k : Kind) : Bool := k.value &&& 0b0100 != 0
/-- `src/advanced/tracking.rs:93-95` `track_removal`. -/
def trackRemoval (k : Kind) : Bool := k.value &&& 0b1000 != 0

/-- Which types implement `InsertionTracking`, so that views have `inserted` and `is_inserted`; they are also
the ones whose file overrides `Tracking::is_inserted`. -/
def hasInsertion : Kind → Bool
  | insertion | insertionAndModification | insertionAndModificationAndDeletion
  | insertionAndModificationAndRemoval | insertionAndDeletion | insertionAndRemoval
  | insertionAndDeletionAndRemoval | all => true
  | _ => false
/-- The same for `ModificationTracking`. -/
def hasModification : Kind → Bool
  | insertionAndModification | insertionAndModificationAndDeletion | insertionAndModificationAndRemoval
  | modification | modificationAndDeletion | modificationAndRemoval
  | modificationAndDeletionAndRemoval | all => true
  | _ => false
/-- The same for `DeletionTracking`. -/
def hasDeletion : Kind → Bool
  | insertionAndModificationAndDeletion | insertionAndDeletion | insertionAndDeletionAndRemoval
  | modificationAndDeletion | modificationAndDeletionAndRemoval | deletion | deletionAndRemoval | all => true
  | _ => false
/-- The same for `RemovalTracking`. -/
def hasRemoval : Kind → Bool
  | insertionAndModificationAndRemoval | insertionAndRemoval | insertionAndDeletionAndRemoval
  | modificationAndRemoval | modificationAndDeletionAndRemoval | deletionAndRemoval | removal | all => true
  | _ => false

/-- The lists of types in `src/iter/output.rs:33,45`, `src/iter/captain.rs:86,122`, `src/iter/sailor.rs:80,112`:
does iterating `&mut ViewMut<T, Track>` hand out `Mut<T>` rather than `&mut T`? -/
def yieldsMut : Kind → Bool
  | untracked | insertion | insertionAndDeletion | insertionAndRemoval | insertionAndDeletionAndRemoval
  | deletion | deletionAndRemoval | removal => false
  | modification | insertionAndModification | insertionAndModificationAndDeletion
  | insertionAndModificationAndRemoval | modificationAndDeletion | modificationAndRemoval
  | modificationAndDeletionAndRemoval | all => true

end Kind

/-! ## The derive macro -/

/-- The four flags of `expand_component` (`shipyard_proc/src/component_expand.rs:11-14`). -/
structure Flags where
  ins : Bool
  mod : Bool
  del : Bool
  rem : Bool
  deriving DecidableEq, Repr

/-- The loop over the identifiers of `#[track(...)]` (`shipyard_proc/src/component_expand.rs:18-41`); `none` is the
compile error. -/
def readTokens : List String → Flags → Option Flags
  | [], f => some f
  | t :: ts, f =>
    if t = "Insertion" then readTokens ts { f with ins := true }
    else if t = "Modification" then readTokens ts { f with mod := true }
    else if t = "Deletion" then readTokens ts { f with del := true }
    else if t = "Removal" then readTokens ts { f with rem := true }
    else if t = "All" then readTokens ts ⟨true, true, true, true⟩
    else none

/-- The match on the flags (`shipyard_proc/src/component_expand.rs:50-72`). -/
def kindOf : Flags → Kind
  | ⟨true, true, true, true⟩ => .all
  | ⟨true, true, true, false⟩ => .insertionAndModificationAndDeletion
  | ⟨true, true, false, true⟩ => .insertionAndModificationAndRemoval
  | ⟨true, true, false, false⟩ => .insertionAndModification
  | ⟨true, false, true, true⟩ => .insertionAndDeletionAndRemoval
  | ⟨true, false, true, false⟩ => .insertionAndDeletion
  | ⟨true, false, false, true⟩ => .insertionAndRemoval
  | ⟨true, false, false, false⟩ => .insertion
  | ⟨false, true, true, true⟩ => .modificationAndDeletionAndRemoval
  | ⟨false, true, true, false⟩ => .modificationAndDeletion
  | ⟨false, true, false, true⟩ => .modificationAndRemoval
  | ⟨false, true, false, false⟩ => .modification
  | ⟨false, false, true, true⟩ => .deletionAndRemoval
  | ⟨false, false, true, false⟩ => .deletion
  | ⟨false, false, false, true⟩ => .removal
  | ⟨false, false, false, false⟩ => .untracked

/-- `#[derive(Component)] #[track(tokens)]`: the `Tracking` of the component
(`shipyard_proc/src/component_expand.rs:5-86`). The absence of the attribute is the empty list. -/
def derive (tokens : List String) : Option Kind :=
  (readTokens tokens ⟨false, false, false, false⟩).map kindOf

/-- A token between the parentheses of `#[track(...)]`: an identifier, or a punctuation, a literal or a group in delimiters, which
the loop skips (`shipyard_proc/src/component_expand.rs:18-19`). -/
inductive Tok where
  | ident (s : String) | punct | literal | group (inside : List String)
  deriving Repr

/-- The identifiers the loop reads (`shipyard_proc/src/component_expand.rs:18-19`); it does not look into groups. -/
def idents : List Tok → List String
  | [] => []
  | .ident s :: ts => s :: idents ts
  | _ :: ts => idents ts

/-- `syn::Meta`: `#[name]`, `#[name(...)]` or `#[name = ...]`. -/
inductive AttrMeta where
  | path | list (toks : List Tok) | nameValue
  deriving Repr

/-- An attribute of the struct: `#[...]` or `#![...]`, its path when it is a single identifier, the rest. -/
structure DeriveAttr where
  outer : Bool
  name : Option String
  arg : AttrMeta

/-- The attribute the macro looks at: the first `#[track...]` (`shipyard_proc/src/lib.rs:25-37`). -/
def trackAttr (attrs : List DeriveAttr) : Option DeriveAttr :=
  (attrs.filter (·.outer)).find? (fun a => decide (a.name = some "track"))

/-- `#[derive(Component)]` on a struct with these attributes (`shipyard_proc/src/lib.rs:19-42`,
`shipyard_proc/src/component_expand.rs:5-86`); `none` is a compile error. -/
def deriveComponent (attrs : List DeriveAttr) : Option Kind :=
  match trackAttr attrs with
  | none => some .untracked
  | some a =>
    match a.arg with
    | .list toks => derive (idents toks)
    | _ => none

/-! ## Storages and views of a component with a tracking type -/
variable {T : Type}

/-- `src/sparse_set/mod.rs:79-102` `new` for a component whose `Tracking` is `k`. -/
def newFor (k : Kind) : SparseSet T :=
  SparseSet.new k.trackInsertion k.trackModification k.trackDeletion k.trackRemoval

/-- `src/sparse_set/mod.rs:509-523` `check_tracking`; `false` is `Err(TrackingNotEnabled)`. -/
def checkTracking (k : Kind) (s : SparseSet T) : Bool :=
  !((k.trackInsertion && !s.trkIns) || (k.trackModification && !s.trkMod)
    || (k.trackDeletion && !s.trkDel) || (k.trackRemoval && !s.trkRem))

/-- `src/sparse_set/mod.rs:524-537` `enable_tracking`, run for each view of the systems of a workload when it is
built (`src/scheduler/workload.rs:466-478`) or by `apply_tracking` (`73-85`). -/
def enableTracking (k : Kind) (s : SparseSet T) : SparseSet T :=
  let s := if k.trackInsertion then s.trackInsertion else s
  let s := if k.trackModification then s.trackModification else s
  let s := if k.trackDeletion then s.trackDeletion else s
  if k.trackRemoval then s.trackRemoval else s

/-- `src/sparse_set/mod.rs:480-485` `track_all`. -/
def trackAll (s : SparseSet T) : SparseSet T :=
  s.trackInsertion.trackModification.trackDeletion.trackRemoval

/-- Borrowing `View<T, k>` or `ViewMut<T, k>` (`src/borrow/mod.rs:173-191`, `274-302` and the thread local
variants), once the storage is borrowed. -/
def borrowView (k : Kind) (s : SparseSet T) (lastRun : Option Nat) (current : Nat) : Option (View T) :=
  if checkTracking k s then some (View.new s lastRun current) else none

/-- `Tracking::is_inserted` of the type `k` (`src/advanced/tracking.rs:102-110` by default, overridden in
`src/track/`) as called by the views. -/
def isInserted (k : Kind) (v : View T) (e : EId) : Res Bool :=
  if k.hasInsertion then v.isInserted e else .ok false
/-- `Tracking::is_modified`. -/
def isModified (k : Kind) (v : View T) (e : EId) : Res Bool :=
  if k.hasModification then v.isModified e else .ok false
/-- `Tracking::is_deleted`. -/
def isDeleted (k : Kind) (v : View T) (e : EId) : Bool := k.hasDeletion && v.isDeleted e
/-- `Tracking::is_removed`. -/
def isRemoved (k : Kind) (v : View T) (e : EId) : Bool := k.hasRemoval && v.isRemoved e

/-- `src/views/view.rs:339-342`, `src/views/view_mut.rs:570-573` `is_removed_or_deleted`. -/
def isRemovedOrDeleted (k : Kind) (v : View T) (e : EId) : Bool := isDeleted k v e || isRemoved k v e

/-- `RemovalOrDeletionTracking::removed_or_deleted` of each type in `src/track/`: the deletions, then the
removals, of what the type tracks. -/
def logOf (k : Kind) (s : SparseSet T) : List (EId × Nat) :=
  (if k.hasDeletion then s.deletionData.map (fun x => (x.1, x.2.1)) else []) ++
    (if k.hasRemoval then s.removalData else [])

/-- `src/views/view.rs:325-333`, `src/views/view_mut.rs:575-583` `removed_or_deleted`. -/
def removedOrDeleted (k : Kind) (v : View T) : List EId :=
  (logOf k v.set).filterMap fun x =>
    if isWithin x.2 v.lastRemovalOrDeletion v.current then some x.1 else none

/-! ## Writing through `(&mut view).iter()` -/

/-- What the body of the loop does with the component at position `i`: `f` says what it writes, `none` when it
does not use the item mutably. Through `Mut` a write stamps `modification_data.add(i)`
(`src/mut.rs:34-43`), through `&mut T` it does not. -/
def iterStep (k : Kind) (now : Nat) (f : EId → T → Option T) (s : SparseSet T) (i : Nat) : Res (SparseSet T) := do
  let e ← vecGetU s.dense i
  let x ← vecGetU s.data i
  match f e x with
  | none => .ok s
  | some y => do
    let m ← setUIf k.yieldsMut s.modificationData i now
    let data ← vecSetU s.data i y
    .ok { s with data := data, modificationData := m }

/-- `for (e, x) in (&mut view).iter().with_id() { ... }` over the positions `i, i + 1, ..` (`n` of them). -/
def iterFrom (k : Kind) (now : Nat) (f : EId → T → Option T) (s : SparseSet T) (i : Nat) : Nat → Res (SparseSet T)
  | 0 => .ok s
  | n + 1 => do
    let s ← iterStep k now f s i
    iterFrom k now f s (i + 1) n

/-- The whole loop. -/
def iterMut (k : Kind) (now : Nat) (f : EId → T → Option T) (s : SparseSet T) : Res (SparseSet T) :=
  iterFrom k now f s 0 s.dense.length

end Verif.Track
