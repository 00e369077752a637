import Verif.Model.World

/-!
# Turning tracking on at run time

`World::track_*` (`src/world.rs:1281-1313`) and `AllStorages::track_*` (`src/all_storages/mod.rs:1244-1271`), for one component type
or a tuple of them (`src/advanced/tracking/tuple_track.rs:22-103`). The component types are given by their numbers, in the order of
the tuple.
-/
namespace Verif
variable {V : Type}

/-- `src/sparse_set/mod.rs:480-485` `track_all`. -/
def SparseSet.trackAll (s : SparseSet V) : SparseSet V :=
  s.trackInsertion.trackModification.trackDeletion.trackRemoval

/-- Which of the five calls: `track_insertion`, `track_modification`, `track_deletion`, `track_removal`, `track_all`. -/
inductive TrackCall where
  | insertion | modification | deletion | removal | all
  deriving DecidableEq, Repr

/-- The call on one storage (`src/advanced/tracking/tuple_track.rs:22-58`). -/
def TrackCall.on (c : TrackCall) (s : SparseSet V) : SparseSet V :=
  match c with
  | .insertion => s.trackInsertion
  | .modification => s.trackModification
  | .deletion => s.trackDeletion
  | .removal => s.trackRemoval
  | .all => s.trackAll

/-- `src/advanced/tracking/tuple_track.rs:60-108` `impl_track`: one type after the other, the storage being made if missing. -/
def World.trackOn (fl : Flags) (c : TrackCall) : List Nat → World V → World V
  | [], w => w
  | k :: ks, w => World.trackOn fl c ks (w.put k (c.on (w.stoOr fl k)))

end Verif
