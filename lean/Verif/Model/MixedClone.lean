import Verif.Model.Mixed

/-!
# `clone_storages_to` with all kinds of storages

Not modelled: the checks on threads with the feature `thread_local` (`src/all_storages/mod.rs:1646-1670`, Model/Threads.lean).
-/
namespace Verif.Mix
open Tracking (UniqueStorage)
variable {V U X : Type}

/-- `Storage::try_clone`: `src/sparse_set/mod.rs:835-856`, `src/unique.rs:43-54`, `src/entities/mod.rs:461-467`, and what a user's storage
answers. `cl k` and `clu k` are the functions that clone a component or unique of id `k`. -/
def Sto.tryClone (fl : Flags) (cl : Nat → V → V) (clu : Nat → U → U) (cx : Nat → X → Option X) (nowO k : Nat) :
    Sto V U X → Option (Sto V U X)
  | .component s => if s.canClone then some (.component (World.cloneSto fl cl nowO k s)) else none
  | .unique u => (u.tryClone (clu k) nowO).map .unique
  | .entities E => some (.entities E.tryClone)
  | .user x => (cx nowO x).map .user

/-- The loop of `clone_storages_to`: `src/all_storages/mod.rs:1643-1703`. -/
def All.cloneLoop (fl : Flags) (cl : Nat → V → V) (clu : Nat → U → U) (cx : Nat → X → Option X) (nowO : Nat) :
    List (Nat × Sto V U X) → List (Nat × Sto V U X) → List (Nat × Sto V U X)
  | [], o => o
  | (k, s) :: l, o =>
    match s.tryClone fl cl clu cx nowO k with
    | some s' => cloneLoop fl cl clu cx nowO l (setK o k s')
    | none => cloneLoop fl cl clu cx nowO l o

/-- `src/all_storages/mod.rs:1639-1705` `clone_storages_to`. Returns the other world. -/
def All.cloneStoragesTo (fl : Flags) (cl : Nat → V → V) (clu : Nat → U → U) (cx : Nat → X → Option X) (m o : All V U X) : All V U X :=
  { stos := All.cloneLoop fl cl clu cx o.counter m.stos o.stos, counter := o.counter + 1 }

end Verif.Mix
