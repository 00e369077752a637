import Verif.Model.Tracking

/-!
# Several worlds and their counters

Models the `Arc<AtomicU64>` that `World` and its `AllStorages` share (`src/world.rs:36-60`,
`src/all_storages/mod.rs:60-90`) as a reference into a list of counters, so that the two halves of a world can
come to use different counters. One component storage of each world is in view; the other parts of a world
(entities, uniques, workloads) are in the models of their own.
-/
namespace Verif.Worlds
open Verif.Tracking
variable {T : Type}

/-- `src/all_storages/mod.rs:60-68` `AllStorages`: its counter and one of its storages. -/
structure AllStorages (T : Type) where
  counter : Nat
  set : SparseSet T

/-- `src/world.rs:36-42` `World`: its counter, its `AllStorages` and the `last_run` of the systems of its
scheduler. -/
structure World (T : Type) where
  counter : Nat
  all : AllStorages T
  lastRun : Nat → Nat

/-- All counters and all worlds of a program. -/
structure Program (T : Type) where
  counters : List Nat
  worlds : List (World T)

/-- `src/world.rs:44-60` `World::default`: one new counter, given to both halves. -/
def Program.newWorld (m : Program T) (set : SparseSet T) : Program T :=
  { counters := m.counters ++ [1]
    worlds := m.worlds ++ [⟨m.counters.length, ⟨m.counters.length, set⟩, fun _ => 0⟩] }

/-- The value of a counter. -/
def Program.count (m : Program T) (r : Nat) : Nat := m.counters.getD r 0

/-- `src/world.rs:842-847` (`r` the counter of the world) and `src/all_storages/mod.rs:1232-1237` (`r` the one of its
`AllStorages`) `get_current`. -/
def Program.getCurrent (m : Program T) (r : Nat) : Nat × Program T :=
  (m.count r, { m with counters := m.counters.set r (m.count r + 1) })

/-- The beginning of a borrow in world `i`. With `viaWorld` it is made by `World` and takes its timestamp from the counter
of the world: a run of a system of a workload (`src/scheduler/into_workload_system.rs:151-153`) or `World::run`,
`World::borrow` (`src/world.rs:397`, `1390`). Otherwise it is made by a method of `AllStorages`, which all methods of `World`
that add, remove or delete call (`src/all_storages/mod.rs:296`, `532`, `549`). -/
def Program.start (m : Program T) (i : Nat) (w : World T) (viaWorld : Bool) (sys : Option Nat) : Session × Program T :=
  let (current, m) := m.getCurrent (if viaWorld then w.counter else w.all.counter)
  match sys with
  | none => (⟨none, current⟩, m)
  | some b =>
    (⟨some (w.lastRun b), current⟩,
      { m with worlds := m.worlds.set i { w with lastRun := fun x => if x = b then current else w.lastRun x } })

/-- `src/all_storages/mod.rs:496-512` `clear_all_inserted` and `clear_all_modified`, with the counter of `AllStorages`. -/
def Program.clearInserted (m : Program T) (i : Nat) (w : World T) : Program T :=
  { m with worlds := m.worlds.set i { w with all := { w.all with set := w.all.set.clearAllInserted (m.count w.all.counter) } } }
/-- See `clearInserted`. -/
def Program.clearModified (m : Program T) (i : Nat) (w : World T) : Program T :=
  { m with worlds := m.worlds.set i { w with all := { w.all with set := w.all.set.clearAllModified (m.count w.all.counter) } } }

/-- A call on the storage of world `i`, whose result is `set`. -/
def Program.store (m : Program T) (i : Nat) (w : World T) (set : SparseSet T) : Program T :=
  { m with worlds := m.worlds.set i { w with all := { w.all with set } } }

/-- `core::mem::swap` of the `AllStorages` of two worlds through two `AllStoragesViewMut`
(`src/views/all_storages.rs:43-48` `DerefMut`): everything stored changes places, with the counter of
`AllStorages`; the counter of the world and the `last_run` of its systems stay. -/
def Program.exchange (m : Program T) (i j : Nat) (a b : World T) : Program T :=
  { m with worlds := (m.worlds.set i { a with all := b.all }).set j { b with all := a.all } }

end Verif.Worlds
