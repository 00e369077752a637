import Verif.Model.World
import Verif.Model.BorrowViews
import Verif.Model.Threads
import Verif.Model.Workload

/-!
# Conditions on storages

Models `run_if_storage_empty`, `run_if_missing_unique`, `run_if_storage_empty_by_id`, the `skip_if` versions, for systems
(`src/scheduler/system_modificator.rs:16-98`) and workloads (`src/scheduler/workload_modificator.rs:19-98`, `:126-182`), and the
choice of the thread that runs a workload (`src/world/run_batches.rs:121-126`). Not modelled: the `last_run` of the condition,
which `AllStoragesViewMut` does not read; the lock around the map of storages (it is in `Verif/Model/StorageMap.lean`).
-/
namespace Verif.Conds

open Verif.Borrow Verif.Sched

variable {V : Type}

/-- The key of the storage of components `T` in `World.stos`: `StorageId::of` of `SparseSet<T>`, `NonSend<SparseSet<T>>`,
`NonSync<SparseSet<T>>` or `NonSendSync<SparseSet<T>>`, which are different types (`src/borrow/mod.rs:169-403`). -/
def stoKey (m : Threads.Made) (t : Nat) : Nat :=
  match m with
  | .new => 4 * t
  | .nonSend => 4 * t + 1
  | .nonSync => 4 * t + 2
  | .nonSendSync => 4 * t + 3

/-- A `StorageId` of a storage of the library. -/
inductive Sid where
  /-- `StorageId::of::<Entities>()` -/
  | entities
  /-- the storage of components with key `k` -/
  | comp (k : Nat)
  /-- `StorageId::of::<UniqueStorage<T>>()` -/
  | unique (t : Nat)
  deriving DecidableEq, Repr

/-- The cell around the storage. -/
def Sid.cell : Sid → Nat
  | .entities => Borrow.entities
  | .comp k => 2 * k + 2
  | .unique t => 2 * t + 3

/-- A world: entities and components, uniques, and the borrow state of every cell. -/
structure Ctx (V : Type) where
  w : World V
  uniques : Nat → Option V
  cells : Cells

/-- `Storage::is_empty` of the storage, `none` when there is none: `Entities` (`src/entities/mod.rs:443-446`), `SparseSet`
(`src/sparse_set/mod.rs:127-130`, `:796-798`, `src/sparse_set/thread_local.rs:25-27`, `:127-129`, `:228-230`), `UniqueStorage`
(`src/unique.rs:31-33`). -/
def Ctx.isEmpty (c : Ctx V) : Sid → Option Bool
  | .entities => some c.w.ents.data.isEmpty
  | .comp k => (lookupK c.w.stos k).map fun s => s.dense.isEmpty
  | .unique t => (c.uniques t).map fun _ => false

/-- How a condition fails: a borrow error, or the panic of a counter that overflows. -/
inductive CondErr where
  | refused
  | broke (f : Fault)
  deriving DecidableEq

/-- The body of the closure, `src/scheduler/system_modificator.rs:46-52`: `custom_storage_by_id`
(`src/all_storages/custom_storage.rs:238-258`), then the `match`. -/
def Ctx.ask (c : Ctx V) (id : Sid) (st : Cells) : Res (Cells × Bool) :=
  match c.isEmpty id with
  | none => .ok (st, true)
  | some b =>
    (st.guard id.cell false).bind fun (st, got) =>
      if got then (st.dropGuard id.cell false).map (·, b) else .ok (st, false)

/-- `run_if_storage_empty_by_id`, `src/scheduler/system_modificator.rs:40-55`, as a condition: `get_current`, the borrow of
`AllStoragesViewMut` (`src/scheduler/into_workload_run_if.rs:86-90`, `:176-180`), the closure, the drop of the view. -/
def storageEmptyById (id : Sid) : Cond (Ctx V) CondErr := fun c =>
  let c := { c with w := c.w.tick }
  match c.cells.worldBorrow (.allStorages true) with
  | .error f => (c, .error (.broke f))
  | .ok (st, none) => ({ c with cells := st }, .error .refused)
  | .ok (st, some v) =>
    match c.ask id st with
    | .error f => (c, .error (.broke f))
    | .ok (st, b) =>
      match st.dropView v with
      | .error f => (c, .error (.broke f))
      | .ok st => ({ c with cells := st }, .ok b)

/-- `run_if_storage_empty::<T>`, `src/scheduler/system_modificator.rs:21-27`. -/
def storageEmpty (t : Nat) : Cond (Ctx V) CondErr := storageEmptyById (.comp (stoKey .new t))

/-- `run_if_missing_unique::<T>`, `src/scheduler/system_modificator.rs:29-35`. -/
def missingUnique (t : Nat) : Cond (Ctx V) CondErr := storageEmptyById (.unique t)

/-- `src/world/run_batches.rs:121-126`: the thread that evaluates the conditions and runs the systems that need the main thread. With
a local thread pool the whole loop runs on one of its workers. -/
def runsOn (pool : Option Nat) (caller : Nat) : Nat :=
  match pool with
  | some worker => worker
  | none => caller

end Verif.Conds
