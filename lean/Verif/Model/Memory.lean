import Verif.Model.SparseSet
import Verif.Model.Entities

/-!
# Memory usage

Models `src/sparse_set/memory_usage.rs`, `used_memory` and `reserved_memory` of `src/sparse_set/sparse_array.rs`, the
`memory_usage` of `Entities` (`src/entities/mod.rs:433-441`) and `UniqueStorage` (`src/unique.rs:22-29`), and the lists of
`src/all_storages/mod.rs:1787-1814` and `src/world.rs:1776-1784`. Names of storages are left out. On a 64-bit target an `EntityId`, a
`TrackingTimestamp` and an `Option<Box<_>>` take 8 bytes each, and `(EntityId, TrackingTimestamp)` takes 16; the sizes that
depend on the component are parameters. So are the capacities of the vectors, which the standard library chooses.
-/
namespace Verif.Memory
variable {T : Type}

/-- `size_of::<EntityId>()`, `size_of::<TrackingTimestamp>()` and `size_of::<Option<Box<T>>>()`. -/
def WORD : Nat := 8

/-- The sizes that depend on `T`: `T`, `(EntityId, TrackingTimestamp, T)` and `SparseSet<T>`. -/
structure Sizes where
  comp : Nat
  deletion : Nat
  set : Nat

/-- The capacities of the vectors of a `SparseSet`. -/
structure Caps where
  sparse : Nat
  dense : Nat
  data : Nat
  ins : Nat
  mod : Nat
  del : Nat
  rem : Nat

/-- The fold of lines 32-38 and 42-48 of `src/sparse_set/sparse_array.rs`. -/
def pagesMemory (a : SparseArray) : Nat :=
  a.foldl (fun count page => if page.isSome then count + EId.BUCKET_SIZE * WORD else count) 0

/-- `src/sparse_set/sparse_array.rs:30-39` `used_memory`. -/
def usedSparse (a : SparseArray) : Nat := a.length * WORD + pagesMemory a

/-- `src/sparse_set/sparse_array.rs:40-49` `reserved_memory`. -/
def reservedSparse (a : SparseArray) (capacity : Nat) : Nat := capacity * WORD + pagesMemory a

/-- `src/memory_usage.rs:14-23` `StorageMemoryUsage`. -/
structure Usage where
  used : Nat
  allocated : Nat
  count : Nat
  deriving DecidableEq, Repr

/-- `src/sparse_set/memory_usage.rs:31-40` `used_memory_bytes`. -/
def usedBytes (z : Sizes) (s : SparseSet T) : Nat :=
  usedSparse s.sparse + s.dense.length * WORD + s.data.length * z.comp + s.insertionData.length * WORD
    + s.modificationData.length * WORD + s.deletionData.length * z.deletion + s.removalData.length * (2 * WORD) + z.set

/-- `src/sparse_set/memory_usage.rs:20-29` `allocated_memory_bytes`. -/
def allocatedBytes (z : Sizes) (c : Caps) (s : SparseSet T) : Nat :=
  reservedSparse s.sparse c.sparse + c.dense * WORD + c.data * z.comp + c.ins * WORD + c.mod * WORD + c.del * z.deletion
    + c.rem * (2 * WORD) + z.set

/-- `src/sparse_set/memory_usage.rs:11-18` `private_memory_usage`. -/
def setUsage (z : Sizes) (c : Caps) (s : SparseSet T) : Usage := ⟨usedBytes z s, allocatedBytes z c s, s.dense.length⟩

/-- `src/sparse_set/memory_usage.rs:63-80` `SparseSetMemory`. -/
structure Detail where
  sparse : Nat
  dense : Nat
  data : Nat
  insertion : Nat
  modification : Nat
  deletion : Nat
  removal : Nat
  itself : Nat
  deriving DecidableEq, Repr

/-- `src/sparse_set/memory_usage.rs:43-50`. -/
structure Detailed where
  base : Usage
  allocated : Detail
  used : Detail

/-- `src/sparse_set/memory_usage.rs:94-126` `detailed_memory_usage`. -/
def detailed (z : Sizes) (c : Caps) (s : SparseSet T) : Detailed where
  base := setUsage z c s
  allocated := ⟨reservedSparse s.sparse c.sparse, c.dense * WORD, c.data * z.comp, c.ins * WORD, c.mod * WORD, c.del * z.deletion,
    c.rem * (2 * WORD), z.set⟩
  used := ⟨usedSparse s.sparse, s.dense.length * WORD, s.data.length * z.comp, s.insertionData.length * WORD,
    s.modificationData.length * WORD, s.deletionData.length * z.deletion, s.removalData.length * (2 * WORD), z.set⟩

/-- `src/entities/mod.rs:433-441`; `size` is `size_of::<Entities>()`. -/
def entitiesUsage (size capacity : Nat) (s : Entities) : Usage :=
  ⟨s.data.length * WORD + size, capacity * WORD + size, s.data.length⟩

/-- `src/unique.rs:22-29` and `src/unique/thread_local.rs:9-16, 45-52, 81-88`; `size` is `size_of::<UniqueStorage<T>>()`. -/
def uniqueUsage (size : Nat) : Usage := ⟨size, size, 1⟩

/-- A storage seen by the list: is it lent exclusively (or not to this thread), and what it tells of itself; storages without
`memory_usage` tell nothing (`src/storage/mod.rs:55-57`). -/
structure Stored where
  refused : Bool
  usage : Option Usage

/-- A line of the list. -/
inductive Line where
  | usage (u : Usage)
  | borrowed (n : Nat)
  deriving DecidableEq, Repr

/-- One round of the `filter_map` of `src/all_storages/mod.rs:1795-1803`. -/
def listOne (acc : List Line × Nat) (s : Stored) : List Line × Nat :=
  if s.refused then (acc.1, acc.2 + 1)
  else match s.usage with
    | some u => (acc.1 ++ [.usage u], acc.2)
    | none => acc

/-- `src/all_storages/mod.rs:1787-1814`. -/
def listAll (ss : List Stored) : List Line :=
  let (lines, borrowed) := ss.foldl listOne ([], 0)
  if borrowed ≠ 0 then lines ++ [.borrowed borrowed] else lines

/-- `src/world.rs:1776-1784`; `none` is the text "Could not borrow AllStorages". -/
def listWorld (allRefused : Bool) (ss : List Stored) : Option (List Line) :=
  if allRefused then none else some (listAll ss)

end Verif.Memory
