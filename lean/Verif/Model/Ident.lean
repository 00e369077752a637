import Verif.Model.EntityId

/-!
# Identifiers of storages and descriptions of borrows

Models `src/storage/storage_id.rs` and `TypeInfo` of `src/scheduler/info.rs:99-159`. A `TypeId` is a number, ordered like it
(the order of `TypeId`s is not specified by Rust, only that it is a total order); a name is a number.
-/
namespace Verif.Ident

/-- `src/storage/storage_id.rs:3-10`. -/
inductive StorageId where
  | typeId (t : Nat)
  | custom (n : Nat)
  deriving DecidableEq, Repr

/-- `#[derive(PartialOrd, Ord)]` (line 4): variants in the order they are written, then their values. -/
def StorageId.cmp : StorageId → StorageId → Ordering
  | .typeId a, .typeId b => compare a b
  | .typeId _, .custom _ => .lt
  | .custom _, .typeId _ => .gt
  | .custom a, .custom b => compare a b

/-- `#[derive(Hash)]`: the variant, then the value. -/
def StorageId.hash : StorageId → List Nat
  | .typeId t => [0, t]
  | .custom n => [1, n]

/-- `impl PartialEq<TypeId> for StorageId`, lines 31-39. -/
def StorageId.eqTypeId : StorageId → Nat → Bool
  | .typeId t, t' => decide (t = t')
  | .custom _, _ => false

/-- `impl PartialOrd<TypeId> for StorageId`, lines 41-49. -/
def StorageId.cmpTypeId : StorageId → Nat → Option Ordering
  | .typeId t, t' => some (compare t t')
  | .custom _, _ => some .lt

/-- `impl Default for StorageId`, lines 51-55. -/
def StorageId.default : StorageId := .custom (2 ^ 64 - 1)

/-- `Mutability`, `src/borrow/mod.rs:34-41`. -/
inductive Mutability where
  | shared | exclusive
  deriving DecidableEq, Repr

/-- Its derived order. -/
def Mutability.cmp : Mutability → Mutability → Ordering
  | .shared, .exclusive => .lt
  | .exclusive, .shared => .gt
  | _, _ => .eq

def Mutability.num : Mutability → Nat
  | .shared => 0
  | .exclusive => 1

/-- `src/scheduler/info.rs:99-112`. -/
structure TypeInfo where
  name : Nat
  mutability : Mutability
  storageId : StorageId
  threadSafe : Bool
  deriving DecidableEq, Repr

/-- `impl PartialEq for TypeInfo`, lines 114-118. -/
def TypeInfo.eq (a b : TypeInfo) : Bool :=
  decide (a.storageId = b.storageId) && decide (a.mutability = b.mutability)

/-- `impl PartialEq<(TypeId, Mutability)> for TypeInfo`, lines 120-124. -/
def TypeInfo.eqPair (a : TypeInfo) (t : Nat) (m : Mutability) : Bool :=
  a.storageId.eqTypeId t && decide (a.mutability = m)

/-- `impl Ord for TypeInfo`, lines 132-140. -/
def TypeInfo.cmp (a b : TypeInfo) : Ordering :=
  match a.storageId.cmp b.storageId with
  | .eq => a.mutability.cmp b.mutability
  | o => o

/-- `impl Hash for TypeInfo`, lines 154-159. -/
def TypeInfo.hash (a : TypeInfo) : List Nat := a.storageId.hash ++ [a.mutability.num]

/-- What is written by the derived `Serialize` (lines 100, 107): all fields but the identifier. -/
structure Written where
  name : Nat
  mutability : Mutability
  threadSafe : Bool
  deriving DecidableEq, Repr

/-- `Serialize`. -/
def TypeInfo.write (a : TypeInfo) : Written := ⟨a.name, a.mutability, a.threadSafe⟩

/-- `Deserialize`: a skipped field gets its default. -/
def Written.read (w : Written) : TypeInfo := ⟨w.name, w.mutability, .default, w.threadSafe⟩

end Verif.Ident
