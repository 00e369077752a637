import Verif.Model.EntityId

/-!
# Unique storages in memory

The map from types to boxes of `AllStorages`, the boxes, and the views that point into them. Models
`add_unique` and its thread local variants, `remove_unique`, borrowing and dropping unique views, reading
and writing through them, and `UniqueOrDefaultView`.

A box carries the state of its `AtomicRefCell` as the number of shared guards and whether there is an
exclusive one; that the atomic counter implements this is C37. Types are numbers, all values have one type
`V`; boxes are numbered as they are allocated and addresses are not reused, which favours the code: a
dangling view reads garbage rather than faulting when an address is reused.
-/
namespace Verif.UMem
variable {V : Type}

/-- `AtomicRefCell<UniqueStorage<T>>` (`src/storage/sbox.rs:31-34`, `src/unique.rs:12-19`). -/
structure Box (V : Type) where
  value : V
  readers : Nat
  writer : Bool
  deriving DecidableEq, Repr

/-- `AllStorages::storages` (`src/all_storages/mod.rs`) and the allocator. -/
structure Mem (V : Type) where
  storages : Nat → Option Nat
  heap : Nat → Option (Box V)
  next : Nat

/-- `UniqueView` / `UniqueViewMut`: a pointer into the box and the guard (`src/borrow/mod.rs:405-427`,
`527-547`). -/
structure View where
  addr : Nat
  excl : Bool
  deriving DecidableEq, Repr

inductive Err where
  | missing
  | borrowed
  deriving DecidableEq, Repr

def Mem.new : Mem V := ⟨fun _ => none, fun _ => none, 0⟩

def set {α : Type} (f : Nat → α) (i : Nat) (x : α) : Nat → α := fun j => if j = i then x else f j

namespace Mem

/-- `Drop for SBox` (`src/storage/sbox.rs:21-28`): the box is freed. -/
def free (m : Mem V) (a : Nat) : Mem V := { m with heap := set m.heap a none }

/-- `SBox::new` and the insertion in the map. -/
def alloc (m : Mem V) (ty : Nat) (v : V) : Mem V :=
  { storages := set m.storages ty (some m.next), heap := set m.heap m.next (some ⟨v, 0, false⟩)
    next := m.next + 1 }

/-- `src/all_storages/mod.rs:110-120` `add_unique`: `entry(id).insert(SBox::new(..))` drops the box that was
there, without looking at its borrow state. -/
def addUnique (m : Mem V) (ty : Nat) (v : V) : Mem V :=
  match m.storages ty with
  | some a => (m.alloc ty v).free a
  | none => m.alloc ty v

/-- `src/all_storages/mod.rs:129-178` `add_unique_non_send`, `add_unique_non_sync`,
`add_unique_non_send_sync`: `or_insert_with`. (The thread check that turns the call into nothing is not
modelled.) -/
def addUniqueKeep (m : Mem V) (ty : Nat) (v : V) : Mem V :=
  match m.storages ty with
  | some _ => m
  | none => m.alloc ty v

/-- `src/all_storages/mod.rs:204-236` `remove_unique`. -/
def removeUnique (m : Mem V) (ty : Nat) : Res (Except Err (V × Mem V)) :=
  match m.storages ty with
  | none => .ok (.error .missing)
  | some a =>
    match m.heap a with
    | none => .error .oob
    | some b =>
      if b.writer || b.readers != 0 then .ok (.error .borrowed)
      else .ok (.ok (b.value, { m.free a with storages := set m.storages ty none }))

/-- `src/all_storages/custom_storage.rs:215-237` (shared), `260-282` (exclusive). -/
def borrow (m : Mem V) (ty : Nat) (excl : Bool) : Res (Except Err (View × Mem V)) :=
  match m.storages ty with
  | none => .ok (.error .missing)
  | some a =>
    match m.heap a with
    | none => .error .oob
    | some b =>
      if excl then
        if b.writer || b.readers != 0 then .ok (.error .borrowed)
        else .ok (.ok (⟨a, true⟩, { m with heap := set m.heap a (some { b with writer := true }) }))
      else
        if b.writer then .ok (.error .borrowed)
        else .ok (.ok (⟨a, false⟩, { m with heap := set m.heap a (some { b with readers := b.readers + 1 }) }))

/-- `src/views/unique_or_default.rs:26-49`, `unique_or_default_mut.rs:32-55`: a first borrow, of the same kind, decides
whether the default is added; it is dropped at once (`Ok(_) => {}`), then the view is borrowed. -/
def borrowOrDefault (m : Mem V) (ty : Nat) (excl : Bool) (v : V) : Res (Except Err (View × Mem V)) := do
  match ← m.borrow ty excl with
  | .ok _ => m.borrow ty excl
  | .error .missing => (m.addUnique ty v).borrow ty excl
  | .error .borrowed => .ok (.error .borrowed)

/-- `Deref` (`src/views/unique_view.rs:105-112`, `unique_view_mut.rs:110-117`): reading a freed box is
undefined behaviour. -/
def read (m : Mem V) (v : View) : Res V :=
  match m.heap v.addr with
  | none => .error .oob
  | some b => .ok b.value

/-- `DerefMut` and a write (`src/views/unique_view_mut.rs:119-126`). -/
def write (m : Mem V) (v : View) (x : V) : Res (Mem V) :=
  match m.heap v.addr with
  | none => .error .oob
  | some b => .ok { m with heap := set m.heap v.addr (some { b with value := x }) }

/-- The borrow state after a guard is dropped (`src/atomic_refcell.rs`, the `Drop` of the guards). -/
def release (b : Box V) (excl : Bool) : Box V :=
  if excl then { b with writer := false } else { b with readers := b.readers - 1 }

/-- Dropping the guard of a view. -/
def drop (m : Mem V) (v : View) : Res (Mem V) :=
  match m.heap v.addr with
  | none => .error .oob
  | some b => .ok { m with heap := set m.heap v.addr (some (release b v.excl)) }

end Mem
end Verif.UMem
