import Verif.Model.World
import Verif.Model.BorrowViews

/-!
# `World::get` and `AllStorages::get`

Models `src/advanced/get_component.rs`, `src/world.rs:1378-1393` and `src/all_storages/mod.rs:1337-1344`.

Simplifications:
* what is asked for is a list of pairs: the component type, and `true` for `&mut T`. Nested tuples are flattened;
* the implementations for `NonSend`, `NonSync` and `NonSendSync` are copies of the others; who may borrow is in
  the `owner` and `isSync` fields of the cells;
* the state is the cells of the world beside its content: the cell of component type `k` is `cellOf k`.
-/
namespace Verif.GetComp
open Borrow
variable {V : Type} (fl : Flags)

/-- The cell of the storage of component type `k`; the cells 0 and 1 are those of `AllStorages` and of the entities. -/
def cellOf (k : Nat) : Nat := k + 2

/-- `src/error.rs` `GetComponent`: `StorageBorrow(AllStoragesBorrow)`, `StorageBorrow(StorageBorrow { name, .. })`,
`MissingComponent(MissingComponent { id, name })`. -/
inductive GetErr where
  | allBorrow
  | borrow (k : Nat)
  | missing (id : EId) (k : Nat)
  deriving DecidableEq, Repr

/-- `Ref` and `RefMut` (`src/advanced/get_component.rs:14-19`, `51-58`). The references `inner` and `flag` are the
position `i` in the storage `k`; `flag` being `Some` is the tracking flag of the storage. -/
structure Handle where
  k : Nat
  i : Nat
  exclusive : Bool
  current : Nat
  all : Bool
  deriving DecidableEq, Repr

/-- The borrows a `Ref` or `RefMut` holds. -/
def Handle.view (hd : Handle) : View := .view (cellOf hd.k) hd.exclusive hd.all

/-- `GetComponent::get` for `&T` and `&mut T` (`src/advanced/get_component.rs:129-154`, `244-278`):
`custom_storage_or_insert(_mut)`, then `private_get` or `index_of`. On an error the borrow of the storage is dropped
before `all_borrow`. -/
def getOne (st : Cells) (w : World V) (all : Bool) (now : Nat) (e : EId) (k : Nat) (x : Bool) :
    Res (Cells × World V × Except GetErr Handle) :=
  let st := st.create (cellOf k)
  let w := w.create fl k
  (st.guard (cellOf k) x).bind fun (st, got) =>
  if got = false then (st.dropAll all).map fun st => (st, w, .error (.borrow k))
  else
    match lookupK w.stos k with
    | none => .error .oob
    | some s =>
      (s.indexOf e).bind fun i =>
      match i with
      | none =>
        (st.dropGuard (cellOf k) x).bind fun st =>
        (st.dropAll all).map fun st => (st, w, .error (.missing e k))
      | some i =>
        (vecGetU s.data i).bind fun _ => .ok (st, w, .ok ⟨k, i, x, now, all⟩)

/-- The elements of a tuple one after the other (`src/advanced/get_component.rs:390`): at the first error what was
made so far is dropped. -/
def getEach (st : Cells) (w : World V) (all : Bool) (now : Nat) (e : EId) :
    List (Nat × Bool) → Res (Cells × World V × Except GetErr (List Handle))
  | [] => .ok (st, w, .ok [])
  | (k, x) :: qs =>
    (st.cloneAll all).bind fun st =>
    (getOne fl st w all now e k x).bind fun (st, w, r) =>
    match r with
    | .error err => .ok (st, w, .error err)
    | .ok hd =>
      (getEach st w all now e qs).bind fun (st, w, rs) =>
      match rs with
      | .error err => (st.dropView hd.view).map fun st => (st, w, .error err)
      | .ok hds => .ok (st, w, .ok (hd :: hds))

/-- `GetComponent::get` for tuples: `all_borrow` is dropped at the end (`src/advanced/get_component.rs:379-394`). -/
def getTuple (st : Cells) (w : World V) (all : Bool) (now : Nat) (e : EId) (qs : List (Nat × Bool)) :
    Res (Cells × World V × Except GetErr (List Handle)) :=
  (getEach fl st w all now e qs).bind fun (st, w, r) => (st.dropAll all).map fun st => (st, w, r)

/-- `World::get` (`src/world.rs:1378-1393`). -/
def worldGet (st : Cells) (w : World V) (e : EId) (qs : List (Nat × Bool)) :
    Res (Cells × World V × Except GetErr (List Handle)) :=
  (st.guard allCell false).bind fun (st, got) =>
  if got = false then .ok (st, w, .error .allBorrow)
  else getTuple fl st w.tick true w.counter e qs

/-- `AllStorages::get` (`src/all_storages/mod.rs:1337-1344`). -/
def allStoragesGet (st : Cells) (w : World V) (e : EId) (qs : List (Nat × Bool)) :
    Res (Cells × World V × Except GetErr (List Handle)) :=
  getTuple fl st w.tick false w.counter e qs

/-- `Deref` of `Ref` and `RefMut`, then reading the component (`src/advanced/get_component.rs:35-42`, `74-81`). -/
def Handle.read (hd : Handle) (w : World V) : Res V :=
  match lookupK w.stos hd.k with
  | none => .error .oob
  | some s => vecGetU s.data hd.i

/-- `DerefMut` of `RefMut`, then writing the component (`src/advanced/get_component.rs:90-99`); `AsMut` is the same
(101-110). -/
def Handle.write (hd : Handle) (w : World V) (v : V) : Res (World V) :=
  match lookupK w.stos hd.k with
  | none => .error .oob
  | some s => do
    let m ← setUIf s.trkMod s.modificationData hd.i hd.current
    let data ← vecSetU s.data hd.i v
    .ok (w.put hd.k { s with data := data, modificationData := m })

/-- `DerefMut` without a write. -/
def Handle.touch (hd : Handle) (w : World V) : Res (World V) :=
  match lookupK w.stos hd.k with
  | none => .error .oob
  | some s => do
    let m ← setUIf s.trkMod s.modificationData hd.i hd.current
    .ok (w.put hd.k { s with modificationData := m })

/-- `RefMut::map` with a closure that writes the component (`src/advanced/get_component.rs:60-72`): the flag is moved,
not set. -/
def Handle.map (hd : Handle) (w : World V) (v : V) : Res (World V) :=
  match lookupK w.stos hd.k with
  | none => .error .oob
  | some s => do
    let data ← vecSetU s.data hd.i v
    .ok (w.put hd.k { s with data := data })

/-- Dropping what was returned. -/
def dropHandles (st : Cells) (hds : List Handle) : Res Cells := st.dropViews (hds.map Handle.view)

end Verif.GetComp
