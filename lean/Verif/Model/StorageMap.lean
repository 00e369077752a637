import Verif.Model.Threads

/-!
# The map of storages

Models the table of storages of `AllStorages` (`src/all_storages/mod.rs:61-69`), its lock (`src/public_transport.rs`), the functions
of `src/all_storages/custom_storage.rs`, adding and removing uniques of every thread affinity (`src/all_storages/mod.rs:110-236`) and
the accesses made by views (`src/borrow/mod.rs:115-640`). Threads interleave; a section of code that holds the lock is one step, so
`custom_storage_or_insert*` takes two steps when the storage is missing: one with the read lock and one with the write lock.

A box records the guards on it as a number of shared ones and whether there is an exclusive one; that the atomic word of
`AtomicRefCell` implements this is C37. Contents are not modelled, only their types. The hash map is an association list; nothing
is proved about its order. Layout is not modelled: `remove_unique` reads a `NonSend<UniqueStorage<T>>` as a `UniqueStorage<T>`
(`src/all_storages/mod.rs:227-228`) although `NonSend` is not `repr(transparent)`.
-/
namespace Verif.StorageMap
open Verif.Borrow
open Verif.Threads (Made)

/-- The types of storages: `SparseSet<T>`, `UniqueStorage<T>`, `Entities` and those of the user. -/
inductive Base where
  | set (t : Nat)
  | unique (t : Nat)
  | entities
  | user (t : Nat)
  deriving DecidableEq, Repr

/-- A storage type, possibly in a wrapper: `NonSend`, `NonSync` or `NonSendSync` (`src/borrow/non_send.rs` and others); `.new` is no
wrapper. -/
structure Ty where
  wrap : Made
  base : Base
  deriving DecidableEq, Repr

/-- `StorageId`, `src/storage/storage_id.rs:5-10`. -/
inductive Id where
  | of (t : Ty)
  | custom (n : Nat)
  deriving DecidableEq, Repr

/-- The id of the unique `T` whatever its wrapper, `src/all_storages/mod.rs:111`, `131`, `150`, `169`, `205`. -/
def uniqueId (t : Nat) : Id := .of ⟨.new, .unique t⟩

/-- `AtomicRefCell<dyn Storage>` in an `SBox`, `src/storage/sbox.rs:14`, `src/advanced/atomic_refcell.rs:14-24`. -/
structure Box where
  ty : Ty
  send : Option Nat
  isSync : Bool
  shared : Nat
  excl : Bool
  deriving DecidableEq, Repr

/-- `error::Borrow`, `src/error.rs`. -/
inductive Refusal where
  | shared
  | unique
  | wrongThread
  deriving DecidableEq, Repr

/-- `src/advanced/atomic_refcell.rs:146-205` `borrow`, by thread `me`. -/
def Box.borrow (b : Box) (me : Nat) : Except Refusal Box :=
  match borrowEv b.send b.isSync me with
  | none => .error .wrongThread
  | some .exclusiveRead =>
    if b.excl || b.shared != 0 then .error .shared else .ok { b with shared := 1 }
  | some _ => if b.excl then .error .shared else .ok { b with shared := b.shared + 1 }

/-- `src/advanced/atomic_refcell.rs:211-236` `borrow_mut`. -/
def Box.borrowMut (b : Box) (me : Nat) : Except Refusal Box :=
  match borrowMutEv b.send me with
  | none => .error .wrongThread
  | some _ => if b.excl || b.shared != 0 then .error .unique else .ok { b with excl := true }

def Box.take (b : Box) (excl : Bool) (me : Nat) : Except Refusal Box :=
  if excl then b.borrowMut me else b.borrow me

/-- `SBox::new`, `new_non_send`, `new_non_sync`, `new_non_send_sync`, `src/storage/sbox.rs:31-62`; `me` is the thread that calls. -/
def Box.make (m : Made) (ty : Ty) (me : Nat) : Box :=
  { ty, send := m.send me, isSync := m.isSync, shared := 0, excl := false }

/-- A guard: `ARef`, `ARefMut` or a view. -/
structure Guard where
  box : Nat
  ty : Ty
  excl : Bool
  thr : Nat
  deriving DecidableEq, Repr

/-- A call to `custom_storage_or_insert[_non_send|_non_sync|_non_send_sync][_mut]_by_id::<S, _>(id, f)`. -/
structure Req where
  id : Id
  ty : Ty
  made : Made
  excl : Bool
  deriving DecidableEq, Repr

/-- `AllStorages`. `std` says which lock protects the map (`src/public_transport.rs:5-12`), `poisoned` is the flag of
`std::sync::RwLock`. `waiting` are the threads between the two steps of `custom_storage_or_insert*`. `guards` are the guards that
exist; `created` and `dropped` list the ids whose storage was made by an initialiser and the ids whose storage was taken out, and
exist only for the statements. -/
structure St where
  std : Bool
  main : Nat
  poisoned : Bool
  map : List (Id × Nat)
  heap : Nat → Option Box
  next : Nat
  waiting : List (Nat × Req)
  guards : List Guard
  created : List Id
  dropped : List Id

def set {α : Type} (f : Nat → α) (i : Nat) (x : α) : Nat → α := fun j => if j = i then x else f j

/-- `HashMap::get`. -/
def look : List (Id × Nat) → Id → Option Nat
  | [], _ => none
  | (k, a) :: rest, id => if k = id then some a else look rest id

/-- What a call ends with. A refusal carries the id the error gives. `wait`: the storage was missing, the thread goes for the write
lock. -/
inductive Out where
  | guard (g : Guard)
  | missing
  | refused (id : Id) (e : Refusal)
  | wait
  | panic
  | done
  | removed (t : Ty)
  | listed (gs : List Guard)
  deriving DecidableEq, Repr

namespace St

/-- `AllStorages::new`, `src/all_storages/mod.rs:76-90` and `src/all_storages/builder.rs:70-100`: the map holds `Entities`. -/
def init (std : Bool) (main : Nat) : St :=
  { std, main, poisoned := false, map := [(.of ⟨.new, .entities⟩, 0)]
    heap := set (fun _ => none) 0 (some (Box.make .new ⟨.new, .entities⟩ main)), next := 1
    waiting := [], guards := [], created := [], dropped := [] }

/-- Borrow box `a`, then `downcast_ref().unwrap()` (`want` is `none` for the functions that return a `dyn Storage`). A panic drops
the guard while it unwinds. `named` is the id given by the error. -/
def grab (s : St) (me a : Nat) (want : Option Ty) (excl : Bool) (named : Id) : St × Out :=
  match s.heap a with
  | none => (s, .panic)
  | some b =>
    match b.take excl me with
    | .error e => (s, .refused named e)
    | .ok b' =>
      if (match want with | some t => decide (b.ty = t) | none => true) then
        let g : Guard := { box := a, ty := b.ty, excl, thr := me }
        ({ s with heap := set s.heap a (some b'), guards := s.guards ++ [g] }, .guard g)
      else (s, .panic)

/-- A panic while the write guard exists: `std::sync::RwLock` is poisoned; the custom lock is released by
`src/public_transport.rs:83-93`. -/
def poison (s : St) : St := { s with poisoned := s.std }

/-- A new box in the map. -/
def put (s : St) (id : Id) (b : Box) : St :=
  { s with map := s.map ++ [(id, s.next)], heap := set s.heap s.next (some b), next := s.next + 1 }

/-- The entry of `id` leaves the map and its box is freed. -/
def take (s : St) (id : Id) (a : Nat) : St :=
  { s with map := s.map.filter (fun p => decide (p.1 ≠ id)), heap := set s.heap a none, dropped := s.dropped ++ [id] }

/-- `custom_storage`, `custom_storage_by_id` and their `_mut` versions, `src/all_storages/custom_storage.rs:227-316`; for uniques
`src/borrow/mod.rs:405-640`. -/
def find (s : St) (me : Nat) (id : Id) (want : Option Ty) (excl : Bool) : St × Out :=
  match look s.map id with
  | some a => s.grab me a want excl id
  | none => (s, .missing)

/-- Is the thread checked before the storage is created? `src/all_storages/custom_storage.rs:392-398` and the other `non_send`
functions. -/
def checksThread (m : Made) : Bool :=
  match m with
  | .nonSend | .nonSendSync => true
  | .new | .nonSync => false

/-- First step of `custom_storage_or_insert*_by_id`: with the read lock, `src/all_storages/custom_storage.rs:327-345`, `376-400` and
so on. The error names `StorageId::of::<S>()` and not the id that was asked for. -/
def orInsert (s : St) (me : Nat) (r : Req) : St × Out :=
  match look s.map r.id with
  | some a => s.grab me a (some r.ty) r.excl (.of r.ty)
  | none =>
    if checksThread r.made && decide (me ≠ s.main) then (s, .refused (.of r.ty) .wrongThread)
    else ({ s with waiting := s.waiting ++ [(me, r)] }, .wait)

/-- Second step: with the write lock, `entry(id).or_insert_with(|| SBox::new(f()))` and the borrow,
`src/all_storages/custom_storage.rs:346-364`. `ok` is false when `f` panics: then nothing is inserted. -/
def insert (s : St) (me : Nat) (r : Req) (ok : Bool) : St × Out :=
  match look s.map r.id with
  | some a =>
    match s.grab me a (some r.ty) r.excl (.of r.ty) with
    | (s, .panic) => (s.poison, .panic)
    | x => x
  | none =>
    if ok then
      let s := { s.put r.id (Box.make r.made r.ty me) with created := s.created ++ [r.id] }
      s.grab me (s.next - 1) (some r.ty) r.excl (.of r.ty)
    else (s.poison, .panic)

/-- `src/all_storages/mod.rs:110-120` `add_unique`: the box that was there is dropped with the write lock held; `quiet` is false when
the destructor of the value panics. -/
def addUnique (s : St) (me t : Nat) (quiet : Bool) : St × Out :=
  let b := Box.make .new ⟨.new, .unique t⟩ me
  match look s.map (uniqueId t) with
  | none => (s.put (uniqueId t) b, .done)
  | some a =>
    let s := (s.take (uniqueId t) a).put (uniqueId t) b
    if quiet then (s, .done) else (s.poison, .panic)

/-- `src/all_storages/mod.rs:129-178` `add_unique_non_send`, `add_unique_non_sync`, `add_unique_non_send_sync`. -/
def addUniqueLocal (s : St) (me : Nat) (m : Made) (t : Nat) : St × Out :=
  if checksThread m && decide (me ≠ s.main) then (s, .done)
  else
    match look s.map (uniqueId t) with
    | none => (s.put (uniqueId t) (Box.make m ⟨m, .unique t⟩ me), .done)
    | some _ => (s, .done)

/-- `src/all_storages/mod.rs:204-236` `remove_unique`. -/
def removeUnique (s : St) (me t : Nat) : St × Out :=
  match look s.map (uniqueId t) with
  | none => (s, .missing)
  | some a =>
    match s.heap a with
    | none => (s, .panic)
    | some b =>
      match b.borrowMut me with
      | .error e => (s, .refused (uniqueId t) e)
      | .ok _ => (s.take (uniqueId t) a, .removed b.ty)

/-- A guard is dropped: `src/advanced/atomic_refcell/borrow_state.rs:13-18` and `37-42`. -/
def unguard (s : St) (i : Nat) (g : Guard) : St :=
  { s with
    guards := s.guards.eraseIdx i
    heap := match s.heap g.box with
      | none => s.heap
      | some b => set s.heap g.box (some (if g.excl then { b with excl := false } else { b with shared := b.shared - 1 })) }

/-- The loop of `iter_storages` and `iter_storages_mut`, `src/all_storages/custom_storage.rs:901-931`: `flat_map` drops the errors. -/
def listLoop (me : Nat) (excl : Bool) : List (Id × Nat) → St → List Guard → St × List Guard
  | [], s, gs => (s, gs)
  | (id, a) :: rest, s, gs =>
    match s.grab me a none excl id with
    | (s, .guard g) => listLoop me excl rest s (gs ++ [g])
    | (s, _) => listLoop me excl rest s gs

def list (s : St) (me : Nat) (excl : Bool) : St × Out :=
  let r := listLoop me excl s.map s []
  (r.1, .listed r.2)

end St

/-- What a thread does. -/
inductive Ev where
  | find (id : Id) (want : Option Ty) (excl : Bool)
  | orInsert (r : Req)
  /-- the `i`-th waiting thread gets the write lock -/
  | insert (i : Nat) (ok : Bool)
  | addUnique (t : Nat) (quiet : Bool)
  | addUniqueLocal (m : Made) (t : Nat)
  | removeUnique (t : Nat)
  | drop (i : Nat)
  | list (excl : Bool)
  deriving DecidableEq, Repr

/-- One step of thread `me`; `none` when it is not possible. `lock.read().unwrap()` and `lock.write().unwrap()`
(`src/public_transport.rs:121-123`, `138-140`) panic once the lock is poisoned. -/
def St.step (s : St) (me : Nat) : Ev → Option (St × Out)
  | .drop i =>
    match s.guards[i]? with
    | some g => some (s.unguard i g, .done)
    | none => none
  | .insert i ok =>
    match s.waiting[i]? with
    | none => none
    | some (thr, r) =>
      if thr = me then
        let s := { s with waiting := s.waiting.eraseIdx i }
        if s.poisoned then some (s, .panic) else some (s.insert me r ok)
      else none
  | .find id want excl => some (if s.poisoned then (s, .panic) else s.find me id want excl)
  | .orInsert r => some (if s.poisoned then (s, .panic) else s.orInsert me r)
  | .addUnique t quiet => some (if s.poisoned then (s, .panic) else s.addUnique me t quiet)
  | .addUniqueLocal m t =>
    some (if s.poisoned && !(St.checksThread m && decide (me ≠ s.main)) then (s, .panic) else s.addUniqueLocal me m t)
  | .removeUnique t => some (if s.poisoned then (s, .panic) else s.removeUnique me t)
  | .list excl => some (if s.poisoned then (s, .panic) else s.list me excl)

end Verif.StorageMap
