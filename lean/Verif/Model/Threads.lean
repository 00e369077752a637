import Verif.Model.Borrow

/-!
# Which thread may touch a storage

Models the thread checks of `src/advanced/atomic_refcell.rs` with the feature `thread_local`, and the rules by which Rust lets guards
and iterators change threads (the auto traits `Send` and `Sync` of their types, and the `unsafe impl Send` of
`src/sparse_set/window.rs`). A guard or an iterator is a token: the thread that has it, what it is, and what it borrows from. A token
cannot be moved or dropped while something borrows from it.
-/
namespace Verif.Threads
open Verif.Borrow

/-- The four constructors of `AtomicRefCell`, `src/advanced/atomic_refcell.rs:34-105`. -/
inductive Made where
  | new
  | nonSend
  | nonSync
  | nonSendSync
  deriving DecidableEq, Repr

/-- The bounds of the constructors' `impl` blocks: lines 34 `T: Send + Sync`, 53 `T: Sync`, 72 `T: Send`, 88 none. -/
def Made.allowed (m : Made) (tSend tSync : Bool) : Bool :=
  match m with
  | .new => tSend && tSync
  | .nonSend => tSync
  | .nonSync => tSend
  | .nonSendSync => true

/-- The field `send`, `src/advanced/atomic_refcell.rs:43`, `57`, `80`, `96`: the thread that made the cell, or `None`. -/
def Made.send (m : Made) (home : Nat) : Option Nat :=
  match m with
  | .new | .nonSync => none
  | .nonSend | .nonSendSync => some home

/-- The field `is_sync`, `src/advanced/atomic_refcell.rs:45`, `63`, `81`, `102`. -/
def Made.isSync (m : Made) : Bool :=
  match m with
  | .new | .nonSend => true
  | .nonSync | .nonSendSync => false

/-- What a token is: a shared guard (`View`, `ARef`), a shared guard taken from an exclusive one (`ViewMut::as_view`), an exclusive
guard (`ViewMut`, `ARefMut`), an iterator over `&T` and an iterator over `&mut T`. -/
inductive Kind where
  | shared
  | reborrow
  | exclusive
  | iter
  | iterMut
  deriving DecidableEq, Repr

/-- Can a token of this kind go to another thread? `ARef<&T>` and `View<T>` hold a `&SparseSet<T>`: `T: Sync`. `ARefMut<&mut T>` and
`ViewMut<T>` hold a `&mut SparseSet<T>`: `T: Send`. `FullRawWindow`, `src/sparse_set/window.rs:25`: `T: Send`. `FullRawWindowMut`,
`src/sparse_set/window.rs:178`: `T: Send`. -/
def Kind.movable (k : Kind) (tSend tSync : Bool) : Bool :=
  match k with
  | .shared | .reborrow => tSync
  | .exclusive => tSend
  | .iter => tSend
  | .iterMut => tSend

structure Tok where
  id : Nat
  thr : Nat
  kind : Kind
  parent : Option Nat
  deriving DecidableEq, Repr

/-- A cell, what exists of its guards and iterators, and the next token's number. Only the cell exists at run time. -/
structure St where
  cell : Cell
  toks : List Tok
  next : Nat
  deriving DecidableEq, Repr

def St.init : St := { cell := Cell.new, toks := [], next := 0 }

def St.find (s : St) (id : Nat) : Option Tok := s.toks.find? (fun x => x.id == id)

/-- What borrows from the token. -/
def St.kids (s : St) (id : Nat) : List Tok := s.toks.filter fun x => x.parent == some id

/-- The result of an atomic step: a token when it ended with a guard. -/
def St.add (s : St) (r : Cell × Got) (thr : Nat) (kind : Kind) (parent : Option Nat) : St :=
  match r.2 with
  | .guard => { cell := r.1, toks := { id := s.next, thr, kind, parent } :: s.toks, next := s.next + 1 }
  | _ => { s with cell := r.1 }

def St.del (s : St) (id : Nat) : List Tok := s.toks.filter fun x => !(x.id == id)

/-- What threads do. -/
inductive Act where
  /-- `AtomicRefCell::borrow` by the thread -/
  | borrow (thr : Nat)
  /-- `AtomicRefCell::borrow_mut` by the thread -/
  | borrowMut (thr : Nat)
  /-- `View::clone`, `ARef::clone`, `src/advanced/atomic_refcell.rs:291-299` -/
  | clone (thr id : Nat)
  /-- `ViewMut::as_view`, `src/views/view_mut.rs` -/
  | reborrow (thr id : Nat)
  /-- `iter` over a view by reference -/
  | iter (thr id : Nat)
  /-- `iter` over an exclusive view by mutable reference -/
  | iterMut (thr id : Nat)
  /-- the token is sent to the thread -/
  | move (id thr : Nat)
  | drop (id : Nat)
  deriving DecidableEq, Repr

/-- Can the thread use a `&` of the token? On its own thread yes, on another one when `&T` can be sent: `T: Sync`. -/
def Tok.seenBy (x : Tok) (thr : Nat) (tSync : Bool) : Bool := x.thr == thr || tSync

/-- The event of dropping a guard. -/
def Kind.dropEv : Kind → Option Ev
  | .shared => some .dropShared
  | .reborrow => some .dropReborrow
  | .exclusive => some .dropExclusive
  | .iter | .iterMut => none

/-- One action on a cell made by `m` on thread `home` for a value type with these auto traits. `none` when Rust's types or lifetimes
forbid it. -/
def St.step (m : Made) (home : Nat) (tSend tSync : Bool) (s : St) : Act → Option St
  | .borrow thr =>
    match borrowEv (m.send home) m.isSync thr with
    | none => some s
    | some e => (s.cell.step e).map fun r => s.add r thr .shared none
  | .borrowMut thr =>
    match borrowMutEv (m.send home) thr with
    | none => some s
    | some e => (s.cell.step e).map fun r => s.add r thr .exclusive none
  | .clone thr id =>
    match s.find id with
    | none => none
    | some x =>
      if !x.seenBy thr tSync then none
      else match x.kind with
        | .shared => (s.cell.step .clone).map fun r => s.add r thr .shared none
        | .reborrow => (s.cell.step .cloneReborrow).map fun r => s.add r thr .reborrow x.parent
        | _ => none
  | .reborrow thr id =>
    match s.find id with
    | none => none
    | some x =>
      if !x.seenBy thr tSync || (s.kids id).any (·.kind == .iterMut) then none
      else match x.kind with
        | .exclusive => (s.cell.step .reborrow).map fun r => s.add r thr .reborrow (some id)
        | _ => none
  | .iter thr id =>
    match s.find id with
    | none => none
    | some x =>
      if !x.seenBy thr tSync || (s.kids id).any (·.kind == .iterMut) then none
      else match x.kind with
        | .shared | .reborrow | .exclusive => some (s.add (s.cell, .guard) thr .iter (some id))
        | _ => none
  | .iterMut thr id =>
    match s.find id with
    | none => none
    | some x =>
      if !(x.thr == thr) || !(s.kids id).isEmpty then none
      else match x.kind with
        | .exclusive => some (s.add (s.cell, .guard) thr .iterMut (some id))
        | _ => none
  | .move id thr =>
    match s.find id with
    | none => none
    | some x =>
      if !x.kind.movable tSend tSync || !(s.kids id).isEmpty then none
      else some { s with toks := { x with thr := thr } :: s.del id }
  | .drop id =>
    match s.find id with
    | none => none
    | some x =>
      if !(s.kids id).isEmpty then none
      else match x.kind.dropEv with
        | none => some { s with toks := s.del id }
        | some e => (s.cell.step e).map fun r => { s with cell := r.1, toks := s.del id }

/-- The same when the world was built with a function of its own for thread ids (`src/world/builder.rs:78-87`
`with_custom_thread_id`): `tid` gives what that function returns on each thread, and the checks of `borrow` and `borrow_mut`
(`src/advanced/atomic_refcell.rs:57`, `96`, `178-201`, `211-236`) compare these numbers. Simplification: the function returns the
same number each time it is called on a thread. -/
def St.stepTid (tid : Nat → Nat) (m : Made) (home : Nat) (tSend tSync : Bool) (s : St) : Act → Option St
  | .borrow thr =>
    match borrowEv (m.send (tid home)) m.isSync (tid thr) with
    | none => some s
    | some e => (s.cell.step e).map fun r => s.add r thr .shared none
  | .borrowMut thr =>
    match borrowMutEv (m.send (tid home)) (tid thr) with
    | none => some s
    | some e => (s.cell.step e).map fun r => s.add r thr .exclusive none
  | a => s.step m home tSend tSync a

end Verif.Threads
