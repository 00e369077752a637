import Verif.Model.EntityId

/-!
# Runtime borrows

Models `src/advanced/atomic_refcell/borrow_state.rs` and `src/advanced/atomic_refcell.rs`. Memory orderings are not modelled: each
atomic operation on the word is one step, and steps of different threads interleave in any order.
-/
namespace Verif.Borrow

/-- Number of values of `usize` on a 64-bit target. -/
def WORD : Nat := 2 ^ 64
/-- `src/advanced/atomic_refcell/borrow_state.rs:4`. -/
def HIGH : Nat := 2 ^ 63
/-- `src/advanced/atomic_refcell/borrow_state.rs:5`. -/
def MAXFAILED : Nat := HIGH + HIGH / 2

/-- What an operation ends with: a guard, an error, a thread about to execute the `fetch_sub` of line 108 and panic, or a thread
about to abort the process (lines 112-119). -/
inductive Got where
  | guard
  | error
  | undo
  | abort
  deriving DecidableEq, Repr

/-- `src/advanced/atomic_refcell/borrow_state.rs:106-121` `check_overflow`; `ok` is what happens when it returns. -/
def checkOverflow (new : Nat) (ok : Got) : Got :=
  if new = HIGH then .undo
  else if MAXFAILED ≤ new then .abort
  else ok

/-- `fetch_add(1)`: wraps around. -/
def fetchAdd (w : Nat) : Nat := (w + 1) % WORD

/-- `fetch_sub(1)`: wraps around. -/
def fetchSub (w : Nat) : Nat := (w + (WORD - 1)) % WORD

/-- `src/advanced/atomic_refcell/borrow_state.rs:51-60` `read`. `new & HIGH_BIT != 0` is bit 63. -/
def read (w : Nat) : Nat × Got :=
  let new := fetchAdd w
  if new.testBit 63 then (new, checkOverflow new .error)
  else (new, .guard)

/-- `src/advanced/atomic_refcell/borrow_state.rs:64-78` `exclusive_read`. -/
def exclusiveRead (w : Nat) : Nat × Got :=
  if w = 0 then (1, .guard) else (w, .error)

/-- `src/advanced/atomic_refcell/borrow_state.rs:81-87` `read_reborrow`. -/
def readReborrow (w : Nat) : Nat × Got :=
  let new := fetchAdd w
  (new, checkOverflow new .guard)

/-- `src/advanced/atomic_refcell/borrow_state.rs:90-104` `write`. -/
def write (w : Nat) : Nat × Got :=
  if w = 0 then (HIGH, .guard) else (w, .error)

/-- `src/advanced/atomic_refcell/borrow_state.rs:13-18`: dropping a `SharedBorrow`. -/
def dropShared (w : Nat) : Nat := fetchSub w

/-- `src/advanced/atomic_refcell/borrow_state.rs:37-42`: dropping an `ExclusiveBorrow`. -/
def dropExclusive (_w : Nat) : Nat := 0

/-- A cell: the word, the guards that exist, and the threads inside `check_overflow`. Only `word` exists at run time.
`reborrowed` counts the guards made by `ExclusiveBorrow::shared_reborrow` (lines 31-35) and their clones: their lifetime ends
before the exclusive guard is dropped. -/
structure Cell where
  word : Nat
  shared : Nat
  reborrowed : Nat
  exclusive : Nat
  undoing : Nat
  dying : Nat
  deriving DecidableEq, Repr

/-- `src/advanced/atomic_refcell/borrow_state.rs:46-48` `new`. -/
def Cell.new : Cell := { word := 0, shared := 0, reborrowed := 0, exclusive := 0, undoing := 0, dying := 0 }

/-- The operation ended with `r`; a guard is recorded by `add`. -/
def Cell.record (c : Cell) (r : Nat × Got) (add : Cell → Cell) : Cell × Got :=
  let c := { c with word := r.1 }
  match r.2 with
  | .guard => (add c, .guard)
  | .error => (c, .error)
  | .undo => ({ c with undoing := c.undoing + 1 }, .undo)
  | .abort => ({ c with dying := c.dying + 1 }, .abort)

def Cell.addShared (c : Cell) : Cell := { c with shared := c.shared + 1 }
def Cell.addReborrowed (c : Cell) : Cell := { c with reborrowed := c.reborrowed + 1 }
def Cell.addExclusive (c : Cell) : Cell := { c with exclusive := c.exclusive + 1 }

/-- The atomic steps of any thread on the cell. -/
inductive Ev where
  /-- `BorrowState::read` -/
  | read
  /-- `BorrowState::exclusive_read` -/
  | exclusiveRead
  /-- `BorrowState::write` -/
  | write
  /-- cloning a `SharedBorrow`, lines 20-25 -/
  | clone
  /-- `ExclusiveBorrow::shared_reborrow`, lines 31-35 -/
  | reborrow
  /-- cloning the `SharedBorrow` of a reborrow -/
  | cloneReborrow
  | dropShared
  | dropReborrow
  | dropExclusive
  /-- the `fetch_sub` of `check_overflow`, line 108 -/
  | undo
  deriving DecidableEq, Repr

/-- One atomic step; `none` when it is not possible: there is no guard to clone or drop, or a reborrow is still alive. -/
def Cell.step (c : Cell) : Ev → Option (Cell × Got)
  | .read => some (c.record (Borrow.read c.word) Cell.addShared)
  | .exclusiveRead => some (c.record (Borrow.exclusiveRead c.word) Cell.addShared)
  | .write => some (c.record (Borrow.write c.word) Cell.addExclusive)
  | .clone => if c.shared = 0 then none else some (c.record (readReborrow c.word) Cell.addShared)
  | .reborrow => if c.exclusive = 0 then none else some (c.record (readReborrow c.word) Cell.addReborrowed)
  | .cloneReborrow => if c.reborrowed = 0 then none else some (c.record (readReborrow c.word) Cell.addReborrowed)
  | .dropShared => if c.shared = 0 then none
      else some ({ c with word := Borrow.dropShared c.word, shared := c.shared - 1 }, .guard)
  | .dropReborrow => if c.reborrowed = 0 then none
      else some ({ c with word := Borrow.dropShared c.word, reborrowed := c.reborrowed - 1 }, .guard)
  | .dropExclusive => if c.exclusive = 0 ∨ c.reborrowed ≠ 0 then none
      else some ({ c with word := Borrow.dropExclusive c.word, exclusive := c.exclusive - 1 }, .guard)
  | .undo => if c.undoing = 0 then none
      else some ({ c with word := fetchSub c.word, undoing := c.undoing - 1 }, .undo)

/-- `src/advanced/atomic_refcell.rs:146-205` `borrow` for a cell that holds a value bound to thread `send` (if any), by thread
`me`: the call on the borrow state, or `WrongThread` (`none`). -/
def borrowEv (send : Option Nat) (isSync : Bool) (me : Nat) : Option Ev :=
  match send, isSync with
  | _, true => some .read
  | none, false => some .exclusiveRead
  | some t, false => if t ≠ me then none else some .read

/-- `src/advanced/atomic_refcell.rs:211-236` `borrow_mut`. -/
def borrowMutEv (send : Option Nat) (me : Nat) : Option Ev :=
  match send with
  | some t => if t ≠ me then none else some .write
  | none => some .write

end Verif.Borrow
