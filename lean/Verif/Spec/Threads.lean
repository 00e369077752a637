import Verif.Model.Threads
import Verif.Spec.Borrow

/-!
# Specification of thread affinity
-/
namespace Verif.Threads
open Verif.Borrow

/-- Does the action send an iterator over `&T` to a thread? -/
def Act.sendsIter (s : St) : Act → Bool
  | .move id _ => (s.find id).any (·.kind == .iter)
  | _ => false

/-- Everything threads can do with a cell made by `m` on thread `home`, in any interleaving, within the bounds of `Small`. With
`iters = false`, no iterator over `&T` is sent to a thread. -/
inductive Reach (m : Made) (home : Nat) (tSend tSync iters : Bool) : List Act → St → Prop
  | init : Reach m home tSend tSync iters [] St.init
  | step {h s a s'} : Reach m home tSend tSync iters h s → Small s.cell → (iters = true ∨ a.sendsIter s = false) →
      s.step m home tSend tSync a = some s' → Reach m home tSend tSync iters (h ++ [a]) s'

/-- The same with a function `tid` for the ids of threads. -/
inductive ReachTid (tid : Nat → Nat) (m : Made) (home : Nat) (tSend tSync iters : Bool) : List Act → St → Prop
  | init : ReachTid tid m home tSend tSync iters [] St.init
  | step {h s a s'} : ReachTid tid m home tSend tSync iters h s → Small s.cell → (iters = true ∨ a.sendsIter s = false) →
      s.stepTid tid m home tSend tSync a = some s' → ReachTid tid m home tSend tSync iters (h ++ [a]) s'

/-- Does the token allow to change the value? -/
def Tok.mutates (x : Tok) : Prop := x.kind = .exclusive ∨ x.kind = .iterMut

/-- A token gives access unless a mutable iterator borrows from it. -/
def St.usable (s : St) (x : Tok) : Prop := x ∈ s.toks ∧ ∀ y ∈ s.toks, y.kind = .iterMut → y.parent ≠ some x.id

/-- Does `y` borrow from `x`, directly or through another token? -/
inductive St.borrows (s : St) : Tok → Tok → Prop
  | direct {x y : Tok} : y ∈ s.toks → x ∈ s.toks → y.parent = some x.id → s.borrows y x
  | through {x y z : Tok} : s.borrows y z → s.borrows z x → s.borrows y x

/-- What Rust asks for: a value that is not `Sync` is never accessible from two threads at the same time, a value that is not `Send`
is changed by the thread that made it only, and a value that is neither is accessible from that thread only. -/
structure Affine (home : Nat) (tSend tSync : Bool) (s : St) : Prop where
  oneThread : tSync = false → ∀ x y, s.usable x → s.usable y → x.thr = y.thr
  changes : tSend = false → ∀ x, s.usable x → x.mutates → x.thr = home
  home : tSend = false → tSync = false → ∀ x, s.usable x → x.thr = home

/-- A token that can change the value is the only one, but for those that borrow from it. -/
def Alone (s : St) : Prop := ∀ x y, s.usable x → s.usable y → x.mutates → y = x ∨ s.borrows y x

end Verif.Threads
