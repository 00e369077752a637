import Verif.Model.Borrow

/-!
# Specification of runtime borrows

A cell together with the guards that exist, in every interleaving of the atomic steps of any number of threads.
-/
namespace Verif.Borrow

/-- The bounds of the claim: at most 2^63 - 2 shared guards exist at the same time, and less than 2^62 threads are inside the
abort path of `check_overflow` (the process dies as soon as one of them runs). -/
def Small (c : Cell) : Prop := c.shared + 1 < HIGH ∧ c.dying < HIGH / 2

/-- The states reachable by any interleaving of steps, with what each step ended with. -/
inductive Reach : List (Ev × Got) → Cell → Prop
  | new : Reach [] Cell.new
  | step {h c e c' g} : Reach h c → Small c → c.step e = some (c', g) → Reach (h ++ [(e, g)]) c'

/-- Number of guards of any kind. -/
def Cell.guards (c : Cell) : Nat := c.shared + c.reborrowed + c.exclusive

/-- The guards a history left: those handed out minus those dropped. -/
def opened (h : List (Ev × Got)) (opening : List Ev) (closing : Ev) : Int :=
  (h.countP fun p => decide (p.1 ∈ opening) && decide (p.2 = .guard)) - (h.countP fun p => decide (p.1 = closing))

end Verif.Borrow
