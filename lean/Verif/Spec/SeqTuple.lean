import Verif.Spec.Schedule

/-!
# Specification of tuples turned into sequential workloads

The systems of `(e0, e1, ...).into_sequential_workload()` are the systems of `e0`, then those of `e1`, and so on.
-/
namespace Verif.Sched

variable {W ε : Type}

/-- Where the systems of element `i` start: after the systems of the elements before it. -/
def elemStart (ws : List (Workload W ε)) (i : Nat) : Nat := ((ws.take i).map (·.systems.length)).sum

/-- The system at position `a` of the tuple's workload comes from element `i`. -/
def FromElem (ws : List (Workload W ε)) (a i : Nat) : Prop :=
  ∃ e, ws[i]? = some e ∧ elemStart ws i ≤ a ∧ a < elemStart ws i + e.systems.length

/-- A function used as a system, as it is: no modifier. -/
def PlainSystem (t : Nat) (s : WSys W ε) : Prop := ∃ bs f tr, WSys.ofFn t bs f tr = .ok s

/-- `a` ends before `b` starts: `a` is earlier in the sequential order and in a strictly earlier batch. -/
def Created.separated (c : Created W ε) (a b : Nat) : Prop :=
  c.earlier a b ∧ ∃ ka kb, c.inBatch a ka ∧ c.inBatch b kb ∧ ka < kb

end Verif.Sched
