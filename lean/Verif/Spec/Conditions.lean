import Verif.Spec.Run
import Verif.Spec.Schedule

/-!
# C59: the conditions a system is under

What `run_if` and `skip_if` mean for each system of a workload that is built in any way, written from the documentation of
`Workload::merge` (`src/scheduler/workload.rs:202-203`, `251-252`): "propagates all information from `self` and `other` into their
respective systems before merging".
-/
namespace Verif.Sched
variable {W ε : Type}

/-- The negation of a condition. -/
def notC (c : Cond W ε) : Cond W ε := fun w => ((c w).1, (c w).2.map (!·))

/-- The conditions, asked one after the other from world `w` on, all hold; they leave world `w'`. -/
inductive HoldInTurn : List (Cond W ε) → W → W → Prop
  | nil (w : W) : HoldInTurn [] w w
  | cons {c : Cond W ε} {cs : List (Cond W ε)} {w w1 w' : W} : c w = (w1, .ok true) → HoldInTurn cs w1 w' → HoldInTurn (c :: cs) w w'

/-- The conditions given to one system, the first one first. -/
inductive OwnConds : WSys W ε → List (Cond W ε) → Prop
  | ofFn {t bs f tr s} : WSys.ofFn t bs f tr = .ok s → OwnConds s []
  | runIf {s cs} (c : Cond W ε) : OwnConds s cs → OwnConds (s.addRunIf c) (cs ++ [c])
  | skipIf {s cs} (c : Cond W ε) : OwnConds s cs → OwnConds (s.addSkipIf c) (cs ++ [notC c])
  | beforeAll {s cs} (l : Label) : OwnConds s cs → OwnConds (s.addBeforeAll l) cs
  | afterAll {s cs} (l : Label) : OwnConds s cs → OwnConds (s.addAfterAll l) cs
  | displayName {s cs} (l : Label) : OwnConds s cs → OwnConds (s.displayName l) cs
  | tag {s cs} (l : Label) : OwnConds s cs → OwnConds (s.addTag l) cs
  | requireIn {s cs} (l : Label) : OwnConds s cs → OwnConds (s.requireIn l) cs
  | requireBefore {s cs} (l : Label) : OwnConds s cs → OwnConds (s.requireBefore l) cs
  | requireAfter {s cs} (l : Label) : OwnConds s cs → OwnConds (s.requireAfter l) cs

/-- `Under w cs ls`: workload `w` is under the conditions `cs` itself, and its systems are under the conditions `ls`, those of the
outermost workload first. Nesting a workload with `merge` (or `with_workload`, or in a tuple) hands the conditions of each of the
two workloads to its own systems, and to no others; `append` takes the systems only. -/
inductive Under : Workload W ε → List (Cond W ε) → List (List (Cond W ε)) → Prop
  | new (l : Label) : Under (Workload.new l) [] []
  | emptyTuple (t : Nat) : Under (Workload.emptyTuple t) [] []
  | ofSystem (t : Nat) {s own} : OwnConds s own → Under (Workload.ofSystem t s) [] [own]
  | withSystem {w cs ls s own} : Under w cs ls → OwnConds s own → Under (w.withSystem s) cs (ls ++ [own])
  | merge {w w' cs cs' ls ls'} : Under w cs ls → Under w' cs' ls' →
      Under (w.merge w') [] (ls.map (cs ++ ·) ++ ls'.map (cs' ++ ·))
  | append {w w' cs cs' ls ls'} : Under w cs ls → Under w' cs' ls' → Under (w.append w').1 cs (ls ++ ls')
  | runIf {w cs ls} (c : Cond W ε) : Under w cs ls → Under (w.addRunIf c) (cs ++ [c]) ls
  | skipIf {w cs ls} (c : Cond W ε) : Under w cs ls → Under (w.addSkipIf c) (cs ++ [notC c]) ls
  | withBarrier {w cs ls} : Under w cs ls → Under w.withBarrier cs ls
  | beforeAll {w cs ls} (l : Label) : Under w cs ls → Under (w.addBeforeAll l) cs ls
  | afterAll {w cs ls} (l : Label) : Under w cs ls → Under (w.addAfterAll l) cs ls
  | rename {w cs ls} (l : Label) : Under w cs ls → Under (w.rename l) cs ls
  | tag {w cs ls} (l : Label) : Under w cs ls → Under (w.addTag l) cs ls
  | ofFn (t : Nat) {w cs ls} : Under w cs ls → Under (Workload.ofFn t w) cs ls
  | intoSequential {w w' cs ls} : Under w cs ls → w.intoSequential = .ok w' → Under w' cs ls

end Verif.Sched
