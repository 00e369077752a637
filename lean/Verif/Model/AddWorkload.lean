import Verif.Model.RunBatches

/-!
# `World::add_workload`

Models `World::add_workload` (`src/scheduler/workload.rs:86-110`) and the label a function stands for in `run_workload` and its relatives
(`src/scheduler/label.rs:128-136`, `src/scheduler/into_workload_system.rs:60-72`, `175-180`).
-/
namespace Verif.Sched
variable {W ε : Type}

/-- The workload that `add_workload` registers for a function of type `t` (`src/scheduler/workload.rs:91-107`); `w` is
`workload().into_workload()`. -/
def Workload.addedAs (t : Nat) (w : Workload W ε) : Workload W ε :=
  let w := w.addTag (.workload t)
  if w.overwrittenName then { w with tags := w.tags ++ [w.name] } else { w with name := .workload t }

/-- `src/scheduler/workload.rs:86-110` `World::add_workload`. `add_to_world(self).unwrap()`: an error is a panic. What it does to
tracking and when the scheduler is borrowed are in `Verif/Model/Register.lean` and `Verif/Model/SchedulerShare.lean`. -/
def Scheduler.addWorkload (sch : Scheduler W ε) (t : Nat) (w : Workload W ε) : Scheduler W ε × Res Unit :=
  match sch.add (w.addedAs t) with
  | (sch, .ok ()) => (sch, .ok ())
  | (sch, .error _) => (sch, .error .panic)

/-- The label of a function of type `t`: `src/scheduler/into_workload_system.rs:60-72` for functions without arguments, `175-180` for
the others. `toWorkload`: its return type is `Workload`. -/
def fnLabel (t : Nat) (toWorkload : Bool) : Label := if toWorkload then .workload t else .system t

/-- `world.run_workload(f)` for a function `f` (`src/world.rs:706-721`). -/
def Scheduler.runFn (sch : Scheduler W ε) (t : Nat) (toWorkload : Bool) (w : W) : Ran W ε := sch.run (fnLabel t toWorkload) w

end Verif.Sched
