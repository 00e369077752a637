import Verif.Model.RunBatches
import Verif.Spec.Borrow
import Verif.Spec.Registry

/-!
# Calls about workloads from several threads

A world keeps its workloads in an `AtomicRefCell<Scheduler>` (`src/world.rs:37`). Every call about workloads borrows that cell, works on
the content and drops the borrow. Here any number of such calls are in progress at the same time, made by any threads or by systems
that are running; a call is cut into the atomic operation on the word of the cell that borrows, the steps of its work, each of which
looks at the content of the cell as it is at that moment, and the atomic operation that drops the borrow.

Runs are the ones without the `parallel` feature, `src/world/run_batches.rs:129-195`: a system is one step, and so is a condition.
Between two steps anything may happen to the world. Refused calls are `Out.refused`: an error (`add_to_world`,
`set_default_workload`, `run_workload`, `run_default_workload`) or a panic (`rename_workload`, `contains_workload`) of the call.
Enabling tracking, done by `add_to_world` while it holds the borrow, is in `Verif/Model/Register.lean`.

`began`, `log` and `done` are not part of the code: they record what happened.
-/
namespace Verif.Sched.Share
open Verif.Borrow (Cell Ev Got)

variable {W ε : Type}

/-- `add_to_world` (`src/scheduler/workload.rs:436-481`), `set_default_workload`, `rename_workload`, `run_workload`,
`contains_workload`, `run_default_workload` (`src/world.rs:665-807`). -/
inductive Call (W ε : Type) where
  | add (w : Workload W ε)
  | setDefault (l : Label)
  | rename (old new : Label)
  | run (l : Label)
  | runDefault
  | contains (l : Label)

/-- What the call does to the workloads. Calls that do something borrow with `borrow_mut`, the others with `borrow`. -/
def Call.op : Call W ε → Option (RegOp W ε)
  | .add w => some (.add w)
  | .setDefault l => some (.setDefault l)
  | .rename old new => some (.rename old new)
  | .run _ => none
  | .runDefault => none
  | .contains _ => none

/-- What a call ends with. `unwound` is a panic of a system or a condition. -/
inductive Out (ε : Type) where
  | refused
  | added (r : Except Fail Unit)
  | set (found : Bool)
  | renamed
  | told (b : Bool)
  | ran (r : Except (RunErr ε) Unit)
  | unwound

/-- Where a call is: before the borrow; borrowed; about to ask the condition of the workload; about to ask the condition of the system
at place `k`; in that system; about to drop the borrow; over. -/
inductive Stage (ε : Type) where
  | waiting
  | granted
  | opening (l : Label)
  | running (l : Label) (k : Nat)
  | inside (l : Label) (k : Nat)
  | leaving (o : Out ε)
  | left (o : Out ε)

/-- What a run did, with the world before and after it. -/
inductive Did (W : Type) where
  | condition (w w' : W)
  | asked (w w' : W)
  | ran (w w' : W)

/-- A call. -/
structure Act (W ε : Type) where
  call : Call W ε
  stage : Stage ε
  began : List (Nat × RegOp W ε)
  log : List (Did W)

/-- The world with its workloads, the word of their cell, and the calls made so far. -/
structure Share (W ε : Type) where
  sch : Scheduler W ε
  cell : Cell
  world : W
  acts : List (Act W ε)
  done : List (Nat × RegOp W ε)

/-- `World::new`. -/
def Share.new (w : W) : Share W ε := { sch := Scheduler.empty, cell := Cell.new, world := w, acts := [], done := [] }

/-- What a step of a call leaves: the workloads, the world, where the call is and what it did. -/
abbrev Went (W ε : Type) := Scheduler W ε × W × Stage ε × List (Did W)

/-- The first step on the content of the cell: `src/scheduler/workload.rs:449-478`, `src/scheduler/mod.rs:67-103`,
`src/world.rs:712-713`, `:794-799`. -/
def first (sch : Scheduler W ε) (world : W) : Call W ε → Res (Went W ε)
  | .add w => .ok ((sch.add w).1, world, .leaving (.added (sch.add w).2), [])
  | .setDefault l =>
    match sch.setDefault l with
    | some sch' => .ok (sch', world, .leaving (.set true), [])
    | none => .ok (sch, world, .leaving (.set false), [])
  | .rename old new => .ok (sch.rename old new, world, .leaving .renamed, [])
  | .contains l => .ok (sch, world, .leaving (.told (sch.contains l)), [])
  | .run l =>
    match sch.workload l with
    | none => .ok (sch, world, .leaving (.ran (.error .missing)), [])
    | some _ => .ok (sch, world, .opening l, [])
  | .runDefault =>
    if sch.workloads.isEmpty then .ok (sch, world, .leaving (.ran (.ok ())), [])
    else
      match sch.defaultWorkload with
      | .error f => .error f
      | .ok _ => .ok (sch, world, .opening sch.default, [])

/-- The condition of the workload, `src/world.rs:751-758`. A run has a reference to its batches: if they were gone it would be
dangling. -/
def openUp (sch : Scheduler W ε) (world : W) (l : Label) : Res (Went W ε) :=
  match sch.workload l with
  | none => .error .oob
  | some b =>
    match b.workloadRunIf with
    | none => .ok (sch, world, .running l 0, [])
    | some c =>
      match c world with
      | (w, .error e) => .ok (sch, w, .leaving (.ran (.error (.run l e))), [.condition world w])
      | (w, .ok false) => .ok (sch, w, .leaving (.ran (.ok ())), [.condition world w])
      | (w, .ok true) => .ok (sch, w, .running l 0, [.condition world w])

/-- The condition of the next system, `src/world/run_batches.rs:143-165`. -/
def ask (sch : Scheduler W ε) (world : W) (l : Label) (k : Nat) : Res (Went W ε) :=
  match sch.workload l with
  | none => .error .oob
  | some b =>
    match (b.sequential.zip b.sequentialRunIf)[k]? with
    | none => .ok (sch, world, .leaving (.ran (.ok ())), [])
    | some p =>
      match shouldRun b sch.systemNames (some p.1) p.2 world with
      | .error f => .error f
      | .ok (w, .error e) => .ok (sch, w, .leaving (.ran (.error e)), [.asked world w])
      | .ok (w, .ok false) => .ok (sch, w, .running l (k + 1), [.asked world w])
      | .ok (w, .ok true) => .ok (sch, w, .inside l k, [.asked world w])

/-- The system, `src/world/run_batches.rs:167-175` and `:179-195`. -/
def exec (sch : Scheduler W ε) (world : W) (l : Label) (k : Nat) : Res (Went W ε) :=
  match sch.workload l with
  | none => .error .oob
  | some b =>
    match (b.sequential.zip b.sequentialRunIf)[k]? with
    | none => .error .oob
    | some p =>
      match runSingle sch.systems sch.systemNames p.1 world with
      | .error f => .error f
      | .ok (w, .error e) => .ok (sch, w, .leaving (.ran (.error e)), [.ran world w])
      | .ok (w, .ok _) => .ok (sch, w, .running l (k + 1), [.ran world w])

/-- The next step of a call that has its borrow, unless it is about to drop it. -/
def go (sch : Scheduler W ε) (world : W) (a : Act W ε) : Option (Res (Went W ε)) :=
  match a.stage with
  | .granted => some (first sch world a.call)
  | .opening l => some (openUp sch world l)
  | .running l k => some (ask sch world l k)
  | .inside l k => some (exec sch world l k)
  | _ => none

/-- The operations recorded by the first step of call `i`. -/
def noted (i : Nat) (a : Act W ε) : List (Nat × RegOp W ε) :=
  match a.stage, a.call.op with
  | .granted, some op => [(i, op)]
  | _, _ => []

/-- Whether user code is running in the call, which may panic. -/
def Stage.user : Stage ε → Bool
  | .opening _ => true
  | .running _ _ => true
  | .inside _ _ => true
  | _ => false

/-- One step. `begin` and `refuse` are `AtomicRefCell::borrow` / `borrow_mut` (`src/advanced/atomic_refcell.rs:146-236`, a `Send` and
`Sync` content); the bound is the one of the cell (`Verif/Spec/Borrow.lean`). -/
inductive Step : Share W ε → Share W ε → Prop
  | call {s} (c : Call W ε) : (∀ w, c = .add w → Built w) →
      Step s { s with acts := s.acts ++ [{ call := c, stage := .waiting, began := [], log := [] }] }
  | begin {s a c'} (i : Nat) : s.acts[i]? = some a → a.stage = .waiting → Borrow.Small s.cell →
      s.cell.step (if a.call.op.isSome then .write else .read) = some (c', .guard) →
      Step s { s with cell := c', acts := s.acts.set i { a with stage := .granted, began := s.done } }
  | refuse {s a c'} (i : Nat) : s.acts[i]? = some a → a.stage = .waiting → Borrow.Small s.cell →
      s.cell.step (if a.call.op.isSome then .write else .read) = some (c', .error) →
      Step s { s with cell := c', acts := s.acts.set i { a with stage := .left .refused } }
  | go {s a sch w st ds} (i : Nat) : s.acts[i]? = some a → go s.sch s.world a = some (.ok (sch, w, st, ds)) →
      Step s { sch, cell := s.cell, world := w, acts := s.acts.set i { a with stage := st, log := a.log ++ ds },
               done := s.done ++ noted i a }
  | panic {s a} (i : Nat) (w : W) : s.acts[i]? = some a → a.stage.user = true →
      Step s { s with world := w, acts := s.acts.set i { a with stage := .leaving .unwound } }
  | leave {s a o c' g} (i : Nat) : s.acts[i]? = some a → a.stage = .leaving o → Borrow.Small s.cell →
      s.cell.step (if a.call.op.isSome then .dropExclusive else .dropShared) = some (c', g) →
      Step s { s with cell := c', acts := s.acts.set i { a with stage := .left o } }
  | other {s} (w : W) : Step s { s with world := w }

/-- Any number of steps. -/
inductive Steps : Share W ε → Share W ε → Prop
  | refl {s} : Steps s s
  | tail {s s' s''} : Steps s s' → Step s' s'' → Steps s s''

end Verif.Sched.Share
