import Verif.Spec.Schedule

/-!
# Running workloads

Models `src/world.rs:683-807` and `src/world/run_batches.rs`. Not modelled: tracing spans and the choice of the thread
pool. The scheduler's own borrow (`RunWorkload::Scheduler`) is in `Verif/Model/SchedulerShare.lean`.
-/
namespace Verif.Sched

variable {W ε : Type}

/-- `src/error.rs` `RunWorkload`. -/
inductive RunErr (ε : Type) where
  | missing
  | run (name : Label) (e : ε)

/-- How a run ends: the world and the returned value, or a panic of the scheduler's own code. -/
abbrev Ran (W ε : Type) := Res (W × Except (RunErr ε) Unit)

/-- `system_names[index].clone()`. -/
def nameAt (names : List Label) (i : Nat) : Res Label :=
  match names[i]? with
  | some n => .ok n
  | none => .error .panic

/-- `src/world/run_batches.rs:26-39`, `:44-58` and `:148-163`: whether a system should run. `i` is the index of the system,
read only when its condition fails. -/
def shouldRun (b : Batches W ε) (names : List Label) (i : Option Nat) (r : Option Nat) (w : W) :
    Res (W × Except (RunErr ε) Bool) :=
  match r with
  | none => .ok (w, .ok true)
  | some k =>
    match b.systemsRunIf[k]? with
    | none => .error .panic
    | some c =>
      match c w with
      | (w, .ok x) => .ok (w, .ok x)
      | (w, .error e) =>
        match i with
        | none => .error .panic
        | some i =>
          match nameAt names i with
          | .error f => .error f
          | .ok n => .ok (w, .error (.run n e))

/-- `src/world/run_batches.rs:179-195` `run_single_system`. -/
def runSingle (fns : List (SysFn W ε)) (names : List Label) (i : Nat) (w : W) : Ran W ε :=
  match fns[i]? with
  | none => .error .panic
  | some f =>
    match f w with
    | (w, .ok _) => .ok (w, .ok ())
    | (w, .error e) =>
      match nameAt names i with
      | .error f => .error f
      | .ok n => .ok (w, .error (.run n e))

/-- The closure of `src/world/run_batches.rs:147-176`. -/
def runPlace (b : Batches W ε) (fns : List (SysFn W ε)) (names : List Label) (p : Nat × Option Nat) (w : W) : Ran W ε :=
  match shouldRun b names (some p.1) p.2 w with
  | .error f => .error f
  | .ok (w, .error e) => .ok (w, .error e)
  | .ok (w, .ok false) => .ok (w, .ok ())
  | .ok (w, .ok true) => runSingle fns names p.1 w

/-- `try_for_each` of `src/world/run_batches.rs:143-176`. -/
def runPlaces (b : Batches W ε) (fns : List (SysFn W ε)) (names : List Label) : List (Nat × Option Nat) → W → Ran W ε
  | [], w => .ok (w, .ok ())
  | p :: rest, w =>
    match runPlace b fns names p w with
    | .error f => .error f
    | .ok (w, .error e) => .ok (w, .error e)
    | .ok (w, .ok _) => runPlaces b fns names rest w

/-- `src/world/run_batches.rs:129-177` `run_batches_sequential`. -/
def runSequential (b : Batches W ε) (fns : List (SysFn W ε)) (names : List Label) (w : W) : Ran W ε :=
  runPlaces b fns names (b.sequential.zip b.sequentialRunIf) w

/-- `src/world.rs:745-771` `run_batches` without the `parallel` feature. -/
def runBatches (b : Batches W ε) (fns : List (SysFn W ε)) (names : List Label) (name : Label) (w : W) : Ran W ε :=
  match b.workloadRunIf with
  | none => runSequential b fns names w
  | some c =>
    match c w with
    | (w, .error e) => .ok (w, .error (.run name e))
    | (w, .ok false) => .ok (w, .ok ())
    | (w, .ok true) => runSequential b fns names w

/-- `src/world.rs:703-718` `run_workload`. -/
def Scheduler.run (sch : Scheduler W ε) (l : Label) (w : W) : Ran W ε :=
  match sch.workload l with
  | none => .ok (w, .error .missing)
  | some b => runBatches b sch.systems sch.systemNames l w

/-- `src/world.rs:784-800` `run_default_workload`. -/
def Scheduler.runDefault (sch : Scheduler W ε) (w : W) : Ran W ε :=
  if sch.workloads.isEmpty then .ok (w, .ok ())
  else
    match sch.defaultWorkload with
    | .error f => .error f
    | .ok b => runBatches b sch.systems sch.systemNames sch.default w

/-! ## With the `parallel` feature -/

/-- A system seen as a sequence of atomic accesses to the world, each depending on what was read so far. -/
inductive Prog (W ε : Type) where
  | done (r : Except ε Unit)
  | act (update : W → W) (next : W → Prog W ε)

/-- What the system does when nothing runs at the same time. -/
def Prog.run : Prog W ε → SysFn W ε
  | .done r, w => (w, r)
  | .act u k, w => (k w).run (u w)

/-- The conditions of the systems of `batch.1`, `src/world/run_batches.rs:40-59`: `collect` stops at the first error. -/
def conditions (b : Batches W ε) (names : List Label) : List (Nat × Option Nat) → W →
    Res (W × Except (RunErr ε) (List Bool))
  | [], w => .ok (w, .ok [])
  | p :: rest, w =>
    match shouldRun b names (some p.1) p.2 w with
    | .error f => .error f
    | .ok (w, .error e) => .ok (w, .error e)
    | .ok (w, .ok x) =>
      match conditions b names rest w with
      | .error f => .error f
      | .ok (w, .error e) => .ok (w, .error e)
      | .ok (w, .ok xs) => .ok (w, .ok (x :: xs))

/-- `run_if`, `src/world/run_batches.rs:25-60`. -/
def batchConditions (b : Batches W ε) (names : List Label) (x : Option Nat × List Nat) (r : Option Nat × List (Option Nat))
    (w : W) : Res (W × Except (RunErr ε) (Bool × List Bool)) :=
  match shouldRun b names x.1 r.1 w with
  | .error f => .error f
  | .ok (w, .error e) => .ok (w, .error e)
  | .ok (w, .ok m) =>
    match conditions b names (x.2.zip r.2) w with
    | .error f => .error f
    | .ok (w, .error e) => .ok (w, .error e)
    | .ok (w, .ok xs) => .ok (w, .ok (m, xs))

/-- `single_system` and the systems left for the pool with their conditions, `src/world/run_batches.rs:62-83`. -/
def split (x : Option Nat × List Nat) (m : Bool) (flags : List Bool) : Res (Option Nat × List (Nat × Bool)) :=
  match x.1, m with
  | some i, true => .ok (some i, x.2.zip flags)
  | _, _ =>
    match x.2, flags with
    | [], _ => .ok (none, [])
    | _ :: _, [] => .error .panic
    | i :: rest, true :: fs => .ok (some i, rest.zip fs)
    | i :: rest, false :: fs => .ok (none, (i, false) :: rest.zip fs)

/-- Where a system of the running batch is. -/
inductive Status (W ε : Type) where
  | todo (p : Prog W ε)
  | going (p : Prog W ε)
  | ended (r : Except ε Unit)
  | skipped

/-- A system of the running batch: its index, whether it runs in place (`single_system`) or in the pool. -/
structure Task (W ε : Type) where
  index : Nat
  main : Bool
  status : Status W ε

/-- `run_single_system` for a system of a batch: a task not started yet. -/
def task (progs : List (Prog W ε)) (main : Bool) (i : Nat) : Res (Task W ε) :=
  match progs[i]? with
  | some p => .ok { index := i, main, status := .todo p }
  | none => .error .panic

/-- The tasks of the pool: `if !should_run { return Ok(()) }`. -/
def poolTasks (progs : List (Prog W ε)) : List (Nat × Bool) → Res (List (Task W ε))
  | [] => .ok []
  | (_, false) :: rest => poolTasks progs rest
  | (i, true) :: rest => do
    let t ← task progs false i
    let ts ← poolTasks progs rest
    .ok (t :: ts)

/-- The systems that `rayon::in_place_scope` runs, `src/world/run_batches.rs:73-113`. -/
def tasks (progs : List (Prog W ε)) (x : Option Nat × List (Nat × Bool)) : Res (List (Task W ε)) :=
  match x.1 with
  | none => poolTasks progs x.2
  | some i => do
    let t ← task progs true i
    let ts ← poolTasks progs x.2
    .ok (t :: ts)

/-- One step of a batch: any task may proceed; `try_for_each` may skip a task of the pool that has not started once another
one has failed. -/
inductive Step : W → List (Task W ε) → W → List (Task W ε) → Prop
  | start {w ts t} (i : Nat) (p) : ts[i]? = some t → t.status = .todo p →
      Step w ts w (ts.set i { t with status := .going p })
  | act {w ts t} (i : Nat) (u k) : ts[i]? = some t → t.status = .going (.act u k) →
      Step w ts (u w) (ts.set i { t with status := .going (k w) })
  | finish {w ts t} (i : Nat) (r) : ts[i]? = some t → t.status = .going (.done r) →
      Step w ts w (ts.set i { t with status := .ended r })
  | skip {w ts t t'} (i : Nat) (p e) : ts[i]? = some t → t.status = .todo p → t.main = false →
      t' ∈ ts → t'.main = false → t'.status = .ended (.error e) →
      Step w ts w (ts.set i { t with status := .skipped })

/-- Any number of steps. -/
inductive Steps : W → List (Task W ε) → W → List (Task W ε) → Prop
  | refl {w ts} : Steps w ts w ts
  | tail {w ts w' ts' w'' ts''} : Steps w ts w' ts' → Step w' ts' w'' ts'' → Steps w ts w'' ts''

/-- Nothing is left to do. -/
def Task.over (t : Task W ε) : Prop := t.status = .skipped ∨ ∃ r, t.status = .ended r

/-- What `src/world/run_batches.rs:105-115` returns: the error of the system run in place if it failed, else the error of one of
the failed systems of the pool. -/
inductive BatchResult (names : List Label) (ts : List (Task W ε)) : Except (RunErr ε) Unit → Prop
  | ok : (∀ t ∈ ts, ∀ e, t.status ≠ .ended (.error e)) → BatchResult names ts (.ok ())
  | main {t e n} : t ∈ ts → t.main = true → t.status = .ended (.error e) → names[t.index]? = some n →
      BatchResult names ts (.error (.run n e))
  | pool {t e n} : (∀ t ∈ ts, ∀ e, t.main = true → t.status ≠ .ended (.error e)) → t ∈ ts →
      t.status = .ended (.error e) → names[t.index]? = some n → BatchResult names ts (.error (.run n e))

/-- One batch: conditions, then the systems in any interleaving. -/
inductive RunBatch (b : Batches W ε) (progs : List (Prog W ε)) (names : List Label) (x : Option Nat × List Nat)
    (r : Option Nat × List (Option Nat)) : W → W → Except (RunErr ε) Unit → Prop
  | condition {w w' e} : batchConditions b names x r w = .ok (w', .error e) → RunBatch b progs names x r w w' (.error e)
  | systems {w w1 w2 m flags s ts ts' res} : batchConditions b names x r w = .ok (w1, .ok (m, flags)) →
      split x m flags = .ok s → tasks progs s = .ok ts → Steps w1 ts w2 ts' → (∀ t ∈ ts', t.over) →
      BatchResult names ts' res → RunBatch b progs names x r w w2 res

/-- `src/world/run_batches.rs:21-119` `run_batch`: one batch after the other, stopping at the first error. -/
inductive RunPar (b : Batches W ε) (progs : List (Prog W ε)) (names : List Label) :
    List ((Option Nat × List Nat) × (Option Nat × List (Option Nat))) → W → W → Except (RunErr ε) Unit → Prop
  | nil {w} : RunPar b progs names [] w w (.ok ())
  | stop {x rest w w' e} : RunBatch b progs names x.1 x.2 w w' (.error e) →
      RunPar b progs names (x :: rest) w w' (.error e)
  | next {x rest w w' w'' res} : RunBatch b progs names x.1 x.2 w w' (.ok ()) →
      RunPar b progs names rest w' w'' res → RunPar b progs names (x :: rest) w w'' res

/-- `src/world.rs:745-771` `run_batches` with the `parallel` feature. -/
inductive RunWorkload (b : Batches W ε) (progs : List (Prog W ε)) (names : List Label) (name : Label) :
    W → W → Except (RunErr ε) Unit → Prop
  | plain {w w' res} : b.workloadRunIf = none →
      RunPar b progs names (b.parallel.zip b.parallelRunIf) w w' res → RunWorkload b progs names name w w' res
  | conditionErr {w w' c e} : b.workloadRunIf = some c → c w = (w', .error e) →
      RunWorkload b progs names name w w' (.error (.run name e))
  | conditionFalse {w w' c} : b.workloadRunIf = some c → c w = (w', .ok false) →
      RunWorkload b progs names name w w' (.ok ())
  | conditionTrue {w w1 w' c res} : b.workloadRunIf = some c → c w = (w1, .ok true) →
      RunPar b progs names (b.parallel.zip b.parallelRunIf) w1 w' res → RunWorkload b progs names name w w' res

end Verif.Sched
