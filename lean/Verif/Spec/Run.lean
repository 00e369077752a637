import Verif.Model.RunBatches

/-!
# Specification of running workloads
-/
namespace Verif.Sched

variable {W ε : Type}

/-- Evaluating a condition that may be absent. -/
def evalC : Option (Cond W ε) → Cond W ε
  | none => fun w => (w, .ok true)
  | some c => c

/-- First `a`, then, if it holds, `b`: both must hold. -/
def bothC (a b : Cond W ε) : Cond W ε := fun w =>
  match a w with
  | (w, .ok true) => b w
  | (w, .ok false) => (w, .ok false)
  | (w, .error e) => (w, .error e)

/-- A named function with its condition. -/
abbrev NamedJob (W ε : Type) := (Label × SysFn W ε) × Option (Cond W ε)

/-- The named job of a system of the workload. -/
def Workload.namedJob (w : Workload W ε) (i : Nat) : Option (NamedJob W ε) := w.at (fun s => (s.name, s.fn)) i

/-- One system: it runs if its condition holds; any error carries its name. -/
def runJob (j : NamedJob W ε) (w : W) : W × Except (RunErr ε) Unit :=
  match evalC j.2 w with
  | (w, .error e) => (w, .error (.run j.1.1 e))
  | (w, .ok false) => (w, .ok ())
  | (w, .ok true) =>
    match j.1.2 w with
    | (w, .ok _) => (w, .ok ())
    | (w, .error e) => (w, .error (.run j.1.1 e))

/-- One system after the other, until the first error. -/
def runJobs : List (NamedJob W ε) → W → W × Except (RunErr ε) Unit
  | [], w => (w, .ok ())
  | j :: rest, w =>
    match runJob j w with
    | (w, .ok _) => runJobs rest w
    | (w, .error e) => (w, .error e)

/-- A workload: its own condition first, then its systems in the given order. -/
def runAll (name : Label) (cond : Option (Cond W ε)) (jobs : List (NamedJob W ε)) (w : W) : W × Except (RunErr ε) Unit :=
  match evalC cond w with
  | (w, .error e) => (w, .error (.run name e))
  | (w, .ok false) => (w, .ok ())
  | (w, .ok true) => runJobs jobs w

/-- `plan` is a schedule of the workload: every system once, batches in order, no conflict in a batch, the constraints
respected. -/
structure Schedule (w : Workload W ε) (plan : List (Nat × Nat)) : Prop where
  once : (plan.map (·.1)).Perm (List.range w.systems.length)
  batches : plan.Pairwise fun p q => p.2 ≤ q.2
  apart : ∀ {a b k : Nat} {x y : WSys W ε}, a ≠ b → (a, k) ∈ plan → (b, k) ∈ plan → w.systems[a]? = some x →
    w.systems[b]? = some y → ¬ Conflicts x y
  explicit : ∀ {a b}, Explicit w a b → ∃ (i j ka kb : Nat), i < j ∧ ka < kb ∧ plan[i]? = some (a, ka) ∧ plan[j]? = some (b, kb)
  implicit : ∀ {a b}, Implicit w a b → ∃ (i j ka kb : Nat), i < j ∧ plan[i]? = some (a, ka) ∧ plan[j]? = some (b, kb)

/-- A table indexed like the scheduler's systems gives `valOf` of their types. -/
def Scheduler.Lists {α : Type} (sch : Scheduler W ε) (table : List α) (valOf : Nat → α) : Prop :=
  ∀ p ∈ sch.lookup, table[p.2]? = some (valOf p.1)

/-- The stored batches run the systems of the workload according to the plan; `table` is indexed like the systems of the scheduler. -/
structure Realises {α : Type} (table : List α) (val : WSys W ε → α) (b : Batches W ε) (w : Workload W ε)
    (plan : List (Nat × Nat)) : Prop where
  schedule : Schedule w plan
  cond : b.workloadRunIf = w.runIf
  seq : b.seqJobs table = plan.map fun p => w.at val p.1
  bound : ∀ p ∈ plan, p.2 < b.parallel.length
  lens : b.parallel.length = b.parallelRunIf.length
  par : ∀ k, k < b.parallel.length → ∃ jobs, (b.parJobs table)[k]? = some jobs
    ∧ jobs.Perm ((plan.filter fun p => p.2 == k).map fun p => w.at val p.1)
  /-- the lists of one batch fit together -/
  fit : ∀ (k : Nat) x r, b.parallel[k]? = some x → b.parallelRunIf[k]? = some r → x.2.length = r.2.length
    ∧ (x.1 = none → r.1 = none)

/-- All systems with one `TypeId` have one name. -/
def OneName (nameOf : Nat → Label) (w : Workload W ε) : Prop := ∀ s ∈ w.systems, s.name = nameOf s.typeId

end Verif.Sched
