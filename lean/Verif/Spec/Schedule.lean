import Verif.Model.CreateWorkload

/-!
# Specification of workload building

Which workloads the public API can build, what their constraints mean, and what a schedule is. Written
against the list of systems of the workload; systems are named by their position in it.
-/
namespace Verif.Sched

variable {W ε : Type}

/-- Labels a user can write: `UniqueSystemId` is private to `create_workload.rs`. -/
def Label.user : Label → Prop
  | .unique _ => False
  | _ => True

/-- Systems the public API can make: a function, then any sequence of modifiers. -/
inductive Fresh : WSys W ε → Prop
  | ofFn {t bs f tr s} : WSys.ofFn t bs f tr = .ok s → Fresh s
  | runIf {s} (c) : Fresh s → Fresh (s.addRunIf c)
  | skipIf {s} (c) : Fresh s → Fresh (s.addSkipIf c)
  | beforeAll {s} (l : Label) : l.user → Fresh s → Fresh (s.addBeforeAll l)
  | afterAll {s} (l : Label) : l.user → Fresh s → Fresh (s.addAfterAll l)
  | displayName {s} (l : Label) : l.user → Fresh s → Fresh (s.displayName l)
  | tag {s} (l : Label) : l.user → Fresh s → Fresh (s.addTag l)
  | requireIn {s} (l : Label) : l.user → Fresh s → Fresh (s.requireIn l)
  | requireBefore {s} (l : Label) : l.user → Fresh s → Fresh (s.requireBefore l)
  | requireAfter {s} (l : Label) : l.user → Fresh s → Fresh (s.requireAfter l)

/-- Workloads the public API can make, except with `Extend<WorkloadSystem>`, writes to the public fields of
`WorkloadSystem`, and the emptied second argument of `append` (see the findings). -/
inductive Built : Workload W ε → Prop
  | new (l : Label) : l.user → Built (Workload.new l)
  | ofSystem (t) {s} : Fresh s → Built (Workload.ofSystem t s)
  | emptyTuple (t) : Built (Workload.emptyTuple t)
  | withSystem {w s} : Built w → Fresh s → Built (w.withSystem s)
  | merge {w w'} : Built w → Built w' → Built (w.merge w')
  | append {w w'} : Built w → Built w' → Built (w.append w').1
  | withBarrier {w} : Built w → Built w.withBarrier
  | runIf {w} (c) : Built w → Built (w.addRunIf c)
  | skipIf {w} (c) : Built w → Built (w.addSkipIf c)
  | beforeAll {w} (l : Label) : l.user → Built w → Built (w.addBeforeAll l)
  | afterAll {w} (l : Label) : l.user → Built w → Built (w.addAfterAll l)
  | rename {w} (l : Label) : l.user → Built w → Built (w.rename l)
  | tag {w} (l : Label) : l.user → Built w → Built (w.addTag l)
  | ofFn (t) {w} : Built w → Built (Workload.ofFn t w)
  | intoSequential {w w'} : Built w → w.intoSequential = .ok w' → Built w'

/-- Two views that must not be held at the same time. -/
inductive Clash : TypeInfo → TypeInfo → Prop
  /-- the same storage, one of them exclusively -/
  | share {a b} : a.storage = b.storage → (a.exclusive = true ∨ b.exclusive = true) → Clash a b
  /-- both need the main thread -/
  | thread {a b} : a.threadSafe = false → b.threadSafe = false → Clash a b
  /-- one of them is all the storages -/
  | allLeft {a b} : a.storage = allStorages → Clash a b
  | allRight {a b} : b.storage = allStorages → Clash a b

/-- Two systems that must not run at the same time. -/
def Conflicts (x y : WSys W ε) : Prop := ∃ a ∈ x.borrows, ∃ b ∈ y.borrows, Clash a b

/-- A constraint the user wrote puts system `a` before system `b`. -/
inductive Explicit (w : Workload W ε) : Nat → Nat → Prop
  | beforeAll {a b : Nat} {x y l} : w.systems[a]? = some x → w.systems[b]? = some y → a ≠ b →
      l ∈ x.beforeAll → l ∈ y.tags → Explicit w a b
  | afterAll {a b : Nat} {x y l} : w.systems[a]? = some x → w.systems[b]? = some y → a ≠ b →
      l ∈ y.afterAll → l ∈ x.tags → Explicit w a b
  | barrier {a b k : Nat} : k ∈ w.barriers → a < k → k ≤ b → b < w.systems.length → Explicit w a b

/-- The system is not ordered by `before_all` nor `after_all`. -/
def Unordered (x : WSys W ε) : Prop := x.beforeAll = [] ∧ x.afterAll = []

/-- `a` was added before `b` and neither is ordered by the user. -/
def Implicit (w : Workload W ε) (a b : Nat) : Prop :=
  a < b ∧ ∃ x y, w.systems[a]? = some x ∧ w.systems[b]? = some y ∧ Unordered x ∧ Unordered y

/-- All the ordering constraints of a workload. -/
def Before (w : Workload W ε) (a b : Nat) : Prop := Explicit w a b ∨ Implicit w a b

/-- The constraints contain a cycle. -/
def Cyclic (w : Workload W ε) : Prop := ∃ a, Relation.TransGen (Before w) a a

/-- `a` is the closest system added before `b` that conflicts with it, neither being ordered by the user. -/
def Nearest (w : Workload W ε) (a b : Nat) : Prop :=
  ∃ x y, w.systems[a]? = some x ∧ w.systems[b]? = some y ∧ a < b ∧ Unordered x ∧ Unordered y ∧ Conflicts x y
    ∧ ∀ (k : Nat) z, a < k → k < b → w.systems[k]? = some z → Unordered z → ¬ Conflicts z y

/-- What `require_before` and `require_after` take into account: `a` is before `b` by a chain of explicit
constraints and closest conflicts. -/
def Ordered (w : Workload W ε) : Nat → Nat → Prop :=
  Relation.TransGen fun a b => Explicit w a b ∨ Nearest w a b

/-- The position in the workload and the batch of each system, in the order they are placed. The theorems C49
relate it to the stored batches. -/
def Created.plan (c : Created W ε) : List (Nat × Nat) := c.trace.map fun p => (p.2.uid, p.1)

/-- `a` runs before `b` in the sequential order. -/
def Created.earlier (c : Created W ε) (a b : Nat) : Prop :=
  ∃ (i j ka kb : Nat), i < j ∧ c.plan[i]? = some (a, ka) ∧ c.plan[j]? = some (b, kb)

/-- The number of the batch of system `a`. -/
def Created.inBatch (c : Created W ε) (a k : Nat) : Prop := (a, k) ∈ c.plan

/-- What runs at one place of the schedule: a function and its condition. -/
abbrev Job (W ε : Type) := (SysFn W ε) × Option (Cond W ε)

/-- A system at a position of the workload, `val` of it and its condition. -/
def Workload.at {α : Type} (w : Workload W ε) (val : WSys W ε → α) (i : Nat) : Option (α × Option (Cond W ε)) :=
  w.systems[i]?.map fun s => (val s, s.runIf)

/-- The job of the system at a position of the workload. -/
def Workload.job (w : Workload W ε) (i : Nat) : Option (Job W ε) := w.at (·.fn) i

/-- The condition behind a run_if index of a batch; `none` inside is "no condition", `none` outside an index out
of range (`run_batches.rs` indexes with `[]` after the `usize::MAX` test). -/
def Batches.cond (b : Batches W ε) (i : Option Nat) : Option (Option (Cond W ε)) :=
  match i with
  | none => some none
  | some k => b.systemsRunIf[k]?.map some

/-- What is behind a system index, in a table indexed like the scheduler's systems, and a run_if index. -/
def Batches.job {α : Type} (b : Batches W ε) (table : List α) (i : Nat) (r : Option Nat) :
    Option (α × Option (Cond W ε)) :=
  match table[i]?, b.cond r with
  | some f, some c => some (f, c)
  | _, _ => none

/-- The jobs of the sequential order. -/
def Batches.seqJobs {α : Type} (b : Batches W ε) (table : List α) : List (Option (α × Option (Cond W ε))) :=
  (b.sequential.zip b.sequentialRunIf).map fun p => b.job table p.1 p.2

/-- The jobs of one parallel batch: the single system first. -/
def Batches.batchJobs {α : Type} (b : Batches W ε) (table : List α)
    (x : Option Nat × List Nat) (r : Option Nat × List (Option Nat)) : List (Option (α × Option (Cond W ε))) :=
  (match x.1 with | some i => [b.job table i r.1] | none => [])
    ++ (x.2.zip r.2).map fun p => b.job table p.1 p.2

/-- The jobs of the parallel batches. -/
def Batches.parJobs {α : Type} (b : Batches W ε) (table : List α) : List (List (Option (α × Option (Cond W ε)))) :=
  (b.parallel.zip b.parallelRunIf).map fun p => b.batchJobs table p.1 p.2

/-- All functions with one `TypeId` are the same function: true of functions and of closures that capture nothing. -/
def OneFn (fnOf : Nat → SysFn W ε) (w : Workload W ε) : Prop := ∀ s ∈ w.systems, s.fn = fnOf s.typeId

/-- The scheduler's table sends each `TypeId` to its function. -/
def Scheduler.Ok (fnOf : Nat → SysFn W ε) (sch : Scheduler W ε) : Prop :=
  ∀ p ∈ sch.lookup, sch.systems[p.2]? = some (fnOf p.1)

end Verif.Sched
