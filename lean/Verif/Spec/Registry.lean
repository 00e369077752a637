import Verif.Spec.Run

/-!
# Specification of the workloads of a world

A world has named workloads and a default one.
-/
namespace Verif.Sched

variable {W ε : Type}

/-- A workload whose requirements are met and whose constraints have no cycle. (What "ordered before/after" means for requirements is
discussed at C54.) -/
structure Buildable (w : Workload W ε) : Prop where
  present : ∀ s ∈ w.systems, ∀ l ∈ s.reqIn, ∃ t ∈ w.systems, l ∈ t.tags
  before : ∀ (i : Nat) s, w.systems[i]? = some s → ∀ l ∈ s.reqBefore,
    ∃ (j : Nat) (t : WSys W ε), w.systems[j]? = some t ∧ Ordered w j i ∧ l ∈ t.tags
  after : ∀ (i : Nat) s, w.systems[i]? = some s → ∀ l ∈ s.reqAfter,
    ∃ (j : Nat) (t : WSys W ε), w.systems[j]? = some t ∧ (Ordered w i j ∨ (j = i ∧ ∃ k, Ordered w i k)) ∧ l ∈ t.tags
  acyclic : ¬ Cyclic w

/-- What a user can do with the workloads of a world. -/
inductive RegOp (W ε : Type) where
  | add (w : Workload W ε)
  | setDefault (l : Label)
  | rename (old new : Label)

/-- The workloads of the world as the user sees them. -/
structure Registry (W ε : Type) where
  get : Label → Option (Workload W ε)
  default : Option Label

/-- At first there is none. -/
def Registry.empty : Registry W ε := { get := fun _ => none, default := none }

open Classical in
/-- What each operation means. -/
noncomputable def Registry.step (r : Registry W ε) : RegOp W ε → Registry W ε
  | .add w =>
    if r.get w.name = none ∧ Buildable w then
      { get := fun l => if l = w.name then some w else r.get l
        default := match r.default with | some d => some d | none => some w.name }
    else r
  | .setDefault l => if r.get l = none then r else { r with default := some l }
  | .rename old new =>
    match r.get old with
    | none => r
    | some w =>
      { get := fun l => if l = new then some w else if l = old then none else r.get l
        default := if r.default = some old then some new else r.default }

/-- The workloads after a history. -/
noncomputable def Registry.after (ops : List (RegOp W ε)) : Registry W ε := ops.foldl Registry.step Registry.empty

/-- The model of the code: one operation. -/
def Scheduler.step (sch : Scheduler W ε) : RegOp W ε → Scheduler W ε
  | .add w => (sch.add w).1
  | .setDefault l => (sch.setDefault l).getD sch
  | .rename old new => sch.rename old new

/-- The model of the code: a history. -/
def Scheduler.after (ops : List (RegOp W ε)) : Scheduler W ε := ops.foldl Scheduler.step Scheduler.empty

/-- All the workloads of the history are made with the API. -/
def AllBuilt (ops : List (RegOp W ε)) : Prop := ∀ w, RegOp.add w ∈ ops → Built w

/-- All the workloads of the history are made with the API, of systems known by their types. -/
def Fair (fnOf : Nat → SysFn W ε) (nameOf : Nat → Label) (ops : List (RegOp W ε)) : Prop :=
  ∀ w, RegOp.add w ∈ ops → Built w ∧ OneFn fnOf w ∧ OneName nameOf w

/-- What runs for a system, with the name in its errors, when each type stands for one function and one name. -/
def byType (fnOf : Nat → SysFn W ε) (nameOf : Nat → Label) (s : WSys W ε) : Label × SysFn W ε := (nameOf s.typeId, fnOf s.typeId)

/-- The systems of a workload in the order of the plan, each standing for the function of its type. -/
def Workload.inOrderBy (w : Workload W ε) (fnOf : Nat → SysFn W ε) (nameOf : Nat → Label) (plan : List (Nat × Nat)) :
    List (NamedJob W ε) := plan.filterMap fun p => w.at (byType fnOf nameOf) p.1

/-- The systems of a workload in the order of the plan. -/
def Workload.inOrder (w : Workload W ε) (plan : List (Nat × Nat)) : List (NamedJob W ε) :=
  plan.filterMap fun p => w.namedJob p.1

/-- The schedule the workload gets when it is the first one added to a new world. -/
def Workload.Alone (w : Workload W ε) (plan : List (Nat × Nat)) : Prop :=
  ∃ c, createWorkload Scheduler.empty w = .ok c ∧ c.plan = plan

end Verif.Sched
