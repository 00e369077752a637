import Verif.Model.TrackedRun
import Verif.Spec.Parallel

/-!
# Being told every change exactly once
-/
namespace Verif.Sched.Told

variable {V ε ρ : Type}

/-- The component was changed since the last run of `i` ended (or at all, if `i` never ran). The newest entry comes first. -/
def Changed (i : Who) (x k : Nat) (log : List Ev) : Prop :=
  ∃ newer older, log = newer ++ .wrote x k :: older ∧ Ev.ended i ∉ newer

/-- Everyone was always told the truth. -/
def Exact (log : List Ev) : Prop :=
  ∀ newer i x k b older, log = newer ++ .told i x k b :: older → (b = true ↔ Changed i x k older)

/-- There is a view of the storage. -/
def Views (bs : List TypeInfo) (x : Nat) : Prop := ∃ b ∈ bs, b.storage = x

/-- The body does what its views allow: it writes storages it has an exclusive view of, it writes through `AllStorages` storages it has
no view of, and looks at storages it has a view of. -/
inductive TProg.Within (bs : List TypeInfo) : TProg V ρ → Prop
  | done (r) : TProg.Within bs (.done r)
  | write {x k v p} : (∃ b ∈ bs, b.exclusive = true ∧ b.storage = x) → TProg.Within bs p → TProg.Within bs (.write x k v p)
  | fresh {x k v p} : (∃ b ∈ bs, b.storage = allStorages) → ¬ Views bs x → TProg.Within bs p → TProg.Within bs (.fresh x k v p)
  | look {x k p} : Views bs x → (∀ v b, TProg.Within bs (p v b)) → TProg.Within bs (.look x k p)

/-- A system that does what its views allow. -/
def Sys.Within (bs : List TypeInfo) : Sys V ε → Prop
  | .plain _ => True
  | .tracked p => p.Within bs

/-- A condition: without views, with views, or several joined by `run_if`. -/
inductive IsCond (viewsOf : Who → List TypeInfo) : Cond (TW V) ε → Prop
  | plain (r : Except ε Bool) : IsCond viewsOf fun w => (w, r)
  | one {n p} : p.Within (viewsOf (.condition n)) → IsCond viewsOf (condition n p)
  | both {a b} : IsCond viewsOf a → IsCond viewsOf b → IsCond viewsOf (bothC a b)

/-- The workload's systems and conditions are of this kind; each function is a system of it at most once. -/
structure Tracks (viewsOf : Who → List TypeInfo) (sysOf : Nat → Sys V ε) (w : Workload (TW V) ε) : Prop where
  views : ∀ s ∈ w.systems, s.borrows = viewsOf (.system s.typeId)
  within : ∀ s ∈ w.systems, (sysOf s.typeId).Within s.borrows
  once : (w.systems.map (·.typeId)).Nodup
  cond : ∀ s ∈ w.systems, ∀ c, s.runIf = some c → IsCond viewsOf c
  condAll : ∀ c, w.runIf = some c → IsCond viewsOf c

/-- What can happen to a world: changes made outside of workloads, and runs of workloads of any scheduler, in parallel, with any
interleaving and any result. -/
inductive Hist (viewsOf : Who → List TypeInfo) (sysOf : Nat → Sys V ε) : TW V → Prop
  | new (v) : Hist viewsOf sysOf (TW.new v)
  | outside {w} (x k : Nat) (v : V) : Hist viewsOf sysOf w → Hist viewsOf sysOf (w.fresh x k v)
  | run {w w' : TW V} {wl : Workload (TW V) ε} {sch : Scheduler (TW V) ε} {c : Created (TW V) ε} {progs names l res} :
      Hist viewsOf sysOf w → Built wl → Tracks viewsOf sysOf wl → createWorkload sch wl = .ok c →
      c.sch.Lists progs (fun t => (sysOf t).prog t) → RunWorkload c.batches progs names l w w' res → Hist viewsOf sysOf w'

/-! ## Comparing two runs -/

/-- What `i` was told: the storage, the place and the answer, the newest first. -/
def heard (i : Who) (log : List Ev) : List (Nat × Nat × Bool) :=
  log.filterMap fun
    | .told j x k b => if j = i then some (x, k, b) else none
    | _ => none

/-- What a condition is made of. -/
inductive TCond (V ε : Type) where
  | plain (r : Except ε Bool)
  | one (n : Nat) (p : TProg V (Except ε Bool))
  | both (a b : TCond V ε)

def TCond.cond : TCond V ε → Cond (TW V) ε
  | .plain r => fun w => (w, r)
  | .one n p => condition n p
  | .both a b => bothC a.cond b.cond

/-- Each does what its views allow. -/
def TCond.Within (viewsOf : Who → List TypeInfo) : TCond V ε → Prop
  | .plain _ => True
  | .one n p => p.Within (viewsOf (.condition n))
  | .both a b => a.Within viewsOf ∧ b.Within viewsOf

def TCond.parts : TCond V ε → List Who
  | .plain _ => []
  | .one n _ => [.condition n]
  | .both a b => a.parts ++ b.parts

/-- What runs for a system: its conditions and itself. -/
def partsOf (made : Cond (TW V) ε → TCond V ε) (s : WSys (TW V) ε) : List Who :=
  .system s.typeId :: match s.runIf with
    | none => []
    | some c => (made c).parts

/-- The conditions of the systems keep apart: if nothing in the views of two systems keeps them from running at the same time, they have no
condition in common, and the conditions of the one do not overlap with the other nor with its conditions. -/
structure CondsApart (viewsOf : Who → List TypeInfo) (made : Cond (TW V) ε → TCond V ε) (w : Workload (TW V) ε) : Prop where
  cond : ∀ s ∈ w.systems, ∀ c, s.runIf = some c → c = (made c).cond ∧ (made c).Within viewsOf
  apart : ∀ s ∈ w.systems, ∀ s' ∈ w.systems, s.typeId ≠ s'.typeId → (¬ ∃ a ∈ s.borrows, ∃ b ∈ s'.borrows, Clash a b) →
    ∀ i ∈ partsOf made s, ∀ j ∈ partsOf made s', i ≠ j ∧ ∀ a ∈ viewsOf i, ∀ b ∈ viewsOf j, ¬ Overlap a b

/-- Each view is a view of `bs`, or the shared view of what `bs` has an exclusive view of. -/
def Covers (bs vs : List TypeInfo) : Prop := ∀ a ∈ vs, ∃ b ∈ bs, b.storage = a.storage ∧ (a.exclusive = true → b.exclusive = true)

/-- The systems of the scheduler, by their types. -/
def tprogs (sysOf : Nat → Sys V ε) (ids : List Nat) : List (Prog (TW V) ε) := ids.map fun t => (sysOf t).prog t

/-- A workload of such systems was added to a scheduler whose systems have the types `ids` and the names `names`. Its systems run alone
do the same steps without interruption. -/
structure Added (viewsOf : Who → List TypeInfo) (sysOf : Nat → Sys V ε) (wl : Workload (TW V) ε) (sch : Scheduler (TW V) ε)
    (c : Created (TW V) ε) (ids : List Nat) (names : List Label) : Prop where
  built : Built wl
  tracks : Tracks viewsOf sysOf wl
  conds : ∃ made, CondsApart viewsOf made wl
  fn : ∀ s ∈ wl.systems, s.fn = ((sysOf s.typeId).prog s.typeId).run
  created : createWorkload sch wl = .ok c
  ids : c.sch.Lists ids fun t => t
  names : ∃ nameOf, c.sch.Lists names nameOf

/-- The two worlds cannot be told apart by a system or a condition: every place holds the same value, everyone was told the same so far,
and would now be told the same about every place in their views. -/
structure Alike (viewsOf : Who → List TypeInfo) (a b : TW V) : Prop where
  values : ∀ x k, (a.cell x k).1 = (b.cell x k).1
  heard : ∀ i, heard i a.log = heard i b.log
  changed : ∀ i x k, Views (viewsOf i) x → (Changed i x k a.log ↔ Changed i x k b.log)

/-- Two histories of the same changes and the same successful runs: in the left one workloads run in parallel, with any interleaving,
in the right one their systems run one after the other. -/
inductive Twins (viewsOf : Who → List TypeInfo) (sysOf : Nat → Sys V ε) : TW V → TW V → Prop
  | new (v) : Twins viewsOf sysOf (TW.new v) (TW.new v)
  | outside {a b} (x k : Nat) (v : V) : Twins viewsOf sysOf a b → Twins viewsOf sysOf (a.fresh x k v) (b.fresh x k v)
  | run {a b a' : TW V} {wl : Workload (TW V) ε} {sch : Scheduler (TW V) ε} {c : Created (TW V) ε} {ids names l} :
      Twins viewsOf sysOf a b → Added viewsOf sysOf wl sch c ids names →
      RunWorkload c.batches (tprogs sysOf ids) names l a a' (.ok ()) →
      Twins viewsOf sysOf a' (runAll l wl.runIf (wl.inOrder c.plan) b).1

end Verif.Sched.Told
