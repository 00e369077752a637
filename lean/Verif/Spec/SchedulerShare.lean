import Verif.Model.SchedulerShare
import Verif.Spec.Run

/-!
# Specification of calls about workloads from several threads
-/
namespace Verif.Sched.Share

variable {W ε : Type}

/-- Everything that can happen to a new world. -/
def Reach (s : Share W ε) : Prop := ∃ w, Steps (Share.new w) s

/-- The call has borrowed the workloads and not given them back. -/
def Act.Holds (a : Act W ε) : Prop :=
  match a.stage with
  | .waiting => False
  | .left _ => False
  | _ => True

/-- The call changes the workloads. -/
def Call.Changes (c : Call W ε) : Prop := ∃ op, c.op = some op

/-- What a call that changes workloads answers when it is made alone, after the given ones. -/
def answer (ops : List (RegOp W ε)) : RegOp W ε → Out ε
  | .add w => .added ((Scheduler.after ops).add w).2
  | .setDefault l => .set ((Scheduler.after ops).setDefault l).isSome
  | .rename _ _ => .renamed

/-- The jobs that were done to their end without error, each in the world it found. -/
inductive Follows : List (NamedJob W ε) → List (Did W) → Prop
  | nil : Follows [] []
  | skipped {js ds w w'} (j : NamedJob W ε) : Follows js ds → evalC j.2 w = (w', .ok false) → Follows (js ++ [j]) (ds ++ [.asked w w'])
  | ran {js ds w w' x x'} (j : NamedJob W ε) : Follows js ds → evalC j.2 w = (w', .ok true) → j.1.2 x = (x', .ok ()) →
      Follows (js ++ [j]) (ds ++ [.asked w w', .ran x x'])

/-- The condition of the workload held. -/
inductive Opened (cond : Option (Cond W ε)) : List (Did W) → Prop
  | none : cond = none → Opened cond []
  | some {c w w'} : cond = some c → c w = (w', .ok true) → Opened cond [.condition w w']

/-- What a run of a workload did and answered: its condition, then its jobs in order, each in the world it found. -/
inductive RanAs (l : Label) (cond : Option (Cond W ε)) (jobs : List (NamedJob W ε)) : List (Did W) → Out ε → Prop
  | all {pre ds} : Opened cond pre → Follows jobs ds → RanAs l cond jobs (pre ++ ds) (.ran (.ok ()))
  | closed {c w w'} : cond = some c → c w = (w', .ok false) → RanAs l cond jobs [.condition w w'] (.ran (.ok ()))
  | conditionErr {c w w' e} : cond = some c → c w = (w', .error e) → RanAs l cond jobs [.condition w w'] (.ran (.error (.run l e)))
  | askErr {pre js ds j rest w w' e} : Opened cond pre → Follows js ds → jobs = js ++ j :: rest → evalC j.2 w = (w', .error e) →
      RanAs l cond jobs (pre ++ ds ++ [.asked w w']) (.ran (.error (.run j.1.1 e)))
  | systemErr {pre js ds j rest w w' x x' e} : Opened cond pre → Follows js ds → jobs = js ++ j :: rest → evalC j.2 w = (w', .ok true) →
      j.1.2 x = (x', .error e) → RanAs l cond jobs (pre ++ ds ++ [.asked w w', .ran x x']) (.ran (.error (.run j.1.1 e)))
  /-- a panic of the condition of the workload -/
  | conditionPanic : RanAs l cond jobs [] .unwound
  /-- a panic of the condition of a system -/
  | askPanic {pre js ds rest} : Opened cond pre → Follows js ds → jobs = js ++ rest → RanAs l cond jobs (pre ++ ds) .unwound
  /-- a panic of a system -/
  | systemPanic {pre js ds j rest w w'} : Opened cond pre → Follows js ds → jobs = js ++ j :: rest → evalC j.2 w = (w', .ok true) →
      RanAs l cond jobs (pre ++ ds ++ [.asked w w']) .unwound

/-- The jobs of the workload of that name after the given calls: those of its systems in an order that is a schedule of it. For a
system runs the function its type was first added with (as `C61_run` says). -/
def JobsOf (ops : List (RegOp W ε)) (l : Label) (wl : Workload W ε) (jobs : List (NamedJob W ε)) : Prop :=
  (Registry.after ops).get l = some wl ∧ ∃ (fnOf : Nat → SysFn W ε) (nameOf : Nat → Label) (plan : List (Nat × Nat)),
    (∀ w, RegOp.add w ∈ ops → ∀ s ∈ w.systems, ∃ v t, RegOp.add v ∈ ops ∧ t ∈ v.systems ∧ t.typeId = s.typeId
      ∧ t.fn = fnOf s.typeId ∧ t.name = nameOf s.typeId)
    ∧ Schedule wl plan ∧ jobs = wl.inOrderBy fnOf nameOf plan

end Verif.Sched.Share
