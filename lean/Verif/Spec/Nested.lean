import Verif.Spec.Parallel
import Verif.Spec.ParallelAny

/-!
# Workloads inside workloads
-/
namespace Verif.Sched

/-- The condition that always gives the answer `c` gives in `w0`. -/
def frozen {W ε : Type} (c : Cond W ε) (w0 : W) : Cond W ε := fun w => (w, (c w0).2)

/-- What a parallel run of the workload with this plan may do: the condition of the workload is asked first, then the groups run one
after the other. -/
def Workload.MayRun {W ε : Type} (w : Workload W ε) (plan : List (Nat × Nat)) (progOf : Nat → Prog W ε) (nameOf : Nat → Label)
    (l : Label) (w0 w' : W) (res : Except (RunErr ε) Unit) : Prop :=
  match evalC w.runIf w0 with
  | (w1, .error e) => w' = w1 ∧ res = .error (.run l e)
  | (w1, .ok false) => w' = w1 ∧ res = .ok ()
  | (w1, .ok true) => ∃ Ls : List (List (WSys W ε)), (∀ p ∈ plan, p.2 < Ls.length)
      ∧ (∀ (k : Nat) L, Ls[k]? = some L → L.Perm (w.group plan k)) ∧ InTurn progOf nameOf Ls w1 w' res

variable {V ε : Type}

/-- The condition changes nothing, and its answer depends only on what the views `rs` give access to. -/
structure ReadsOnly (rs : List TypeInfo) (c : Cond (Nat → V) ε) : Prop where
  same : ∀ w, (c w).1 = w
  out : ∀ w w', Agree rs w w' → (c w).2 = (c w').2

/-- Asking the condition changes nothing that `rs` gives access to. -/
def Spares (rs : List TypeInfo) (c : Option (Cond (Nat → V) ε)) : Prop := ∀ w x, Reads rs x → (evalC c w).1 x = w x

/-- No system of the workload and no condition changes anything that `rs` gives access to. -/
structure Workload.Leaves (rs : List TypeInfo) (progOf : Nat → Prog (Nat → V) ε) (w : Workload (Nat → V) ε) : Prop where
  fn : ∀ s ∈ w.systems, s.fn = (progOf s.typeId).run
  within : ∀ s ∈ w.systems, (progOf s.typeId).Within s.borrows
  apart : ∀ s ∈ w.systems, ∀ x, Reads rs x → ¬ Writes s.borrows x
  cond : ∀ s ∈ w.systems, Spares rs s.runIf
  condAll : Spares rs w.runIf

/-- Ways to put a workload inside others, next to systems that change nothing `rs` gives access to. -/
inductive Around (rs : List TypeInfo) (progOf : Nat → Prog (Nat → V) ε) : (Workload (Nat → V) ε → Workload (Nat → V) ε) → Prop
  | here : Around rs progOf fun w => w
  | left {F} (a : Workload (Nat → V) ε) : a.Leaves rs progOf → Around rs progOf F → Around rs progOf fun w => (F w).merge a
  | right {F} (a : Workload (Nat → V) ε) : a.Leaves rs progOf → Around rs progOf F → Around rs progOf fun w => a.merge (F w)
  | runIf {F} (c : Cond (Nat → V) ε) : Spares rs (some c) → Around rs progOf F → Around rs progOf fun w => (F w).addRunIf c
  | labels {F} {g : Workload (Nat → V) ε → Workload (Nat → V) ε} : (∀ w, (g w).systems = w.systems ∧ (g w).runIf = w.runIf) → Around rs progOf F →
      Around rs progOf fun w => g (F w)

end Verif.Sched
