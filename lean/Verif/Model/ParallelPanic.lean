import Verif.Model.RunBatches

/-!
# Systems that panic in parallel runs

`src/world/run_batches.rs:9-127` again, for systems and conditions that may panic. A panic is one more way to stop early, so that the
steps of a batch are those of `Verif/Model/RunBatches.lean`. Of rayon is assumed: `in_place_scope` waits for all its tasks, whether its
closure returns or panics, and then panics if the closure or a task has panicked; `try_for_each` starts no task of its own for an item
only if another one failed or panicked, and lets those that have started end.
-/
namespace Verif.Sched

variable {W ε : Type}

/-- How a system or a condition stops: with an error or with a panic. -/
inductive Stop (ε : Type) where
  | err (e : ε)
  | panic

/-- How a run ends for its caller. -/
inductive RunEnd (ε : Type) where
  | returned (r : Except (RunErr ε) Unit)
  | unwound

/-- What the caller gets: an error is returned, a panic goes on. -/
def RunErr.toEnd : RunErr (Stop ε) → RunEnd ε
  | .missing => .returned (.error .missing)
  | .run n (.err e) => .returned (.error (.run n e))
  | .run _ .panic => .unwound

def resultEnd : Except (RunErr (Stop ε)) Unit → RunEnd ε
  | .ok () => .returned (.ok ())
  | .error e => e.toEnd

/-- `src/world/run_batches.rs:73-115`: the panic of `in_place_scope` comes before `?` and `result?`. -/
inductive ScopeEnd (names : List Label) (ts : List (Task W (Stop ε))) : RunEnd ε → Prop
  | unwound {t} : t ∈ ts → t.status = .ended (.error .panic) → ScopeEnd names ts .unwound
  | returned {r} : (∀ t ∈ ts, t.status ≠ .ended (.error .panic)) → BatchResult names ts r → ScopeEnd names ts (resultEnd r)

/-- One batch, `src/world/run_batches.rs:22-116`. A panic of a condition goes to the caller at once. -/
inductive RunBatchP (b : Batches W (Stop ε)) (progs : List (Prog W (Stop ε))) (names : List Label) (x : Option Nat × List Nat)
    (r : Option Nat × List (Option Nat)) : W → W → RunEnd ε → Prop
  | condition {w w' e} : batchConditions b names x r w = .ok (w', .error e) → RunBatchP b progs names x r w w' e.toEnd
  | systems {w w1 w2 m flags s ts ts' out} : batchConditions b names x r w = .ok (w1, .ok (m, flags)) →
      split x m flags = .ok s → tasks progs s = .ok ts → Steps w1 ts w2 ts' → (∀ t ∈ ts', t.over) →
      ScopeEnd names ts' out → RunBatchP b progs names x r w w2 out

/-- `src/world/run_batches.rs:21-119`: one batch after the other, as long as they end well. -/
inductive RunParP (b : Batches W (Stop ε)) (progs : List (Prog W (Stop ε))) (names : List Label) :
    List ((Option Nat × List Nat) × (Option Nat × List (Option Nat))) → W → W → RunEnd ε → Prop
  | nil {w} : RunParP b progs names [] w w (.returned (.ok ()))
  | stop {x rest w w' out} : RunBatchP b progs names x.1 x.2 w w' out → out ≠ .returned (.ok ()) →
      RunParP b progs names (x :: rest) w w' out
  | next {x rest w w' w'' out} : RunBatchP b progs names x.1 x.2 w w' (.returned (.ok ())) →
      RunParP b progs names rest w' w'' out → RunParP b progs names (x :: rest) w w'' out

/-- `src/world.rs:745-771` `run_batches`. -/
inductive RunWorkloadP (b : Batches W (Stop ε)) (progs : List (Prog W (Stop ε))) (names : List Label) (name : Label) :
    W → W → RunEnd ε → Prop
  | plain {w w' out} : b.workloadRunIf = none →
      RunParP b progs names (b.parallel.zip b.parallelRunIf) w w' out → RunWorkloadP b progs names name w w' out
  | conditionErr {w w' c e} : b.workloadRunIf = some c → c w = (w', .error e) →
      RunWorkloadP b progs names name w w' (RunErr.run name e).toEnd
  | conditionFalse {w w' c} : b.workloadRunIf = some c → c w = (w', .ok false) →
      RunWorkloadP b progs names name w w' (.returned (.ok ()))
  | conditionTrue {w w1 w' c out} : b.workloadRunIf = some c → c w = (w1, .ok true) →
      RunParP b progs names (b.parallel.zip b.parallelRunIf) w1 w' out → RunWorkloadP b progs names name w w' out

end Verif.Sched
