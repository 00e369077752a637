import Verif.Model.ParallelPanic
import Verif.Spec.ParallelAny

/-!
# What a parallel run may do when systems panic
-/
namespace Verif.Sched

variable {W ε : Type}

/-- The systems `L` together, from one world to another. All conditions are asked first; if one fails or panics no system starts.
Otherwise those whose condition held, and no others, are started, their accesses in any interleaving, and all that have started come to
their end. If one of them panicked, so does the run. -/
inductive AtOnceP (progOf : Nat → Prog W (Stop ε)) (nameOf : Nat → Label) (L : List (WSys W (Stop ε))) : W → W → RunEnd ε → Prop
  | refused {w w' s e} : askAll L w = (w', .error (s, .err e)) → AtOnceP progOf nameOf L w w' (.returned (.error (.run (nameOf s.typeId) e)))
  | refusedPanic {w w' s} : askAll L w = (w', .error (s, .panic)) → AtOnceP progOf nameOf L w w' .unwound
  | ok {w w1 w' flags} {ts ts' : List (Task W (Stop ε))} : askAll L w = (w1, .ok flags) →
      ts.map (·.status) = (chosen L flags).map (fun s => .todo (progOf s.typeId)) → Steps w1 ts w' ts' →
      (∀ t ∈ ts', t.status = .ended (.ok ())) → AtOnceP progOf nameOf L w w' (.returned (.ok ()))
  | failed {w w1 w' flags e} {i : Nat} {s : WSys W (Stop ε)} {t : Task W (Stop ε)} {ts ts' : List (Task W (Stop ε))} :
      askAll L w = (w1, .ok flags) →
      ts.map (·.status) = (chosen L flags).map (fun s => .todo (progOf s.typeId)) → Steps w1 ts w' ts' →
      (∀ t ∈ ts', t.over) → (∀ t ∈ ts', t.status ≠ .ended (.error .panic)) →
      (chosen L flags)[i]? = some s → ts'[i]? = some t → t.status = .ended (.error (.err e)) →
      AtOnceP progOf nameOf L w w' (.returned (.error (.run (nameOf s.typeId) e)))
  | panicked {w w1 w' flags} {i : Nat} {s : WSys W (Stop ε)} {t : Task W (Stop ε)} {ts ts' : List (Task W (Stop ε))} :
      askAll L w = (w1, .ok flags) →
      ts.map (·.status) = (chosen L flags).map (fun s => .todo (progOf s.typeId)) → Steps w1 ts w' ts' →
      (∀ t ∈ ts', t.over) → (chosen L flags)[i]? = some s → ts'[i]? = some t → t.status = .ended (.error .panic) →
      AtOnceP progOf nameOf L w w' .unwound

/-- Groups of systems one after the other, up to the first failure or panic. -/
inductive InTurnP (progOf : Nat → Prog W (Stop ε)) (nameOf : Nat → Label) : List (List (WSys W (Stop ε))) → W → W → RunEnd ε → Prop
  | nil {w} : InTurnP progOf nameOf [] w w (.returned (.ok ()))
  | stop {L rest w w' out} : AtOnceP progOf nameOf L w w' out → out ≠ .returned (.ok ()) → InTurnP progOf nameOf (L :: rest) w w' out
  | next {L rest w w1 w' out} : AtOnceP progOf nameOf L w w1 (.returned (.ok ())) → InTurnP progOf nameOf rest w1 w' out →
      InTurnP progOf nameOf (L :: rest) w w' out

end Verif.Sched
