import Verif.Spec.Registry

/-!
# What a parallel run of any workload may do

No assumption about what systems and conditions do: they may share memory, and conditions may change the world.
-/
namespace Verif.Sched

variable {W ε : Type}

/-- Asks systems, one after the other, whether they are to run: the answers, or the first failure. -/
def askAll : List (WSys W ε) → W → W × Except (WSys W ε × ε) (List Bool)
  | [], w => (w, .ok [])
  | s :: L, w =>
    match evalC s.runIf w with
    | (w, .error e) => (w, .error (s, e))
    | (w, .ok f) =>
      match askAll L w with
      | (w, .error x) => (w, .error x)
      | (w, .ok fs) => (w, .ok (f :: fs))

/-- The systems whose answer was yes. -/
def chosen (L : List (WSys W ε)) (flags : List Bool) : List (WSys W ε) := ((L.zip flags).filter (·.2)).map (·.1)

/-- The systems `L` together, from one world to another. All conditions are asked first. If one fails no system starts. Otherwise
those whose condition held, and no others, are started, their accesses in any interleaving. -/
inductive AtOnce (progOf : Nat → Prog W ε) (nameOf : Nat → Label) (L : List (WSys W ε)) : W → W → Except (RunErr ε) Unit → Prop
  | refused {w w' s e} : askAll L w = (w', .error (s, e)) → AtOnce progOf nameOf L w w' (.error (.run (nameOf s.typeId) e))
  | ok {w w1 w' flags} {ts ts' : List (Task W ε)} : askAll L w = (w1, .ok flags) →
      ts.map (·.status) = (chosen L flags).map (fun s => .todo (progOf s.typeId)) → Steps w1 ts w' ts' →
      (∀ t ∈ ts', t.status = .ended (.ok ())) → AtOnce progOf nameOf L w w' (.ok ())
  | failed {w w1 w' flags e} {i : Nat} {s : WSys W ε} {t : Task W ε} {ts ts' : List (Task W ε)} : askAll L w = (w1, .ok flags) →
      ts.map (·.status) = (chosen L flags).map (fun s => .todo (progOf s.typeId)) → Steps w1 ts w' ts' →
      (∀ t ∈ ts', t.over) → (chosen L flags)[i]? = some s → ts'[i]? = some t → t.status = .ended (.error e) →
      AtOnce progOf nameOf L w w' (.error (.run (nameOf s.typeId) e))

/-- Groups of systems one after the other, up to the first failure. -/
inductive InTurn (progOf : Nat → Prog W ε) (nameOf : Nat → Label) : List (List (WSys W ε)) → W → W → Except (RunErr ε) Unit → Prop
  | nil {w} : InTurn progOf nameOf [] w w (.ok ())
  | stop {L rest w w' e} : AtOnce progOf nameOf L w w' (.error e) → InTurn progOf nameOf (L :: rest) w w' (.error e)
  | next {L rest w w1 w' res} : AtOnce progOf nameOf L w w1 (.ok ()) → InTurn progOf nameOf rest w1 w' res →
      InTurn progOf nameOf (L :: rest) w w' res

/-- The systems of the workload that a plan puts at time `k`. -/
def Workload.group (w : Workload W ε) (plan : List (Nat × Nat)) (k : Nat) : List (WSys W ε) :=
  (plan.filter fun p => p.2 == k).filterMap fun p => w.systems[p.1]?

end Verif.Sched
