import Verif.Spec.Registry
import Verif.Model.AddWorkload

/-!
# The name the user gave to a workload
-/
namespace Verif.Sched
variable {W ε : Type}

/-- The name given with `Workload::new` or `rename`, the last one if there are several; none for tuples, systems and functions. A
workload keeps its name when others are merged into it. Functions that return a workload which has a name are left out. -/
inductive GivenName : Workload W ε → Option Label → Prop
  | new (l : Label) : GivenName (Workload.new l) (some l)
  | ofSystem (t s) : GivenName (Workload.ofSystem t s) none
  | emptyTuple (t) : GivenName (Workload.emptyTuple t) none
  | withSystem {w g} (s) : GivenName w g → GivenName (w.withSystem s) g
  | merge {w g} (w') : GivenName w g → GivenName (w.merge w') g
  | append {w g} (w') : GivenName w g → GivenName (w.append w').1 g
  | withBarrier {w g} : GivenName w g → GivenName w.withBarrier g
  | runIf {w g} (c) : GivenName w g → GivenName (w.addRunIf c) g
  | skipIf {w g} (c) : GivenName w g → GivenName (w.addSkipIf c) g
  | beforeAll {w g} (l : Label) : GivenName w g → GivenName (w.addBeforeAll l) g
  | afterAll {w g} (l : Label) : GivenName w g → GivenName (w.addAfterAll l) g
  | rename {w g} (l : Label) : GivenName w g → GivenName (w.rename l) (some l)
  | tag {w g} (l : Label) : GivenName w g → GivenName (w.addTag l) g
  | ofFn {w} (t) : GivenName w none → GivenName (Workload.ofFn t w) none
  | intoSequential {w w' g} : GivenName w g → w.intoSequential = .ok w' → GivenName w' g

/-- Where `add_workload` should put it: under the given name, else under the function. -/
def nameFor (g : Option Label) (t : Nat) : Label := g.getD (.workload t)

end Verif.Sched
