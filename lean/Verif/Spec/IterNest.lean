import Verif.Model.IterNest
import Verif.Spec.Iter

/-!
# Specification: `World::iter` with tuples in tuples
-/
namespace Verif.IterSpec
open StoSpec TrkSpec Iter
variable {V : Type}

mutual
/-- The views of an argument of `World::iter`, in order. -/
def viewsOf : WQ V → List (Tracking.View V)
  | .one v => [v]
  | .tup l => viewsOfs l
def viewsOfs : List (WQ V) → List (Tracking.View V)
  | [] => []
  | q :: l => viewsOf q ++ viewsOfs l
end

mutual
/-- No tuple is empty: `()` is no argument of `World::iter`. -/
def Solid : WQ V → Prop
  | .one _ => True
  | .tup l => l ≠ [] ∧ Solids l
def Solids : List (WQ V) → Prop
  | [] => True
  | q :: l => Solid q ∧ Solids l
end

mutual
/-- What `World::iter` should yield for an entity, if anything: its component, or what the members should yield. -/
def wItem (st : Win V → Sto V) (e : EId) : WQ V → Option (Out V)
  | .one v => (lookup (st (Win.ofView v)).rows e).map .comp
  | .tup l => (wItems st e l).map .tup
def wItems (st : Win V → Sto V) (e : EId) : List (WQ V) → Option (List (Out V))
  | [] => some []
  | q :: l => (wItem st e q).bind fun x => (wItems st e l).map (x :: ·)
end

end Verif.IterSpec
