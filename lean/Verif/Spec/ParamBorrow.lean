import Verif.Model.UniquePresence
import Verif.Spec.BorrowViews

/-!
# The views the parameters of a system are given
-/
namespace Verif.Borrow

/-- How many borrows of one cell a parameter can make. -/
def Param.cost : Param → Nat
  | .req r => r.cost
  | .orDefault _ _ => 3
  | .orInit _ _ => 3

/-- The views a parameter may be given. `present` tells which uniques there are at the time. -/
def Given (present : Nat → Bool) : Param → View → Prop
  | .req r, v => WAnswers r v
  | .orDefault s x, v => v = .view s x true
  | .orInit s x, v => v = .tuple [.opt (if present s then some (.view s x true) else none), .view allCell false false]

/-- The views are those of the parameters, each given in a world that has at least the storages of `st`. -/
inductive GivenAll (st : Cells) : List Param → List View → Prop
  | nil : GivenAll st [] []
  | cons {st1 : Cells} {p : Param} {ps : List Param} {v : View} {vs : List View} :
      (∀ s, st.present s = true → st1.present s = true) → Given st1.present p v → GivenAll st ps vs → GivenAll st (p :: ps) (v :: vs)

/-- A parameter that is a view, or views nested in any way: not `AllStoragesView(Mut)`. -/
def Param.IsView : Param → Prop
  | .req (.allStorages _) => False
  | _ => True

/-- The parameter that needs the unique: `UniqueView(Mut)` instead of `UniqueOrDefaultView(Mut)` and `UniqueOrInitView(Mut)`. -/
def Param.needing : Param → Req
  | .req (.views r) => r
  | .req (.allStorages _) => .unit
  | .orDefault s x => .view s x false true
  | .orInit s x => .view s x false true

/-- The system that needs all its uniques. -/
def USys.needing (x : USys) : USys := ⟨x.params.map fun p => .req (.views p.needing), x.conditions⟩

end Verif.Borrow
