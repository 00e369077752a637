import Verif.Model.BorrowViews

/-!
# Systems borrowing at the same time

The steps a system takes on the cells when every borrow succeeds, so that the steps of several systems can interleave. That these are the
steps of `Cells.params` is `C57_acts`.
-/
namespace Verif.Borrow

/-- One step of a system. -/
inductive Act where
  /-- `AtomicRefCell::borrow` or `borrow_mut` of a storage, made first if it does not exist -/
  | borrow (s : Nat) (exclusive : Bool)
  /-- clone of the `SharedBorrow` of cell 0 -/
  | clone
  /-- drop of a guard -/
  | drop (s : Nat) (exclusive : Bool)
  deriving DecidableEq, Repr

/-- The step, made by thread `me`: `false` when the borrow is refused. -/
def Cells.exec (st : Cells) (me : Nat) : Act → Res (Cells × Bool)
  | .borrow s exclusive => (({ st with me := me } : Cells).create s).guard s exclusive
  | .clone => ({ st with me := me } : Cells).act allCell .clone
  | .drop s exclusive => (({ st with me := me } : Cells).dropGuard s exclusive).map (·, true)

mutual
/-- The steps of `Cells.borrow` with a `SharedBorrow` of cell 0, when all of them succeed. -/
def Req.acts : Req → List Act
  | .unit => [.drop allCell false]
  | .view s exclusive _ _ => [.borrow s exclusive]
  | .opt r => r.acts
  | .tuple rs => Req.actsAll rs ++ [.drop allCell false]
def Req.actsAll : List Req → List Act
  | [] => []
  | r :: rs => .clone :: (r.acts ++ Req.actsAll rs)
end

/-- The steps of `Cells.worldBorrow`, when all of them succeed. -/
def WReq.acts : WReq → List Act
  | .views r => .borrow allCell false :: r.acts
  | .allStorages exclusive => [.borrow allCell exclusive]

mutual
/-- The steps of `Cells.dropView`. -/
def View.drops : View → List Act
  | .unit => []
  | .view s exclusive all => (if all then [.drop allCell false] else []) ++ [.drop s exclusive]
  | .opt none => []
  | .opt (some v) => v.drops
  | .tuple vs => View.dropsAll vs
def View.dropsAll : List View → List Act
  | [] => []
  | v :: vs => v.drops ++ View.dropsAll vs
end

mutual
/-- The view a successful borrow makes. -/
def Req.whole : Req → View
  | .unit => .unit
  | .view s exclusive _ _ => .view s exclusive true
  | .opt r => .opt (some r.whole)
  | .tuple rs => .tuple (Req.wholeAll rs)
def Req.wholeAll : List Req → List View
  | [] => []
  | r :: rs => r.whole :: Req.wholeAll rs
end

def WReq.whole : WReq → View
  | .views r => r.whole
  | .allStorages exclusive => .view allCell exclusive false

/-- The steps of one thread until one is refused. -/
def Cells.execAll (st : Cells) (me : Nat) : List Act → Res (Cells × Bool)
  | [] => .ok (st, true)
  | a :: as => (st.exec me a).bind fun (st, got) => if got then st.execAll me as else .ok (st, false)

/-- A thread running a system: its id and the steps that are left. -/
structure Runner where
  me : Nat
  todo : List Act

/-- The number of steps left. -/
def remaining (ts : List Runner) : Nat := (ts.map fun t => t.todo.length).sum

/-- The steps of several threads, one at a time in any order. The borrows of this relation all succeed. -/
inductive Race : Cells → List Runner → Cells → List Runner → Prop
  | refl {st ts} : Race st ts st ts
  | step {st ts st' ts' st'' i me a rest} : Race st ts st' ts' → ts'[i]? = some ⟨me, a :: rest⟩ →
      st'.exec me a = .ok (st'', true) → Race st ts st'' (ts'.set i ⟨me, rest⟩)

end Verif.Borrow
