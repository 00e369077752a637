import Verif.Model.BorrowViews
import Verif.Spec.Borrow

/-!
# Specification of borrowing several views
-/
namespace Verif.Borrow

mutual
/-- How many shared guards of the storage `s` a view holds. -/
def View.sharedOn (s : Nat) : View → Nat
  | .unit => 0
  | .view t exclusive all => (if s = t ∧ exclusive = false then 1 else 0) + (if s = allCell ∧ all = true then 1 else 0)
  | .opt none => 0
  | .opt (some v) => v.sharedOn s
  | .tuple vs => View.sharedOnAll s vs
def View.sharedOnAll (s : Nat) : List View → Nat
  | [] => 0
  | v :: vs => v.sharedOn s + View.sharedOnAll s vs
end

mutual
/-- How many exclusive guards of the storage `s` a view holds. -/
def View.exclusiveOn (s : Nat) : View → Nat
  | .unit => 0
  | .view t exclusive _ => if s = t ∧ exclusive = true then 1 else 0
  | .opt none => 0
  | .opt (some v) => v.exclusiveOn s
  | .tuple vs => View.exclusiveOnAll s vs
def View.exclusiveOnAll (s : Nat) : List View → Nat
  | [] => 0
  | v :: vs => v.exclusiveOn s + View.exclusiveOnAll s vs
end

/-- The view is what was asked for, with the same storages and the same mutability; only an `Option` can be `None`. `all`: each view of
a storage also keeps `AllStorages` borrowed. -/
inductive Answers (all : Bool) : Req → View → Prop
  | unit : Answers all .unit .unit
  | view (s exclusive create trackOk) : Answers all (.view s exclusive create trackOk) (.view s exclusive all)
  | optNone (r) : Answers all (.opt r) (.opt none)
  | optSome {r v} : Answers all r v → Answers all (.opt r) (.opt (some v))
  | tupleNil : Answers all (.tuple []) (.tuple [])
  | tupleCons {r rs v vs} : Answers all r v → Answers all (.tuple rs) (.tuple vs) →
      Answers all (.tuple (r :: rs)) (.tuple (v :: vs))

/-- The same for what a system or `World::borrow` asks for. -/
inductive WAnswers : WReq → View → Prop
  | views {r v} : Answers true r v → WAnswers (.views r) v
  | allStorages (exclusive) : WAnswers (.allStorages exclusive) (.view allCell exclusive false)

/-- The same for the parameters of a system. -/
inductive WAnswersAll : List WReq → List View → Prop
  | nil : WAnswersAll [] []
  | cons {r rs v vs} : WAnswers r v → WAnswersAll rs vs → WAnswersAll (r :: rs) (v :: vs)

/-- The same guards exist on every storage. -/
def SameGuards (st st' : Cells) : Prop :=
  ∀ s, (st'.cell s).shared = (st.cell s).shared ∧ (st'.cell s).reborrowed = (st.cell s).reborrowed
    ∧ (st'.cell s).exclusive = (st.cell s).exclusive

/-- The guards of `st` and those of the view. -/
def MoreGuards (st st' : Cells) (v : View) : Prop :=
  ∀ s, (st'.cell s).shared = (st.cell s).shared + v.sharedOn s ∧ (st'.cell s).reborrowed = (st.cell s).reborrowed
    ∧ (st'.cell s).exclusive = (st.cell s).exclusive + v.exclusiveOn s

/-- A state of a world: every cell is reachable, storages that do not exist have no guard. -/
structure Cells.Ok (st : Cells) : Prop where
  reach : ∀ s, ∃ h, Reach h (st.cell s)
  absent : ∀ s, st.present s = false → st.cell s = Cell.new
  base : st.present allCell = true ∧ st.present entities = true

/-- There is room for `n` more borrows of each cell before the limits of the counter are met. -/
structure Cells.Room (st : Cells) (n : Nat) : Prop where
  few : n < HIGH / 2
  shared : ∀ s, (st.cell s).shared + n + 1 < HIGH
  alive : ∀ s, (st.cell s).dying = 0
  failed : ∀ s, (st.cell s).exclusive ≠ 0 → (st.cell s).word + n < MAXFAILED

mutual
/-- How many borrows of one cell a request can make. -/
def Req.cost : Req → Nat
  | .unit => 0
  | .view _ _ _ _ => 1
  | .opt r => r.cost
  | .tuple rs => Req.costAll rs
def Req.costAll : List Req → Nat
  | [] => 0
  | r :: rs => 1 + r.cost + Req.costAll rs
end

def WReq.cost : WReq → Nat
  | .views r => r.cost + 1
  | .allStorages _ => 1

end Verif.Borrow
