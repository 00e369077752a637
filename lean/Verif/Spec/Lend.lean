import Verif.Spec.BorrowRace

/-!
# When a request for views is granted

The rule in terms of what is lent and which storages exist. Nothing here mentions words, cells or guards of `AllStorages`.
-/
namespace Verif.Borrow

/-- How often each storage is lent, shared and exclusively, and which storages exist. -/
structure Lent where
  shared : Nat → Nat
  exclusive : Nat → Nat
  present : Nat → Bool

/-- `g` is what is lent of the storages of `st`. -/
def Lent.Is (g : Lent) (st : Cells) : Prop :=
  ∀ s, s ≠ allCell → g.shared s = (st.cell s).shared ∧ g.exclusive s = (st.cell s).exclusive ∧ g.present s = st.present s

/-- The calling thread may not have this view: components that are not `Send` stay with their thread, a thread other than it can only
share them when they are `Sync`. -/
def elsewhere (env : Cells) (s : Nat) (exclusive : Bool) : Bool :=
  (exclusive || !env.isSync s) && (match env.owner s with | some t => decide (t ≠ env.me) | none => false)

/-- A view of the storage `s` cannot be lent now:
- the storage is lent exclusively;
- it is lent, and the view is exclusive or the components are `Send` and not `Sync`;
- or the calling thread may not have it. -/
def Lent.busy (env : Cells) (g : Lent) (s : Nat) (exclusive : Bool) : Bool :=
  decide (g.exclusive s ≠ 0)
  || (exclusive || (!env.isSync s && (env.owner s).isNone)) && decide (g.shared s ≠ 0)
  || elsewhere env s exclusive

/-- The storage is made. -/
def Lent.make (g : Lent) (s : Nat) : Lent := { g with present := fun k => decide (k = s) || g.present k }

/-- One more view of `s` is lent. -/
def Lent.lend (g : Lent) (s : Nat) (exclusive : Bool) : Lent :=
  if exclusive then { g with exclusive := fun k => if k = s then g.exclusive k + 1 else g.exclusive k }
  else { g with shared := fun k => if k = s then g.shared k + 1 else g.shared k }

mutual
/-- What is lent after asking for `r`, and whether it was granted. A view needs its storage to exist, to be free and to have the right
tracking. An `Option` is always granted. A tuple is granted when each element is, in order; otherwise nothing of it is lent, only
the storages it made stay. -/
def Lent.take (env : Cells) (g : Lent) : Req → Lent × Bool
  | .unit => (g, true)
  | .view s exclusive create trackOk =>
    let g := if create then g.make s else g
    if g.present s = true ∧ g.busy env s exclusive = false ∧ trackOk = true then (g.lend s exclusive, true) else (g, false)
  | .opt r => ((g.take env r).1, true)
  | .tuple rs => g.takeAll env rs
def Lent.takeAll (env : Cells) (g : Lent) : List Req → Lent × Bool
  | [] => (g, true)
  | r :: rs =>
    match g.take env r with
    | (g', false) => ({ g with present := g'.present }, false)
    | (g', true) =>
      match g'.takeAll env rs with
      | (g'', true) => (g'', true)
      | (g'', false) => ({ g with present := g''.present }, false)
end

/-- The rule for `World::borrow`, with `shared` and `exclusive` views of `AllStorages` held. -/
def Lent.grants (env : Cells) (g : Lent) : WReq → Bool
  | .views r => decide ((env.cell allCell).exclusive = 0) && (g.take env r).2
  | .allStorages true => decide ((env.cell allCell).exclusive = 0) && decide ((env.cell allCell).shared = 0) && !elsewhere env allCell true
  | .allStorages false => decide ((env.cell allCell).exclusive = 0)

end Verif.Borrow
