import Verif.Model.GetComponent
import Verif.Spec.Views
import Verif.Spec.BorrowViews

/-!
# What `World::get` may do

What the theorems about `get` are stated with.
-/
namespace Verif.GetComp
open Borrow
variable {V : Type}

/-- Nothing a user can observe of the content changed: the entities are the same, the storages that existed are bit for
bit the same, and no entity has another component than before (a storage that did not exist may have been made, empty). -/
structure OnlyMade (w w' : World V) : Prop where
  ents : w'.ents = w.ents
  kept : ∀ k s, lookupK w.stos k = some s → lookupK w'.stos k = some s
  same : ∀ k e, w'.get k e = w.get k e

/-- The storage refuses the borrow: it is held in a conflicting way or belongs to another thread. -/
def Refuses (st : Cells) (s : Nat) (exclusive : Bool) : Prop :=
  (st.cell s).exclusive ≠ 0
  ∨ (exclusive = true ∨ st.isSync s = false) ∧ ((st.cell s).guards ≠ 0 ∨ ∃ t, st.owner s = some t ∧ t ≠ st.me)

/-- The handle gives the component of `e`: it is that of a storage which has `e` at its position. -/
def Handle.For (hd : Handle) (w : World V) (e : EId) : Prop :=
  ∃ s c, lookupK w.stos hd.k = some s ∧ s.indexOf e = .ok (some hd.i) ∧ s.get e = .ok (some c)

/-- What the handles must be: those asked for, in order, each one giving the component of `e`. -/
structure Handles (w : World V) (e : EId) (now : Nat) (all : Bool) (qs : List (Nat × Bool)) (hds : List Handle) : Prop where
  asked : hds.map (fun hd => (hd.k, hd.exclusive)) = qs
  gives : ∀ hd ∈ hds, hd.For w e ∧ hd.current = now ∧ hd.all = all

end Verif.GetComp
