import Verif.Model.Views
import Verif.Spec.World

/-!
# Tuples of views

What the theorems about calls on tuples of views are stated with.
-/
namespace Verif.WSpec
variable {V : Type}

/-- Exclusive views of the storages `ks` are held: the storages exist and are distinct. -/
def Viewed (w : World V) (ks : List Nat) : Prop :=
  ks.Nodup ∧ ∀ k ∈ ks, ∃ s, lookupK w.stos k = some s

/-- From `w` to `w'` exactly the call `ev` was made on storage `k`. -/
def Did (w w' : World V) (k : Nat) (ev : StoSpec.Event V) : Prop :=
  ∃ s s', lookupK w.stos k = some s ∧ lookupK w'.stos k = some s' ∧ StoSpec.Step s ev s'

/-- Storage `k` is bit for bit the same: components, order, timestamps, logs and callbacks. -/
def Untouched (w w' : World V) (k : Nat) : Prop := lookupK w'.stos k = lookupK w.stos k

end Verif.WSpec
