import Verif.Model.Guards
import Verif.Spec.Borrow

/-!
# What borrows guarantee

States of a world reached by any number of threads, any interleaving.
-/
namespace Verif.Guards

/-- The steps made so far and the state they lead to. `Small`: as in `Spec/Borrow.lean`, there are less than 2^63
guards of each storage. -/
inductive Run : List Act → St → Prop
  | new : Run [] St.new
  | step {as st a st'} : Run as st → (∀ s, Borrow.Small (st.cell s)) → st.step a = some (.ok st') →
      Run (as ++ [a]) st'

/-- Number `i` can be used now to reach storage `s` (0: all storages). -/
def Holds (st : St) (i s : Nat) (exclusive : Bool) : Prop :=
  ∃ t, st.toks[i]? = some t ∧ t.own = true ∧ t.storage = s ∧ t.exclusive = exclusive

/-- Nothing borrowed from number `i` is left. -/
def Childless (st : St) (i : Nat) : Prop :=
  ∀ (j : Nat) t, st.toks[j]? = some t → t.parent = some i → t.live = false ∧ t.own = false ∧ t.all = false

/-- The destructors of the types that give back the borrow of `AllStorages` first were not interrupted by other
threads. -/
def Whole (as : List Act) (st : St) : Prop :=
  ∀ i t, Act.release i ∈ as → st.toks[i]? = some t → t.kind = .entities ∨ t.kind = .unique ∨ t.kind = .all

end Verif.Guards
