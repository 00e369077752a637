import Verif.Spec.Storage
import Verif.Model.Memory

/-!
# What memory a storage needs

The table that finds components by entity is cut in pages of 32 entities. A page is needed as soon as a component was given for
one of its entities.
-/
namespace Verif.Memory
open StoSpec
variable {T : Type}

/-- The event gives a component, accepted or not, for the entity with index `i`, or reserves memory for it. -/
def Gives : Event T → Nat → Prop
  | .inserted e _ _ _, i => i = e.idx
  | .bulk start _ vs, i => start ≤ i ∧ i < start + vs.length
  | .reserved first last, i => first.idx ≤ i ∧ i ≤ last.idx
  | _, _ => False

/-- A component was given, or memory reserved, for an entity of page `b` in the history. -/
def Paged (h : List (Event T)) (b : Nat) : Prop := ∃ ev ∈ h, ∃ i, Gives ev i ∧ b = i / 32

/-- The bytes of the table of a storage with this history: 8 for each page up to the last one needed, 256 more for each page
needed. -/
def TableBytes (h : List (Event T)) (n : Nat) : Prop :=
  ∃ (top : Nat) (pages : List Nat), (∀ b, b < top ↔ ∃ b', b ≤ b' ∧ Paged h b') ∧ pages.Nodup ∧ (∀ b, b ∈ pages ↔ Paged h b) ∧
    n = 8 * top + 256 * pages.length

/-- The entities with a component, each once, are `n`. -/
def Rows (a : Sto T) (n : Nat) : Prop :=
  ∃ is : List Nat, is.Nodup ∧ (∀ i, i ∈ is ↔ ∃ r, a.rows i = some r) ∧ n = is.length

end Verif.Memory
