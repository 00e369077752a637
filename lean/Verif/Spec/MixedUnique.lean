import Verif.Model.MixedUnique
import Verif.Spec.Mixed

/-!
# Programs of calls on entities and on uniques (C105)
-/
namespace Verif.Mix
open Tracking (UniqueStorage)
variable {V U X : Type}

/-- A call on entities, or on the unique of an id. -/
inductive Step (U : Type) where
  | call (c : Call)
  | addUnique (k : Nat) (v : U)
  | addUniqueLocal (k : Nat) (v : U)
  | removeUnique (k : Nat)

/-- The step on the map of all storages. -/
def Step.onAll (um : User X) (m : All V U X) : Step U → Res (All V U X)
  | .call c => c.onAll um m
  | .addUnique k v => .ok (m.addUnique k v)
  | .addUniqueLocal k v => .ok (m.addUniqueLocal k v)
  | .removeUnique k => (m.removeUnique k).map Prod.snd

/-- The program without the calls on uniques. -/
def onlyCalls : List (Step U) → List Call
  | [] => []
  | .call c :: l => c :: onlyCalls l
  | _ :: l => onlyCalls l

/-- The value of each unique after the program, had there been no calls on entities: the last one added and not removed
since, where the functions for thread-bound types only add a unique that is missing. -/
def onlyUniques : List (Step U) → (Nat → Option U) → Nat → Option U
  | [], t => t
  | .call _ :: l, t => onlyUniques l t
  | .addUnique k v :: l, t => onlyUniques l (fun j => if j = k then some v else t j)
  | .addUniqueLocal k v :: l, t => onlyUniques l (fun j => if j = k then some ((t k).getD v) else t j)
  | .removeUnique k :: l, t => onlyUniques l (fun j => if j = k then none else t j)

/-- The value of the unique of id `k`, as a view of it shows it. -/
def value (m : All V U X) (k : Nat) : Option U :=
  match lookupK m.stos k with
  | some (.unique u) => some u.value
  | _ => none

/-- Ids of uniques are those of types of uniques: every id is of one type. -/
def Typed (isU : Nat → Bool) (m : All V U X) : Prop := ∀ x ∈ shape m.stos, (isU x.1 = true ↔ x.2 = .unique)

/-- The unique calls of a program name ids of uniques. -/
def Names (isU : Nat → Bool) (l : List (Step U)) : Prop := 
  ∀ k, (∃ v, Step.addUnique k v ∈ l ∨ Step.addUniqueLocal k v ∈ l) ∨ Step.removeUnique k ∈ l → isU k = true

end Verif.Mix
