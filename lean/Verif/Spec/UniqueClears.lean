import Verif.Spec.UniqueTracking

/-!
# C28, C26: uniques and `World::clear_all_*`

A unique looks added from the last `World::clear_all_inserted` on, and written from the last `World::clear_all_modified` on.
-/
namespace Verif.UTrk
variable {V : Type}

/-- What came after the unique was last added, or after the last `World::clear_all_inserted`. -/
def sinceIns (tr : List (Act V)) : Option (List (Act V)) :=
  tr.foldl (fun acc => fun
    | .add _ => some []
    | .remove _ => none
    | .worldClearIns => acc.map fun _ => []
    | a => acc.map (· ++ [a])) none

/-- What last touched the unique since it was added. -/
inductive Touch (V : Type) where
  | never
  /-- a mutable access by this session -/
  | session (p : Nat)
  /-- `World::clear_all_modified`, and what came after -/
  | clear (l : List (Act V))

def lastTouch (tr : List (Act V)) : Touch V :=
  tr.foldl (fun acc => fun
    | .add _ => .never
    | .remove _ => .never
    | .write p _ => .session p
    | .worldClearMod => .clear []
    | a => match acc with
      | .clear l => .clear (l ++ [a])
      | t => t) .never

end Verif.UTrk
