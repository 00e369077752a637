import Verif.Model.MutHandle
import Verif.Spec.Storage

/-!
# What a program does with a handle, without timestamps (C96)
-/
namespace Verif.MutHandle

/-- The value the same program leaves when it is given a plain `&mut U`. -/
def Use.leaves : {U : Type} → Use U → U → U
  | _, .drop, x => x
  | _, .deref k, x => (k x).leaves x
  | _, .asRef k, x => (k x).leaves x
  | _, .derefMut f k, x => k.leaves (f x)
  | _, .asMut f k, x => k.leaves (f x)
  | _, .map f get put k, x => put (k.leaves (get (f x))) (f x)

/-- Does the program, begun with this value, take a mutable reference through a handle (the one it was given or one that `map` made
of it)? What the closures of `map` do does not count. -/
inductive Use.Writes : {U : Type} → Use U → U → Prop where
  | derefMut {U : Type} {f : U → U} {k : Use U} {x : U} : (Use.derefMut f k).Writes x
  | asMut {U : Type} {f : U → U} {k : Use U} {x : U} : (Use.asMut f k).Writes x
  | deref {U : Type} {k : U → Use U} {x : U} : (k x).Writes x → (Use.deref k).Writes x
  | asRef {U : Type} {k : U → Use U} {x : U} : (k x).Writes x → (Use.asRef k).Writes x
  | map {U V : Type} {f : U → U} {get : U → V} {put : V → U → U} {k : Use V} {x : U} : k.Writes (get (f x)) →
      (Use.map f get put k).Writes x

/-- Does a closure of `map` change anything, or the program write? -/
inductive Use.Touches : {U : Type} → Use U → U → Prop where
  | derefMut {U : Type} {f : U → U} {k : Use U} {x : U} : (Use.derefMut f k).Touches x
  | asMut {U : Type} {f : U → U} {k : Use U} {x : U} : (Use.asMut f k).Touches x
  | deref {U : Type} {k : U → Use U} {x : U} : (k x).Touches x → (Use.deref k).Touches x
  | asRef {U : Type} {k : U → Use U} {x : U} : (k x).Touches x → (Use.asRef k).Touches x
  | mapped {U V : Type} {f : U → U} {get : U → V} {put : V → U → U} {k : Use V} {x : U} : f x ≠ x → (Use.map f get put k).Touches x
  | map {U V : Type} {f : U → U} {get : U → V} {put : V → U → U} {k : Use V} {x : U} : k.Touches (get (f x)) →
      (Use.map f get put k).Touches x

/-- Every `map` of the program gives a part of its whole: writing back what is read changes nothing. -/
def Use.Parts : {U : Type} → Use U → Prop
  | _, .drop => True
  | _, .deref k => ∀ x, (k x).Parts
  | _, .asRef k => ∀ x, (k x).Parts
  | _, .derefMut _ k => k.Parts
  | _, .asMut _ k => k.Parts
  | _, .map _ get put k => (∀ x, put (get x) x = x) ∧ k.Parts

end Verif.MutHandle
