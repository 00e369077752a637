import Verif.Model.Iter

/-!
# `World::iter` with tuples in tuples
-/
namespace Verif.Iter
variable {V : Type}

/-- The argument of `World::iter` (`src/iter_component.rs:24-49` `IterComponent`): `&T`, `&mut T` or `Mut<T>`, given by the
view borrowed for it, or a tuple of such arguments. -/
inductive WQ (V : Type) where
  | one (v : Tracking.View V)
  | tup (l : List (WQ V))

namespace WQ

/-- `src/iter_component.rs:506-521`: the first of the members that announce the fewest steps. -/
def fewest (r : Rnd) : List (Ship V) → Nat → Option Nat → Nat → Option Nat
  | s :: l, i, best, least =>
    if s.sailTime r < least then fewest r l (i + 1) (some i) (s.sailTime r) else fewest r l (i + 1) best least
  | [], _, best, _ => best

mutual
/-- `into_shiperator`: `src/iter_component.rs:75-102` and its copies for `&mut T` and `Mut<T>`, `481-536` for tuples (of
any length, one included: unlike `(T,)` on views it is a `Mixed` of one member). -/
def ship (r : Rnd) : WQ V → Res (Ship V × Nat × Acc)
  | .one v => .ok (.view (Win.ofOwned v), v.set.dense.length, ⟨v.set.dense, []⟩)
  | .tup l =>
    match ships r l with
    | .error f => .error f
    | .ok parts =>
      if Ship.sailOvers r (parts.map (·.1)) then .error .panic
      else .ok (Qry.assemble parts (fewest r (parts.map (·.1)) 0 none usizeMax))
/-- The members in order (`src/iter_component.rs:502-504`). -/
def ships (r : Rnd) : List (WQ V) → Res (List (Ship V × Nat × Acc))
  | [] => .ok []
  | q :: l =>
    match q.ship r with
    | .error f => .error f
    | .ok p => (ships r l).map (p :: ·)
end

/-- `src/iter_component.rs:51-73` `into_iter`, `src/iter_component/iter_ref.rs:33-51` `iter`, here `run`. -/
def run (r : Rnd) (q : WQ V) : Res (It V) :=
  match q.ship r with
  | .error f => .error f
  | .ok (ship, len, acc) => .ok ⟨ship, acc, ship.isExact, 0, len⟩

end WQ
end Verif.Iter
