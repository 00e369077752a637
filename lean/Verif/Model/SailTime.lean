import Verif.Model.Iter

/-!
# The `f32` arithmetic of the sail times

The other modules take any rounding (`Rnd`). This one is the rounding of the code.
-/
namespace Verif.Iter

/-- `x as f32` of an integer: IEEE-754 binary32 keeps 24 significant bits and rounds to nearest, ties to even. No
integer that occurs is large enough to become infinite. -/
def rnd24 (x : Nat) : Nat :=
  if x < 2 ^ 24 then x
  else
    let e := x.log2 - 23
    let q := x / 2 ^ e
    let m := x % 2 ^ e
    (if 2 * m > 2 ^ e ∨ (2 * m = 2 ^ e ∧ q % 2 = 1) then q + 1 else q) * 2 ^ e

/-- `as usize` of an integer that is an `f32`: saturates. -/
def satUsize (x : Nat) : Nat := min x usizeMax

/-- The roundings of `sail_time`. `same`: `src/iter/mixed.rs:56-59`. `half`: `src/iter/mixed.rs:7`, `61`, the product
with 0.5 is exact and `as usize` truncates. `twice`: `src/iter/captain/tracking.rs:4`, `20`, exact. `notFactor`:
`src/iter/captain/not.rs:7`, `21`, `72`: the constant 1.2 is the `f32` 10066330 / 2^23 and the product is rounded to 24
bits again, before `as usize` truncates. -/
def f32 : Rnd where
  same x := satUsize (rnd24 x)
  half x := satUsize (rnd24 x / 2)
  twice x := satUsize (2 * rnd24 x)
  notFactor x := satUsize (rnd24 (rnd24 x * 10066330) / 2 ^ 23)

end Verif.Iter
