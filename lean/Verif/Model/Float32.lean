import Mathlib.Algebra.Order.Field.Rat
import Mathlib.Algebra.Order.Floor.Semiring
import Mathlib.Data.Rat.Floor
/-!
IEEE 754 single precision (`f32`) on its finite numbers, which are embedded in the rationals.

An operation of `f32` returns the exact result rounded by `roundF32`: to the nearest number with a significand of 24 bits, with
ties to even, and with multiples of 2^-149 below 2^-126.  Overflow to infinity and NaN are not modelled: above 2^128 the exponents just
go on.
-/
namespace Rerecast

/-- A power of two. -/
def pow2 (k : Int) : Rat := if 0 ≤ k then ((2 ^ k.toNat : Nat) : Rat) else 1 / ((2 ^ (-k).toNat : Nat) : Rat)

/-- The exponent of `q ≠ 0`: the greatest `k` such that `2^k ≤ |q|`. -/
def binade (q : Rat) : Int :=
  let k : Int := (Nat.log2 q.num.natAbs : Int) - Nat.log2 q.den
  if pow2 k ≤ |q| then k else k - 1

/-- The nearest integer, with ties to even. -/
def nearestInt (t : Rat) : Int :=
  let n := t.floor
  if t - n < 1 / 2 then n else if 1 / 2 < t - n then n + 1 else if n % 2 = 0 then n else n + 1

/-- The distance of neighbouring `f32`s around `q` is two to this power. -/
def ulpExp (q : Rat) : Int := max (-149) (binade q - 23)

/-- Rounding to `f32`. -/
def roundF32 (q : Rat) : Rat := if q = 0 then 0 else nearestInt (q / pow2 (ulpExp q)) * pow2 (ulpExp q)

/-- The finite `f32`s (without an upper bound). -/
def IsF32 (q : Rat) : Prop := ∃ (n : Int) (e : Int), |n| ≤ 2 ^ 24 ∧ -149 ≤ e ∧ q = n * pow2 e

end Rerecast
