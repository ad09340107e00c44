import Mathlib.Data.Int.Log
import Mathlib.Data.Rat.Floor
/-
Go's `float64`: IEEE-754 binary64 with rounding to nearest, as far as loadbalance.go:172-281 uses it.

Left out: infinities, NaN and numbers above 2^200. What is computed in loadbalance.go stays far away from them, which is proved
(Props/BalanceFloat.lean: averages are between 1 and 2^55, weights between 2^-40 and 100, sums of weights below 2^61).
-/
namespace Verif.Float64

/-- The numbers a `float64` holds (used in loadbalance.go:172-281): an integer of at most 53 bits times a power of two. IEEE-754 demands
`|m| < 2^53`; allowing `2^53` as well makes no difference since `2^53 · 2^e = 2^52 · 2^(e+1)`. -/
def Rep (x : ℚ) : Prop := ∃ m e : ℤ, |m| ≤ 2 ^ 53 ∧ -1074 ≤ e ∧ e ≤ 970 ∧ x = m * (2 : ℚ) ^ e

/-- `rnd` gives the result an arithmetic operation has in `float64` for what it is exactly, as in loadbalance.go:172-281: a number that can be
represented and none is nearer. Which one is taken in the middle between two is left open (in Go: the even one). -/
def Nearest (rnd : ℚ → ℚ) : Prop :=
  ∀ x : ℚ, |x| ≤ 2 ^ 200 → Rep (rnd x) ∧ ∀ y : ℚ, Rep y → |rnd x - x| ≤ |y - x|

end Verif.Float64
