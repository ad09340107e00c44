import Verif.Model.Float64
/-
loadbalance.go with the arithmetic of `float64` (Model/Balance.lean has the same with exact rationals). `rnd` rounds a result; see
Model/Float64.lean.

Go may leave out the rounding between a multiplication and an addition ("fused multiply-add", which it does on some processors). The
compiler's choice is an arbitrary input here. Assignments always round, so the other expressions cannot be fused.
-/
namespace Verif.BalanceFloat
open Verif

/-- loadbalance.go:51-62 `loadBalanceStats`, without the streak counter; averages in microseconds. -/
structure Stats where
  rttEMA : ℚ := 0
  count : Nat := 0
  emaInflated : Bool := false

/-- Which multiplication is fused with the addition in loadbalance.go:230 and :268, if any -/
inductive Fused where
  | none
  | first
  | second
deriving DecidableEq, Repr

variable (rnd : ℚ → ℚ)

/-- loadbalance.go:19 `defaultLoadBalanceEMAAlpha` as a `float64` -/
def alpha : ℚ := rnd (1 / 10)

/-- loadbalance.go:230: `1-defaultLoadBalanceEMAAlpha` is computed exactly by the compiler and then becomes a `float64` -/
def beta : ℚ := rnd (1 - 1 / 10)

/-- loadbalance.go:28 `defaultLoadBalanceExploration` as a `float64` -/
def exploration : ℚ := rnd (1 / 20)

/-- loadbalance.go:215-218 and :253-256: at least the minimum sample of 1 µs, then whole microseconds as a `float64`. `d` in nanoseconds. -/
def sample (d : Int) : ℚ := rnd (((if d < 1000 then 1000 else d) / 1000 : Int) : ℚ)

/-- loadbalance.go:230 and :268: the new average -/
def blend (f : Fused) (us old : ℚ) : ℚ := match f with
  | .none => rnd (rnd (alpha rnd * us) + rnd (beta rnd * old))
  | .first => rnd (alpha rnd * us + rnd (beta rnd * old))
  | .second => rnd (rnd (alpha rnd * us) + beta rnd * old)

/-- loadbalance.go:214-238 `updateOnSuccess`, the locked region -/
def updateOnSuccess (f : Fused) (s : Stats) (d : Int) : Stats :=
  { rttEMA := if s.count = 0 ∨ s.emaInflated then sample rnd d else blend rnd f (sample rnd d) s.rttEMA
    emaInflated := false
    count := s.count + 1 }

/-- loadbalance.go:22 and :248: is the penalty applied? `fails` is the streak including this failure. -/
def penalize (penalty : Int) (fails : Nat) : Bool := penalty > 0 && fails ≥ 2

/-- loadbalance.go:246-281 `updateOnFailure`, the locked region -/
def updateOnFailure (f : Fused) (penalty : Int) (fails : Nat) (s : Stats) (elapsed : Int) : Stats :=
  let us := sample rnd (if penalize penalty fails then penalty else elapsed)
  if s.count = 0 then { rttEMA := max us 100000, emaInflated := true, count := 1 }
  else
    let new := blend rnd f us s.rttEMA
    if penalize penalty fails ∨ new > s.rttEMA then { rttEMA := new, emaInflated := true, count := s.count + 1 }
    else { s with count := s.count + 1 }

/-- loadbalance.go:187-197: the weight of a member -/
def weight (s : Stats) : ℚ :=
  if s.count > 0 ∧ s.rttEMA > 0 then rnd (100000 / max s.rttEMA 1000) else 1

/-- loadbalance.go:189-200: the sum of the weights, in their order -/
def total (ws : List ℚ) : ℚ := ws.foldl (fun t w => rnd (t + w)) 0

/-- loadbalance.go:204-210: walk along the weights; `n` is `len(remaining)`, `i` the position reached. -/
def walk (n : Nat) : Nat → ℚ → List ℚ → Nat
  | _, _, [] => n - 1
  | i, selected, w :: ws => if rnd (selected - w) ≤ 0 then i else walk n (i + 1) (rnd (selected - w)) ws

/-- loadbalance.go:172-211 `pick`: `u` and `v` are the two draws of `randFloat`, `ws` the weights of the remaining members. -/
def pick (u v : ℚ) (ws : List ℚ) : Nat :=
  if u < exploration rnd then ⌊rnd (v * (ws.length : ℚ))⌋.toNat
  else walk rnd ws.length 0 (rnd (v * total rnd ws)) ws

end Verif.BalanceFloat
