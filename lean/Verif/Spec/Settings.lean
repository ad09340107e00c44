import Verif.Model.Settings
/-
Vocabulary for the claims about what sections give to their elements (C98).
-/
namespace Verif.Spec.Settings
open Verif

/-- The number in the section, or the documented one if the section has none (or 0). -/
def orDefault (given default : Nat) : Nat := if given = 0 then default else given

/-- A time in the section, in nanoseconds: so many seconds, or the documented number of seconds if the section has none (or 0). -/
def secondsOr (given default : Int) : Int := if given = 0 then default * 1000000000 else given * 1000000000

/-- Numbers of seconds that can be used: up to 292 years. -/
def Seconds (n : Int) : Prop := -9223372036 ≤ n ∧ n ≤ 9223372036

/-- Numbers of milliseconds that can be used. -/
def Millis (n : Int) : Prop := -9223372036854 ≤ n ∧ n ≤ 9223372036854

end Verif.Spec.Settings
