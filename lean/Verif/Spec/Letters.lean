import Verif.Model.Dns
/-
Letters, for the specifications (C38, C50, C95, C96).
-/
namespace Verif.Spec
open Verif

/-- `u` is the text `t` in capital letters. -/
def InCapitals (u t : Str) : Prop := equalFold u t = true ∧ ∀ c ∈ u, ¬ (97 ≤ c ∧ c ≤ 122)

end Verif.Spec
