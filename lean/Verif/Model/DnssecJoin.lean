import Verif.Model.Dnssec
import Verif.Model.DnssecResolver
/-
The validating resolver (dnssec.go) with the validator (dnssec/validator.go): how the result of `Validate` becomes the verdict.
-/
namespace Verif.DnssecJoin
open Verif

/-- dnssec.go:133-146: nil, `errors.Is(err, ErrInsecureDelegation)`, any other error -/
def verdictOf : Except Dnssec.VErr Unit → DnssecResolver.Verdict
  | .ok () => .valid
  | .error .insecure => .insecure
  | .error _ => .bogus

end Verif.DnssecJoin
