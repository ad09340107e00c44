import Verif.Spec.Cache
/-
Vocabulary for the Redis backend.
-/
namespace Verif.Spec.Redis
open Verif

/-- ASCII capital letter. -/
def capital (c : UInt8) : Prop := 65 ≤ c ∧ c ≤ 90

/-- A subnet option. -/
def isSubnet : EOpt → Bool
  | .ecs .. => true
  | _ => false

/-- The subnet options of a query. -/
def subnets (q : Msg) : List EOpt := match q.edns? with
  | none => []
  | some e => e.options.filter isSubnet

end Verif.Spec.Redis
