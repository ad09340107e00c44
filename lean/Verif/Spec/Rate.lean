import Verif.Model.Net
/-
C21 in words: a client's network, and which queries are within the limit.
-/
namespace Verif.Spec.Rate
open Verif Verif.Net

/-- The network of a client: IP version and leading bits of the address. -/
def network (p4 p6 : Nat) (ip : Str) : Option (Bool × List Bool) := match to4 ip with
  | some b => some (false, (bits b).take p4)
  | none => if ip.length = 16 then some (true, (bits ip).take p6) else none

/-- How many of the earlier queries came from the same network in the same window. -/
def before (w p4 p6 : Nat) (earlier : List (Int × Str)) (q : Int × Str) : Nat :=
  (earlier.filter fun e => network p4 p6 e.2 = network p4 p6 q.2 ∧ e.1 / w = q.1 / w).length

end Verif.Spec.Rate
