import Verif.Model.Dns
/-
What shuffling may do to an answer section.
-/
namespace Verif.Spec.Shuffle
open Verif

/-- A or AAAA record. -/
def address (r : RR) : Prop := r.rtype = 1 ∨ r.rtype = 28
instance : DecidablePred address := fun r => inferInstanceAs (Decidable (r.rtype = 1 ∨ r.rtype = 28))

/-- `l'` is `l` with the address records rearranged among their own positions. -/
structure Rearranged (l l' : List RR) : Prop where
  length : l'.length = l.length
  others : ∀ (i : Nat) (r : RR), l[i]? = some r → ¬ address r → l'[i]? = some r
  addresses : ∀ (i : Nat) (r : RR), l[i]? = some r → address r → ∃ r', l'[i]? = some r' ∧ address r'
  same : (l'.filter (decide <| address ·)).Perm (l.filter (decide <| address ·))

end Verif.Spec.Shuffle
