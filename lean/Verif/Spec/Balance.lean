import Verif.Model.Dns
/-
C17-C20 in words.
-/
namespace Verif.Spec.Balance
open Verif

/-- A query went to `asked`, in this order, and `res` was returned: nobody is asked twice, it stops at the first success and gives
up only after everybody failed. -/
structure EachOnce (n : Nat) (good : Res → Prop) (beh : Nat → Res) (asked : List Nat) (res : Res) : Prop where
  once : asked.Nodup
  members : ∀ m, m ∈ asked → m < n
  stops : ∀ m, m ∈ asked.dropLast → ¬ good (beh m)
  result : (∃ m, asked.getLast? = some m ∧ res = beh m ∧ good res) ∨
    ((∀ m, m < n → m ∈ asked ∧ ¬ good (beh m)) ∧ ∃ m, asked.getLast? = some m ∧ res = beh m)

/-- `l'` is `l` with the records of type `t` rearranged among their own positions and some of their TTLs raised to
at least `minTTL`; nothing else changed. -/
structure Reordered (t minTTL : Nat) (l l' : List RR) : Prop where
  length : l'.length = l.length
  others : ∀ (i : Nat) (r : RR), l[i]? = some r → r.rtype ≠ t → l'[i]? = some r
  same : ∃ m : List RR, m.Perm (l.filter fun r => r.rtype = t) ∧ m.length = (l'.filter fun r => r.rtype = t).length ∧
    ∀ (i : Nat) (r r' : RR), m[i]? = some r → (l'.filter fun r => r.rtype = t)[i]? = some r' →
      r' = r ∨ (r.ttl < minTTL ∧ r' = { r with ttl := minTTL })

end Verif.Spec.Balance
