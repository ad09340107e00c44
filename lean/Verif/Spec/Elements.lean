import Verif.Model.Elements
/-
C25 in words: how the records of a message may change, and which TTL a select function stands for.
-/
namespace Verif.Spec.Elements
open Verif Verif.Elements

/-- `m'` is `m` with new TTLs on its non-OPT records: each such record `r` now has a TTL `t` with `P r.ttl t`. -/
def Retimed (P : Nat → Nat → Prop) (m m' : Msg) : Prop :=
  let sec := fun (l l' : List RR) => l.length = l'.length ∧ ∀ (i : Nat) (r r' : RR), l[i]? = some r → l'[i]? = some r' →
    if r.isOpt then r' = r else r' = { r with ttl := r'.ttl } ∧ P r.ttl r'.ttl
  sec m.answer m'.answer ∧ sec m.ns m'.ns ∧ sec m.extra m'.extra ∧
  m' = { m with answer := m'.answer, ns := m'.ns, extra := m'.extra }

/-- A value brought within limits; the maximum wins. -/
def Within (lo hi v t : Nat) : Prop := (t = v ∧ lo ≤ v ∧ v ≤ hi) ∨ (t = hi ∧ (hi < v ∨ hi < lo)) ∨ (t = lo ∧ v < lo ∧ lo ≤ hi)

/-- The TTLs of the non-OPT records of a message, in order. -/
def values (m : Msg) : List Nat := ((m.answer ++ m.ns ++ m.extra).filter fun r => ! r.isOpt).map (·.ttl)

/-- The value a select function stands for, given the TTLs of the response. -/
def Chosen (lo hi : Nat) (vs : List Nat) : Select → Nat → Prop
  | .none, _ => False
  | .lowest, v => v ∈ vs ∧ ∀ t, t ∈ vs → v ≤ t
  | .highest, v => v ∈ vs ∧ ∀ t, t ∈ vs → t ≤ v
  | .average, v => v * vs.length ≤ vs.sum ∧ vs.sum < (v + 1) * vs.length
  | .first, v => vs.head? = some v
  | .last, v => vs.getLast? = some v
  | .random draw, v => (lo < hi ∧ v = lo + draw ∧ lo ≤ v ∧ v < hi) ∨ (hi ≤ lo ∧ v = lo)

end Verif.Spec.Elements
