import Verif.Model.Prefetch
/-
C61 in words.
-/
namespace Verif.Spec.Prefetch
open Verif Verif.Prefetch

/-- A response worth repeating: NOERROR, complete, with records that live at least 2 seconds. -/
def Good (up : Res) : Prop := up.err = none ∧ ∃ a, up.msg = some a ∧ a.rcode = 0 ∧ a.tc = false ∧
  (∃ r, r ∈ a.records ∧ r.isOpt = false) ∧ ∀ r, r ∈ a.records → r.isOpt = false → 2 ≤ r.ttl

open Classical in
/-- Client queries with this key and a good response: the query and its time. -/
noncomputable def asked (keyOf : Msg → Str) (k : Str) (evs : List Ev) : List (Msg × Int) := evs.filterMap fun e => match e with
  | .query q up now => if Good up ∧ keyOf q = k then some (q, now) else none
  | _ => none

end Verif.Spec.Prefetch
