import Verif.Model.Pipeline
/-
C24 in words.
-/
namespace Verif.Spec.Pipeline
open Verif Verif.Pipeline

/-- The queries of a history, in the order of the calls: request `r` is the `r`-th of them. -/
def calls (evs : List Ev) : List Msg := evs.filterMap fun e => match e with
  | .call q => some q
  | _ => none

/-- The response is for the question asked: same name in any spelling, same type and class. A query without question is not checked. -/
def ForQuestion (q a : Msg) : Prop := q.question = [] ∨
  ∃ qu au, q.question.head? = some qu ∧ a.question.head? = some au ∧ lower au.name = lower qu.name ∧ au.qtype = qu.qtype ∧ au.qclass = qu.qclass

/-- Query `r` was handed to the connection with ID `id`, and since then no message with that ID arrived, no other query got the ID, and the
connection was not given up. -/
def Outstanding (evs : List Ev) (r id : Nat) : Prop := ∃ pre post,
  evs = pre ++ .writerTake r id :: post ∧ (∀ b, .recv b ∈ post → b.id ≠ id) ∧ (∀ r', .writerTake r' id ∉ post) ∧ .drain ∉ post

/-- Message `a` arrived while query `r` was outstanding under the ID of the message. -/
def Answered (evs : List Ev) (r : Nat) (a : Msg) : Prop := ∃ pre post, evs = pre ++ .recv a :: post ∧ Outstanding pre r a.id

end Verif.Spec.Pipeline
