import Verif.Model.Dns
/-
Specification for C76: what it means for a reply to belong to a query.
-/
namespace Verif.Composition
open Verif

/-- The message answers the query: it has its ID, and its first question is the first question of the query, in any spelling. -/
structure Belongs (q a : Msg) : Prop where
  id : a.id = q.id
  question : ∃ (qu au : Question), q.question.head? = some qu ∧ a.question.head? = some au ∧ lower au.name = lower qu.name ∧ au.qtype = qu.qtype ∧ au.qclass = qu.qclass

/-- The reply is an error, or no message at all (the query is dropped), or a message that belongs to the query. -/
def Fits (q : Msg) (r : Res) : Prop := r.err = none → ∀ a : Msg, r.msg = some a → Belongs q a

/-- A query as listeners pass it on: it has a question, and options with the code of padding are padding. -/
structure FromWire (q : Msg) : Prop where
  question : q.question ≠ []
  padding : ∀ e : Edns, q.edns? = some e → ∀ o : EOpt, o ∈ e.options → o.code = 12 → ∃ n, o = .padding n

end Verif.Composition
