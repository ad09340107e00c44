import Verif.Model.NetResolver
/-
C78 in words.
-/
namespace Verif.Spec.NetResolver
open Verif Verif.Listeners Verif.NetResolver

/-- The Go library reads header and questions of packed messages as they are. -/
def Reads (lib : Lib) (parse : Str → Option Head) : Prop := ∀ a b, lib.pack a = some b → parse b = some ⟨a.id, a.response, a.tc, a.question⟩

/-- The message is a response to the query: response flag, ID and first question (in any spelling). -/
def Responds (id : Nat) (q : Question) (a : Msg) : Prop :=
  a.response = true ∧ a.id = id ∧ ∃ x, a.question.head? = some x ∧ x.qtype = q.qtype ∧ x.qclass = q.qclass ∧ lower x.name = lower q.name

/-- What a look-up that sends the query `m` may end with, given the reply to it. -/
inductive Ends (lib : Lib) (id : Nat) (q : Question) (res : Res) : Outcome → Prop
  | error (h : res.err ≠ none) : Ends lib id q res .failed
  | dropped (h : res = ⟨none, none⟩) : Ends lib id q res .failed
  | unpackable (a : Msg) (h : res = .ok a) (hp : lib.pack a = none) : Ends lib id q res .failed
  | large (a : Msg) (b : Str) (h : res = .ok a) (hp : lib.pack a = some b) (hl : 1232 < b.length) : Ends lib id q res .failed
  | answer (a : Msg) (b : Str) (h : res = .ok a) (hp : lib.pack a = some b) (hl : b.length ≤ 1232) (hr : Responds id q a) : Ends lib id q res (.answer b)
  | other (a : Msg) (b : Str) (h : res = .ok a) (hp : lib.pack a = some b) (hl : b.length ≤ 1232) (hr : ¬ Responds id q a) : Ends lib id q res .hangs

end Verif.Spec.NetResolver
