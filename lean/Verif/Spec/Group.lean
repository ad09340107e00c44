import Verif.Model.Dns
/-
C12-C16 in words, for resolver groups.
-/
namespace Verif.Spec.Group
open Verif

/-- The members in cyclic order from `a` (`0 ≤ a < n`). -/
def cyclic (n a : Nat) : List Nat := (List.range n).map fun i => (a + i) % n

/-- Asking `order` in turn and stopping at the first success: who was asked. -/
inductive Asked (good : Nat → Prop) : List Nat → List Nat → Prop
  | nil : Asked good [] []
  | hit {m rest} : good m → Asked good (m :: rest) [m]
  | miss {m rest asked} : ¬ good m → Asked good rest asked → Asked good (m :: rest) (m :: asked)

/-- The message has an option that says that the answer was held back: extended error 15 (blocked), 16 (censored) or 17 (filtered). -/
def HeldBack (a : Msg) : Prop := ∃ e, a.edns? = some e ∧ ∃ c t, .ede c t ∈ e.options ∧ (c = 15 ∨ c = 16 ∨ c = 17)

/-- The message has a record of the type asked for. For ANY that is any record, except if there is just a HINFO record, with which servers refuse ANY. -/
def Useful (a : Msg) : Prop := ∃ qu, a.question.head? = some qu ∧
  ((∃ rr, rr ∈ a.answer ∧ rr.rtype = qu.qtype) ∨ (qu.qtype = 255 ∧ a.answer ≠ [] ∧ ¬ ∃ rr, a.answer = [rr] ∧ rr.rtype = 13))

/-- The reply counts as a failure of the member: an error, REFUSED or NOTIMP, SERVFAIL if so configured, and if so configured a message without useful records, unless
the answer section is empty (or no question tells what was asked for) and the message says that it was held back. No message at all is not a failure. -/
inductive Fails (servfailError emptyError : Bool) (r : Res) : Prop
  | error (h : r.err ≠ none)
  | refused (a : Msg) (h : r.msg = some a) (hc : a.rcode = 5 ∨ a.rcode = 4)
  | servfail (a : Msg) (h : r.msg = some a) (hs : servfailError = true) (hc : a.rcode = 2)
  | empty (a : Msg) (h : r.msg = some a) (he : emptyError = true) (hu : ¬ Useful a) (hb : ¬ ((a.answer = [] ∨ a.question = []) ∧ HeldBack a))

end Verif.Spec.Group
