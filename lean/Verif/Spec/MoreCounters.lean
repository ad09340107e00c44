import Verif.Model.Listeners
import Verif.Model.Clients
import Verif.Model.Route
import Verif.Spec.Counters
/-
C92 in words, continued: what happened at DoQ listeners, clients, routers and groups, to be compared with what was counted.
-/
namespace Verif.Spec.MoreCounters
open Verif Verif.Listeners

/-- A count of an error, of whatever kind -/
def isError : Verif.Counters.Count → Bool
  | .error _ => true
  | _ => false

/-- A whole message with a question arrives on the stream: two bytes of length, as many bytes as they say, and a message in them. -/
def CarriesQuery (lib : Lib) (sent : Str) : Prop :=
  ∃ h l b more q, sent = h :: l :: (b ++ more) ∧ b.length = h.toNat * 256 + l.toNat ∧ lib.unpack b = some q ∧ q.question ≠ []

/-- An answer is written to the stream. -/
def Written (s : Stream) : Prop := ∃ b, s = .written b

/-- The client gives an answer with this code. -/
def Answers (code : Nat) (o : Clients.Outcome) : Prop := ∃ a, o = .answer a ∧ a.rcode = code

/-- The query goes to element `m`: the first route that matches it leads there. -/
def Goes (routes : List Route.Route) (target : Nat → Nat) (q : Msg) (ci : ClientInfo) (now : Nat → Route.Now) (m : Nat) : Prop :=
  ∃ qu rest i r, q.question = qu :: rest ∧ routes[i]? = some r ∧ Route.matches' r q qu ci (now i) = true ∧
    (∀ j r', j < i → routes[j]? = some r' → Route.matches' r' q qu ci (now j) = false) ∧ target i = m

end Verif.Spec.MoreCounters
