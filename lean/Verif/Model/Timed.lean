import Verif.Model.Shared
/-
The program of Verif/Model/Shared.lean with a clock: servers answer within their time limits, everything else is done at once.
-/
namespace Verif.Timed
open Verif Verif.Composition Verif.Shared

/-- The goroutine has nothing to do at the moment: it has asked a server (for example dnsclient.go:46-60), waits for a message (fastest.go:52) or for a request that is on the way
(request-dedup.go:107), has returned, or has panicked. -/
def Rests {H : Type} (s : St H) : Thread H → Prop
  | ⟨.ask _ _ _ _, _⟩ => True
  | ⟨.recv c _, _⟩ => s.chans[c]? = some []
  | ⟨.wait f _, _⟩ => ∃ t, s.flights[f]? = some (t, none)
  | ⟨.ret _, []⟩ => True
  | ⟨.stop, _⟩ => True
  | _ => False

/-- A run of the program with queries that come in one after the other: query `i` is there from moment number `arrival i` on. At each moment a goroutine makes a step, or time passes. Time
passes only when all goroutines rest, that is, what is done within the program takes no time. The goroutine that asks server `c` goes on after `lim c` at the latest (`query-timeout`, and what C103 and C104 say of
clients). replace.go:56-95, cache.go:204-285, request-dedup.go:51-139, fastest.go:28-69 and the other `Resolve` methods. -/
structure Run {H : Type} (lim : Nat → Nat) (roots : List (Root H)) where
  state : Nat → St H
  time : Nat → Nat
  arrival : Nat → Nat
  start : state 0 = init roots
  next : ∀ n, (Step (state n) (state (n + 1)) ∧ time (n + 1) = time n) ∨ (state (n + 1) = state n ∧ time n ≤ time (n + 1))
  before : ∀ i n : Nat, i < roots.length → n ≤ arrival i → (state n).threads[i]? = (init roots).threads[i]?
  prompt : ∀ (n i : Nat) (th : Thread H), time n < time (n + 1) → (state n).threads[i]? = some th → (i < roots.length → arrival i ≤ n) → Rests (state n) th
  answered : ∀ (m n i c : Nat) (q : Ptr) (ci : ClientInfo) (k : Option Ptr → Prog H) (st : List (Option Ptr → Prog H)), m ≤ n →
    (∀ j, m ≤ j → j ≤ n → (state j).threads[i]? = some ⟨.ask c q ci k, st⟩) → time n ≤ time m + lim c

end Verif.Timed
