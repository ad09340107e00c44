import Verif.Model.Clients
import Verif.Spec.Listeners
import Verif.Spec.Pipeline
/-
C55 (clients), C56 in words.
-/
namespace Verif.Spec.Clients
open Verif Verif.Listeners Verif.Clients
open Verif.Spec.Listeners

/-- The message with the size for UDP responses that was configured; 0 is none. -/
def SizeSet (size : Nat) (q m : Msg) : Prop :=
  (size = 0 ∧ m = q) ∨ (size ≠ 0 ∧ ((∃ e, Replaced q m e { e with udpSize := size }) ∨ Added q m ⟨size, false, []⟩))

/-- What goes out over QUIC for a query: the same with ID 0 and without keep-alive options. -/
def QuicForm (q m : Msg) : Prop :=
  m.id = 0 ∧ ¬ KeepAlive m ∧ ((q.edns? = none ∧ m = { q with id := 0 }) ∨
    ∃ (e : Edns) (os : List EOpt), Replaced { q with id := 0 } m e { e with options := os } ∧ os = e.options.filter (fun o => o.code ≠ 11))

/-- The stream begins with the frame of the message bytes `b`. -/
def Begins (stream b : Str) : Prop := ∃ frame rest, Framed b frame ∧ stream = frame ++ rest

/-- A successful HTTP response with the content `b`, of a bounded size -/
def Content (r : HttpResp) (b : Str) : Prop := 200 ≤ r.status ∧ r.status < 300 ∧ r.body = some b ∧ b.length ≤ 65535 + 512

/-- Oblivious DNS: the key `k` was the first one of a configuration fetched successfully at time `t`. A history is the list of the calls: the time, and the response
to a request for the keys in case one is made. -/
def Fetched (lib : OdohLib) (h : List (Nat × Option HttpResp)) (k : lib.Key) (t : Nat) : Prop :=
  ∃ r b ks, (t, some r) ∈ h ∧ r.body = some b ∧ b.length ≤ 65535 + 512 ∧ lib.configs b = some (k :: ks)

/-- The state of the client after the calls of a history -/
def odohRun (lib : OdohLib) : List (Nat × Option HttpResp) → OdohState lib.Key
  | [] => {}
  | (now, resp) :: h => (getTargetConfig lib [] resp now (odohRun lib h)).2

end Verif.Spec.Clients
