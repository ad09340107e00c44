import Verif.Model.LifeCycle
/-
Vocabulary for the claims about the life of a listener (C86): what "stopped", "up" and "down for good" mean, in terms of runs.
-/
namespace Verif.Spec.LifeCycle
open Verif.LifeCycle

/-- No call of `Start` is running. -/
def Returned (s : Sys) : Prop := s.phase = .idle

/-- `Start` serves: the socket is open and queries are answered. -/
def Up (s : Sys) : Prop := s.phase = .serving

/-- Every call of `Stop` so far has returned. -/
def StopsReturned (s : Sys) : Prop := ∀ i : Nat, s.stops i = .none ∨ ∃ g : Option Nat, s.stops i = .returned g

/-- Call `i` of `Stop` has closed the server (or returned because there was none). -/
def Closed (s : Sys) (i : Nat) : Prop := s.stops i ≠ .none ∧ s.stops i ≠ .called ∧ ∀ g : Nat, s.stops i ≠ .holding g

/-- Nobody calls `Stop`. -/
def NoStop (es : List Ev) : Prop := ∀ e ∈ es, (∀ i : Nat, e ≠ .stop i)

/-- What the operating system promises along a run: the address can be bound only while no socket is bound to it. -/
def Exclusive (k : Kind) : Sys → List Ev → Prop
  | _, [] => True
  | s, e :: es => (e = .listen true → s.opened = []) ∧ ∀ s' : Sys, step k s e = some s' → Exclusive k s' es

/-- A step of `Start`. -/
def OfStart (e : Ev) : Prop := ∀ i : Nat, e ≠ .stop i ∧ e ≠ .look i ∧ e ≠ .shut i ∧ e ≠ .finish i

/-- `Start` has nothing left to do but return: it can, and whatever it does next, it returns. -/
def MustReturn (k : Kind) (s : Sys) : Prop :=
  (∃ (e : Ev) (s' : Sys), OfStart e ∧ step k s e = some s') ∧ ∀ (e : Ev) (s' : Sys), OfStart e → step k s e = some s' → Returned s'

/-- The running `Start` can be stopped: it serves, or (HTTP) the server has been made, or (socket server) it has been called. -/
def Stoppable (k : Kind) (s : Sys) : Prop := Up s ∨ ((k = .http ∨ k = .h3) ∧ s.pub = some s.gen ∧ s.phase ≠ .idle) ∨ (k = .xs ∧ s.phase ≠ .idle)

/-- What has not happened in the run, for the kinds that may leave a socket behind: serving over QUIC (not DoQ), or of the socket server, did not end by itself; of a server that is given its
socket, the options of the socket could be set, and `Start` was not called again after serving had ended by itself. -/
def Calm (k : Kind) (es : List Ev) (s : Sys) : Prop := match k with
  | .h3 => ¬ Ev.fail ∈ es
  | .xs => ¬ Ev.fail ∈ es
  | .own udp => (udp = true → ¬ Ev.activate false ∈ es) ∧ (¬ Ev.fail ∈ es ∨ s.gen ≤ 1)
  | _ => True

end Verif.Spec.LifeCycle
