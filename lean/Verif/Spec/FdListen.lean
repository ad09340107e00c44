import Verif.Model.FdListen
/-
Vocabulary for the claims about the socket of the fd-server (C88).
-/
namespace Verif.Spec.FdListen
open Verif Verif.FdListen

/-- Server `i` accepts connections. -/
def Accepts (s : Sys) (i : Nat) : Prop := s.srv i = .listening ∨ s.srv i = .up

/-- Server `i` holds a socket bound to the path. -/
def Holds (s : Sys) (i : Nat) : Prop := s.srv i = .bound ∨ Accepts s i

/-- The call of `listen` of server `i` is under way. -/
def Opening (s : Sys) (i : Nat) : Prop := s.srv i = .bound ∨ s.srv i = .listening ∨ s.srv i = .inUse ∨ s.srv i = .refused ∨ s.srv i = .removed

/-- What is at the path is the socket of server `i`. -/
def IsSocketOf (s : Sys) (i : Nat) : Prop := ∃ perm, s.node = some (.sock i perm)

/-- Nobody but the servers touches the path, and a server starts only when no other is starting. -/
inductive Orderly (c : Cfg) : Sys → List Ev → Prop
  | done (s : Sys) : Orderly c s []
  | step {s s' : Sys} {e : Ev} {es : List Ev} : step c s e = some s' → (∀ n, e ≠ .outside n) → (∀ i err, e = .bind i err → ∀ j, ¬ Opening s j) → Orderly c s' es → Orderly c s (e :: es)

/-- Nothing is running. -/
def Quiet (s : Sys) : Prop := ∀ i, s.srv i = .idle ∨ s.srv i = .failed ∨ s.srv i = .gone

/-- The event is a step of the start of server `i`. -/
def StartOf (i : Nat) : Ev → Prop
  | .bind j _ | .listen j _ | .dial j _ | .remove j _ | .rebind j _ | .chmod j _ => j = i
  | _ => False

/-- The number that a string of octal digits denotes. -/
def Denotes : Str → Nat → Prop
  | s, n => s ≠ [] ∧ (∀ b ∈ s, 0x30 ≤ b.toNat ∧ b.toNat ≤ 0x37) ∧ n = s.foldl (fun acc b => acc * 8 + (b.toNat - 0x30)) 0

end Verif.Spec.FdListen
