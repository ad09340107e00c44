import Verif.Model.Buffers
/-
What users of the shared encode buffers rely on, in terms of the calls made and the bytes that leave.
-/
namespace Verif.Spec.Buffers
open Verif Verif.Buffers

/-- The calls of a run, in order: who called, and with what. -/
def calls : List Ev → List (Kind × Item)
  | [] => []
  | .call k it :: es => (k, it) :: calls es
  | _ :: es => calls es

/-- The bytes a call is to produce: the packed message, behind the header if it goes to Redis. -/
def Encodes : Kind → Item → Str → Prop
  | .memory, it, v => it.wire = some v
  | _, it, v => ∃ w, it.wire = some w ∧ v = it.hdr ++ w

/-- The arrays a call is working with: the one of its cell, and the one with the value. -/
def InUse (s : Sys) (i a : Nat) : Prop := ∃ j p b, s.jobs[i]? = some j ∧
  (j.phase = .packing p b ∨ (∃ n, j.phase = .encoded p b n) ∨ ∃ n, j.phase = .writing p b n) ∧ (a = b ∨ a = s.cells p)

/-- The calls that have a write to Redis going on in backend `b`. -/
def writesGoingOn (s : Sys) (b : Nat) : Nat := s.jobs.countP fun j =>
  match j.phase with
  | .writing _ _ _ => j.kind == .async b
  | _ => false

/-- The events by which call `i` goes on. -/
def MovesOn (i : Nat) : Ev → Prop
  | .take k _ => k = i
  | .finish k _ => k = i
  | .spawn k => k = i
  | .release k => k = i
  | .signal k => k = i
  | _ => False

/-- Packed messages are not empty (a DNS message has at least the 12 bytes of its header). -/
def MessagesNonempty (es : List Ev) : Prop := ∀ k it w, (k, it) ∈ calls es → it.wire = some w → w ≠ []

end Verif.Spec.Buffers
