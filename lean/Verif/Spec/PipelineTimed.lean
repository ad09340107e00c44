import Verif.Model.PipelineTimed
/-
C103 in words.
-/
namespace Verif.Spec.PipelineTimed
open Verif Verif.Pipeline Verif.PipelineTimed

/-- The event that a query is taken to be written to the connection. -/
def isTake : Option Ev → Bool
  | some (.writerTake _ _) => true
  | _ => false

/-- How many queries were written from moment `n` until moment `k`. -/
def writes (ev : Nat → Option Ev) (n k : Nat) : Nat := ((List.range k).filter fun j => decide (n ≤ j) && isTake (ev j)).length

/-- No write to the connection takes longer than `W`. -/
def WritesWithin {T : Nat} (R : Run T) (W : Nat) : Prop := ∀ (m n r id : Nat), m ≤ n →
  (∀ j, m ≤ j → j ≤ n → (R.state j).writer = .writing r id) → R.time n ≤ R.time m + W

end Verif.Spec.PipelineTimed
