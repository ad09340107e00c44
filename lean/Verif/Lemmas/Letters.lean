import Verif.Spec.Letters
/-
Capital letters.
-/
namespace Verif.Lemmas
open Verif Verif.Spec

theorem capitals_iff (u t : Str) : InCapitals u t ↔ u = t.map fun c => if 97 ≤ c ∧ c ≤ 122 then c - 32 else c := by
  unfold InCapitals equalFold lower
  rw [beq_iff_eq]
  have h1 : ∀ a b : UInt8, (lowerByte a = lowerByte b ∧ ¬ (97 ≤ a ∧ a ≤ 122)) ↔ a = (if 97 ≤ b ∧ b ≤ 122 then b - 32 else b) := by
    have k1 : ∀ b : Fin 256, lowerByte (if 97 ≤ UInt8.ofFin b ∧ UInt8.ofFin b ≤ 122 then UInt8.ofFin b - 32 else UInt8.ofFin b) = lowerByte (UInt8.ofFin b) ∧
        ¬ (97 ≤ (if 97 ≤ UInt8.ofFin b ∧ UInt8.ofFin b ≤ 122 then UInt8.ofFin b - 32 else UInt8.ofFin b) ∧ (if 97 ≤ UInt8.ofFin b ∧ UInt8.ofFin b ≤ 122 then UInt8.ofFin b - 32 else UInt8.ofFin b) ≤ 122) := by decide +kernel
    have k2 : ∀ b : Fin 256, ¬ (97 ≤ UInt8.ofFin b ∧ UInt8.ofFin b ≤ 122) → UInt8.ofFin b = (if 97 ≤ lowerByte (UInt8.ofFin b) ∧ lowerByte (UInt8.ofFin b) ≤ 122 then lowerByte (UInt8.ofFin b) - 32 else lowerByte (UInt8.ofFin b)) := by decide +kernel
    have k3 : ∀ b : Fin 256, (if 97 ≤ lowerByte (UInt8.ofFin b) ∧ lowerByte (UInt8.ofFin b) ≤ 122 then lowerByte (UInt8.ofFin b) - 32 else lowerByte (UInt8.ofFin b)) =
        (if 97 ≤ UInt8.ofFin b ∧ UInt8.ofFin b ≤ 122 then UInt8.ofFin b - 32 else UInt8.ofFin b) := by decide +kernel
    intro a b
    constructor
    · rintro ⟨p, q⟩
      have e := k2 a.toFin q
      have e' := k3 b.toFin
      simp only [show UInt8.ofFin a.toFin = a from rfl, show UInt8.ofFin b.toFin = b from rfl] at e e'
      rw [p, e'] at e
      exact e
    · rintro rfl
      exact k1 b.toFin
  induction u generalizing t with
  | nil => cases t <;> simp
  | cons a u ih =>
    cases t with
    | nil => simp
    | cons b t =>
      simp only [List.map_cons, List.cons.injEq, List.mem_cons, forall_eq_or_imp]
      refine Iff.trans ?_ (and_congr (h1 a b) (ih t))
      constructor
      · rintro ⟨⟨p, q⟩, r, s⟩; exact ⟨⟨p, r⟩, q, s⟩
      · rintro ⟨⟨p, r⟩, q, s⟩; exact ⟨⟨p, q⟩, r, s⟩

end Verif.Lemmas
