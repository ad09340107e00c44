import Verif.Model.Dns
/-
Facts about splitting and joining names.
-/
namespace Verif

theorem splitOn_ne_nil {sep : UInt8} (s : Str) : splitOn sep s ≠ [] := by
  cases s with
  | nil => simp [splitOn]
  | cons c cs =>
    unfold splitOn
    split
    · simp
    · split <;> simp

theorem joinWith_cons {sep : UInt8} (p : Str) {l : List Str} (h : l ≠ []) :
    joinWith sep (p :: l) = p ++ sep :: joinWith sep l := by
  cases l with
  | nil => exact absurd rfl h
  | cons a l => rfl

theorem joinWith_splitOn {sep : UInt8} (s : Str) : joinWith sep (splitOn sep s) = s := by
  induction s with
  | nil => rfl
  | cons c cs ih =>
    unfold splitOn
    split
    · rename_i h; subst h
      rw [joinWith_cons _ (splitOn_ne_nil cs), ih]; rfl
    · cases hs : splitOn sep cs with
      | nil => exact absurd hs (splitOn_ne_nil cs)
      | cons p ps =>
        rw [hs] at ih
        simp only
        cases ps with
        | nil => simp only [joinWith] at ih ⊢; rw [ih]
        | cons p' ps =>
          simp only [joinWith] at ih ⊢; rw [List.cons_append, ih]

/-- No part of a split contains the separator. -/
theorem splitOn_no_sep {sep : UInt8} (s : Str) : ∀ p ∈ splitOn sep s, sep ∉ p := by
  induction s with
  | nil => simp [splitOn]
  | cons c cs ih =>
    unfold splitOn
    split
    · intro p hp
      rcases List.mem_cons.mp hp with rfl | hp
      · simp
      · exact ih p hp
    · rename_i hc
      cases hs : splitOn sep cs with
      | nil => exact absurd hs (splitOn_ne_nil cs)
      | cons p ps =>
        rw [hs] at ih
        intro x hx
        rcases List.mem_cons.mp hx with rfl | hx
        · simp only [List.mem_cons, not_or]
          exact ⟨fun h => hc h.symm, ih p (by simp)⟩
        · exact ih x (by simp [hx])

theorem splitOn_self {sep : UInt8} {p : Str} (h : sep ∉ p) : splitOn sep p = [p] := by
  induction p with
  | nil => rfl
  | cons c cs ih =>
    simp only [List.mem_cons, not_or] at h
    unfold splitOn
    rw [if_neg (fun h0 => h.1 h0.symm), ih h.2]

theorem splitOn_append {sep : UInt8} {p : Str} (h : sep ∉ p) (s : Str) :
    splitOn sep (p ++ sep :: s) = p :: splitOn sep s := by
  induction p with
  | nil => simp [splitOn]
  | cons c cs ih =>
    simp only [List.mem_cons, not_or] at h
    simp only [List.cons_append]
    rw [splitOn, if_neg (fun h0 => h.1 h0.symm), ih h.2]

theorem splitOn_joinWith {sep : UInt8} {l : List Str} (hne : l ≠ []) (h : ∀ p ∈ l, sep ∉ p) :
    splitOn sep (joinWith sep l) = l := by
  induction l with
  | nil => exact absurd rfl hne
  | cons p l ih =>
    cases l with
    | nil => simpa [joinWith] using splitOn_self (h p (by simp))
    | cons a l =>
      rw [joinWith_cons _ (by simp), splitOn_append (h p (by simp)), ih (by simp) (fun x hx => h x (by simp [hx]))]

end Verif

namespace Verif
theorem splitOn_mid {sep : UInt8} (a b : Str) : splitOn sep (a ++ sep :: b) = splitOn sep a ++ splitOn sep b := by
  induction a with
  | nil => simp [splitOn]
  | cons c cs ih =>
    rw [List.cons_append, splitOn, splitOn]
    split
    · rw [ih]; rfl
    · rw [ih]
      cases hs : splitOn sep cs with
      | nil => exact absurd hs (splitOn_ne_nil cs)
      | cons p ps => rfl

/-- Bytes of the parts are bytes of the whole. -/
theorem mem_splitOn {sep : UInt8} (s : Str) : ∀ p ∈ splitOn sep s, ∀ c ∈ p, c ∈ s := by
  induction s with
  | nil => simp [splitOn]
  | cons x xs ih =>
    unfold splitOn
    split
    · intro p hp
      rcases List.mem_cons.mp hp with rfl | hp
      · simp
      · intro c hc; exact List.mem_cons_of_mem _ (ih p hp c hc)
    · cases hs : splitOn sep xs with
      | nil => exact absurd hs (splitOn_ne_nil xs)
      | cons p ps =>
        rw [hs] at ih
        intro y hy
        rcases List.mem_cons.mp hy with rfl | hy
        · intro c hc
          rcases List.mem_cons.mp hc with rfl | hc
          · simp
          · exact List.mem_cons_of_mem _ (ih p (by simp) c hc)
        · intro c hc; exact List.mem_cons_of_mem _ (ih y (by simp [hy]) c hc)

theorem splitOn_inj {sep : UInt8} {a b : Str} (h : splitOn sep a = splitOn sep b) : a = b := by
  rw [← joinWith_splitOn (sep := sep) a, h, joinWith_splitOn]
end Verif
