import Verif.Lemmas.DnssecName
/-
C48: the order of names that range checks of denial proofs use.

`present n` is the text of the name `n` (a list of labels of arbitrary bytes) as the library gives it to the code; `CanonLt` is the order of RFC 4034.
-/
namespace Verif.Props.Dnssec
open Verif Verif.Dnssec Verif.DnssecSpec

/-- C48: for names read from the wire, the comparison is the canonical order of RFC 4034 and finds exactly names that differ in ASCII case equal. -/
theorem canonical_order_rfc {n m : Name} (hn : WfName n) (hm : WfName m) :
    (canonicalNameCmp (present n) (present m) < 0 ↔ CanonLt n m)
    ∧ (canonicalNameCmp (present n) (present m) = 0 ↔ canon n = canon m)
    ∧ (canonicalNameCmp (present n) (present m) > 0 ↔ CanonLt m n) := by
  unfold canonicalNameCmp CanonLt
  rw [canonicalLabels_present hn, canonicalLabels_present hm]
  refine ⟨cmpLabels_lt, ?_, ?_⟩
  · rw [cmpLabels_eq]; exact List.reverse_inj
  · rw [← cmpLabels_lt, cmpLabels_antisymm]; omega

/-- `\000.example.` (a label with the single byte zero) comes after `example.` and before `A.Example.`; upper case makes no difference -/
example : present [[0], str "example"] = str "\\000.example."
    ∧ canonicalNameCmp (str "\\000.example.") (str "example.") = 1
    ∧ canonicalNameCmp (str "\\000.example.") (str "A.Example.") = -1
    ∧ canonicalNameCmp (str "z.a.example.") (str "\\200.Z.a.EXAMPLE.") = -1
    ∧ canonicalNameCmp (str "Z.a.example.") (str "z.A.EXAMPLE.") = 0 := by decide +kernel

/-- C48: on all strings whatsoever the comparison is a total order of three results, and names that compare equal are interchangeable. -/
theorem canonical_order_total (a b c : Str) :
    (canonicalNameCmp a b = -1 ∨ canonicalNameCmp a b = 0 ∨ canonicalNameCmp a b = 1)
    ∧ canonicalNameCmp a a = 0
    ∧ canonicalNameCmp b a = - canonicalNameCmp a b
    ∧ (canonicalNameCmp a b < 0 → canonicalNameCmp b c < 0 → canonicalNameCmp a c < 0)
    ∧ (canonicalNameCmp a b = 0 → canonicalNameCmp a c = canonicalNameCmp b c) := by
  unfold canonicalNameCmp
  refine ⟨?_, cmpLabels_eq.mpr rfl, cmpLabels_antisymm _ _, ?_, ?_⟩
  · rcases cmpLabels_cases (canonicalLabels a).reverse (canonicalLabels b).reverse with h | h | h <;> simp [h.1]
  · rw [cmpLabels_lt, cmpLabels_lt, cmpLabels_lt]; exact names_lt_trans
  · intro h; rw [cmpLabels_eq.mp h]

/-- C48: the order is strict and total on names: of two names exactly one comes first unless they are the same up to case. -/
theorem canonical_order_strict {n m : Name} :
    (CanonLt n m ∨ canon n = canon m ∨ CanonLt m n) ∧ ¬ (CanonLt n m ∧ CanonLt m n) ∧ (CanonLt n m → canon n ≠ canon m) := by
  unfold CanonLt
  refine ⟨?_, fun h => names_lt_asymm h.1 h.2, ?_⟩
  · rcases cmpLabels_cases (canon n).reverse (canon m).reverse with h | h | h
    · exact .inl h.2
    · exact .inr (.inl (List.reverse_inj.mp h.2))
    · exact .inr (.inr h.2)
  · intro h he; rw [he] at h; exact names_lt_irrefl _ h

/-- C48: a name sorts before everything below it, and everything below it sorts before whatever comes after: the names at or below `z` are contiguous. -/
theorem canonical_order_contiguous {z n m : Name} (hn : AncestorOrSelf z n) (hm : AncestorOrSelf z m) {x : Name}
    (h1 : CanonLt n x) (h2 : CanonLt x m) : AncestorOrSelf z x := by
  unfold AncestorOrSelf CanonLt at *
  rw [← List.reverse_prefix] at *
  generalize (canon n).reverse = n' at *
  generalize (canon m).reverse = m' at *
  generalize (canon x).reverse = x' at *
  generalize (canon z).reverse = z' at *
  clear n m x z
  induction z' generalizing n' m' x' with
  | nil => exact List.nil_prefix
  | cons l ls ih =>
    obtain ⟨tn, rfl⟩ := hn
    obtain ⟨tm, rfl⟩ := hm
    cases x' with
    | nil => simp at h1
    | cons y ys =>
      rw [List.cons_append, List.cons_lt_cons_iff] at h1 h2
      rcases h1 with h1 | ⟨rfl, h1⟩
      · rcases h2 with h2 | ⟨rfl, h2⟩
        · exact absurd h2 (str_lt_asymm h1)
        · exact absurd h1 (str_lt_irrefl _)
      · rcases h2 with h2 | ⟨_, h2⟩
        · exact absurd h2 (str_lt_irrefl _)
        · have := ih _ _ _ h1 h2 (List.prefix_append ls tn) (List.prefix_append ls tm)
          exact List.cons_prefix_cons.mpr ⟨rfl, this⟩

example : AncestorOrSelf [str "example"] [str "b", str "Example"] ∧ CanonLt [str "example"] [str "a", str "example"]
    ∧ CanonLt [str "a", str "example"] [str "b", str "Example"] := by
  refine ⟨⟨[str "b"], by decide⟩, ?_, ?_⟩ <;> (unfold CanonLt; decide +kernel)

/-! ### Parent zone -/

theorem cutDot_append {a rest : Str} (h : 46 ∉ a) : cutDot (a ++ 46 :: rest) = some rest := by
  induction a with
  | nil => simp [cutDot]
  | cons x xs ih =>
    simp only [List.mem_cons, not_or] at h
    rw [List.cons_append, cutDot, if_neg (Ne.symm h.1), ih h.2]

theorem dot_mem_escLabel {l : Str} : 46 ∈ escLabel l ↔ 46 ∈ l := by
  unfold escLabel
  rw [List.mem_flatMap]
  constructor
  · rintro ⟨b, hb, h⟩
    rcases escByte_forms b with ⟨_, e, _⟩ | ⟨_, x, y, z, e, hx, hy, hz, _⟩ | ⟨_, e, _, h46⟩
    · rw [e] at h; simp at h; rw [h]; exact hb
    · rw [e] at h
      simp [Ne.symm (digit_ne hx).2, Ne.symm (digit_ne hy).2, Ne.symm (digit_ne hz).2] at h
    · rw [e] at h; simp at h; exact absurd h.symm h46
  · intro h; exact ⟨46, h, by decide⟩

theorem dot_mem_lower {l : Str} : 46 ∈ lower l ↔ 46 ∈ l := by
  unfold lower
  rw [List.mem_map]
  constructor
  · rintro ⟨b, hb, h⟩
    have := byte_forall (fun b => lowerByte b = 46 → b = 46) (by decide +kernel) b h
    rw [← this]; exact hb
  · intro h; exact ⟨46, h, by decide⟩

theorem present_cons (l : Str) {n : Name} (h : n ≠ []) : present (l :: n) = escLabel l ++ 46 :: present n := by
  simp [present, h]

theorem present_ne_nil (n : Name) : present n ≠ [] := by
  unfold present
  split
  · simp
  · rename_i h
    cases n with
    | nil => exact absurd rfl h
    | cons => simp

/-- C47: if no dot is part of its first label, the parent zone of a name is the name without its first label. -/
theorem parent_zone_exact {l : Str} {n : Name} (hw : WfName (l :: n)) (hd : 46 ∉ l) : parentZone (present (l :: n)) = present (canon n) := by
  have hd' : 46 ∉ escLabel (lower l) := by rw [dot_mem_escLabel, dot_mem_lower]; exact hd
  have hnr : present (canon (l :: n)) ≠ root := by
    intro h; have := (present_root_iff (wf_canon hw)).mp h; simp [canon] at this
  unfold parentZone
  simp only [canonicalName_present, hnr, if_false]
  have e : canon (l :: n) = lower l :: canon n := rfl
  rw [e]
  by_cases h : canon n = []
  · rw [h]
    have : present [lower l] = escLabel (lower l) ++ 46 :: [] := by simp [present]
    rw [this, cutDot_append hd']
    rfl
  · rw [present_cons _ h, cutDot_append hd']
    cases hp : present (canon n) with
    | nil => exact absurd hp (present_ne_nil _)
    | cons => rfl

example : parentZone (str "www.Example.com.") = str "example.com." ∧ parentZone (str "com.") = str "." := by decide +kernel

/-- Finding (C47): a dot inside of a label is taken for the end of the label. The parent of `a\.b.example.` is said to be `b.example.`, which is no
ancestor of it but a sibling: whoever owns `b.example.` is asked for the DS records of `a\.b.example.`. -/
theorem parent_zone_escaped_dot {a b : Str} {n : Name} (ha : 46 ∉ a) (hb : b ≠ []) :
    parentZone (present ((a ++ 46 :: b) :: n)) = present (canon (b :: n)) := by
  have e : canon ((a ++ 46 :: b) :: n) = (lower a ++ 46 :: lower b) :: canon n := by
    simp [canon, lower, show lowerByte 46 = 46 from rfl]
  have ee : escLabel (lower a ++ 46 :: lower b) = escLabel (lower a) ++ 92 :: 46 :: escLabel (lower b) := by
    simp [escLabel, show escByte 46 = [92, 46] from rfl]
  have hd' : 46 ∉ escLabel (lower a) ++ [92] := by
    simp only [List.mem_append, dot_mem_escLabel, dot_mem_lower]
    simp [ha]
  have cut : ∀ rest : Str, cutDot (escLabel (lower a) ++ 92 :: 46 :: rest) = some rest := by
    intro rest
    have := @cutDot_append _ rest hd'
    simpa using this
  have hbn : escLabel (lower b) ≠ [] := escLabel_ne_nil (lower_ne_nil hb)
  have hp : present ((lower a ++ 46 :: lower b) :: canon n) = escLabel (lower a) ++ 92 :: 46 :: present (lower b :: canon n) := by
    simp [present, ee]
  have hnr : present ((lower a ++ 46 :: lower b) :: canon n) ≠ root := by
    rw [hp]; intro h
    have := congrArg List.length h
    simp at this; omega
  unfold parentZone
  simp only [canonicalName_present, e, hnr, if_false]
  rw [hp, cut]
  have : canon (b :: n) = lower b :: canon n := rfl
  rw [this]
  cases hh : present (lower b :: canon n) with
  | nil => exact absurd hh (present_ne_nil _)
  | cons => rfl

example : parentZone (str "a\\.b.example.") = str "b.example." ∧ ¬ isSubDomain (str "b.example.") (str "a\\.b.example.") := by decide +kernel

end Verif.Props.Dnssec
