import Verif.Model.DnssecName
import Verif.Spec.DnssecName
/- Facts about the names of dnssec/*.go: comparison, presentation form -/
set_option linter.unusedSimpArgs false
set_option linter.unusedVariables false
namespace Verif.Dnssec
open Verif Verif.DnssecSpec

/-! ### Comparison -/

theorem bytesCompare_cases (a b : Str) : bytesCompare a b = -1 ∧ a < b ∨ bytesCompare a b = 0 ∧ a = b ∨ bytesCompare a b = 1 ∧ b < a := by
  induction a generalizing b with
  | nil => cases b <;> simp [bytesCompare]
  | cons x xs ih =>
    cases b with
    | nil => simp [bytesCompare]
    | cons y ys =>
      simp only [bytesCompare, List.cons_lt_cons_iff]
      by_cases h1 : x < y
      · simp [h1]
      · by_cases h2 : y < x
        · simp [h1, h2]
        · have : x = y := UInt8.le_antisymm (UInt8.not_lt.mp h2) (UInt8.not_lt.mp h1)
          subst this
          simp only [h1, if_false]
          rcases ih ys with ⟨h, h'⟩ | ⟨h, h'⟩ | ⟨h, h'⟩ <;> simp only [h] <;> simp [h']

theorem str_lt_irrefl (a : Str) : ¬ a < a := List.lt_irrefl a
theorem str_lt_asymm {a b : Str} (h : a < b) : ¬ b < a := fun h' => List.lt_irrefl a (List.lt_trans h h')

theorem cmpLabels_cases (a b : List Str) : cmpLabels a b = -1 ∧ a < b ∨ cmpLabels a b = 0 ∧ a = b ∨ cmpLabels a b = 1 ∧ b < a := by
  induction a generalizing b with
  | nil => cases b <;> simp [cmpLabels]
  | cons x xs ih =>
    cases b with
    | nil => simp [cmpLabels]
    | cons y ys =>
      simp only [cmpLabels, List.cons_lt_cons_iff]
      rcases bytesCompare_cases x y with ⟨h, h1⟩ | ⟨h, h1⟩ | ⟨h, h1⟩
      · simp [h, h1]
      · subst h1
        simp only [h, ne_eq, not_true_eq_false, if_false]
        rcases ih ys with ⟨h, h'⟩ | ⟨h, h'⟩ | ⟨h, h'⟩ <;> simp only [h] <;> simp [h']
      · simp [h, h1]

theorem names_lt_irrefl (a : List Str) : ¬ a < a := by
  intro h
  induction a with
  | nil => simp at h
  | cons x xs ih =>
    rw [List.cons_lt_cons_iff] at h
    rcases h with h | h
    · exact str_lt_irrefl x h
    · exact ih h.2

theorem names_lt_trans {a b c : List Str} (h1 : a < b) (h2 : b < c) : a < c := by
  induction a generalizing b c with
  | nil => cases c with
    | nil => cases b <;> simp at h2
    | cons => simp
  | cons x xs ih =>
    cases b with
    | nil => simp at h1
    | cons y ys => cases c with
      | nil => simp at h2
      | cons z zs =>
        rw [List.cons_lt_cons_iff] at *
        rcases h1 with h1 | ⟨rfl, h1⟩ <;> rcases h2 with h2 | ⟨rfl, h2⟩
        · exact .inl (List.lt_trans h1 h2)
        · exact .inl h1
        · exact .inl h2
        · exact .inr ⟨rfl, ih h1 h2⟩

theorem names_lt_asymm {a b : List Str} (h : a < b) : ¬ b < a := fun h' => names_lt_irrefl a (names_lt_trans h h')

theorem cmpLabels_lt {a b : List Str} : cmpLabels a b < 0 ↔ a < b := by
  rcases cmpLabels_cases a b with ⟨h, h1⟩ | ⟨h, h1⟩ | ⟨h, h1⟩
  · simp [h, h1]
  · subst h1; simp [h, names_lt_irrefl]
  · simp [h, names_lt_asymm h1]

theorem cmpLabels_eq {a b : List Str} : cmpLabels a b = 0 ↔ a = b := by
  rcases cmpLabels_cases a b with ⟨h, h1⟩ | ⟨h, h1⟩ | ⟨h, h1⟩
  · simp only [h, show ((-1 : Int) = 0) = False by simp, false_iff]; rintro rfl; exact names_lt_irrefl _ h1
  · exact ⟨fun _ => h1, fun _ => h⟩
  · simp only [h, show ((1 : Int) = 0) = False by simp, false_iff]; rintro rfl; exact names_lt_irrefl _ h1

theorem cmpLabels_antisymm (a b : List Str) : cmpLabels b a = - cmpLabels a b := by
  rcases cmpLabels_cases a b with ⟨h, h1⟩ | ⟨h, h1⟩ | ⟨h, h1⟩ <;>
    rcases cmpLabels_cases b a with ⟨h', h1'⟩ | ⟨h', h1'⟩ | ⟨h', h1'⟩ <;> simp only [h, h'] <;> try rfl
  · exact absurd h1' (names_lt_asymm h1)
  · subst h1'; exact absurd h1 (names_lt_irrefl _)
  · subst h1; exact absurd h1' (names_lt_irrefl _)
  · subst h1; exact absurd h1' (names_lt_irrefl _)
  · subst h1'; exact absurd h1 (names_lt_irrefl _)
  · exact absurd h1' (names_lt_asymm h1)

/-! ### Presentation form -/

theorem byte_forall (P : UInt8 → Prop) (h : ∀ n : Fin 256, P (UInt8.ofNat n.val)) (b : UInt8) : P b := by
  have := h ⟨b.toNat, b.toNat_lt⟩
  simpa using this

/-- The three forms a written byte can have -/
theorem escByte_forms (b : UInt8) :
    (b ∈ special ∧ escByte b = [92, b] ∧ isDigit b = false) ∨
    (b ∉ special ∧ ∃ x y z, escByte b = [92, x, y, z] ∧ isDigit x = true ∧ isDigit y = true ∧ isDigit z = true ∧ (x - 48) * 100 + (y - 48) * 10 + (z - 48) = b) ∨
    (b ∉ special ∧ escByte b = [b] ∧ b ≠ 92 ∧ b ≠ 46) := by
  have key := byte_forall (fun b : UInt8 =>
      (b ∈ special ∧ escByte b = [92, b] ∧ isDigit b = false) ∨
      (b ∉ special ∧ (escByte b = [92, 48 + b / 100, 48 + b / 10 % 10, 48 + b % 10] ∧ isDigit (48 + b / 100) = true ∧ isDigit (48 + b / 10 % 10) = true
        ∧ isDigit (48 + b % 10) = true ∧ ((48 + b / 100) - 48) * 100 + ((48 + b / 10 % 10) - 48) * 10 + ((48 + b % 10) - 48) = b)) ∨
      (b ∉ special ∧ escByte b = [b] ∧ b ≠ 92 ∧ b ≠ 46)) (by decide +kernel) b
  rcases key with h | ⟨h, h'⟩ | h
  · exact .inl h
  · exact .inr (.inl ⟨h, _, _, _, h'⟩)
  · exact .inr (.inr h)

theorem lower_escByte (b : UInt8) : lower (escByte b) = escByte (lowerByte b) := by
  exact byte_forall (fun b => lower (escByte b) = escByte (lowerByte b)) (by decide +kernel) b

theorem lower_append (a b : Str) : lower (a ++ b) = lower a ++ lower b := by simp [lower]

theorem lower_escLabel (l : Str) : lower (escLabel l) = escLabel (lower l) := by
  induction l with
  | nil => rfl
  | cons b bs ih =>
    have : escLabel (b :: bs) = escByte b ++ escLabel bs := rfl
    rw [this, lower_append, ih, lower_escByte]; rfl

theorem lower_present (n : Name) : lower (present n) = present (canon n) := by
  unfold present canon
  by_cases h : n = []
  · subst h; rfl
  · rw [if_neg h, if_neg (by simpa using h)]
    clear h
    induction n with
    | nil => rfl
    | cons l ls ih =>
      simp only [List.flatMap_cons, List.map_cons, lower_append, ih, lower_escLabel]
      rfl

theorem lowerByte_idem (b : UInt8) : lowerByte (lowerByte b) = lowerByte b := by
  exact byte_forall (fun b => lowerByte (lowerByte b) = lowerByte b) (by decide +kernel) b

theorem lower_idem (s : Str) : lower (lower s) = lower s := by
  simp [lower, lowerByte_idem]

theorem canon_idem (n : Name) : canon (canon n) = canon n := by
  simp [canon, lower_idem]

/-! Trailing backslashes -/

theorem trailing_even (l : Str) : ((escLabel l).reverse.takeWhile (· = 92)).length % 2 = 0 := by
  have key : ∀ r : Str, ((escLabel r.reverse).reverse.takeWhile (· = 92)).length % 2 = 0 := by
    intro r
    induction r with
    | nil => rfl
    | cons b bs ih =>
      have e : escLabel (b :: bs).reverse = escLabel bs.reverse ++ escByte b := by simp [escLabel]
      rw [e, List.reverse_append]
      rcases escByte_forms b with ⟨hm, h, _⟩ | ⟨_, x, y, z, h, _, _, hz, _⟩ | ⟨_, h, h92, _⟩
      · rw [h]
        by_cases hb : b = 92
        · subst hb
          simp only [List.reverse_cons, List.reverse_nil, List.nil_append, List.cons_append]
          rw [List.takeWhile_cons_of_pos (by simp), List.takeWhile_cons_of_pos (by simp)]
          simp only [List.length_cons]
          omega
        · simp [hb, List.takeWhile_cons]
      · rw [h]
        have : z ≠ 92 := by rintro rfl; simp [isDigit] at hz
        simp [this, List.takeWhile_cons]
      · rw [h]
        simp [h92, List.takeWhile_cons]
  have := key l.reverse
  rwa [List.reverse_reverse] at this

theorem takeWhile_append_stop {p : UInt8 → Bool} {a : Str} {c : UInt8} (h : p c = false) (b : Str) :
    (a ++ c :: b).takeWhile p = a.takeWhile p := by
  induction a with
  | nil => simp [List.takeWhile_cons, h]
  | cons x xs ih =>
    simp only [List.cons_append, List.takeWhile_cons, ih]

theorem present_snoc (n : Name) (l : Str) : present (n ++ [l]) = (n.flatMap fun l => escLabel l ++ [46]) ++ escLabel l ++ [46] := by
  simp [present]

theorem isFqdn_present (n : Name) : Blocklist.isFqdn (present n) = true := by
  rcases List.eq_nil_or_concat n with rfl | ⟨m, l, rfl⟩
  · rfl
  · rw [List.concat_eq_append, present_snoc]
    unfold Blocklist.isFqdn
    rw [List.reverse_append, List.reverse_append]
    simp only [List.reverse_cons, List.reverse_nil, List.nil_append, List.cons_append]
    rcases List.eq_nil_or_concat m with rfl | ⟨m', l', rfl⟩
    · simpa using trailing_even l
    · have : ∃ t, (List.flatMap (fun l => escLabel l ++ [46]) (m'.concat l')).reverse = 46 :: t := by
        rw [List.concat_eq_append, List.flatMap_append]
        simp
      obtain ⟨t, ht⟩ := this
      rw [ht, takeWhile_append_stop (by decide)]
      simpa using trailing_even l

theorem fqdn_present (n : Name) : Blocklist.fqdn (present n) = present n := by
  unfold Blocklist.fqdn; rw [if_pos (isFqdn_present n)]

theorem canonicalName_present (n : Name) : canonicalName (present n) = present (canon n) := by
  unfold canonicalName; rw [fqdn_present, lower_present]

/-! Raw labels -/

theorem rawLabels_byte (cur : Str) (b : UInt8) (rest : Str) : rawLabels cur (escByte b ++ rest) = rawLabels (cur ++ [b]) rest := by
  rcases escByte_forms b with ⟨hm, h, hd⟩ | ⟨_, x, y, z, h, hx, hy, hz, hv⟩ | ⟨_, h, h92, h46⟩
  · rw [h]
    match rest with
    | [] => simp [rawLabels]
    | [c] => simp [rawLabels]
    | c :: d :: cs => simp [rawLabels, hd]
  · rw [h]
    simp only [List.cons_append, List.nil_append]
    rw [rawLabels, if_pos (by simp [hx, hy, hz]), hv]
  · rw [h]
    simp only [List.cons_append, List.nil_append]
    rw [rawLabels, if_neg h46]
    all_goals (intros; simp_all)

theorem rawLabels_label (cur l rest : Str) : rawLabels cur (escLabel l ++ 46 :: rest) = (cur ++ l) :: rawLabels [] rest := by
  induction l generalizing cur with
  | nil =>
    have : escLabel [] = [] := rfl
    rw [this, List.nil_append, rawLabels, if_pos rfl, List.append_nil]
    all_goals simp
  | cons b bs ih =>
    have : escLabel (b :: bs) = escByte b ++ escLabel bs := rfl
    rw [this, List.append_assoc, rawLabels_byte, ih]
    simp

theorem rawLabels_names (n : Name) : rawLabels [] (n.flatMap fun l => escLabel l ++ [46]) = n := by
  induction n with
  | nil => rfl
  | cons l ls ih =>
    rw [List.flatMap_cons, List.append_assoc]
    have := rawLabels_label [] l (ls.flatMap fun l => escLabel l ++ [46])
    simp only [List.cons_append, List.nil_append] at *
    rw [this, ih]

theorem escByte_ne_nil (b : UInt8) : escByte b ≠ [] := by
  rcases escByte_forms b with ⟨_, h, _⟩ | ⟨_, x, y, z, h, _⟩ | ⟨_, h, _⟩ <;> simp [h]

theorem escLabel_ne_nil {l : Str} (h : l ≠ []) : escLabel l ≠ [] := by
  cases l with
  | nil => exact absurd rfl h
  | cons b bs =>
    have : escLabel (b :: bs) = escByte b ++ escLabel bs := rfl
    rw [this]; simp [escByte_ne_nil]

theorem present_root_iff {n : Name} (hw : WfName n) : present n = root ↔ n = [] := by
  constructor
  · intro h
    cases n with
    | nil => rfl
    | cons l ls =>
      exfalso
      have hl := escLabel_ne_nil (hw l (by simp))
      have := congrArg List.length h
      simp only [present, reduceCtorEq, if_false, List.flatMap_cons, List.length_append, List.length_cons, List.length_nil] at this
      have : (escLabel l).length ≠ 0 := by simpa using hl
      omega
  · rintro rfl; rfl

theorem lower_ne_nil {l : Str} (h : l ≠ []) : lower l ≠ [] := by simpa [lower] using h

theorem wf_canon {n : Name} (h : WfName n) : WfName (canon n) := by
  intro l hl
  obtain ⟨l', hl', rfl⟩ := List.mem_map.mp hl
  exact lower_ne_nil (h l' hl')

theorem canonicalLabels_present {n : Name} (hw : WfName n) : canonicalLabels (present n) = canon n := by
  unfold canonicalLabels
  rw [canonicalName_present]
  by_cases h : canon n = []
  · rw [h]; rfl
  · have : present (canon n) ≠ root := fun he => h ((present_root_iff (wf_canon hw)).mp he)
    simp only [this, if_false]
    unfold present
    rw [if_neg h, rawLabels_names]

theorem present_inj {a b : Name} (ha : WfName a) (hb : WfName b) (h : present a = present b) : a = b := by
  by_cases h1 : a = []
  · subst h1
    have : present b = root := h.symm
    exact ((present_root_iff hb).mp this).symm
  · by_cases h2 : b = []
    · subst h2
      exact absurd ((present_root_iff ha).mp h) h1
    · unfold present at h
      rw [if_neg h1, if_neg h2] at h
      rw [← rawLabels_names a, h, rawLabels_names]

/-! Labels as text -/

theorem splitUnescaped_ne_nil (e : Bool) (s : Str) : splitUnescaped e s ≠ [] := by
  cases s with
  | nil => simp [splitUnescaped]
  | cons c cs =>
    simp only [splitUnescaped]
    split
    · simp
    · split <;> simp

/-- `p` put in front of the first part -/
def onHead (p : Str) : List Str → List Str
  | [] => [p]
  | x :: xs => (p ++ x) :: xs

theorem splitUnescaped_cons {e : Bool} {c : UInt8} {cs : Str} (h : ¬ (c = 46 ∧ e = false)) :
    splitUnescaped e (c :: cs) = onHead [c] (splitUnescaped (c = 92 && !e) cs) := by
  rw [splitUnescaped, if_neg h]
  cases splitUnescaped (decide (c = 92) && !e) cs <;> rfl

theorem onHead_onHead (p q : Str) (l : List Str) : onHead p (onHead q l) = onHead (p ++ q) l := by
  cases l <;> simp [onHead]

theorem digit_ne {x : UInt8} (h : isDigit x = true) : x ≠ 92 ∧ x ≠ 46 := by
  constructor <;> rintro rfl <;> simp [isDigit] at h

theorem splitUnescaped_byte (b : UInt8) (rest : Str) :
    splitUnescaped false (escByte b ++ rest) = onHead (escByte b) (splitUnescaped false rest) := by
  rcases escByte_forms b with ⟨hm, h, hd⟩ | ⟨_, x, y, z, h, hx, hy, hz, hv⟩ | ⟨_, h, h92, h46⟩
  · rw [h]
    simp only [List.cons_append, List.nil_append]
    rw [splitUnescaped_cons (by simp), splitUnescaped_cons (by simp)]
    simp [onHead_onHead]
  · rw [h]
    simp only [List.cons_append, List.nil_append]
    have := digit_ne hx; have := digit_ne hy; have := digit_ne hz
    rw [splitUnescaped_cons (by simp), splitUnescaped_cons (by simp), splitUnescaped_cons (by simp [*]), splitUnescaped_cons (by simp [*])]
    simp [onHead_onHead, *]
  · rw [h]
    simp only [List.cons_append, List.nil_append]
    rw [splitUnescaped_cons (by simp [h46])]
    simp [h92]

theorem splitUnescaped_label (l rest : Str) :
    splitUnescaped false (escLabel l ++ rest) = onHead (escLabel l) (splitUnescaped false rest) := by
  induction l with
  | nil =>
    have : escLabel [] = [] := rfl
    rw [this, List.nil_append]
    cases h : splitUnescaped false rest with
    | nil => exact absurd h (splitUnescaped_ne_nil _ _)
    | cons => rfl
  | cons b bs ih =>
    have : escLabel (b :: bs) = escByte b ++ escLabel bs := rfl
    rw [this, List.append_assoc, splitUnescaped_byte, ih, onHead_onHead]

theorem splitUnescaped_names (n : Name) (l : Str) :
    splitUnescaped false ((n.flatMap fun l => escLabel l ++ [46]) ++ escLabel l) = n.map escLabel ++ [escLabel l] := by
  induction n with
  | nil =>
    have := splitUnescaped_label l []
    simp only [List.append_nil, splitUnescaped, onHead] at this
    simpa using this
  | cons x xs ih =>
    rw [List.flatMap_cons, List.append_assoc, List.append_assoc, splitUnescaped_label]
    rw [List.cons_append, List.nil_append, splitUnescaped, if_pos ⟨rfl, rfl⟩, ih]
    simp [onHead]

theorem splitName_present {n : Name} (hw : WfName n) : splitName (present n) = n.map escLabel := by
  unfold splitName
  by_cases h : n = []
  · subst h; rfl
  · rw [if_neg (fun he => h ((present_root_iff hw).mp he))]
    rcases List.eq_nil_or_concat n with rfl | ⟨m, l, rfl⟩
    · exact absurd rfl h
    · rw [List.concat_eq_append, present_snoc, List.dropLast_concat, splitUnescaped_names]
      simp

theorem countLabel_present {n : Name} (hw : WfName n) : countLabel (present n) = n.length := by
  unfold countLabel; rw [splitName_present hw]; simp

theorem escLabel_inj {a b : Str} (h : escLabel a = escLabel b) : a = b := by
  have h1 := rawLabels_label [] a []
  have h2 := rawLabels_label [] b []
  rw [h, h2] at h1
  simpa using h1.symm

theorem equalFold_escLabel (a b : Str) : equalFold (escLabel a) (escLabel b) = true ↔ lower a = lower b := by
  unfold equalFold
  rw [lower_escLabel, lower_escLabel, beq_iff_eq]
  exact ⟨escLabel_inj, fun h => by rw [h]⟩

theorem flatMap_joinWith {n : List Str} (h : n ≠ []) : (n.flatMap fun l => escLabel l ++ [46]) = joinWith 46 (n.map escLabel) ++ [46] := by
  induction n with
  | nil => exact absurd rfl h
  | cons x xs ih =>
    cases xs with
    | nil => simp [joinWith]
    | cons y ys =>
      rw [List.flatMap_cons, ih (by simp)]
      simp [joinWith]

theorem takeWhile_len_reverse_join {n : List Str} (h : n ≠ []) : ((joinWith 46 (n.map escLabel)).reverse.takeWhile (· = 92)).length % 2 = 0 := by
  rcases List.eq_nil_or_concat n with rfl | ⟨m, l, rfl⟩
  · exact absurd rfl h
  · by_cases hm : m = []
    · subst hm; simpa [joinWith] using trailing_even l
    · have e : joinWith 46 ((m.concat l).map escLabel) = (m.flatMap fun l => escLabel l ++ [46]) ++ escLabel l := by
        have h1 := flatMap_joinWith h
        rw [List.concat_eq_append, List.flatMap_append] at h1
        simp only [List.flatMap_cons, List.flatMap_nil, List.append_nil] at h1
        rw [← List.append_assoc] at h1
        rw [List.concat_eq_append]
        exact (List.append_cancel_right h1).symm
      rw [e, List.reverse_append, flatMap_joinWith hm, List.reverse_append]
      simp only [List.reverse_cons, List.reverse_nil, List.nil_append, List.cons_append]
      rw [takeWhile_append_stop (by decide)]
      exact trailing_even l

theorem trailing_escLabel_dot (l : Str) (rest : Str) : escLabel l ≠ rest ++ [46] ∨ ∃ t, rest = t ++ [92] := by
  rcases List.eq_nil_or_concat l with rfl | ⟨m, b, rfl⟩
  · left; simp [escLabel]
  · rw [List.concat_eq_append]
    have e : escLabel (m ++ [b]) = escLabel m ++ escByte b := by simp [escLabel]
    rw [e]
    rcases escByte_forms b with ⟨hm, h, hd⟩ | ⟨_, x, y, z, h, hx, hy, hz, hv⟩ | ⟨_, h, h92, h46⟩
    · rw [h]
      by_cases heq : escLabel m ++ [92, b] = rest ++ [46]
      · right
        have e2 : escLabel m ++ [92, b] = (escLabel m ++ [92]) ++ [b] := by simp
        rw [e2] at heq
        have := List.append_inj' heq rfl
        exact ⟨escLabel m, this.1.symm⟩
      · exact .inl heq
    · left; rw [h]; intro heq
      have e2 : escLabel m ++ [92, x, y, z] = (escLabel m ++ [92, x, y]) ++ [z] := by simp
      rw [e2] at heq
      have := (List.append_inj' heq rfl).2
      exact (digit_ne hz).2 (by simpa using this)
    · left; rw [h]; intro heq
      have := (List.append_inj' heq rfl).2
      exact h46 (by simpa using this)

theorem joinWith_last {m : List Str} {l : Str} : ∃ p, joinWith 46 ((m ++ [l]).map escLabel) = p ++ escLabel l ∧ (p = [] ∨ ∃ t, p = t ++ [46]) := by
  induction m with
  | nil => exact ⟨[], by simp [joinWith], .inl rfl⟩
  | cons x xs ih =>
    obtain ⟨p, hp, hp'⟩ := ih
    refine ⟨escLabel x ++ 46 :: p, ?_, ?_⟩
    · have : ((x :: xs ++ [l]).map escLabel) = escLabel x :: ((xs ++ [l]).map escLabel) := rfl
      rw [this]
      cases hx : (xs ++ [l]).map escLabel with
      | nil => simp at hx
      | cons y ys => rw [hx] at hp; simp [joinWith, hp]
    · right
      rcases hp' with rfl | ⟨t, rfl⟩
      · exact ⟨escLabel x, by simp⟩
      · exact ⟨escLabel x ++ 46 :: t, by simp⟩

/-- Adding the final dot to labels that were taken from a name: the last label does not end in an unescaped dot -/
theorem isFqdn_join {n : Name} (h : n ≠ []) (hw : WfName n) : Blocklist.isFqdn (joinWith 46 (n.map escLabel)) = false := by
  rcases List.eq_nil_or_concat n with rfl | ⟨m, l, rfl⟩
  · exact absurd rfl h
  · rw [List.concat_eq_append] at hw ⊢
    have hl : l ≠ [] := hw l (by simp)
    rcases List.eq_nil_or_concat l with rfl | ⟨l', b, rfl⟩
    · exact absurd rfl hl
    · obtain ⟨p, hp, -⟩ := @joinWith_last m (l'.concat b)
      rw [hp, List.concat_eq_append]
      have e : escLabel (l' ++ [b]) = escLabel l' ++ escByte b := by simp [escLabel]
      rw [e]
      unfold Blocklist.isFqdn
      rcases escByte_forms b with ⟨hm, h, hd⟩ | ⟨_, x, y, z, h, hx, hy, hz, hv⟩ | ⟨_, h, h92, h46⟩
      · rw [h]
        by_cases hb : b = 46
        · subst hb
          simp only [List.reverse_append, List.reverse_cons, List.reverse_nil, List.nil_append, List.cons_append]
          rw [List.takeWhile_cons_of_pos (by simp)]
          simp only [List.length_cons, decide_eq_false_iff_not]
          have h2 : ((escLabel l').reverse ++ p.reverse).takeWhile (· = 92) = (escLabel l').reverse.takeWhile (· = 92) ∨ True := .inr trivial
          have := @takeWhile_len_reverse_join (m ++ [l']) (by simp)
          obtain ⟨p', hp', hpp⟩ := @joinWith_last m l'
          -- the text before the escaped byte is the join of the same labels with the last one cut short
          have hpe : p' = p := by
            obtain ⟨q, hq, _⟩ := @joinWith_last m (l'.concat 46)
            clear h2
            have a1 : joinWith 46 ((m ++ [l'.concat 46]).map escLabel) = joinWith 46 ((m ++ [l']).map escLabel) ++ [92, 46] := by
              have : ∀ k : List Str, joinWith 46 ((k ++ [l'.concat 46]).map escLabel) = joinWith 46 ((k ++ [l']).map escLabel) ++ [92, 46] := by
                intro k
                induction k with
                | nil => simp [joinWith, List.concat_eq_append, e, h]
                | cons y ys ihy =>
                  have a : ((y :: ys ++ [l'.concat 46]).map escLabel) = escLabel y :: ((ys ++ [l'.concat 46]).map escLabel) := rfl
                  have b : ((y :: ys ++ [l']).map escLabel) = escLabel y :: ((ys ++ [l']).map escLabel) := rfl
                  rw [a, b]
                  cases hx : (ys ++ [l'.concat 46]).map escLabel with
                  | nil => simp at hx
                  | cons u us =>
                    cases hx' : (ys ++ [l']).map escLabel with
                    | nil => simp at hx'
                    | cons v vs =>
                      rw [hx, hx'] at ihy
                      simp [joinWith, ihy]
              exact this m
            rw [hp, hp', List.concat_eq_append, e, h] at a1
            have a2 : p ++ (escLabel l' ++ [92, 46]) = (p ++ escLabel l') ++ [92, 46] := by simp
            rw [a2] at a1
            exact (List.append_cancel_right (List.append_cancel_right a1)).symm
          subst hpe
          rw [hp', List.reverse_append] at this
          have : ∀ k : Nat, k % 2 = 0 → ¬ (k + 1) % 2 = 0 := by omega
          apply this
          assumption
        · simp [hb]
      · rw [h]
        have := (digit_ne hz).2
        simp [this]
      · rw [h]; simp [h46]

theorem fqdn_join {n : Name} (h : n ≠ []) (hw : WfName n) : Blocklist.fqdn (joinWith 46 (n.map escLabel)) = present n := by
  unfold Blocklist.fqdn
  rw [isFqdn_join h hw]
  simp only [Bool.false_eq_true, if_false]
  unfold present
  rw [if_neg h, flatMap_joinWith h]

theorem lastNLabels_present {n : Name} (hw : WfName n) (hc : canon n = n) (k : Nat) :
    lastNLabels (present n) k = present (n.drop (n.length - k)) := by
  unfold lastNLabels
  by_cases h : k = 0
  · subst h; simp [present]
  · rw [if_neg h, splitName_present hw]
    simp only [List.length_map]
    by_cases h2 : k ≥ n.length
    · rw [if_pos h2, canonicalName_present, hc]
      have : n.length - k = 0 := by omega
      simp [this]
    · rw [if_neg h2, ← List.map_drop, fqdn_join]
      · intro he
        have := congrArg List.length he
        simp only [List.length_drop, List.length_nil] at this
        omega
      · intro l hl
        exact hw l (List.mem_of_mem_drop hl)

/-! Common labels -/

/-- The length of the common prefix of two lists -/
def lcp : List Str → List Str → Nat
  | a :: as, b :: bs => if a = b then lcp as bs + 1 else 0
  | _, _ => 0

theorem commonPrefix_esc (a b : List Str) : commonPrefix (a.map escLabel) (b.map escLabel) = lcp (canon a) (canon b) := by
  induction a generalizing b with
  | nil => simp [commonPrefix, lcp, canon]
  | cons x xs ih =>
    cases b with
    | nil => simp [commonPrefix, lcp, canon]
    | cons y ys =>
      have := ih ys
      simp only [List.map_cons, commonPrefix, canon, lcp]
      by_cases h : lower x = lower y
      · rw [if_pos ((equalFold_escLabel x y).mpr h), if_pos h, this]; rfl
      · rw [if_neg (fun hh => h ((equalFold_escLabel x y).mp hh)), if_neg h]

theorem compareName_present {a b : Name} (ha : WfName a) (hb : WfName b) :
    compareName (present a) (present b) = lcp (canon a).reverse (canon b).reverse := by
  unfold compareName
  rw [splitName_present ha, splitName_present hb, ← List.map_reverse, ← List.map_reverse, commonPrefix_esc]
  simp [canon]

theorem lcp_le_left (a b : List Str) : lcp a b ≤ a.length := by
  induction a generalizing b with
  | nil => simp [lcp]
  | cons x xs ih =>
    cases b with
    | nil => simp [lcp]
    | cons y ys =>
      simp only [lcp]
      split
      · have := ih ys; simp only [List.length_cons]; omega
      · omega

theorem lcp_comm (a b : List Str) : lcp a b = lcp b a := by
  induction a generalizing b with
  | nil => cases b <;> simp [lcp]
  | cons x xs ih =>
    cases b with
    | nil => simp [lcp]
    | cons y ys =>
      simp only [lcp, ih ys]
      by_cases h : x = y
      · simp [h]
      · simp [h, Ne.symm h]

theorem lcp_take (a b : List Str) : a.take (lcp a b) = b.take (lcp a b) := by
  induction a generalizing b with
  | nil => simp [lcp]
  | cons x xs ih =>
    cases b with
    | nil => simp [lcp]
    | cons y ys =>
      simp only [lcp]
      split
      · rename_i h; subst h; simp [ih ys]
      · simp

theorem le_lcp {a b : List Str} {k : Nat} (h1 : k ≤ a.length) (h2 : a.take k = b.take k) : k ≤ lcp a b := by
  induction a generalizing b k with
  | nil => simp only [List.length_nil] at h1; omega
  | cons x xs ih =>
    cases k with
    | zero => omega
    | succ k =>
      cases b with
      | nil => simp at h2
      | cons y ys =>
        simp only [List.take_succ_cons, List.cons.injEq] at h2
        simp only [lcp, h2.1, if_true]
        have := ih (by simpa using h1) h2.2
        omega

theorem lcp_prefix_iff {a b : List Str} : lcp a b = a.length ↔ a <+: b := by
  constructor
  · intro h
    have := lcp_take a b
    rw [h, List.take_length] at this
    rw [List.prefix_iff_eq_take]; exact this
  · rintro ⟨t, rfl⟩
    have h1 := lcp_le_left a (a ++ t)
    have h2 := @le_lcp a (a ++ t) a.length (Nat.le_refl _) (by simp)
    omega

theorem isSubDomain_present {a b : Name} (ha : WfName a) (hb : WfName b) :
    isSubDomain (present a) (present b) = true ↔ AncestorOrSelf a b := by
  unfold isSubDomain AncestorOrSelf
  rw [compareName_present ha hb, countLabel_present ha, decide_eq_true_iff]
  have : a.length = (canon a).reverse.length := by simp [canon]
  rw [this, lcp_prefix_iff, List.reverse_prefix]

end Verif.Dnssec
