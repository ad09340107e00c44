import Verif.Model.Location
import Verif.Spec.Location
import Verif.Lemmas.Str
/-
C69: lists of locations and autonomous systems; C70: their database files while lists are reloaded.
-/
set_option linter.unusedVariables false
set_option linter.unusedSimpArgs false
namespace Verif.Props.Location
open Verif Verif.Location Verif.Spec.Location
open Verif.Validate (isDigit decimal)

/-! ### Lines -/
private theorem isSpace_iff (c : UInt8) : isSpace c = true ↔ (c = 32 ∨ (9 ≤ c ∧ c ≤ 13)) := by
  simp [isSpace]

private theorem dropWhile_white {w s : Str} (h : White w) : (w ++ s).dropWhile isSpace = s.dropWhile isSpace := by
  induction w with
  | nil => rfl
  | cons c w ih =>
    have hc := (isSpace_iff c).mpr (h c (by simp))
    rw [List.cons_append, List.dropWhile_cons_of_pos hc]
    exact ih (fun x hx => h x (by simp [hx]))

private theorem white_split (s : Str) : ∃ w, White w ∧ s = w ++ s.dropWhile isSpace := by
  refine ⟨s.takeWhile isSpace, ?_, (List.takeWhile_append_dropWhile).symm⟩
  intro c hc
  have : ∀ l : Str, c ∈ l.takeWhile isSpace → isSpace c = true := by
    intro l
    induction l with
    | nil => intro h; simp at h
    | cons x l ih =>
      intro h
      by_cases hx : isSpace x = true
      · rw [List.takeWhile_cons_of_pos hx] at h
        rcases List.mem_cons.mp h with rfl | h
        · exact hx
        · exact ih h
      · rw [List.takeWhile_cons_of_neg hx] at h; simp at h
  exact (isSpace_iff c).mp (this s hc)

private theorem trim_right (s : Str) : ∃ w2, White w2 ∧ s.dropWhile isSpace = trimSpace s ++ w2 := by
  obtain ⟨w2, h2, e2⟩ := white_split (s.dropWhile isSpace).reverse
  refine ⟨w2.reverse, fun c hc => h2 c (by simpa using hc), ?_⟩
  have := congrArg List.reverse e2
  rw [List.reverse_reverse, List.reverse_append] at this
  exact this

private theorem trim_split (s : Str) : ∃ w1 w2, White w1 ∧ White w2 ∧ s = w1 ++ trimSpace s ++ w2 := by
  obtain ⟨w1, h1, e1⟩ := white_split s
  obtain ⟨w2, h2, e2⟩ := trim_right s
  refine ⟨w1, w2, h1, h2, ?_⟩
  rw [List.append_assoc, ← e2]; exact e1

/-- white space around something that neither starts nor ends with white space is exactly what is removed -/
private theorem trim_mid {w1 d w2 : Str} (h1 : White w1) (h2 : White w2) (hh : ∀ c, d.head? = some c → isSpace c = false)
    (hl : ∀ c, d.getLast? = some c → isSpace c = false) : trimSpace (w1 ++ d ++ w2) = d := by
  have key : ∀ (x w : Str), White w → (∀ c, x.head? = some c → isSpace c = false) → ∀ r, x = r → (w ++ x).dropWhile isSpace = r := by
    intro x w hw hx r hr
    rw [dropWhile_white hw, ← hr]
    cases x with
    | nil => rfl
    | cons c cs => rw [List.dropWhile_cons_of_neg]; rw [hx c rfl]; simp
  unfold trimSpace
  cases d with
  | nil =>
    have hw : White (w1 ++ [] ++ w2) := by
      intro c hc; simp only [List.append_nil, List.mem_append] at hc; rcases hc with hc | hc
      · exact h1 c hc
      · exact h2 c hc
    have := key [] (w1 ++ [] ++ w2) hw (by simp) [] rfl
    rw [List.append_nil] at this
    rw [this]; rfl
  | cons c cs =>
    rw [List.append_assoc, key ((c :: cs) ++ w2) w1 h1 (by intro x hx; exact hh x (by simpa using hx)) _ rfl]
    rw [List.reverse_append, key (c :: cs).reverse w2.reverse (fun x hx => h2 x (by simpa using hx))
      (by intro x hx; rw [List.head?_reverse] at hx; exact hl x hx) _ rfl, List.reverse_reverse]

private theorem drop_mid {w d : Str} {x : UInt8} (h : White w) (hx : isSpace x = false) : (w ++ x :: d).dropWhile isSpace = x :: d := by
  rw [dropWhile_white h, List.dropWhile_cons_of_neg (by simp [hx])]

private theorem not_white {w : Str} {x : UInt8} (h : White w) (hx : isSpace x = false) : x ∉ w := by
  intro hm
  have := (isSpace_iff x).mpr (h x hm)
  rw [hx] at this; cases this

/-- what is left starts with the first character that is not white -/
private theorem trim_keeps {w d : Str} {x : UInt8} (h : White w) (hx : isSpace x = false) :
    ∃ w2, White w2 ∧ x :: d = trimSpace (w ++ x :: d) ++ w2 ∧ (trimSpace (w ++ x :: d)).head? = some x := by
  obtain ⟨w2, h2, e2⟩ := trim_right (w ++ x :: d)
  rw [drop_mid h hx] at e2
  refine ⟨w2, h2, e2, ?_⟩
  cases ht : trimSpace (w ++ x :: d) with
  | nil =>
    rw [ht] at e2
    exact absurd (show x ∈ w2 by rw [List.nil_append] at e2; rw [← e2]; simp) (not_white h2 hx)
  | cons y t => rw [ht] at e2; simp only [List.cons_append, List.cons.injEq] at e2; rw [e2.1]; rfl

private theorem decimal_eq (s : Str) : decimal s = valueOf s := by
  have : ∀ (s : Str) (n : Nat), s.foldl (fun n c => 10 * n + (c.toNat - 48)) n = n * 10 ^ s.length + valueOf s := by
    intro s
    induction s with
    | nil => intro n; simp [valueOf]
    | cons c s ih =>
      intro n
      rw [List.foldl_cons, ih]
      simp only [valueOf, List.length_cons, Nat.pow_succ]
      rw [Nat.add_mul, Nat.mul_comm 10 n, Nat.mul_assoc, Nat.mul_comm 10, Nat.add_assoc]
  unfold decimal
  rw [this]; simp

private theorem parse_iff (s : Str) (n : Nat) : parseUint64 s = some n ↔ Numeral s n := by
  unfold parseUint64 Numeral
  rw [decimal_eq]
  have hd : s.all isDigit = true ↔ ∀ c ∈ s, 48 ≤ c ∧ c ≤ 57 := by simp [isDigit]
  simp only [hd]
  split
  · rename_i h
    simp only [Option.some.injEq]
    constructor
    · rintro rfl; exact ⟨h.1, h.2.1, rfl, by simpa using h.2.2⟩
    · exact fun h => h.2.2.1
  · rename_i h
    simp only [reduceCtorEq, false_iff]
    rintro ⟨h1, h2, rfl, h4⟩
    exact h ⟨h1, h2, by simpa using h4⟩

private theorem head_splitOn (s : Str) : (splitOn 35 s).headD [] = s.takeWhile (· ≠ 35) := by
  induction s with
  | nil => rfl
  | cons c s ih =>
    simp only [splitOn]
    by_cases hc : c = 35
    · rw [if_pos hc, List.takeWhile_cons_of_neg (by simp [hc])]; rfl
    · rw [if_neg hc, List.takeWhile_cons_of_pos (by simp [hc]), ← ih]
      cases splitOn 35 s <;> rfl

private theorem takeWhile_all {p : Str} (h : (35 : UInt8) ∉ p) : p.takeWhile (· ≠ 35) = p := by
  induction p with
  | nil => rfl
  | cons c p ih =>
    simp only [List.mem_cons, not_or] at h
    rw [List.takeWhile_cons_of_pos (by simpa using Ne.symm h.1), ih h.2]

private theorem takeWhile_hash {p r : Str} (h : (35 : UInt8) ∉ p) : (p ++ 35 :: r).takeWhile (· ≠ 35) = p := by
  induction p with
  | nil => rfl
  | cons c p ih =>
    simp only [List.mem_cons, not_or] at h
    rw [List.cons_append, List.takeWhile_cons_of_pos (by simpa using Ne.symm h.1), ih h.2]

private theorem cut_hash (s : Str) : s.takeWhile (· ≠ 35) = s ∧ 35 ∉ s ∨ ∃ r, s = s.takeWhile (· ≠ 35) ++ 35 :: r := by
  induction s with
  | nil => exact Or.inl ⟨rfl, by simp⟩
  | cons c s ih =>
    by_cases hc : c = 35
    · subst hc; exact Or.inr ⟨s, by rw [List.takeWhile_cons_of_neg (by simp)]; rfl⟩
    · rw [List.takeWhile_cons_of_pos (by simp [hc])]
      rcases ih with ⟨h1, h2⟩ | ⟨r, h⟩
      · exact Or.inl ⟨by rw [h1], by simp [h2, Ne.symm hc]⟩
      · exact Or.inr ⟨r, by rw [List.cons_append, ← h]⟩

private theorem hash_not_space : isSpace 35 = false := by decide

private theorem blank_iff (r : Str) : ((trimSpace r).head? = some 35 ∨ trimSpace r = []) ↔ Blank r := by
  constructor
  · intro h
    obtain ⟨w1, w2, h1, h2, e⟩ := trim_split r
    rcases h with h | h
    · cases ht : trimSpace r with
      | nil => rw [ht] at h; simp at h
      | cons x t =>
        rw [ht] at h e; simp at h; subst h
        exact Or.inr ⟨w1, t ++ w2, h1, by rw [e]; simp⟩
    · rw [h] at e
      refine Or.inl ?_
      rw [e]
      intro c hc; simp only [List.append_nil, List.mem_append] at hc; rcases hc with hc | hc
      · exact h1 c hc
      · exact h2 c hc
  · rintro (h | ⟨w, c, hw, rfl⟩)
    · right
      have := trim_mid (w1 := r) (d := []) (w2 := []) h (by intro c hc; simp at hc) (by simp) (by simp)
      simpa using this
    · left
      obtain ⟨w2, -, -, h⟩ := trim_keeps (d := c) hw hash_not_space
      exact h

private theorem digit_not_space {c : UInt8} (h : 48 ≤ c ∧ c ≤ 57) : isSpace c = false := by
  rw [← Bool.not_eq_true, isSpace_iff]
  rintro (rfl | ⟨h1, h2⟩)
  · exact absurd h.1 (by decide)
  · have : c.toNat ≤ 13 := h2
    have : 48 ≤ c.toNat := h.1
    omega

private theorem says_iff (r : Str) (n : Nat) : parseUint64 (trimSpace ((splitOn 35 (trimSpace r)).headD [])) = some n ↔ Says r n := by
  rw [parse_iff, head_splitOn]
  constructor
  · intro h
    obtain ⟨w1, w2, h1, h2, e⟩ := trim_split r
    obtain ⟨a, b, ha, hb, e2⟩ := trim_split ((trimSpace r).takeWhile (· ≠ 35))
    refine ⟨w1 ++ a, trimSpace ((trimSpace r).takeWhile (· ≠ 35)), ?_⟩
    have hwa : White (w1 ++ a) := by
      intro c hc; rcases List.mem_append.mp hc with hc | hc
      · exact h1 c hc
      · exact ha c hc
    rcases cut_hash (trimSpace r) with ⟨h3, -⟩ | ⟨c, h3⟩
    · refine ⟨b ++ w2, hwa, ?_, h, Or.inl ?_⟩
      · intro c hc; rcases List.mem_append.mp hc with hc | hc
        · exact hb c hc
        · exact h2 c hc
      · conv => lhs; rw [e, ← h3, e2]
        simp
    · refine ⟨b, hwa, hb, h, Or.inr ⟨c ++ w2, ?_⟩⟩
      conv => lhs; rw [e, h3, e2]
      simp
  · rintro ⟨w1, d, w2, h1, h2, hd, h⟩
    have hsp : ∀ c ∈ d, isSpace c = false := fun c hc => digit_not_space (hd.2.1 c hc)
    have h35 : (35 : UInt8) ∉ d := fun hm => absurd (hd.2.1 35 hm).1 (by decide)
    have h35' : (35 : UInt8) ∉ w2 := not_white h2 hash_not_space
    have hmid : ∀ {a b : Str}, White a → White b → trimSpace (a ++ d ++ b) = d := fun ha hb =>
      trim_mid ha hb (fun c hc => hsp c (List.mem_of_mem_head? hc)) (fun c hc => hsp c (List.mem_of_getLast? hc))
    have hnil : White ([] : Str) := by intro c hc; simp at hc
    have htd : trimSpace (d ++ w2) = d := by have := hmid hnil h2; simpa using this
    rcases h with rfl | ⟨c, rfl⟩
    · rw [hmid h1 h2, takeWhile_all h35]
      have := hmid hnil hnil
      simp only [List.nil_append, List.append_nil] at this
      rw [this]; exact hd
    · obtain ⟨x, d', rfl⟩ := List.exists_cons_of_ne_nil hd.1
      obtain ⟨w3, h3, e3, -⟩ := trim_keeps (d := d' ++ w2 ++ 35 :: c) h1 (hsp x (by simp))
      have e4 : w1 ++ x :: d' ++ w2 ++ 35 :: c = w1 ++ x :: (d' ++ w2 ++ 35 :: c) := by simp
      rw [e4]
      generalize trimSpace (w1 ++ x :: (d' ++ w2 ++ 35 :: c)) = t at e3 ⊢
      have hnot : (35 : UInt8) ∉ (x :: d') ++ w2 := by
        intro hm; rcases List.mem_append.mp hm with hm | hm
        · exact h35 hm
        · exact h35' hm
      have ht : t.takeWhile (· ≠ 35) = (x :: d') ++ w2 := by
        have e5 : ((x :: d') ++ w2) ++ 35 :: c = t ++ w3 := by rw [← e3]; simp
        rcases cut_hash t with ⟨h6, h7⟩ | ⟨r, h6⟩
        · have hm : (35 : UInt8) ∈ t ++ w3 := by rw [← e5]; simp
          rcases List.mem_append.mp hm with hm | hm
          · exact absurd hm h7
          · exact absurd hm (not_white h3 hash_not_space)
        · have h8 : (35 : UInt8) ∉ t.takeWhile (· ≠ 35) := by
            intro hm
            have : ∀ l : Str, (35 : UInt8) ∉ l.takeWhile (· ≠ 35) := by
              intro l
              induction l with
              | nil => simp
              | cons y l ih =>
                by_cases hy : y = 35
                · rw [List.takeWhile_cons_of_neg (by simp [hy])]; simp
                · rw [List.takeWhile_cons_of_pos (by simp [hy])]; rw [List.mem_cons, not_or]; exact ⟨Ne.symm hy, ih⟩
            exact this t hm
          have e7 : ((x :: d') ++ w2 ++ 35 :: c).takeWhile (· ≠ 35) = (t.takeWhile (· ≠ 35) ++ 35 :: (r ++ w3)).takeWhile (· ≠ 35) := by
            rw [e5]; congr 1; conv => lhs; rw [h6]
            simp
          rw [takeWhile_hash hnot, takeWhile_hash h8] at e7
          exact e7.symm
      rw [ht, htd]; exact hd

/-- **C69 (rules).** A list is refused exactly if some line is neither blank (white space, a comment) nor a number; otherwise it
stands for exactly the numbers of its lines. -/
theorem ids_loaded (lines : List Str) :
    (loadIds lines = none ↔ ∃ l ∈ lines, ¬ Blank l ∧ ¬ ∃ n, Says l n) ∧
    (∀ ids, loadIds lines = some ids → ∀ n, n ∈ ids ↔ ∃ l ∈ lines, ¬ Blank l ∧ Says l n) := by
  induction lines with
  | nil => exact ⟨by simp [loadIds], by intro ids h; simp [loadIds] at h; subst h; simp⟩
  | cons l ls ih =>
    simp only [loadIds]
    by_cases hb : Blank l
    · rw [if_pos ((blank_iff l).mpr hb)]
      refine ⟨by rw [ih.1]; simp [hb], ?_⟩
      intro ids h n
      rw [ih.2 ids h n]; simp [hb]
    · rw [if_neg (fun h => hb ((blank_iff l).mp h))]
      cases hp : parseUint64 (trimSpace ((splitOn 35 (trimSpace l)).headD [])) with
      | none =>
        refine ⟨iff_of_true rfl ⟨l, by simp, hb, ?_⟩, by intro ids h; simp at h⟩
        rintro ⟨n, h⟩
        rw [← says_iff, hp] at h; cases h
      | some v =>
        have hv : ∀ n, Says l n ↔ v = n := by intro n; rw [← says_iff, hp]; simp
        refine ⟨?_, ?_⟩
        · simp only [Option.map_eq_none_iff, ih.1]
          constructor
          · rintro ⟨x, hx, h⟩; exact ⟨x, by simp [hx], h⟩
          · rintro ⟨x, hx, h⟩
            rcases List.mem_cons.mp hx with rfl | hx
            · exact absurd ⟨v, (hv v).mpr rfl⟩ h.2
            · exact ⟨x, hx, h⟩
        · intro ids h n
          obtain ⟨ids', h1, rfl⟩ := Option.map_eq_some_iff.mp h
          rw [List.mem_cons, ih.2 ids' h1 n]
          constructor
          · rintro (rfl | ⟨x, hx, h⟩)
            · exact ⟨l, by simp, hb, (hv _).mpr rfl⟩
            · exact ⟨x, by simp [hx], h⟩
          · rintro ⟨x, hx, h⟩
            rcases List.mem_cons.mp hx with rfl | hx
            · exact Or.inl ((hv n).mp h.2).symm
            · exact Or.inr ⟨x, hx, h⟩

/-- A line with a number is not blank (so the condition in `ids_loaded` is no loss), and has one number only. -/
theorem says_not_blank (l : Str) (n : Nat) (h : Says l n) : ¬ Blank l ∧ ∀ m, Says l m → m = n := by
  refine ⟨?_, ?_⟩
  · intro hb
    obtain ⟨w1, d, w2, h1, h2, hd, h⟩ := h
    obtain ⟨x, d', rfl⟩ := List.exists_cons_of_ne_nil hd.1
    have hx := hd.2.1 x (by simp)
    have hl : ∃ r, l = w1 ++ x :: r := by
      rcases h with rfl | ⟨c, rfl⟩
      · exact ⟨d' ++ w2, by simp⟩
      · exact ⟨d' ++ w2 ++ 35 :: c, by simp⟩
    obtain ⟨r, rfl⟩ := hl
    obtain ⟨w3, -, -, h4⟩ := trim_keeps (d := r) h1 (digit_not_space hx)
    rcases (blank_iff _).mpr hb with h5 | h5
    · rw [h4] at h5
      have : x = 35 := Option.some.inj h5
      rw [this] at hx; exact absurd hx.1 (by decide)
    · rw [h5] at h4; simp at h4
  · intro m hm
    rw [← says_iff] at h hm
    rw [h] at hm; exact (Option.some.inj hm).symm

/-- **C69 (locations).** An address matches exactly if the database has a record for it with a continent, country, city or
subdivision on the list; the rule named is one of them and on the list. An address the database fails on is not matched. -/
theorem geo_match {α : Type} (db : List Nat) (find : α → Option Place) (ip : α) :
    ((matchGeo db find ip).isSome = true ↔
      ∃ p, find ip = some p ∧ ∃ id ∈ db, id = p.continent ∨ id = p.country ∨ id = p.city ∨ id ∈ p.subdivisions) ∧
    (∀ id, matchGeo db find ip = some id → id ∈ db ∧
      ∃ p, find ip = some p ∧ (id = p.continent ∨ id = p.country ∨ id = p.city ∨ id ∈ p.subdivisions)) := by
  unfold matchGeo
  cases hf : find ip with
  | none => simp
  | some p =>
    simp only [Option.some.injEq, exists_eq_left']
    constructor
    · rw [List.find?_isSome]
      constructor
      · rintro ⟨x, hx, h⟩
        simp only [List.contains_eq_mem, decide_eq_true_eq] at h
        exact ⟨x, h, by simpa [or_assoc] using hx⟩
      · rintro ⟨x, hx, h⟩
        exact ⟨x, by simpa [or_assoc] using h, by simpa using hx⟩
    · intro id h
      have h1 := List.find?_some h
      have h2 := List.mem_of_find?_eq_some h
      exact ⟨by simpa using h1, by simpa [or_assoc] using h2⟩

/-- **C69 (autonomous systems).** -/
theorem asn_match {α : Type} (db : List Nat) (find : α → Option Nat) (ip : α) (n : Nat) :
    matchAsn db find ip = some n ↔ find ip = some n ∧ n ∈ db := by
  unfold matchAsn
  cases find ip with
  | none => simp
  | some m =>
    simp only [List.contains_eq_mem, decide_eq_true_eq, Option.some.injEq]
    split
    · rename_i h; simp only [Option.some.injEq]
      constructor
      · rintro rfl; exact ⟨rfl, h⟩
      · exact fun h => h.1
    · rename_i h; simp only [reduceCtorEq, false_iff]; rintro ⟨rfl, h2⟩; exact h h2

/-- A rule `0` matches every address for which the database lacks the continent, the country or the city. -/
theorem geo_zero_matches {α : Type} (db : List Nat) (find : α → Option Place) (ip : α) (p : Place) (h0 : 0 ∈ db)
    (hf : find ip = some p) (hp : p.continent = 0 ∨ p.country = 0 ∨ p.city = 0) : (matchGeo db find ip).isSome = true := by
  rw [(geo_match db find ip).1]
  exact ⟨p, hf, 0, h0, by omega⟩

example : Says (str " 0042\t# Antarctica") 42 ∧ Blank (str "  # only 7") ∧ Blank [] ∧ ¬ Blank (str "x") := by
  refine ⟨⟨str " ", str "0042", str "\t", by unfold White; decide, by unfold White; decide, ⟨by decide, by decide, by decide, by decide⟩, Or.inr ⟨str " Antarctica", by decide⟩⟩,
    Or.inr ⟨str "  ", str " only 7", by unfold White; decide, by decide⟩, Or.inl (by unfold White; decide), ?_⟩
  rw [← blank_iff]; decide

example : loadIds [str " 0042\t# Antarctica", str "#7", [], str "6255148"] = some [42, 6255148] ∧ loadIds [str "1", str "EU"] = none := by
  decide

example : matchGeo (α := Unit) [42, 6255148] (fun _ => some { continent := 6255148, country := 5, city := 0, subdivisions := [9] }) () = some 6255148 := by
  decide

/-! ### C70: databases opened and closed -/

/-- databases in the hands of the refresh loop -/
private def pending : Refresh → List Nat
  | .sleeping => []
  | .reloading opened _ => opened
  | .swapping new => new
  | .closing old => old

private structure Inv (s : Sys) : Prop where
  opened : s.isOpen.Perm (s.current ++ (pending s.refresh ++ s.lost))
  nodup : s.isOpen.Nodup
  fresh : ∀ d ∈ s.isOpen, d < s.next
  sizes : s.current.length = s.size
  newSize : ∀ new, s.refresh = .swapping new → new.length = s.size
  pendSize : (pending s.refresh).length ≤ s.size
  readers : ∀ r ∈ s.readers, ∀ d ∈ r.todo, d ∈ s.current
  good : s.usedClosed = false

private theorem start_inv (n : Nat) : Inv (start n) where
  opened := by simp [start, pending]
  nodup := List.nodup_range
  fresh := by intro d hd; simpa [start] using hd
  sizes := by simp [start]
  newSize := by intro new h; simp [start] at h
  pendSize := by simp [start, pending]
  readers := by intro r hr; simp [start] at hr
  good := rfl

private theorem step_inv {s s' : Sys} (h : Inv s) (e : Ev) (hs : step s e = some s') : Inv s' ∧ s'.size = s.size := by
  cases e with
  | matchBegin =>
    simp only [step, Option.some.injEq] at hs; subst hs
    refine ⟨⟨h.opened, h.nodup, h.fresh, h.sizes, h.newSize, h.pendSize, ?_, h.good⟩, rfl⟩
    intro r hr d hd
    rcases List.mem_append.mp hr with hr | hr
    · exact h.readers r hr d hd
    · simp only [List.mem_singleton] at hr; subst hr; exact hd
  | look i hit =>
    simp only [step] at hs
    split at hs
    · rename_i d rest hi
      simp only [Option.some.injEq] at hs; subst hs
      have hmem := List.mem_of_getElem? hi
      have hd : d ∈ s.isOpen := h.opened.mem_iff.mpr (by simp [h.readers _ hmem d (by simp)])
      refine ⟨⟨h.opened, h.nodup, h.fresh, h.sizes, h.newSize, h.pendSize, ?_, ?_⟩, rfl⟩
      · intro r hr x hx
        rcases List.mem_or_eq_of_mem_set hr with hr | rfl
        · exact h.readers r hr x hx
        · simp only at hx
          split at hx
          · simp at hx
          · exact h.readers _ hmem x (by simp [hx])
      · simp [h.good, hd]
    · simp at hs
  | matchEnd i =>
    simp only [step] at hs
    split at hs
    · simp only [Option.some.injEq] at hs; subst hs
      exact ⟨⟨h.opened, h.nodup, h.fresh, h.sizes, h.newSize, h.pendSize,
        fun r hr => h.readers r (List.mem_of_mem_eraseIdx hr), h.good⟩, rfl⟩
    · simp at hs
  | reloadBegin =>
    simp only [step] at hs
    split at hs
    · rename_i hr
      simp only [Option.some.injEq] at hs; subst hs
      have := h.opened
      rw [hr] at this
      exact ⟨⟨this, h.nodup, h.fresh, h.sizes, by intro n hn; simp at hn, by simp [pending], h.readers, h.good⟩, rfl⟩
    · simp at hs
  | openDb ok =>
    simp only [step] at hs
    split at hs
    · rename_i opened hr
      have ho := h.opened
      rw [hr] at ho
      simp only [pending] at ho
      split at hs
      · rename_i hlt
        split at hs
        · simp only [Option.some.injEq] at hs; subst hs
          refine ⟨⟨?_, ?_, ?_, h.sizes, by intro n hn; simp at hn, by simp [pending]; omega, h.readers, h.good⟩, rfl⟩
          · simp only [pending]
            refine (List.Perm.cons s.next ho).trans ?_
            have e : s.current ++ (opened ++ [s.next] ++ s.lost) = (s.current ++ opened) ++ s.next :: s.lost := by simp
            rw [e]
            refine List.Perm.trans ?_ (List.perm_middle).symm
            rw [List.append_assoc]
          · exact List.nodup_cons.mpr ⟨fun hm => Nat.lt_irrefl _ (h.fresh _ hm), h.nodup⟩
          · intro d hd
            rcases List.mem_cons.mp hd with rfl | hd
            · exact Nat.lt_succ_self _
            · exact Nat.lt_succ_of_lt (h.fresh d hd)
        · simp only [Option.some.injEq] at hs; subst hs
          refine ⟨⟨?_, h.nodup, h.fresh, h.sizes, by intro n hn; simp at hn, by simp [pending], h.readers, h.good⟩, rfl⟩
          simp only [pending, List.nil_append]
          exact ho.trans (List.Perm.append_left _ List.perm_append_comm)
      · simp at hs
    · simp at hs
  | rules ok =>
    simp only [step] at hs
    split at hs
    · rename_i opened hr
      have ho := h.opened
      have hp := h.pendSize
      rw [hr] at ho hp
      simp only [pending] at ho hp
      split at hs
      · simp only [Option.some.injEq] at hs; subst hs
        exact ⟨⟨ho, h.nodup, h.fresh, h.sizes, by intro n hn; simp at hn, hp, h.readers, h.good⟩, rfl⟩
      · simp only [Option.some.injEq] at hs; subst hs
        refine ⟨⟨?_, h.nodup, h.fresh, h.sizes, by intro n hn; simp at hn, by simp [pending], h.readers, h.good⟩, rfl⟩
        simp only [pending, List.nil_append]
        exact ho.trans (List.Perm.append_left _ List.perm_append_comm)
    · simp at hs
  | reloadEnd =>
    simp only [step] at hs
    split at hs
    · rename_i opened hr
      have ho := h.opened
      rw [hr] at ho
      split at hs
      · rename_i hlen
        simp only [Option.some.injEq] at hs; subst hs
        exact ⟨⟨ho, h.nodup, h.fresh, h.sizes, by intro n hn; simp only [Refresh.swapping.injEq] at hn; rw [← hn, hlen],
          by simp [pending, hlen], h.readers, h.good⟩, rfl⟩
      · simp at hs
    · simp at hs
  | swap =>
    simp only [step] at hs
    split at hs
    · rename_i new hr
      have ho := h.opened
      rw [hr] at ho
      split at hs
      · rename_i hn
        simp only [Option.some.injEq] at hs; subst hs
        refine ⟨⟨?_, h.nodup, h.fresh, h.newSize new hr, by intro n hn; simp at hn, by simp [pending, h.sizes], ?_, h.good⟩, rfl⟩
        · simp only [pending] at ho ⊢
          refine ho.trans ?_
          rw [← List.append_assoc, ← List.append_assoc]
          exact List.Perm.append_right _ List.perm_append_comm
        · intro r hr'; simp only [hn] at hr'; simp at hr'
      · simp at hs
    · simp at hs
  | close =>
    simp only [step] at hs
    split at hs
    · rename_i d rest hr
      have ho := h.opened
      have hp := h.pendSize
      rw [hr] at ho hp
      simp only [pending, List.cons_append] at ho hp
      simp only [Option.some.injEq] at hs; subst hs
      refine ⟨⟨?_, h.nodup.erase d, fun x hx => h.fresh x (List.mem_of_mem_erase hx), h.sizes, by intro n hn; simp at hn,
        by simp [pending] at hp ⊢; omega, h.readers, h.good⟩, rfl⟩
      simp only [pending]
      have h1 : (s.isOpen.erase d).Perm ((d :: (s.current ++ (rest ++ s.lost))).erase d) :=
        (ho.trans List.perm_middle).erase d
      simpa using h1
    · simp at hs
  | closeEnd =>
    simp only [step] at hs
    split at hs
    · rename_i hr
      have ho := h.opened
      rw [hr] at ho
      simp only [Option.some.injEq] at hs; subst hs
      exact ⟨⟨ho, h.nodup, h.fresh, h.sizes, by intro n hn; simp at hn, by simp [pending], h.readers, h.good⟩, rfl⟩
    · simp at hs

private theorem run_inv {s s' : Sys} (h : Inv s) (es : List Ev) (hs : run s es = some s') : Inv s' ∧ s'.size = s.size := by
  induction es generalizing s with
  | nil => simp [run] at hs; subst hs; exact ⟨h, rfl⟩
  | cons e es ih =>
    obtain ⟨s1, h1, h2⟩ := Option.bind_eq_some_iff.mp hs
    obtain ⟨i1, z1⟩ := step_inv h e h1
    obtain ⟨i2, z2⟩ := ih i1 h2
    exact ⟨i2, by omega⟩

/-- **C70.** However queries and reloads of a list of any number of databases interleave: no closed database is ever looked up. -/
theorem never_used_closed (n : Nat) (es : List Ev) (s : Sys) (h : run (start n) es = some s) : s.usedClosed = false :=
  (run_inv (start_inv n) es h).1.good

/-- **C70.** The databases of the list in use are all open; besides them only those of one running reload (at most `n`) are open,
and those that failed reloads left behind. While no reload is running it is exactly these. -/
theorem databases_open (n : Nat) (es : List Ev) (s : Sys) (h : run (start n) es = some s) :
    (∀ d ∈ s.current, d ∈ s.isOpen) ∧ s.isOpen.length ≤ 2 * n + s.lost.length ∧
    (s.refresh = .sleeping → s.isOpen.Perm (s.current ++ s.lost) ∧ s.isOpen.length = n + s.lost.length) := by
  obtain ⟨hi, hz⟩ := run_inv (start_inv n) es h
  have hz' : s.size = n := hz
  refine ⟨fun d hd => hi.opened.mem_iff.mpr (by simp [hd]), ?_, ?_⟩
  · have := hi.opened.length_eq
    have h1 := hi.sizes
    have h2 := hi.pendSize
    simp only [List.length_append] at this
    omega
  · intro hr
    have := hi.opened
    rw [hr] at this
    simp only [pending, List.nil_append] at this
    refine ⟨this, ?_⟩
    have hl := this.length_eq
    have h1 := hi.sizes
    simp only [List.length_append] at hl
    omega

/-- no reload fails -/
def NoFailure (e : Ev) : Prop := e ≠ .openDb false ∧ e ≠ .rules false

/-- **C70.** As long as no reload fails nothing is left behind: between reloads exactly `n` databases are open. -/
theorem no_leak_without_failure (n : Nat) (es : List Ev) (s : Sys) (h : run (start n) es = some s) (hf : ∀ e ∈ es, NoFailure e) :
    s.lost = [] := by
  have key : ∀ (es : List Ev) (s0 : Sys), s0.lost = [] → run s0 es = some s → (∀ e ∈ es, NoFailure e) → s.lost = [] := by
    intro es
    induction es with
    | nil => intro s0 h0 h _; simp [run] at h; subst h; exact h0
    | cons e es ih =>
      intro s0 h0 h hf
      obtain ⟨s1, h1, h2⟩ := Option.bind_eq_some_iff.mp h
      refine ih s1 ?_ h2 (fun x hx => hf x (by simp [hx]))
      have hfe := hf e (by simp)
      cases e <;> simp only [step] at h1 <;> (repeat' split at h1) <;> simp only [Option.some.injEq, reduceCtorEq] at h1 <;>
        (try subst h1) <;> first | exact h0 | skip
      · rename_i hok
        exact absurd (by simpa using hok) (fun h => hfe.1 (congrArg Ev.openDb h))
      · rename_i hok
        exact absurd (by simpa using hok) (fun h => hfe.2 (congrArg Ev.rules h))
  exact key es (start n) rfl h hf

private def failing : List Ev := [.reloadBegin, .openDb true, .rules false]

private theorem failing_step (s : Sys) (hr : s.refresh = .sleeping) (hn : 0 < s.size) :
    ∃ s', run s failing = some s' ∧ s'.refresh = .sleeping ∧ s'.size = s.size ∧ s'.lost.length = s.lost.length + 1 ∧
      s'.isOpen.length = s.isOpen.length + 1 := by
  refine ⟨{ s with next := s.next + 1, isOpen := s.next :: s.isOpen, refresh := .sleeping, lost := s.lost ++ [s.next] }, ?_, rfl, rfl, by simp, by simp⟩
  simp [run, failing, step, hr, hn]

/-- The finding: a reload whose rules cannot be loaded (the list's server is down, a line is malformed) leaves its database open for good, so
that `k` failures in a row leave `k` open databases behind, for every `k`. -/
theorem failed_reload_leaks (n : Nat) (hn : 0 < n) (k : Nat) :
    ∃ es s, run (start n) es = some s ∧ s.refresh = .sleeping ∧ s.isOpen.length = n + k := by
  have key : ∀ k, ∃ es s, run (start n) es = some s ∧ s.refresh = .sleeping ∧ s.size = n ∧ s.isOpen.length = n + k := by
    intro k
    induction k with
    | zero => exact ⟨[], start n, rfl, rfl, rfl, by simp [start]⟩
    | succ k ih =>
      obtain ⟨es, s, h1, h2, h3, h4⟩ := ih
      obtain ⟨s', g1, g2, g3, -, g5⟩ := failing_step s h2 (by omega)
      have happ : ∀ (es es' : List Ev) (s0 : Sys), run s0 (es ++ es') = (run s0 es).bind fun s => run s es' := by
        intro es
        induction es with
        | nil => intro es' s0; rfl
        | cons e es ih =>
          intro es' s0
          simp only [List.cons_append, run]
          cases step s0 e with
          | none => rfl
          | some s1 => exact ih es' s1
      exact ⟨es ++ failing, s', by rw [happ, h1]; exact g1, g2, by omega, by omega⟩
  obtain ⟨es, s, h1, h2, -, h4⟩ := key k
  exact ⟨es, s, h1, h2, h4⟩

/-- Two databases, a query overlapping a reload: the swap has to wait for the query, then the old ones are closed. -/
example : let es : List Ev := [.matchBegin, .reloadBegin, .openDb true, .rules true, .look 0 false, .openDb true, .rules true, .reloadEnd,
      .look 0 true, .matchEnd 0, .swap, .close, .matchBegin, .close, .closeEnd, .look 0 false]
    (run (start 2) es).map (fun s => (s.isOpen, s.current, s.usedClosed)) = some ([3, 2], [2, 3], false) ∧
    run (start 2) [.matchBegin, .reloadBegin, .openDb true, .rules true, .openDb true, .rules true, .reloadEnd, .swap] = none := by
  simp [run, step, start, List.range_succ]

end Verif.Props.Location
