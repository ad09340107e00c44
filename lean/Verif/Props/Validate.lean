import Verif.Spec.Validate
import Verif.Lemmas.Str
/-
C57, C66: addresses in the configuration.
-/
set_option linter.unusedVariables false
set_option linter.unusedSimpArgs false
set_option maxRecDepth 100000
namespace Verif.Props.Validate
open Verif Verif.Validate Verif.Spec.Validate

private theorem digit_iff (c : UInt8) : isDigit c = true ↔ Digit c := by
  unfold isDigit Digit
  simp only [Bool.and_eq_true, decide_eq_true_eq, UInt8.le_iff_toNat_le]
  exact Iff.rfl

private theorem char_iff (c : UInt8) : validChar c = true ↔ Letter c ∨ Digit c ∨ c = 45 := by
  unfold validChar
  simp only [Bool.or_eq_true, Bool.and_eq_true, decide_eq_true_eq, digit_iff, UInt8.le_iff_toNat_le]
  have e1 : (97 : UInt8).toNat = 97 := rfl
  have e2 : (122 : UInt8).toNat = 122 := rfl
  have e3 : (65 : UInt8).toNat = 65 := rfl
  have e4 : (90 : UInt8).toNat = 90 := rfl
  rw [e1, e2, e3, e4]
  unfold Letter
  grind

private theorem label_iff (l : Str) : validLabel l = true ↔ Label l := by
  unfold validLabel Label
  simp only [List.all_eq_true]
  constructor
  · intro h
    refine ⟨?_, ?_, ?_⟩
    · intro c hc
      have := h c hc
      split at this
      · simp at this
      · split at this
        · simp at this
        · exact (char_iff c).mp this
    · intro hh
      have hm : (45 : UInt8) ∈ l := List.mem_of_mem_head? (by rw [hh]; simp)
      have := h 45 hm
      split at this
      · simp at this
      · rw [if_pos (Or.inl hh)] at this; simp at this
    · intro hh
      have hm : (45 : UInt8) ∈ l := List.mem_of_getLast? hh
      have := h 45 hm
      split at this
      · simp at this
      · rw [if_pos (Or.inr hh)] at this; simp at this
  · rintro ⟨h1, h2, h3⟩ c hc
    rw [if_neg (by rintro rfl; simp at hc), if_neg (by rintro (h | h); exact h2 h; exact h3 h)]
    exact (char_iff c).mpr (h1 c hc)

private theorem getLastD_some {ls : List Str} {l : Str} (h : ls.getLast? = some l) : ls.getLastD [] = l := by
  rw [List.getLastD_eq_getLast?, h]; rfl

private theorem join_last (ls : List Str) (hne : ls ≠ []) (l : Str) (hl : ls.getLast? = some l) (hne' : l ≠ []) : (joinWith 46 ls).getLast? = l.getLast? := by
  induction ls with
  | nil => exact absurd rfl hne
  | cons p ls ih =>
    cases ls with
    | nil =>
      simp only [List.getLast?_singleton, Option.some.injEq] at hl
      subst hl; rfl
    | cons q ls =>
      rw [joinWith_cons _ (by simp)]
      have hl' : (q :: ls).getLast? = some l := by rw [← hl]; simp [List.getLast?_cons_cons]
      have ih' := ih (by simp) hl'
      have hj : joinWith 46 (q :: ls) ≠ [] := by
        intro h
        rw [h] at ih'
        simp only [List.getLast?_nil] at ih'
        have := List.getLast?_eq_none_iff.mp ih'.symm
        exact hne' this
      rw [List.getLast?_append]
      have : (46 :: joinWith 46 (q :: ls)).getLast? = (joinWith 46 (q :: ls)).getLast? := by
        cases hj2 : joinWith 46 (q :: ls) with
        | nil => exact absurd hj2 hj
        | cons a b => simp [List.getLast?_cons_cons]
      rw [this, ih']
      cases hx : l.getLast? with
      | none => exact absurd (List.getLast?_eq_none_iff.mp hx) hne'
      | some x => rfl

private theorem label_no_dot {l : Str} (h : Label l) : (46 : UInt8) ∉ l := by
  intro hm
  rcases h.1 46 hm with h | h | h
  · unfold Letter at h
    have : (46 : UInt8).toNat = 46 := rfl
    omega
  · unfold Digit at h
    have : (46 : UInt8).toNat = 46 := rfl
    omega
  · exact absurd h (by decide)

/-- C57: the host-name check accepts exactly the names of at most 255 characters that consist of labels of letters, digits and inner hyphens, the last label with
something else than digits; one dot at the end does not matter. Labels other than the last may be empty, and there is no limit for their length (findings below). -/
theorem hostname_accepted (name : Str) : validHostname name = true ↔
    name.length ≤ 255 ∧ ∃ ls, ls ≠ [] ∧ HasLabels name ls ∧ (∀ l, l ∈ ls → Label l) ∧ ∃ l, ls.getLast? = some l ∧ ∃ c, c ∈ l ∧ ¬ Digit c := by
  unfold validHostname
  constructor
  · intro h
    by_cases h0 : name = []
    · rw [if_pos h0] at h; simp at h
    · rw [if_neg h0] at h
      by_cases h1 : name.length > 255
      · rw [if_pos h1] at h; simp at h
      · rw [if_neg h1] at h
        simp only [] at h
        split at h
        · rename_i hall
          refine ⟨by omega, splitOn dot (trimDot name), splitOn_ne_nil _, ?_, ?_, ?_⟩
          · unfold HasLabels
            rw [joinWith_splitOn]
            unfold trimDot
            by_cases ht : name.getLast? = some 46
            · rw [if_pos ht]
              right
              obtain ⟨l, hl⟩ := List.getLast?_eq_some_iff.mp ht
              rw [hl]; simp
            · rw [if_neg ht]; exact Or.inl rfl
          · intro l hl
            exact (label_iff l).mp (List.all_eq_true.mp hall l hl)
          · cases hg : (splitOn dot (trimDot name)).getLast? with
            | none => exact absurd (List.getLast?_eq_none_iff.mp hg) (splitOn_ne_nil _)
            | some l =>
              refine ⟨l, rfl, ?_⟩
              rw [getLastD_some hg] at h
              obtain ⟨c, hc, hd⟩ := List.any_eq_true.mp h
              exact ⟨c, hc, fun hd' => by rw [(digit_iff c).mpr hd'] at hd; simp at hd⟩
        · simp at h
  · rintro ⟨hlen, ls, hne, hls, hlab, l, hl, c, hc, hd⟩
    have hlne : l ≠ [] := by rintro rfl; simp at hc
    have hll : Label l := hlab l (List.mem_of_getLast? hl)
    have hlast := join_last ls hne l hl hlne
    have htrim : trimDot name = joinWith 46 ls := by
      unfold trimDot
      rcases hls with rfl | rfl
      · rw [if_neg]
        intro h
        rw [hlast] at h
        exact label_no_dot hll (List.mem_of_getLast? h)
      · rw [if_pos (by simp)]; simp
    have hsplit : splitOn dot (trimDot name) = ls := by
      rw [htrim]
      exact splitOn_joinWith hne (fun p hp => label_no_dot (hlab p hp))
    have hn0 : name ≠ [] := by
      rintro rfl
      rcases hls with h | h
      · rw [← h] at hlast
        simp only [List.getLast?_nil] at hlast
        exact hlne (List.getLast?_eq_none_iff.mp hlast.symm)
      · simp at h
    rw [if_neg hn0, if_neg (by omega), hsplit]
    simp only []
    rw [if_pos (List.all_eq_true.mpr fun p hp => (label_iff p).mpr (hlab p hp)), getLastD_some hl]
    exact List.any_eq_true.mpr ⟨c, hc, by
      cases hx : isDigit c with
      | false => rfl
      | true => exact absurd ((digit_iff c).mp hx) hd⟩

/-- C57: every proper host name is accepted. -/
theorem hostname_proper (name : Str) (h : HostName name) : validHostname name = true := by
  obtain ⟨ls, h1, h2, h3, h4, h5⟩ := h
  exact (hostname_accepted name).mpr ⟨h3, ls, h1, h2, fun l hl => (h4 l hl).1, h5⟩

/-- C57: an accepted name has no characters but letters, digits, hyphens and dots; in particular no white space, slash, colon, at-sign or zero byte. -/
theorem hostname_chars (name : Str) (h : validHostname name = true) : ∀ c, c ∈ name → Letter c ∨ Digit c ∨ c = 45 ∨ c = 46 := by
  obtain ⟨_, ls, hne, hls, hlab, _⟩ := (hostname_accepted name).mp h
  have : ∀ (ls : List Str), (∀ l, l ∈ ls → Label l) → ∀ c, c ∈ joinWith 46 ls → Letter c ∨ Digit c ∨ c = 45 ∨ c = 46 := by
    intro ls
    induction ls with
    | nil => intro _ c hc; simp [joinWith] at hc
    | cons p ls ih =>
      intro hl c hc
      cases ls with
      | nil =>
        rcases (hl p (by simp)).1 c hc with h | h | h
        · exact Or.inl h
        · exact Or.inr (Or.inl h)
        · exact Or.inr (Or.inr (Or.inl h))
      | cons q ls =>
        rw [joinWith_cons _ (by simp)] at hc
        rcases List.mem_append.mp hc with hc | hc
        · rcases (hl p (by simp)).1 c hc with h | h | h
          · exact Or.inl h
          · exact Or.inr (Or.inl h)
          · exact Or.inr (Or.inr (Or.inl h))
        · rcases List.mem_cons.mp hc with rfl | hc
          · exact Or.inr (Or.inr (Or.inr rfl))
          · exact ih (fun l h => hl l (by simp [h])) c hc
  intro c hc
  rcases hls with rfl | rfl
  · exact this ls hlab c hc
  · rcases List.mem_append.mp hc with hc | hc
    · exact this ls hlab c hc
    · simp only [List.mem_singleton] at hc
      exact Or.inr (Or.inr (Or.inr hc))

/-- Finding: names with empty labels are accepted although the code means to reject them (the test is inside the loop over the label's characters). -/
theorem hostname_empty_label (a b : Str) (ha : Label a) (hb : Label b) (hd : ∃ c, c ∈ b ∧ ¬ Digit c) (hl : a.length + b.length ≤ 253) :
    validHostname (a ++ [46, 46] ++ b) = true := by
  refine (hostname_accepted _).mpr ⟨by simp; omega, [a, [], b], by simp, Or.inl (by simp [joinWith]), ?_, b, rfl, hd⟩
  intro l hl
  simp only [List.mem_cons, List.not_mem_nil, or_false] at hl
  rcases hl with rfl | rfl | rfl
  · exact ha
  · exact ⟨by simp, by simp, by simp⟩
  · exact hb

/-- Finding: labels of more than 63 characters are accepted. -/
theorem hostname_long_label (n : Nat) (hn : 63 < n) (h : n ≤ 255) : validHostname (List.replicate n 97) = true := by
  refine (hostname_accepted _).mpr ⟨by simp; omega, [List.replicate n 97], by simp, Or.inl rfl, ?_, _, rfl, 97, ?_, ?_⟩
  · intro l hl
    simp only [List.mem_singleton] at hl
    subst hl
    refine ⟨?_, ?_, ?_⟩
    · intro c hc
      have := List.eq_of_mem_replicate hc
      subst this
      exact Or.inl (Or.inr (by decide))
    · intro h
      have := List.eq_of_mem_replicate (List.mem_of_mem_head? (by rw [h]; simp) : (45 : UInt8) ∈ List.replicate n 97)
      exact absurd this (by decide)
    · intro h
      have := List.eq_of_mem_replicate (List.mem_of_getLast? h)
      exact absurd this (by decide)
  · exact List.mem_replicate.mpr ⟨by omega, rfl⟩
  · unfold Digit; decide

/-! ### Host and port -/

private theorem takeWhile_append_ne {c : UInt8} {a b : Str} (h : c ∉ a) : (a ++ c :: b).takeWhile (· ≠ c) = a := by
  induction a with
  | nil => simp
  | cons x a ih =>
    simp only [List.mem_cons, not_or] at h
    rw [List.cons_append, List.takeWhile_cons, if_pos (by simpa using fun e => h.1 e.symm), ih h.2]

private theorem index_append {c : UInt8} {a b : Str} (h : c ∉ a) : index c (a ++ c :: b) = some a.length := by
  unfold index
  rw [if_pos (by simp), takeWhile_append_ne h]

private theorem lastIndex_append {c : UInt8} {a b : Str} (h : c ∉ b) : lastIndex c (a ++ c :: b) = some a.length := by
  unfold lastIndex
  rw [if_pos (by simp)]
  have : (a ++ c :: b).reverse = b.reverse ++ c :: a.reverse := by simp
  rw [this, takeWhile_append_ne (by simpa using h)]
  simp

private theorem split_last {c : UInt8} {s : Str} (h : c ∈ s) : ∃ a b, s = a ++ c :: b ∧ c ∉ b := by
  induction s with
  | nil => simp at h
  | cons x s ih =>
    by_cases hs : c ∈ s
    · obtain ⟨a, b, h1, h2⟩ := ih hs
      exact ⟨x :: a, b, by rw [h1]; rfl, h2⟩
    · rcases List.mem_cons.mp h with rfl | h
      · exact ⟨[], s, rfl, hs⟩
      · exact absurd h hs

private theorem split_first {c : UInt8} {s : Str} (h : c ∈ s) : ∃ a b, s = a ++ c :: b ∧ c ∉ a := by
  induction s with
  | nil => simp at h
  | cons x s ih =>
    by_cases hx : c = x
    · subst hx; exact ⟨[], s, rfl, by simp⟩
    · rcases List.mem_cons.mp h with rfl | h
      · exact absurd rfl hx
      · obtain ⟨a, b, h1, h2⟩ := ih h
        exact ⟨x :: a, b, by rw [h1]; rfl, by simp [hx, h2]⟩

/-- `net.SplitHostPort` as modelled: exactly the addresses of the form `host:port` and `[host]:port`. -/
theorem split_host_port (s h p : Str) : splitHostPort s = some (h, p) ↔ HostPort s h p := by
  unfold HostPort
  constructor
  · intro hs
    unfold splitHostPort at hs
    by_cases hc : (58 : UInt8) ∈ s
    · obtain ⟨a, b, rfl, hb⟩ := split_last hc
      rw [lastIndex_append hb] at hs
      simp only [] at hs
      by_cases hh : (a ++ 58 :: b).head? = some 91
      · rw [if_pos hh] at hs
        by_cases h93 : (93 : UInt8) ∈ (a ++ 58 :: b)
        · obtain ⟨x, y, hxy, hx⟩ := split_first h93
          rw [hxy, index_append hx] at hs
          simp only [] at hs
          split at hs
          · rename_i he
            rw [← hxy] at hs
            split at hs
            · simp at hs
            · rename_i h91
              split at hs
              · simp at hs
              · rename_i h93'
                simp only [Option.some.injEq, Prod.mk.injEq] at hs
                obtain ⟨rfl, rfl⟩ := hs
                -- x has the bracket, a = x ++ [93]
                have hxa : a = x ++ [93] := by
                  have h1 := congrArg (List.take a.length) hxy
                  rw [List.take_left', List.take_append] at h1
                  · rw [List.take_of_length_le (by omega), ← he] at h1
                    simpa using h1
                  · rfl
                subst hxa
                cases x with
                | nil => simp at hh
                | cons z x =>
                  have hz : z = 91 := by simpa using hh
                  subst hz
                  have e1 : ((91 :: x ++ [93] ++ 58 :: b).take (91 :: x).length).drop 1 = x := by
                    simp [List.take_append]
                  have e2 : (91 :: x ++ [93] ++ 58 :: b).drop ((91 :: x ++ [93]).length + 1) = b := by
                    rw [List.drop_append]
                    simp
                  rw [e1, e2]
                  have e3 : (91 :: x ++ [93] ++ 58 :: b).drop 1 = x ++ [93] ++ 58 :: b := rfl
                  rw [e3] at h91
                  have e4 : (91 :: x ++ [93] ++ 58 :: b).drop ((91 :: x).length + 1) = 58 :: b := by
                    rw [List.drop_append]; simp
                  rw [e4] at h93'
                  simp only [List.mem_append, List.mem_cons, not_or, List.not_mem_nil, or_false] at h91 h93' hx
                  refine ⟨hb, ?_, Or.inr (by simp)⟩
                  rintro c (rfl | rfl)
                  · exact ⟨h91.1.1, h91.2.2⟩
                  · exact ⟨hx.2, h93'.2⟩
          · simp at hs
        · have : index 93 (a ++ 58 :: b) = none := by unfold index; rw [if_neg h93]
          rw [this] at hs
          simp at hs
      · rw [if_neg hh] at hs
        have e1 : (a ++ 58 :: b).take a.length = a := List.take_left' rfl
        have e2 : (a ++ 58 :: b).drop (a.length + 1) = b := by rw [List.drop_append]; simp
        rw [e1, e2] at hs
        split at hs
        · simp at hs
        · rename_i h58
          split at hs
          · simp at hs
          · rename_i h91
            split at hs
            · simp at hs
            · rename_i h93
              simp only [Option.some.injEq, Prod.mk.injEq] at hs
              obtain ⟨rfl, rfl⟩ := hs
              simp only [List.mem_append, List.mem_cons, not_or] at h91 h93
              refine ⟨hb, ?_, Or.inl ⟨h58, by simp⟩⟩
              rintro c (rfl | rfl)
              · exact ⟨h91.1, h91.2.2⟩
              · exact ⟨h93.1, h93.2.2⟩
    · have : lastIndex 58 s = none := by unfold lastIndex; rw [if_neg hc]
      rw [this] at hs
      simp at hs
  · rintro ⟨hp, hbr, ⟨hh, rfl⟩ | rfl⟩
    · obtain ⟨a1, a2⟩ := hbr 91 (Or.inl rfl)
      obtain ⟨b1, b2⟩ := hbr 93 (Or.inr rfl)
      have e0 : h ++ [58] ++ p = h ++ 58 :: p := by simp
      rw [e0]
      unfold splitHostPort
      rw [lastIndex_append hp]
      simp only []
      rw [if_neg, if_neg, if_neg, if_neg]
      · rw [List.take_left' rfl, List.drop_append]; simp
      · simp [b1, b2]
      · simp [a1, a2]
      · rw [List.take_left' rfl]; exact hh
      · intro hd
        cases h with
        | nil => simp at hd
        | cons x h =>
          simp only [List.cons_append, List.head?_cons, Option.some.injEq] at hd
          subst hd
          simp at a1
    · obtain ⟨a1, a2⟩ := hbr 91 (Or.inl rfl)
      obtain ⟨b1, b2⟩ := hbr 93 (Or.inr rfl)
      have e0 : [91] ++ h ++ [93, 58] ++ p = (91 :: h ++ [93]) ++ 58 :: p := by simp
      have e1 : [91] ++ h ++ [93, 58] ++ p = (91 :: h) ++ 93 :: 58 :: p := by simp
      unfold splitHostPort
      rw [e0, lastIndex_append hp]
      simp only []
      rw [if_pos (by simp), ← e0, e1, index_append (by simp [b1])]
      simp only []
      have e2 : ((91 :: h) ++ 93 :: 58 :: p).drop 1 = h ++ 93 :: 58 :: p := rfl
      have e3 : ((91 :: h) ++ 93 :: 58 :: p).drop ((91 :: h).length + 1) = 58 :: p := by rw [List.drop_append]; simp
      have e4 : ((91 :: h) ++ 93 :: 58 :: p).drop ((91 :: h ++ [93]).length + 1) = p := by rw [List.drop_append]; simp
      have e5 : (((91 :: h) ++ 93 :: 58 :: p).take (91 :: h).length).drop 1 = h := by simp [List.take_append]
      rw [if_pos (by simp), e2, if_neg (by simp [a1, a2]), e3, if_neg (by simp [b2]), e4, e5]

/-- An address put together from host and port comes apart into the same. -/
theorem join_split (h p : Str) (hp : 58 ∉ p) (hb : ∀ c, c = 91 ∨ c = 93 → c ∉ h ∧ c ∉ p) : splitHostPort (joinHostPort h p) = some (h, p) := by
  rw [split_host_port]
  refine ⟨hp, hb, ?_⟩
  unfold joinHostPort
  by_cases hc : 58 ∈ h ∨ 37 ∈ h
  · rw [if_pos hc]; right; simp
  · rw [if_neg hc]
    left
    exact ⟨fun h' => hc (Or.inl h'), by simp⟩

private theorem decimal_from (s : Str) : ∀ n, s.foldl (fun n c => 10 * n + (c.toNat - 48)) n = n * 10 ^ s.length + number s := by
  induction s with
  | nil => intro n; simp [number]
  | cons c s ih =>
    intro n
    rw [List.foldl_cons, ih, List.length_cons, number, Nat.add_mul, Nat.pow_succ, Nat.add_assoc]
    congr 1
    rw [Nat.mul_comm 10 n, Nat.mul_assoc, Nat.mul_comm 10]

private theorem decimal_number (s : Str) : decimal s = number s := by simpa [decimal] using decimal_from s 0

private theorem port_iff (s : Str) : validPort s = true ↔ Port s := by
  unfold validPort Port
  rw [decimal_number]
  simp only [Bool.and_eq_true, decide_eq_true_eq, List.all_eq_true, ne_eq, digit_iff]
  constructor
  · rintro ⟨⟨h1, h2⟩, h3⟩; exact ⟨h1, h2, by omega⟩
  · rintro ⟨h1, h2, h3⟩; exact ⟨⟨h1, h2⟩, by omega⟩

/-- C57: an endpoint is accepted exactly if it is a host and a port number, and the host is an IP address or a name that the host-name check accepts. -/
theorem endpoint_accepted (parseIP : Str → Option Str) (addr : Str) :
    validEndpoint parseIP addr = true ↔ ∃ h p, HostPort addr h p ∧ Port p ∧ (parseIP h ≠ none ∨ validHostname h = true) := by
  unfold validEndpoint
  cases hs : splitHostPort addr with
  | none =>
    simp only [Bool.false_eq_true, false_iff]
    rintro ⟨h, p, hh, _⟩
    rw [(split_host_port addr h p).mpr hh] at hs
    simp at hs
  | some hp =>
    obtain ⟨h, p⟩ := hp
    simp only []
    have hh := (split_host_port addr h p).mp hs
    constructor
    · intro hv
      split at hv
      · simp at hv
      · rename_i hport
        refine ⟨h, p, hh, (port_iff p).mp (by simpa using hport), ?_⟩
        split at hv
        · rename_i hi; left; intro h0; rw [h0] at hi; simp at hi
        · exact Or.inr hv
    · rintro ⟨h', p', hh', hport, hor⟩
      have := (split_host_port addr h' p').mpr hh'
      rw [hs] at this
      simp only [Option.some.injEq, Prod.mk.injEq] at this
      obtain ⟨rfl, rfl⟩ := this
      rw [if_neg (by simp [(port_iff p).mpr hport])]
      split
      · rfl
      · rename_i hi
        rcases hor with hor | hor
        · cases hx : parseIP h with
          | none => exact absurd hx hor
          | some x => rw [hx] at hi; simp at hi
        · exact hor

/-! ### Default ports -/

private theorem no_template {addr : Str} (h : 123 ∉ addr) : addr.takeWhile (· ≠ 123) = addr ∧ addr.dropWhile (· ≠ 123) = [] := by
  induction addr with
  | nil => simp
  | cons x a ih =>
    simp only [List.mem_cons, not_or] at h
    have hx : (decide (x ≠ 123)) = true := by simpa using fun e => h.1 e.symm
    rw [List.takeWhile_cons, if_pos hx, List.dropWhile_cons, if_pos hx]
    exact ⟨by rw [(ih h.2).1], (ih h.2).2⟩

/-- C66: a host without port gets the default port, and nothing else happens to it. -/
theorem default_port_added (parse : Str → Option Url) (addr port : Str) (ha : ∀ c, c ∈ [(123 : UInt8), 47, 58, 91, 93] → c ∉ addr) (hp : ∀ c, c ∈ [(58 : UInt8), 91, 93] → c ∉ port) :
    HostPort (addressWithDefault parse addr port) addr port := by
  rw [← split_host_port]
  unfold addressWithDefault
  obtain ⟨e1, e2⟩ := no_template (ha 123 (by simp))
  simp only []
  rw [e1, if_neg (ha 47 (by simp)), if_neg (ha 58 (by simp))]
  refine join_split addr port (hp 58 (by simp)) ?_
  rintro c (rfl | rfl)
  · exact ⟨ha 91 (by simp), hp 91 (by simp)⟩
  · exact ⟨ha 93 (by simp), hp 93 (by simp)⟩

/-- C66: an address that has a port, or any other address with a colon that is not a URL, stays as it is. -/
theorem default_port_kept (parse : Str → Option Url) (addr port : Str) (h1 : 123 ∉ addr) (h2 : 47 ∉ addr) (h3 : 58 ∈ addr) : addressWithDefault parse addr port = addr := by
  unfold addressWithDefault
  obtain ⟨e1, e2⟩ := no_template h1
  simp only []
  rw [e1, if_neg h2, if_pos h3]

/-- C66: the host of a URL without port gets the default port, a URL with port keeps it, and a template at the end stays. -/
theorem default_port_url (parse : Str → Option Url) (base template port : Str) (u : Url) (h1 : 123 ∉ base) (h2 : 47 ∈ base) (ht : template = [] ∨ template.head? = some 123)
    (hu : parse base = some u) : addressWithDefault parse (base ++ template) port = u.text (if u.port = [] then some (joinHostPort u.hostname port) else none) ++ template := by
  have e : (base ++ template).takeWhile (· ≠ 123) = base ∧ (base ++ template).dropWhile (· ≠ 123) = template := by
    rcases ht with rfl | ht
    · simp only [List.append_nil]; exact no_template h1
    · cases template with
      | nil => simp at ht
      | cons x t =>
        simp only [List.head?_cons, Option.some.injEq] at ht
        subst ht
        have : ∀ b : Str, 123 ∉ b → (b ++ 123 :: t).takeWhile (· ≠ 123) = b ∧ (b ++ 123 :: t).dropWhile (· ≠ 123) = 123 :: t := by
          intro b
          induction b with
          | nil => intro _; simp
          | cons x b ih =>
            intro h
            simp only [List.mem_cons, not_or] at h
            have hx : (decide (x ≠ 123)) = true := by simpa using fun e => h.1 e.symm
            rw [List.cons_append, List.takeWhile_cons, if_pos hx, List.dropWhile_cons, if_pos hx]
            exact ⟨by rw [(ih h.2).1], (ih h.2).2⟩
        exact this base h1
  unfold addressWithDefault
  simp only []
  rw [e.1, e.2, if_pos h2, hu]

/-- C66: a proper host name or IPv4 address with the default port is an endpoint the clients accept. -/
theorem default_port_accepted (parse : Str → Option Url) (parseIP : Str → Option Str) (addr port : Str) (hp : Port port)
    (h : validHostname addr = true ∨ (parseIP addr ≠ none ∧ ∀ c, c ∈ addr → Digit c ∨ c = 46)) : validEndpoint parseIP (addressWithDefault parse addr port) = true := by
  have hno : ∀ c, c ∈ [(123 : UInt8), 47, 58, 91, 93] → c ∉ addr := by
    intro c hc hm
    have hx : Letter c ∨ Digit c ∨ c = 45 ∨ c = 46 := by
      rcases h with h | h
      · exact hostname_chars addr h c hm
      · rcases h.2 c hm with h | h
        · exact Or.inr (Or.inl h)
        · exact Or.inr (Or.inr (Or.inr h))
    unfold Letter Digit at hx
    simp only [List.mem_cons, List.not_mem_nil, or_false] at hc
    rcases hc with rfl | rfl | rfl | rfl | rfl <;> revert hx <;> decide
  have hpn : ∀ c, c ∈ [(58 : UInt8), 91, 93] → c ∉ port := by
    intro c hc hm
    have := hp.2.1 c hm
    unfold Digit at this
    simp only [List.mem_cons, List.not_mem_nil, or_false] at hc
    rcases hc with rfl | rfl | rfl <;> revert this <;> decide
  rw [endpoint_accepted]
  refine ⟨addr, port, default_port_added parse addr port hno hpn, hp, ?_⟩
  rcases h with h | h
  · exact Or.inr h
  · exact Or.inl h.1

/-- Finding: an IPv6 address without port gets no default port, and is then rejected. -/
theorem default_port_ipv6 (parse : Str → Option Url) (parseIP : Str → Option Str) (a b c port : Str) (h : ∀ x, x ∈ [(123 : UInt8), 47, 91] → x ∉ a ++ 58 :: (b ++ 58 :: c)) :
    addressWithDefault parse (a ++ 58 :: (b ++ 58 :: c)) port = a ++ 58 :: (b ++ 58 :: c) ∧ validEndpoint parseIP (a ++ 58 :: (b ++ 58 :: c)) = false := by
  refine ⟨default_port_kept parse _ port (h 123 (by simp)) (h 47 (by simp)) (by simp), ?_⟩
  cases hv : validEndpoint parseIP (a ++ 58 :: (b ++ 58 :: c)) with
  | false => rfl
  | true =>
    exfalso
    obtain ⟨x, p, ⟨hp, hbr, hs⟩, _⟩ := (endpoint_accepted parseIP _).mp hv
    rcases hs with ⟨hx, hs⟩ | hs
    · -- two colons on the left, one on the right
      have hc := congrArg (List.count 58) hs
      simp only [List.count_append, List.count_cons, List.count_nil] at hc
      rw [List.count_eq_zero_of_not_mem hx, List.count_eq_zero_of_not_mem hp] at hc
      simp at hc
      omega
    · have : (91 : UInt8) ∈ a ++ 58 :: (b ++ 58 :: c) := by rw [hs]; simp
      exact h 91 (by simp) this

/-! ### Examples -/

example : validHostname (str "dns.example-1.com.") = true ∧ validHostname (str "a..b") = true ∧ validHostname (str "1.2.3.4") = false ∧ validHostname (str "-a.com") = false ∧
    validHostname (str "a_b.com") = false ∧ validHostname (str "a.") = true ∧ validHostname (str ".") = false ∧ validHostname (str "a..") = false := by decide +kernel
example : HostName (str "dns.example-1.com.") := by
  refine ⟨[str "dns", str "example-1", str "com"], by simp, Or.inr (by decide), by decide, ?_, str "com", rfl, 99, by decide, by unfold Digit; decide⟩
  intro l hl
  simp only [List.mem_cons, List.not_mem_nil, or_false] at hl
  rcases hl with rfl | rfl | rfl
  all_goals
    refine ⟨⟨?_, by decide, by decide⟩, by decide, by decide⟩
    unfold Letter Digit
    decide
example : splitHostPort (str "[::1]:53") = some (str "::1", str "53") ∧ splitHostPort (str "a:b:53") = none ∧ splitHostPort (str "host:53") = some (str "host", str "53") ∧
    addressWithDefault (fun _ => none) (str "host") (str "853") = str "host:853" ∧ addressWithDefault (fun _ => none) (str "::1") (str "853") = str "::1" ∧
    validEndpoint (fun _ => none) (str "host:70000") = false ∧ validEndpoint (fun _ => none) (str "host:853") = true := by decide +kernel

end Verif.Props.Validate
