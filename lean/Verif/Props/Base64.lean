import Verif.Model.Base64
set_option linter.unusedVariables false
set_option linter.unusedSimpArgs false
/-
C75: queries sent with DoH GET requests arrive unchanged.
-/
namespace Verif.Props.Base64
open Verif Verif.Base64

/-- The characters that stand for themselves in URLs (RFC 3986: letters, digits, `-`, `.`, `_`, `~`): they need no escaping. -/
def Unreserved (c : UInt8) : Prop := (65 ≤ c ∧ c ≤ 90) ∨ (97 ≤ c ∧ c ≤ 122) ∨ (48 ≤ c ∧ c ≤ 57) ∨ c = 45 ∨ c = 46 ∨ c = 95 ∨ c = 126

/-- The alphabet of base64url. -/
def alphabet : Str := str "ABCDEFGHIJKLMNOPQRSTUVWXYZabcdefghijklmnopqrstuvwxyz0123456789-_"

private theorem char_table : ∀ n, n < 64 → value (char n) = some n ∧ char n ≠ 13 ∧ char n ≠ 10 ∧ some (char n) = alphabet[n]? := by decide +kernel

private theorem value_table : ∀ m, m < 256 → ∀ v ∈ value (UInt8.ofNat m), v < 64 ∧ alphabet[v]? = some (UInt8.ofNat m) := by decide +kernel

private theorem value_alphabet (c : UInt8) (v : Nat) : value c = some v ↔ alphabet[v]? = some c := by
  have hc : UInt8.ofNat c.toNat = c := by simp
  constructor
  · intro h
    have := value_table c.toNat c.toNat_lt v (by rw [hc, h]; rfl)
    rw [hc] at this; exact this.2
  · intro h
    have hv : v < 64 := by
      have h1 := (List.getElem?_eq_some_iff.mp h).1
      have h2 : alphabet.length = 64 := by decide
      omega
    obtain ⟨h1, -, -, h2⟩ := char_table v hv
    rw [h] at h2
    simp only [Option.some.injEq] at h2
    rw [← h2]; exact h1

private theorem lt4 (x : UInt8) : x.toNat / 4 < 64 := by have := x.toNat_lt; omega

private theorem encode_chars (b : Str) : ∀ c ∈ encode b, ∃ n, n < 64 ∧ c = char n := by
  induction b using encode.induct with
  | case1 x y z rest ih =>
    have hx := x.toNat_lt
    have hy := y.toNat_lt
    have hz := z.toNat_lt
    intro c hc
    simp only [encode, List.mem_cons] at hc
    rcases hc with rfl | rfl | rfl | rfl | hc
    · exact ⟨_, by omega, rfl⟩
    · exact ⟨_, by omega, rfl⟩
    · exact ⟨_, by omega, rfl⟩
    · exact ⟨_, by omega, rfl⟩
    · exact ih c hc
  | case2 x y =>
    have hx := x.toNat_lt
    have hy := y.toNat_lt
    intro c hc
    simp only [encode, List.mem_cons, List.not_mem_nil, or_false] at hc
    rcases hc with rfl | rfl | rfl
    · exact ⟨_, by omega, rfl⟩
    · exact ⟨_, by omega, rfl⟩
    · exact ⟨_, by omega, rfl⟩
  | case3 x =>
    have hx := x.toNat_lt
    intro c hc
    simp only [encode, List.mem_cons, List.not_mem_nil, or_false] at hc
    rcases hc with rfl | rfl
    · exact ⟨_, by omega, rfl⟩
    · exact ⟨_, by omega, rfl⟩
  | case4 => intro c hc; simp [encode] at hc

private theorem filter_encode (b : Str) : (encode b).filter (fun c => c ≠ 13 ∧ c ≠ 10) = encode b := by
  rw [List.filter_eq_self]
  intro c hc
  obtain ⟨n, hn, rfl⟩ := encode_chars b c hc
  simp [(char_table n hn).2.1, (char_table n hn).2.2.1]

/-- the values of the characters of an encoded string -/
private def digits : Str → List Nat
  | x :: y :: z :: rest => x.toNat / 4 :: (x.toNat % 4 * 16 + y.toNat / 16) :: (y.toNat % 16 * 4 + z.toNat / 64) :: z.toNat % 64 :: digits rest
  | [x, y] => [x.toNat / 4, x.toNat % 4 * 16 + y.toNat / 16, y.toNat % 16 * 4]
  | [x] => [x.toNat / 4, x.toNat % 4 * 16]
  | [] => []

private theorem encode_values (b : Str) : (encode b).mapM value = some (digits b) := by
  induction b using encode.induct with
  | case1 x y z rest ih =>
    have hx := x.toNat_lt
    have hy := y.toNat_lt
    have hz := z.toNat_lt
    simp only [encode, digits, List.mapM_cons, ih]
    rw [(char_table (x.toNat / 4) (by omega)).1, (char_table (x.toNat % 4 * 16 + y.toNat / 16) (by omega)).1,
      (char_table (y.toNat % 16 * 4 + z.toNat / 64) (by omega)).1, (char_table (z.toNat % 64) (by omega)).1]
    rfl
  | case2 x y =>
    have hx := x.toNat_lt
    have hy := y.toNat_lt
    simp only [encode, digits, List.mapM_cons, List.mapM_nil]
    rw [(char_table (x.toNat / 4) (by omega)).1, (char_table (x.toNat % 4 * 16 + y.toNat / 16) (by omega)).1,
      (char_table (y.toNat % 16 * 4) (by omega)).1]
    rfl
  | case3 x =>
    have hx := x.toNat_lt
    simp only [encode, digits, List.mapM_cons, List.mapM_nil]
    rw [(char_table (x.toNat / 4) (by omega)).1, (char_table (x.toNat % 4 * 16) (by omega)).1]
    rfl
  | case4 => rfl

private theorem ofNat_eq (x : UInt8) (n : Nat) (h : n = x.toNat) : UInt8.ofNat n = x := by subst h; simp

private theorem digits_bytes (b : Str) : bytes (digits b) = some b := by
  induction b using encode.induct with
  | case1 x y z rest ih =>
    have hx := x.toNat_lt
    have hy := y.toNat_lt
    have hz := z.toNat_lt
    simp only [digits, bytes, ih, Option.map_some]
    unfold byte1 byte2 byte3
    rw [ofNat_eq x _ (by omega), ofNat_eq y _ (by omega), ofNat_eq z _ (by omega)]
  | case2 x y =>
    have hx := x.toNat_lt
    have hy := y.toNat_lt
    simp only [digits, bytes]
    unfold byte1 byte2
    rw [ofNat_eq x _ (by omega), ofNat_eq y _ (by omega)]
  | case3 x =>
    have hx := x.toNat_lt
    simp only [digits, bytes]
    unfold byte1
    rw [ofNat_eq x _ (by omega)]
  | case4 => rfl

/-- **C75.** What a DoH client puts into a GET request for a query, a listener decodes to the same query. -/
theorem get_roundtrip (b : Str) : decode (encode b) = some b := by
  unfold decode
  rw [filter_encode, encode_values]
  exact digits_bytes b

/-- **C75.** Different queries give different requests. -/
theorem get_injective (a b : Str) (h : encode a = encode b) : a = b := by
  have := get_roundtrip a
  rw [h, get_roundtrip b] at this
  simpa using this.symm

/-- **C75.** The encoded query needs no escaping in a URL, and has no padding: 4 characters for 3 bytes, rounded up. -/
theorem get_url_safe (b : Str) : (∀ c ∈ encode b, Unreserved c) ∧ (encode b).length = (4 * b.length + 2) / 3 := by
  refine ⟨?_, ?_⟩
  · intro c hc
    obtain ⟨n, hn, rfl⟩ := encode_chars b c hc
    have : ∀ n, n < 64 → (65 ≤ char n ∧ char n ≤ 90) ∨ (97 ≤ char n ∧ char n ≤ 122) ∨ (48 ≤ char n ∧ char n ≤ 57) ∨ char n = 45 ∨ char n = 46 ∨ char n = 95 ∨ char n = 126 := by
      decide +kernel
    exact this n hn
  · induction b using encode.induct with
    | case1 x y z rest ih => simp only [encode, List.length_cons, ih]; omega
    | case2 x y => simp [encode]
    | case3 x => simp [encode]
    | case4 => rfl

/-- The number written with `digits` in the given base behind the number `front`, most significant first. -/
def number (base : Nat) (front : Nat) : List Nat → Nat
  | [] => front
  | d :: ds => number base (front * base + d) ds

private theorem bytes_none (vs : List Nat) : bytes vs = none ↔ vs.length % 4 = 1 := by
  induction vs using bytes.induct with
  | case1 a b c d rest ih =>
    simp only [bytes, Option.map_eq_none_iff, ih, List.length_cons]; omega
  | case2 => simp [bytes]
  | case3 => simp [bytes]
  | case4 => simp [bytes]
  | case5 => simp [bytes]

private theorem toNat_ofNat (n : Nat) (h : n < 256) : (UInt8.ofNat n).toNat = n := by
  simp [UInt8.toNat_ofNat']; omega

private theorem bytes_number (vs : List Nat) (hv : ∀ v ∈ vs, v < 64) (b : Str) (h : bytes vs = some b) (front : Nat) :
    number 256 front (b.map UInt8.toNat) = number 64 front vs / 2 ^ (6 * vs.length % 8) := by
  induction vs using bytes.induct generalizing b front with
  | case1 x y z w rest ih =>
    simp only [bytes, Option.map_eq_some_iff] at h
    obtain ⟨r, hr, rfl⟩ := h
    have hx := hv x (by simp)
    have hy := hv y (by simp)
    have hz := hv z (by simp)
    have hw := hv w (by simp)
    have hr' := ih (fun v hv' => hv v (by simp [hv'])) r hr
    simp only [List.map_cons, number, List.length_cons]
    rw [hr']
    unfold byte1 byte2 byte3
    rw [toNat_ofNat _ (by omega), toNat_ofNat _ (by omega), toNat_ofNat _ (by omega)]
    rw [show 6 * (rest.length + 1 + 1 + 1 + 1) % 8 = 6 * rest.length % 8 from by omega]
    congr 2
    omega
  | case2 x y z =>
    simp only [bytes, Option.some.injEq] at h
    subst h
    have hx := hv x (by simp)
    have hy := hv y (by simp)
    have hz := hv z (by simp)
    simp only [List.map_cons, List.map_nil, number, List.length_cons, List.length_nil]
    unfold byte1 byte2
    rw [toNat_ofNat _ (by omega), toNat_ofNat _ (by omega), show 2 ^ (6 * (0 + 1 + 1 + 1) % 8) = 4 from rfl]
    omega
  | case3 x y =>
    simp only [bytes, Option.some.injEq] at h
    subst h
    have hx := hv x (by simp)
    have hy := hv y (by simp)
    simp only [List.map_cons, List.map_nil, number, List.length_cons, List.length_nil]
    unfold byte1
    rw [toNat_ofNat _ (by omega), show 2 ^ (6 * (0 + 1 + 1) % 8) = 16 from rfl]
    omega
  | case4 => simp [bytes] at h
  | case5 => simp only [bytes, Option.some.injEq] at h; subst h; simp [number]

private theorem number_inj (a b : Str) (hl : a.length = b.length) (m n : Nat)
    (h : number 256 m (a.map UInt8.toNat) = number 256 n (b.map UInt8.toNat)) : m = n ∧ a = b := by
  induction a generalizing b m n with
  | nil => cases b with
    | nil => exact ⟨h, rfl⟩
    | cons => simp at hl
  | cons x a ih => cases b with
    | nil => simp at hl
    | cons y b =>
      simp only [List.map_cons, number] at h
      obtain ⟨h1, h2⟩ := ih b (by simpa using hl) _ _ h
      have hx := x.toNat_lt
      have hy := y.toNat_lt
      refine ⟨by omega, ?_⟩
      rw [h2, UInt8.toNat_inj.mp (show x.toNat = y.toNat by omega)]

private theorem mapM_value (s : Str) (vs : List Nat) : s.mapM value = some vs ↔ s.map some = vs.map fun v => alphabet[v]? := by
  induction s generalizing vs with
  | nil => cases vs <;> simp
  | cons c s ih =>
    rw [List.mapM_cons]
    cases hc : value c with
    | none =>
      simp only [Option.bind_eq_bind, Option.bind_none, reduceCtorEq, false_iff]
      cases vs with
      | nil => simp
      | cons v vs =>
        simp only [List.map_cons, List.cons.injEq]
        rintro ⟨h, -⟩
        rw [(value_alphabet c v).mpr h.symm] at hc
        simp at hc
    | some w =>
      cases hs : s.mapM value with
      | none =>
        simp only [Option.bind_eq_bind, Option.bind_some, Option.bind_none, reduceCtorEq, false_iff]
        cases vs with
        | nil => simp
        | cons v vs =>
          simp only [List.map_cons, List.cons.injEq]
          rintro ⟨-, h⟩
          rw [(ih vs).mpr h] at hs
          simp at hs
      | some ws =>
        simp only [Option.bind_eq_bind, Option.bind_some, Option.pure_def, Option.some.injEq]
        have hw := (ih ws).mp hs
        cases vs with
        | nil => simp
        | cons v vs =>
          simp only [List.cons.injEq, List.map_cons]
          constructor
          · rintro ⟨rfl, rfl⟩; exact ⟨((value_alphabet c w).mp hc).symm, hw⟩
          · rintro ⟨h1, h2⟩
            have := (value_alphabet c v).mpr h1.symm
            rw [hc] at this
            refine ⟨by simpa using this, ?_⟩
            have := (ih vs).mpr h2
            rw [hs] at this
            simpa using this

private theorem values_lt (s : Str) (vs : List Nat) (h : s.mapM value = some vs) : ∀ v ∈ vs, v < 64 := by
  intro v hv
  have hm := (mapM_value s vs).mp h
  have : alphabet[v]? ∈ s.map some := by rw [hm]; exact List.mem_map.mpr ⟨v, hv, rfl⟩
  obtain ⟨c, -, hc⟩ := List.mem_map.mp this
  have h1 := (List.getElem?_eq_some_iff.mp hc.symm).1
  have h2 : alphabet.length = 64 := by decide
  omega

/-- **C75.** What a listener accepts, exactly: after line ends are removed, characters of the alphabet whose number is not one more than a
multiple of four; the query is the number they write in base 64, without the 0, 2 or 4 bits at its end that fill no byte. -/
theorem get_accepts (s b : Str) : decode s = some b ↔
    ∃ vs : List Nat, (s.filter fun c => c ≠ 13 ∧ c ≠ 10).map some = vs.map (fun v => alphabet[v]?) ∧ vs.length % 4 ≠ 1 ∧
      b.length = 6 * vs.length / 8 ∧ number 256 0 (b.map UInt8.toNat) = number 64 0 vs / 2 ^ (6 * vs.length % 8) := by
  have blen : ∀ (vs : List Nat) (b : Str), bytes vs = some b → b.length = 6 * vs.length / 8 := by
    intro vs
    induction vs using bytes.induct with
    | case1 x y z w rest ih =>
      intro b h
      simp only [bytes, Option.map_eq_some_iff] at h
      obtain ⟨r, hr, rfl⟩ := h
      have := ih r hr
      simp only [List.length_cons, this]; omega
    | case2 => intro b h; simp only [bytes, Option.some.injEq] at h; subst h; simp
    | case3 => intro b h; simp only [bytes, Option.some.injEq] at h; subst h; simp
    | case4 => intro b h; simp [bytes] at h
    | case5 => intro b h; simp only [bytes, Option.some.injEq] at h; subst h; rfl
  unfold decode
  constructor
  · intro h
    cases hm : (s.filter fun c => c ≠ 13 ∧ c ≠ 10).mapM value with
    | none => rw [hm] at h; simp at h
    | some vs =>
      rw [hm] at h
      simp only [] at h
      refine ⟨vs, (mapM_value _ _).mp hm, ?_, blen vs b h, bytes_number vs (values_lt _ _ hm) b h 0⟩
      intro h1
      rw [(bytes_none vs).mpr h1] at h
      simp at h
  · rintro ⟨vs, h1, h2, h3, h4⟩
    have hm := (mapM_value _ _).mpr h1
    rw [hm]
    simp only []
    cases hb : bytes vs with
    | none => exact absurd ((bytes_none vs).mp hb) h2
    | some b' =>
      rw [(number_inj b' b (by rw [blen vs b' hb, h3]) 0 0 (by rw [bytes_number vs (values_lt _ _ hm) b' hb, h4])).2]

example : encode (str "Man") = str "TWFu" ∧ encode (str "Ma") = str "TWE" ∧ encode [255, 255, 254] = str "___-" ∧ decode (str "TW\r\nE") = some (str "Ma") ∧
    decode (str "TWF") = some (str "Ma") ∧ decode (str "TWE=") = none ∧ decode (str "TWFuA") = none := by decide +kernel

end Verif.Props.Base64
