import Verif.Model.Net
namespace Verif.Net
open Verif

private theorem forall_byte {p : UInt8 → Prop} (h : ∀ n, n < 256 → p (UInt8.ofNat n)) : ∀ b, p b := by
  intro b
  have := h b.toNat b.toNat_lt
  simpa using this

@[simp] theorem byteBits_length (b : UInt8) : (byteBits b).length = 8 := by simp [byteBits]

@[simp] theorem bits_length : ∀ (ip : Str), (bits ip).length = 8 * ip.length
  | [] => rfl
  | b :: bs => by simp [bits, bits_length bs]; omega

private def ofBits (l : List Bool) : UInt8 := UInt8.ofNat (l.foldl (fun n b => 2 * n + b.toNat) 0)

set_option maxRecDepth 100000 in
private theorem ofBits_byteBits : ∀ b, ofBits (byteBits b) = b := by
  apply forall_byte
  decide +kernel

theorem byteBits_inj {a b : UInt8} (h : byteBits a = byteBits b) : a = b := by
  rw [← ofBits_byteBits a, ← ofBits_byteBits b, h]

theorem bits_inj : ∀ {a b : Str}, bits a = bits b → a = b
  | [], [], _ => rfl
  | [], _ :: _, h => by simp [bits, byteBits] at h
  | _ :: _, [], h => by simp [bits, byteBits] at h
  | a :: as, b :: bs, h => by
    simp only [bits] at h
    have := List.append_inj h (by simp)
    rw [byteBits_inj this.1, bits_inj this.2]

private theorem maskByte_bits : ∀ n, n < 8 → ∀ i, i < 8 → (maskByte n).toNat.testBit (7 - i) = decide (i < n) := by
  decide +kernel

private theorem byteBits_mask_small (n : Nat) (hn : n < 8) (b : UInt8) :
    byteBits (b &&& maskByte n) = (byteBits b).take n ++ List.replicate (8 - n) false := by
  apply List.ext_getElem
  · simp; omega
  · intro i h1 h2
    have hi : i < 8 := by simpa using h1
    have hm := maskByte_bits n hn i hi
    simp only [byteBits, List.getElem_map, List.getElem_range, UInt8.toNat_and, Nat.testBit_and, hm, List.getElem_append]
    by_cases h : i < n
    · have : i < min n 8 := by omega
      simp [h, this]
    · have : ¬ i < min n 8 := by omega
      simp [h, this]

private theorem byteBits_mask (n : Nat) (b : UInt8) :
    byteBits (b &&& maskByte n) = (byteBits b).take n ++ List.replicate (8 - n) false := by
  by_cases h : n < 8
  · exact byteBits_mask_small n h b
  · have h1 : maskByte n = 255 := by unfold maskByte; rw [if_pos (by omega)]
    have h2 : b &&& 255 = b := by
      apply UInt8.toNat_inj.mp
      rw [UInt8.toNat_and]
      show b.toNat &&& (2^8 - 1) = _
      rw [Nat.and_two_pow_sub_one_eq_mod]; exact Nat.mod_eq_of_lt b.toNat_lt
    rw [h1, h2, show 8 - n = 0 by omega, List.replicate_zero, List.append_nil, List.take_of_length_le (by simp; omega)]

@[simp] theorem cidrMaskBytes_length : ∀ (len n : Nat), (cidrMaskBytes len n).length = len
  | 0, _ => rfl
  | len + 1, n => by simp [cidrMaskBytes, cidrMaskBytes_length len]

/-- Masking keeps the first `n` bits and clears the rest. -/
theorem bits_mask : ∀ (ip : Str) (n : Nat),
    bits (List.zipWith (· &&& ·) ip (cidrMaskBytes ip.length n)) = (bits ip).take n ++ List.replicate (8 * ip.length - n) false
  | [], n => by simp [bits]
  | b :: bs, n => by
    simp only [List.length_cons, cidrMaskBytes, List.zipWith_cons_cons, bits]
    rw [byteBits_mask, bits_mask bs (n - 8)]
    rw [List.take_append, byteBits_length]
    by_cases h : n ≤ 8
    · rw [show n - 8 = 0 by omega]
      simp only [List.take_zero, List.append_nil, List.nil_append, Nat.sub_zero, List.append_assoc, List.replicate_append_replicate]
      congr 2; omega
    · rw [show 8 - n = 0 by omega, List.replicate_zero, List.append_nil, List.append_assoc]
      congr 3; omega

/-- Masked addresses of the same length agree iff the first `n` bits do. -/
theorem mask_eq_iff (a b : Str) (n : Nat) (hl : a.length = b.length) :
    List.zipWith (· &&& ·) a (cidrMaskBytes a.length n) = List.zipWith (· &&& ·) b (cidrMaskBytes b.length n) ↔
      (bits a).take n = (bits b).take n := by
  constructor
  · intro h
    have h2 : bits _ = bits _ := congrArg bits h
    rw [bits_mask, bits_mask] at h2
    exact (List.append_inj h2 (by simp [hl])).1
  · intro h
    apply bits_inj
    rw [bits_mask, bits_mask, h, hl]

end Verif.Net
