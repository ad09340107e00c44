import Verif.Model.Bytes
namespace Verif

theorem copyAt_fit {buf : Str} {off : Nat} {src : Str} (h : off + src.length ≤ buf.length) :
    copyAt buf off src = buf.take off ++ src ++ buf.drop (off + src.length) := by
  unfold copyAt
  rw [List.take_of_length_le (l := src) (by omega)]

theorem length_beBytes (k n : Nat) : (beBytes k n).length = k := by
  induction k with
  | zero => rfl
  | succ k ih => simp [beBytes, ih]

theorem beVal_foldl (l : Str) (acc : Nat) :
    l.foldl (fun acc b => acc * 256 + b.toNat) acc = acc * 256 ^ l.length + beVal l := by
  unfold beVal
  induction l generalizing acc with
  | nil => simp
  | cons b l ih =>
    simp only [List.foldl_cons, List.length_cons]
    rw [ih, ih (0 * 256 + b.toNat)]
    rw [Nat.pow_succ]
    grind

theorem beVal_cons (b : UInt8) (l : Str) : beVal (b :: l) = b.toNat * 256 ^ l.length + beVal l := by
  have := beVal_foldl l (b.toNat)
  unfold beVal at *
  simp only [List.foldl_cons, Nat.zero_mul, Nat.zero_add]
  exact this

theorem toNat_mod256 (n : Nat) : (n % 256).toUInt8.toNat = n % 256 := by
  simp

theorem beVal_beBytes (k n : Nat) : beVal (beBytes k n) = n % 256 ^ k := by
  induction k with
  | zero => simp [beBytes, beVal]; omega
  | succ k ih =>
    rw [beBytes, beVal_cons, toNat_mod256, length_beBytes, ih, Nat.pow_succ]
    rw [Nat.mod_mul]
    grind

theorem beVal_beBytes_lt {k n : Nat} (h : n < 256 ^ k) : beVal (beBytes k n) = n := by
  rw [beVal_beBytes, Nat.mod_eq_of_lt h]

theorem toU64_lt (x : Int) : toU64 x < 18446744073709551616 := by
  unfold toU64; omega

theorem toI64_toU64 {x : Int} (h : InI64 x) : toI64 (toU64 x) = x := by
  unfold toI64 toU64 InI64 at *
  split <;> omega

theorem slice?_append_left (a b c : Str) :
    slice? (a ++ b ++ c) a.length (a.length + b.length) = some b := by
  unfold slice?
  simp

theorem slice?_mid {buf a b c : Str} {lo hi : Nat} (h : buf = a ++ b ++ c) (h1 : lo = a.length)
    (h2 : hi = a.length + b.length) : slice? buf lo hi = some b := by
  subst h h1 h2; exact slice?_append_left a b c

end Verif
