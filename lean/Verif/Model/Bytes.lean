import Verif.Model.Dns
/-
Byte-buffer primitives of the Go runtime used by the codecs: slicing, `copy`, `encoding/binary`.
Reads outside the buffer are `none` (a Go panic), never a default value.
-/
namespace Verif

/-- Big-endian encoding of `n` in `k` bytes (`binary.BigEndian.PutUint16/32/64`; the value is
truncated to `k` bytes as the Go conversion does). Used in cache-blob.go:109-116. -/
def beBytes : Nat → Nat → Str
  | 0, _ => []
  | k + 1, n => (n / 256 ^ k % 256).toUInt8 :: beBytes k n

/-- Big-endian value of a byte list. encoding/binary, as used in cache-blob.go:136-158. -/
def beVal (l : Str) : Nat := l.foldl (fun acc b => acc * 256 + b.toNat) 0

/-- `buf[lo:hi]`; `none` when out of range (panic). As in cache-blob.go:162-170. -/
def slice? (buf : Str) (lo hi : Nat) : Option Str :=
  if lo ≤ hi ∧ hi ≤ buf.length then some ((buf.drop lo).take (hi - lo)) else none

/-- `binary.BigEndian.Uint16(buf[off:])`. Used in cache-blob.go:152-158. -/
def be16? (buf : Str) (off : Nat) : Option Nat := (slice? buf off (off + 2)).map beVal
/-- `binary.BigEndian.Uint64(buf[off:])`. Used in cache-blob.go:136-142. -/
def be64? (buf : Str) (off : Nat) : Option Nat := (slice? buf off (off + 8)).map beVal

/-- `copy(buf[off:], src)` for `off ≤ len(buf)`: writes what fits. Used in cache-blob.go:119-121. -/
def copyAt (buf : Str) (off : Nat) (src : Str) : Str :=
  buf.take off ++ src.take (buf.length - off) ++ buf.drop (off + src.length)

/-- Go's `uint64(x)` for an `int64` x. As in cache-blob.go:109-110. -/
def toU64 (x : Int) : Nat := (x % 18446744073709551616).toNat
/-- Go's `int64(x)` for a `uint64` x. As in cache-blob.go:136-142. -/
def toI64 (n : Nat) : Int :=
  if n % 18446744073709551616 < 9223372036854775808 then (n % 18446744073709551616 : Nat)
  else (n % 18446744073709551616 : Nat) - (18446744073709551616 : Int)

/-- Values an `int64` can hold. The type of the times in cache-blob.go:136-142. -/
def InI64 (x : Int) : Prop := -9223372036854775808 ≤ x ∧ x < 9223372036854775808

end Verif
