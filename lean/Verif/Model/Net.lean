import Verif.Model.Dns
/-
The few functions of Go's `net` package the code uses on addresses. An address is a byte list: empty (nil), 4 or 16 bytes.
-/
namespace Verif.Net
open Verif

/-- `net.v4InV6Prefix`. Go library; for `To4`, used in dns64.go:163, 201. -/
def v4Prefix : Str := [0, 0, 0, 0, 0, 0, 0, 0, 0, 0, 255, 255]

/-- `net.IP.To4`. Go library; used in dns64.go:163, 201, cidr-db.go:48, 67. -/
def to4 (ip : Str) : Option Str :=
  if ip.length = 4 then some ip
  else if ip.length = 16 ∧ ip.take 12 = v4Prefix then some (ip.drop 12)
  else none

/-- `net.IP.To16`. Go library; used in dns64.go:264. -/
def to16 (ip : Str) : Option Str :=
  if ip.length = 4 then some (v4Prefix ++ ip)
  else if ip.length = 16 then some ip
  else none

/-- `^byte(0xff >> n)` and `0xff` for `n ≥ 8`. Go library, for `net.CIDRMask`; ecs-modifier.go, rate-limiter.go:68-79. -/
def maskByte (n : Nat) : UInt8 := if n ≥ 8 then 255 else ~~~ ((255 : UInt8) >>> (UInt8.ofNat n))

/-- `net.CIDRMask` for `len` bytes: mask bytes from the left. Go library; ecs-modifier.go, rate-limiter.go:68-79. -/
def cidrMaskBytes : Nat → Nat → Str
  | 0, _ => []
  | len + 1, n => maskByte n :: cidrMaskBytes len (n - 8)

/-- `net.CIDRMask(ones, 8*len)`: nil when `ones` is too large. Go library; used in ecs-modifier.go and rate-limiter.go:68-79. -/
def cidrMask (ones len : Nat) : Str := if ones > 8 * len then [] else cidrMaskBytes len ones

/-- `net.IP.Mask`; nil when the lengths do not fit. Go library; used in ecs-modifier.go and rate-limiter.go:68-79. -/
def ipMask (ip mask : Str) : Str :=
  let mask := if mask.length = 16 ∧ ip.length = 4 ∧ mask.take 12 = List.replicate 12 255 then mask.drop 12 else mask
  let ip := if mask.length = 4 ∧ ip.length = 16 ∧ ip.take 12 = v4Prefix then ip.drop 12 else ip
  if ip.length ≠ mask.length then [] else List.zipWith (· &&& ·) ip mask

/-- `net.IP.Equal`. Go library; used in dns64.go. -/
def ipEqual (a b : Str) : Bool :=
  if a.length = b.length then a = b
  else if a.length = 4 ∧ b.length = 16 then b.take 12 = v4Prefix ∧ a = b.drop 12
  else if a.length = 16 ∧ b.length = 4 then a.take 12 = v4Prefix ∧ a.drop 12 = b
  else false

/-- The bits of a byte, most significant first. For ip-blocklist-trie.go `bit`. -/
def byteBits (b : UInt8) : List Bool := (List.range 8).map fun i => b.toNat.testBit (7 - i)

/-- The bits of an address from the left. For ip-blocklist-trie.go `bit`. -/
def bits : Str → List Bool
  | [] => []
  | b :: bs => byteBits b ++ bits bs

end Verif.Net
