import Verif.Model.Dns
/-
The base64 encoding of queries in DoH GET requests: `base64.RawURLEncoding` as used in dohclient.go:261 and dohlistener.go:239.
Modelled after Go's encoding/base64: URL alphabet, no padding, carriage return and line feed are skipped when decoding, and bits left over at
the end are not looked at.
-/
namespace Verif.Base64
open Verif

/-- the character for a value below 64. Go library; used in dohclient.go:261. -/
def char (n : Nat) : UInt8 :=
  if n < 26 then UInt8.ofNat (65 + n)
  else if n < 52 then UInt8.ofNat (97 + (n - 26))
  else if n < 62 then UInt8.ofNat (48 + (n - 52))
  else if n = 62 then 45
  else 95

/-- the value of a character. Go library; used in dohlistener.go:239. -/
def value (c : UInt8) : Option Nat :=
  if 65 ≤ c ∧ c ≤ 90 then some (c.toNat - 65)
  else if 97 ≤ c ∧ c ≤ 122 then some (c.toNat - 97 + 26)
  else if 48 ≤ c ∧ c ≤ 57 then some (c.toNat - 48 + 52)
  else if c = 45 then some 62
  else if c = 95 then some 63
  else none

/-- `EncodeToString`. Go library; used in dohclient.go:261. -/
def encode : Str → Str
  | x :: y :: z :: rest =>
    char (x.toNat / 4) :: char (x.toNat % 4 * 16 + y.toNat / 16) :: char (y.toNat % 16 * 4 + z.toNat / 64) :: char (z.toNat % 64) :: encode rest
  | [x, y] => [char (x.toNat / 4), char (x.toNat % 4 * 16 + y.toNat / 16), char (y.toNat % 16 * 4)]
  | [x] => [char (x.toNat / 4), char (x.toNat % 4 * 16)]
  | [] => []

/-- First byte of a group of four characters; Go library, used in dohlistener.go:239 -/
def byte1 (a b : Nat) : UInt8 := UInt8.ofNat (a * 4 + b / 16)
/-- Second byte; Go library, used in dohlistener.go:239 -/
def byte2 (b c : Nat) : UInt8 := UInt8.ofNat (b % 16 * 16 + c / 4)
/-- Third byte; Go library, used in dohlistener.go:239 -/
def byte3 (c d : Nat) : UInt8 := UInt8.ofNat (c % 4 * 64 + d)

/-- the bytes of the values of the characters; `none`: one character is left over. Go library; used in dohlistener.go:239. -/
def bytes : List Nat → Option Str
  | a :: b :: c :: d :: rest => (bytes rest).map fun r => byte1 a b :: byte2 b c :: byte3 c d :: r
  | [a, b, c] => some [byte1 a b, byte2 b c]
  | [a, b] => some [byte1 a b]
  | [_] => none
  | [] => some []

/-- `DecodeString`; `none` is an error. Go library; used in dohlistener.go:239. -/
def decode (s : Str) : Option Str := match (s.filter fun c => c ≠ 13 ∧ c ≠ 10).mapM value with
  | none => none
  | some vs => bytes vs

end Verif.Base64
