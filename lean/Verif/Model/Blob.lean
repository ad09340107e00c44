import Verif.Model.Bytes
/-
cache-blob.go: the stored form of a cache entry.
-/
namespace Verif

/-- lru-cache.go:36-42 `lruKey`. Widths (uint16, uint8) are stated by `LruKey.Valid`. -/
structure LruKey where
  name : Str
  qtype : Nat
  qclass : Nat
  net : Str
  dnssecOk : Bool
  cd : Bool
  ecsMask : Nat
deriving DecidableEq, Repr

/-- The Go field types: `uint16`, `uint16`, `uint8`. lru-cache.go:36-42. -/
def LruKey.Valid (k : LruKey) : Prop := k.qtype < 65536 ∧ k.qclass < 65536 ∧ k.ecsMask < 256

namespace Blob

/-! cache-blob.go:52-71, layout constants -/
def offMetaFlags : Nat := 1
/-- cache-blob.go:55 -/
def offTimestamp : Nat := 2
/-- cache-blob.go:56 -/
def offExpiry : Nat := 10
/-- cache-blob.go:57 -/
def offKeyFlags : Nat := 18
/-- cache-blob.go:58 -/
def offQtype : Nat := 19
/-- cache-blob.go:59 -/
def offQclass : Nat := 21
/-- cache-blob.go:60 -/
def offECSMask : Nat := 23
/-- cache-blob.go:61 -/
def offNetLen : Nat := 24
/-- cache-blob.go:62 -/
def offNameLen : Nat := 26
/-- cache-blob.go:63 -/
def hdrLen : Nat := 28

/-- cache-blob.go:125-134 `keyFlags` -/
def keyFlags (k : LruKey) : UInt8 :=
  (if k.dnssecOk then 1 else 0) ||| (if k.cd then 2 else 0)

/-- cache-blob.go:93-123 `newCacheBlobFromWire`. The timestamps are the unix nanoseconds produced by
`unixNano` (lru-cache.go:89-94); `none` is the returned error. -/
def newFromWire (k : LruKey) (prefetch : Bool) (timestamp expiry : Int) (wire : Str) : Option Str :=
  if k.name.length > maxUint16 then none
  else if k.net.length > maxUint16 then none
  else
    let b := List.replicate (hdrLen + k.net.length + k.name.length + wire.length) (0 : UInt8)
    let b := if prefetch then copyAt b offMetaFlags [1] else b
    let b := copyAt b offTimestamp (beBytes 8 (toU64 timestamp))
    let b := copyAt b offExpiry (beBytes 8 (toU64 expiry))
    let b := copyAt b offKeyFlags [keyFlags k]
    let b := copyAt b offQtype (beBytes 2 k.qtype)
    let b := copyAt b offQclass (beBytes 2 k.qclass)
    let b := copyAt b offECSMask [k.ecsMask.toUInt8]
    let b := copyAt b offNetLen (beBytes 2 k.net.length)
    let b := copyAt b offNameLen (beBytes 2 k.name.length)
    let b := copyAt b hdrLen k.net
    let b := copyAt b (hdrLen + k.net.length) k.name
    let b := copyAt b (hdrLen + k.net.length + k.name.length) wire
    some b

/-- cache-blob.go:136-138 -/
def timestamp? (b : Str) : Option Int := (be64? b offTimestamp).map toI64
/-- cache-blob.go:140-142 -/
def expiry? (b : Str) : Option Int := (be64? b offExpiry).map toI64
/-- cache-blob.go:148-150 -/
def prefetch? (b : Str) : Option Bool := (b[offMetaFlags]?).map (fun f => f &&& 1 != 0)
/-- cache-blob.go:152-154 -/
def netLen? (b : Str) : Option Nat := be16? b offNetLen
/-- cache-blob.go:156-158 -/
def nameLen? (b : Str) : Option Nat := be16? b offNameLen

/-- cache-blob.go:162-164 `keyRegion` -/
def keyRegion? (b : Str) : Option Str := do
  let nl ← netLen? b
  let ml ← nameLen? b
  slice? b offKeyFlags (hdrLen + nl + ml)

/-- cache-blob.go:167-169 -/
def message? (b : Str) : Option Str := do
  let nl ← netLen? b
  let ml ← nameLen? b
  slice? b (hdrLen + nl + ml) b.length

/-- cache-blob.go:175-191 `matchesKey`; the outer `none` is a panic. Go's `||` is evaluated left to
right, all operands here are pure, so they are read up front. -/
def matchesKey? (b : Str) (k : LruKey) : Option Bool :=
  if b.length < hdrLen then some false
  else do
    let nl ← netLen? b
    let ml ← nameLen? b
    if b.length < hdrLen + nl + ml then return false
    let fl ← b[offKeyFlags]?
    let mask ← b[offECSMask]?
    let qt ← be16? b offQtype
    let qc ← be16? b offQclass
    if fl ≠ keyFlags k ∨ mask.toNat ≠ k.ecsMask ∨ nl ≠ k.net.length ∨ ml ≠ k.name.length
        ∨ qt ≠ k.qtype ∨ qc ≠ k.qclass then return false
    let net ← slice? b hdrLen (hdrLen + nl)
    let name ← slice? b (hdrLen + nl) (hdrLen + nl + ml)
    return net == k.net && name == k.name

/-- cache-blob.go:195-208 `key` -/
def key? (b : Str) : Option LruKey := do
  let nl ← netLen? b
  let ml ← nameLen? b
  let name ← slice? b (hdrLen + nl) (hdrLen + nl + ml)
  let qt ← be16? b offQtype
  let qc ← be16? b offQclass
  let net ← slice? b hdrLen (hdrLen + nl)
  let fl ← b[offKeyFlags]?
  let mask ← b[offECSMask]?
  return { name := name, qtype := qt, qclass := qc, net := net,
           dnssecOk := fl &&& 1 != 0, cd := fl &&& 2 != 0, ecsMask := mask.toNat }

end Blob
end Verif
