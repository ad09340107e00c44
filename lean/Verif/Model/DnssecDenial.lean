import Verif.Model.DnssecName
/-
dnssec/denial_existence.go and dnssec/denial.go: what NSEC and NSEC3 records prove. (Which records are looked at is in `Model/Dnssec`.)

`dns.NSEC3.Match` and `dns.NSEC3.Cover` are functions of the library, which is not in the repository. They are modelled after its source as far as it
is known here, for every hash function. In that source `Cover` also accepts a name whose hash is equal to the one of the owner of the record, unless
the record is the last one or the only one of the zone; `Lib.coversOwner` says whether it does, and both variants are treated.
-/
namespace Verif.Dnssec
open Verif


/-- `dns.RR_Header`. miekg/dns; used in dnssec/validator.go:462-484. -/
structure Hdr where
  name : Str
  cls : Nat := 1
  ttl : Nat := 0
deriving DecidableEq, Repr

/-- `dns.NSEC`. miekg/dns; used in dnssec/denial_existence.go:98-200. -/
structure Nsec where
  hdr : Hdr
  next : Str
  types : List Nat
deriving DecidableEq, Repr

/-- `dns.NSEC3`; `next` is the text (base 32) of the next hash. miekg/dns; used in dnssec/denial_existence.go:203-310. -/
structure Nsec3 where
  hdr : Hdr
  hash : Nat := 1
  flags : Nat := 0
  iterations : Nat := 0
  salt : Str := []
  next : Str
  types : List Nat
deriving DecidableEq, Repr

/-! ### NSEC -/

/-- dnssec/denial_existence.go:187-199 `nsecCovers` -/
def nsecCovers (n : Nsec) (qname : Str) : Bool :=
  let owner := canonicalName n.hdr.name
  let next := canonicalName n.next
  let qname := canonicalName qname
  if qname = owner then false
  else if canonicalNameCmp owner next < 0 then decide (canonicalNameCmp owner qname < 0) && decide (canonicalNameCmp qname next < 0)
  else decide (canonicalNameCmp owner qname < 0) || decide (canonicalNameCmp qname next < 0)

/-- dnssec/denial_existence.go:177-182 `nsecClosestEncloser` -/
def nsecClosestEncloser (qname : Str) (n : Nsec) : Str :=
  let owner := canonicalName n.hdr.name
  let next := canonicalName n.next
  lastNLabels qname (max (compareName qname owner) (compareName qname next))

/-- dnssec/denial_existence.go:121, 135, 223, 240: neither the type nor a CNAME is in the bitmap -/
def lacks (types : List Nat) (qtype : Nat) : Bool := !types.contains qtype && !types.contains typeCNAME

/-- `"*." + name`. dnssec/denial_existence.go:130, 160. -/
def wildcardOf (ce : Str) : Str := 42 :: 46 :: ce

/-- dnssec/denial_existence.go:131-136: the first record that owns the wildcard decides -/
def nsecOwned (nsecs : List Nsec) (name : Str) : Option Nsec := nsecs.find? fun w => canonicalName w.hdr.name = name

/-- dnssec/denial_existence.go:126-138: the loop over the covering records -/
def wildcardNODATA (nsecs : List Nsec) (qname : Str) (qtype : Nat) : List Nsec → Bool
  | [] => false
  | cover :: rest =>
    if nsecCovers cover qname = false then wildcardNODATA nsecs qname qtype rest
    else match nsecOwned nsecs (canonicalName (wildcardOf (nsecClosestEncloser qname cover))) with
      | some w => lacks w.types qtype
      | none => wildcardNODATA nsecs qname qtype rest

/-- dnssec/denial_existence.go:113-139 `nsecProvesNODATA` -/
def nsecProvesNODATA (nsecs : List Nsec) (qname : Str) (qtype : Nat) : Bool :=
  let qname := canonicalName qname
  match nsecOwned nsecs qname with
  | some n => lacks n.types qtype
  | none => wildcardNODATA nsecs qname qtype nsecs

/-- dnssec/denial_existence.go:161-171: the wildcard must be covered before it is found to exist -/
def wildcardDenied (wildcard : Str) : List Nsec → Bool
  | [] => false
  | n :: rest =>
    if canonicalName n.hdr.name = wildcard then false
    else if nsecCovers n wildcard then true
    else wildcardDenied wildcard rest

/-- dnssec/denial_existence.go:144-172 `nsecProvesNXDOMAIN` -/
def nsecProvesNXDOMAIN (nsecs : List Nsec) (qname : Str) : Bool :=
  let qname := canonicalName qname
  match nsecs.find? fun n => nsecCovers n qname with
  | none => false
  | some n => wildcardDenied (canonicalName (wildcardOf (nsecClosestEncloser qname n))) nsecs

/-- dnssec/denial_existence.go:98-109 `nsecProvesDenial` -/
def nsecProvesDenial (nsecs : List Nsec) (qname : Str) (qtype rcode : Nat) : Bool :=
  if nsecs = [] then false
  else if rcode = rcodeNameError then nsecProvesNXDOMAIN nsecs qname
  else if rcode = rcodeSuccess then nsecProvesNODATA nsecs qname qtype
  else false

/-! ### NSEC3 -/

/-- What is used of the library for NSEC3. Used in dnssec/denial_existence.go:284-310. -/
structure Lib where
  /-- `dns.HashName(name, algorithm, iterations, salt)`: the hash as text in base 32, upper case, empty if it can not be computed -/
  hashName : Str → Nat → Nat → Str → Str
  /-- `Cover` accepts the hash of the owner itself if the record is not the last one -/
  coversOwner : Bool

/-- `strings.ToUpper` of ASCII. Used in `NSEC3.Match` of miekg/dns, called in dnssec/denial_existence.go:284-291. -/
def upperByte (c : UInt8) : UInt8 := if 97 ≤ c ∧ c ≤ 122 then c - 32 else c
/-- `strings.ToUpper` of ASCII; used in `NSEC3.Match` of miekg/dns, called in dnssec/denial_existence.go:284-291 -/
def upper (s : Str) : Str := s.map upperByte

/-- `dns.HashName`, called by `NSEC3.Match` and `Cover`, dnssec/denial_existence.go:284-310 -/
def nsec3Hash (L : Lib) (r : Nsec3) (name : Str) : Str := L.hashName name r.hash r.iterations r.salt

/-- The hash in the first label of the owner name and the zone after it; `none` if there are less than two labels. Part of `Match` and `Cover`. miekg/dns; called in dnssec/denial_existence.go:284-310. -/
def nsec3Owner (r : Nsec3) : Option (Str × Str) := match splitName (upper r.hdr.name) with
  | h :: l :: ls => some (h, Blocklist.fqdn (joinWith 46 (l :: ls)))
  | _ => none

/-- `dns.NSEC3.Match`. miekg/dns; called in dnssec/denial_existence.go:284-291. -/
def nsec3Match (L : Lib) (r : Nsec3) (name : Str) : Bool := match nsec3Owner r with
  | none => false
  | some (owner, zone) => isSubDomain zone (upper name) && decide (owner = nsec3Hash L r name)

/-- `<` on Go strings. Used in `NSEC3.Cover` of miekg/dns, called in dnssec/denial_existence.go:293-300. -/
def strLt (a b : Str) : Bool := bytesCompare a b < 0

/-- `dns.NSEC3.Cover`. miekg/dns; called in dnssec/denial_existence.go:293-310. -/
def nsec3Cover (L : Lib) (r : Nsec3) (name : Str) : Bool := match nsec3Owner r with
  | none => false
  | some (owner, zone) =>
    let h := nsec3Hash L r name
    if isSubDomain zone (upper name) = false then false
    else if owner = r.next ∧ h ≠ owner then true
    else if strLt r.next owner then strLt owner h || strLt h r.next
    else if strLt h owner ∨ (h = owner ∧ L.coversOwner = false) then false
    else strLt h r.next

/-- dnssec/denial_existence.go:284-309 -/
def nsec3MatchAny (L : Lib) (l : List Nsec3) (name : Str) : Bool := l.any fun r => nsec3Match L r name
/-- dnssec/denial_existence.go:293-300 -/
def nsec3CoverAny (L : Lib) (l : List Nsec3) (name : Str) : Bool := l.any fun r => nsec3Cover L r name
/-- dnssec/denial_existence.go:302-311 -/
def nsec3OptOutCovers (L : Lib) (l : List Nsec3) (name : Str) : Bool := l.any fun r => decide (r.flags % 2 = 1) && nsec3Cover L r name

/-- dnssec/denial_existence.go:275-281: the candidates with `k - 1`, `k - 2`, … labels -/
def nsec3Candidates (L : Lib) (l : List Nsec3) (qname : Str) : Nat → Option (Str × Str)
  | 0 => none
  | k + 1 =>
    if nsec3MatchAny L l (lastNLabels qname k) then some (lastNLabels qname k, lastNLabels qname (k + 1))
    else nsec3Candidates L l qname k

/-- dnssec/denial_existence.go:272-282 `nsec3ClosestEncloser` -/
def nsec3ClosestEncloser (L : Lib) (l : List Nsec3) (qname : Str) : Option (Str × Str) :=
  let qname := canonicalName qname
  nsec3Candidates L l qname (countLabel qname)

/-- dnssec/denial_existence.go:217-245 `nsec3ProvesNODATA` -/
def nsec3ProvesNODATA (L : Lib) (l : List Nsec3) (qname : Str) (qtype : Nat) : Bool :=
  let qname := canonicalName qname
  match l.find? fun r => nsec3Match L r qname with
  | some r => lacks r.types qtype
  | none =>
    if qtype = typeDS ∧ nsec3OptOutCovers L l qname = true then true
    else match nsec3ClosestEncloser L l qname with
      | none => false
      | some (ce, nextCloser) =>
        if nsec3CoverAny L l nextCloser then
          match l.find? fun r => nsec3Match L r (wildcardOf ce) with
          | some r => lacks r.types qtype
          | none => false
        else false

/-- dnssec/denial_existence.go:252-266 `nsec3ProvesNXDOMAIN` -/
def nsec3ProvesNXDOMAIN (L : Lib) (l : List Nsec3) (qname : Str) : Bool := match nsec3ClosestEncloser L l qname with
  | none => false
  | some (ce, nextCloser) =>
    if nsec3CoverAny L l nextCloser = false then false
    else nsec3CoverAny L l (wildcardOf ce) || nsec3OptOutCovers L l nextCloser

/-- dnssec/denial_existence.go:203-214 `nsec3ProvesDenial` -/
def nsec3ProvesDenial (L : Lib) (l : List Nsec3) (qname : Str) (qtype rcode : Nat) : Bool :=
  if l = [] then false
  else if rcode = rcodeNameError then nsec3ProvesNXDOMAIN L l qname
  else if rcode = rcodeSuccess then nsec3ProvesNODATA L l qname qtype
  else false

/-! ### Absence of a DS record -/

/-- dnssec/denial.go:72-76 `bitmapProvesInsecureDelegation` -/
def insecureBitmap (types : List Nat) : Bool := types.contains typeNS && !types.contains typeDS && !types.contains typeSOA

/-- dnssec/denial.go:51-56 `nsecDeniesDS` -/
def nsecDeniesDS (r : Nsec) (name : Str) : Bool :=
  if canonicalName r.hdr.name ≠ name then false else insecureBitmap r.types

/-- dnssec/denial.go:61-66 `nsec3DeniesDS` -/
def nsec3DeniesDS (L : Lib) (r : Nsec3) (name : Str) : Bool :=
  if nsec3Match L r name then insecureBitmap r.types else decide (r.flags % 2 = 1) && nsec3Cover L r name

end Verif.Dnssec
