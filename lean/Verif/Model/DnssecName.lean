import Verif.Model.Blocklist
/-
Names in dnssec/*.go: canonical form, labels, canonical order, parent zone.

Names are Go strings in the presentation form of `miekg/dns`, in which `\.` is a dot inside a label and `\DDD` a byte. The functions of the library
that are used here (`CanonicalName`, `SplitDomainName`, `CompareDomainName`, `CountLabel`, `IsSubDomain`) are modelled as they are documented, for
fully qualified names: every name handed to them by the package went through `CanonicalName`.
-/
namespace Verif.Dnssec
open Verif

/-- The root, `"."`. As in dnssec/validator.go:369-380. -/
abbrev root : Str := [46]

/-- `dns.CanonicalName`: fully qualified and in lower case. (ASCII only; the library writes other bytes as `\DDD`). miekg/dns; used in dnssec/denial_existence.go:22-51 and dnssec/validator.go. -/
def canonicalName (s : Str) : Str := lower (Blocklist.fqdn s)

/-- The parts of a text between its unescaped dots. `esc` says that an odd number of `\` came just before. miekg/dns `NextLabel`; used in `dns.SplitDomainName`, dnssec/denial_existence.go:313-322. -/
def splitUnescaped : Bool → Str → List Str
  | _, [] => [[]]
  | esc, c :: cs =>
    if c = 46 ∧ esc = false then [] :: splitUnescaped false cs
    else match splitUnescaped (c = 92 && !esc) cs with
      | [] => [[c]]
      | p :: ps => (c :: p) :: ps

/-- `dns.SplitDomainName` of a fully qualified name: the labels as they are written, without the final dot. miekg/dns; used in dnssec/denial_existence.go:313-322, dnssec/validator.go:116-137. -/
def splitName (s : Str) : List Str := if s = root then [] else splitUnescaped false s.dropLast

/-- `dns.CountLabel`. miekg/dns; used in dnssec/denial_existence.go:272-282. -/
def countLabel (s : Str) : Nat := (splitName s).length

/-- The length of the common prefix of two lists of labels, ignoring case. Part of `dns.CompareDomainName`, dnssec/denial_existence.go:177-185. -/
def commonPrefix : List Str → List Str → Nat
  | a :: as, b :: bs => if equalFold a b then commonPrefix as bs + 1 else 0
  | _, _ => 0

/-- `dns.CompareDomainName`: the number of labels two names have in common from the right. miekg/dns; used in dnssec/denial_existence.go:177-185. -/
def compareName (a b : Str) : Nat := commonPrefix (splitName a).reverse (splitName b).reverse

/-- `dns.IsSubDomain(parent, child)`. miekg/dns; used in dnssec/denial_existence.go:79-96. -/
def isSubDomain (parent child : Str) : Bool := compareName parent child = countLabel parent

/-- dnssec/denial_existence.go:383 -/
def isDigit (b : UInt8) : Bool := 48 ≤ b && b ≤ 57

/-- dnssec/denial_existence.go:357-380: the loop of `canonicalLabels`; `cur` is the label being collected. Go's byte arithmetic wraps as `UInt8`'s does. -/
def rawLabels (cur : Str) : Str → List Str
  | [] => []
  | 92 :: [] => []
  | 92 :: a :: b :: c :: cs =>
    if isDigit a && isDigit b && isDigit c then rawLabels (cur ++ [(a - 48) * 100 + (b - 48) * 10 + (c - 48)]) cs
    else rawLabels (cur ++ [a]) (b :: c :: cs)
  | 92 :: a :: cs => rawLabels (cur ++ [a]) cs
  | x :: cs => if x = 46 then cur :: rawLabels [] cs else rawLabels (cur ++ [x]) cs

/-- dnssec/denial_existence.go:351-381 `canonicalLabels` -/
def canonicalLabels (name : Str) : List Str :=
  let name := canonicalName name
  if name = root then [] else rawLabels [] name

/-- `bytes.Compare`. Go library; used in dnssec/denial_existence.go:328-349. -/
def bytesCompare : Str → Str → Int
  | [], [] => 0
  | [], _ :: _ => -1
  | _ :: _, [] => 1
  | a :: as, b :: bs => if a < b then -1 else if b < a then 1 else bytesCompare as bs

/-- dnssec/denial_existence.go:331-346: the loop over the labels of both names from the last one, here over the reversed lists -/
def cmpLabels : List Str → List Str → Int
  | [], [] => 0
  | [], _ :: _ => -1
  | _ :: _, [] => 1
  | a :: as, b :: bs => if bytesCompare a b ≠ 0 then bytesCompare a b else cmpLabels as bs

/-- dnssec/denial_existence.go:328-347 `canonicalNameCmp` -/
def canonicalNameCmp (a b : Str) : Int := cmpLabels (canonicalLabels a).reverse (canonicalLabels b).reverse

/-- dnssec/denial_existence.go:313-322 `lastNLabels`; `n` is never negative at the callers -/
def lastNLabels (name : Str) (n : Nat) : Str :=
  if n = 0 then root
  else
    let labels := splitName name
    if n ≥ labels.length then canonicalName name
    else Blocklist.fqdn (joinWith 46 (labels.drop (labels.length - n)))

/-- `strings.Cut(name, ".")`, the part after the separator, if there is one. Go library; used in dnssec/validator.go:369-380. -/
def cutDot : Str → Option Str
  | [] => none
  | c :: cs => if c = 46 then some cs else cutDot cs

/-- dnssec/validator.go:369-379 `parentZone` -/
def parentZone (name : Str) : Str :=
  let name := canonicalName name
  if name = root then root
  else match cutDot name with
    | none => root
    | some [] => root
    | some p => p

end Verif.Dnssec
