import Verif.Model.Dns
/-
Domain names as RFC 1035 and RFC 4034 define them: lists of labels of arbitrary bytes; how `miekg/dns` writes a name it read from the wire as a string;
and the canonical order of RFC 4034 section 6.1.
-/
namespace Verif.DnssecSpec
open Verif

/-- A domain name: its labels, the leftmost first, without the empty root label -/
abbrev Name := List Str

/-- Labels are not empty -/
def WfName (n : Name) : Prop := ∀ l ∈ n, l ≠ []

/-- The bytes that get a `\` in front: `.`, space, `'`, `@`, `;`, `(`, `)`, `"`, `\` -/
def special : List UInt8 := [46, 32, 39, 64, 59, 40, 41, 34, 92]

/-- How a byte of a label is written: specials as `\X`, bytes that can not be printed as `\DDD`, others as they are -/
def escByte (b : UInt8) : Str :=
  if b ∈ special then [92, b]
  else if b < 32 ∨ b > 126 then [92, 48 + b / 100, 48 + b / 10 % 10, 48 + b % 10]
  else [b]

def escLabel (l : Str) : Str := l.flatMap escByte

/-- How a name is written: each label followed by a dot, the root as a single dot -/
def present (n : Name) : Str := if n = [] then [46] else n.flatMap fun l => escLabel l ++ [46]

/-- The name with ASCII letters in lower case; two names are the same for the DNS if these are equal -/
def canon (n : Name) : Name := n.map lower

/-- RFC 4034 6.1: names are sorted by their most significant (rightmost) labels first, labels as strings of lower case octets, where the absence of
an octet (or a label) sorts before any octet (or label). `<` on lists is the lexicographic order. -/
def CanonLt (a b : Name) : Prop := (canon a).reverse < (canon b).reverse

/-- `a` is `n` or above it -/
def AncestorOrSelf (a n : Name) : Prop := canon a <:+ canon n

end Verif.DnssecSpec
