import Verif.Model.Dns
/-
A small part of Go's `regexp`: expressions with a `^` in front and a `$` at the end, so that the whole string has to match. Characters are bytes; the classes used are
within ASCII, and a byte above 127 belongs to a rune above 127.
-/
namespace Verif.Regex
open Verif

/-- Regular expressions, as used in odohlistener.go:129 and blocklistdb-regexp.go:21-55 -/
inductive Re where
  | none
  | eps
  | cls (p : UInt8 → Bool)
  | alt (a b : Re)
  | seq (a b : Re)
  | star (a : Re)

/-- `x+`. As in odohlistener.go:129. -/
def Re.plus (r : Re) : Re := .seq r (.star r)

/-- the expression matches the empty string. Go library regexp; odohlistener.go:129. -/
def Re.nullable : Re → Bool
  | .none => false
  | .eps => true
  | .cls _ => false
  | .alt a b => a.nullable || b.nullable
  | .seq a b => a.nullable && b.nullable
  | .star _ => true

/-- what the rest has to match after the character `c` (Brzozowski). Go library regexp; odohlistener.go:129. -/
def Re.deriv (c : UInt8) : Re → Re
  | .none => .none
  | .eps => .none
  | .cls p => if p c then .eps else .none
  | .alt a b => .alt (a.deriv c) (b.deriv c)
  | .seq a b => if a.nullable then .alt (.seq (a.deriv c) b) (b.deriv c) else .seq (a.deriv c) b
  | .star a => .seq (a.deriv c) (.star a)

/-- `MatchString` of `^r$`. Go library regexp; odohlistener.go:129. -/
def Re.matches (r : Re) : Str → Bool
  | [] => r.nullable
  | c :: s => (r.deriv c).matches s

end Verif.Regex
