import Verif.Model.Dns
/-
validate.go and static_default_ports.go: addresses of upstream servers and listeners.

`net.SplitHostPort` and `net.JoinHostPort` are modelled after the Go library. `net.ParseIP` and `net/url` are parameters.
-/
namespace Verif.Validate
open Verif

/-- position of the first `c`. Go library (bytealg), for `net.SplitHostPort`, validate.go:12-27. -/
def index (c : UInt8) (s : Str) : Option Nat := if c ∈ s then some (s.takeWhile (· ≠ c)).length else none

/-- position of the last `c`. Go library (bytealg), for `net.SplitHostPort`, validate.go:12-27. -/
def lastIndex (c : UInt8) (s : Str) : Option Nat := if c ∈ s then some (s.length - 1 - (s.reverse.takeWhile (· ≠ c)).length) else none

/-- `net.SplitHostPort` (Go, net/ipsock.go); `none` is an error -/
def splitHostPort (s : Str) : Option (Str × Str) := match lastIndex 58 s with
  | none => none
  | some i =>
    if s.head? = some 91 then
      match index 93 s with
      | none => none
      | some e =>
        if e + 1 = i then
          if 91 ∈ s.drop 1 then none
          else if 93 ∈ s.drop (e + 1) then none
          else some ((s.take e).drop 1, s.drop (i + 1))
        else none
    else if 58 ∈ s.take i then none
    else if 91 ∈ s then none
    else if 93 ∈ s then none
    else some (s.take i, s.drop (i + 1))

/-- `net.JoinHostPort` (Go, net/ipsock.go) -/
def joinHostPort (host port : Str) : Str := if 58 ∈ host ∨ 37 ∈ host then 91 :: host ++ 93 :: 58 :: port else host ++ 58 :: port

/-- For `strconv`, validate.go:12-27 -/
def isDigit (c : UInt8) : Bool := 48 ≤ c && c ≤ 57

/-- value of a string of decimal digits. For `strconv`, validate.go:12-27. -/
def decimal (s : Str) : Nat := s.foldl (fun n c => 10 * n + (c.toNat - 48)) 0

/-- validate.go:17 `strconv.ParseUint(port, 10, 16)` gives no error -/
def validPort (s : Str) : Bool := s ≠ [] && s.all isDigit && decimal s ≤ 65535

/-- validate.go:47 -/
def validChar (c : UInt8) : Bool := isDigit c || (97 ≤ c && c ≤ 122) || (65 ≤ c && c ≤ 90) || c = 45

/-- validate.go:39-51: the loop over the characters of a label. The characters are runes in Go; a byte above 127 is part of a rune above 127, which is not valid either. -/
def validLabel (label : Str) : Bool := label.all fun c =>
  if label = [] then false
  else if label.head? = some 45 ∨ label.getLast? = some 45 then false
  else validChar c

/-- validate.go:29-60 `validHostname` -/
def validHostname (name : Str) : Bool :=
  if name = [] then false
  else if name.length > 255 then false
  else
    let labels := splitOn dot (trimDot name)
    if labels.all validLabel then (labels.getLastD []).any (fun c => !isDigit c) else false

/-- validate.go:12-25 `validEndpoint` -/
def validEndpoint (parseIP : Str → Option Str) (addr : Str) : Bool := match splitHostPort addr with
  | none => false
  | some (host, port) => if !validPort port then false else if (parseIP host).isSome then true else validHostname host

/-- A URL of `net/url`: host and port, and the text with another host part. Go library; used in static_default_ports.go:20-47. -/
structure Url where
  hostname : Str
  port : Str
  text : Option Str → Str

/-- static_default_ports.go:20-47 `AddressWithDefault` -/
def addressWithDefault (parse : Str → Option Url) (addr port : Str) : Str :=
  let endpoint := addr.takeWhile (· ≠ 123)
  let template := addr.dropWhile (· ≠ 123)
  if 47 ∈ endpoint then
    match parse endpoint with
    | none => addr
    | some u => u.text (if u.port = [] then some (joinHostPort u.hostname port) else none) ++ template
  else if 58 ∈ endpoint then addr
  else joinHostPort endpoint port

end Verif.Validate
