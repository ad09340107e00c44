import Verif.Spec.Logging
/-! Log lines of queries: logger.go, and the levels of cmd/routedns/main.go. Attributes are kept in Go slices, which share arrays. -/
namespace Verif.Logging
open Verif.Spec.Logging (Arg Attr Level Client Asked Happens Line context)

/-- A Go slice (of `any`): the array, the length and the capacity. The slices of logger.go:44 all begin at the beginning of their array. -/
structure Slice where
  arr : Nat
  len : Nat
  cap : Nat
deriving DecidableEq, Repr

/-- `queryLogger`, logger.go:32-45. `dst` is never nil for loggers made by `logger` (the only way in the program). -/
structure Logger (V : Type) where
  dst : Nat
  id : Str
  query : Option Nat
  client : Client V
  extra : Slice

/-- The memory: arrays with their cells (`none`: not yet written), the messages, `Log` (logger.go:15), and what was written. -/
structure St (V : Type) where
  arrs : List (List (Option (Arg V)))
  loggers : List (Logger V)
  queries : Nat → List Asked
  current : Nat
  shows : Nat → Level → Bool
  lines : List (Line V)

/-- What a slice contains (`l.extra...` in logger.go:95). -/
def St.read {V : Type} (s : St V) (sl : Slice) : List (Option (Arg V)) := ((s.arrs[sl.arr]?).getD []).take sl.len

/-- Cells of an array are overwritten from position `i` on (Go's copy within `append`, logger.go:59). -/
def overwrite {α : Type} (a : List α) (i : Nat) (xs : List α) : List α := a.take i ++ xs ++ a.drop (i + xs.length)

/-- `slices.Clip`, used in logger.go:59. -/
def clip (sl : Slice) : Slice := { sl with cap := sl.len }

/-- The built-in `append`, used in logger.go:59: in place if the capacity allows it, and otherwise into a new array, with `spare` more cells
than needed (what the runtime chooses). -/
def append {V : Type} (s : St V) (sl : Slice) (xs : List (Arg V)) (spare : Nat) : St V × Slice :=
  if sl.len + xs.length ≤ sl.cap then
    ({ s with arrs := s.arrs.modify sl.arr fun a => overwrite a sl.len (xs.map some) }, { sl with len := sl.len + xs.length })
  else
    ({ s with arrs := s.arrs ++ [s.read sl ++ xs.map some ++ List.replicate spare none] },
      ⟨s.arrs.length, sl.len + xs.length, sl.len + xs.length + spare⟩)

/-- `logger`, logger.go:47-49. The nil slice has no array; 0 stands for it. -/
def make {V : Type} (s : St V) (id : Str) (q : Option Nat) (c : Client V) : St V :=
  { s with loggers := s.loggers ++ [⟨s.current, id, q, c, ⟨0, 0, 0⟩⟩] }

/-- `With`, logger.go:52-61. -/
def more {V : Type} (s : St V) (l : Logger V) (args : List (Arg V)) (spare : Nat) : St V :=
  if args.length = 0 then { s with loggers := s.loggers ++ [l] }
  else
    let (s', sl) := append s (clip l.extra) args spare
    { s' with loggers := s'.loggers ++ [{ l with extra := sl }] }

/-- slog's `argsToAttr` in a loop, as `Record.Add` does (called in logger.go:81-96). (It leaves out empty groups of attributes, which are not used.) -/
def toAttrs {V : Type} : List (Arg V) → List (Attr V)
  | [] => []
  | [.text s] => [(str "!BADKEY", .text s)]
  | .text k :: v :: rest => (k, v) :: toAttrs rest
  | .attr k v :: rest => (k, v) :: toAttrs rest
  | .other v :: rest => (str "!BADKEY", .other v) :: toAttrs rest

/-- `qTypeName`, logger.go:108-113. -/
def qTypeName (qs : List Asked) : Str := match qs with
  | [] => []
  | q :: _ => q.type

/-- `qName`, message.go:40-45. -/
def qName (qs : List Asked) : Str := match qs with
  | [] => []
  | q :: _ => q.name

/-- `log`, logger.go:68-98. A cell that was never written would be nil. -/
def log {V : Type} (s : St V) (l : Logger V) (level : Level) (text : Str) (args : List (Arg V)) : St V :=
  if ! s.shows l.dst level then s
  else
    let r : List (Attr V) := [(str "id", .text l.id), (str "client", .other l.client.source)]
    let r := match l.query with
      | none => r
      | some q => r ++ [(str "qtype", .text (qTypeName (s.queries q))), (str "qname", .text (qName (s.queries q)))]
    let r := if l.client.protocol ≠ [] then r ++ [(str "protocol", .text l.client.protocol)] else r
    let r := if l.client.listener ≠ [] then r ++ [(str "addr", .text l.client.listener)] else r
    let r := if l.client.path ≠ [] then r ++ [(str "path", .text l.client.path)] else r
    let r := r ++ toAttrs ((s.read l.extra).filterMap fun c => c)
    let r := r ++ toAttrs args
    { s with lines := s.lines ++ [⟨l.dst, level, text, r⟩] }

/-- One thing happens: a call of logger.go, or a change by other parts of the program. With a call of `With` comes what the runtime chooses in
`append`. -/
def St.after {V : Type} (s : St V) : Happens V (List (Arg V) × Nat) → St V
  | .make id q c => make s id q c
  | .more l args => match s.loggers[l]? with
    | none => s
    | some x => more s x args.1 args.2
  | .log l level text args => match s.loggers[l]? with
    | none => s
    | some x => log s x level text args.1
  | .change q qs => { s with queries := fun a => if a = q then qs else s.queries a }
  | .replace d => { s with current := d }
  | .levels f => { s with shows := f }

/-- slog's numbers of the levels, used in logger.go:63-66. -/
def number : Level → Int
  | .debug => -4
  | .info => 0
  | .warn => 4
  | .error => 8

/-- `slogLevel`, cmd/routedns/main.go:143-158. `none`: the error. -/
def slogLevel (n : Nat) : Option Int :=
  if n = 0 ∨ n = 1 then some 9223372036854775807
  else if n = 2 then some 8
  else if n = 3 then some 4
  else if n = 4 then some 0
  else if n = 5 ∨ n = 6 then some (-4)
  else none

/-- The handler set in cmd/routedns/main.go:115 and 189: it shows lines of its level and above. -/
def shows (min : Int) (l : Level) : Bool := decide (number l ≥ min)

end Verif.Logging
