import Verif.Model.Net
import Verif.Model.Cidr
/-
router.go, route.go.

Regular expressions, `net.ParseCIDR` and the table of type names (`dns.TypeToString`) are parameters. The time of a query is its local weekday (0 = Sunday), hour
and minute.
-/
namespace Verif.Route
open Verif Verif.Net Verif.Cidr

/-- `net.networkNumberAndMask` and `net.IPNet.Contains`; the mask has `n.ones` leading ones and the length of `n.ip`. Go library; used in route.go:103-170. -/
def contains (n : IPNet) (ip : Str) : Bool :=
  let nn := (to4 n.ip).getD n.ip
  let m := cidrMaskBytes n.ip.length n.ones
  let m := if m.length = 16 ∧ nn.length = 4 then m.drop 12 else m
  let ip := (to4 ip).getD ip
  if nn.length ≠ 4 ∧ nn.length ≠ 16 then ip.length = 0
  else ip.length = nn.length ∧ List.zipWith (· &&& ·) nn m = List.zipWith (· &&& ·) ip m

/-- route.go:320-322 -/
structure TimeOfDay where
  hour : Nat
  minute : Nat
deriving DecidableEq, Repr

/-- route.go:352-354 -/
def TimeOfDay.isBefore (t : TimeOfDay) (hour minute : Nat) : Bool := t.hour < hour ∨ (t.hour = hour ∧ t.minute ≤ minute)
/-- route.go:356-358 -/
def TimeOfDay.isAfter (t : TimeOfDay) (hour minute : Nat) : Bool := t.hour > hour ∨ (t.hour = hour ∧ t.minute > minute)

/-- The local time of a query. route.go:103-170. -/
structure Now where
  weekday : Nat
  hour : Nat
  minute : Nat
deriving DecidableEq, Repr

/-- route.go:16-30, without the resolver -/
structure Route where
  types : List Nat
  cls : Nat
  name : Str → Bool
  source : Option IPNet
  ecsSource : Option IPNet
  weekdays : List Nat
  before : Option TimeOfDay
  after : Option TimeOfDay
  inverted : Bool
  dohPath : Str → Bool
  listenerID : Str → Bool
  tlsServerName : Str → Bool

/-- route.go:118-134: the address of the last client-subnet option -/
def ecsIP (q : Msg) : Str := match q.edns? with
  | none => []
  | some e => e.options.foldl (fun acc o => match o with
    | .ecs _ _ _ addr => addr
    | _ => acc) []

/-- route.go:103-170 `match` for the first question `qu` -/
def matches' (r : Route) (q : Msg) (qu : Question) (ci : ClientInfo) (now : Now) : Bool :=
  if r.types ≠ [] ∧ ¬ r.types.contains qu.qtype then r.inverted
  else if r.cls ≠ 0 ∧ r.cls ≠ qu.qclass then r.inverted
  else if ¬ r.name qu.name then r.inverted
  else if r.source.any (fun n => ! contains n ci.sourceIP) then r.inverted
  else if r.ecsSource.any (fun n => ecsIP q = [] || ! contains n (ecsIP q)) then r.inverted
  else if ¬ r.dohPath ci.dohPath then r.inverted
  else if ¬ r.listenerID ci.listener then r.inverted
  else if ¬ r.tlsServerName ci.tlsServerName then r.inverted
  else if r.weekdays ≠ [] ∧ ¬ r.weekdays.contains now.weekday then r.inverted
  else if r.before.any (fun t => ! t.isAfter now.hour now.minute) then r.inverted
  else if r.after.any (fun t => ! t.isBefore now.hour now.minute) then r.inverted
  else ! r.inverted

/-! ### From the configuration -/

/-- `strings.ToUpper`, ASCII only. Used in route.go:237-274. -/
def upper (s : Str) : Str := s.map fun c => if 97 ≤ c ∧ c ≤ 122 then c - 32 else c

/-- route.go:237-253 `stringToType`; `table` is `dns.TypeToString` -/
def stringToType (table : List (Nat × Str)) : List Str → Option (List Nat)
  | [] => some []
  | t :: ts => match table.find? (fun e => e.2 = upper t) with
    | none => none
    | some e => (stringToType table ts).map (e.1 :: ·)

/-- route.go:256-273 `stringToClass` -/
def stringToClass (s : Str) : Option Nat :=
  let s := upper s
  if s = [] then some 0
  else if s = str "IN" ∨ s = str "INET" then some 1
  else if s = str "CH" then some 3
  else if s = str "HS" then some 4
  else if s = str "NONE" then some 254
  else if s = str "ANY" then some 255
  else none

/-- route.go:296-314 -/
def weekday (s : Str) : Option Nat :=
  if s = str "mon" then some 1
  else if s = str "tue" then some 2
  else if s = str "wed" then some 3
  else if s = str "thu" then some 4
  else if s = str "fri" then some 5
  else if s = str "sat" then some 6
  else if s = str "sun" then some 0
  else none

/-- route.go:293-318 `stringsToWeekdays` -/
def stringsToWeekdays : List Str → Option (List Nat)
  | [] => some []
  | d :: ds => match weekday d with
    | none => none
    | some n => (stringsToWeekdays ds).map (n :: ·)

/-- digits to a number. For `strconv.Atoi`, route.go:324-350. -/
def digits (acc : Nat) : Str → Option Nat
  | [] => some acc
  | c :: cs => if 48 ≤ c ∧ c ≤ 57 then digits (acc * 10 + (c.toNat - 48)) cs else none

/-- `strconv.Atoi`; numbers too large for an `int`, which it rejects, are rejected by the callers here. Go library; used in route.go:324-350. -/
def atoi (s : Str) : Option Int := match s with
  | [] => none
  | 43 :: r => if r = [] then none else (digits 0 r).map fun n : Nat => (n : Int)
  | 45 :: r => if r = [] then none else (digits 0 r).map fun n : Nat => - (n : Int)
  | r => (digits 0 r).map fun n : Nat => (n : Int)

/-- `strings.SplitN(t, ":", 2)`. Go library; used in route.go:324-350. -/
def cutColon : Str → Str × Option Str
  | [] => ([], none)
  | c :: cs => if c = 58 then ([], some cs) else let (a, b) := cutColon cs; (c :: a, b)

/-- route.go:324-350 `parseTimeOfDay`; `none` is an error, `some none` no time -/
def parseTimeOfDay (t : Str) : Option (Option TimeOfDay) :=
  if t = [] then some none
  else
    match atoi (cutColon t).1 with
    | none => none
    | some hour =>
      if hour < 0 ∨ hour > 23 then none
      else match (cutColon t).2 with
        | none => some (some ⟨hour.toNat, 0⟩)
        | some f => match atoi f with
          | none => none
          | some min => if min < 0 ∨ min > 59 then none else some (some ⟨hour.toNat, min.toNat⟩)

/-- The parameters of `NewRoute`. route.go:33. -/
structure Config where
  name : Str := []
  cls : Str := []
  types : List Str := []
  weekdays : List Str := []
  before : Str := []
  after : Str := []
  source : Str := []
  ecsSource : Str := []
  dohPath : Str := []
  listenerID : Str := []
  tlsServerName : Str := []
  invert : Bool := false
deriving DecidableEq, Repr

/-- route.go:73-86 -/
def parseNet (parseCIDR : Str → Option (Str × IPNet)) (s : Str) : Option (Option IPNet) :=
  if s = [] then some none else (parseCIDR s).map fun e => some e.2

/-- route.go:33-101 `NewRoute` with a resolver, and 172-174 `Invert` -/
def newRoute (table : List (Nat × Str)) (compile : Str → Option (Str → Bool)) (parseCIDR : Str → Option (Str × IPNet)) (c : Config) : Option Route := do
  let t ← stringToType table c.types
  let w ← stringsToWeekdays c.weekdays
  let b ← parseTimeOfDay c.before
  let a ← parseTimeOfDay c.after
  let cl ← stringToClass c.cls
  let re ← compile c.name
  let dohRe ← compile c.dohPath
  let listenerRe ← compile c.listenerID
  let tlsRe ← compile c.tlsServerName
  let sNet ← parseNet parseCIDR c.source
  let ecsNet ← parseNet parseCIDR c.ecsSource
  pure { types := t, cls := cl, name := re, source := sNet, ecsSource := ecsNet, weekdays := w, before := b, after := a, inverted := c.invert,
         dohPath := dohRe, listenerID := listenerRe, tlsServerName := tlsRe }

/-! ### Router -/

/-- router.go:48-66 `Resolve`: the number of the route taken (its resolver gets the query and its result is returned), `none` for the error "no route". `now` is
the time at which each route looks at the clock. The outer `none` is the panic on a query without question. -/
def routeIndex (routes : List Route) (q : Msg) (qu : Question) (ci : ClientInfo) (now : Nat → Now) (i : Nat) : Option Nat := match routes with
  | [] => none
  | r :: rs => if matches' r q qu ci (now i) then some i else routeIndex rs q qu ci now (i + 1)

/-- router.go:48-72 -/
def resolve (routes : List Route) (resolvers : Nat → Msg → ClientInfo → Res) (q : Msg) (ci : ClientInfo) (now : Nat → Now) : Option Res := match q.question with
  | [] => none
  | qu :: _ => match routeIndex routes q qu ci now 0 with
    | some i => some (resolvers i q ci)
    | none => some (.fail "no route")

end Verif.Route
