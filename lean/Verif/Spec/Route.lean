import Verif.Model.Route
import Verif.Spec.Letters
/-
C37, C38 in words.
-/
namespace Verif.Spec.Route
open Verif Verif.Net Verif.Cidr Verif.Route

/-- The address lies in the network: same IP version, and the leading bits agree. IPv4 addresses may be written as IPv6 ones (then 96 bits in front do not count). -/
def Lies (n : IPNet) (ip : Str) : Prop := match to4 n.ip, to4 ip with
  | some a, some b => (bits a).take (if n.ip.length = 16 then n.ones - 96 else n.ones) = (bits b).take (if n.ip.length = 16 then n.ones - 96 else n.ones)
  | none, none => ip.length = 16 ∧ (bits n.ip).take n.ones = (bits ip).take n.ones
  | _, _ => False

/-- The last client-subnet option of the query has address `ip`. -/
def EcsAddress (q : Msg) (ip : Str) : Prop :=
  ∃ (e : Edns) (pre post : List EOpt) (f m s : Nat), q.edns? = some e ∧ e.options = pre ++ .ecs f m s ip :: post ∧ ∀ f m s a, EOpt.ecs f m s a ∉ post

/-- Decimal value of a text of digits -/
def value (s : Str) : Nat := s.foldl (fun n c => n * 10 + (c.toNat - 48)) 0

/-- A decimal number, possibly with a sign -/
def Number (s : Str) (n : Nat) : Prop :=
  ∃ sign ds, s = sign ++ ds ∧ ds ≠ [] ∧ (∀ c, c ∈ ds → 48 ≤ c ∧ c ≤ 57) ∧ value ds = n ∧ (sign = [] ∨ sign = [43] ∨ (sign = [45] ∧ n = 0))

/-- `HH` or `HH:MM` shows the minute of the day `h * 60 + m`. -/
def ClockText (s : Str) (h m : Nat) : Prop :=
  h < 24 ∧ m < 60 ∧ ((Number s h ∧ 58 ∉ s ∧ m = 0) ∨ ∃ a b, s = a ++ 58 :: b ∧ 58 ∉ a ∧ Number a h ∧ Number b m)

/-- The names of the classes -/
def className : Nat → List Str
  | 1 => [str "IN", str "INET"]
  | 3 => [str "CH"]
  | 4 => [str "HS"]
  | 254 => [str "NONE"]
  | 255 => [str "ANY"]
  | _ => []

/-- The names of the days, from Sunday -/
def dayNames : List Str := [str "sun", str "mon", str "tue", str "wed", str "thu", str "fri", str "sat"]

def Now.minutes (n : Now) : Nat := n.hour * 60 + n.minute

/-- All conditions of a route, as configured, hold for a query. -/
structure Holds (table : List (Nat × Str)) (compile : Str → Option (Str → Bool)) (parseCIDR : Str → Option (Str × IPNet)) (c : Config)
    (q : Msg) (qu : Question) (ci : ClientInfo) (now : Now) : Prop where
  types : c.types = [] ∨ ∃ t, t ∈ c.types ∧ ∃ n, (qu.qtype, n) ∈ table ∧ InCapitals n t
  cls : c.cls = [] ∨ ∃ n, n ∈ className qu.qclass ∧ InCapitals n c.cls
  name : ∃ f, compile c.name = some f ∧ f qu.name = true
  source : c.source = [] ∨ ∃ e, parseCIDR c.source = some e ∧ Lies e.2 ci.sourceIP
  ecs : c.ecsSource = [] ∨ ∃ e ip, parseCIDR c.ecsSource = some e ∧ EcsAddress q ip ∧ Lies e.2 ip
  doh : ∃ f, compile c.dohPath = some f ∧ f ci.dohPath = true
  listener : ∃ f, compile c.listenerID = some f ∧ f ci.listener = true
  tls : ∃ f, compile c.tlsServerName = some f ∧ f ci.tlsServerName = true
  weekday : c.weekdays = [] ∨ ∃ d, d ∈ c.weekdays ∧ dayNames[now.weekday]? = some d
  before : c.before = [] ∨ ∃ h m, ClockText c.before h m ∧ Now.minutes now < h * 60 + m
  after : c.after = [] ∨ ∃ h m, ClockText c.after h m ∧ h * 60 + m ≤ Now.minutes now

end Verif.Spec.Route
