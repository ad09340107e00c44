import Verif.Model.Composition
import Verif.Spec.Modifiers
/-
C110 in words: modifiers on the ways to the servers, and the options queries carry.
-/
namespace Verif.Spec.Privacy
open Verif Verif.Composition Verif.Net

/-- The query carries the EDNS0 option `o`, in any OPT record. -/
def Carries (q : Msg) (o : EOpt) : Prop := ∃ r ∈ q.extra, ∃ e, r.edns? = some e ∧ o ∈ e.options

/-- All options the query carries are `good`. -/
def Only (good : EOpt → Prop) (q : Msg) : Prop := ∀ o, Carries q o → good o

/-- The query has one OPT record at most, as RFC 6891 demands. -/
def OneOpt (q : Msg) : Prop := (q.extra.filter fun r => r.edns?.isSome).length ≤ 1

/-- Behind the modifier there are only good options. -/
def Enforces (good : EOpt → Prop) (m : Modifier) : Prop := ∀ q ci, OneOpt q → Only good (m.apply q ci)

/-- Behind the modifier there are only good options if there were only good ones before it. -/
def Respects (good : EOpt → Prop) (m : Modifier) : Prop := ∀ q ci, Only good q → Only good (m.apply q ci)

/-- Modifiers on the way to a server: one of them enforces, those after it respect. -/
def Guard (good : EOpt → Prop) (ms : List Modifier) : Prop := ∃ pre m post, ms = pre ++ m :: post ∧ Enforces good m ∧ ∀ x ∈ post, Respects good x

/-- `Way t ms i`: there is a way from `t` to server `i` on which the modifiers are `ms`, in this order. -/
inductive Way {H : Type} : Tree H → List Modifier → Nat → Prop
  | client {i} : Way (.client i) [] i
  | modify {m t ms i} : Way t ms i → Way (.modify m t) (m :: ms) i
  | ttl {o t ms i} : Way t ms i → Way (.ttl o t) ms i
  | truncate {t u ms i} : Way t ms i → Way (.truncateRetry t u) ms i
  | retry {t u ms i} : Way u ms i → Way (.truncateRetry t u) ms i
  | collapse {n t ms i} : Way t ms i → Way (.collapse n t) ms i
  | minimize {t ms i} : Way t ms i → Way (.minimize t) ms i
  | blocklist {L t a b ms i} : Way t ms i → Way (.blocklist L t a b) ms i
  | blocklistAllow {L t a b ms i} : Way a ms i → Way (.blocklist L t a b) ms i
  | blocklistBlock {L t a b ms i} : Way b ms i → Way (.blocklist L t a b) ms i
  | clientBlocklist {L t b ms i} : Way t ms i → Way (.clientBlocklist L t b) ms i
  | clientBlocklistBlock {L t b ms i} : Way b ms i → Way (.clientBlocklist L t b) ms i
  | responseIp {L t b ms i} : Way t ms i → Way (.responseIp L t b) ms i
  | responseIpBlock {L t b ms i} : Way b ms i → Way (.responseIp L t b) ms i
  | responseName {L t b ms i} : Way t ms i → Way (.responseName L t b) ms i
  | responseNameBlock {L t b ms i} : Way b ms i → Way (.responseName L t b) ms i
  | rateLimit {h t l ms i} : Way t ms i → Way (.rateLimit h t l) ms i
  | rateLimitOver {h t l ms i} : Way l ms i → Way (.rateLimit h t l) ms i
  | replace {e t ms i} : Way t ms i → Way (.replace e t) ms i
  | syslog {o t ms i} : Way t ms i → Way (.syslog o t) ms i
  | queryLog {t ms i} : Way t ms i → Way (.queryLog t) ms i
  | dns64 {p t ms i} : Way t ms i → Way (.dns64 p t) ms i
  | failRotate {n ok member ms i} (k : Nat) : Way (member k) ms i → Way (.failRotate n ok member) ms i
  | failBack {n ok member ms i} (k : Nat) : Way (member k) ms i → Way (.failBack n ok member) ms i
  | failBackEach {n ok member ms i} (k : Nat) : Way (member k) ms i → Way (.failBackEach n ok member) ms i
  | roundRobin {n member ms i} (k : Nat) : Way (member k) ms i → Way (.roundRobin n member) ms i
  | random {n ok member ms i} (k : Nat) : Way (member k) ms i → Way (.random n ok member) ms i
  | loadBalance {n ok member ms i} (k : Nat) : Way (member k) ms i → Way (.loadBalance n ok member) ms i
  | fastest {n member ms i} (k : Nat) : Way (member k) ms i → Way (.fastest n member) ms i
  | fastestTcp {w n t ms i} : Way t ms i → Way (.fastestTcp w n t) ms i
  | router {routes member ms i} (k : Nat) : Way (member k) ms i → Way (.router routes member) ms i
  | dedup {t ms i} : Way t ms i → Way (.dedup t) ms i
  | cache {env o cap t ms i} : Way t ms i → Way (.cache env o cap t) ms i
  | prefetch {t ms i} : Way t ms i → Way (.prefetch t) ms i
  | dnssec {lo t ms i} : Way t ms i → Way (.dnssec lo t) ms i

/-- A client-subnet option has no address bits beyond these lengths. -/
def Coarse (prefix4 prefix6 : Nat) (o : EOpt) : Prop :=
  ∀ family mask scope addr, o = .ecs family mask scope addr → ∀ i : Nat, (bits addr)[i]? = some true → (family = 1 → i < prefix4) ∧ (family = 2 → i < prefix6)

end Verif.Spec.Privacy
