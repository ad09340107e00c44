import Verif.Model.Composition
/-
C100: how many queries to servers one query of a client may cause.
-/
namespace Verif.Spec.Effort
open Verif Verif.Composition

/-- One query given to the element causes at most that many queries to servers. Elements that validate or prefetch are not in it: what these ask on their own depends on names and time. -/
inductive Costs {H : Type} : Tree H → Nat → Prop
  | client {i} : Costs (.client i) 1
  /-- elements that answer or drop queries themselves cause none -/
  | drop : Costs .drop 0
  | static {s} : Costs (.static s) 0
  | template {f s} : Costs (.template f s) 0
  /-- elements that pass a query on cause no more than what they pass it to, caches and de-duplication too -/
  | ttl {o t c} : Costs t c → Costs (.ttl o t) c
  | collapse {n t c} : Costs t c → Costs (.collapse n t) c
  | minimize {t c} : Costs t c → Costs (.minimize t) c
  | modify {m t c} : Costs t c → Costs (.modify m t) c
  | replace {e t c} : Costs t c → Costs (.replace e t) c
  | syslog {o t c} : Costs t c → Costs (.syslog o t) c
  | queryLog {t c} : Costs t c → Costs (.queryLog t) c
  | fastestTcp {w m t c} : Costs t c → Costs (.fastestTcp w m t) c
  | dedup {t c} : Costs t c → Costs (.dedup t) c
  | cache {env o cap t c} : Costs t c → Costs (.cache env o cap t) c
  /-- elements that choose where a query goes cause what the dearest of these causes -/
  | blocklist {L t a b c d e} : Costs t c → Costs a d → Costs b e → Costs (.blocklist L t a b) (max c (max d e))
  | clientBlocklist {L t b c d} : Costs t c → Costs b d → Costs (.clientBlocklist L t b) (max c d)
  | rateLimit {h t l c d} : Costs t c → Costs l d → Costs (.rateLimit h t l) (max c d)
  | router {rs member c} : (∀ i, Costs (member i) c) → Costs (.router rs member) c
  | roundRobin {n member c} : (∀ i, Costs (member i) c) → Costs (.roundRobin n member) c
  /-- elements that ask a second time cause both -/
  | truncateRetry {t u c d} : Costs t c → Costs u d → Costs (.truncateRetry t u) (c + d)
  | responseIp {L t b c d} : Costs t c → Costs b d → Costs (.responseIp L t b) (c + d)
  | responseName {L t b c d} : Costs t c → Costs b d → Costs (.responseName L t b) (c + d)
  | dns64 {ps t c} : Costs t c → Costs (.dns64 ps t) (2 * c)
  /-- groups ask each member once at most -/
  | failRotate {n ok member c} : (∀ i, Costs (member i) c) → Costs (.failRotate n ok member) (n * c)
  | failBack {n ok member c} : (∀ i, Costs (member i) c) → Costs (.failBack n ok member) (n * c)
  | failBackEach {n ok member c} : (∀ i, Costs (member i) c) → Costs (.failBackEach n ok member) (n * c)
  | random {n ok member c} : (∀ i, Costs (member i) c) → Costs (.random n ok member) (n * c)
  | loadBalance {n ok member c} : (∀ i, Costs (member i) c) → Costs (.loadBalance n ok member) (n * c)
  | fastest {n member} {c : Nat → Nat} : (∀ i, Costs (member i) (c i)) → Costs (.fastest n member) ((List.range n).map c).sum
  /-- any higher number will do -/
  | weaken {t c d} : Costs t c → c ≤ d → Costs t d

end Verif.Spec.Effort
