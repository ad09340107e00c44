import Verif.Model.Composition
/-
C102: how long a reply may take.
-/
namespace Verif.Spec.Timed
open Verif Verif.Composition

/-- If an answer or an error of server `i` is there after `lim i`, the element replies after the given time at the latest. Elements that validate, and those that make probes,
are not in it: how often these ask depends on names, and what they do takes time of its own. -/
inductive Takes {H : Type} (lim : Nat → Nat) : Tree H → Nat → Prop
  | client {i} : Takes lim (.client i) (lim i)
  /-- elements that answer or drop queries themselves do so at once -/
  | drop : Takes lim .drop 0
  | static {s} : Takes lim (.static s) 0
  | template {f s} : Takes lim (.template f s) 0
  /-- elements that pass a query on take as long as what they pass it to; with refresh, prefetch and de-duplication too -/
  | ttl {o t c} : Takes lim t c → Takes lim (.ttl o t) c
  | collapse {n t c} : Takes lim t c → Takes lim (.collapse n t) c
  | minimize {t c} : Takes lim t c → Takes lim (.minimize t) c
  | modify {m t c} : Takes lim t c → Takes lim (.modify m t) c
  | replace {e t c} : Takes lim t c → Takes lim (.replace e t) c
  | syslog {o t c} : Takes lim t c → Takes lim (.syslog o t) c
  | queryLog {t c} : Takes lim t c → Takes lim (.queryLog t) c
  | dedup {t c} : Takes lim t c → Takes lim (.dedup t) c
  | cache {env o cap t c} : Takes lim t c → Takes lim (.cache env o cap t) c
  | prefetch {t c} : Takes lim t c → Takes lim (.prefetch t) c
  /-- elements that choose where a query goes take as long as the slowest of these -/
  | blocklist {L t a b c d e} : Takes lim t c → Takes lim a d → Takes lim b e → Takes lim (.blocklist L t a b) (max c (max d e))
  | clientBlocklist {L t b c d} : Takes lim t c → Takes lim b d → Takes lim (.clientBlocklist L t b) (max c d)
  | rateLimit {h t l c d} : Takes lim t c → Takes lim l d → Takes lim (.rateLimit h t l) (max c d)
  | router {rs member b} {c : Nat → Nat} : (∀ i, Takes lim (member i) (c i)) → (∀ i, c i ≤ b) → Takes lim (.router rs member) b
  | roundRobin {n member b} {c : Nat → Nat} : (∀ i, Takes lim (member i) (c i)) → (∀ i, c i ≤ b) → Takes lim (.roundRobin n member) b
  /-- elements that ask a second time take the sum -/
  | truncateRetry {t u c d} : Takes lim t c → Takes lim u d → Takes lim (.truncateRetry t u) (c + d)
  | responseIp {L t b c d} : Takes lim t c → Takes lim b d → Takes lim (.responseIp L t b) (c + d)
  | responseName {L t b c d} : Takes lim t c → Takes lim b d → Takes lim (.responseName L t b) (c + d)
  | dns64 {ps t c} : Takes lim t c → Takes lim (.dns64 ps t) (2 * c)
  /-- groups that try one member after the other -/
  | failRotate {n ok member b} {c : Nat → Nat} : (∀ i, Takes lim (member i) (c i)) → (∀ i, c i ≤ b) → Takes lim (.failRotate n ok member) (n * b)
  | failBack {n ok member b} {c : Nat → Nat} : (∀ i, Takes lim (member i) (c i)) → (∀ i, c i ≤ b) → Takes lim (.failBack n ok member) (n * b)
  | failBackEach {n ok member b} {c : Nat → Nat} : (∀ i, Takes lim (member i) (c i)) → (∀ i, c i ≤ b) → Takes lim (.failBackEach n ok member) (n * b)
  | random {n ok member b} {c : Nat → Nat} : (∀ i, Takes lim (member i) (c i)) → (∀ i, c i ≤ b) → Takes lim (.random n ok member) (n * b)
  | loadBalance {n ok member b} {c : Nat → Nat} : (∀ i, Takes lim (member i) (c i)) → (∀ i, c i ≤ b) → Takes lim (.loadBalance n ok member) (n * b)
  /-- the fastest group asks all at the same time -/
  | fastest {n member b} {c : Nat → Nat} : (∀ i, i < n → Takes lim (member i) (c i)) → (∀ i, i < n → c i ≤ b) → Takes lim (.fastest n member) b

end Verif.Spec.Timed
