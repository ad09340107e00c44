import Verif.Model.Composition
/-
C116: how many queries to certain servers one query of a client may cause, besides what a rate limiter lets through.
-/
namespace Verif.Spec.Limits
open Verif Verif.Composition

/-- One query given to the element causes at most that many queries to the servers `S`, besides those the rate limiter `L` lets through. With 0: servers in `S` are asked through `L` only. -/
inductive Causes {H : Type} (S : Nat → Prop) (L : Tree H) : Tree H → Nat → Prop
  | server {i} : S i → Causes S L (.client i) 1
  | other {i} : ¬ S i → Causes S L (.client i) 0
  /-- the limiter: what it rejects goes to the limit resolver -/
  | limiter {h t l d} : L = .rateLimit h t l → Causes S L l d → Causes S L L d
  /-- elements that answer or drop queries themselves cause none -/
  | drop : Causes S L .drop 0
  | static {s} : Causes S L (.static s) 0
  | template {f s} : Causes S L (.template f s) 0
  /-- elements that pass a query on cause no more than what they pass it to, caches and de-duplication too -/
  | ttl {o t c} : Causes S L t c → Causes S L (.ttl o t) c
  | collapse {n t c} : Causes S L t c → Causes S L (.collapse n t) c
  | minimize {t c} : Causes S L t c → Causes S L (.minimize t) c
  | modify {m t c} : Causes S L t c → Causes S L (.modify m t) c
  | replace {e t c} : Causes S L t c → Causes S L (.replace e t) c
  | syslog {o t c} : Causes S L t c → Causes S L (.syslog o t) c
  | queryLog {t c} : Causes S L t c → Causes S L (.queryLog t) c
  | fastestTcp {w m t c} : Causes S L t c → Causes S L (.fastestTcp w m t) c
  | dedup {t c} : Causes S L t c → Causes S L (.dedup t) c
  | cache {env o cap t c} : Causes S L t c → Causes S L (.cache env o cap t) c
  /-- elements that choose where a query goes cause what the dearest of these causes -/
  | blocklist {B t a b c d e} : Causes S L t c → Causes S L a d → Causes S L b e → Causes S L (.blocklist B t a b) (max c (max d e))
  | clientBlocklist {B t b c d} : Causes S L t c → Causes S L b d → Causes S L (.clientBlocklist B t b) (max c d)
  | rateLimit {h t l c d} : Causes S L t c → Causes S L l d → Causes S L (.rateLimit h t l) (max c d)
  | router {rs member c} : (∀ i, Causes S L (member i) c) → Causes S L (.router rs member) c
  | roundRobin {n member c} : (∀ i, Causes S L (member i) c) → Causes S L (.roundRobin n member) c
  /-- elements that ask a second time cause both -/
  | truncateRetry {t u c d} : Causes S L t c → Causes S L u d → Causes S L (.truncateRetry t u) (c + d)
  | responseIp {B t b c d} : Causes S L t c → Causes S L b d → Causes S L (.responseIp B t b) (c + d)
  | responseName {B t b c d} : Causes S L t c → Causes S L b d → Causes S L (.responseName B t b) (c + d)
  | dns64 {ps t c} : Causes S L t c → Causes S L (.dns64 ps t) (2 * c)
  /-- groups ask each member once at most -/
  | failRotate {n ok member c} : (∀ i, Causes S L (member i) c) → Causes S L (.failRotate n ok member) (n * c)
  | failBack {n ok member c} : (∀ i, Causes S L (member i) c) → Causes S L (.failBack n ok member) (n * c)
  | failBackEach {n ok member c} : (∀ i, Causes S L (member i) c) → Causes S L (.failBackEach n ok member) (n * c)
  | random {n ok member c} : (∀ i, Causes S L (member i) c) → Causes S L (.random n ok member) (n * c)
  | loadBalance {n ok member c} : (∀ i, Causes S L (member i) c) → Causes S L (.loadBalance n ok member) (n * c)
  | fastest {n member} {c : Nat → Nat} : (∀ i, Causes S L (member i) (c i)) → Causes S L (.fastest n member) ((List.range n).map c).sum
  /-- elements that also ask by themselves: only where servers are out of reach but through the limiter -/
  | prefetch {t} : Causes S L t 0 → Causes S L (.prefetch t) 0
  | dnssec {lo t} : Causes S L t 0 → Causes S L (.dnssec lo t) 0
  /-- any higher number will do -/
  | weaken {t c d} : Causes S L t c → c ≤ d → Causes S L t d

/-- How many stretches of clock readings (seconds) there are that lie in one window of `w` seconds: how often the window is another one than just before, the first one counted. -/
def stretches (w : Nat) : List Int → Nat
  | [] => 0
  | [_] => 1
  | a :: b :: l => (if a / w = b / w then 0 else 1) + stretches w (b :: l)

end Verif.Spec.Limits
