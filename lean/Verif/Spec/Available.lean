import Verif.Model.Composition
/-
Specification for C117: what kinds of replies a configuration gives, if it is known what kinds some of the upstream servers give.
-/
namespace Verif.Available
open Verif Verif.Composition

/-- What a client notices of a reply at first: an error (listeners answer with SERVFAIL then), no reply at all, or a message with a response code. -/
inductive Kind where
  | failed
  | dropped
  | code (n : Nat)
deriving DecidableEq, Repr

def kind (r : Res) : Kind := match r.err, r.msg with
  | some _, _ => .failed
  | none, none => .dropped
  | none, some a => .code a.rcode

/-- The code of a message is kept. -/
def KeepsCode (m m' : Msg) : Prop := m'.rcode = m.rcode

/-- Replies are of the kinds `P`, if those of server `i` are of the kinds `S i` (any kind, for a server that is down): for elements that pass replies on, if this holds of the elements behind; for elements
that reply by themselves, if these replies are of such a kind as well; for groups that go on to the next member after a failure, if it holds of all members, or if one member never fails in the eyes of the group
(`ok`) and whatever the group takes for a success is of such a kind. The member may be any one, except in fail-back groups with a timer: there it has to be the first. -/
inductive Serves {H : Type} (S : Nat → Kind → Prop) : (Kind → Prop) → Tree H → Prop
  | client {P i} : (∀ k, S i k → P k) → Serves S P (.client i)
  | ttl {P o t} : Serves S P t → Serves S P (.ttl o t)
  | truncateRetry {P t u} : Serves S P t → Serves S P u → Serves S P (.truncateRetry t u)
  | collapse {P n t} : Serves S P t → (P (.code 0) → P (.code n)) → Serves S P (.collapse n t)
  | minimize {P t} : Serves S P t → Serves S P (.minimize t)
  | drop {P} : P .dropped → Serves S P .drop
  | modify {P m t} : Serves S P t → Serves S P (.modify m t)
  | blocklist {P L t a b} : Serves S P t → (∀ opt, L opt → opt.hasAllowResolver = true → Serves S P a) → (∀ opt, L opt → opt.hasBlockResolver = true → Serves S P b) →
      P (.code 0) → (∀ opt, L opt → opt.hasBlockResolver = false → P (.code 3)) → Serves S P (.blocklist L t a b)
  | clientBlocklist {P L t b} : Serves S P t → (∀ e db, L e true db → Serves S P b) → (∀ e db, L e false db → P (.code 5)) → Serves S P (.clientBlocklist L t b)
  | responseIp {P L t b} : Serves S P t → (∀ opt, L opt → opt.hasBlockResolver = true → Serves S P b) → (∀ opt, L opt → opt.hasBlockResolver = false → P (.code 3)) → Serves S P (.responseIp L t b)
  | responseName {P L t b} : Serves S P t → (∀ opt, L opt → opt.hasBlockResolver = true → Serves S P b) → (∀ opt, L opt → opt.hasBlockResolver = false → P (.code 3)) → Serves S P (.responseName L t b)
  | rateLimit {P t l} : Serves S P t → Serves S P l → Serves S P (.rateLimit true t l)
  | rateDrop {P t l} : Serves S P t → P .dropped → Serves S P (.rateLimit false t l)
  | static {P s} : P (.code s.rcode) → Serves S P (.static s)
  | template {P newRR s} : P (.code s.rcode) → Serves S P (.template newRR s)
  | replace {P exps t} : Serves S P t → Serves S P (.replace exps t)
  | syslog {P o t} : Serves S P t → Serves S P (.syslog o t)
  | queryLog {P t} : Serves S P t → Serves S P (.queryLog t)
  | dns64 {P ps t} : Serves S P t → Serves S P (.dns64 ps t)
  | failRotate {P Q n ok member g} : g < n → Serves S Q (member g) → (∀ r, Q (kind r) → ok r = true) → (∀ r, ok r = true → P (kind r)) → Serves S P (.failRotate n ok member)
  | failRotateAll {P n ok member} : 0 < n → (∀ m, m < n → Serves S P (member m)) → Serves S P (.failRotate n ok member)
  | failBack {P Q n ok member} : 0 < n → Serves S Q (member 0) → (∀ r, Q (kind r) → ok r = true) → (∀ r, ok r = true → P (kind r)) → Serves S P (.failBack n ok member)
  | failBackAll {P n ok member} : 0 < n → (∀ m, m < n → Serves S P (member m)) → Serves S P (.failBack n ok member)
  | failBackEach {P Q n ok member g} : g < n → Serves S Q (member g) → (∀ r, Q (kind r) → ok r = true) → (∀ r, ok r = true → P (kind r)) → Serves S P (.failBackEach n ok member)
  | failBackEachAll {P n ok member} : 0 < n → (∀ m, m < n → Serves S P (member m)) → Serves S P (.failBackEach n ok member)
  | roundRobin {P n member} : (∀ m, m < n → Serves S P (member m)) → Serves S P (.roundRobin n member)
  | random {P Q n ok member g} : g < n → Serves S Q (member g) → (∀ r, Q (kind r) → ok r = true) → (∀ r, ok r = true → P (kind r)) → Serves S P (.random n ok member)
  /-- with all members put aside, there is an error -/
  | randomAll {P n ok member} : (∀ m, m < n → Serves S P (member m)) → P .failed → Serves S P (.random n ok member)
  | loadBalance {P Q n ok member g} : g < n → Serves S Q (member g) → (∀ r, Q (kind r) → ok r = true) → (∀ r, ok r = true → P (kind r)) → Serves S P (.loadBalance n ok member)
  | loadBalanceAll {P n ok member} : 0 < n → (∀ m, m < n → Serves S P (member m)) → ok .drop = true → Serves S P (.loadBalance n ok member)
  /-- SERVFAIL is a failure here, other codes are not -/
  | fastest {P Q n member g} : g < n → Serves S Q (member g) → ¬ Q .failed → ¬ Q (.code 2) → (∀ k, k ≠ .failed → k ≠ .code 2 → P k) → Serves S P (.fastest n member)
  | fastestAll {P n member} : (∀ m, m < n → Serves S P (member m)) → Serves S P (.fastest n member)
  | fastestTcp {P w n t} : Serves S P t → Serves S P (.fastestTcp w n t)
  | router {P routes member} : (∀ m, m < routes.length → Serves S P (member m)) →
      (P .failed ∨ ∃ r, r ∈ routes ∧ ∀ q qu ci now, Route.matches' r q qu ci now = true) → Serves S P (.router routes member)
  | dedup {P t} : Serves S P t → Serves S P (.dedup t)
  | cache {P env o cap t} : Serves S P t → o.negativeTTL ≤ 4294967295 → (∀ a, env.ipStr a ≠ []) → (∀ f, o.shuffle = some f → ∀ m, KeepsCode m (f m)) →
      (∀ m w m', env.encode m = some w → env.decode w = some m' → KeepsCode m m') → (o.flushQuery ≠ [] → P (.code 0)) → Serves S P (.cache env o cap t)
  | prefetch {P t} : Serves S P t → Serves S P (.prefetch t)
  /-- SERVFAIL if the validation fails -/
  | dnssec {P logOnly t} : Serves S P t → (logOnly = false → P (.code 2)) → Serves S P (.dnssec logOnly t)

/-- What caches have stored, what de-duplication hands out and what members of groups replied to other queries were replies of these elements, to any query at any time. -/
structure Kept {H : Type} [DecidableEq H] (W : Around H) (C : Nat → Msg → ClientInfo → Option Res → Prop) : Prop where
  cache : ∀ t m ts, W.stored t m ts → ∃ q ci, RepliesIn W C t q ci (some (.ok m))
  dedup : ∀ t y, W.shared t y → ∃ q ci, RepliesIn W C t q ci (some y)
  group : ∀ t y, W.replied t y → ∃ q ci, RepliesIn W C t q ci (some y)

end Verif.Available
