import Verif.Model.Composition
import Verif.Spec.Blocklist
/-
Specification for C111: configurations in which some response blocklist is on every way from an upstream server to the client.
-/
namespace Verif.Filters
open Verif Verif.Net Verif.Composition Verif.Spec.Blocklist

/-- Responses with a code in question (`codes`) have no record whose data is forbidden (`bad`). -/
def CleanMsg (codes : Nat → Prop) (bad : RData → Prop) (a : Msg) : Prop := codes a.rcode → ∀ r, r ∈ a.answer ++ a.ns ++ a.extra → ¬ bad r.data

/-- The reply is an error, or no message at all, or a clean one. -/
def Clean (codes : Nat → Prop) (bad : RData → Prop) (r : Res) : Prop := r.err = none → ∀ a, r.msg = some a → CleanMsg codes bad a

/-- Each of the address lists (all that the element may come to have) objects to forbidden records. Responses with codes other than 0 are not looked at. -/
def IpBlocks (codes : Nat → Prop) (bad : RData → Prop) (L : Blocklist.IpOptions → Prop) : Prop :=
  (∀ n, codes n → n = 0) ∧ ∀ opt, L opt → ∀ r : RR, bad r.data → BadAddress opt.db opt.inverted r

/-- Each of the name lists objects to forbidden records. -/
def NameBlocks (bad : RData → Prop) (L : Blocklist.NameOptions → Prop) : Prop :=
  ∀ opt, L opt → ∀ r : RR, bad r.data → BadName (nameRule opt.db) opt.inverted r

/-- What comes out of a conversion is the same as far as codes and record data go. -/
def KeepsData (m m' : Msg) : Prop := m'.rcode = m.rcode ∧ ∀ r, r ∈ m'.records → ∃ r0, r0 ∈ m.records ∧ r0.data = r.data

/-- On every way from an upstream server to the client is a response blocklist that objects to forbidden records (or the server sends none), and no element
puts forbidden records into responses of its own: not a blocklist with addresses, nor a static responder, nor DNS64. -/
def Filtered {H : Type} (codes : Nat → Prop) (bad : RData → Prop) (C : Nat → Msg → ClientInfo → Option Res → Prop) : Tree H → Prop
  | .client i => ∀ q ci r, C i q ci (some r) → Clean codes bad r
  | .responseIp L t b => (IpBlocks codes bad L ∨ Filtered codes bad C t) ∧ Filtered codes bad C b
  | .responseName L t b => (NameBlocks bad L ∨ Filtered codes bad C t) ∧ Filtered codes bad C b
  | .blocklist L t a b =>
    (∀ opt, L opt → ∀ q h, opt.blockDB q = some h → (∀ ip, ip ∈ h.ips → ¬ bad (.a ip) ∧ ¬ bad (.aaaa ip)) ∧ ∀ n, n ∈ h.names → ¬ bad (.ptr (Blocklist.fqdn n))) ∧
    Filtered codes bad C t ∧ Filtered codes bad C a ∧ Filtered codes bad C b
  | .static s => ∀ rr, some rr ∈ s.answer ++ s.ns ++ s.extra → ¬ bad rr.data
  | .template newRR s => ∀ f, f ∈ s.answer ++ s.ns ++ s.extra → ∀ i text rr, f i = some text → newRR text = some (some rr) → ¬ bad rr.data
  | .dns64 ps t => (∀ p, p ∈ ps → ∀ ip ip4 ip6, to4 ip = some ip4 → Dns64.synthesize p ip4 = some ip6 → bad (.aaaa ip6) → bad (.a ip)) ∧ Filtered codes bad C t
  | .cache env o _ t => o.negativeTTL ≤ 4294967295 ∧ (∀ a, env.ipStr a ≠ []) ∧ (∀ f, o.shuffle = some f → ∀ m, KeepsData m (f m)) ∧
    (∀ m w m', env.encode m = some w → env.decode w = some m' → KeepsData m m') ∧ Filtered codes bad C t
  | .drop => True
  | .ttl _ t => Filtered codes bad C t
  | .truncateRetry t u => Filtered codes bad C t ∧ Filtered codes bad C u
  | .collapse _ t => Filtered codes bad C t
  | .minimize t => Filtered codes bad C t
  | .modify _ t => Filtered codes bad C t
  | .clientBlocklist _ t b => Filtered codes bad C t ∧ Filtered codes bad C b
  | .rateLimit _ t l => Filtered codes bad C t ∧ Filtered codes bad C l
  | .replace _ t => Filtered codes bad C t
  | .syslog _ t => Filtered codes bad C t
  | .queryLog t => Filtered codes bad C t
  | .failRotate _ _ member => ∀ m, Filtered codes bad C (member m)
  | .failBack _ _ member => ∀ m, Filtered codes bad C (member m)
  | .failBackEach _ _ member => ∀ m, Filtered codes bad C (member m)
  | .roundRobin _ member => ∀ m, Filtered codes bad C (member m)
  | .random _ _ member => ∀ m, Filtered codes bad C (member m)
  | .loadBalance _ _ member => ∀ m, Filtered codes bad C (member m)
  | .fastest _ member => ∀ m, Filtered codes bad C (member m)
  | .fastestTcp _ _ t => Filtered codes bad C t
  | .router _ member => ∀ m, Filtered codes bad C (member m)
  | .dedup t => Filtered codes bad C t
  | .prefetch t => Filtered codes bad C t
  | .dnssec _ t => Filtered codes bad C t

/-- What caches have stored and de-duplication hands out were replies of the element behind, to any query at any time. -/
structure Stored {H : Type} [DecidableEq H] (W : Around H) (C : Nat → Msg → ClientInfo → Option Res → Prop) : Prop where
  cache : ∀ t m ts, W.stored t m ts → ∃ q ci, RepliesIn W C t q ci (some (.ok m))
  dedup : ∀ t y, W.shared t y → ∃ q ci, RepliesIn W C t q ci (some y)

/-- An address record with an address of a set -/
def Address (bad : Str → Prop) (d : RData) : Prop := ∃ ip, (d = .a ip ∨ d = .aaaa ip) ∧ bad ip

/-- A record with a name (or text) of a set -/
def Named (bad : Str → Prop) (d : RData) : Prop := ∃ n, Text d n ∧ bad n

end Verif.Filters
