import Verif.Model.Composition
/-
Specification for C112: how old records may be when a client gets them.

An episode is the handling of a query by an element, from `start` to `stop` (nanoseconds): until the element has replied, or until its reply is in the cache in front of it.
Queries a cache or prefetching sends by itself are handled in episodes, too.
-/
namespace Verif.Fresh
open Verif Verif.Net Verif.Composition

/-- A second in nanoseconds -/
abbrev sec : Int := 1000000000

/-- Episodes last no longer than `D`. Clocks show times of the episode they are read in. What a cache has stored was a reply of the element behind it in an earlier episode, and
was stored during that episode. What de-duplication hands out is a reply of the element behind it in an episode that was not over when the query came in. -/
structure Timeline {H ε : Type} [DecidableEq H] (start stop : ε → Int) (W : ε → Around H) (C : ε → Nat → Msg → ClientInfo → Option Res → Prop) (D : Int) : Prop where
  lasts : ∀ e, start e ≤ stop e ∧ stop e ≤ start e + D
  clock : ∀ e τ, (W e).clock τ → start e ≤ τ ∧ τ ≤ stop e
  stored : ∀ e t m ts, (W e).stored t m ts → ∃ e' q ci, RepliesIn (W e') (C e') t q ci (some (.ok m)) ∧ start e' ≤ ts ∧ ts ≤ stop e' ∧ stop e' ≤ stop e
  shared : ∀ e t y, (W e).shared t y → ∃ e' q ci, RepliesIn (W e') (C e') t q ci (some y) ∧ start e ≤ stop e' ∧ stop e' ≤ stop e

/-- The server's response has a record with this data and TTL. -/
def Sent (C : Nat → Msg → ClientInfo → Option Res → Prop) (d : RData) (ttl : Nat) : Prop :=
  ∃ i q ci m r, C i q ci (some (.ok m)) ∧ r ∈ m.answer ++ m.ns ++ m.extra ∧ r.data = d ∧ r.ttl = ttl

/-- The data of the record it comes from: the same, or an address that DNS64 put into another -/
def Comes (d0 d : RData) : Prop := d = d0 ∨ ∃ ip ip6, d0 = .a ip ∧ d = .aaaa ip6

/-- The record was sent by a server (or made by an element of the configuration, `own`) in an episode that is over when this one is, and its time to live ends no more than `late` after
that of the record then. -/
def Fresh {ε : Type} (start stop : ε → Int) (C : ε → Nat → Msg → ClientInfo → Option Res → Prop) (own : RData → Nat → Prop) (late : Int) (e : ε) (d : RData) (ttl : Nat) : Prop :=
  ∃ e0 d0 ttl0, (Sent (C e0) d0 ttl0 ∨ own d0 ttl0) ∧ Comes d0 d ∧ stop e0 ≤ stop e ∧ stop e + ttl * sec ≤ start e0 + ttl0 * sec + late

/-- What a conversion does to TTLs: nothing, or it lowers them. -/
def Lowers (m m' : Msg) : Prop := ∀ r, r ∈ m'.records → ∃ r0, r0 ∈ m.records ∧ r0.data = r.data ∧ r.ttl ≤ r0.ttl

/-- No element raises TTLs, there are at most `c` caches and `d` times de-duplication on each way to a server, and elements make up records as `own` says. -/
def Ages {H : Type} (own : RData → Nat → Prop) : Nat → Nat → Tree H → Prop
  | _, _, .client _ => True
  | c, d, .cache env o _ t => o.negativeTTL ≤ 4294967295 ∧ (∀ a, env.ipStr a ≠ []) ∧ (∀ f, o.shuffle = some f → ∀ m, Lowers m (f m)) ∧
    (∀ m w m', env.encode m = some w → env.decode w = some m' → Lowers m m') ∧ ∃ c', c = c' + 1 ∧ Ages own c' d t
  | c, d, .dedup t => ∃ d', d = d' + 1 ∧ Ages own c d' t
  | c, d, .ttl o t => o.minTTL = 0 ∧ (o.select = .none ∨ o.select = .lowest) ∧ Ages own c d t
  | c, d, .fastestTcp _ minTTL t => minTTL = 0 ∧ Ages own c d t
  | c, d, .blocklist L t a b =>
    (∀ opt, L opt → ∀ q h, opt.blockDB q = some h → (∀ ip, ip ∈ h.ips → own (.a ip) 3600 ∧ own (.aaaa ip) 3600) ∧ ∀ n, n ∈ h.names → own (.ptr (Blocklist.fqdn n)) 3600) ∧
    Ages own c d t ∧ Ages own c d a ∧ Ages own c d b
  | _, _, .static s => ∀ rr, some rr ∈ s.answer ++ s.ns ++ s.extra → own rr.data rr.ttl
  | _, _, .template newRR s => ∀ f, f ∈ s.answer ++ s.ns ++ s.extra → ∀ i text rr, f i = some text → newRR text = some (some rr) → own rr.data rr.ttl
  | c, d, .dns64 _ t => Ages own c d t
  | _, _, .drop => True
  | c, d, .truncateRetry t u => Ages own c d t ∧ Ages own c d u
  | c, d, .collapse _ t => Ages own c d t
  | c, d, .minimize t => Ages own c d t
  | c, d, .modify _ t => Ages own c d t
  | c, d, .clientBlocklist _ t b => Ages own c d t ∧ Ages own c d b
  | c, d, .responseIp _ t b => Ages own c d t ∧ Ages own c d b
  | c, d, .responseName _ t b => Ages own c d t ∧ Ages own c d b
  | c, d, .rateLimit _ t l => Ages own c d t ∧ Ages own c d l
  | c, d, .replace _ t => Ages own c d t
  | c, d, .syslog _ t => Ages own c d t
  | c, d, .queryLog t => Ages own c d t
  | c, d, .failRotate _ _ member => ∀ m, Ages own c d (member m)
  | c, d, .failBack _ _ member => ∀ m, Ages own c d (member m)
  | c, d, .failBackEach _ _ member => ∀ m, Ages own c d (member m)
  | c, d, .roundRobin _ member => ∀ m, Ages own c d (member m)
  | c, d, .random _ _ member => ∀ m, Ages own c d (member m)
  | c, d, .loadBalance _ _ member => ∀ m, Ages own c d (member m)
  | c, d, .fastest _ member => ∀ m, Ages own c d (member m)
  | c, d, .router _ member => ∀ m, Ages own c d (member m)
  | c, d, .prefetch t => Ages own c d t
  | c, d, .dnssec _ t => Ages own c d t

end Verif.Fresh
