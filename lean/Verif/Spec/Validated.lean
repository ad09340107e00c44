import Verif.Spec.Filters
/-
Specification for C114: configurations in which a validating element is on every way from an upstream server to the client.
-/
namespace Verif.Validated
open Verif Verif.Net Verif.Composition

/-- Records with the same owner, type, class and data; the TTL may differ. -/
def Alike (r0 r : RR) : Prop := r.name = r0.name ∧ r.rtype = r0.rtype ∧ r.cls = r0.cls ∧ r.data = r0.data

/-- What a conversion gives are the records of the message, each in its section (authority and additional count as one), perhaps with other TTLs or in another order. -/
def KeepsAlike (m m' : Msg) : Prop := m'.rcode = m.rcode ∧ (∀ r, r ∈ m'.answer → ∃ r0, r0 ∈ m.answer ∧ Alike r0 r) ∧ ∀ r, r ∈ m'.ns ++ m'.extra → ∃ r0, r0 ∈ m.ns ++ m.extra ∧ Alike r0 r

/-- Where a record comes from. Elements that rename records (`ren`) may have given it another owner, and DNS64 (which renames) may have put an address behind one of its prefixes (C42). -/
def Comes (ren : Prop) (r0 r : RR) : Prop :=
  (r.rtype = r0.rtype ∧ r.cls = r0.cls ∧ r.data = r0.data ∧ (r.name = r0.name ∨ ren)) ∨ (ren ∧ ∃ p ip ip4 ip6, to4 ip = some ip4 ∧ Dns64.synthesize p ip4 = some ip6 ∧ r0.data = .a ip ∧ r.data = .aaaa ip6)

/-- On every way from an upstream server to the client is a validating element that does not only log, elements make up records only as `own` says, and if there are elements that rename
records (collapse, replace, DNS64), `ren` says so. -/
def Screened {H : Type} (own : RData → Prop) (ren : Prop) : Tree H → Prop
  | .client _ => False
  | .dnssec logOnly t => logOnly = false ∨ Screened own ren t
  | .collapse _ t => ren ∧ Screened own ren t
  | .replace _ t => ren ∧ Screened own ren t
  | .dns64 ps t => ren ∧ (∀ p, p ∈ ps → ∀ ip ip4 ip6, to4 ip = some ip4 → Dns64.synthesize p ip4 = some ip6 → own (.a ip) → own (.aaaa ip6)) ∧ Screened own ren t
  | .blocklist L t a b =>
    (∀ opt, L opt → ∀ q h, opt.blockDB q = some h → (∀ ip, ip ∈ h.ips → own (.a ip) ∧ own (.aaaa ip)) ∧ ∀ n, n ∈ h.names → own (.ptr (Blocklist.fqdn n))) ∧
    Screened own ren t ∧ Screened own ren a ∧ Screened own ren b
  | .static s => ∀ rr, some rr ∈ s.answer ++ s.ns ++ s.extra → own rr.data
  | .template newRR s => ∀ f, f ∈ s.answer ++ s.ns ++ s.extra → ∀ i text rr, f i = some text → newRR text = some (some rr) → own rr.data
  | .cache env o _ t => o.negativeTTL ≤ 4294967295 ∧ (∀ a, env.ipStr a ≠ []) ∧ (∀ f, o.shuffle = some f → ∀ m, KeepsAlike m (f m)) ∧
    (∀ m w m', env.encode m = some w → env.decode w = some m' → KeepsAlike m m') ∧ Screened own ren t
  | .drop => True
  | .ttl _ t => Screened own ren t
  | .truncateRetry t u => Screened own ren t ∧ Screened own ren u
  | .minimize t => Screened own ren t
  | .modify _ t => Screened own ren t
  | .clientBlocklist _ t b => Screened own ren t ∧ Screened own ren b
  | .responseIp _ t b => Screened own ren t ∧ Screened own ren b
  | .responseName _ t b => Screened own ren t ∧ Screened own ren b
  | .rateLimit _ t l => Screened own ren t ∧ Screened own ren l
  | .syslog _ t => Screened own ren t
  | .queryLog t => Screened own ren t
  | .failRotate _ _ member => ∀ m, Screened own ren (member m)
  | .failBack _ _ member => ∀ m, Screened own ren (member m)
  | .failBackEach _ _ member => ∀ m, Screened own ren (member m)
  | .roundRobin _ member => ∀ m, Screened own ren (member m)
  | .random _ _ member => ∀ m, Screened own ren (member m)
  | .loadBalance _ _ member => ∀ m, Screened own ren (member m)
  | .fastest _ member => ∀ m, Screened own ren (member m)
  | .fastestTcp _ _ t => Screened own ren t
  | .router _ member => ∀ m, Screened own ren (member m)
  | .dedup t => Screened own ren t
  | .prefetch t => Screened own ren t

/-- A message that the elements behind a validator (`t`) have sent, with a code that is validated, and of which a validation ended other than in failure. -/
def Passed {H : Type} [DecidableEq H] (W : Around H) (C : Nat → Msg → ClientInfo → Option Res → Prop) (t : Tree H) (a : Msg) : Prop :=
  (∃ q ci, RepliesIn W C t q ci (some (.ok a))) ∧ (a.rcode = 0 ∨ a.rcode = 3) ∧ (W.verdict t a .valid ∨ W.verdict t a .insecure)

end Verif.Validated
