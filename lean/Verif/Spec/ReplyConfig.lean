import Verif.Spec.AsksConfig
import Verif.Spec.Validated
import Verif.Spec.Fresh
import Verif.Spec.Listeners
import Verif.Model.History
/-
Specification for C120 and C121: what a configuration file says about the records that get to clients.
-/
namespace Verif.ReplyConfig
open Verif Verif.Net Verif.Assemble Verif.Spec.Asks

/-- Packing, unpacking and shuffling keep records; addresses have a text. -/
structure RecordsKept {H : Type} (env : Env H) : Prop where
  text : ∀ a, env.cache.ipStr a ≠ []
  random : ∀ m, Validated.KeepsAlike m (env.shuffleRandom m)
  roundRobin : ∀ m, Validated.KeepsAlike m (env.shuffleRoundRobin m)
  codec : ∀ m w m', env.cache.encode m = some w → env.cache.decode w = some m' → Validated.KeepsAlike m m'

/-- The section makes up no records other than these: those of static responders and templates. Blocklists in the format of hosts files make up some too and are left out. -/
structure MakesUp {H : Type} (env : Env H) (g : Group) (own : RR → Prop) : Prop where
  static : g.type = str "static-responder" → ∀ s ∈ g.answer ++ g.ns ++ g.extra, ∀ rr, env.newRR s = some (some rr) → own rr
  template : g.type = str "static-template" → ∀ s ∈ g.answer ++ g.ns ++ g.extra, ∀ t, env.template s = some t → ∀ i text rr, t i = some text → env.newRR text = some (some rr) → own rr
  old : g.type = str "blocklist" → g.format ≠ str "hosts"
  v2 : g.type = str "blocklist-v2" → g.blocklistFormat ≠ str "hosts" ∧ ∀ s ∈ g.blocklistSource, s.format ≠ str "hosts"

/-- The section is a response blocklist with networks written in it, and these addresses are in them. -/
structure ListsAddresses {H : Type} (env : Env H) (g : Group) (listed : Str → Prop) : Prop where
  type : g.type = str "response-blocklist-ip" ∨ g.type = str "response-blocklist-cidr"
  inverted : g.inverted = false
  format : g.blocklistFormat = [] ∨ g.blocklistFormat = str "cidr"
  inline : g.blocklist ≠ []
  regular : ∀ e ∈ Spec.Cidr.networks env.parseCIDR g.blocklist, Spec.Cidr.Regular e.1 e.2
  inNet : ∀ ip, listed ip → (ip.length = 4 ∨ ip.length = 16) ∧ ∃ e ∈ Spec.Cidr.networks env.parseCIDR g.blocklist, Spec.Cidr.InNet e.2 ip

/-- The section is a response blocklist for names with rules written in it, and these names are among those the rules are about. -/
structure ListsNames {H : Type} (env : Env H) (g : Group) (listed : Str → Prop) : Prop where
  type : g.type = str "response-blocklist-name"
  inverted : g.inverted = false
  inline : g.blocklist ≠ []
  about : ∀ n, listed n → ∃ line ∈ g.blocklist, About env g.blocklistFormat line n

/-- Every way from a server to sections in `S` goes through a filter. There are no scripts and Redis caches on the ways, nor sections that make up forbidden records themselves. -/
structure BeforeFilter {H : Type} (env : Env H) (c : Cfg) (bad : RData → Prop) (filter : Group → Prop) (S : Str → Prop) : Prop where
  resolver : ∀ id r, S id → (id, r) ∉ c.resolvers
  bootstrap : S (str "bootstrap-resolver") → c.bootstrap = none
  group : ∀ id g, S id → (id, g) ∈ c.groups → ¬ Opaque g ∧ (g.type = str "dns64" → ∀ ip ip6, bad (.aaaa ip6) → bad (.a ip)) ∧ g.cacheNegativeTTL ≤ 4294967295 ∧ MakesUp env g (fun r => ¬ bad r.data) ∧
    ((∀ x, Refers g x → S x) ∨ filter g ∧ (g.blockListResolver ≠ [] → S g.blockListResolver))
  router : ∀ id rs, S id → (id, rs) ∈ c.routers → ∀ r ∈ rs, S r.resolver

/-- Every way goes through a response blocklist with these addresses. -/
abbrev BeforeAddresses {H : Type} (env : Env H) (c : Cfg) (listed : Str → Prop) (S : Str → Prop) : Prop := BeforeFilter env c (Filters.Address listed) (fun g => ListsAddresses env g listed) S

/-- Every way goes through a response blocklist with these names. -/
abbrev BeforeNames {H : Type} (env : Env H) (c : Cfg) (listed : Str → Prop) (S : Str → Prop) : Prop := BeforeFilter env c (Filters.Named listed) (fun g => ListsNames env g listed) S

/-- Every way from a server to sections in `S` goes through a validator that does not only log. There are no scripts and Redis caches on the ways; if there are elements that rename records (DNS64 does),
`ren` says so; other records than those of servers are as `own` says. -/
structure BeforeValidated {H : Type} (env : Env H) (c : Cfg) (own : RData → Prop) (ren : Prop) (S : Str → Prop) : Prop where
  resolver : ∀ id r, S id → (id, r) ∉ c.resolvers
  bootstrap : S (str "bootstrap-resolver") → c.bootstrap = none
  group : ∀ id g, S id → (id, g) ∈ c.groups → ¬ Opaque g ∧ (g.type = str "dns64" → ∀ ip ip6, own (.a ip) → own (.aaaa ip6)) ∧ g.cacheNegativeTTL ≤ 4294967295 ∧ MakesUp env g (fun r => own r.data) ∧
    (g.type = str "response-collapse" ∨ g.type = str "replace" ∨ g.type = str "dns64" → ren) ∧ ((∀ x, Refers g x → S x) ∨ g.type = str "dnssec-validator" ∧ g.dnssecLogOnly = false)
  router : ∀ id rs, S id → (id, rs) ∈ c.routers → ∀ r ∈ rs, S r.resolver

/-- Packing, unpacking and shuffling raise no TTLs; addresses have a text. -/
structure TtlsKept {H : Type} (env : Env H) : Prop where
  text : ∀ a, env.cache.ipStr a ≠ []
  random : ∀ m, Fresh.Lowers m (env.shuffleRandom m)
  roundRobin : ∀ m, Fresh.Lowers m (env.shuffleRoundRobin m)
  codec : ∀ m w m', env.cache.encode m = some w → env.cache.decode w = some m' → Fresh.Lowers m m'

/-- No section in `S`, nor one it refers to, raises TTLs, and there are at most so many caches and so many de-duplications on each way from a server to a section. There are no scripts and Redis caches;
other records than those of servers are as `own` says. -/
structure Counted {H : Type} (env : Env H) (c : Cfg) (own : RData → Nat → Prop) (caches dedups : Str → Nat) (S : Str → Prop) : Prop where
  group : ∀ id g, S id → (id, g) ∈ c.groups → ¬ Opaque g ∧ g.cacheNegativeTTL ≤ 4294967295 ∧ MakesUp env g (fun r => own r.data r.ttl) ∧
    (g.type = str "ttl-modifier" → g.ttlMin = 0 ∧ (g.ttlSelect = [] ∨ g.ttlSelect = str "lowest")) ∧ (g.type = str "fastest-tcp" → g.successTTLMin = 0) ∧
    ∀ x, Refers g x → S x ∧ caches x + (if g.type = str "cache" then 1 else 0) ≤ caches id ∧ dedups x + (if g.type = str "request-dedup" then 1 else 0) ≤ dedups id
  router : ∀ id rs, S id → (id, rs) ∈ c.routers → ∀ r ∈ rs, S r.resolver ∧ caches r.resolver ≤ caches id ∧ dedups r.resolver ≤ dedups id

/-- A query at a listener, in the course of a history: what the client gets, and the reply of the element behind -/
structure Asked {H : Type} [DecidableEq H] (V : Composition.Tree H → Msg → DnssecResolver.Verdict → Prop) (t : Composition.Tree H) (id : Str) (h : List (History.Episode H)) (m : Msg) (lib : Listeners.Lib) where
  runs : History.Runs V h
  e : History.Episode H
  mem : e ∈ h
  element : e.element = t
  tr : Spec.Listeners.Transport
  valid : tr.Valid
  any : ∀ v, tr = .udp v → v = 0
  nets : List Cidr.IPNet
  peer : Str
  sni : Str
  well : Spec.Listeners.WellFormed nets peer
  r : Listeners.Pipeline
  reply : r e.query { sourceIP := peer, tlsServerName := sni, listener := id } = e.reply
  decoded : tr.Encrypted → ∀ a, e.reply.msg = some a → Spec.Listeners.Decoded a
  sent : (Listeners.listenHandler lib id tr.protocol r nets peer sni e.query).out = .reply m

end Verif.ReplyConfig
