import Verif.Spec.Asks
import Verif.Spec.Assemble
import Verif.Spec.Domain
import Verif.Spec.Cidr
import Verif.Spec.Lists
import Verif.Spec.Blocklist
/-
C85 in words, for sections of a configuration: names and clients that the rules written in it keep from the servers.
-/
namespace Verif.Spec.Asks
open Verif Verif.Assemble

/-- A rule of a list in this format is about the name. -/
inductive About {H : Type} (env : Env H) : Str → Str → Str → Prop
  | domain {line n} : (Domain.ruleOf false line).Matches (Domain.labels n) → About env (str "domain") line n
  | domainSubdomain {line n} : (Domain.ruleOf true line).Matches (Domain.labels n) → About env (str "domain-subdomain") line n
  | regexp {format line n f} : format = [] ∨ format = str "regexp" → trimSpace line ≠ [] → (trimSpace line).head? ≠ some 35 → env.compile (trimSpace line) = some f → f (lower n) = true →
      About env format line n

/-- What a list with these rules says: whatever it hits is reported under its name, and it hits what its format says (C28, C29, C31). -/
structure Says {H : Type} (env : Env H) (d : NameList) (rules : List Str) (db : Msg → Option Verif.Lists.Hit) : Prop where
  name : ∀ q hit, db q = some hit → hit.rule.list = d.name
  domain : ∀ sub, d.format = (if sub then .domainSubdomain else .domain) → (∀ line ∈ rules, Domain.NoHole line) → ∀ q qu rest, q.question = qu :: rest →
    (Blocklist.On db q ↔ ∃ line ∈ rules, (Domain.ruleOf sub line).Matches (Domain.labels qu.name))
  regexp : d.format = .regexp → ∀ q qu rest, q.question = qu :: rest →
    (Blocklist.On db q ↔ ∃ line f, line ∈ rules ∧ trimSpace line ≠ [] ∧ (trimSpace line).head? ≠ some 35 ∧ env.compile (trimSpace line) = some f ∧ f (lower qu.name) = true)
  hosts : d.format = .hosts → (∀ t, (env.parseIP t).length = 0 ∨ (env.parseIP t).length = 16) → ∀ q qu rest, q.question = qu :: rest → qu.qtype ≠ typePTR →
    (Blocklist.On db q ↔ ∃ e ∈ Spec.Lists.listed rules, Spec.Lists.sameName e.2 qu.name) ∧
    ∀ hit, db q = some hit → hit.ips = (Spec.Lists.addressesFor env.parseIP rules qu.name (decide (qu.qtype = typeA))).take 11
  ptr : d.format = .hosts → ∀ q qu rest, q.question = qu :: rest → qu.qtype = typePTR →
    (Blocklist.On db q ↔ ∃ e ∈ Spec.Lists.listed rules, env.reverseAddr e.1 = some (lower qu.name))
  mac : d.format = .mac → ∀ q, (Blocklist.On db q ↔ ∃ line addr, line ∈ rules ∧ (trimSpace line).head? ≠ some 35 ∧ Spec.Lists.MacText (trimSpace line) addr ∧ addr.length = 6 ∧
    Spec.Lists.Carries q addr)

/-- The rules of a section block these names. Rules of an allowlist are read in the format of the blocklist (C79). -/
inductive Lists {H : Type} (env : Env H) (g : Group) (bad : Str → Prop) : Prop
  | old : g.type = str "blocklist" → g.blocklist ≠ [] → (∀ n, bad n → ∃ line ∈ g.blocklist, About env g.format line n) → Lists env g bad
  | v2 : g.type = str "blocklist-v2" → g.blocklist ≠ [] → (∀ n, bad n → ∃ line ∈ g.blocklist, About env g.blocklistFormat line n) →
      g.allowlistSource = [] → (∀ line ∈ g.allowlist, Domain.NoHole line ∧ ∀ n, bad n → ¬ About env g.blocklistFormat line n) →
      g.blocklistFormat ∈ [[], str "regexp", str "domain", str "domain-subdomain"] → Lists env g bad

/-- The ids a group refers to -/
def Refers (g : Group) (id : Str) : Prop :=
  id ∈ g.resolvers ∨ id ≠ [] ∧ (id = g.allowListResolver ∨ id = g.blockListResolver ∨ id = g.limitResolver ∨ id = g.retryResolver)

/-- Sections in `K` and those they refer to leave names alone and do not ask by themselves. -/
structure Plain (c : Cfg) (K : Str → Prop) : Prop where
  group : ∀ id g, K id → (id, g) ∈ c.groups → g.type ∉ [str "replace", str "prefetch", str "dnssec-validator"] ∧ ∀ x, Refers g x → K x
  router : ∀ id rs, K id → (id, rs) ∈ c.routers → ∀ r ∈ rs, K r.resolver

/-- Elements that are not modelled further: scripts and Redis caches -/
def Opaque (g : Group) : Prop := g.type = str "lua" ∨ g.type = str "cache" ∧ ∃ b, g.backend = some b ∧ b.type = str "redis"

/-- Every way from sections in `S` to a server goes through a blocklist for the names, behind which there are only sections in `K`. -/
structure Before {H : Type} (env : Env H) (c : Cfg) (bad : Str → Prop) (K S : Str → Prop) : Prop where
  resolver : ∀ id r, S id → (id, r) ∉ c.resolvers
  bootstrap : S (str "bootstrap-resolver") → c.bootstrap = none
  group : ∀ id g, S id → (id, g) ∈ c.groups → ¬ Opaque g ∧
    ((∀ x, Refers g x → S x) ∨
      Lists env g bad ∧ (∀ x ∈ g.resolvers, K x) ∧ (g.allowListResolver ≠ [] → K g.allowListResolver) ∧ (g.blockListResolver ≠ [] → S g.blockListResolver))
  router : ∀ id rs, S id → (id, rs) ∈ c.routers → ∀ r ∈ rs, S r.resolver

/-- The networks of a section include the address, which is that of the client. -/
structure ListsClient {H : Type} (env : Env H) (g : Group) (ip : Str) : Prop where
  type : g.type = str "client-blocklist"
  useECS : g.useECS = false
  format : g.blocklistFormat = [] ∨ g.blocklistFormat = str "cidr"
  inline : g.blocklist ≠ []
  regular : ∀ e ∈ Cidr.networks env.parseCIDR g.blocklist, Cidr.Regular e.1 e.2
  inNet : ∃ e ∈ Cidr.networks env.parseCIDR g.blocklist, Cidr.InNet e.2 ip

/-- Every way from sections in `S` to a server goes through a list with the address of the client. -/
structure BeforeClient {H : Type} (env : Env H) (c : Cfg) (ip : Str) (S : Str → Prop) : Prop where
  resolver : ∀ id r, S id → (id, r) ∉ c.resolvers
  bootstrap : S (str "bootstrap-resolver") → c.bootstrap = none
  group : ∀ id g, S id → (id, g) ∈ c.groups → ¬ Opaque g ∧ g.type ≠ str "prefetch" ∧ g.type ≠ str "dnssec-validator" ∧
    ((∀ x, Refers g x → S x) ∨ ListsClient env g ip ∧ (g.blockListResolver ≠ [] → S g.blockListResolver))
  router : ∀ id rs, S id → (id, rs) ∈ c.routers → ∀ r ∈ rs, S r.resolver

end Verif.Spec.Asks
