import Verif.Model.Assemble
import Verif.Spec.Available
/-
Specification for C118: what kinds of replies the sections of a configuration file promise, if it is known what kinds some of the servers named in it give.
-/
namespace Verif.Available
open Verif Verif.Composition Verif.Assemble

/-- Elements that hand on the reply of the element behind, with the same code -/
def passing : List Str :=
  [str "ttl-modifier", str "response-minimize", str "ecs-modifier", str "edns0-modifier", str "syslog", str "query-log", str "dns64", str "replace", str "request-dedup", str "fastest-tcp", str "prefetch"]

/-- A reply of this kind is a success for groups that fail over: a response with any code but NOTIMP and REFUSED, and but SERVFAIL if the section says `servfail-error`; and no reply at all. -/
def Success (g : Group) : Kind → Prop
  | .failed => False
  | .dropped => True
  | .code n => n ≠ 4 ∧ n ≠ 5 ∧ (g.servfailError = true → n ≠ 2)

/-- What a group promises, given what other sections promise (`R x P`: section `x` replies in the kinds `P` only). `own` are the kinds of replies of elements that are not modelled further (scripts, Redis). -/
inductive GroupPromise (R : Str → (Kind → Prop) → Prop) (own : Kind → Prop) (g : Group) (P : Kind → Prop) : Prop
  | passes : g.type ∈ passing → (∀ x ∈ g.resolvers, R x P) → GroupPromise R own g P
  /-- one member that never fails, in groups that fail over; with a timer, fail-back groups need it in the first place -/
  | one {Q x} : g.type ∈ [str "fail-rotate", str "random", str "load-balance"] ∨ g.type = str "fail-back" ∧ (g.resetAfter = some 0 ∨ g.resolvers.head? = some x) → g.emptyError = false →
      x ∈ g.resolvers → R x Q → (∀ k, Q k → Success g k) → (∀ k, Success g k → P k) → GroupPromise R own g P
  | fastest {Q x} : g.type = str "fastest" → x ∈ g.resolvers → R x Q → ¬ Q .failed → ¬ Q (.code 2) → (∀ k, k ≠ .failed → k ≠ .code 2 → P k) → GroupPromise R own g P
  | all : g.type ∈ [str "round-robin", str "fastest"] ∨ g.type ∈ [str "fail-rotate", str "fail-back"] ∧ g.resolvers ≠ [] ∨
      g.type = str "random" ∧ P .failed ∨ g.type = str "load-balance" ∧ g.resolvers ≠ [] → (∀ x ∈ g.resolvers, R x P) → GroupPromise R own g P
  | truncateRetry : g.type = str "truncate-retry" → (∀ x ∈ g.resolvers, R x P) → R g.retryResolver P → GroupPromise R own g P
  | blocklist : g.type = str "blocklist" → (∀ x ∈ g.resolvers, R x P) → P (.code 0) → P (.code 3) → GroupPromise R own g P
  | blocklistV2 : g.type = str "blocklist-v2" → (∀ x ∈ g.resolvers, R x P) → (g.allowListResolver ≠ [] → R g.allowListResolver P) → (g.blockListResolver ≠ [] → R g.blockListResolver P) →
      P (.code 0) → (g.blockListResolver = [] → P (.code 3)) → GroupPromise R own g P
  | response : g.type ∈ [str "response-blocklist-ip", str "response-blocklist-cidr", str "response-blocklist-name"] → (∀ x ∈ g.resolvers, R x P) →
      (g.blockListResolver ≠ [] → R g.blockListResolver P) → (g.blockListResolver = [] → P (.code 3)) → GroupPromise R own g P
  | client : g.type = str "client-blocklist" → (∀ x ∈ g.resolvers, R x P) → (g.blockListResolver ≠ [] → R g.blockListResolver P) → (g.blockListResolver = [] → P (.code 5)) → GroupPromise R own g P
  | collapse : g.type = str "response-collapse" → (∀ x ∈ g.resolvers, R x P) → (P (.code 0) → P (.code g.nullRCode)) → GroupPromise R own g P
  | rateLimiter : g.type = str "rate-limiter" → (∀ x ∈ g.resolvers, R x P) → (g.limitResolver ≠ [] → R g.limitResolver P) → (g.limitResolver = [] → P .dropped) → GroupPromise R own g P
  | static : g.type ∈ [str "static-responder", str "static-template"] → P (.code g.rcode) → GroupPromise R own g P
  | drop : g.type = str "drop" → P .dropped → GroupPromise R own g P
  /-- a query that flushes the cache is answered with NOERROR -/
  | cache : g.type = str "cache" → (∀ b, g.backend = some b → b.type = str "memory") → g.cacheNegativeTTL ≤ 4294967295 → (g.cacheFlushQuery ≠ [] → P (.code 0)) →
      (∀ x ∈ g.resolvers, R x P) → GroupPromise R own g P
  | dnssec : g.type = str "dnssec-validator" → (∀ x ∈ g.resolvers, R x P) → (g.dnssecLogOnly = false → P (.code 2)) → GroupPromise R own g P
  | script : g.type = str "lua" ∨ g.type = str "cache" ∧ (∃ b, g.backend = some b ∧ b.type = str "redis") → (∀ k, own k → P k) → GroupPromise R own g P

/-- A route without conditions -/
def CatchAll (r : RouteCfg) : Prop := r.type = [] ∧ r.route = {}

/-- The promises `R` are kept by every section, given those of the sections it refers to; `S id` are the kinds of replies of the server of section `id`. -/
structure Promises (c : Cfg) (S : Str → Kind → Prop) (R : Str → (Kind → Prop) → Prop) : Prop where
  resolver : ∀ id P, R id P → ∀ r, (id, r) ∈ c.resolvers → ∀ k, S id k → P k
  bootstrap : ∀ P, R (str "bootstrap-resolver") P → c.bootstrap ≠ none → ∀ k, S (str "bootstrap-resolver") k → P k
  group : ∀ id P, R id P → ∀ g, (id, g) ∈ c.groups → GroupPromise R (S id) g P
  /-- without a route for a query there is an error -/
  router : ∀ id P, R id P → ∀ rs, (id, rs) ∈ c.routers → (∀ r ∈ rs, R r.resolver P) ∧ (P .failed ∨ ∃ r, r ∈ rs ∧ CatchAll r)

/-- The library: addresses have a text, shuffling and encoding keep the code of a message, and the empty regular expression matches every text. -/
structure CodesKept {H : Type} (env : Env H) : Prop where
  text : ∀ a, env.cache.ipStr a ≠ []
  random : ∀ m, KeepsCode m (env.shuffleRandom m)
  roundRobin : ∀ m, KeepsCode m (env.shuffleRoundRobin m)
  codec : ∀ m w m', env.cache.encode m = some w → env.cache.decode w = some m' → KeepsCode m m'
  empty : ∀ f, env.compile [] = some f → ∀ s, f s = true

end Verif.Available
