import Verif.Spec.Limits
import Verif.Spec.AsksConfig
import Verif.Spec.Rate
/-
Specification for C126: what one query may cost the servers, written next to the sections of a configuration file.
-/
namespace Verif.Spec.LimitsConfig
open Verif Verif.Assemble Verif.Spec.Asks

/-- `n` covers what the section makes of one query, if the others have these costs. -/
inductive Pays (g : Group) (cost : Str → Nat) (n : Nat) : Prop
  /-- the limiter: only queries that are over the limit count -/
  | limiter : g.type = str "rate-limiter" → (g.limitResolver ≠ [] → cost g.limitResolver ≤ n) → Pays g cost n
  /-- groups that try one member after the other -/
  | group : g.type ∈ [str "fail-rotate", str "fail-back", str "random", str "load-balance"] → (∀ x ∈ g.resolvers, g.resolvers.length * cost x ≤ n) → Pays g cost n
  | fastest : g.type = str "fastest" → (g.resolvers.map cost).sum ≤ n → Pays g cost n
  /-- elements that ask a second time -/
  | retry : g.type = str "truncate-retry" → (∀ x ∈ g.resolvers, cost x + cost g.retryResolver ≤ n) → Pays g cost n
  | response : g.type ∈ [str "response-blocklist-ip", str "response-blocklist-cidr", str "response-blocklist-name"] →
      (∀ x ∈ g.resolvers, cost x + (if g.blockListResolver = [] then 0 else cost g.blockListResolver) ≤ n) → Pays g cost n
  | dns64 : g.type = str "dns64" → (∀ x ∈ g.resolvers, 2 * cost x ≤ n) → Pays g cost n
  /-- elements that ask by themselves -/
  | itself : g.type ∈ [str "prefetch", str "dnssec-validator"] → (∀ x ∈ g.resolvers, cost x = 0) → Pays g cost n
  /-- all others send a query to one place -/
  | one : g.type ∉ [str "rate-limiter", str "fail-rotate", str "fail-back", str "random", str "load-balance", str "fastest", str "truncate-retry", str "response-blocklist-ip", str "response-blocklist-cidr",
      str "response-blocklist-name", str "dns64", str "prefetch", str "dnssec-validator"] → (∀ x, Refers g x → cost x ≤ n) → Pays g cost n

/-- One query to a section `id` in `R` costs the servers no more than `cost id` queries, besides those that the rate limiter `lim` lets through. `R` is closed under references, and `lim` the only rate limiter in it. -/
structure Budget (c : Cfg) (servers : Str → Prop) (lim : Str) (R : Str → Prop) (cost : Str → Nat) : Prop where
  resolver : ∀ id r, R id → (id, r) ∈ c.resolvers → servers id → 1 ≤ cost id
  bootstrap : R (str "bootstrap-resolver") → c.bootstrap ≠ none → servers (str "bootstrap-resolver") → 1 ≤ cost (str "bootstrap-resolver")
  group : ∀ id g, R id → (id, g) ∈ c.groups → ¬ Opaque g ∧ (∀ x, Refers g x → R x) ∧ (g.type = str "rate-limiter" → id = lim) ∧ Pays g cost (cost id)
  router : ∀ id rs, R id → (id, rs) ∈ c.routers → ∀ r ∈ rs, R r.resolver ∧ cost r.resolver ≤ cost id

end Verif.Spec.LimitsConfig
