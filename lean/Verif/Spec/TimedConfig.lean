import Verif.Spec.AsksConfig
import Verif.Spec.Exist
/-
Specification for C127: times and numbers of queries, written next to the sections of a configuration file.
-/
namespace Verif.Spec.TimedConfig
open Verif Verif.Assemble Verif.Spec.Asks

/-- A reply of the section comes within `n`, if those of the sections it refers to come within their times. -/
inductive Lasts (g : Group) (time : Str → Nat) (n : Nat) : Prop
  /-- groups that try one member after the other -/
  | group : g.type ∈ [str "fail-rotate", str "fail-back", str "random", str "load-balance"] → (∀ x ∈ g.resolvers, g.resolvers.length * time x ≤ n) → Lasts g time n
  /-- elements that ask a second time -/
  | retry : g.type = str "truncate-retry" → (∀ x ∈ g.resolvers, time x + time g.retryResolver ≤ n) → Lasts g time n
  | response : g.type ∈ [str "response-blocklist-ip", str "response-blocklist-cidr", str "response-blocklist-name"] →
      (∀ x ∈ g.resolvers, time x + (if g.blockListResolver = [] then 0 else time g.blockListResolver) ≤ n) → Lasts g time n
  | dns64 : g.type = str "dns64" → (∀ x ∈ g.resolvers, 2 * time x ≤ n) → Lasts g time n
  /-- all others ask one, or (`fastest`) all at the same time; validators and `fastest-tcp` are left out -/
  | one : g.type ∉ [str "fail-rotate", str "fail-back", str "random", str "load-balance", str "truncate-retry", str "response-blocklist-ip", str "response-blocklist-cidr", str "response-blocklist-name",
      str "dns64", str "dnssec-validator", str "fastest-tcp"] → (∀ x, Refers g x → time x ≤ n) → Lasts g time n

/-- `time id` is enough for each section in `R`, which has with a section all it refers to. `limit`: what servers, scripts and Redis caches take. -/
structure Schedule (c : Cfg) (limit : Str → Nat) (R : Str → Prop) (time : Str → Nat) : Prop where
  resolver : ∀ id r, R id → (id, r) ∈ c.resolvers → limit id ≤ time id
  bootstrap : R (str "bootstrap-resolver") → c.bootstrap ≠ none → limit (str "bootstrap-resolver") ≤ time (str "bootstrap-resolver")
  group : ∀ id g, R id → (id, g) ∈ c.groups → Opaque g ∧ limit id ≤ time id ∨ ¬ Opaque g ∧ (∀ x, Refers g x → R x) ∧ Lasts g time (time id)
  router : ∀ id rs, R id → (id, rs) ∈ c.routers → ∀ r ∈ rs, R r.resolver ∧ time r.resolver ≤ time id

/-- `n` covers what the section makes of one query, if the others have these costs. -/
inductive Spends (g : Group) (cost : Str → Nat) (n : Nat) : Prop
  /-- groups that try one member after the other -/
  | group : g.type ∈ [str "fail-rotate", str "fail-back", str "random", str "load-balance"] → (∀ x ∈ g.resolvers, g.resolvers.length * cost x ≤ n) → Spends g cost n
  | fastest : g.type = str "fastest" → (g.resolvers.map cost).sum ≤ n → Spends g cost n
  /-- elements that ask a second time -/
  | retry : g.type = str "truncate-retry" → (∀ x ∈ g.resolvers, cost x + cost g.retryResolver ≤ n) → Spends g cost n
  | response : g.type ∈ [str "response-blocklist-ip", str "response-blocklist-cidr", str "response-blocklist-name"] →
      (∀ x ∈ g.resolvers, cost x + (if g.blockListResolver = [] then 0 else cost g.blockListResolver) ≤ n) → Spends g cost n
  | dns64 : g.type = str "dns64" → (∀ x ∈ g.resolvers, 2 * cost x ≤ n) → Spends g cost n
  /-- all others send a query to one place; those that ask by themselves are left out -/
  | one : g.type ∉ [str "fail-rotate", str "fail-back", str "random", str "load-balance", str "fastest", str "truncate-retry", str "response-blocklist-ip", str "response-blocklist-cidr",
      str "response-blocklist-name", str "dns64", str "prefetch", str "dnssec-validator"] → (∀ x, Refers g x → cost x ≤ n) → Spends g cost n

/-- One query to a section `id` in `R` costs no more than `cost id` queries to servers. Scripts and Redis caches count as one server each. -/
structure Spending (c : Cfg) (R : Str → Prop) (cost : Str → Nat) : Prop where
  resolver : ∀ id r, R id → (id, r) ∈ c.resolvers → 1 ≤ cost id
  bootstrap : R (str "bootstrap-resolver") → c.bootstrap ≠ none → 1 ≤ cost (str "bootstrap-resolver")
  group : ∀ id g, R id → (id, g) ∈ c.groups → Opaque g ∧ 1 ≤ cost id ∨ ¬ Opaque g ∧ (∀ x, Refers g x → R x) ∧ Spends g cost (cost id)
  router : ∀ id rs, R id → (id, rs) ∈ c.routers → ∀ r ∈ rs, R r.resolver ∧ cost r.resolver ≤ cost id

end Verif.Spec.TimedConfig
