import Verif.Spec.Assemble
/-
Specification for C119: queries that can come from the wire, and configurations whose parts are there.
-/
namespace Verif.Exist
open Verif Verif.Composition

/-- The query has a question, and its numbers fit their Go types. -/
structure Askable (q : Msg) : Prop where
  question : q.question ≠ []
  types : ∀ a ∈ q.question, a.qtype < 65536 ∧ a.qclass < 65536
  masks : ∀ e, q.edns? = some e → ∀ f mask s a, .ecs f mask s a ∈ e.options → mask < 256

/-- Prefixes that the modifier puts into queries fit as well. -/
def Fits8 : Modifier → Prop
  | .ecsAdd _ p4 p6 => p4 < 256 ∧ p6 < 256
  | .ecsAddIfMissing _ p4 p6 => p4 < 256 ∧ p6 < 256
  | .ecsPrivacy p4 p6 => p4 < 256 ∧ p6 < 256
  | _ => True

/-- Lists are some list, `fastest` groups have a member, and prefixes fit. Nothing else is needed for a reply. -/
def Ready {H : Type} : Tree H → Prop
  | .client _ => True
  | .ttl _ t => Ready t
  | .truncateRetry t u => Ready t ∧ Ready u
  | .collapse _ t => Ready t
  | .minimize t => Ready t
  | .drop => True
  | .modify m t => Fits8 m ∧ Ready t
  | .blocklist L t a b => (∃ opt, L opt) ∧ Ready t ∧ Ready a ∧ Ready b
  | .clientBlocklist L t b => (∃ e h db, L e h db) ∧ Ready t ∧ Ready b
  | .responseIp L t b => (∃ opt, L opt) ∧ Ready t ∧ Ready b
  | .responseName L t b => (∃ opt, L opt) ∧ Ready t ∧ Ready b
  | .rateLimit _ t l => Ready t ∧ Ready l
  | .static _ => True
  | .template _ _ => True
  | .replace _ t => Ready t
  | .syslog _ t => Ready t
  | .queryLog t => Ready t
  | .dns64 _ t => Ready t
  | .failRotate _ _ member => ∀ m, Ready (member m)
  | .failBack _ _ member => ∀ m, Ready (member m)
  | .failBackEach _ _ member => ∀ m, Ready (member m)
  | .roundRobin _ member => ∀ m, Ready (member m)
  | .random _ _ member => ∀ m, Ready (member m)
  | .loadBalance _ _ member => ∀ m, Ready (member m)
  | .fastest n member => 0 < n ∧ ∀ m, Ready (member m)
  | .fastestTcp _ _ t => Ready t
  | .router _ member => ∀ m, Ready (member m)
  | .dedup t => Ready t
  | .cache _ _ _ t => Ready t
  | .prefetch t => Ready t
  | .dnssec _ t => Ready t

/-- Lists that were read are some list. -/
structure Loads {H : Type} (env : Assemble.Env H) : Prop where
  names : ∀ d, env.loadNames d = true → ∃ db, Assemble.nameListMay env d db
  ips : ∀ d, env.loadIps d = true → ∃ db, Assemble.ipListMay env d db

/-- `fastest` groups have members. The prefixes are numbers of eight bits in Go (cmd/routedns/config.go:115-116). -/
structure Whole (g : Assemble.Group) : Prop where
  members : g.type = str "fastest" → g.resolvers ≠ []
  prefixes : g.ecsPrefix4 < 256 ∧ g.ecsPrefix6 < 256

end Verif.Exist
