import Verif.Model.Composition
/-
What servers are asked: the queries that reach the clients of a configuration (`Composition.Tree`) when it is given a query. The functions that decide
are those of the elements (`Blocklist.resolve`, `Route.routeIndex` and so on).

Simplified: an element that may ask is taken to ask (a cache whether or not it has an answer, a group any of its members, DNS64 for A records in any case). What
elements ask by themselves is included.
-/
namespace Verif.Asks
open Verif Verif.Composition

/-- dnssec/validator.go:306-313, 339-345: a look-up of the DNSSEC validator, for a name that comes from the reply of a server: DNSKEY (48) or DS (43), with an OPT
record without options. The ID is random. -/
def Lookup (q : Msg) : Prop := ∃ id name ty, (ty = 48 ∨ ty = 43) ∧ q = ({ id := id, rd := true, cd := true, question := [⟨name, ty, 1⟩] } : Msg).setEdns0 4096 true

/-- `Asks t q ci i q' ci'`: given the query `q` of client `ci`, `t` may ask server `i` the query `q'`, as for client `ci'`. Each case is the call of `Resolve` in the file named. The element calls are cited at each constructor (router.go:40-72, cache.go:204-285 and so on). -/
inductive Asks {H : Type} : Tree H → Msg → ClientInfo → Nat → Msg → ClientInfo → Prop
  | client {i q ci} : Asks (.client i) q ci i q ci
  /-- ttl-modifier.go:50 -/
  | ttl {opt t q ci i q' ci'} : Asks t q ci i q' ci' → Asks (.ttl opt t) q ci i q' ci'
  /-- truncate-retry.go:35 and 43 -/
  | truncate {t u q ci i q' ci'} : Asks t q ci i q' ci' → Asks (.truncateRetry t u) q ci i q' ci'
  | retry {t u q ci i q' ci'} : Asks u q ci i q' ci' → Asks (.truncateRetry t u) q ci i q' ci'
  /-- response-collapse.go, response-minimize.go -/
  | collapse {n t q ci i q' ci'} : Asks t q ci i q' ci' → Asks (.collapse n t) q ci i q' ci'
  | minimize {t q ci i q' ci'} : Asks t q ci i q' ci' → Asks (.minimize t) q ci i q' ci'
  /-- ecs-modifier.go, edns0-modifier.go -/
  | modify {m t q ci i q' ci'} : Asks t (m.apply q ci) ci i q' ci' → Asks (.modify m t) q ci i q' ci'
  /-- blocklist.go:90-190 -/
  | blocklist {L t a b opt target q p ci i q' ci'} : L opt → Blocklist.resolve opt q = some (.forward target p) → Asks (branch t a b target) p ci i q' ci' →
      Asks (.blocklist L t a b) q ci i q' ci'
  /-- client-blocklist.go:58-103 -/
  | clientBlocklist {L t b useECS hasBlock db target q p ci i q' ci'} : L useECS hasBlock db → Blocklist.resolveClient useECS hasBlock db q ci = .forward target p →
      Asks (branch t t b target) p ci i q' ci' → Asks (.clientBlocklist L t b) q ci i q' ci'
  /-- response-blocklist-ip.go:67-79, first the resolver, then perhaps the block resolver -/
  | responseIp {L t b q ci i q' ci'} : Asks t q ci i q' ci' → Asks (.responseIp L t b) q ci i q' ci'
  | responseIpBlock {L t b opt r target q p ci i q' ci'} : L opt → Blocklist.resolveIp opt r q = .forward target p → Asks (branch t t b target) p ci i q' ci' →
      Asks (.responseIp L t b) q ci i q' ci'
  /-- response-blocklist-name.go:67-87 -/
  | responseName {L t b q ci i q' ci'} : Asks t q ci i q' ci' → Asks (.responseName L t b) q ci i q' ci'
  | responseNameBlock {L t b opt r target q p ci i q' ci'} : L opt → Blocklist.resolveName opt r q = .forward target p → Asks (branch t t b target) p ci i q' ci' →
      Asks (.responseName L t b) q ci i q' ci'
  /-- rate-limiter.go:65-115 -/
  | rateOn {h t l q ci i q' ci'} : Asks t q ci i q' ci' → Asks (.rateLimit h t l) q ci i q' ci'
  | rateLimited {t l q ci i q' ci'} : Asks l q ci i q' ci' → Asks (.rateLimit true t l) q ci i q' ci'
  /-- replace.go:56-75 -/
  | replace {exps t q ci i q' ci'} : Asks t (replaceAsk exps q) ci i q' ci' → Asks (.replace exps t) q ci i q' ci'
  /-- syslog.go, query-log.go -/
  | syslog {opt t q ci i q' ci'} : Asks t q ci i q' ci' → Asks (.syslog opt t) q ci i q' ci'
  | queryLog {t q ci i q' ci'} : Asks t q ci i q' ci' → Asks (.queryLog t) q ci i q' ci'
  /-- dns64.go:77-119 -/
  | dns64 {ps t q ci i q' ci'} : Asks t q ci i q' ci' → Asks (.dns64 ps t) q ci i q' ci'
  | dns64A {ps t q ci i q' ci'} : Asks t (Dns64.aQuery q) ci i q' ci' → Asks (.dns64 ps t) q ci i q' ci'
  /-- failrotate.go, failback.go, roundrobin.go, random.go, loadbalance.go, fastest.go: members -/
  | failRotate {n ok member m q ci i q' ci'} : Asks (member m) q ci i q' ci' → Asks (.failRotate n ok member) q ci i q' ci'
  | failBack {n ok member m q ci i q' ci'} : Asks (member m) q ci i q' ci' → Asks (.failBack n ok member) q ci i q' ci'
  | failBackEach {n ok member m q ci i q' ci'} : Asks (member m) q ci i q' ci' → Asks (.failBackEach n ok member) q ci i q' ci'
  | roundRobin {n member m q ci i q' ci'} : Asks (member m) q ci i q' ci' → Asks (.roundRobin n member) q ci i q' ci'
  | random {n ok member m q ci i q' ci'} : Asks (member m) q ci i q' ci' → Asks (.random n ok member) q ci i q' ci'
  | loadBalance {n ok member m q ci i q' ci'} : Asks (member m) q ci i q' ci' → Asks (.loadBalance n ok member) q ci i q' ci'
  | fastest {n member m q ci i q' ci'} : Asks (member m) q ci i q' ci' → Asks (.fastest n member) q ci i q' ci'
  /-- fastest-tcp.go:66; the connections made to compare addresses are no queries -/
  | fastestTcp {w n t q ci i q' ci'} : Asks t q ci i q' ci' → Asks (.fastestTcp w n t) q ci i q' ci'
  /-- router.go:34-53 -/
  | router {routes member q qu rest ci now m i q' ci'} : q.question = qu :: rest → Route.routeIndex routes q qu ci now 0 = some m → Asks (member m) q ci i q' ci' →
      Asks (.router routes member) q ci i q' ci'
  /-- request-dedup.go:120; callers with the same query wait for its result -/
  | dedup {t q ci i q' ci'} : Asks t q ci i q' ci' → Asks (.dedup t) q ci i q' ci'
  /-- cache.go:209, 240 (a refresh) and 270 -/
  | cache {env opt cap t q ci i q' ci'} : Asks t q ci i q' ci' → Asks (.cache env opt cap t) q ci i q' ci'
  | prefetch {t q ci i q' ci'} : Asks t q ci i q' ci' → Asks (.prefetch t) q ci i q' ci'
  /-- prefetch.go:86-90: queries seen earlier, asked again, as for a client without address -/
  | prefetchAgain {t q ci p i q' ci'} : Asks t p { listener := str "prefetch" } i q' ci' → Asks (.prefetch t) q ci i q' ci'
  /-- dnssec.go:122, and 67-68 for the look-ups of keys, as for a client without address -/
  | dnssec {lo t q ci i q' ci'} : Asks t (DnssecResolver.upstreamQuery q) ci i q' ci' → Asks (.dnssec lo t) q ci i q' ci'
  | dnssecLookup {lo t q ci p i q' ci'} : Lookup p → Asks t p {} i q' ci' → Asks (.dnssec lo t) q ci i q' ci'

end Verif.Asks
