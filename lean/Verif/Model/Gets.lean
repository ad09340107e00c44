import Verif.Model.Asks
/-
The queries each element of a configuration gets over its life, given those the listeners get. This is finer than `Asks` for elements that ask again what
they were asked before.

Simplified as in Verif/Model/Asks.lean: an element that may ask is taken to ask. Elements that are the same are taken to be one.
-/
namespace Verif.Asks
open Verif Verif.Composition

/-- `Gets root Q t q ci`: if `root` gets queries of `Q` only, over its whole life, then `t`, somewhere in it, may get the query `q` of client `ci`. Each case is the
call of `Resolve` in the file named at the case of `Asks`, and prefetch.go:86-90 asks again only what it was asked before. (router.go:40-72, cache.go:204-285 and so on.) -/
inductive Gets {H : Type} (root : Tree H) (Q : Msg → ClientInfo → Prop) : Tree H → Msg → ClientInfo → Prop
  | root {q ci} : Q q ci → Gets root Q root q ci
  | ttl {opt t q ci} : Gets root Q (.ttl opt t) q ci → Gets root Q t q ci
  | truncate {t u q ci} : Gets root Q (.truncateRetry t u) q ci → Gets root Q t q ci
  | retry {t u q ci} : Gets root Q (.truncateRetry t u) q ci → Gets root Q u q ci
  | collapse {n t q ci} : Gets root Q (.collapse n t) q ci → Gets root Q t q ci
  | minimize {t q ci} : Gets root Q (.minimize t) q ci → Gets root Q t q ci
  | modify {m t q ci} : Gets root Q (.modify m t) q ci → Gets root Q t (m.apply q ci) ci
  | blocklist {L t a b opt target q p ci} : Gets root Q (.blocklist L t a b) q ci → L opt → Blocklist.resolve opt q = some (.forward target p) →
      Gets root Q (branch t a b target) p ci
  | clientBlocklist {L t b useECS hasBlock db target q p ci} : Gets root Q (.clientBlocklist L t b) q ci → L useECS hasBlock db →
      Blocklist.resolveClient useECS hasBlock db q ci = .forward target p → Gets root Q (branch t t b target) p ci
  | responseIp {L t b q ci} : Gets root Q (.responseIp L t b) q ci → Gets root Q t q ci
  | responseIpBlock {L t b opt r target q p ci} : Gets root Q (.responseIp L t b) q ci → L opt → Blocklist.resolveIp opt r q = .forward target p →
      Gets root Q (branch t t b target) p ci
  | responseName {L t b q ci} : Gets root Q (.responseName L t b) q ci → Gets root Q t q ci
  | responseNameBlock {L t b opt r target q p ci} : Gets root Q (.responseName L t b) q ci → L opt → Blocklist.resolveName opt r q = .forward target p →
      Gets root Q (branch t t b target) p ci
  | rateOn {h t l q ci} : Gets root Q (.rateLimit h t l) q ci → Gets root Q t q ci
  | rateLimited {t l q ci} : Gets root Q (.rateLimit true t l) q ci → Gets root Q l q ci
  | replace {exps t q ci} : Gets root Q (.replace exps t) q ci → Gets root Q t (replaceAsk exps q) ci
  | syslog {opt t q ci} : Gets root Q (.syslog opt t) q ci → Gets root Q t q ci
  | queryLog {t q ci} : Gets root Q (.queryLog t) q ci → Gets root Q t q ci
  | dns64 {ps t q ci} : Gets root Q (.dns64 ps t) q ci → Gets root Q t q ci
  | dns64A {ps t q ci} : Gets root Q (.dns64 ps t) q ci → Gets root Q t (Dns64.aQuery q) ci
  | failRotate {n ok member m q ci} : Gets root Q (.failRotate n ok member) q ci → Gets root Q (member m) q ci
  | failBack {n ok member m q ci} : Gets root Q (.failBack n ok member) q ci → Gets root Q (member m) q ci
  | failBackEach {n ok member m q ci} : Gets root Q (.failBackEach n ok member) q ci → Gets root Q (member m) q ci
  | roundRobin {n member m q ci} : Gets root Q (.roundRobin n member) q ci → Gets root Q (member m) q ci
  | random {n ok member m q ci} : Gets root Q (.random n ok member) q ci → Gets root Q (member m) q ci
  | loadBalance {n ok member m q ci} : Gets root Q (.loadBalance n ok member) q ci → Gets root Q (member m) q ci
  | fastest {n member m q ci} : Gets root Q (.fastest n member) q ci → Gets root Q (member m) q ci
  | fastestTcp {w n t q ci} : Gets root Q (.fastestTcp w n t) q ci → Gets root Q t q ci
  | router {routes member q qu rest ci now m} : Gets root Q (.router routes member) q ci → q.question = qu :: rest → Route.routeIndex routes q qu ci now 0 = some m →
      Gets root Q (member m) q ci
  | dedup {t q ci} : Gets root Q (.dedup t) q ci → Gets root Q t q ci
  | cache {env opt cap t q ci} : Gets root Q (.cache env opt cap t) q ci → Gets root Q t q ci
  | prefetch {t q ci} : Gets root Q (.prefetch t) q ci → Gets root Q t q ci
  | prefetchAgain {t q ci} : Gets root Q (.prefetch t) q ci → Gets root Q t q { listener := str "prefetch" }
  | dnssec {lo t q ci} : Gets root Q (.dnssec lo t) q ci → Gets root Q t (DnssecResolver.upstreamQuery q) ci
  | dnssecLookup {lo t q ci p} : Gets root Q (.dnssec lo t) q ci → Lookup p → Gets root Q t p {}

end Verif.Asks
