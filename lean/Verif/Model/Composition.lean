import Verif.Model.Elements
import Verif.Model.Modifiers
import Verif.Model.Blocklist
import Verif.Model.Static
import Verif.Model.Dns64
import Verif.Model.Group
import Verif.Model.Balance
import Verif.Model.Route
import Verif.Model.Rate
import Verif.Model.Dedup
import Verif.Props.Cache
import Verif.Model.DnssecResolver
import Verif.Model.Pipeline
import Verif.Model.Clients
/-
Whole configurations: elements connected to each other as in cmd/routedns/main.go:249-1057, where each element gets the elements it names. That there
are no cycles is C60, so a configuration seen from a listener is a tree (an element named twice is two subtrees; what it remembers between queries
is part of the replies it may give, see `Replies`).
-/
namespace Verif.Composition
open Verif

/-- ecs-modifier.go:46-188 and edns0-modifier.go:44-80: the modifiers that can be configured (cmd/routedns/main.go:688-719) -/
inductive Modifier where
  /-- no operation was configured -/
  | keep
  | ecsDelete
  | ecsAdd (addr : Str) (prefix4 prefix6 : Nat)
  | ecsAddIfMissing (addr : Str) (prefix4 prefix6 : Nat)
  | ecsPrivacy (prefix4 prefix6 : Nat)
  | edns0Delete (code : Nat)
  | edns0Add (code : Nat) (data : Str)

/-- ecs-modifier.go:28-43, edns0-modifier.go:27-41: the query passed on -/
def Modifier.apply (m : Modifier) (q : Msg) (ci : ClientInfo) : Msg := match m with
  | .keep => q
  | .ecsDelete => Modifiers.ecsDelete q
  | .ecsAdd a p4 p6 => Modifiers.ecsAdd a p4 p6 q ci
  | .ecsAddIfMissing a p4 p6 => Modifiers.ecsAddIfMissing a p4 p6 q ci
  | .ecsPrivacy p4 p6 => Modifiers.ecsPrivacy p4 p6 q
  | .edns0Delete c => Modifiers.edns0Delete c q
  | .edns0Add c d => Modifiers.edns0Add c d q

/-- A configuration as seen from a listener. Lists may change while the program runs: the tree has the set of all that an element may come to have (`L`), together with its
options. Other things that change are not part of the tree. Members of groups are numbered from 0. Not included: scripts, which may reply anything. The elements of cmd/routedns/main.go:475-1108 (cmd/routedns). -/
inductive Tree (H : Type) where
  /-- an upstream server -/
  | client (i : Nat)
  | ttl (o : Elements.TTLOptions) (t : Tree H)
  | truncateRetry (t retry : Tree H)
  | collapse (nullRCode : Nat) (t : Tree H)
  | minimize (t : Tree H)
  | drop
  | modify (m : Modifier) (t : Tree H)
  | blocklist (L : Blocklist.Options → Prop) (t allow block : Tree H)
  /-- `L` of `use-ecs`, whether there is a block resolver, and the list -/
  | clientBlocklist (L : Bool → Bool → (Str → Option Lists.Match) → Prop) (t block : Tree H)
  | responseIp (L : Blocklist.IpOptions → Prop) (t block : Tree H)
  | responseName (L : Blocklist.NameOptions → Prop) (t block : Tree H)
  | rateLimit (hasLimit : Bool) (t limit : Tree H)
  | static (s : Static.Static)
  | template (newRR : Str → Option (Option RR)) (s : Static.Template)
  | replace (exps : List (Str → Str)) (t : Tree H)
  | syslog (o : Static.SyslogOptions) (t : Tree H)
  | queryLog (t : Tree H)
  | dns64 (prefixes : List Dns64.Pfx) (t : Tree H)
  | failRotate (n : Nat) (ok : Res → Bool) (member : Nat → Tree H)
  /-- with a reset time above zero -/
  | failBack (n : Nat) (ok : Res → Bool) (member : Nat → Tree H)
  /-- with a reset time of zero -/
  | failBackEach (n : Nat) (ok : Res → Bool) (member : Nat → Tree H)
  | roundRobin (n : Nat) (member : Nat → Tree H)
  | random (n : Nat) (ok : Res → Bool) (member : Nat → Tree H)
  | loadBalance (n : Nat) (ok : Res → Bool) (member : Nat → Tree H)
  | fastest (n : Nat) (member : Nat → Tree H)
  | fastestTcp (waitAll : Bool) (minTTL : Nat) (t : Tree H)
  | router (routes : List Route.Route) (member : Nat → Tree H)
  | dedup (t : Tree H)
  | cache (env : CacheM.Env H) (o : CacheM.Opts) (cap : Int) (t : Tree H)
  | prefetch (t : Tree H)
  | dnssec (logOnly : Bool) (t : Tree H)

/-- blocklist.go:90-190, client-blocklist.go:58-103 etc.: the element a query is passed to -/
def branch {H : Type} (t allow block : Tree H) : Blocklist.Target → Tree H
  | .upstream => t
  | .allow => allow
  | .block => block

/-- replace.go:56-75: the query the replace element asks -/
def replaceAsk (exps : List (Str → Str)) (q : Msg) : Msg := match q.question with
  | [] => q
  | qu :: rest => { q with question := { qu with name := Static.apply exps qu.name } :: rest }

/-- dns64.go:82 and 118: replies to the two queries of the DNS64 element -/
def two (q : Msg) (r1 r2 : Res) : Msg → Res := fun x => if x = q then r1 else r2

/-- What else there is when a query is handled: responses that caches in front of an element have stored, and when (cache.go:321-350); results that other calls behind a
de-duplication get (request-dedup.go:96-126); times the clock shows when a cache looks something up (cache-memory.go:89); how validations of messages of an element end (dnssec.go:133-146); and the replies
members of groups gave to other queries, on which it depends who is asked (failrotate.go:50-97, failback.go:78-145, random.go:50-120). -/
structure Around (H : Type) where
  stored : Tree H → Msg → Int → Prop
  shared : Tree H → Res → Prop
  clock : Int → Prop
  verdict : Tree H → Msg → DnssecResolver.Verdict → Prop
  replied : Tree H → Res → Prop

/-- Anything, at any time (cache.go:204-285, request-dedup.go:51-139, dnssec.go:133-146) -/
def Around.any {H : Type} : Around H := ⟨fun _ _ _ => True, fun _ _ => True, fun _ => True, fun _ _ _ => True, fun _ _ => True⟩

/-- The replies a configuration may give to a query of a client; `none` is a crash. `C i` are the replies that upstream server `i` may give through its
client. Elements that remember things are in any state that any history leads to, groups run with any other queries at the same time, and lists are
any lists. What a cache has stored, what de-duplication hands out, what the clock shows and how validations end is as `W` says. The rate limiter decides in any way (C21 says how), de-duplication hands out any result made out to the query (C22 says whose). Refreshes in the background, whose replies go to no client, are left out. Each constructor is the call of `Resolve` in one element, with the function of the model that was proved about it (blocklist.go:90, router.go:40, cache.go:204 and so on). -/
inductive RepliesIn {H : Type} [DecidableEq H] (W : Around H) (C : Nat → Msg → ClientInfo → Option Res → Prop) : Tree H → Msg → ClientInfo → Option Res → Prop
  | client {i q ci o} : C i q ci o → RepliesIn W C (.client i) q ci o
  | ttl {opt t q ci o} : RepliesIn W C t q ci o → RepliesIn W C (.ttl opt t) q ci (o.map (Elements.ttlResolve opt))
  | truncateKeep {t u q ci r r2} : RepliesIn W C t q ci (some r) → (Elements.truncateRetry r r2).2 = false →
      RepliesIn W C (.truncateRetry t u) q ci (some (Elements.truncateRetry r r2).1)
  | truncateAsk {t u q ci r r2} : RepliesIn W C t q ci (some r) → (Elements.truncateRetry r r2).2 = true → RepliesIn W C u q ci (some r2) →
      RepliesIn W C (.truncateRetry t u) q ci (some (Elements.truncateRetry r r2).1)
  | truncateCrash {t u q ci} : RepliesIn W C t q ci none → RepliesIn W C (.truncateRetry t u) q ci none
  | truncateCrash2 {t u q ci r} : RepliesIn W C t q ci (some r) → RepliesIn W C u q ci none → RepliesIn W C (.truncateRetry t u) q ci none
  | collapse {n t q ci o} : RepliesIn W C t q ci o → RepliesIn W C (.collapse n t) q ci (o.bind (Elements.collapse n q))
  | minimize {t q ci o} : RepliesIn W C t q ci o → RepliesIn W C (.minimize t) q ci (o.map Elements.minimize)
  | drop {q ci} : RepliesIn W C .drop q ci (some (Elements.dropResolve q))
  | modify {m t q ci o} : RepliesIn W C t (m.apply q ci) ci o → RepliesIn W C (.modify m t) q ci o
  | blocklistDone {L t a b opt q ci r} : L opt → Blocklist.resolve opt q = some (.done r) → RepliesIn W C (.blocklist L t a b) q ci (some r)
  | blocklistForward {L t a b opt target q q' ci o} : L opt → Blocklist.resolve opt q = some (.forward target q') → RepliesIn W C (branch t a b target) q' ci o →
      RepliesIn W C (.blocklist L t a b) q ci o
  | blocklistCrash {L t a b opt q ci} : L opt → Blocklist.resolve opt q = none → RepliesIn W C (.blocklist L t a b) q ci none
  | clientDone {L t b useECS hasBlock db q ci r} : L useECS hasBlock db → Blocklist.resolveClient useECS hasBlock db q ci = .done r → RepliesIn W C (.clientBlocklist L t b) q ci (some r)
  | clientForward {L t b useECS hasBlock db target q q' ci o} : L useECS hasBlock db → Blocklist.resolveClient useECS hasBlock db q ci = .forward target q' →
      RepliesIn W C (branch t t b target) q' ci o → RepliesIn W C (.clientBlocklist L t b) q ci o
  | ipDone {L t b opt q ci r x} : L opt → RepliesIn W C t q ci (some r) → Blocklist.resolveIp opt r q = .done x → RepliesIn W C (.responseIp L t b) q ci (some x)
  | ipForward {L t b opt q q' ci r target o} : L opt → RepliesIn W C t q ci (some r) → Blocklist.resolveIp opt r q = .forward target q' →
      RepliesIn W C (branch t t b target) q' ci o → RepliesIn W C (.responseIp L t b) q ci o
  | ipCrash {L t b q ci} : RepliesIn W C t q ci none → RepliesIn W C (.responseIp L t b) q ci none
  | nameDone {L t b opt q ci r x} : L opt → RepliesIn W C t q ci (some r) → Blocklist.resolveName opt r q = .done x → RepliesIn W C (.responseName L t b) q ci (some x)
  | nameForward {L t b opt q q' ci r target o} : L opt → RepliesIn W C t q ci (some r) → Blocklist.resolveName opt r q = .forward target q' →
      RepliesIn W C (branch t t b target) q' ci o → RepliesIn W C (.responseName L t b) q ci o
  | nameCrash {L t b q ci} : RepliesIn W C t q ci none → RepliesIn W C (.responseName L t b) q ci none
  | rateOn {hasLimit rejected t l q ci o} : Rate.dest hasLimit rejected = .resolver → RepliesIn W C t q ci o → RepliesIn W C (.rateLimit hasLimit t l) q ci o
  | rateLimit {hasLimit rejected t l q ci o} : Rate.dest hasLimit rejected = .limitResolver → RepliesIn W C l q ci o → RepliesIn W C (.rateLimit hasLimit t l) q ci o
  | rateDrop {hasLimit rejected t l q ci} : Rate.dest hasLimit rejected = .dropped → RepliesIn W C (.rateLimit hasLimit t l) q ci (some .drop)
  | static {s q ci} : RepliesIn W C (.static s) q ci (Static.resolve s q)
  | template {newRR s q ci} : RepliesIn W C (.template newRR s) q ci (Static.resolveTemplate newRR s q)
  | replace {exps t q ci o} : RepliesIn W C t (replaceAsk exps q) ci o → RepliesIn W C (.replace exps t) q ci (o.bind fun r => Static.resolveReplace exps (fun _ => r) q)
  | syslog {opt connected t q ci o} : RepliesIn W C t q ci o →
      RepliesIn W C (.syslog opt t) q ci (o.bind fun r => (Static.resolveSyslog opt connected (fun _ => r) q).map (·.1))
  | queryLog {t q ci o} : RepliesIn W C t q ci o → RepliesIn W C (.queryLog t) q ci (o.bind fun r => (Static.resolveQueryLog (fun _ => r) q).map (·.1))
  /-- the reply to the first query settles it -/
  | dns64One {ps t q ci r1 o} : RepliesIn W C t q ci (some r1) → (∀ r2, Dns64.resolve ps (two q r1 r2) q = o) → RepliesIn W C (.dns64 ps t) q ci o
  | dns64Two {ps t q ci r1 r2} : RepliesIn W C t q ci (some r1) → RepliesIn W C t (Dns64.aQuery q) ci (some r2) →
      RepliesIn W C (.dns64 ps t) q ci (Dns64.resolve ps (two q r1 r2) q)
  | dns64Crash {ps t q ci} : RepliesIn W C t q ci none → RepliesIn W C (.dns64 ps t) q ci none
  | dns64Crash2 {ps t q ci r1} : RepliesIn W C t q ci (some r1) → RepliesIn W C t (Dns64.aQuery q) ci none → RepliesIn W C (.dns64 ps t) q ci none
  /-- query number `k` of a run of the group; all its calls of members are calls with this query -/
  | failRotate {n ok member q ci es s k r} : Group.Rotate.run n ok ⟨0, []⟩ es = some s → s.queries[k]? = some (.done r) →
      (∀ pre j x post s1 i m, es = pre ++ .reply j x :: post → Group.Rotate.run n ok ⟨0, []⟩ pre = some s1 → s1.queries[j]? = some (.calling i m) → j ≠ k → W.replied (member m) x) →
      (∀ pre x post s1 i m, es = pre ++ .reply k x :: post → Group.Rotate.run n ok ⟨0, []⟩ pre = some s1 → s1.queries[k]? = some (.calling i m) →
        RepliesIn W C (member m) q ci (some x)) → RepliesIn W C (.failRotate n ok member) q ci (some r)
  | failRotateCrash {n ok member q ci m} : RepliesIn W C (member m) q ci none → RepliesIn W C (.failRotate n ok member) q ci none
  | failBack {n ok member q ci es s k r} : Group.Back.run n ok Group.Back.init es = some s → s.queries[k]? = some (.done r) →
      (∀ pre j x post s1 i m, es = pre ++ .reply j x :: post → Group.Back.run n ok Group.Back.init pre = some s1 → s1.queries[j]? = some (.calling i m) → j ≠ k → W.replied (member m) x) →
      (∀ pre x post s1 i m, es = pre ++ .reply k x :: post → Group.Back.run n ok Group.Back.init pre = some s1 → s1.queries[k]? = some (.calling i m) →
        RepliesIn W C (member m) q ci (some x)) → RepliesIn W C (.failBack n ok member) q ci (some r)
  | failBackCrash {n ok member q ci m} : RepliesIn W C (member m) q ci none → RepliesIn W C (.failBack n ok member) q ci none
  | failBackEach {n ok member q ci beh} : (∀ m, m ∈ (Group.Back.perQuery n ok beh n 0 Res.drop).2 → RepliesIn W C (member m) q ci (some (beh m))) →
      RepliesIn W C (.failBackEach n ok member) q ci (some (Group.Back.perQuery n ok beh n 0 Res.drop).1)
  | failBackEachCrash {n ok member q ci m} : RepliesIn W C (member m) q ci none → RepliesIn W C (.failBackEach n ok member) q ci none
  | roundRobin {n member q ci current o} : current < n → RepliesIn W C (member (Group.roundRobinPick n current).1) q ci o → RepliesIn W C (.roundRobin n member) q ci o
  /-- roundrobin.go:33-34 with an empty group -/
  | roundRobinEmpty {member q ci} : RepliesIn W C (.roundRobin 0 member) q ci none
  | random {n ok member q ci es s k r} : Group.Random.run ok ⟨List.range n, [], []⟩ es = some s → s.queries[k]? = some (.done r) →
      (∀ pre j x post s1 m, es = pre ++ .reply j x :: post → Group.Random.run ok ⟨List.range n, [], []⟩ pre = some s1 → s1.queries[j]? = some (.calling m) → j ≠ k → W.replied (member m) x) →
      (∀ pre x post s1 m, es = pre ++ .reply k x :: post → Group.Random.run ok ⟨List.range n, [], []⟩ pre = some s1 → s1.queries[k]? = some (.calling m) →
        RepliesIn W C (member m) q ci (some x)) → RepliesIn W C (.random n ok member) q ci (some (r.getD (.fail "no active resolvers left")))
  | randomCrash {n ok member q ci m} : RepliesIn W C (member m) q ci none → RepliesIn W C (.random n ok member) q ci none
  /-- `choose` gives the positions drawn, which are valid (`Props.Balance.loadbalance_pick_valid`) -/
  | loadBalance {n ok member q ci beh choose r asked} : Balance.resolve n ok beh choose = some (r, asked) →
      (∀ m, m ∈ asked → RepliesIn W C (member m) q ci (some (beh m))) → RepliesIn W C (.loadBalance n ok member) q ci (some r)
  | loadBalanceCrash {n ok member q ci m} : RepliesIn W C (member m) q ci none → RepliesIn W C (.loadBalance n ok member) q ci none
  /-- `arrivals`: the replies in the order in which they come in, `who` from whom: every member replies at most once -/
  | fastest {n member q ci} {arrivals : List Res} {who : Nat → Nat} {r} : Balance.fastest n 0 arrivals = some r →
      (∀ i, i < arrivals.length → who i < n) → (∀ i j, i < arrivals.length → j < arrivals.length → who i = who j → i = j) →
      (∀ (i : Nat) (x : Res), arrivals[i]? = some x → RepliesIn W C (member (who i)) q ci (some x)) → RepliesIn W C (.fastest n member) q ci (some r)
  | fastestCrash {n member q ci m} : RepliesIn W C (member m) q ci none → RepliesIn W C (.fastest n member) q ci none
  | fastestTcp {w minTTL t q ci o probes} : RepliesIn W C t q ci o → RepliesIn W C (.fastestTcp w minTTL t) q ci (o.bind fun r => Balance.Tcp.resolve w minTTL q r probes)
  | router {routes member q qu rest ci now i o} : q.question = qu :: rest → Route.routeIndex routes q qu ci now 0 = some i → RepliesIn W C (member i) q ci o →
      RepliesIn W C (.router routes member) q ci o
  | routerNone {routes member q qu rest ci now} : q.question = qu :: rest → Route.routeIndex routes q qu ci now 0 = none →
      RepliesIn W C (.router routes member) q ci (some (.fail "no route"))
  | routerCrash {routes member q ci} : q.question = [] → RepliesIn W C (.router routes member) q ci none
  | dedup {t q ci evs s} {c : Nat} {x : Dedup.Caller} {r} : Dedup.run {} evs = some s → s.callers[c]? = some x → x.q = q → x.ph = .returned r →
      (∀ l y, .reply l y ∈ evs → W.shared t y) → RepliesIn W C (.dedup t) q ci (some r)
  | dedupCrash {t q ci} : RepliesIn W C t q ci none → RepliesIn W C (.dedup t) q ci none
  | dedupNoKey {t q ci} : Dedup.key q = none → RepliesIn W C (.dedup t) q ci none
  /-- the numbers in queries fit their Go types -/
  | cache {env opt cap t q ci hist c up clock ts} : (∀ e ∈ hist, Props.Cache.OkEv env.ipStr e) → (∀ q' m ts', .store q' m ts' ∈ hist → W.stored t m ts') → (∀ i, W.clock (clock i)) → Props.Cache.runEv env opt (Lru.new cap) hist = some c →
      Props.Cache.WellFormed env.ipStr q → Props.Cache.SaneTime ts →
      (∀ x, CacheM.resolve env opt c q up clock ts = some x → x.asked = true → RepliesIn W C t q ci (some up)) →
      RepliesIn W C (.cache env opt cap t) q ci ((CacheM.resolve env opt c q up clock ts).map (·.res))
  | cacheCrash {env opt cap t q ci} : RepliesIn W C t q ci none → RepliesIn W C (.cache env opt cap t) q ci none
  | prefetch {t q ci o} : RepliesIn W C t q ci o → RepliesIn W C (.prefetch t) q ci o
  | dnssec {logOnly v t q ci o} : RepliesIn W C t (DnssecResolver.upstreamQuery q) ci o → (∀ m, o = some (.ok m) → W.verdict t m (v m)) → RepliesIn W C (.dnssec logOnly t) q ci (o.bind fun r => DnssecResolver.resolve logOnly v (fun _ _ => r) q ci)

/-- The same, if nothing is said of what is stored (cache.go:204-285, request-dedup.go:51-139). -/
abbrev Replies {H : Type} [DecidableEq H] (C : Nat → Msg → ClientInfo → Option Res → Prop) : Tree H → Msg → ClientInfo → Option Res → Prop := RepliesIn Around.any C

/-- How an upstream server is reached (cmd/routedns/main.go:249-405, cmd/routedns/resolver.go:18-185) -/
inductive Upstream where
  /-- UDP or TCP; `udpSize` is 0 if none was configured -/
  | plain (udpSize : Nat)
  /-- DNS over TLS (`udpSize` is 0 then) or DTLS -/
  | encrypted (udpSize : Nat)
  | quic
  | https (t : Clients.Template) (o : Clients.DoHOpt)

/-- The three ways a client can end as results of `Resolve`. The result of `Resolve`, resolver.go. -/
def outcome : Clients.Outcome → Option Res
  | .answer a => some (.ok a)
  | .failed => some (.fail "query failed")
  | .crash => none

/-- The replies of a client, for any server and any way to it: clients with a pipeline (dnsclient.go:78-92, dotclient.go:83-92, dtlsclient.go:112-127) return
what any run of the pipeline returns for the query they hand to it, the others (doqclient.go:149-264, dohclient.go:180-219) what they make of any response. HTTPS servers
are taken to keep the ID, which the client does not check (`Props.Clients.doh_id_unchecked`). The oblivious client is left out. -/
inductive ClientReplies (lib : Listeners.Lib) (b64 : Str → Str) : Upstream → Msg → Option Res → Prop
  | plain {size q evs s} {k : Nat} {x : Pipeline.Req} {r} : Pipeline.run {} evs = some s → s.reqs[k]? = some x → x.q = Clients.plainQuery size q → x.ph = .returned r →
      ClientReplies lib b64 (.plain size) q (some r)
  | encrypted {size q m evs s} {k : Nat} {x : Pipeline.Req} {r} : Clients.dtlsQuery lib size q = some m → Pipeline.run {} evs = some s → s.reqs[k]? = some x → x.q = m →
      x.ph = .returned r → ClientReplies lib b64 (.encrypted size) q (some r)
  | encryptedCrash {size q} : Clients.dtlsQuery lib size q = none → ClientReplies lib b64 (.encrypted size) q none
  | quic {net q} : ClientReplies lib b64 .quic q (outcome (Clients.doqResolve lib net q).2)
  | https {t o net q} : (∀ a, (Clients.dohResolve lib b64 t o net q).2 = .answer a → a.id = q.id) →
      ClientReplies lib b64 (.https t o) q (outcome (Clients.dohResolve lib b64 t o net q).2)

end Verif.Composition
