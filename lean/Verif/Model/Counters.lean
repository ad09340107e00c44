import Verif.Model.Listeners
import Verif.Model.Group
import Verif.Model.Blocklist
import Verif.Model.Rate
import Verif.Model.Dns64
import Verif.Model.Cache
import Verif.Model.DnssecResolver
/-
The counters that the program publishes (expvar): how they are registered, and what is counted for each query. The elements themselves are modelled elsewhere
(`Listeners`, `Blocklist`, `Rate`, `Dns64`, `Cache`, `Group`, `DnssecResolver`), where counters are left out; here the calls of `Add` and `Set` are added.

Simplified: `rCode` (message.go:62-68) names a response by its code, here it is the code. The counters of DoQ listeners, of the clients
for HTTP and QUIC, of routers and of load balancers are in `MoreCounters`. Those of pipelines are in `PipeCounters`. The gauge `entries` of caches is in `Entries`.
-/
namespace Verif.Counters
open Verif

/-! ### Registration -/

/-- The types of variables. vars.go:9-24: `expvar.Int` and `expvar.Map`. -/
inductive Kind where
  | int
  | map
deriving DecidableEq, Repr

/-- What a constructor asks for: base and name, with a type; the id is that of the element. vars.go:9-24: the arguments of `getVarInt` and `getVarMap`. -/
structure Want where
  base : Str
  name : Str
  kind : Kind
deriving DecidableEq, Repr

/-- The constructors that ask for variables. listener.go:54-62, dohlistener.go:79-91, doqlistener.go:52-64 and so on, given at each case. -/
inductive Maker where
  /-- listener.go:54-62 `NewListenerMetrics("listener", id)`: dnslistener.go:85 -/
  | listener
  /-- listener.go:54-62 `NewListenerMetrics("client", id)`: pipeline.go:47, dohclient.go:175, doqclient.go:111 -/
  | client
  /-- dohlistener.go:79-90 `NewDoHListenerMetrics` -/
  | dohListener
  /-- doqlistener.go:52-63 `NewDoQListenerMetrics` -/
  | doqListener
  /-- blocklist.go:62-67 `NewBlocklistMetrics` -/
  | blocklist
  /-- router.go:28-36 `NewRouterMetrics` -/
  | router
  /-- failback.go:53-64 `NewFailRouterMetrics` -/
  | failRouter
  /-- loadbalance.go:84-100 `NewLoadBalance` -/
  | loadBalance
  /-- rate-limiter.go:56-64 -/
  | rateLimiter
  /-- cache.go:172-177 -/
  | cache
  /-- cache-redis.go:122-130 `NewRedisBackend`, whose id is always "redis" -/
  | redis
  /-- dns64.go:57-66 -/
  | dns64
  /-- dnssec.go:91-97 -/
  | dnssec
deriving DecidableEq, Repr

/-- What each constructor asks for, in order. The lines are given at the cases of `Maker` (listener.go:54-62 and so on). -/
def Maker.wants : Maker → List Want
  | .listener => [⟨str "listener", str "query", .int⟩, ⟨str "listener", str "response", .map⟩, ⟨str "listener", str "drop", .int⟩, ⟨str "listener", str "error", .map⟩,
      ⟨str "listener", str "maxqueue", .int⟩]
  | .client => [⟨str "client", str "query", .int⟩, ⟨str "client", str "response", .map⟩, ⟨str "client", str "drop", .int⟩, ⟨str "client", str "error", .map⟩,
      ⟨str "client", str "maxqueue", .int⟩]
  | .dohListener => [⟨str "listener", str "query", .int⟩, ⟨str "listener", str "response", .map⟩, ⟨str "listener", str "error", .map⟩, ⟨str "listener", str "drop", .int⟩,
      ⟨str "listener", str "get", .int⟩, ⟨str "listener", str "post", .int⟩]
  | .doqListener => [⟨str "listener", str "query", .int⟩, ⟨str "listener", str "response", .map⟩, ⟨str "listener", str "drop", .int⟩, ⟨str "listener", str "error", .map⟩,
      ⟨str "listener", str "session", .int⟩, ⟨str "listener", str "stream", .int⟩]
  | .blocklist => [⟨str "router", str "allow", .int⟩, ⟨str "router", str "deny", .int⟩]
  | .router => [⟨str "router", str "available", .int⟩, ⟨str "router", str "route", .map⟩, ⟨str "router", str "failure", .map⟩]
  | .failRouter => [⟨str "router", str "available", .int⟩, ⟨str "router", str "route", .map⟩, ⟨str "router", str "failure", .map⟩, ⟨str "router", str "failover", .int⟩]
  | .loadBalance => [⟨str "router", str "rtt", .map⟩, ⟨str "router", str "available", .int⟩, ⟨str "router", str "route", .map⟩, ⟨str "router", str "failure", .map⟩,
      ⟨str "router", str "failover", .int⟩]
  | .rateLimiter => [⟨str "router", str "query", .int⟩, ⟨str "router", str "exceed", .int⟩, ⟨str "router", str "drop", .int⟩]
  | .cache => [⟨str "cache", str "hit", .int⟩, ⟨str "cache", str "miss", .int⟩, ⟨str "cache", str "entries", .int⟩]
  | .redis => [⟨str "cache", str "async-skipped", .int⟩]
  | .dns64 => [⟨str "dns64", str "query", .int⟩, ⟨str "dns64", str "synth", .int⟩, ⟨str "dns64", str "passthru", .int⟩, ⟨str "dns64", str "err", .int⟩]
  | .dnssec => [⟨str "dnssec", str "validation-success", .int⟩, ⟨str "dnssec", str "validation-failure", .int⟩]

/-- vars.go:10 and 19: the name of a variable -/
def fullName (base id name : Str) : Str := str "routedns." ++ base ++ str "." ++ id ++ str "." ++ name

/-- The variables that exist. The map of expvar that vars.go:9-24 uses. -/
abbrev Registry := List (Str × Kind)

/-- vars.go:9-24 `getVarInt`, `getVarMap`: the variable of that name, made if there is none. `none` is the panic of the type assertion. -/
def getVar (reg : Registry) (n : Str) (k : Kind) : Option Registry := match reg.lookup n with
  | some k' => if k' = k then some reg else none
  | none => some ((n, k) :: reg)

/-- One constructor, with the id of its element. listener.go:54-62 and the like, with vars.go:9-24. -/
def make (id : Str) : Registry → List Want → Option Registry
  | reg, [] => some reg
  | reg, w :: ws => do make id (← getVar reg (fullName w.base id w.name) w.kind) ws

/-- The constructors that the program runs, one after the other. cmd/routedns/main.go:198-441. -/
def makeAll : Registry → List (Maker × Str) → Option Registry
  | reg, [] => some reg
  | reg, (m, id) :: rest => do makeAll (← make id reg m.wants) rest

/-! ### What is counted -/

/-- The calls of `Add` in listeners and elements: dnslistener.go:84-160, dohlistener.go:215-390 and so on; the lines are at the functions below -/
inductive Count where
  | query
  | drop
  | response (code : Nat)
  | error (what : Str)
  | get
  | post
  | session
  | stream
  | allow
  | deny
  | exceed
  | hit
  | miss
  | synth
  | passthru
  | err
  | success
  | failure
deriving DecidableEq, Repr

open Listeners in
/-- dnslistener.go:133-158: the counters at the end of the handler -/
def concludeCounts (lib : Lib) (protocol : Str) (req : Msg) (a : Option Msg) : List Count := match conclude lib protocol req a with
  | .closed => [.drop]
  | .reply m => [.response m.rcode]
  | _ => []

open Listeners in
/-- dnslistener.go:110-157: the counters of one query of a UDP, TCP, DoT or DTLS listener -/
def listenCounts (lib : Lib) (id protocol : Str) (r : Pipeline) (allowed : List Cidr.IPNet) (peer sni : Str) (req : Msg) : List Count :=
  let ci : ClientInfo := { sourceIP := peer, tlsServerName := sni, listener := id }
  if req.question.length = 0 then [.error (str "noquestion")]
  else if isAllowed allowed peer then
    .query :: (if (r req ci).err.isSome then [.error (str "resolve")] else []) ++ concludeCounts lib protocol req (answerOr (servfail req) (r req ci))
  else .query :: .error (str "acl") :: concludeCounts lib protocol req (some (setRcode req rcodeRefused))

open Listeners in
/-- dohlistener.go:376-394 -/
def concludeHttpCounts (lib : Lib) (q : Msg) : Option Msg → List Count
  | none => [.drop]
  | some a => match Modifiers.padAnswer lib.len q a with
    | none => []
    | some a => .response a.rcode :: (if (lib.pack a).isNone then [.error (str "pack")] else [])

open Listeners in
/-- dohlistener.go:314-395 -/
def parseCounts (lib : Lib) (opt : DoHOpts) (r : Pipeline) (b : Str) (req : Req) : List Count :=
  .query :: match lib.unpack b with
  | none => [.error (str "unpack")]
  | some q =>
    if q.question.length = 0 then [.error (str "noquestion")]
    else if earlyData req && !isReplayableOpcode q.opcode then [.error (str "tooearly")]
    else match extractClientAddress lib.parseIP opt.proxyNet req.remoteHost req.xff with
      | none => [.error (str "remoteaddr")]
      | some clientIP =>
        let ci : ClientInfo := { sourceIP := clientIP, dohPath := req.path, tlsServerName := (req.tls.map (·.2)).getD [], listener := opt.id }
        if isAllowed opt.allowed clientIP then concludeHttpCounts lib q (answerOr (setRcode q rcodeServerFailure) (r q ci))
        else concludeHttpCounts lib q (some (setRcode q rcodeRefused))

open Listeners in
/-- dohlistener.go:215-264 -/
def dohCounts (lib : Lib) (opt : DoHOpts) (r : Pipeline) (req : Req) : List Count :=
  if req.method = str "GET" then .get :: match req.dns with
    | some (some b :: _) => parseCounts lib opt r b req
    | _ => []
  else if req.method = str "POST" then .post :: match req.body with
    | none => []
    | some b => if b.length > maxDoHRequestSize then [.error (str "toolarge")] else parseCounts lib opt r b req
  else [.error (str "httpmethod")]

/-- blocklist.go:100-129 -/
def blocklistCounts (o : Blocklist.Options) (q : Msg) : List Count :=
  if (o.allowDB.bind fun db => db q).isSome then [.allow]
  else if (o.blockDB q).isNone then [.allow]
  else [.deny]

/-- client-blocklist.go:77-101 -/
def clientBlocklistCounts (useECS : Bool) (db : Str → Option Lists.Match) (q : Msg) (ci : ClientInfo) : List Count :=
  if Blocklist.clientIP useECS q ci = [] then [.allow]
  else if (db (Blocklist.clientIP useECS q ci)).isSome then [.deny]
  else [.allow]

/-- rate-limiter.go:70, 107-113: one query with the verdict of the limiter -/
def rateCounts (hasLimitResolver rejected : Bool) : List Count :=
  .query :: if rejected then .exceed :: (if hasLimitResolver then [] else [.drop]) else []

open Dns64 in
/-- dns64.go:71-136 -/
def dns64Counts (prefixes : List Pfx) (up : Msg → Res) (q : Msg) : List Count := match q.question with
  | [] => []
  | qu :: _ =>
    if qu.qtype ≠ typeAAAA then [.passthru]
    else if (q.edns?.map (·.dnssecOk)).getD false then [.passthru]
    else .query ::
      if (up q).err.isSome then [.err]
      else match (up q).msg with
        | none => []
        | some answer =>
          if answer.rcode ≠ rcodeSuccess then [.passthru]
          else if hasAAAA answer then [.passthru]
          else
            if (up (aQuery q)).err.isSome then [.err]
            else match (up (aQuery q)).msg with
              | none => [.passthru]
              | some aAnswer =>
                if aAnswer.rcode ≠ rcodeSuccess then [.passthru]
                else if synthesizeAAAA prefixes aAnswer qu = [] then [.passthru]
                else [.synth]

open CacheM in
/-- cache.go:204-265; `none` is a panic -/
def cacheCounts {H : Type} [DecidableEq H] (env : Env H) (o : Opts) (c : State H) (q : Msg) (clock : Nat → Int) : Option (List Count) :=
  if q.question.length > 1 then some []
  else match q.question with
    | [] => none
    | qu :: _ =>
      if o.flushQuery ≠ [] ∧ o.flushQuery = qu.name then some []
      else match answerFromCache env o c q clock with
        | none => none
        | some (_, some _) => some [.hit]
        | some (_, none) => some [.miss]

open DnssecResolver in
/-- dnssec.go:122-148 -/
def dnssecCounts (validate : Msg → Verdict) (up : Msg → ClientInfo → Res) (q : Msg) (ci : ClientInfo) : List Count :=
  match (up (upstreamQuery q) ci).err, (up (upstreamQuery q) ci).msg with
  | none, some answer =>
    if answer.rcode ≠ rcodeSuccess ∧ answer.rcode ≠ rcodeNameError then []
    else match validate answer with
      | .insecure => []
      | .bogus => [.failure]
      | .valid => [.success]
  | _, _ => []

/-! ### Groups -/

/-- The counters of a group. failback.go:47-51. -/
inductive GCount where
  | route (m : Nat)
  | failure (m : Nat)
  | failover
deriving DecidableEq, Repr

/-- The counts of a group so far, and its gauge `available`. failback.go:47-62. -/
structure Tally where
  log : List GCount
  available : Nat
deriving DecidableEq, Repr

/-- `Add`. For example failback.go:86-96. -/
def Tally.add (t : Tally) (c : GCount) : Tally := { t with log := t.log ++ [c] }

/-- `available.Set`. failback.go:53-62, random.go:91-120. -/
def Tally.set (t : Tally) (n : Nat) : Tally := { t with available := n }

/-- failrotate.go:59, 66 and 94 -/
def rotateTally (ok : Res → Bool) (s : Group.Rotate.Sys) (t : Tally) : Group.Rotate.Ev → Tally
  | .start => t
  | .current _ => t.add (.route s.active)
  | .reply k r => match s.queries[k]? with
    | some (.calling _ m) => if ok r then t else t.add (.failure m)
    | _ => t
  | .report k => match s.queries[k]? with
    | some (.failed _ m _) => if m = s.active then t.add .failover else t
    | _ => t

/-- The group with its counters, over any events. failrotate.go:50-97. -/
def rotateRun (n : Nat) (ok : Res → Bool) : Group.Rotate.Sys × Tally → List Group.Rotate.Ev → Option (Group.Rotate.Sys × Tally)
  | x, [] => some x
  | (s, t), e :: es => do rotateRun n ok (← Group.Rotate.step n ok s e, rotateTally ok s t e) es

/-- failback.go:87, 94, 140, 143 (taken together with the region before) and 164 -/
def backTally (n : Nat) (ok : Res → Bool) (s : Group.Back.Sys) (t : Tally) : Group.Back.Ev → Tally
  | .current _ => t.add (.route s.active)
  | .reply k r => match s.queries[k]? with
    | some (.calling _ m) => if ok r then t else t.add (.failure m)
    | _ => t
  | .report k => match s.queries[k]? with
    | some (.failed _ m _) => if m ≠ s.active then t else (t.set (n - (s.active + 1) % n)).add .failover
    | _ => t
  | .fire => t.set n
  | _ => t

/-- failback.go:78-172, over any events -/
def backRun (n : Nat) (ok : Res → Bool) : Group.Back.Sys × Tally → List Group.Back.Ev → Option (Group.Back.Sys × Tally)
  | x, [] => some x
  | (s, t), e :: es => do backRun n ok (← Group.Back.step n ok s e, backTally n ok s t e) es

/-- random.go:59, 67, 81-82 and 119 -/
def randomTally (ok : Res → Bool) (s : Group.Random.Sys) (t : Tally) : Group.Random.Ev → Tally
  | .pick _ draw =>
    let t := (t.set s.active.length).add .failover
    match s.active[draw]? with
    | some m => t.add (.route m)
    | none => t
  | .reply k r => match s.queries[k]? with
    | some (.calling m) => if ok r then t else t.add (.failure m)
    | _ => t
  | .reactivate m => t.set (s.active ++ [m]).length
  | _ => t

/-- random.go:50-120, over any events -/
def randomRun (ok : Res → Bool) : Group.Random.Sys × Tally → List Group.Random.Ev → Option (Group.Random.Sys × Tally)
  | x, [] => some x
  | (s, t), e :: es => do randomRun ok (← Group.Random.step ok s e, randomTally ok s t e) es

end Verif.Counters
