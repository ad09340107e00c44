import Verif.Model.Counters
import Verif.Model.Clients
import Verif.Model.Balance
import Verif.Model.Route
/-
The counters of DoQ listeners, of the clients for DoH, DoQ and ODoH, and of routers, round-robin groups and load balancers. What these elements do is modelled in
`Listeners`, `Clients`, `Route`, `Group` and `Balance`; here the calls of `Add` are added.

Simplified as in `Counters`: a response is named by its code. Not modelled: the map `rtt` of load balancers.
-/
namespace Verif.MoreCounters
open Verif Verif.Counters
open Verif.Pipeline (validateResponseQuestion)
open Verif.Listeners (Lib)

/-! ### DNS over QUIC: listener -/

open Listeners in
/-- doqlistener.go:271-289: the counters from the answer on; `sends` is whether writing to the stream succeeds (:285). Nothing is counted if there is no answer, which is a panic. -/
def writeCounts (lib : Lib) (sends : Bool) : Option Msg → List Count
  | none => []
  | some a => match lib.pack a with
    | none => [.error (str "encode")]
    | some _ => (if sends then [] else [.error (str "send")]) ++ [.response a.rcode]

open Listeners in
/-- doqlistener.go:184-290: the counters of one stream -/
def streamCounts (lib : Lib) (r : Pipeline) (ci : ClientInfo) (hs : Handshake) (sends : Bool) (sent : Str) : List Count :=
  .stream :: match readFrame sent with
  | none => [.error (str "read")]
  | some b => match lib.unpack b with
    | none => [.error (str "unpack")]
    | some q =>
      if q.question.length = 0 then [.error (str "noquestion")]
      else .query ::
        if hasKeepAlive q then [.error (str "keepalive")]
        else match awaitHandshake q hs with
          | none => [.error (str "tooearly")]
          | some _ => writeCounts lib sends (answerOr (setRcode q rcodeServerFailure) (r q ci))

open Listeners in
/-- What happens on a stream: what the client sends, how the handshake ends, what the pipeline does, and whether the answer can be written. doqlistener.go:184-290. -/
structure StreamIn where
  r : Pipeline
  hs : Handshake
  sends : Bool
  sent : Str

open Listeners in
/-- doqlistener.go:145-182: the counters of a connection with the streams that its client opens, in any order of handling (counters only add up) -/
def connectionCounts (lib : Lib) (id : Str) (allowed : List Cidr.IPNet) (peer sni : Str) (streams : List StreamIn) : List Count :=
  if !isAllowed allowed peer then [.drop]
  else .session :: streams.flatMap fun s => streamCounts lib s.r { sourceIP := peer, tlsServerName := sni, listener := id } s.hs s.sends s.sent

/-! ### Clients -/

/-- The name under which dohclient.go:235 counts a request that failed. dohclient.go:249 ("POST"), 274 (`http.MethodGet`) and 276 (`http3.MethodGet0RTT`). -/
def methodName : Clients.Method → Str
  | .post => str "POST"
  | .get => str "GET"
  | .get0RTT => str "GET_0RTT"

/-- `fmt.Sprintf("http%d", …)`: dohclient.go:295, odohclient.go:105 -/
def httpError (status : Nat) : Str := str "http" ++ str (toString status)

open Clients in
/-- dohclient.go:298-306, odohclient.go:111-119: how `readBoundedBody` fails; reading stops at the limit, so a body that is longer is too large -/
def bodyError (body : Option Str) : Str := match body with
  | none => str "read"
  | some _ => str "toolarge"

open Clients in
/-- dohclient.go:293-318 -/
def responseCounts (lib : Lib) (q : Msg) (r : HttpResp) : List Count :=
  if r.status < 200 ∨ r.status > 299 then [.error (httpError r.status)]
  else match readBoundedBody r.body maxDoHResponseSize with
    | none => [.error (bodyError r.body)]
    | some b => match lib.unpack b with
      | none => [.error (str "unpack")]
      | some a => if validateResponseQuestion q a then [.response a.rcode] else [.error (str "question")]

open Clients in
/-- dohclient.go:221-286: the counters of `buildRequest` when it fails (`http.NewRequest` succeeds, as in `Clients.buildRequest`); a method that is neither is not counted -/
def buildCounts (o : DoHOpt) : List Count :=
  if o.method = str "POST" ∨ o.method = str "GET" then [.error (str "template")] else []

open Clients in
/-- dohclient.go:180-219 -/
def dohClientCounts (lib : Lib) (b64 : Str → Str) (t : Template) (o : DoHOpt) (net : HttpReq → Option HttpResp) (q : Msg) : List Count :=
  match Modifiers.padQuery lib.len q with
  | none => []
  | some q => match lib.pack q with
    | none => [.error (str "pack")]
    | some msg => .query :: match buildRequest b64 t o msg q.opcode with
      | none => buildCounts o
      | some req => match net req with
        | none => [.error (methodName req.method)]
        | some r => responseCounts lib q r

/-- What the network does with a query over QUIC. doqclient.go:188-233. -/
inductive DoqNet where
  /-- :192-196: the name of the server cannot be resolved -/
  | noAddress
  /-- :202-206 -/
  | noStream
  /-- :210-213 -/
  | noWrite
  /-- :214-217 -/
  | noClose
  /-- :221-233: the bytes that can be read up to the end or an error -/
  | read (b : Str)
deriving DecidableEq, Repr

/-- What `Clients.doqResolve` is told of it: doqclient.go:188-233. -/
def DoqNet.bytes : DoqNet → Option Str
  | .read b => some b
  | _ => none

open Clients Listeners in
/-- doqclient.go:235-263 -/
def doqAcceptCounts (lib : Lib) (q : Msg) (b : Str) : List Count := match lib.unpack b with
  | none => [.error (str "unpack")]
  | some a =>
    if !validateResponseQuestion q { a with id := q.id } then [.error (str "question")]
    else if hasKeepAlive { a with id := q.id } then [.error (str "keepalive")]
    else [.response a.rcode]

open Clients Listeners in
/-- doqclient.go:149-264 -/
def doqClientCounts (lib : Lib) (net : Str → DoqNet) (q : Msg) : List Count :=
  .query :: match lib.pack (doqQuery q) with
  | none => [.error (str "pack")]
  | some p => match net (be16 p.length ++ p) with
    | .noAddress => [.error (str "resolve")]
    | .noStream => [.error (str "getstream")]
    | .noWrite => [.error (str "write")]
    | .noClose => [.error (str "close")]
    | .read r => match readFrame r with
      | none => [.error (str "read")]
      | some r => doqAcceptCounts lib q r

open Clients in
/-- odohclient.go:103-142; `parses` is whether `UnmarshalDNSMessage` succeeds (:120-124), which `OdohLib.openAnswer` includes -/
def proxyCounts (lib : Lib) (o : OdohLib) (parses : Str → Bool) (q : Msg) (c : o.Ctx) (r : HttpResp) : List Count :=
  if r.status < 200 ∨ r.status > 299 then [.error (httpError r.status)]
  else if r.contentType ≠ odohType then []
  else match readBoundedBody r.body maxDoHResponseSize with
    | none => [.error (bodyError r.body)]
    | some b => match o.openAnswer c b with
      | none => [.error (if parses b then str "decrypt" else str "decode")]
      | some p => match lib.unpack p with
        | none => [.error (str "unpack")]
        | some a => if validateResponseQuestion q a then [.response a.rcode] else [.error (str "question")]

open Clients in
/-- odohclient.go:68-96, with the key that `getTargetConfig` gave -/
def odohCounts (lib : Lib) (o : OdohLib) (parses : Str → Bool) (b64 : Str → Str) (t : Template) (opt : DoHOpt) (target : Str → Str) (net : HttpReq → Option HttpResp)
    (key : o.Key) (q : Msg) : List Count := match lib.pack q with
  | none => []
  | some p => match o.encrypt key p with
    | none => []
    | some (msg, c) => match buildRequest b64 t opt msg q.opcode with
      | none => buildCounts opt
      | some req => match net { req with url := target req.url, contentType := odohType } with
        | none => [.error (methodName req.method)]
        | some r => proxyCounts lib o parses q c r

/-! ### Routers and groups -/

/-- router.go:60-64, roundrobin.go:37-41: the counters of a query that goes to element number `m` and gets `res` -/
def forwardCounts (m : Nat) (res : Res) : List GCount := .route m :: (if res.err.isSome then [.failure m] else [])

open Route in
/-- router.go:48-67; `target` is the element that each route leads to (counters go by its name), `beh` what it replies. `none` is the panic without question. -/
def routerCounts (routes : List Route.Route) (target : Nat → Nat) (beh : Nat → Msg → ClientInfo → Res) (q : Msg) (ci : ClientInfo) (now : Nat → Now) : Option (List GCount) :=
  match q.question with
  | [] => none
  | qu :: _ => match routeIndex routes q qu ci now 0 with
    | none => some []
    | some i => some (forwardCounts (target i) (beh (target i) q ci))

/-- router.go:74-77 with 43: the gauge `available` after these calls of `Add`, each with some routes -/
def routerGauge (adds : List (List Route.Route)) : Nat := adds.foldl (fun n _ => n + 1) 0

/-- roundrobin.go:31-43: queries in the order in which they take the lock, each with what its member replies -/
def roundRobinCounts (n : Nat) : Nat → List (Nat → Res) → List GCount
  | _, [] => []
  | current, beh :: rest => forwardCounts (Group.roundRobinPick n current).1 (beh (Group.roundRobinPick n current).1) ++ roundRobinCounts n (Group.roundRobinPick n current).2 rest

open Balance in
/-- loadbalance.go:122-157: as `Balance.loop` -/
def balanceCounts (ok : Res → Bool) (beh : Nat → Res) (choose : Nat → Nat) : Nat → Nat → List Nat → List GCount
  | 0, _, _ => []
  | fuel + 1, round, remaining => match remaining[choose round]? with
    | none => []
    | some idx => .route idx ::
      if ok (beh idx) then [] else .failure idx :: .failover :: balanceCounts ok beh choose fuel (round + 1) (swapRemove remaining (choose round))

end Verif.MoreCounters
