import Verif.Model.Listeners
import Verif.Model.Pipeline
/-
The upstream clients: what they send for a query and which responses they accept.

dnsclient.go, dotclient.go, dtlsclient.go (all in front of the pipeline of Model/Pipeline.lean), doqclient.go, dohclient.go, odohclient.go, message.go.

Parameters: `Lib` of Model/Listeners.lean (`Len`, `Pack`, `Unpack`), the network as a function from what is sent to what comes back, URI templates and base64, the encryption
of oblivious DNS. Time-outs are errors of the network. Logging and metrics are left out. The `Copy` at the start of each `Resolve` is implicit: messages are values here.
-/
namespace Verif.Clients
open Verif Verif.Listeners
open Verif.Pipeline (validateResponseQuestion)

/-- message.go:132-146 `setUDPSize` -/
def setUDPSize (q : Msg) (size : Nat) : Msg :=
  if size = 0 then q
  else match q.edns? with
    | some _ => q.mapEdns fun e => { e with udpSize := size }
    | none => q.setEdns0 size false

/-- dnsclient.go:78-92: the query handed to the pipeline of a UDP or TCP client -/
def plainQuery (udpSize : Nat) (q : Msg) : Msg := Modifiers.stripPadding (setUDPSize q udpSize)

/-- dotclient.go:83-92: the query handed to the pipeline; `none` is a panic -/
def dotQuery (lib : Lib) (q : Msg) : Option Msg := Modifiers.padQuery lib.len q

/-- dtlsclient.go:112-127; `none` is a panic -/
def dtlsQuery (lib : Lib) (udpSize : Nat) (q : Msg) : Option Msg := Modifiers.padQuery lib.len (setUDPSize q udpSize)

/-- How a client ends. The results of the `Resolve` of the clients: dnsclient.go, dohclient.go:180-219, doqclient.go:149-264, odohclient.go:68-96. -/
inductive Outcome where
  | answer (a : Msg)
  | failed
  /-- a panic -/
  | crash
deriving DecidableEq, Repr

/-! ### DNS over QUIC -/

/-- doqclient.go:158-172 -/
def doqQuery (q : Msg) : Msg := ({ q with id := 0 }).mapEdns fun e => { e with options := e.options.filter fun o => !(o.code = 11) }

/-- doqclient.go:235-263: the response, once its bytes have been read -/
def doqAccept (lib : Lib) (q : Msg) (b : Str) : Outcome := match lib.unpack b with
  | none => .failed
  | some a =>
    let a := { a with id := q.id }
    if !validateResponseQuestion q a then .failed
    else if hasKeepAlive a then .failed
    else .answer a

/-- doqclient.go:149-264 `Resolve`. `net` is the server and the way to it: the bytes that can be read from the stream up to its end, or `none` if no stream
could be had, or writing, closing or reading failed. The result is what was written and the outcome. -/
def doqResolve (lib : Lib) (net : Str → Option Str) (q : Msg) : Option Str × Outcome := match lib.pack (doqQuery q) with
  | none => (none, .failed)
  | some p =>
    let b := be16 p.length ++ p
    (some b, match net b with
      | none => .failed
      | some r => match readFrame r with
        | none => .failed
        | some r => doqAccept lib q r)

/-! ### DNS over HTTPS -/

/-- dohclient.go:56-92 `DoHClientOptions`, as far as they matter here -/
structure DoHOpt where
  method : Str := []
  transport : Str := []
  use0RTT : Bool := false
  idleTimeout : Int := 0
deriving DecidableEq, Repr

/-- The URI template of the address (a library): its variables, and its expansion with or without a value for `dns`; `none` is an error. Used in dohclient.go:106-178, 241-286. -/
structure Template where
  names : List Str
  expand : Option Str → Option Str

/-- dohclient.go:124-138: demands of 0-RTT; `none` is an error -/
def check0RTT (t : Template) (o : DoHOpt) : Option DoHOpt :=
  if o.use0RTT then
    if o.transport ≠ str "quic" then none
    else if ¬ t.names.contains (str "dns") then none
    else if o.method = [] then some { o with method := str "GET" }
    else if o.method = str "GET" then some o
    else none
  else some o

/-- dohclient.go:106-177 `NewDoHClient`: the options of the new client; `none` is an error. `transportOk` says that the transport could be set up. -/
def newDoHClient (transportOk : Bool) (t : Option Template) (o : DoHOpt) : Option (Template × DoHOpt) :=
  if o.idleTimeout < 0 then none
  else match t with
    | none => none
    | some t => match check0RTT t o with
      | none => none
      | some o =>
        if ¬ (o.transport = str "tcp" ∨ o.transport = [] ∨ o.transport = str "quic") then none
        else if ¬ transportOk then none
        else
          let o := if o.method = [] then { o with method := str "POST" } else o
          if o.method ≠ str "POST" ∧ o.method ≠ str "GET" then none else some (t, o)

/-- Method of an HTTP request; `get0RTT` is the method under which quic-go may send a request in early data (`http3.MethodGet0RTT`). dohclient.go:259-286. -/
inductive Method where
  | post
  | get
  | get0RTT
deriving DecidableEq, Repr

/-- The request built in dohclient.go:221-286 and odohclient.go:68-96, as far as it is looked at -/
structure HttpReq where
  method : Method
  url : Str
  body : Str := []
  contentType : Str := []
deriving DecidableEq, Repr

/-- dohclient.go:221-286 `buildRequest`, `buildPostRequest`, `buildGetRequest`; `none` is an error. `b64` is `base64.RawURLEncoding`. `http.NewRequest` is
taken to succeed on what a template expands to. -/
def buildRequest (b64 : Str → Str) (t : Template) (o : DoHOpt) (msg : Str) (opcode : Nat) : Option HttpReq :=
  if o.method = str "POST" then
    (t.expand none).map fun u => { method := .post, url := u, body := msg, contentType := str "application/dns-message" }
  else if o.method = str "GET" then
    (t.expand (some (b64 msg))).map fun u =>
      { method := if o.use0RTT && o.transport = str "quic" && isReplayableOpcode opcode then .get0RTT else .get, url := u }
  else none

/-- The response that dohclient.go:293-317 and odohclient.go:103-142 look at -/
structure HttpResp where
  status : Nat
  contentType : Str := []
  /-- `none`: reading it ends with an error -/
  body : Option Str
deriving DecidableEq, Repr

/-- dohclient.go:36 -/
abbrev maxDoHResponseSize : Nat := 65535 + 512

/-- dohclient.go:44-53 `readBoundedBody` -/
def readBoundedBody (body : Option Str) (limit : Nat) : Option Str := match body with
  | none => none
  | some b => if (b.take (limit + 1)).length > limit then none else some (b.take (limit + 1))

/-- dohclient.go:293-318 `responseFromHTTP` -/
def responseFromHTTP (lib : Lib) (q : Msg) (r : HttpResp) : Outcome :=
  if r.status < 200 ∨ r.status > 299 then .failed
  else match readBoundedBody r.body maxDoHResponseSize with
    | none => .failed
    | some b => match lib.unpack b with
      | none => .failed
      | some a => if validateResponseQuestion q a then .answer a else .failed

/-- dohclient.go:180-219 `Resolve`: the request, if there is one, and the outcome. `net` is `http.Client.Do`. -/
def dohResolve (lib : Lib) (b64 : Str → Str) (t : Template) (o : DoHOpt) (net : HttpReq → Option HttpResp) (q : Msg) : Option HttpReq × Outcome :=
  match Modifiers.padQuery lib.len q with
  | none => (none, .crash)
  | some q => match lib.pack q with
    | none => (none, .failed)
    | some msg => match buildRequest b64 t o msg q.opcode with
      | none => (none, .failed)
      | some req => (some req, match net req with
        | none => .failed
        | some r => responseFromHTTP lib q r)

/-! ### Oblivious DNS -/

/-- The library for oblivious DNS. cloudflare/odoh-go, as used in odohclient.go:41-65, 103-215. -/
structure OdohLib where
  /-- keys of targets -/
  Key : Type
  /-- contexts of queries -/
  Ctx : Type
  /-- `hex.DecodeString` -/
  hex : Str → Option Str
  /-- `UnmarshalObliviousDoHConfigs` -/
  configs : Str → Option (List Key)
  /-- `CreateObliviousDNSQuery(msg, 0)`, `EncryptQuery` and `Marshal` -/
  encrypt : Key → Str → Option (Str × Ctx)
  /-- `UnmarshalDNSMessage` and `OpenAnswer` -/
  openAnswer : Ctx → Str → Option Str

/-- odohclient.go: state that is kept between queries -/
structure OdohState (Key : Type) where
  config : Option Key := none
  expiry : Nat := 0

/-- Result of code that may fail or panic. odohclient.go:41-65, 154-215. -/
inductive Try (α : Type) where
  | ok (a : α)
  | failed
  | crash
deriving DecidableEq, Repr

/-- `Configs[0]`. odohclient.go:41-65, 191-215; an index out of range panics. -/
def firstConfig {Key : Type} : List Key → Try Key
  | k :: _ => .ok k
  | [] => .crash

/-- odohclient.go:191-215 `refreshTargetKey`. `resp` is the response to the request for the keys. The marshalled form of configurations begins with their length,
so that it is never empty (odohclient.go:209). -/
def refreshTargetKey (lib : OdohLib) (resp : Option HttpResp) : Try lib.Key := match resp with
  | none => .failed
  | some r => match readBoundedBody r.body maxDoHResponseSize with
    | none => .failed
    | some b => match lib.configs b with
      | none => .failed
      | some cs => firstConfig cs

/-- odohclient.go:169-189 `getTargetConfig` at time `now` (in nanoseconds; the zero time is 0), with the preset `preset`. -/
def getTargetConfig (lib : OdohLib) (preset : Str) (resp : Option HttpResp) (now : Nat) (s : OdohState lib.Key) : Try lib.Key × OdohState lib.Key :=
  if preset.length ≠ 0 then
    match lib.hex preset with
    | none => (.failed, s)
    | some b => match lib.configs b with
      | none => (.failed, s)
      | some cs => match firstConfig cs with
        | .ok k => (.ok k, { s with config := some k })
        | .failed => (.failed, s)
        | .crash => (.crash, s)
  else match s.config with
    | some k =>
      if now > s.expiry then
        match refreshTargetKey lib resp with
        | .ok k => (.ok k, { config := some k, expiry := now + 24 * 3600 * 1000000000 })
        | .failed => (.failed, { config := none, expiry := 0 })
        | .crash => (.crash, s)
      else (.ok k, s)
    | none =>
      match refreshTargetKey lib resp with
      | .ok k => (.ok k, { config := some k, expiry := now + 24 * 3600 * 1000000000 })
      | .failed => (.failed, { config := none, expiry := 0 })
      | .crash => (.crash, s)

/-- the media type of oblivious DNS (odohlistener.go) -/
def odohType : Str := str "application/oblivious-dns-message"

/-- odohclient.go:103-141 `decodeProxyResponse` -/
def decodeProxyResponse (lib : Lib) (o : OdohLib) (q : Msg) (c : o.Ctx) (r : HttpResp) : Outcome :=
  if r.status < 200 ∨ r.status > 299 then .failed
  else if r.contentType ≠ odohType then .failed
  else match readBoundedBody r.body maxDoHResponseSize with
    | none => .failed
    | some b => match o.openAnswer c b with
      | none => .failed
      | some p => match lib.unpack p with
        | none => .failed
        | some a => if validateResponseQuestion q a then .answer a else .failed

/-- odohclient.go:68-96 `Resolve`, with the key that `getTargetConfig` gave; odohclient.go:144-151 `customizeRequest` gives the URL the target as parameters (`target`). -/
def odohResolve (lib : Lib) (o : OdohLib) (b64 : Str → Str) (t : Template) (opt : DoHOpt) (target : Str → Str) (net : HttpReq → Option HttpResp) (key : o.Key) (q : Msg) :
    Option HttpReq × Outcome :=
  match lib.pack q with
  | none => (none, .failed)
  | some p => match o.encrypt key p with
    | none => (none, .failed)
    | some (msg, c) => match buildRequest b64 t opt msg q.opcode with
      | none => (none, .failed)
      | some req =>
        let req := { req with url := target req.url, contentType := odohType }
        (some req, match net req with
          | none => .failed
          | some r => decodeProxyResponse lib o q c r)

end Verif.Clients
