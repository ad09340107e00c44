import Verif.Model.Clients
import Verif.Model.Regex
/-
odohlistener.go: the listener for oblivious DNS, as a proxy and as a target.

Parameters: the HTTP client of the proxy, the decryption and encryption of the target (`Target`). A body is read either completely or with an error; what
`io.LimitReader` cuts off is not read. The texts of error responses are left out. Logging is left out.
-/
namespace Verif.Odoh
open Verif Verif.Listeners Verif.Regex
open Verif.Clients (odohType)

/-- A request: that of a DoH listener, its content type, and the parameters of the URL (empty if missing). odohlistener.go:112-170, 188-267. -/
structure Request where
  base : Req
  contentType : Str := []
  targetHost : Str := []
  targetPath : Str := []

/-- `[a-zA-Z]` in odohlistener.go:129 -/
def isLetter (c : UInt8) : Bool := (97 ≤ c && c ≤ 122) || (65 ≤ c && c ≤ 90)
/-- `[0-9]` in odohlistener.go:129 -/
def isDigit (c : UInt8) : Bool := 48 ≤ c && c ≤ 57

/-- odohlistener.go:129: `^([a-zA-Z0-9-]+\.)+[a-zA-Z]{2,}$` -/
def hostRe : Re :=
  .seq (Re.plus (.seq (Re.plus (.cls fun c => isLetter c || isDigit c || c = 45)) (.cls fun c => c = 46)))
    (.seq (.cls isLetter) (.seq (.cls isLetter) (.star (.cls isLetter))))

/-- `strings.Contains(s, "..")`. Used in odohlistener.go:112-170. -/
def hasDotDot : Str → Bool
  | a :: b :: s => (a = 46 && b = 46) || hasDotDot (b :: s)
  | _ => false

/-- What the proxy sends on: a POST over HTTPS to the host, without port (odohlistener.go:172-186 `forwardProxyRequest`) -/
structure Forward where
  host : Str
  path : Str
  body : Str
  contentType : Str
deriving DecidableEq, Repr

/-- The target's response; `complete`: the body was read to its end without error. odohlistener.go:172-186. -/
structure TargetResponse where
  status : Nat
  contentType : Str := []
  body : Str
  complete : Bool := true
deriving DecidableEq, Repr

/-- What odohlistener.go:112-170 does -/
structure ProxyRun where
  sent : List Forward
  out : Http
deriving DecidableEq, Repr

/-- odohlistener.go:155-169: the response of the target is handed on. If the copy breaks off, the error text goes behind what has been sent already. -/
def handOn (r : TargetResponse) : Http :=
  if r.status ≠ 200 then .status r.status
  else if r.contentType ≠ odohType then .status 502
  else if r.complete then .ok r.body
  else if r.body = [] then .status 500
  else .ok (r.body ++ str "Internal Server Error\n")

/-- odohlistener.go:144-169 -/
def forwardOn (net : Forward → Option TargetResponse) (f : Forward) : ProxyRun :=
  { sent := [f], out := match net f with
    | none => .status 500
    | some r => handOn r }

/-- odohlistener.go:112-170 `ODoHproxyHandler` -/
def proxyHandler (net : Forward → Option TargetResponse) (r : Request) : ProxyRun :=
  if r.base.method ≠ str "POST" then { sent := [], out := .status 405 }
  else if r.contentType = [] ∨ r.contentType ≠ odohType then { sent := [], out := .status 400 }
  else if r.targetHost = [] then { sent := [], out := .status 400 }
  else if r.targetHost.length > 253 ∨ hostRe.matches r.targetHost = false then { sent := [], out := .status 400 }
  else if r.targetPath = [] ∨ r.targetPath.length > 1024 ∨ r.targetPath.head? ≠ some 47 ∨ hasDotDot r.targetPath = true then { sent := [], out := .status 400 }
  else match r.base.body with
    | none => { sent := [], out := .status 400 }
    | some b => forwardOn net { host := r.targetHost, path := r.targetPath, body := b.take 4096, contentType := r.contentType }

/-- The target's side of oblivious DNS. cloudflare/odoh-go, used in odohlistener.go:188-267. -/
structure Target where
  /-- contexts of queries -/
  Ctx : Type
  /-- `odoh.UnmarshalDNSMessage`, `DecryptQuery` and `Message`; `none` is an error -/
  decrypt : Str → Option (Str × Ctx)
  /-- `CreateObliviousDNSResponse(p, 0)`, `EncryptResponse` and `Marshal` -/
  encrypt : Ctx → Str → Option Str

/-- odohlistener.go:44-54 -/
structure Opts where
  id : Str := []
  mode : Str := []
  allowDoH : Bool := false
  allowed : List Cidr.IPNet := []

/-- odohlistener.go:89-93: options of the DoH listener within -/
def dohOpts (opt : Opts) : DoHOpts := { id := opt.id, allowed := opt.allowed }

/-- odohlistener.go:248-266; a message that cannot be packed gives a 200 without content -/
def sealAnswer (lib : Lib) (t : Target) (c : t.Ctx) : Option Msg → Http
  | none => .status 403
  | some a => match lib.pack a with
    | none => .ok []
    | some p => match t.encrypt c p with
      | none => .status 400
      | some e => .ok e

/-- odohlistener.go:207-266 -/
def answerQuery (lib : Lib) (t : Target) (opt : Opts) (r : Pipeline) (sni : Str) (b : Str) : Handled Http := match t.decrypt b with
  | none => { calls := [], out := .status 400 }
  | some (p, c) => match lib.unpack p with
    | none => { calls := [], out := .status 400 }
    | some q =>
      if q.question.length = 0 then { calls := [], out := .status 400 }
      else
        let ci : ClientInfo := { sourceIP := [], tlsServerName := sni, listener := opt.id }
        { calls := [(q, ci)], out := sealAnswer lib t c (answerOr (setRcode q rcodeServerFailure) (r q ci)) }

/-- odohlistener.go:188-267 `ODoHqueryHandler`. The listener always has TLS. -/
def queryHandler (lib : Lib) (t : Target) (opt : Opts) (r : Pipeline) (req : Request) : Handled Http :=
  if req.base.method ≠ str "POST" ∨ req.contentType = str "application/dns-message" then
    if opt.allowDoH then dohHandler lib (dohOpts opt) r req.base else { calls := [], out := .status 405 }
  else if req.contentType ≠ odohType then { calls := [], out := .status 405 }
  else match req.base.body with
    | none => { calls := [], out := .status 400 }
    | some b => answerQuery lib t opt r ((req.base.tls.map (·.2)).getD []) (b.take 4096)

/-- What a request to the listener does: forwarded requests, calls of the pipeline, the response. odohlistener.go:56-102: the handlers by path. -/
structure Served where
  sent : List Forward
  calls : List (Msg × ClientInfo)
  out : Http
deriving DecidableEq, Repr

/-- The proxy as what the listener did, odohlistener.go:112-170 -/
def ofProxy (x : ProxyRun) : Served := { sent := x.sent, calls := [], out := x.out }
/-- The target as what the listener did, odohlistener.go:188-267 -/
def ofHandled (x : Handled Http) : Served := { sent := [], calls := x.calls, out := x.out }

/-- odohlistener.go:76-88: what is served in which mode. `http.ServeMux` takes these patterns as exact paths and answers 404 to others (redirects of unclean paths are left out). -/
def serve (lib : Lib) (t : Target) (opt : Opts) (config : Str) (net : Forward → Option TargetResponse) (r : Pipeline) (req : Request) : Served :=
  let asProxy := opt.mode = str "dual" ∨ opt.mode = str "proxy"
  let asTarget := opt.mode = str "dual" ∨ opt.mode = str "target" ∨ opt.mode = []
  if req.base.path = str "/proxy" ∧ asProxy then ofProxy (proxyHandler net req)
  else if req.base.path = str "/dns-query" ∧ asTarget then ofHandled (queryHandler lib t opt r req)
  else if req.base.path = str "/.well-known/odohconfigs" ∧ asTarget then { sent := [], calls := [], out := .ok config }
  else { sent := [], calls := [], out := .status 404 }

end Verif.Odoh
