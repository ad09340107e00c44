import Verif.Model.Composition
import Verif.Model.Config
/-
What the sections of a configuration become: cmd/routedns/config.go:16-260, cmd/routedns/resolver.go:12-159 and cmd/routedns/main.go:282-441, 474-1205.

Times that only say how often something happens in the background (`refresh`, `blocklist-refresh`, `gc-period`, `save-interval`, C68) or how long something is waited for, and what is
written to logs, are left out. So are the numbers of the rate limiter (C21), the prefetcher (C61), `failure-penalty` (C18) and `port` (C20), which a `Composition.Tree` does not have, and
the trust anchors (C47). What libraries, files and servers make of texts are parameters (`Env`).
-/
namespace Verif.Assemble
open Verif Verif.Composition

/-! ### Lists -/

/-- cmd/routedns/config.go:243-249 `list` -/
structure ListCfg where
  name : Str := []
  format : Str := []
  source : Str := []
  cacheDir : Str := []
  allowFailure : Bool := false
deriving DecidableEq, Repr

/-- blocklistloader.go: where the rules come from -/
inductive Loader where
  | static (rules : List Str)
  | http (url cacheDir : Str) (allowFailure : Bool)
  | file (path : Str) (allowFailure : Bool)
deriving DecidableEq, Repr

/-- cmd/routedns/main.go:1139-1150: the formats of lists of names -/
inductive NameFormat where
  | regexp | domain | domainSubdomain | hosts | mac
deriving DecidableEq, Repr

/-- cmd/routedns/main.go:1185-1192: the formats of lists of addresses -/
inductive IpFormat where
  | cidr | location | asn
deriving DecidableEq, Repr

/-- A list of names that has been set up. cmd/routedns/main.go:1110-1153 `newBlocklistDB`; the loader and the format instead of the loaded list. -/
structure NameList where
  name : Str
  format : NameFormat
  loader : Loader
deriving DecidableEq, Repr

/-- A list of addresses that has been set up. cmd/routedns/main.go:1155-1196 `newIPBlocklistDB`; the loader and the format instead of the loaded list. -/
structure IpList where
  name : Str
  format : IpFormat
  loader : Loader
  locationDB : Str
deriving DecidableEq, Repr

/-- The world around: what libraries, files and servers make of texts. Parameters standing for the calls of libraries in cmd/routedns/main.go:475-1196; the calls are named at each field. -/
structure Env (H : Type) where
  /-- `url.Parse`: the scheme -/
  scheme : Str → Option Str
  /-- the rules can be loaded and understood (C28-C32, C46, C69) -/
  loadNames : NameList → Bool
  loadIps : IpList → Bool
  /-- template.go:16-42 `NewTemplate` -/
  template : Str → Option (Blocklist.TemplateInput → Option Str)
  /-- `dns.NewRR` -/
  newRR : Str → Option (Option RR)
  /-- `regexp.Compile` of the first text and then `ReplaceAllString` with the second -/
  replaceAll : Str → Str → Option (Str → Str)
  /-- `regexp.Compile` and then `MatchString` -/
  compile : Str → Option (Str → Bool)
  /-- `net.ParseIP` (nil is the empty byte list) and `dns.ReverseAddr` -/
  parseIP : Str → Str
  reverseAddr : Str → Option Str
  /-- `net.ParseCIDR` -/
  parseCIDR : Str → Option (Str × Cidr.IPNet)
  /-- `dns.TypeToString` -/
  types : List (Nat × Str)
  /-- query-log.go:38: the file can be opened -/
  openLog : Str → Bool
  readFile : Str → Option Str
  /-- lua.go:34-54: the script can be compiled and set up -/
  script : Str → Bool
  /-- hash function, text of addresses and encoding of messages for the cache -/
  cache : CacheM.Env H
  /-- `rand` in TTLSelectRandom, and the two ways of shuffling (C11) -/
  draw : Nat
  shuffleRandom : Msg → Msg
  shuffleRoundRobin : Msg → Msg

/-- The loader: cmd/routedns/main.go:1119-1138 and 1171-1190, which are the same -/
def loaderOf (scheme : Str) (l : ListCfg) (rules : List Str) : Option Loader :=
  if rules.length > 0 then some (.static rules)
  else if scheme = str "http" ∨ scheme = str "https" then some (.http l.source l.cacheDir l.allowFailure)
  else if scheme = [] then some (.file l.source l.allowFailure)
  else none

/-- cmd/routedns/main.go:1115-1118: lists are known by their names, or by where they come from -/
def listName (l : ListCfg) : Str := if l.name = [] then l.source else l.name

/-- cmd/routedns/main.go:1140-1153 -/
def nameFormat (f : Str) : Option NameFormat :=
  if f = str "regexp" ∨ f = [] then some .regexp
  else if f = str "domain" then some .domain
  else if f = str "domain-subdomain" then some .domainSubdomain
  else if f = str "hosts" then some .hosts
  else if f = str "mac" then some .mac
  else none

/-- cmd/routedns/main.go:1193-1202 -/
def ipFormat (f : Str) : Option IpFormat :=
  if f = str "cidr" ∨ f = [] then some .cidr
  else if f = str "location" then some .location
  else if f = str "asn" then some .asn
  else none

/-- cmd/routedns/main.go:1110-1154 `newBlocklistDB`; `none` is an error -/
def newBlocklistDB {H : Type} (env : Env H) (l : ListCfg) (rules : List Str) : Option NameList := do
  let scheme ← env.scheme l.source
  let loader ← loaderOf scheme l rules
  let f ← nameFormat l.format
  let d : NameList := { name := listName l, format := f, loader := loader }
  if env.loadNames d then some d else none

/-- cmd/routedns/main.go:1156-1205 `newIPBlocklistDB`; `none` is an error -/
def newIPBlocklistDB {H : Type} (env : Env H) (l : ListCfg) (locationDB : Str) (rules : List Str) : Option IpList := do
  let scheme ← env.scheme l.source
  let loader ← loaderOf scheme l rules
  let f ← ipFormat l.format
  let d : IpList := { name := listName l, format := f, loader := loader, locationDB := locationDB }
  if env.loadIps d then some d else none

/-- All or an error. The loops of cmd/routedns/main.go that return the first error, such as cmd/routedns/main.go:478-484. -/
def allSome {α β : Type} (f : α → Option β) : List α → Option (List β)
  | [] => some []
  | a :: as => match f a with
    | none => none
    | some b => (allSome f as).map (b :: ·)

/-- cmd/routedns/main.go:562-580, 583-601, 885-902: the rules given in the configuration, or else all of the sources -/
def nameLists {H : Type} (env : Env H) (inline : ListCfg) (rules : List Str) (sources : List ListCfg) : Option (List NameList) :=
  if rules.length > 0 ∧ sources.length > 0 then none
  else if rules.length > 0 then (newBlocklistDB env inline rules).map fun d => [d]
  else allSome (fun s => newBlocklistDB env s []) sources

/-- cmd/routedns/main.go:831-853, 919-941 -/
def ipLists {H : Type} (env : Env H) (inline : ListCfg) (locationDB : Str) (rules : List Str) (sources : List ListCfg) : Option (List IpList) :=
  if rules.length > 0 ∧ sources.length > 0 then none
  else if rules.length > 0 then (newIPBlocklistDB env inline locationDB rules).map fun d => [d]
  else allSome (fun s => newIPBlocklistDB env s locationDB []) sources

/-- What a list makes of rules: blocklistdb-domain.go:61-224, blocklistdb-regexp.go:24-55, blocklistdb-hosts.go:31-120, mac-db.go:26-90; `none` is an error -/
def nameDB {H : Type} (env : Env H) (d : NameList) (rules : List Str) : Option (Msg → Option Lists.Hit) := match d.format with
  | .domain => (Domain.load false rules Domain.initial).map fun h => Blocklist.domainMatch h d.name
  | .domainSubdomain => (Domain.load true rules Domain.initial).map fun h => Blocklist.domainMatch h d.name
  | .regexp => (Lists.loadRegexp env.compile rules).map fun db q => q.question.head?.bind (Lists.lookupRegexp db d.name)
  | .hosts => some fun q => q.question.head?.bind ((Lists.loadHosts env.parseIP env.reverseAddr rules).lookup d.name)
  | .mac => (Lists.loadMAC rules).map fun macs q => (Lists.matchMAC macs q).map fun rule => { rule := ⟨d.name, rule⟩ }

/-- The rules a loader may come up with: those of the configuration, or whatever a server or file has when it is read. The interface `BlocklistLoader`: blocklistloader-static.go:5-17, blocklistloader-local.go:28-56, blocklistloader-http.go:44-107 (C70 says more of the latter two). -/
def mayLoad : Loader → List Str → Prop
  | .static rules, rs => rs = rules
  | _, _ => True

/-- What a list may be at some time. cmd/routedns/main.go:1110-1153 at the time of any (re)load. -/
def nameListMay {H : Type} (env : Env H) (d : NameList) (db : Msg → Option Lists.Hit) : Prop := ∃ rules, mayLoad d.loader rules ∧ nameDB env d rules = some db

/-- cidr-db.go:20-73 for networks, with the text of the rule left out; lists of places and networks of operators (C69) may say anything -/
def ipListMay {H : Type} (env : Env H) (d : IpList) (db : Str → Option Lists.Match) : Prop := match d.format with
  | .cidr => ∃ rules c, mayLoad d.loader rules ∧ Cidr.load env.parseCIDR rules {} = some c ∧ ∀ ip, (db ip).isSome = (c.lookup ip).isSome
  | _ => True

/-- blocklistdb-multi.go, ip-db-multi.go: several lists at some time -/
def multiMay {δ α β : Type} (may : δ → (α → Option β) → Prop) : List δ → (α → Option β) → Prop
  | [], db => ∀ x, db x = none
  | d :: ds, db => ∃ first rest, may d first ∧ multiMay may ds rest ∧ ∀ x, db x = match first x with
      | some h => some h
      | none => rest x

/-! ### Groups -/

/-- cmd/routedns/config.go:96-112 `cacheBackend`; the options of Redis are left out -/
structure Backend where
  type : Str := []
  size : Int := 0
deriving DecidableEq, Repr

/-- cmd/routedns/config.go:114-230 `group` -/
structure Group where
  resolvers : List Str := []
  type : Str := []
  replace : List (Str × Str) := []
  ecsOp : Str := []
  ecsAddress : Str := []
  ecsPrefix4 : Nat := 0
  ecsPrefix6 : Nat := 0
  ttlMin : Nat := 0
  ttlMax : Nat := 0
  ttlSelect : Str := []
  edns0Op : Str := []
  edns0Code : Nat := 0
  edns0Data : Str := []
  resetAfter : Option Int := none
  servfailError : Bool := false
  emptyError : Bool := false
  backend : Option Backend := none
  cacheSize : Int := 0
  cacheNegativeTTL : Nat := 0
  cacheAnswerShuffle : Str := []
  cacheHarden : Bool := false
  cacheFlushQuery : Str := []
  prefetchTrigger : Nat := 0
  prefetchEligible : Nat := 0
  /-- in the order in which Go iterates over the map -/
  cacheRcodeMaxTTL : List (Str × Nat) := []
  blocklist : List Str := []
  format : Str := []
  source : Str := []
  filter : Bool := false
  inverted : Bool := false
  useECS : Bool := false
  blockListResolver : Str := []
  allowListResolver : Str := []
  blocklistFormat : Str := []
  blocklistSource : List ListCfg := []
  allowlist : List Str := []
  allowlistFormat : Str := []
  allowlistSource : List ListCfg := []
  locationDB : Str := []
  answer : List Str := []
  ns : List Str := []
  extra : List Str := []
  rcode : Nat := 0
  edeCode : Nat := 0
  edeText : Str := []
  truncate : Bool := false
  requests : Nat := 0
  window : Nat := 0
  prefix4 : Nat := 0
  prefix6 : Nat := 0
  limitResolver : Str := []
  waitAll : Bool := false
  successTTLMin : Nat := 0
  nullRCode : Nat := 0
  retryResolver : Str := []
  priority : Str := []
  logRequest : Bool := false
  logResponse : Bool := false
  verbose : Bool := false
  outputFile : Str := []
  outputFormat : Str := []
  luaScript : Str := []
  luaScriptSource : Str := []
  dnssecLogOnly : Bool := false
  dns64Prefix : List Str := []

/-- The cases of the switch over the type of a group. cmd/routedns/main.go:485-1083. -/
inductive Kind where
  | roundRobin | failRotate | failBack | fastest | loadBalance | random | blocklist | blocklistV2 | replace | ttlModifier | truncateRetry | requestDedup | fastestTcp
  | ecsModifier | edns0Modifier | syslog | cache | prefetch | responseBlocklistIp | responseBlocklistName | clientBlocklist | staticResponder | staticTemplate
  | responseMinimize | responseCollapse | drop | rateLimiter | queryLog | lua | dnssecValidator | dns64
deriving DecidableEq, Repr

/-- cmd/routedns/main.go:485-1082: the labels of the cases -/
def kinds : List (Str × Kind) :=
  [(str "round-robin", .roundRobin), (str "fail-rotate", .failRotate), (str "fail-back", .failBack), (str "fastest", .fastest), (str "load-balance", .loadBalance), (str "random", .random),
   (str "blocklist", .blocklist), (str "blocklist-v2", .blocklistV2), (str "replace", .replace), (str "ttl-modifier", .ttlModifier), (str "truncate-retry", .truncateRetry),
   (str "request-dedup", .requestDedup), (str "fastest-tcp", .fastestTcp), (str "ecs-modifier", .ecsModifier), (str "edns0-modifier", .edns0Modifier), (str "syslog", .syslog),
   (str "cache", .cache), (str "prefetch", .prefetch), (str "response-blocklist-ip", .responseBlocklistIp), (str "response-blocklist-cidr", .responseBlocklistIp),
   (str "response-blocklist-name", .responseBlocklistName), (str "client-blocklist", .clientBlocklist), (str "static-responder", .staticResponder), (str "static-template", .staticTemplate),
   (str "response-minimize", .responseMinimize), (str "response-collapse", .responseCollapse), (str "drop", .drop), (str "rate-limiter", .rateLimiter), (str "query-log", .queryLog),
   (str "lua", .lua), (str "dnssec-validator", .dnssecValidator), (str "dns64", .dns64)]

/-- cmd/routedns/main.go:485-1083: the case of the switch for a type; `none` is `default` -/
def kindOf (type : Str) : Option Kind := kinds.lookup type

/-- What a group has become: the element, and the lists it was given. cmd/routedns/main.go:475-1085 `instantiateGroup`: what is stored at `resolvers[id]`. -/
structure Built (H : Type) where
  tree : Tree H
  block : List NameList := []
  allow : List NameList := []
  blockIps : List IpList := []

/-- The elements named by the optional references. cmd/routedns/main.go:599-602, 651, 866, 905, 942, 1010 and the like: `resolvers[g.AllowListResolver]` and so on. -/
structure Opts (H : Type) where
  allow : Option (Tree H) := none
  block : Option (Tree H) := none
  limit : Option (Tree H) := none
  retry : Option (Tree H) := none

/-- Most types need exactly one resolver (cmd/routedns/main.go:531, 550, 613, 622, …) -/
def one {H β : Type} (gr : List (Tree H)) (f : Tree H → Option β) : Option β := match gr with
  | [t] => f t
  | _ => none

/-- Member number `i`; there are no other members, and no element uses one. cmd/routedns/main.go:478-484 `gr`. -/
def member {H : Type} (gr : List (Tree H)) (i : Nat) : Tree H := gr[i]?.getD .drop

/-- cmd/routedns/main.go:493, 509, 522: the options that say which replies are failures (C77) -/
def isOk (g : Group) : Res → Bool := Group.succeeded g.servfailError g.emptyError

/-- cmd/routedns/main.go:496-506 and 517-526 -/
def resetAfter (g : Group) : Int := g.resetAfter.getD 60

/-- edns0ede.go:17-31 `NewEDNS0EDETemplate` -/
def newEde {H : Type} (env : Env H) (code : Nat) (text : Str) : Option (Option Blocklist.Ede) :=
  if code = 0 ∧ text = [] then some none
  else (env.template text).map fun t => some { infoCode := code, text := t }

/-- cmd/routedns/main.go:624-640 -/
def ttlSelect (draw : Nat) (s : Str) : Option Elements.Select :=
  if s = str "lowest" then some .lowest
  else if s = str "highest" then some .highest
  else if s = str "average" then some .average
  else if s = str "first" then some .first
  else if s = str "last" then some .last
  else if s = str "random" then some (.random draw)
  else if s = [] then some .none
  else none

/-- cmd/routedns/main.go:679-692 -/
def ecsModifier (g : Group) : Option Modifier :=
  if g.ecsOp = str "add" then some (.ecsAdd g.ecsAddress g.ecsPrefix4 g.ecsPrefix6)
  else if g.ecsOp = str "add-if-missing" then some (.ecsAddIfMissing g.ecsAddress g.ecsPrefix4 g.ecsPrefix6)
  else if g.ecsOp = str "delete" then some .ecsDelete
  else if g.ecsOp = str "privacy" then some (.ecsPrivacy g.ecsPrefix4 g.ecsPrefix6)
  else if g.ecsOp = [] then some .keep
  else none

/-- cmd/routedns/main.go:701-710 -/
def edns0Modifier (g : Group) : Option Modifier :=
  if g.edns0Op = str "add" then some (.edns0Add g.edns0Code g.edns0Data)
  else if g.edns0Op = str "delete" then some (.edns0Delete g.edns0Code)
  else if g.edns0Op = [] then some .keep
  else none

/-- cmd/routedns/main.go:719-738 -/
def priorityOk (p : Str) : Bool :=
  p = str "emergency" ∨ p = [] ∨ p = str "alert" ∨ p = str "critical" ∨ p = str "error" ∨ p = str "warning" ∨ p = str "notice" ∨ p = str "info" ∨ p = str "debug"

/-- cmd/routedns/main.go:753-762 -/
def shuffle {H : Type} (env : Env H) (s : Str) : Option (Option (Msg → Msg)) :=
  if s = [] then some none
  else if s = str "random" then some (some env.shuffleRandom)
  else if s = str "round-robin" then some (some env.shuffleRoundRobin)
  else none

/-- cmd/routedns/main.go:764-771: a later key writes over an earlier one for the same number; negative numbers are the code of no reply -/
def rcodeMaxTTL : List (Str × Nat) → (Nat → Option Nat) → Option (Nat → Option Nat)
  | [], m => some m
  | (k, v) :: rest, m => match Route.atoi k with
    | none => none
    | some code => rcodeMaxTTL rest fun n => if (n : Int) = code then some v else m n

/-- cmd/routedns/main.go:784-819 and cache.go:182-188: the size of the cache; `some none` is Redis -/
def cacheSize (g : Group) : Option (Option Int) := match g.backend with
  | none => some (some g.cacheSize)
  | some b => if b.type = str "memory" then some (some b.size) else if b.type = str "redis" then some none else none

/-- cmd/routedns/main.go:773-783 and cache.go:179-181 -/
def cacheOpts (g : Group) (rcodes : Nat → Option Nat) (sh : Option (Msg → Msg)) : CacheM.Opts :=
  CacheM.newOpts { negativeTTL := g.cacheNegativeTTL, rcodeMaxTTL := rcodes, prefetchTrigger := g.prefetchTrigger, prefetchEligible := g.prefetchEligible,
                   flushQuery := g.cacheFlushQuery, harden := g.cacheHarden, shuffle := sh }

/-- query-log.go:36-55 -/
def queryLogOk {H : Type} (env : Env H) (g : Group) : Bool :=
  (g.outputFile = [] ∨ env.openLog g.outputFile) ∧ (g.outputFormat = [] ∨ g.outputFormat = str "text" ∨ g.outputFormat = str "json")

/-- cmd/routedns/main.go:1031-1041: the text of the script -/
def scriptText {H : Type} (env : Env H) (g : Group) : Option Str :=
  if g.luaScriptSource = [] then some g.luaScript else env.readFile g.luaScriptSource

/-- cmd/routedns/main.go:598-606: the options of a blocklist, with what its lists may become -/
def blocklistMay {H : Type} (env : Env H) (b : List NameList) (a : Option (List NameList)) (e : Option Blocklist.Ede) (hasAllow hasBlock : Bool) (opt : Blocklist.Options) : Prop :=
  multiMay (nameListMay env) b opt.blockDB ∧ (match a with
    | none => opt.allowDB = none
    | some a => ∃ db, opt.allowDB = some db ∧ multiMay (nameListMay env) a db) ∧
  opt.ede = e ∧ opt.hasAllowResolver = hasAllow ∧ opt.hasBlockResolver = hasBlock

/-- cmd/routedns/main.go:865-872 -/
def responseIpMay {H : Type} (env : Env H) (b : List IpList) (g : Group) (e : Option Blocklist.Ede) (hasBlock : Bool) (opt : Blocklist.IpOptions) : Prop :=
  multiMay (ipListMay env) b opt.db ∧ opt.hasBlockResolver = hasBlock ∧ opt.filter = g.filter ∧ opt.inverted = g.inverted ∧ opt.ede = e

/-- cmd/routedns/main.go:904-909: there is no option for an extended error -/
def responseNameMay {H : Type} (env : Env H) (b : List NameList) (g : Group) (hasBlock : Bool) (opt : Blocklist.NameOptions) : Prop :=
  multiMay (nameListMay env) b opt.db ∧ opt.hasBlockResolver = hasBlock ∧ opt.inverted = g.inverted ∧ opt.ede = none

/-- cmd/routedns/main.go:941-946 -/
def clientMay {H : Type} (env : Env H) (b : List IpList) (g : Group) (hasBlock : Bool) (useECS hasBlockResolver : Bool) (db : Str → Option Lists.Match) : Prop :=
  multiMay (ipListMay env) b db ∧ hasBlockResolver = hasBlock ∧ useECS = g.useECS

/-- cmd/routedns/main.go:549-611 -/
def blocklistV2 {H : Type} (env : Env H) (id : Str) (g : Group) (o : Opts H) (t : Tree H) : Option (Built H) :=
  if g.blocklist.length > 0 ∧ g.blocklistSource.length > 0 then none
  else if g.allowlist.length > 0 ∧ g.allowlistSource.length > 0 then none
  else do
  let b ← nameLists env { name := id, format := g.blocklistFormat } g.blocklist g.blocklistSource
  let a ← nameLists env { format := g.blocklistFormat } g.allowlist g.allowlistSource
  let e ← newEde env g.edeCode g.edeText
  some { tree := .blocklist (blocklistMay env b (some a) e o.allow.isSome o.block.isSome) t (o.allow.getD t) (o.block.getD .drop), block := b, allow := a }

/-- cmd/routedns/main.go:747-821; a cache in Redis is an element of its own, number `num` -/
def cache {H : Type} (env : Env H) (num : Nat) (g : Group) (t : Tree H) : Option (Built H) := do
  let sh ← shuffle env g.cacheAnswerShuffle
  let rcodes ← rcodeMaxTTL g.cacheRcodeMaxTTL fun _ => none
  let size ← cacheSize g
  match size with
  | some n => some { tree := .cache env.cache (cacheOpts g rcodes sh) n t }
  | none => some { tree := .client num }

/-- cmd/routedns/main.go:951-967, static.go:34-63 -/
def staticResponder {H : Type} (env : Env H) (g : Group) : Option (Built H) := do
  let ede ← newEde env g.edeCode g.edeText
  let s ← Static.newStatic env.newRR g.answer g.ns g.extra g.rcode g.truncate ede
  some { tree := .static s }

/-- cmd/routedns/main.go:968-984, static-template.go:23-51 -/
def staticTemplate {H : Type} (env : Env H) (g : Group) : Option (Built H) := do
  let ede ← newEde env g.edeCode g.edeText
  let a ← allSome env.template g.answer
  let n ← allSome env.template g.ns
  let e ← allSome env.template g.extra
  some { tree := .template env.newRR { answer := a, ns := n, extra := e, rcode := g.rcode, truncate := g.truncate, ede := ede } }

/-- cmd/routedns/main.go:530-548 -/
def blocklistV1 {H : Type} (env : Env H) (id : Str) (g : Group) (t : Tree H) : Option (Built H) :=
  if g.blocklist.length > 0 ∧ g.source ≠ [] then none
  else (newBlocklistDB env { name := id, format := g.format, source := g.source } g.blocklist).map fun b => { tree := .blocklist (blocklistMay env [b] none none false false) t t .drop, block := [b] }

/-- cmd/routedns/main.go:826-873 -/
def responseIp {H : Type} (env : Env H) (id : Str) (g : Group) (o : Opts H) (t : Tree H) : Option (Built H) := do
  let b ← ipLists env { name := id, format := g.blocklistFormat } g.locationDB g.blocklist g.blocklistSource
  let e ← newEde env g.edeCode g.edeText
  some { tree := .responseIp (responseIpMay env b g e o.block.isSome) t (o.block.getD .drop), blockIps := b }

/-- cmd/routedns/main.go:1060-1070, dns64.go:47-54 -/
def dns64Prefixes {H : Type} (env : Env H) (g : Group) : Option (List Dns64.Pfx) :=
  Dns64.parsePrefixes env.parseCIDR (if g.dns64Prefix.length = 0 then [str "64:ff9b::/96"] else g.dns64Prefix)

/-- cmd/routedns/main.go:475-1085 `instantiateGroup`, without the look-ups (`Config.lookups`); `none` is an error. `num` is the number of the group as an element that is not modelled further
(scripts and caches in Redis). An element without block resolver never passes a query on to one (`drop` stands in its place). -/
def group {H : Type} (env : Env H) (num : Nat) (id : Str) (g : Group) (gr : List (Tree H)) (o : Opts H) : Option (Built H) := match kindOf g.type with
  | none => none
  | some .roundRobin => some { tree := .roundRobin gr.length (member gr) }
  | some .failRotate => some { tree := .failRotate gr.length (isOk g) (member gr) }
  | some .failBack => some { tree := if resetAfter g = 0 then .failBackEach gr.length (isOk g) (member gr) else .failBack gr.length (isOk g) (member gr) }
  | some .fastest => some { tree := .fastest gr.length (member gr) }
  | some .loadBalance => some { tree := .loadBalance gr.length (isOk g) (member gr) }
  | some .random => some { tree := .random gr.length (isOk g) (member gr) }
  | some .blocklist => one gr (blocklistV1 env id g)
  | some .blocklistV2 => one gr (blocklistV2 env id g o)
  | some .replace => one gr fun t => (allSome (fun x => env.replaceAll x.1 x.2) g.replace).map fun exps => { tree := .replace exps t }
  | some .ttlModifier => one gr fun t => (ttlSelect env.draw g.ttlSelect).map fun s =>
      { tree := .ttl (Elements.TTLOptions.withDefaults { select := s, minTTL := g.ttlMin, maxTTL := g.ttlMax }) t }
  | some .truncateRetry => one gr fun t => o.retry.map fun u => { tree := .truncateRetry t u }
  | some .requestDedup => one gr fun t => some { tree := .dedup t }
  | some .fastestTcp => one gr fun t => some { tree := .fastestTcp g.waitAll g.successTTLMin t }
  | some .ecsModifier => one gr fun t => (ecsModifier g).map fun m => { tree := .modify m t }
  | some .edns0Modifier => one gr fun t => (edns0Modifier g).map fun m => { tree := .modify m t }
  | some .syslog => one gr fun t => if priorityOk g.priority then some { tree := .syslog { logRequest := g.logRequest, logResponse := g.logResponse, verbose := g.verbose } t } else none
  | some .cache => one gr (cache env num g)
  | some .prefetch => one gr fun t => some { tree := .prefetch t }
  | some .responseBlocklistIp => one gr (responseIp env id g o)
  | some .responseBlocklistName => one gr fun t => (nameLists env { format := g.blocklistFormat } g.blocklist g.blocklistSource).map fun b =>
      { tree := .responseName (responseNameMay env b g o.block.isSome) t (o.block.getD .drop), block := b }
  | some .clientBlocklist => one gr fun t => (ipLists env { name := id, format := g.blocklistFormat } g.locationDB g.blocklist g.blocklistSource).map fun b =>
      { tree := .clientBlocklist (clientMay env b g o.block.isSome) t (o.block.getD .drop), blockIps := b }
  | some .staticResponder => staticResponder env g
  | some .staticTemplate => staticTemplate env g
  | some .responseMinimize => one gr fun t => some { tree := .minimize t }
  | some .responseCollapse => one gr fun t => some { tree := .collapse g.nullRCode t }
  | some .drop => some { tree := .drop }
  | some .rateLimiter => one gr fun t => some { tree := .rateLimit o.limit.isSome t (o.limit.getD .drop) }
  | some .queryLog => one gr fun t => if queryLogOk env g then some { tree := .queryLog t } else none
  | some .lua => (scriptText env g).bind fun s => if s ≠ [] ∧ env.script s then some { tree := .client num } else none
  | some .dnssecValidator => one gr fun t => some { tree := .dnssec g.dnssecLogOnly t }
  | some .dns64 => one gr fun t => (dns64Prefixes env g).map fun ps => { tree := .dns64 ps t }

/-! ### Routers -/

/-- cmd/routedns/config.go:255-270 `route` -/
structure RouteCfg where
  type : Str := []
  route : Route.Config := {}
  resolver : Str := []

/-- cmd/routedns/main.go:1095-1098: the deprecated `type` is one more type -/
def routeConfig (r : RouteCfg) : Route.Config := if r.type = [] then r.route else { r.route with types := r.route.types ++ [r.type] }

/-- cmd/routedns/main.go:1088-1108 `instantiateRouter`, without the look-ups -/
def router {H : Type} (env : Env H) (rs : List RouteCfg) (gr : List (Tree H)) : Option (Tree H) :=
  (allSome (fun r => Route.newRoute env.types env.compile env.parseCIDR (routeConfig r)) rs).map fun routes => .router routes (member gr)

/-! ### Resolvers -/

/-- cmd/routedns/config.go:56-88 `resolver`, as far as it matters here -/
structure Resolver where
  protocol : Str := []
  transport : Str := []
  method : Str := []
  idleTimeout : Int := 0
  use0RTT : Bool := false
  udpSize : Nat := 0
  netns : Str := []
  xsocket : Str := []
  /-- the address with the default port (C66) -/
  address : Str := []

/-- What becomes of the other options of a resolver: `ok`, they are accepted (C57, C71, C72, C73); the template of the address and whether its transport can be set up. cmd/routedns/resolver.go:12-159: what the parts left out here make of a resolver. -/
structure ResolverEnv where
  ok : Resolver → Bool
  template : Resolver → Option Clients.Template
  transportOk : Resolver → Bool

/-- cmd/routedns/main.go:1352-1360 `buildNetNS` succeeds -/
def netnsOk (name xsocket : Str) : Bool := ¬ (name ≠ [] ∧ xsocket ≠ [])

/-- cmd/routedns/resolver.go:12-159 `instantiateResolver`; `none` is an error, `some none` the oblivious client -/
def resolver (env : ResolverEnv) (r : Resolver) : Option (Option Upstream) :=
  if ¬ netnsOk r.netns r.xsocket then none
  else if ¬ env.ok r then none
  else if r.protocol = str "doq" then some (some .quic)
  else if r.protocol = str "dot" then some (some (.encrypted 0))
  else if r.protocol = str "dtls" then some (some (.encrypted r.udpSize))
  else if r.protocol = str "doh" then
    (Clients.newDoHClient (env.transportOk r) (env.template r) { method := r.method, transport := r.transport, use0RTT := r.use0RTT, idleTimeout := r.idleTimeout }).map fun x => some (.https x.1 x.2)
  else if r.protocol = str "odoh" then some none
  else if r.protocol = str "tcp" ∨ r.protocol = str "udp" then some (some (.plain r.udpSize))
  else none

/-! ### Listeners -/

/-- cmd/routedns/config.go:28-54 `listener` -/
structure Listener where
  protocol : Str := []
  ipVersion : Int := 0
  transport : Str := []
  resolver : Str := []
  noTLS : Bool := false
  allowedNet : List Str := []
  netns : Str := []
  xsocket : Str := []
  trustedProxy : Str := []

/-- What becomes of the keys and certificates: `tls`, they are accepted (C73); `odoh`, the oblivious listener can be set up (C62). cmd/routedns/main.go:301-441: what the parts left out here make of a listener. -/
structure ListenerEnv where
  tls : Listener → Bool
  odoh : Listener → Bool
  parseCIDR : Str → Option (Str × Cidr.IPNet)

/-- Names of namespaces that are not paths: the listener is built only when the namespace is there (C59). cmd/routedns/main.go:431-437, with filepath.IsAbs for a name that is not empty. -/
def lazy (l : Listener) : Bool := match l.netns with
  | [] => false
  | c :: _ => c ≠ 47

/-- dohlistener.go:94-101, adminlistener.go:51-58 -/
def transportOk (t : Str) : Bool := t = str "tcp" ∨ t = [] ∨ t = str "quic"

/-- cmd/routedns/main.go:293-441: the protocol of a listener and what it needs; `none` is an error. Without names of namespaces listeners are set up at once. -/
def listenerOk (env : ListenerEnv) (l : Listener) : Bool :=
  (allSome env.parseCIDR l.allowedNet).isSome ∧ (l.ipVersion = 4 ∨ l.ipVersion = 6 ∨ l.ipVersion = 0) ∧ netnsOk l.netns l.xsocket ∧
  (if l.protocol = str "tcp" ∨ l.protocol = str "udp" then true
   else if l.protocol = str "admin" then env.tls l && (lazy l || transportOk l.transport)
   else if l.protocol = str "dot" ∨ l.protocol = str "dtls" ∨ l.protocol = str "doq" then env.tls l
   else if l.protocol = str "doh" then
     (if l.noTLS then decide (l.transport ≠ str "quic") else env.tls l) && (decide (l.trustedProxy = []) || (env.parseCIDR l.trustedProxy).isSome) && (lazy l || transportOk l.transport)
   else if l.protocol = str "odoh" then env.tls l && (lazy l || env.odoh l)
   else false)

/-! ### The whole -/

/-- cmd/routedns/config.go:16-24 `config`: sections with their ids, in any order (see `Config`) -/
structure Cfg where
  /-- `bootstrap-resolver`, if it has an address -/
  bootstrap : Option Resolver := none
  resolvers : List (Str × Resolver) := []
  groups : List (Str × Group) := []
  routers : List (Str × List RouteCfg) := []
  listeners : List (Str × Listener) := []

/-- The parameters of cmd/routedns/main.go:198-441 in one place -/
structure World (H : Type) where
  env : Env H
  res : ResolverEnv
  lis : ListenerEnv

/-- cmd/routedns/main.go:219-227: the references of a group -/
def groupCfg (x : Str × Group) : Config.GroupCfg :=
  { id := x.1, resolvers := x.2.resolvers, allowListResolver := x.2.allowListResolver, blockListResolver := x.2.blockListResolver, limitResolver := x.2.limitResolver,
    retryResolver := x.2.retryResolver }

/-- cmd/routedns/main.go:228-246: the references of a router -/
def routerCfg (x : Str × List RouteCfg) : Config.RouterCfg := { id := x.1, routes := x.2.map (·.resolver) }

/-- cmd/routedns/main.go:290-300: the reference of a listener, and whether it can be built -/
def listenerCfg {H : Type} (w : World H) (x : Str × Listener) : Config.ListenerCfg :=
  { id := x.1, resolver := x.2.resolver, admin := x.2.protocol = str "admin", ok := listenerOk w.lis x.2 }

/-- The ids of all sections. cmd/routedns/main.go:211-246: the keys of the tables of the configuration. -/
def ids (c : Cfg) : List Str := c.resolvers.map (·.1) ++ c.groups.map (·.1) ++ c.routers.map (·.1)

/-- The configuration as `Config.start` sees it. An element called `bootstrap-resolver` takes the place of the bootstrap resolver (cmd/routedns/main.go:205 and 265-275) before anything refers to it. -/
def wiring {H : Type} (w : World H) (c : Cfg) : Config.Cfg :=
  { bootstrap := c.bootstrap.isSome && !(ids c).contains Config.bootId, resolvers := c.resolvers.map (·.1), groups := c.groups.map groupCfg, routers := c.routers.map routerCfg, listeners := c.listeners.map (listenerCfg w) }

/-- A section of the configuration. cmd/routedns/config.go:14-21: an entry of one of the tables. -/
inductive Section where
  | resolver (r : Resolver)
  | group (g : Group)
  | router (rs : List RouteCfg)

/-- The section with an id. cmd/routedns/main.go:211-246: ids are unique over the tables, as cmd/routedns/main.go checks. -/
def section? (c : Cfg) (id : Str) : Option Section := match c.resolvers.lookup id with
  | some r => some (.resolver r)
  | none => match c.groups.lookup id with
    | some g => some (.group g)
    | none => match c.routers.lookup id with
      | some rs => some (.router rs)
      | none => if id = Config.bootId then c.bootstrap.map .resolver else none

/-- The ids of resolvers and groups, whose positions are their numbers. cmd/routedns/main.go:211-246; numbers stand for the clients that cmd/routedns/main.go stores in `resolvers`. -/
def names (c : Cfg) : List Str := c.resolvers.map (·.1) ++ c.groups.map (·.1) ++ [Config.bootId]

/-- The number that stands for the client stored in `resolvers` under the id, cmd/routedns/main.go:211-246 -/
def number (c : Cfg) (id : Str) : Nat := (names c).idxOf id

/-- The client with a number; `none`: something else, or the oblivious client. cmd/routedns/resolver.go:12-159. -/
def upstream {H : Type} (w : World H) (c : Cfg) (i : Nat) : Option Upstream := match (names c)[i]? with
  | none => none
  | some id => match section? c id with
    | some (.resolver r) => (resolver w.res r).join
    | _ => none

/-- The four optional elements (`Config.groupElem`). cmd/routedns/main.go:599-602, 651, 866, 905, 942, 1010. -/
def optsOf {H : Type} : List (Option (Tree H)) → Opts H
  | [a, b, l, r] => { allow := a, block := b, limit := l, retry := r }
  | _ => {}

/-- What the section with an id becomes, given the elements it refers to; `none` is an error. cmd/routedns/main.go:259-281, 475-1108. -/
def assemble {H : Type} (w : World H) (c : Cfg) (id : Str) (gr : List (Tree H)) (os : List (Option (Tree H))) : Option (Tree H) := match section? c id with
  | none => none
  | some (.resolver r) => (resolver w.res r).map fun _ => .client (number c id)
  | some (.group g) => (group w.env (number c id) id g gr (optsOf os)).map (·.tree)
  | some (.router rs) => router w.env rs gr

mutual
/-- The element an `El` stands for. cmd/routedns/main.go:259-281: the elements are built after those they refer to. -/
def treeOf {H : Type} (w : World H) (c : Cfg) : Config.El → Option (Tree H)
  | .mk id refs opts => match treesOf w c refs with
    | none => none
    | some gr => match optTreesOf w c opts with
      | none => none
      | some os => assemble w c id gr os

/-- cmd/routedns/main.go:478-484: the elements a section lists -/
def treesOf {H : Type} (w : World H) (c : Cfg) : List Config.El → Option (List (Tree H))
  | [] => some []
  | e :: es => match treeOf w c e with
    | none => none
    | some t => (treesOf w c es).map (t :: ·)

/-- cmd/routedns/main.go:599-602, 651, 866, 905, 942, 1010: the optional elements of a section -/
def optTreesOf {H : Type} (w : World H) (c : Cfg) : List (Option Config.El) → Option (List (Option (Tree H)))
  | [] => some []
  | none :: es => (optTreesOf w c es).map (none :: ·)
  | some e :: es => match treeOf w c e with
    | none => none
    | some t => (optTreesOf w c es).map (some t :: ·)
end

/-- Whether an element can be built (the parameter of `Config.start`). cmd/routedns/main.go:259-281: whether `instantiateResolver`, `instantiateGroup` or `instantiateRouter` succeeds. -/
def ctor {H : Type} (w : World H) (c : Cfg) : Config.Ctor := fun e rs os => (treeOf w c (.mk e.id rs os)).isSome

/-- cmd/routedns/main.go:204-209: the bootstrap resolver comes first -/
def bootOk {H : Type} (w : World H) (c : Cfg) : Bool := match c.bootstrap with
  | none => true
  | some r => (resolver w.res r).isSome

/-- cmd/routedns/main.go:199-441 `start`, up to the point where listeners are started: what each listener gets -/
def start {H : Type} (w : World H) (o : Config.Orders) (c : Cfg) : Option (List (Option (Tree H))) :=
  if bootOk w c then (Config.start (ctor w c) o (wiring w c)).map fun x => x.2.map fun l => l.bind (treeOf w c) else none

end Verif.Assemble
