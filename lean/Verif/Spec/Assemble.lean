import Verif.Model.Assemble
/-
C79 in words: what each section of a configuration stands for. None of the functions of the model that take a section apart is used, only its types, the elements (`Composition.Tree`) and
the library (`Env`).
-/
namespace Verif.Spec.Assemble
open Verif Verif.Composition Verif.Assemble

/-! ### Lists -/

/-- The names of the formats; without a name names are regular expressions and addresses are networks. -/
inductive NamesFormat : Str → NameFormat → Prop
  | default : NamesFormat [] .regexp
  | regexp : NamesFormat (str "regexp") .regexp
  | domain : NamesFormat (str "domain") .domain
  | domainSubdomain : NamesFormat (str "domain-subdomain") .domainSubdomain
  | hosts : NamesFormat (str "hosts") .hosts
  | mac : NamesFormat (str "mac") .mac

inductive IpsFormat : Str → IpFormat → Prop
  | default : IpsFormat [] .cidr
  | cidr : IpsFormat (str "cidr") .cidr
  | location : IpsFormat (str "location") .location
  | asn : IpsFormat (str "asn") .asn

/-- Where rules come from: those in the configuration if there are any, else a server or a file. -/
inductive From (scheme : Str) (l : ListCfg) (rules : List Str) : Loader → Prop
  | inline : rules ≠ [] → From scheme l rules (.static rules)
  | server : rules = [] → scheme = str "http" ∨ scheme = str "https" → From scheme l rules (.http l.source l.cacheDir l.allowFailure)
  | file : rules = [] → scheme = [] → From scheme l rules (.file l.source l.allowFailure)

/-- The list goes by its name, or by where it comes from. -/
def Called (l : ListCfg) (n : Str) : Prop := (l.name ≠ [] → n = l.name) ∧ (l.name = [] → n = l.source)

structure NamesRead {H : Type} (env : Env H) (l : ListCfg) (rules : List Str) (d : NameList) : Prop where
  source : ∃ s, env.scheme l.source = some s ∧ From s l rules d.loader
  format : NamesFormat l.format d.format
  called : Called l d.name
  loads : env.loadNames d = true

structure IpsRead {H : Type} (env : Env H) (l : ListCfg) (db : Str) (rules : List Str) (d : IpList) : Prop where
  source : ∃ s, env.scheme l.source = some s ∧ From s l rules d.loader
  format : IpsFormat l.format d.format
  called : Called l d.name
  db : d.locationDB = db
  loads : env.loadIps d = true

/-- Two lists of the same length whose entries go together -/
inductive Each {α β : Type} (R : α → β → Prop) : List α → List β → Prop
  | nil : Each R [] []
  | cons {a b as bs} : R a b → Each R as bs → Each R (a :: as) (b :: bs)

/-- Either rules in the configuration, which make one list, or sources, which make one each. -/
inductive NameLists {H : Type} (env : Env H) (inline : ListCfg) (rules : List Str) (sources : List ListCfg) : List NameList → Prop
  | rules {d} : rules ≠ [] → sources = [] → NamesRead env inline rules d → NameLists env inline rules sources [d]
  | sources {ds} : rules = [] → Each (fun s d => NamesRead env s [] d) sources ds → NameLists env inline rules sources ds

inductive IpLists {H : Type} (env : Env H) (inline : ListCfg) (db : Str) (rules : List Str) (sources : List ListCfg) : List IpList → Prop
  | rules {d} : rules ≠ [] → sources = [] → IpsRead env inline db rules d → IpLists env inline db rules sources [d]
  | sources {ds} : rules = [] → Each (fun s d => IpsRead env s db [] d) sources ds → IpLists env inline db rules sources ds

/-- Several lists: the first that has something to say counts. -/
def Several {δ α β : Type} (may : δ → (α → Option β) → Prop) (ds : List δ) (db : α → Option β) : Prop :=
  ∃ dbs : List (α → Option β), Each may ds dbs ∧ ∀ x, db x = dbs.findSome? fun f => f x

/-! ### Groups -/

/-- The members in the order given -/
def nth {H : Type} (gr : List (Tree H)) : Nat → Tree H := fun i => match gr[i]? with
  | some t => t
  | none => .drop

/-- `servfail-error` and `empty-error` (C77) -/
def Counts (g : Group) : Res → Bool := Verif.Group.succeeded g.servfailError g.emptyError

/-- No code and no text: no extended error -/
inductive Ede {H : Type} (env : Env H) (code : Nat) (text : Str) : Option Blocklist.Ede → Prop
  | no : code = 0 → text = [] → Ede env code text none
  | yes {t} : code ≠ 0 ∨ text ≠ [] → env.template text = some t → Ede env code text (some { infoCode := code, text := t })

/-- The options of a blocklist; `a` is `none` for the old type, which has no allowlist. What a single list may say is `nameListMay` (C28, C29, C31, C32). -/
structure BlocklistIs {H : Type} (env : Env H) (b : List NameList) (a : Option (List NameList)) (e : Option Blocklist.Ede) (allow block : Option (Tree H)) (opt : Blocklist.Options) : Prop where
  blockDB : Several (nameListMay env) b opt.blockDB
  noAllow : a = none → opt.allowDB = none
  allowDB : ∀ ds, a = some ds → ∃ db, opt.allowDB = some db ∧ Several (nameListMay env) ds db
  ede : opt.ede = e
  allow : opt.hasAllowResolver = true ↔ allow ≠ none
  block : opt.hasBlockResolver = true ↔ block ≠ none

structure ResponseIpIs {H : Type} (env : Env H) (g : Group) (b : List IpList) (e : Option Blocklist.Ede) (block : Option (Tree H)) (opt : Blocklist.IpOptions) : Prop where
  db : Several (ipListMay env) b opt.db
  filter : opt.filter = g.filter
  inverted : opt.inverted = g.inverted
  ede : opt.ede = e
  block : opt.hasBlockResolver = true ↔ block ≠ none

structure ResponseNameIs {H : Type} (env : Env H) (g : Group) (b : List NameList) (block : Option (Tree H)) (opt : Blocklist.NameOptions) : Prop where
  db : Several (nameListMay env) b opt.db
  inverted : opt.inverted = g.inverted
  ede : opt.ede = none
  block : opt.hasBlockResolver = true ↔ block ≠ none

structure ClientIs {H : Type} (env : Env H) (g : Group) (b : List IpList) (block : Option (Tree H)) (useECS hasBlock : Bool) (db : Str → Option Lists.Match) : Prop where
  db : Several (ipListMay env) b db
  useECS : useECS = g.useECS
  block : hasBlock = true ↔ block ≠ none

inductive TtlSelect (draw : Nat) : Str → Elements.Select → Prop
  | default : TtlSelect draw [] .none
  | lowest : TtlSelect draw (str "lowest") .lowest
  | highest : TtlSelect draw (str "highest") .highest
  | average : TtlSelect draw (str "average") .average
  | first : TtlSelect draw (str "first") .first
  | last : TtlSelect draw (str "last") .last
  | random : TtlSelect draw (str "random") (.random draw)

inductive EcsOp (g : Group) : Modifier → Prop
  | none : g.ecsOp = [] → EcsOp g .keep
  | add : g.ecsOp = str "add" → EcsOp g (.ecsAdd g.ecsAddress g.ecsPrefix4 g.ecsPrefix6)
  | addIfMissing : g.ecsOp = str "add-if-missing" → EcsOp g (.ecsAddIfMissing g.ecsAddress g.ecsPrefix4 g.ecsPrefix6)
  | delete : g.ecsOp = str "delete" → EcsOp g .ecsDelete
  | privacy : g.ecsOp = str "privacy" → EcsOp g (.ecsPrivacy g.ecsPrefix4 g.ecsPrefix6)

inductive Edns0Op (g : Group) : Modifier → Prop
  | none : g.edns0Op = [] → Edns0Op g .keep
  | add : g.edns0Op = str "add" → Edns0Op g (.edns0Add g.edns0Code g.edns0Data)
  | delete : g.edns0Op = str "delete" → Edns0Op g (.edns0Delete g.edns0Code)

def priorities : List Str :=
  [[], str "emergency", str "alert", str "critical", str "error", str "warning", str "notice", str "info", str "debug"]

inductive Shuffled {H : Type} (env : Env H) : Str → Option (Msg → Msg) → Prop
  | default : Shuffled env [] none
  | random : Shuffled env (str "random") (some env.shuffleRandom)
  | roundRobin : Shuffled env (str "round-robin") (some env.shuffleRoundRobin)

/-- Every key is a number, and the limit for a code is that of the last key with this number. -/
structure Codes (l : List (Str × Nat)) (m : Nat → Option Nat) : Prop where
  numbers : ∀ x ∈ l, Route.atoi x.1 ≠ none
  limit : ∀ n : Nat, m n = (l.reverse.find? fun x => Route.atoi x.1 = some (n : Int)).map (·.2)

/-- The options of the cache; negative answers are kept for a minute unless another time is given. -/
structure CacheIs (g : Group) (codes : Nat → Option Nat) (sh : Option (Msg → Msg)) (o : CacheM.Opts) : Prop where
  negative : o.negativeTTL = if g.cacheNegativeTTL = 0 then 60 else g.cacheNegativeTTL
  codes : o.rcodeMaxTTL = codes
  trigger : o.prefetchTrigger = g.prefetchTrigger
  eligible : o.prefetchEligible = g.prefetchEligible
  flush : o.flushQuery = g.cacheFlushQuery
  harden : o.harden = g.cacheHarden
  shuffle : o.shuffle = sh

/-- The size of a cache in memory: that of the backend if there is one -/
def MemorySize (g : Group) (n : Int) : Prop := (g.backend = none ∧ n = g.cacheSize) ∨ ∃ b, g.backend = some b ∧ b.type = str "memory" ∧ n = b.size

/-- The records of a static responder: one for each text -/
def Records {H : Type} (env : Env H) (texts : List Str) (rrs : List (Option RR)) : Prop := Each (fun s rr => env.newRR s = some rr) texts rrs

def Templates {H : Type} (env : Env H) (texts : List Str) (ts : List (Blocklist.TemplateInput → Option Str)) : Prop := Each (fun s t => env.template s = some t) texts ts

/-- What a group with members `gr` and optional elements `o` stands for; there is nothing for a section that is in error. -/
inductive Means {H : Type} (env : Env H) (num : Nat) (id : Str) (g : Group) (gr : List (Tree H)) (o : Opts H) : Built H → Prop
  | roundRobin : g.type = str "round-robin" → Means env num id g gr o { tree := .roundRobin gr.length (nth gr) }
  | failRotate : g.type = str "fail-rotate" → Means env num id g gr o { tree := .failRotate gr.length (Counts g) (nth gr) }
  | failBackEach : g.type = str "fail-back" → g.resetAfter = some 0 → Means env num id g gr o { tree := .failBackEach gr.length (Counts g) (nth gr) }
  | failBack : g.type = str "fail-back" → g.resetAfter ≠ some 0 → Means env num id g gr o { tree := .failBack gr.length (Counts g) (nth gr) }
  | fastest : g.type = str "fastest" → Means env num id g gr o { tree := .fastest gr.length (nth gr) }
  | loadBalance : g.type = str "load-balance" → Means env num id g gr o { tree := .loadBalance gr.length (Counts g) (nth gr) }
  | random : g.type = str "random" → Means env num id g gr o { tree := .random gr.length (Counts g) (nth gr) }
  | blocklist {t d} : g.type = str "blocklist" → gr = [t] → g.blocklist = [] ∨ g.source = [] → NamesRead env { name := id, format := g.format, source := g.source } g.blocklist d →
      Means env num id g gr o { tree := .blocklist (BlocklistIs env [d] none none (none : Option (Tree H)) none) t t .drop, block := [d] }
  /-- an allowlist in the configuration has the format of the blocklist -/
  | blocklistV2 {t b a e} : g.type = str "blocklist-v2" → gr = [t] → NameLists env { name := id, format := g.blocklistFormat } g.blocklist g.blocklistSource b →
      NameLists env { format := g.blocklistFormat } g.allowlist g.allowlistSource a → Ede env g.edeCode g.edeText e →
      Means env num id g gr o { tree := .blocklist (BlocklistIs env b (some a) e o.allow o.block) t (o.allow.getD t) (o.block.getD .drop), block := b, allow := a }
  | replace {t exps} : g.type = str "replace" → gr = [t] → Each (fun x f => env.replaceAll x.1 x.2 = some f) g.replace exps →
      Means env num id g gr o { tree := .replace exps t }
  | ttlModifier {t s} : g.type = str "ttl-modifier" → gr = [t] → TtlSelect env.draw g.ttlSelect s →
      Means env num id g gr o { tree := .ttl { select := s, minTTL := g.ttlMin, maxTTL := if g.ttlMax = 0 then 4294967295 else g.ttlMax } t }
  | truncateRetry {t u} : g.type = str "truncate-retry" → gr = [t] → o.retry = some u → Means env num id g gr o { tree := .truncateRetry t u }
  | requestDedup {t} : g.type = str "request-dedup" → gr = [t] → Means env num id g gr o { tree := .dedup t }
  | fastestTcp {t} : g.type = str "fastest-tcp" → gr = [t] → Means env num id g gr o { tree := .fastestTcp g.waitAll g.successTTLMin t }
  | ecsModifier {t m} : g.type = str "ecs-modifier" → gr = [t] → EcsOp g m → Means env num id g gr o { tree := .modify m t }
  | edns0Modifier {t m} : g.type = str "edns0-modifier" → gr = [t] → Edns0Op g m → Means env num id g gr o { tree := .modify m t }
  | syslog {t} : g.type = str "syslog" → gr = [t] → g.priority ∈ priorities →
      Means env num id g gr o { tree := .syslog { logRequest := g.logRequest, logResponse := g.logResponse, verbose := g.verbose } t }
  | cache {t sh codes opt n} : g.type = str "cache" → gr = [t] → Shuffled env g.cacheAnswerShuffle sh → Codes g.cacheRcodeMaxTTL codes → CacheIs g codes sh opt → MemorySize g n →
      Means env num id g gr o { tree := .cache env.cache opt n t }
  /-- not modelled further -/
  | redis {t sh codes b} : g.type = str "cache" → gr = [t] → Shuffled env g.cacheAnswerShuffle sh → Codes g.cacheRcodeMaxTTL codes → g.backend = some b → b.type = str "redis" →
      Means env num id g gr o { tree := .client num }
  | prefetch {t} : g.type = str "prefetch" → gr = [t] → Means env num id g gr o { tree := .prefetch t }
  | responseIp {t b e} : g.type = str "response-blocklist-ip" ∨ g.type = str "response-blocklist-cidr" → gr = [t] →
      IpLists env { name := id, format := g.blocklistFormat } g.locationDB g.blocklist g.blocklistSource b → Ede env g.edeCode g.edeText e →
      Means env num id g gr o { tree := .responseIp (ResponseIpIs env g b e o.block) t (o.block.getD .drop), blockIps := b }
  | responseName {t b} : g.type = str "response-blocklist-name" → gr = [t] → NameLists env { format := g.blocklistFormat } g.blocklist g.blocklistSource b →
      Means env num id g gr o { tree := .responseName (ResponseNameIs env g b o.block) t (o.block.getD .drop), block := b }
  | clientBlocklist {t b} : g.type = str "client-blocklist" → gr = [t] → IpLists env { name := id, format := g.blocklistFormat } g.locationDB g.blocklist g.blocklistSource b →
      Means env num id g gr o { tree := .clientBlocklist (ClientIs env g b o.block) t (o.block.getD .drop), blockIps := b }
  | staticResponder {e a n x} : g.type = str "static-responder" → Ede env g.edeCode g.edeText e → Records env g.answer a → Records env g.ns n → Records env g.extra x →
      Means env num id g gr o { tree := .static { answer := a, ns := n, extra := x, rcode := g.rcode, truncate := g.truncate, ede := e } }
  | staticTemplate {e a n x} : g.type = str "static-template" → Ede env g.edeCode g.edeText e → Templates env g.answer a → Templates env g.ns n → Templates env g.extra x →
      Means env num id g gr o { tree := .template env.newRR { answer := a, ns := n, extra := x, rcode := g.rcode, truncate := g.truncate, ede := e } }
  | minimize {t} : g.type = str "response-minimize" → gr = [t] → Means env num id g gr o { tree := .minimize t }
  | collapse {t} : g.type = str "response-collapse" → gr = [t] → Means env num id g gr o { tree := .collapse g.nullRCode t }
  | drop : g.type = str "drop" → Means env num id g gr o { tree := .drop }
  | rateLimiter {t l} : g.type = str "rate-limiter" → gr = [t] → o.limit = some l → Means env num id g gr o { tree := .rateLimit true t l }
  | rateLimiterDrop {t} : g.type = str "rate-limiter" → gr = [t] → o.limit = none → Means env num id g gr o { tree := .rateLimit false t .drop }
  | queryLog {t} : g.type = str "query-log" → gr = [t] → g.outputFile = [] ∨ env.openLog g.outputFile = true → g.outputFormat ∈ [[], str "text", str "json"] →
      Means env num id g gr o { tree := .queryLog t }
  /-- not modelled further; a script in a file comes before one in the configuration -/
  | lua {s} : g.type = str "lua" → (g.luaScriptSource = [] ∧ s = g.luaScript ∨ g.luaScriptSource ≠ [] ∧ env.readFile g.luaScriptSource = some s) → s ≠ [] → env.script s = true →
      Means env num id g gr o { tree := .client num }
  | dnssec {t} : g.type = str "dnssec-validator" → gr = [t] → Means env num id g gr o { tree := .dnssec g.dnssecLogOnly t }
  | dns64 {t ps} : g.type = str "dns64" → gr = [t] → Dns64.parsePrefixes env.parseCIDR (if g.dns64Prefix = [] then [str "64:ff9b::/96"] else g.dns64Prefix) = some ps →
      Means env num id g gr o { tree := .dns64 ps t }

/-! ### Resolvers and listeners -/

/-- How a server is reached; `none` is the oblivious client. -/
inductive Reached (env : ResolverEnv) (r : Resolver) : Option Upstream → Prop
  | udp : r.protocol = str "udp" → Reached env r (some (.plain r.udpSize))
  | tcp : r.protocol = str "tcp" → Reached env r (some (.plain r.udpSize))
  | dot : r.protocol = str "dot" → Reached env r (some (.encrypted 0))
  | dtls : r.protocol = str "dtls" → Reached env r (some (.encrypted r.udpSize))
  | doq : r.protocol = str "doq" → Reached env r (some .quic)
  | doh {t o} : r.protocol = str "doh" →
      Clients.newDoHClient (env.transportOk r) (env.template r) { method := r.method, transport := r.transport, use0RTT := r.use0RTT, idleTimeout := r.idleTimeout } = some (t, o) →
      Reached env r (some (.https t o))
  | odoh : r.protocol = str "odoh" → Reached env r none

/-- What a resolver stands for -/
structure ResolverMeans (env : ResolverEnv) (r : Resolver) (u : Option Upstream) : Prop where
  netns : r.netns = [] ∨ r.xsocket = []
  ok : env.ok r = true
  reached : Reached env r u

/-- A listener that can be set up -/
structure Acceptable (env : ListenerEnv) (l : Listener) : Prop where
  nets : ∀ s ∈ l.allowedNet, env.parseCIDR s ≠ none
  version : l.ipVersion ∈ [0, 4, 6]
  /-- namespace and socket server exclude each other -/
  netns : l.netns = [] ∨ l.xsocket = []
  protocol : l.protocol ∈ [str "udp", str "tcp", str "dot", str "dtls", str "doq", str "doh", str "odoh", str "admin"]
  tls : l.protocol ∈ [str "dot", str "dtls", str "doq", str "odoh", str "admin"] ∨ l.protocol = str "doh" ∧ l.noTLS = false → env.tls l = true
  /-- HTTP/3 needs TLS -/
  noTLS : l.protocol = str "doh" → l.noTLS = true → l.transport ≠ str "quic"
  proxy : l.protocol = str "doh" → l.trustedProxy = [] ∨ env.parseCIDR l.trustedProxy ≠ none
  /-- unless the listener waits for a namespace, in which case this is only seen later -/
  transport : l.protocol = str "doh" ∨ l.protocol = str "admin" → (l.netns ≠ [] ∧ l.netns.head? ≠ some 47) ∨ l.transport ∈ [[], str "tcp", str "quic"]
  odoh : l.protocol = str "odoh" → (l.netns ≠ [] ∧ l.netns.head? ≠ some 47) ∨ env.odoh l = true

/-! ### The whole -/

/-- The element with an id, as the configuration describes it. Ids stand for what their sections say, with the ids in them standing for what their sections say, and so on. -/
inductive Denotes {H : Type} (w : World H) (c : Cfg) : Str → Tree H → Prop
  | resolver {id r u} : (id, r) ∈ c.resolvers → ResolverMeans w.res r u → Denotes w c id (.client (number c id))
  | group {id g gr o b} : (id, g) ∈ c.groups → gr.length = g.resolvers.length → (∀ (i : Nat) (x : Str) (t : Tree H), g.resolvers[i]? = some x → gr[i]? = some t → Denotes w c x t) →
      (o.allow = none ↔ g.allowListResolver = []) → (∀ t, o.allow = some t → Denotes w c g.allowListResolver t) →
      (o.block = none ↔ g.blockListResolver = []) → (∀ t, o.block = some t → Denotes w c g.blockListResolver t) →
      (o.limit = none ↔ g.limitResolver = []) → (∀ t, o.limit = some t → Denotes w c g.limitResolver t) →
      (o.retry = none ↔ g.retryResolver = []) → (∀ t, o.retry = some t → Denotes w c g.retryResolver t) →
      Means w.env (number c id) id g gr o b → Denotes w c id b.tree
  | router {id rs gr routes} : (id, rs) ∈ c.routers → gr.length = rs.length → (∀ (i : Nat) (x : RouteCfg) (t : Tree H), rs[i]? = some x → gr[i]? = some t → Denotes w c x.resolver t) →
      Each (fun r x => Route.newRoute w.env.types w.env.compile w.env.parseCIDR (if r.type = [] then r.route else { r.route with types := r.route.types ++ [r.type] }) = some x) rs routes →
      Denotes w c id (.router routes (nth gr))
  | bootstrap {r u} : c.bootstrap = some r → (∀ x, (Config.bootId, x) ∉ c.resolvers) → (∀ x, (Config.bootId, x) ∉ c.groups) → (∀ x, (Config.bootId, x) ∉ c.routers) →
      ResolverMeans w.res r u → Denotes w c Config.bootId (.client (number c Config.bootId))

/-- A configuration without the mistakes that make the program crash when a query comes in: round-robin groups without members, static records that are blank, and adding EDNS0 padding
by hand. The last two fields say that numbers fit their types. -/
structure Careful {H : Type} (env : Env H) (g : Group) : Prop where
  members : g.type = str "round-robin" → g.resolvers ≠ []
  records : g.type = str "static-responder" → ∀ s ∈ g.answer ++ g.ns ++ g.extra, env.newRR s ≠ some none
  templates : g.type = str "static-template" → ∀ s ∈ g.answer ++ g.ns ++ g.extra, ∀ t, env.template s = some t → ∀ i text, t i = some text → env.newRR text ≠ some none
  padding : g.type = str "edns0-modifier" → g.edns0Op = str "add" → g.edns0Code ≠ 12
  negative : g.cacheNegativeTTL ≤ 4294967295

/-- The library: addresses have a text, and shuffling leaves ID and question alone (C11). -/
structure Library {H : Type} (env : Env H) : Prop where
  text : ∀ a, env.cache.ipStr a ≠ []
  random : ∀ a, (env.shuffleRandom a).id = a.id ∧ (env.shuffleRandom a).question = a.question
  roundRobin : ∀ a, (env.shuffleRoundRobin a).id = a.id ∧ (env.shuffleRoundRobin a).question = a.question

end Verif.Spec.Assemble
