import Verif.Model.Asks
/-
Messages in memory: whole configurations (`Composition.Tree`) run by goroutines that share messages. Elements get a pointer to the query and hand out a pointer to the
reply; some copy the query before they change it, some change the reply in place, and some replies share the question with the query. C76, C79 and C85 speak of values;
this is what that stands on.

Simplified: a message is two objects, its question section and all the rest (no element shares records or options between messages that both live on, except for copies of
the static responder, C43). `q = q.Copy()` together with the changes that follow it at once is one step. Errors and dropped queries are both "no message". What depends on
time, chance or stored answers is any choice (`pick`). A caller of de-duplication may wait for any request that an element of the same description has begun (C23 says for which
it does). Not included: scripts, which may change anything.
-/
namespace Verif.Shared
open Verif Verif.Composition

/-- A pointer to a message: where its question section is, and where the rest. A `*dns.Msg`, as handed on by replace.go:56-95, cache.go:204-285, request-dedup.go:51-139 and the other `Resolve` methods. -/
structure Ptr where
  body : Nat
  arr : Nat
deriving DecidableEq, Repr

/-- Objects by address. An object that holds a question section uses that field only, an object that holds the rest all others. The messages of replace.go:56-95, cache.go:204-285, request-dedup.go:51-139 and the other `Resolve` methods. -/
abbrev Heap := List Msg

/-- The message a pointer points to. A `*dns.Msg` of replace.go:56-95, cache.go:204-285, request-dedup.go:51-139 and the other `Resolve` methods. -/
def value (h : Heap) (p : Ptr) : Msg := { (h[p.body]?.getD {}) with question := (h[p.arr]?.getD {}).question }

/-- What goroutines do with messages. The statements of replace.go:56-95, cache.go:204-285, request-dedup.go:51-139 and the other `Resolve` methods that touch messages. -/
inductive Prog (H : Type) : Type 1 where
  /-- return from `Resolve` -/
  | ret (r : Option Ptr)
  /-- a panic; the program ends -/
  | stop
  /-- call `Resolve` of another element -/
  | call (t : Tree H) (m : Ptr) (ci : ClientInfo) (k : Option Ptr → Prog H)
  /-- a client copies the query (dnsclient.go:80, dotclient.go:85, dtlsclient.go:114, doqclient.go:158, dohclient.go:182), sends it and unpacks a response, if any -/
  | ask (i : Nat) (m : Ptr) (ci : ClientInfo) (k : Option Ptr → Prog H)
  | read (m : Ptr) (k : Msg → Prog H)
  /-- `m.Copy()`, changed by `f`, as a query of our own -/
  | copy (m : Ptr) (f : Msg → Msg) (k : Ptr → Prog H)
  /-- a new message -/
  | new (v : Msg) (k : Ptr → Prog H)
  /-- a new message `v` whose question section is that of `m`: `a.Question = m.Question` -/
  | answer (m : Ptr) (v : Msg) (k : Ptr → Prog H)
  /-- change a message in place, except for the question -/
  | upd (a : Ptr) (f : Msg → Msg) (k : Prog H)
  /-- `a.Question[0].Name = n`, if there is one -/
  | setName (a : Ptr) (n : Str) (k : Prog H)
  | pick (α : Type) (k : α → Prog H)
  /-- start a goroutine that shares the message `m` -/
  | goShare (m : Ptr) (p : Ptr → Prog H) (k : Prog H)
  /-- start a goroutine with a copy of `m` that nobody else has -/
  | goCopy (m : Ptr) (f : Msg → Msg) (p : Ptr → Prog H) (k : Prog H)
  /-- make a channel with enough room -/
  | chan (k : Nat → Prog H)
  | send (c : Nat) (r : Option Ptr) (k : Prog H)
  | recv (c : Nat) (k : Option Ptr → Prog H)
  /-- request-dedup.go:90-98: wait for a request that an element like `t` has begun, or begin one -/
  | enter (t : Tree H) (old : Option Ptr → Prog H) (new : Nat → Prog H)
  /-- `<-req.done`, then `req.answer` -/
  | wait (f : Nat) (k : Option Ptr → Prog H)
  /-- `req.answer = a` and `close(req.done)` -/
  | land (f : Nat) (r : Option Ptr) (k : Prog H)

variable {H : Type}

/-- `if err != nil || a == nil { return a, err }`. For example ttl-modifier.go:50-54. -/
def onSome (k : Ptr → Prog H) : Option Ptr → Prog H
  | none => .ret none
  | some a => k a

/-- Return a reply after a change in place. For example ttl-modifier.go:49-76. -/
def edit (f : Msg → Msg) (a : Ptr) : Prog H := .upd a f (.ret (some a))

/-- Return a new message, if any. For example blocklist.go:90-190. -/
def give : Option Msg → Prog H
  | none => .ret none
  | some v => .new v fun a => .ret (some a)

/-- Return `a`, changed in place, or a new message. For example response-blocklist-ip.go:116-165. -/
def keepOrGive (a : Ptr) (x : Option Msg) : Prog H := .pick Bool fun keep => if keep then edit (fun v => x.getD v) a else give x

/-- failrotate.go:57-70, failback.go:65-88, random.go:50-70: members are asked with the query of the group itself, one after the other, `n` at most -/
def tryMembers (member : Nat → Tree H) (q : Ptr) (ci : ClientInfo) : Nat → Option Ptr → Prog H
  | 0, last => .ret last
  | n + 1, _ => .pick Nat fun i => .call (member i) q ci fun r => .pick Bool fun good => if good then .ret r else tryMembers member q ci n r

/-- loadbalance.go:121-152: each member is asked with a copy -/
def tryCopies (member : Nat → Tree H) (q : Ptr) (ci : ClientInfo) : Nat → Option Ptr → Prog H
  | 0, last => .ret last
  | n + 1, _ => .pick Nat fun i => .copy q id fun m => .call (member i) m ci fun r => .pick Bool fun good => if good then .ret r else tryCopies member q ci n r

/-- fastest.go:42-45: what a goroutine does for one member; it makes the copy -/
def racer (t : Tree H) (ci : ClientInfo) (c : Nat) (q : Ptr) : Prog H := .copy q id fun m => .call t m ci fun r => .send c r (.ret none)

/-- fastest.go:41-46: one goroutine for each member -/
def startAll (member : Nat → Tree H) (q : Ptr) (ci : ClientInfo) (c : Nat) (k : Prog H) : Nat → Prog H
  | 0 => k
  | n + 1 => .goShare q (racer (member n) ci c) (startAll member q ci c k n)

/-- fastest.go:51-66: take replies until one is good, or all are there. Without members it waits all the same. -/
def collect (c : Nat) : Nat → Prog H
  | 0 => .recv c .ret
  | n + 1 => .recv c fun r => .pick Bool fun good => if good then .ret r else if n = 0 then .ret r else collect c n

/-- dnssec.go:67-68 and dnssec/validator.go: any number of look-ups, each a new query -/
def lookups (t : Tree H) (q : Ptr) (k : Prog H) : Nat → Prog H
  | 0 => k
  | n + 1 => .pick { v : Msg // Asks.Lookup v } fun v => .copy q (fun _ => v.1) fun m => .call t m {} fun _ => lookups t q k n

/-- replace.go:71 -/
def renamed (n : Str) (v : Msg) : Msg := match v.question with
  | [] => v
  | qu :: rest => { v with question := { qu with name := n } :: rest }

/-- replace.go:87-91 -/
def restored (newName oldName : Str) (v : Msg) : Msg := { v with answer := v.answer.map fun r => if r.name = newName then { r with name := oldName } else r }

/-- blocklist.go and client-blocklist.go: reply, or pass the query on -/
def act (t allow block : Tree H) (q : Ptr) (ci : ClientInfo) : Blocklist.Act → Prog H
  | .done r => give r.msg
  | .forward target _ => .call (branch t allow block target) q ci .ret

/-- response-blocklist-ip.go:112-163, response-blocklist-name.go:90-135: the reply `a`, perhaps changed in place, a new one, or the block resolver -/
def actReply (t block : Tree H) (q a : Ptr) (ci : ClientInfo) : Blocklist.Act → Prog H
  | .done r => keepOrGive a r.msg
  | .forward target _ => .call (branch t t block target) q ci .ret

/-- Go on with a value, or panic. As on a query without question, for example replace.go:56-60. -/
def orStop {α : Type} (k : α → Prog H) : Option α → Prog H
  | none => .stop
  | some x => k x

/-- router.go:39-53 -/
def routeTo (member : Nat → Tree H) (q : Ptr) (ci : ClientInfo) : Option Nat → Prog H
  | none => .ret none
  | some i => .call (member i) q ci .ret

/-- replace.go:57-95. The name is put back in the reply, in place. -/
def replaceWith (exps : List (Str → Str)) (t : Tree H) (q : Ptr) (ci : ClientInfo) (qu : Question) : Prog H :=
  if Static.apply exps qu.name = qu.name then .call t q ci .ret
  else .copy q (renamed (Static.apply exps qu.name)) fun n => .call t n ci (onSome fun a =>
    .setName a qu.name (edit (restored (Static.apply exps qu.name) qu.name) a))

/-- lru-cache.go, cache.go:125: a stored answer gets the question of the query; 232-255: perhaps with a refresh -/
def serveStored (t : Tree H) (q : Ptr) (ci : ClientInfo) (v : Msg) (refresh : Bool) : Prog H := .answer q v fun a =>
  if refresh then .goCopy q id (fun m => .call t m ci fun _ => .ret none) (.ret (some a)) else .ret (some a)

/-- cache.go:212-283: gives a stored answer, makes up an answer (219, 311), or asks with a copy (270) -/
def cached (t : Tree H) (q : Ptr) (ci : ClientInfo) : Option Msg → Option Bool → Prog H
  | some v, some refresh => serveStored t q ci v refresh
  | some v, none => give (some v)
  | none, _ => .copy q id fun m => .call t m ci .ret

/-- request-dedup.go:107-115 and 132-139: both the caller that asked and those that waited return a copy, with the ID and the question of their own query -/
def handOut (q : Ptr) : Option Ptr → Prog H := onSome fun a => .read a fun v => .read q fun w => .answer q { v with id := w.id } fun b => .ret (some b)

/-- prefetch.go:86-90: a stored query is asked again -/
def askAgain (t : Tree H) (q : Ptr) (r : Option Ptr) : Option Msg → Prog H
  | none => .ret r
  | some v => .goCopy q (fun _ => v) (fun m => .call t m { listener := str "prefetch" } fun _ => .ret none) (.ret r)

/-- ecs-modifier.go:28-43, edns0-modifier.go:26-41: no copy without an operation -/
def modify (m : Modifier) (t : Tree H) (q : Ptr) (ci : ClientInfo) : Prog H := match m with
  | .keep => .call t q ci .ret
  | m => .copy q (fun v => m.apply v ci) fun n => .call t n ci .ret

/-- rate-limiter.go:103-115 -/
def limited (t l : Tree H) (q : Ptr) (ci : ClientInfo) : Rate.Dest → Prog H
  | .resolver => .call t q ci .ret
  | .limitResolver => .call l q ci .ret
  | .dropped => .ret none

/-- The `Resolve` of each element. The lines are given at the parts it is made of (replace.go:56-95 and so on). -/
def code : Tree H → Ptr → ClientInfo → Prog H
  | .client i, q, ci => .ask i q ci .ret
  -- ttl-modifier.go:49-78: changes the reply in place
  | .ttl o t, q, ci => .call t q ci (onSome (edit fun v => (Elements.ttlResolve o (.ok v)).msg.getD v))
  -- truncate-retry.go:34-46
  | .truncateRetry t u, q, ci => .call t q ci (onSome fun a => .read a fun v => if v.tc then .call u q ci .ret else .ret (some a))
  -- response-collapse.go:27-57: changes the reply in place, or makes a new one
  | .collapse n t, q, ci => .call t q ci (onSome fun a => .read a fun v => .read q fun w => orStop (fun x => keepOrGive a x.msg) (Elements.collapse n w (.ok v)))
  -- response-minimize.go:23-33
  | .minimize t, q, ci => .call t q ci (onSome (edit fun v => (Elements.minimize (.ok v)).msg.getD v))
  | .drop, _, _ => .ret none
  | .modify m t, q, ci => modify m t q ci
  -- blocklist.go:90-190
  | .blocklist L t a b, q, ci => .pick { o // L o } fun o => .read q fun v => orStop (act t a b q ci) (Blocklist.resolve o.1 v)
  -- client-blocklist.go:58-103
  | .clientBlocklist L t b, q, ci => .pick { o : Bool × Bool × (Str → Option Lists.Match) // L o.1 o.2.1 o.2.2 } fun o => .read q fun v =>
    act t t b q ci (Blocklist.resolveClient o.1.1 o.1.2.1 o.1.2.2 v ci)
  -- response-blocklist-ip.go:67-79
  | .responseIp L t b, q, ci => .call t q ci (onSome fun a => .pick { o // L o } fun o => .read a fun v => .read q fun w =>
    actReply t b q a ci (Blocklist.resolveIp o.1 (.ok v) w))
  -- response-blocklist-name.go:52-58
  | .responseName L t b, q, ci => .call t q ci (onSome fun a => .pick { o // L o } fun o => .read a fun v => .read q fun w =>
    actReply t b q a ci (Blocklist.resolveName o.1 (.ok v) w))
  -- rate-limiter.go:64-116
  | .rateLimit hasLimit t l, q, ci => .pick Bool fun rejected => limited t l q ci (Rate.dest hasLimit rejected)
  -- static.go:57-95, static-template.go:50-110: a new message with copies of the records
  | .static s, q, _ => .read q fun v => orStop (fun x => give x.msg) (Static.resolve s v)
  | .template newRR s, q, _ => .read q fun v => orStop (fun x => give x.msg) (Static.resolveTemplate newRR s v)
  -- replace.go:56-95
  | .replace exps t, q, ci => .read q fun v => orStop (replaceWith exps t q ci) v.question.head?
  -- syslog.go, query-log.go
  | .syslog _ t, q, ci => .call t q ci .ret
  | .queryLog t, q, ci => .call t q ci .ret
  -- dns64.go:71-146
  | .dns64 _ t, q, ci => .call t q ci (onSome fun a => .pick Bool fun again =>
    if again then .copy q Dns64.aQuery fun n => .call t n ci fun _ => .pick (Option Msg) fun x => if x.isSome then give x else .ret (some a)
    else .ret (some a))
  | .failRotate n _ member, q, ci => tryMembers member q ci n none
  | .failBack n _ member, q, ci => tryMembers member q ci n none
  | .failBackEach n _ member, q, ci => tryMembers member q ci n none
  -- roundrobin.go:31-40
  | .roundRobin _ member, q, ci => .pick Nat fun i => .call (member i) q ci .ret
  | .random n _ member, q, ci => tryMembers member q ci n none
  | .loadBalance n _ member, q, ci => tryCopies member q ci n none
  -- fastest.go:28-69
  | .fastest n member, q, ci => .chan fun c => startAll member q ci c (collect c n) n
  -- fastest-tcp.go:64-123: records of the reply are rearranged in place
  | .fastestTcp _ _ t, q, ci => .call t q ci (onSome fun a => .pick (Msg → Msg) fun f => edit f a)
  -- router.go:34-53
  | .router routes member, q, ci => .pick (Nat → Route.Now) fun now => .read q fun v =>
    orStop (fun qu => routeTo member q ci (Route.routeIndex routes v qu ci now 0)) v.question.head?
  -- request-dedup.go:50-140: wait for a request that is on the way, or make it
  | .dedup t, q, ci => .enter (.dedup t) (handOut q) fun f => .call t q ci fun r => .land f r (handOut q r)
  -- cache.go:205-283: passes queries with several questions on (209)
  | .cache _ _ _ t, q, ci => .read q fun v =>
    if v.question.length > 1 then .call t q ci .ret else .pick (Option Msg) fun stored => .pick (Option Bool) fun how => cached t q ci stored how
  -- prefetch.go:120-154
  | .prefetch t, q, ci => .call t q ci fun r => .pick (Option Msg) (askAgain t q r)
  -- dnssec.go:101-152: asks with a copy, looks keys up, and changes the reply in place or makes a new one
  | .dnssec _ t, q, ci => .copy q DnssecResolver.upstreamQuery fun n => .call t n ci (onSome fun a => .pick Nat fun k =>
    lookups t q (.pick (Option Msg) fun x => .pick (Msg → Msg) fun f => if x.isSome then give x else edit f a) k)

/-- A goroutine: what it does next, and the callers it returns to. A goroutine of replace.go:56-95, cache.go:204-285, request-dedup.go:51-139 and the other `Resolve` methods. -/
structure Thread (H : Type) where
  prog : Prog H
  stack : List (Option Ptr → Prog H) := []

/-- The running program. `asked` is what went to the servers so far. replace.go:56-95, cache.go:204-285, request-dedup.go:51-139 and the other `Resolve` methods. -/
structure St (H : Type) where
  heap : Heap := []
  threads : List (Thread H) := []
  chans : List (List (Option Ptr)) := []
  /-- requests of de-duplication: which element began it, and the answer once it is there -/
  flights : List (Tree H × Option (Option Ptr)) := []
  asked : List (Nat × Msg × ClientInfo) := []

/-- Where the next message is put. A `new(dns.Msg)` or `Copy` in replace.go:56-95, cache.go:204-285, request-dedup.go:51-139 and the other `Resolve` methods. -/
def St.next (s : St H) : Ptr := ⟨s.heap.length, s.heap.length + 1⟩

/-- `goroutine i` goes on with `p`. replace.go:56-95, cache.go:204-285, request-dedup.go:51-139 and the other `Resolve` methods. -/
def St.go (s : St H) (i : Nat) (p : Prog H) (st : List (Option Ptr → Prog H)) : St H := { s with threads := s.threads.set i ⟨p, st⟩ }

/-- What goroutine `i` does next. replace.go:56-95, cache.go:204-285, request-dedup.go:51-139 and the other `Resolve` methods. -/
def St.At (s : St H) (i : Nat) (p : Prog H) (st : List (Option Ptr → Prog H)) : Prop := s.threads[i]? = some ⟨p, st⟩

/-- One step of one goroutine; they take turns in any way. replace.go:56-95, cache.go:204-285, request-dedup.go:51-139 and the other `Resolve` methods. -/
inductive Step : St H → St H → Prop
  | ret {s : St H} {i r k st} : s.At i (.ret r) (k :: st) → Step s (s.go i (k r) st)
  | call {s : St H} {i t m ci k st} : s.At i (.call t m ci k) st → Step s (s.go i (code t m ci) (k :: st))
  | askFail {s : St H} {i n m ci k st} : s.At i (.ask n m ci k) st → Step s ({ s with asked := s.asked ++ [(n, value s.heap m, ci)] }.go i (k none) st)
  | ask {s : St H} {i n m ci k st v} : s.At i (.ask n m ci k) st →
      Step s ({ s with asked := s.asked ++ [(n, value s.heap m, ci)], heap := s.heap ++ [v, v] }.go i (k (some s.next)) st)
  | read {s : St H} {i m k st} : s.At i (.read m k) st → Step s (s.go i (k (value s.heap m)) st)
  | copy {s : St H} {i m f k st} : s.At i (.copy m f k) st →
      Step s ({ s with heap := s.heap ++ [f (value s.heap m), f (value s.heap m)] }.go i (k s.next) st)
  | new {s : St H} {i v k st} : s.At i (.new v k) st → Step s ({ s with heap := s.heap ++ [v, v] }.go i (k s.next) st)
  | answer {s : St H} {i m v k st} : s.At i (.answer m v k) st → Step s ({ s with heap := s.heap ++ [v] }.go i (k ⟨s.heap.length, m.arr⟩) st)
  | upd {s : St H} {i a f k st} : s.At i (.upd a f k) st → Step s ({ s with heap := s.heap.set a.body (f (value s.heap a)) }.go i k st)
  | setName {s : St H} {i a n k st} : s.At i (.setName a n k) st → Step s ({ s with heap := s.heap.set a.arr (renamed n (value s.heap a)) }.go i k st)
  | pick {s : St H} {i α k st} (x : α) : s.At i (.pick α k) st → Step s (s.go i (k x) st)
  | goShare {s : St H} {i m p k st} : s.At i (.goShare m p k) st →
      Step s { s with threads := s.threads.set i ⟨k, st⟩ ++ [⟨p m, []⟩] }
  | goCopy {s : St H} {i m f p k st} : s.At i (.goCopy m f p k) st →
      Step s { s with heap := s.heap ++ [f (value s.heap m), f (value s.heap m)], threads := s.threads.set i ⟨k, st⟩ ++ [⟨p s.next, []⟩] }
  | chan {s : St H} {i k st} : s.At i (.chan k) st → Step s ({ s with chans := s.chans ++ [[]] }.go i (k s.chans.length) st)
  | send {s : St H} {i c r k st l} : s.At i (.send c r k) st → s.chans[c]? = some l → Step s ({ s with chans := s.chans.set c (l ++ [r]) }.go i k st)
  | recv {s : St H} {i c k st r l} : s.At i (.recv c k) st → s.chans[c]? = some (r :: l) → Step s ({ s with chans := s.chans.set c l }.go i (k r) st)
  | lead {s : St H} {i t old new st} : s.At i (.enter t old new) st → Step s ({ s with flights := s.flights ++ [(t, none)] }.go i (new s.flights.length) st)
  | join {s : St H} {i t old new st f o} : s.At i (.enter t old new) st → s.flights[f]? = some (t, o) → Step s (s.go i (.wait f old) st)
  | wait {s : St H} {i f k st t r} : s.At i (.wait f k) st → s.flights[f]? = some (t, some r) → Step s (s.go i (k r) st)
  | land {s : St H} {i f r k st t o} : s.At i (.land f r k) st → s.flights[f]? = some (t, o) → Step s ({ s with flights := s.flights.set f (t, some r) }.go i k st)

/-- Any number of steps. replace.go:56-95, cache.go:204-285, request-dedup.go:51-139 and the other `Resolve` methods, in any interleaving. -/
inductive Steps : St H → St H → Prop
  | refl {s} : Steps s s
  | step {a b c} : Steps a b → Step b c → Steps a c

/-- A query as a listener gets it, and the element it is given to. dnslistener.go:84-160 and the other listeners. -/
structure Root (H : Type) where
  tree : Tree H
  q : Msg
  ci : ClientInfo

/-- The message of query number `j`. dnslistener.go:84-160 and the other listeners. -/
def rootPtr (j : Nat) : Ptr := ⟨2 * j, 2 * j + 1⟩

/-- dnslistener.go:117, dohlistener.go:366 and so on: the listeners have got queries and call `Resolve`, each in a goroutine of its own. -/
def init (roots : List (Root H)) : St H where
  heap := roots.flatMap fun r => [r.q, r.q]
  threads := roots.mapIdx fun j r => ⟨.call r.tree (rootPtr j) r.ci .ret, []⟩

end Verif.Shared
