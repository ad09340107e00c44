import Verif.Model.Net
/-
Lists of names and clients: blocklistdb-hosts.go, blocklistdb-regexp.go, mac-db.go, blocklistdb-multi.go, ip-db-multi.go.

A list loader is the lines it returned. What a list says about a message is `Hit` (the three results of `Match` that go with `ok = true`).
-/
namespace Verif.Lists
open Verif Verif.Net

/-- blocklistdb.go:26-29 `BlocklistMatch` -/
structure Match where
  list : Str
  rule : Str
deriving DecidableEq, Repr

/-- blocklistdb.go:18: the results of `Match` if there is a match -/
structure Hit where
  ips : List Str := []
  names : List Str := []
  rule : Match
deriving DecidableEq, Repr

/-! ### Hosts files -/

/-- `strings.Fields`, restricted to ASCII white space; `cur` is the field being read, in reverse. Used in blocklistdb-hosts.go:31-83. -/
def fieldsGo (cur : Str) : Str → List Str
  | [] => if cur = [] then [] else [cur.reverse]
  | c :: cs =>
    if isSpace c then (if cur = [] then fieldsGo [] cs else cur.reverse :: fieldsGo [] cs)
    else fieldsGo (c :: cur) cs
/-- `strings.Fields`; used in blocklistdb-hosts.go:31-83 -/
def fields (s : Str) : List Str := fieldsGo [] s

/-- blocklistdb-hosts.go:23-26 `ipRecords`; a nil address is the empty byte list -/
structure IpRecords where
  ip4 : List Str := []
  ip6 : List Str := []
deriving DecidableEq, Repr

/-- blocklistdb-hosts.go:21 -/
def maxHostsResponses : Nat := 10

/-- A Go map as an association list. Assignment to the maps of blocklistdb-hosts.go:13-29. -/
def setKey {α : Type} (m : List (Str × α)) (k : Str) (v : α) : List (Str × α) := (k, v) :: m.filter fun e => e.1 ≠ k

/-- blocklistdb-hosts.go:13-18 `HostsDB` -/
structure HostsDB where
  filters : List (Str × IpRecords) := []
  ptrMap : List (Str × List Str) := []
deriving DecidableEq, Repr

/-- `net.IP.IsUnspecified`. Go library; used in blocklist.go:150-175. -/
def isUnspecified (ip : Str) : Bool := ipEqual ip (v4Prefix ++ [0, 0, 0, 0]) || ipEqual ip (List.replicate 16 0)

/-- blocklistdb-hosts.go:61, 102 -/
def hostName (s : Str) : Str := lower (trimDot s)

/-- blocklistdb-hosts.go:60-75: one name of a line -/
def addName (isIP4 : Bool) (ip : Str) (db : HostsDB) (name : Str) : HostsDB :=
  let name := hostName name
  let ips := (db.filters.lookup name).getD {}
  if isIP4 then
    if ips.ip4.length > maxHostsResponses then db
    else { db with filters := setKey db.filters name { ips with ip4 := ips.ip4 ++ [ip] } }
  else
    if ips.ip6.length > maxHostsResponses then db
    else { db with filters := setKey db.filters name { ips with ip6 := ips.ip6 ++ [ip] } }

/-- The address text and the names of a line, if it is neither empty nor a comment nor without names: blocklistdb-hosts.go:39-51 -/
def hostsLine (r : Str) : Option (Str × List Str) := match fields (trimSpace r) with
  | [] => none
  | ipString :: names => if ipString.head? = some 35 then none else if names = [] then none else some (ipString, names)

/-- blocklistdb-hosts.go:52-80: one line. `parseIP` is `net.ParseIP` (nil is the empty byte list), `reverseAddr` is `dns.ReverseAddr`. -/
def addLine (parseIP : Str → Str) (reverseAddr : Str → Option Str) (db : HostsDB) (ipString : Str) (names : List Str) : HostsDB :=
  let ip := parseIP ipString
  let isIP4 := (to4 ip).isSome
  let ip := if isUnspecified ip then [] else ip
  let db := names.foldl (addName isIP4 ip) db
  match reverseAddr ipString with
  | none => db
  | some rev => { db with ptrMap := setKey db.ptrMap rev ((db.ptrMap.lookup rev).getD [] ++ names) }

/-- blocklistdb-hosts.go:31-83 `NewHostsDB` -/
def loadHosts (parseIP : Str → Str) (reverseAddr : Str → Option Str) (rules : List Str) : HostsDB :=
  rules.foldl (fun db r => match hostsLine r with
    | none => db
    | some (ip, names) => addLine parseIP reverseAddr db ip names) {}

/-- blocklistdb-hosts.go:89-120 `Match` for a question -/
def HostsDB.lookup (db : HostsDB) (name : Str) (q : Question) : Option Hit :=
  if q.qtype = typePTR then
    (db.ptrMap.lookup (lower q.name)).map fun names => { names := names, rule := ⟨name, names.headD []⟩ }
  else
    let n := hostName q.name
    (db.filters.lookup n).map fun ips => { ips := if q.qtype = typeA then ips.ip4 else ips.ip6, rule := ⟨name, n⟩ }

/-! ### Regular expressions -/

/-- blocklistdb-regexp.go:26-37: `compile` is `regexp.Compile` followed by `MatchString`; the texts of the rules are kept -/
def loadRegexp (compile : Str → Option (Str → Bool)) : List Str → Option (List (Str × (Str → Bool)))
  | [] => some []
  | r :: rs =>
    let r := trimSpace r
    if r = [] ∨ r.head? = some 35 then loadRegexp compile rs
    else match compile r with
      | none => none
      | some f => match loadRegexp compile rs with
        | none => none
        | some fs => some ((r, f) :: fs)

/-- blocklistdb-regexp.go:46-55 -/
def lookupRegexp (db : List (Str × (Str → Bool))) (list : Str) (q : Question) : Option Hit :=
  (db.find? fun e => e.2 (lower q.name)).map fun e => { rule := ⟨list, e.1⟩ }

/-! ### Hardware addresses -/

/-- `hex.fromHexChar`. Go library; used in mac-db.go:102-120. -/
def hexVal (c : UInt8) : Option UInt8 :=
  if 48 ≤ c ∧ c ≤ 57 then some (c - 48)
  else if 97 ≤ c ∧ c ≤ 102 then some (c - 97 + 10)
  else if 65 ≤ c ∧ c ≤ 70 then some (c - 65 + 10)
  else none

/-- `hex.Decode`. Go library; used in mac-db.go:102-120. -/
def hexDecode : Str → Option Str
  | [] => some []
  | [_] => none
  | a :: b :: rest => match hexVal a, hexVal b with
    | some x, some y => (hexDecode rest).map fun r => (x * 16 + y) :: r
    | _, _ => none

/-- mac-db.go:102-120 `parseMAC` -/
def parseMAC (addr : Str) : Option Str :=
  if addr.length ≠ 17 then none
  else if ¬ (List.range 5).all (fun i => addr.getD (i * 3 + 2) 0 = 58) then none
  else match hexDecode (addr.filter fun c => c ≠ 58) with
    | none => none
    | some out => if out.length ≠ 6 then none else some out

/-- mac-db.go:34-45 -/
def loadMAC : List Str → Option (List Str)
  | [] => some []
  | r :: rs =>
    let r := trimSpace r
    if r.head? = some 35 ∨ r = [] then loadMAC rs
    else match parseMAC r with
      | none => none
      | some m => (loadMAC rs).map fun ms => m :: ms

/-- mac-db.go:60-75: the value of the loop variable after the options -/
def macOption (opts : List EOpt) : Str := opts.foldl (fun acc o => match o with
  | .loc code data => if code = 65001 ∧ data.length = 6 then data else acc
  | _ => acc) []

/-- mac-db.go:52-90 `Match`: the address matched -/
def matchMAC (macs : List Str) (m : Msg) : Option Str := match m.edns? with
  | none => none
  | some e =>
    let opt := macOption e.options
    if opt.length ≠ 6 then none else macs.find? fun x => x = opt

/-! ### Several lists -/

/-- blocklistdb-multi.go:33-40, ip-db-multi.go:31-38: `Match` over a number of lists. `α` is a message or an address. -/
def multiMatch {α β : Type} (dbs : List (α → Option β)) (x : α) : Option β := match dbs with
  | [] => none
  | db :: dbs => match db x with
    | some h => some h
    | none => multiMatch dbs x

/-- blocklistdb-multi.go:21-31, ip-db-multi.go:19-29 `Reload`: each list reloads, with an error for `none` -/
def multiReload {γ : Type} : List (Option γ) → Option (List γ)
  | [] => some []
  | none :: _ => none
  | some d :: ds => match multiReload ds with
    | none => none
    | some l => some (d :: l)

/-- blocklist.go:196-225, client-blocklist.go:118-140, response-blocklist-ip.go:94-114, response-blocklist-name.go:73-87: the refresh loop over the
outcomes of the reloads; what is in force afterwards -/
def refresh {γ : Type} (cur : γ) : List (Option γ) → γ
  | [] => cur
  | none :: rest => refresh cur rest
  | some d :: rest => refresh d rest

/-! ### Refresh of a list that is closed when it is replaced (client-blocklist.go, response-blocklist-ip.go)

Databases are numbered in the order they were loaded. -/

/-- where the refresh loop is. client-blocklist.go:118-140, response-blocklist-ip.go:94-114. -/
inductive Loop where
  /-- sleeping or reloading -/
  | idle
  /-- between `mu.Unlock()` and `old.Close()` -/
  | toClose (old : Nat)
deriving DecidableEq, Repr

/-- The list of client-blocklist.go:112-140 or response-blocklist-ip.go:88-114, its refresh loop and the queries -/
structure RSys where
  /-- `r.BlocklistDB` -/
  cur : Nat := 0
  /-- databases loaded so far -/
  loaded : Nat := 1
  closed : List Nat := []
  loop : Loop := .idle
  /-- queries inside `match`, holding the read lock, with the database they use -/
  readers : List (Nat × Nat) := []
  /-- matches made so far: the database and whether it was closed at that moment -/
  log : List (Nat × Bool) := []
deriving DecidableEq, Repr

/-- The steps of client-blocklist.go:112-140 and response-blocklist-ip.go:88-114 -/
inductive REv where
  /-- a query takes the read lock and reads the current database -/
  | enter (q : Nat)
  /-- it looks the address up -/
  | lookup (q : Nat)
  /-- it leaves and releases the lock -/
  | leave (q : Nat)
  /-- the loop reloaded successfully and, with the write lock, swaps the database: needs that there are no readers -/
  | swap
  /-- `old.Close()` -/
  | close
deriving DecidableEq, Repr

/-- client-blocklist.go:112-140, response-blocklist-ip.go:88-114 -/
def rstep (s : RSys) : REv → Option RSys
  | .enter q => if s.readers.any (fun r => r.1 = q) then none else some { s with readers := (q, s.cur) :: s.readers }
  | .lookup q => match s.readers.lookup q with
    | none => none
    | some d => some { s with log := (d, s.closed.contains d) :: s.log }
  | .leave q => some { s with readers := s.readers.filter fun r => r.1 ≠ q }
  | .swap => match s.loop with
    | .idle => if s.readers = [] then some { s with cur := s.loaded, loaded := s.loaded + 1, loop := .toClose s.cur } else none
    | .toClose _ => none
  | .close => match s.loop with
    | .toClose old => some { s with closed := old :: s.closed, loop := .idle }
    | .idle => none

/-- client-blocklist.go:112-140 and response-blocklist-ip.go:88-114, in any interleaving -/
def rrun (s : RSys) : List REv → Option RSys
  | [] => some s
  | e :: es => (rstep s e).bind fun s' => rrun s' es

end Verif.Lists
