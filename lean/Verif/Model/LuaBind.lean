import Verif.Model.Dns

/-!
The objects that scripts work with: messages, questions, records, OPT records, options.

lua-helpers.go, lua-message.go, lua-question.go, lua-rr.go, lua-opt.go, lua-edns0.go, lua-error.go,
lua-resolver.go, lua-clientinfo.go, lua-types.go, lua-script.go:50-72, lua.go:100-125.

A script holds userdata values that point at Go values. Two functions per type read and write their
fields: `__index` for `object.field` and `__newindex` for `object.field = value`. Errors are raised by a Go
panic inside the Lua library, so a function stops at the first one.

Simplified throughout: a Lua table used as a list is the list of its elements 1…#table. Text of error
messages is left out. Metamethods are the ones the code installs; a script that replaces entries of the
metatables (it can, they are global tables) is not modelled.
-/

namespace Verif.LuaBind

/-- A Lua number (a Go float64): finite values as rationals, the others are infinities and NaN. gopher-lua; converted in lua-helpers.go:49-71 and lua-rr.go:322-372. -/
inductive Num where
  | fin (x : Rat)
  | special (k : Nat)

/-- The Go types of EDNS0 options (lua-edns0.go:13-28), and those no metatable is registered for. -/
inductive Kind where
  | cookie | dau | dhu | ede | esu | expire | llq | loc | n3u | nsid | padding | subnet | keepalive | ul
  | unregistered
  deriving DecidableEq, Repr

/-- The metatables (lua-message.go:12, lua-question.go:12, lua-rr.go:16, lua-opt.go:14, lua-edns0.go,
lua-error.go:11, lua-resolver.go:10, lua-clientinfo.go:9). -/
inductive Meta where
  | message | question | rr | opt | option (k : Kind) | client | error | resolver
  deriving DecidableEq, Repr

/-- `ClientInfo`, listener.go:18-38. -/
structure Client where
  sourceIP : Option Str
  dohPath : Str
  tlsServerName : Str
  listener : Str
  protocol : Str
  listenerAddr : Str
  deriving DecidableEq, Repr

/-- The Go value a userdata holds. Questions are elements of an array of questions. A `ClientInfo` is held
by value, the others are pointers. lua-helpers.go:28-43. -/
inductive Ptr where
  | msg (a : Nat)
  | question (a i : Nat)
  | record (a : Nat)
  | option (a : Nat)
  | client (ci : Client)
  | error (e : Str)
  | resolver (i : Nat)

/-- Lua values. `func` stands for the methods of messages, `other` for functions, threads and so on. gopher-lua, as told apart in lua-helpers.go:12-71 and lua-rr.go. -/
inductive LVal where
  | nil
  | bool (b : Bool)
  | num (x : Num)
  | string (s : Str)
  | table (l : List LVal)
  | user (m : Option Meta) (p : Ptr)
  | func (name : Str)
  | other

/-- The fields of the Go structs behind EDNS0 options. lua-edns0.go:13-895. -/
inductive Slot where
  | code | cookie | algCode | infoCode | extraText | uri | expire | version | opcode | error | id
  | leaseLife | data | nsid | padding | family | sourceNetmask | sourceScope | address | timeout | length
  | lease | keyLease
  deriving DecidableEq, Repr

/-- Values of fields: unsigned numbers, text or bytes, lists of numbers, addresses (`none` is a nil slice),
lists of text, lists of options. lua-rr.go:104-176. -/
inductive Val where
  | num (n : Nat)
  | text (s : Str)
  | nums (l : List Nat)
  | ip (a : Option Str)
  | texts (l : List Str)
  | refs (l : List Nat)
  deriving DecidableEq, Repr

/-- An EDNS0 option. lua-edns0.go:13-895. -/
structure Opt where
  kind : Kind
  slots : Slot → Val

/-- A question. lua-question.go:14-77. -/
structure Quest where
  name : Str
  qtype : Nat
  qclass : Nat
  deriving DecidableEq, Repr

/-- A record: its header, the Go type it has (as the type number that `dns.TypeToRR` maps to that Go type)
and its data fields by reflection index. lua-rr.go:18-176. -/
structure Rec where
  gotype : Nat
  name : Str
  rtype : Nat
  cls : Nat
  ttl : BitVec 32
  rdlength : Nat
  data : List Nat → Val

/-- A message. `question` is the array that its questions are in. lua-message.go:14-170. -/
structure MsgObj where
  id : Nat
  response : Bool
  opcode : Nat
  authoritative : Bool
  truncated : Bool
  rd : Bool
  ra : Bool
  zero : Bool
  ad : Bool
  cd : Bool
  rcode : Int
  question : Nat
  answer : List Nat
  ns : List Nat
  extra : List Nat

/-- The Go memory: objects by address. New objects are put at `next`. The Go values behind lua-*.go. -/
structure Mem where
  next : Nat
  msgs : Nat → MsgObj
  arrs : Nat → List Quest
  recs : Nat → Rec
  opts : Nat → Opt

/-- The types of the fields of records (lua-rr.go:136-170). `hdr` is the header, which is skipped;
`apl` and `svcb` are the two types that cannot be read or set. -/
inductive FType where
  | hdr | ip | string | uint (w : Nat) | u16s | strings | apl | svcb | options
  deriving DecidableEq, Repr

/-- The struct of a record type: its fields in order, or other fields followed by one of the structs DS,
SVCB, NSEC, RRSIG, DNSKEY that is embedded (what follows it does not matter, lua-rr.go:153-163).
Simplified: embedded structs embed no further ones, and all fields are exported (those of the library are). -/
inductive Layout where
  | plain (fields : List (Str × FType))
  | composed (before : List (Str × FType)) (inner : List (Str × FType))

/-- What the language, the Lua library and the DNS library provide. Used throughout lua-*.go. -/
structure Env where
  /-- `uint8(x)`, `uint16(x)`, `uint32(x)`, `uint64(x)` for a float `x`, by width. -/
  uint : Nat → Num → Nat
  /-- `int(x)` for a float `x`. -/
  int : Num → Int
  /-- `lua.LNumber(n)` for an unsigned integer. -/
  ofNat : Nat → Num
  /-- `lua.LNumber(n)` for an integer. -/
  ofInt : Int → Num
  /-- The strings that `CheckNumber` takes as numbers. -/
  number : Str → Option Num
  /-- The text of numbers, where `CheckString` takes them. -/
  text : Num → Option Str
  /-- `net.ParseIP`. -/
  parseIP : Str → Option Str
  /-- `net.IP.String`. -/
  ipString : Str → Str
  /-- `dns.TypeToRR`: the struct of each known record type. -/
  types : Nat → Option Layout

/-- `L.CheckNumber`. gopher-lua; used in lua-edns0.go and lua-opt.go. -/
def checkNumber (E : Env) : LVal → Option Num
  | .num x => some x
  | .string s => E.number s
  | _ => none

/-- `L.CheckInt`. gopher-lua; used in lua-message.go and lua-opt.go. -/
def checkInt (E : Env) : LVal → Option Int
  | .num x => some (E.int x)
  | _ => none

/-- `L.CheckString`. gopher-lua; used in lua-edns0.go. -/
def checkString (E : Env) : LVal → Option Str
  | .string s => some s
  | .num x => E.text x
  | _ => none

/-- `L.CheckBool`. gopher-lua; used in lua-message.go. -/
def checkBool : LVal → Option Bool
  | .bool b => some b
  | _ => none

/-- `L.CheckTable`. gopher-lua; used in lua-helpers.go:49-63. -/
def checkTable : LVal → Option (List LVal)
  | .table l => some l
  | _ => none

/-- An element of a list of numbers (lua-helpers.go:54-60, lua-rr.go:309-315). -/
def element (E : Env) (w : Nat) : LVal → Option Nat
  | .num x => some (E.uint w x)
  | _ => none

/-- `getNumberSlice`, lua-helpers.go:49-63. -/
def numberSlice (E : Env) (w : Nat) (v : LVal) : Option (List Nat) := do
  let l ← checkTable v
  l.mapM (element E w)

/-- `numberSliceToTable`, lua-helpers.go:65-71. -/
def numberTable (E : Env) (l : List Nat) : LVal := .table (l.map fun n => .num (E.ofNat n))

/-- The ways the option accessors convert a Lua value: `uintN(L.CheckNumber(n))`, `L.CheckString(n)` (also
`[]byte(L.CheckString(n))`), `getNumberSlice[uint8]`, and `net.ParseIP(L.CheckString(n))`. lua-edns0.go:13-895. -/
inductive Conv where
  | uint (w : Nat)
  | text
  | nums
  | ip
  deriving DecidableEq, Repr

/-- Convert a Lua value for an option. `none`: an error is raised. lua-edns0.go:13-895. -/
def convert (E : Env) : Conv → LVal → Option Val
  | .uint w, v => (checkNumber E v).map fun x => .num (E.uint w x)
  | .text, v => (checkString E v).map .text
  | .nums, v => (numberSlice E 8 v).map .nums
  | .ip, v => ((checkString E v).bind E.parseIP).map fun a => .ip (some a)

/-- Fields of options that `__index` knows, besides `option`: lua-edns0.go:49-67 (COOKIE), 106-124 (DAU),
164-182 (DHU), 223-243 (EDE), 283-301 (ESU), 339-357 (EXPIRE), 407-433 (LLQ), 481-501 (LOCAL),
542-560 (N3U), 599-617 (NSID), 654-672 (PADDING), 725-749 (SUBNET), 802-820 (TCP_KEEPALIVE),
861-881 (UL). -/
def readable : Kind → List (Str × Slot)
  | .cookie => [(str "cookie", .cookie)]
  | .dau => [(str "algcode", .algCode)]
  | .dhu => [(str "algcode", .algCode)]
  | .ede => [(str "infocode", .infoCode), (str "extratext", .extraText)]
  | .esu => [(str "uri", .uri)]
  | .expire => [(str "expire", .expire)]
  | .llq => [(str "version", .version), (str "opcode", .opcode), (str "error", .error), (str "id", .id),
      (str "leaselife", .leaseLife)]
  | .loc => [(str "code", .code), (str "data", .data)]
  | .n3u => [(str "algcode", .algCode)]
  | .nsid => [(str "nsid", .nsid)]
  | .padding => [(str "padding", .padding)]
  | .subnet => [(str "family", .family), (str "sourcenetmask", .sourceNetmask),
      (str "sourcescope", .sourceScope), (str "address", .address)]
  | .keepalive => [(str "timeout", .timeout)]
  | .ul => [(str "lease", .lease), (str "keylease", .keyLease)]
  | .unregistered => []

/-- Fields of options that `__newindex` knows: lua-edns0.go:68-83 (COOKIE), 125-141 (DAU), 183-199 (DHU),
244-261 (EDE), 302-317 (ESU), 358-373 (EXPIRE), 434-457 (LLQ), 502-519 (LOCAL), 561-577 (N3U),
618-633 (NSID), 673-688 (PADDING), 750-777 (SUBNET), 821-836 (TCP_KEEPALIVE), 882-899 (UL). -/
def writable : Kind → List (Str × Slot × Conv)
  | .cookie => [(str "cookie", .cookie, .text)]
  | .dau => [(str "algcode", .algCode, .nums)]
  | .dhu => [(str "algcode", .algCode, .nums)]
  | .ede => [(str "infocode", .infoCode, .uint 16), (str "extratext", .extraText, .text)]
  | .esu => [(str "uri", .uri, .text)]
  | .expire => [(str "expire", .expire, .uint 32)]
  | .llq => [(str "version", .version, .uint 16), (str "opcode", .opcode, .uint 16),
      (str "error", .error, .uint 16), (str "id", .id, .uint 64), (str "leaselife", .leaseLife, .uint 32)]
  | .loc => [(str "code", .code, .uint 16), (str "data", .data, .text)]
  | .n3u => [(str "algcode", .algCode, .nums)]
  | .nsid => [(str "nsid", .nsid, .text)]
  | .padding => [(str "padding", .padding, .text)]
  | .subnet => [(str "family", .family, .uint 16), (str "sourcenetmask", .sourceNetmask, .uint 8),
      (str "sourcescope", .sourceScope, .uint 8), (str "address", .address, .ip)]
  | .keepalive => [(str "timeout", .timeout, .uint 16)]
  | .ul => [(str "lease", .lease, .uint 32), (str "keylease", .keyLease, .uint 32)]
  | .unregistered => []

/-- Arguments of the `new` functions: lua-edns0.go:36-46 (COOKIE), 92-103 (DAU), 150-161 (DHU), 208-220 (EDE),
270-280 (ESU), 326-336 (EXPIRE), 382-404 (LLQ), 466-478 (LOCAL), 528-539 (N3U), 586-596 (NSID),
642-651 (PADDING), 697-722 (SUBNET), 786-799 (TCP_KEEPALIVE), 845-858 (UL). -/
def arguments : Kind → List (Slot × Conv)
  | .cookie => [(.cookie, .text)]
  | .dau => [(.algCode, .nums)]
  | .dhu => [(.algCode, .nums)]
  | .ede => [(.infoCode, .uint 16), (.extraText, .text)]
  | .esu => [(.uri, .text)]
  | .expire => [(.expire, .uint 32)]
  | .llq => [(.version, .uint 16), (.opcode, .uint 16), (.error, .uint 16), (.id, .uint 64), (.leaseLife, .uint 32)]
  | .loc => [(.code, .uint 16), (.data, .text)]
  | .n3u => [(.algCode, .nums)]
  | .nsid => [(.nsid, .text)]
  | .padding => [(.padding, .text)]
  | .subnet => [(.family, .uint 16), (.sourceNetmask, .uint 8), (.sourceScope, .uint 8), (.address, .ip)]
  | .keepalive => [(.timeout, .uint 16), (.length, .uint 16)]
  | .ul => [(.lease, .uint 32), (.keyLease, .uint 32)]
  | .unregistered => []

/-- `e.Option()` of the DNS library: a constant of the type, except that EDNS0_LOCAL has it in a field. Used in lua-edns0.go:13-895. -/
def optionCode : Kind → Val → Nat
  | .llq, _ => 1 | .ul, _ => 2 | .nsid, _ => 3 | .esu, _ => 4 | .dau, _ => 5 | .dhu, _ => 6 | .n3u, _ => 7
  | .subnet, _ => 8 | .expire, _ => 9 | .cookie, _ => 10 | .keepalive, _ => 11 | .padding, _ => 12 | .ede, _ => 15
  | .loc, .num n => n
  | _, _ => 0

/-- What is pushed for a field of an option: `lua.LNumber(n)`, `lua.LString(s)`, `numberSliceToTable`, and
`lua.LString(e.Address.String())`, which for a nil address gives `<nil>`. lua-edns0.go:13-895. -/
def pushed (E : Env) : Val → LVal
  | .num n => .num (E.ofNat n)
  | .text s => .string s
  | .nums l => numberTable E l
  | .ip (some a) => .string (E.ipString a)
  | .ip none => .string (str "<nil>")
  | .texts l => .table (l.map .string)
  | .refs _ => .nil

/-- The zero value of the fields of a new option (Go's `new`). The `new` functions of lua-edns0.go. -/
def zeroSlot : Slot → Val
  | .cookie | .extraText | .uri | .data | .nsid | .padding => .text []
  | .algCode => .nums []
  | .address => .ip none
  | _ => .num 0

/-- The entry of a name in a table of names. A `switch` over the name of a field, as in lua-edns0.go. -/
def find {α : Type} (l : List (Str × α)) (name : Str) : Option α := (l.find? fun e => e.1 = name).map (·.2)

/-- Replace a slot. As in lua-edns0.go. -/
def Opt.set (o : Opt) (s : Slot) (v : Val) : Opt := { o with slots := fun t => if t = s then v else o.slots t }

/-- `__index` of the options. lua-edns0.go:13-895. -/
def optionGet (E : Env) (o : Opt) (name : Str) : Option LVal :=
  if name = str "option" then some (.num (E.ofNat (optionCode o.kind (o.slots .code))))
  else (find (readable o.kind) name).map fun s => pushed E (o.slots s)

/-- `__newindex` of the options. `none`: an error is raised, which happens before anything is assigned. lua-edns0.go:13-895. -/
def optionSet (E : Env) (o : Opt) (name : Str) (v : LVal) : Option Opt :=
  (find (writable o.kind) name).bind fun (s, c) => (convert E c v).map (o.set s)

/-- The arguments of `new` are converted and assigned in order, as many as are given. lua-edns0.go:13-895. -/
def optionArgs (E : Env) : List (Slot × Conv) → List LVal → Opt → Option Opt
  | (s, c) :: rest, v :: vs, o => (convert E c v).bind fun x => optionArgs E rest vs (o.set s x)
  | _, _, o => some o

/-- `new` of the options. lua-edns0.go:13-895. -/
def optionNew (E : Env) (k : Kind) (args : List LVal) : Option Opt := optionArgs E (arguments k) args ⟨k, zeroSlot⟩

/-- The fields of a struct by lower-case name, from the index of the first one on (lua-rr.go:125-174). -/
def fieldsFrom (index : List Nat) : Nat → List (Str × FType) → List (Str × List Nat × FType)
  | _, [] => []
  | i, (n, t) :: rest =>
    if t = .hdr then fieldsFrom index (i + 1) rest
    else (lower n, index ++ [i], t) :: fieldsFrom index (i + 1) rest

/-- `rrFieldsForType`, lua-rr.go:123-176: an embedded struct's fields are taken instead of the fields found
before it. -/
def fieldsOf : Layout → List (Str × List Nat × FType)
  | .plain fields => fieldsFrom [] 0 fields
  | .composed before inner => fieldsFrom [before.length] 0 inner

/-- The elements of a list of options (lua-rr.go:423-434, lua-opt.go:97-112). -/
def optionRef : LVal → Option Nat
  | .user _ (.option a) => some a
  | _ => none

/-- The elements of a list of text (lua-rr.go:280-287). -/
def textElement : LVal → Option Str
  | .string s => some s
  | _ => none

/-- The setters of lua-rr.go:256-449. Numbers go through `uint64` and are cut to the width of the field
(`reflect.Value.SetUint`). `none`: an error. -/
def fieldVal (E : Env) : FType → LVal → Option Val
  | .hdr, _ => none
  | .ip, .string s => (E.parseIP s).map fun a => .ip (some a)
  | .ip, .nil => some (.ip none)
  | .ip, _ => none
  | .string, .string s => some (.text s)
  | .string, _ => none
  | .uint w, .num x => some (.num (E.uint 64 x % 2 ^ w))
  | .uint _, _ => none
  | .u16s, v => (numberSlice E 16 v).map .nums
  | .strings, .table l => (l.mapM textElement).map .texts
  | .strings, _ => none
  | .apl, _ => none
  | .svcb, _ => none
  | .options, .table l => (l.mapM optionRef).map .refs
  | .options, _ => none

/-- The metatable of an option in a list: named like its Go type (lua-rr.go:402-411, lua-opt.go:54-64); a
type without a registered metatable gets none. -/
def optionUser (m : Mem) (a : Nat) : LVal :=
  .user (if (m.opts a).kind = .unregistered then none else some (.option (m.opts a).kind)) (.option a)

/-- The getters of lua-rr.go:251-443. `none`: an error. -/
def fieldLua (E : Env) (m : Mem) : FType → Val → Option LVal
  | .hdr, _ => none
  | .apl, _ => none
  | .svcb, _ => none
  | .ip, .ip none => some .nil
  | _, .refs l => some (.table (l.map (optionUser m)))
  | _, v => some (pushed E v)

/-- `rrFieldDB.get`, lua-rr.go:178-204. -/
def recGet (E : Env) (m : Mem) (r : Rec) (name : Str) : Option LVal :=
  if name = str "name" then some (.string r.name)
  else if name = str "rtype" then some (.num (E.ofNat r.rtype))
  else if name = str "class" then some (.num (E.ofNat r.cls))
  else if name = str "ttl" then some (.num (E.ofNat r.ttl.toNat))
  else if name = str "rdlength" then some (.num (E.ofNat r.rdlength))
  else (E.types r.gotype).bind fun l => (find (fieldsOf l) name).bind fun (i, t) => fieldLua E m t (r.data i)

/-- Replace a data field. lua-rr.go:206-244. -/
def Rec.set (r : Rec) (i : List Nat) (v : Val) : Rec := { r with data := fun j => if j = i then v else r.data j }

/-- `rrFieldDB.set`, lua-rr.go:206-244. -/
def recSet (E : Env) (r : Rec) (name : Str) (v : LVal) : Option Rec :=
  if name = str "name" then match v with
    | .string s => some { r with name := s }
    | _ => none
  else if name = str "rtype" then none
  else if name = str "class" then match v with
    | .num x => some { r with cls := E.uint 16 x }
    | _ => none
  else if name = str "ttl" then match v with
    | .num x => some { r with ttl := BitVec.ofNat 32 (E.uint 32 x) }
    | _ => none
  else if name = str "rdlength" then none
  else (E.types r.gotype).bind fun l => (find (fieldsOf l) name).bind fun (i, t) => (fieldVal E t v).map (r.set i)

/-- The zero value of a data field. lua-rr.go:18-102. -/
def zeroField : FType → Val
  | .ip => .ip none
  | .string => .text []
  | .u16s => .nums []
  | .strings => .texts []
  | .options => .refs []
  | _ => .num 0

/-- The data of a new record. lua-rr.go:18-102. -/
def zeroData (l : Layout) : List Nat → Val := fun i =>
  match (fieldsOf l).find? fun e => e.2.1 = i with
  | some e => zeroField e.2.2
  | none => .num 0

/-- `rrFunc()` of lua-rr.go:35-40: a record of the type with everything zero. -/
def blank (rtype : Nat) (l : Layout) : Rec := ⟨rtype, [], 0, 0, 0, 0, zeroData l⟩

/-- One entry of the table given to `RR.new`, lua-rr.go:43-57. The Boolean says that an error was recorded;
the loop goes on. -/
def recEntry (E : Env) (rtype : Nat) : Rec × Bool → LVal × LVal → Rec × Bool
  | (r, bad), (.string k, v) =>
    if k = str "rtype" then ({ r with rtype := rtype }, bad)
    else match recSet E r k v with
      | some r' => (r', bad)
      | none => (r, true)
  | (r, _), _ => (r, true)

/-- The key is this string. A case of a `switch`, as in lua-opt.go. -/
def isKey : LVal → Str → Bool
  | .string k, name => decide (k = name)
  | _, _ => false

/-- `table.RawGetString("rtype")`, lua-rr.go:28: the entries of the table are in the order in which
`ForEach` visits them. -/
def entry (t : List (LVal × LVal)) (name : Str) : LVal := ((t.find? fun e => isKey e.1 name).map (·.2)).getD .nil

/-- `RR.new`, lua-rr.go:24-65. `none`: an error is raised. -/
def recNew (E : Env) (t : List (LVal × LVal)) : Option Rec :=
  match entry t (str "rtype") with
  | .num x => (E.types (E.uint 16 x)).bind fun l =>
    let (r, bad) := t.foldl (recEntry E (E.uint 16 x)) (blank (E.uint 16 x) l, false)
    if bad then none else some r
  | _ => none

/-- The reflection index of the options in `dns.OPT`: they follow the header. lua-rr.go:123-176. -/
def optionIndex : List Nat := [1]

/-- `opt.Version()` of the DNS library: bits 16 to 23 of the TTL. Used in lua-opt.go:16-121. -/
def version (ttl : BitVec 32) : Nat := ((ttl &&& 0x00FF0000#32) >>> 16).toNat

/-- `opt.SetVersion(v)` of the DNS library. Used in lua-opt.go:16-121. -/
def setVersion (ttl : BitVec 32) (v : Nat) : BitVec 32 := ttl &&& 0xFF00FFFF#32 ||| BitVec.ofNat 32 v <<< 16

/-- `opt.ExtendedRcode()` of the DNS library: the upper eight bits of the TTL, moved up by the four bits that
are in the header of the message. Used in lua-opt.go:16-121. -/
def extendedRcode (ttl : BitVec 32) : Nat := ((ttl &&& 0xFF000000#32) >>> 24).toNat <<< 4

/-- `opt.SetExtendedRcode(v)` of the DNS library. Used in lua-opt.go:16-121. -/
def setExtendedRcode (ttl : BitVec 32) (v : Nat) : BitVec 32 := ttl &&& 0x00FFFFFF#32 ||| BitVec.ofNat 32 (v >>> 4) <<< 24

/-- `opt.Do()` of the DNS library. Used in lua-opt.go:16-121. -/
def doBit (ttl : BitVec 32) : Bool := ttl &&& 0x8000#32 = 0x8000#32

/-- `opt.SetDo()` of the DNS library, and `opt.Hdr.Ttl &^= 1 << 15` (lua-opt.go:85-91). -/
def setDo (ttl : BitVec 32) (b : Bool) : BitVec 32 := if b then ttl ||| 0x8000#32 else ttl &&& ~~~(1#32 <<< 15)

/-- The options of an OPT record. lua-opt.go:16-121. -/
def optionList (r : Rec) : List Nat :=
  match r.data optionIndex with
  | .refs l => l
  | _ => []

/-- `__index` of OPT records, lua-opt.go:38-74. -/
def optGet (E : Env) (m : Mem) (r : Rec) (name : Str) : Option LVal :=
  if name = str "udp_size" then some (.num (E.ofNat r.cls))
  else if name = str "do_bit" then some (.bool (doBit r.ttl))
  else if name = str "version" then some (.num (E.ofNat (version r.ttl)))
  else if name = str "extended_rcode" then some (.num (E.ofNat (extendedRcode r.ttl % 2 ^ 8)))
  else if name = str "option" then some (.table ((optionList r).map (optionUser m)))
  else if name = str "name" then some (.string r.name)
  else if name = str "rtype" then some (.num (E.ofNat r.rtype))
  else none

/-- `__newindex` of OPT records, lua-opt.go:75-120. -/
def optSet (E : Env) (r : Rec) (name : Str) (v : LVal) : Option Rec :=
  if name = str "udp_size" then (checkNumber E v).map fun x => { r with cls := E.uint 16 x }
  else if name = str "do_bit" then (checkBool v).map fun b => { r with ttl := setDo r.ttl b }
  else if name = str "version" then (checkNumber E v).map fun x => { r with ttl := setVersion r.ttl (E.uint 8 x) }
  else if name = str "extended_rcode" then
    (checkNumber E v).map fun x => { r with ttl := setExtendedRcode r.ttl (E.uint 16 x) }
  else if name = str "option" then
    ((checkTable v).bind fun l => l.mapM optionRef).map fun l => r.set optionIndex (.refs l)
  else none

/-- An OPT record without options: `new(dns.OPT)` with name and type (lua-opt.go:22-24), also the one made by
`SetEdns0`. -/
def blankOPT : Rec := ⟨typeOPT, str ".", typeOPT, 0, 0, 0, fun _ => .refs []⟩

/-- `OPT.new`, lua-opt.go:21-36. -/
def optNew (E : Env) : List LVal → Option Rec
  | [] => some blankOPT
  | [size] => (checkNumber E size).map fun x => { blankOPT with cls := E.uint 16 x }
  | size :: d :: _ => (checkNumber E size).bind fun x => (checkBool d).map fun b =>
    { blankOPT with cls := E.uint 16 x, ttl := if b then setDo 0 true else 0 }

/-- The fields of questions that can be read, lua-question.go:37-56. -/
def questionGet (E : Env) (q : Quest) (name : Str) : Option LVal :=
  if name = str "name" then some (.string q.name)
  else if name = str "qtype" then some (.num (E.ofNat q.qtype))
  else if name = str "qclass" then some (.num (E.ofNat q.qclass))
  else none

/-- Setting fields of questions, lua-question.go:57-76. -/
def questionSet (E : Env) (q : Quest) (name : Str) (v : LVal) : Option Quest :=
  if name = str "name" then (checkString E v).map fun s => { q with name := s }
  else if name = str "qtype" then (checkNumber E v).map fun x => { q with qtype := E.uint 16 x }
  else if name = str "qclass" then (checkNumber E v).map fun x => { q with qclass := E.uint 16 x }
  else none

/-- `Question.new`, lua-question.go:19-34. -/
def questionNew (E : Env) : List LVal → Option Quest
  | [] => some ⟨[], 0, 1⟩
  | [n] => (checkString E n).map fun s => ⟨s, 0, 1⟩
  | [n, t] => (checkString E n).bind fun s => (checkNumber E t).map fun x => ⟨s, E.uint 16 x, 1⟩
  | n :: t :: c :: _ => (checkString E n).bind fun s => (checkNumber E t).bind fun x =>
    (checkNumber E c).map fun y => ⟨s, E.uint 16 x, E.uint 16 y⟩

/-- `rrSliceToTable`, lua-message.go:172-179: every record gets the metatable "RR". -/
def recTable (l : List Nat) : LVal := .table (l.map fun a => .user (some .rr) (.record a))

/-- An element of a list of records, lua-message.go:185-197. -/
def recRef : LVal → Option Nat
  | .user _ (.record a) => some a
  | _ => none

/-- `tableToRRSlice`, lua-message.go:181-200. -/
def recSlice (v : LVal) : Option (List Nat) := (checkTable v).bind fun l => l.mapM recRef

/-- The question a pointer points at. lua-question.go:14-77. -/
def Mem.question (m : Mem) (a i : Nat) : Quest := (m.arrs a).getD i ⟨[], 0, 0⟩

/-- The table of the questions of a message: pointers into its array (lua-message.go:32-38). -/
def questionTable (m : Mem) (a : Nat) : LVal :=
  .table ((List.range (m.arrs a).length).map fun i => .user (some .question) (.question a i))

/-- `__index` of messages, lua-message.go:24-104. -/
def msgGet (E : Env) (m : Mem) (o : MsgObj) (name : Str) : Option LVal :=
  if name = str "questions" then some (questionTable m o.question)
  else if name = str "id" then some (.num (E.ofNat o.id))
  else if name = str "response" then some (.bool o.response)
  else if name = str "rcode" then some (.num (E.ofInt o.rcode))
  else if name = str "recursion_desired" then some (.bool o.rd)
  else if name = str "recursion_available" then some (.bool o.ra)
  else if name = str "authoritative" then some (.bool o.authoritative)
  else if name = str "authenticated_data" then some (.bool o.ad)
  else if name = str "answer" then some (recTable o.answer)
  else if name = str "ns" then some (recTable o.ns)
  else if name = str "extra" then some (recTable o.extra)
  else if name ∈ [str "set_reply", str "set_question", str "is_edns0", str "set_edns0"] then some (.func name)
  else none

/-- An element of a list of questions: the question is copied (lua-message.go:117-129). -/
def questionRef (m : Mem) : LVal → Option Quest
  | .user _ (.question a i) => some (m.question a i)
  | _ => none

/-- Update a function at one place. An assignment in lua-*.go. -/
def upd {α : Type} (f : Nat → α) (a : Nat) (x : α) : Nat → α := fun b => if b = a then x else f b

/-- `__newindex` of messages except `questions`, lua-message.go:132-163. -/
def msgSet (E : Env) (o : MsgObj) (name : Str) (v : LVal) : Option MsgObj :=
  if name = str "id" then (checkInt E v).map fun x => { o with id := (x % 2 ^ 16).toNat }
  else if name = str "response" then (checkBool v).map fun b => { o with response := b }
  else if name = str "rcode" then (checkInt E v).map fun x => { o with rcode := x }
  else if name = str "recursion_desired" then (checkBool v).map fun b => { o with rd := b }
  else if name = str "recursion_available" then (checkBool v).map fun b => { o with ra := b }
  else if name = str "authoritative" then (checkBool v).map fun b => { o with authoritative := b }
  else if name = str "authenticated_data" then (checkBool v).map fun b => { o with ad := b }
  else if name = str "answer" then (recSlice v).map fun l => { o with answer := l }
  else if name = str "ns" then (recSlice v).map fun l => { o with ns := l }
  else if name = str "extra" then (recSlice v).map fun l => { o with extra := l }
  else none

/-- Assigning `questions`, lua-message.go:113-131: a new array with copies of the questions. -/
def setQuestions (m : Mem) (a : Nat) (v : LVal) : Option Mem :=
  ((checkTable v).bind fun l => l.mapM (questionRef m)).map fun qs =>
    { m with next := m.next + 1, arrs := upd m.arrs m.next qs, msgs := upd m.msgs a { m.msgs a with question := m.next } }

/-- The fields of `ClientInfo`, lua-clientinfo.go:16-45. -/
def clientGet (E : Env) (ci : Client) (name : Str) : Option LVal :=
  if name = str "source_ip" then some ((ci.sourceIP.map fun a => .string (E.ipString a)).getD .nil)
  else if name = str "doh_path" then some (.string ci.dohPath)
  else if name = str "tls_server_name" then some (.string ci.tlsServerName)
  else if name = str "listener" then some (.string ci.listener)
  else if name = str "protocol" then some (.string ci.protocol)
  else if name = str "listener_addr" then some (.string ci.listenerAddr)
  else none

/-- The `__index` functions of all metatables, called with an object and a name. The object must hold a Go
value of the right type (`getUserDataArg`, lua-helpers.go:28-36); the name may be anything that converts to a
string. For errors and resolvers `__index` is a table with one method (lua-error.go:27-32,
lua-resolver.go:18-20). -/
def index (E : Env) (m : Mem) (mt : Meta) (obj name : LVal) : Option LVal :=
  match mt, obj with
  | .error, _ => match name with
    | .string n => if n = str "error" then some (.func n) else some .nil
    | _ => some .nil
  | .resolver, _ => match name with
    | .string n => if n = str "resolve" then some (.func n) else some .nil
    | _ => some .nil
  | .message, .user _ (.msg a) => (checkString E name).bind (msgGet E m (m.msgs a))
  | .question, .user _ (.question a i) => (checkString E name).bind (questionGet E (m.question a i))
  | .rr, .user _ (.record a) => (checkString E name).bind (recGet E m (m.recs a))
  | .opt, .user _ (.record a) =>
    if (m.recs a).gotype = typeOPT then (checkString E name).bind (optGet E m (m.recs a)) else none
  | .option k, .user _ (.option a) =>
    if (m.opts a).kind = k then (checkString E name).bind (optionGet E (m.opts a)) else none
  | .client, .user _ (.client ci) => (checkString E name).bind (clientGet E ci)
  | _, _ => none

/-- Replace a question in its array. lua-question.go:14-77. -/
def Mem.setQuestion (m : Mem) (a i : Nat) (q : Quest) : Mem := { m with arrs := upd m.arrs a ((m.arrs a).set i q) }

/-- An operation that may raise an error: if it does not, `g` is the memory afterwards; if it does, nothing has been
changed (in all `__newindex` functions the checks of the arguments precede the change). As in lua-*.go. -/
def settle {α : Type} (m : Mem) (g : α → Mem) (x : Option α) : Mem × Bool :=
  (x.map (fun y => (g y, true))).getD (m, false)

/-- Assigning to a message, lua-message.go:106-169. -/
def assignMessage (E : Env) (m : Mem) (a : Nat) (v : LVal) (n : Str) : Mem × Bool :=
  if n = str "questions" then settle m id (setQuestions m a v)
  else settle m (fun o => { m with msgs := upd m.msgs a o }) (msgSet E (m.msgs a) n v)

/-- Assigning to a record, lua-rr.go:84-101: an assignment to the field with the empty name does nothing
(lua-rr.go:91-93). -/
def assignRR (E : Env) (m : Mem) (a : Nat) (v : LVal) (n : Str) : Mem × Bool :=
  if n = [] then (m, true)
  else settle m (fun r => { m with recs := upd m.recs a r }) (recSet E (m.recs a) n v)

/-- The `__newindex` functions of all metatables. The result is the memory afterwards, and whether the
assignment went without an error. There is none for clients, errors and resolvers: assigning to their fields
is an error of the language. The `__newindex` of lua-message.go, lua-question.go, lua-rr.go, lua-opt.go, lua-edns0.go. -/
def newindex (E : Env) (m : Mem) (mt : Meta) (obj name v : LVal) : Mem × Bool :=
  match mt, obj with
  | .message, .user _ (.msg a) => ((checkString E name).map (assignMessage E m a v)).getD (m, false)
  | .question, .user _ (.question a i) =>
    settle m (m.setQuestion a i) ((checkString E name).bind fun n => questionSet E (m.question a i) n v)
  | .rr, .user _ (.record a) => ((checkString E name).map (assignRR E m a v)).getD (m, false)
  | .opt, .user _ (.record a) =>
    if (m.recs a).gotype = typeOPT then settle m (fun r => { m with recs := upd m.recs a r })
      ((checkString E name).bind fun n => optSet E (m.recs a) n v)
    else (m, false)
  | .option k, .user _ (.option a) =>
    if (m.opts a).kind = k then settle m (fun o => { m with opts := upd m.opts a o })
      ((checkString E name).bind fun n => optionSet E (m.opts a) n v)
    else (m, false)
  | _, _ => (m, false)

/-- `obj.name` in a script: the metatable of the object is used. gopher-lua, on the metatables of lua-*.go. -/
def get (E : Env) (m : Mem) (obj : LVal) (name : Str) : Option LVal :=
  match obj with
  | .user (some mt) _ => index E m mt obj (.string name)
  | _ => none

/-- `obj.name = v` in a script. gopher-lua, on the metatables of lua-*.go. -/
def assign (E : Env) (m : Mem) (obj : LVal) (name : Str) (v : LVal) : Mem × Bool :=
  match obj with
  | .user (some mt) _ => newindex E m mt obj (.string name) v
  | _ => (m, false)

/-- Put a new object into the memory: messages, questions (an array of one), records, options
(`userDataWithMetatable`, lua-helpers.go:38-43). -/
def allocMsg (m : Mem) (o : MsgObj) : Mem × LVal :=
  ({ m with next := m.next + 1, msgs := upd m.msgs m.next o }, .user (some .message) (.msg m.next))
/-- `new(dns.Question)`, lua-question.go:14-77 -/
def allocQuestion (m : Mem) (q : Quest) : Mem × LVal :=
  ({ m with next := m.next + 1, arrs := upd m.arrs m.next [q] }, .user (some .question) (.question m.next 0))
/-- A new record, lua-rr.go:18-102 -/
def allocRec (m : Mem) (mt : Meta) (r : Rec) : Mem × LVal :=
  ({ m with next := m.next + 1, recs := upd m.recs m.next r }, .user (some mt) (.record m.next))
/-- A new option, lua-edns0.go:13-895 -/
def allocOpt (m : Mem) (o : Opt) : Mem × LVal :=
  ({ m with next := m.next + 1, opts := upd m.opts m.next o }, .user (some (.option o.kind)) (.option m.next))

/-- A message with everything zero. Its questions are an array of its own, without elements. `new(dns.Msg)`, lua-message.go:14-170. -/
def blankMsg (arr : Nat) : MsgObj :=
  ⟨0, false, 0, false, false, false, false, false, false, false, 0, arr, [], [], []⟩

/-- `Message.new`, lua-message.go:19-22. -/
def newMessage (m : Mem) : Mem × LVal :=
  allocMsg { m with next := m.next + 1, arrs := upd m.arrs m.next [] } (blankMsg m.next)

/-- The other `new` functions. `none`: an error is raised, and nothing was allocated. lua-question.go:14-77. -/
def newQuestion (E : Env) (m : Mem) (args : List LVal) : Option (Mem × LVal) := (questionNew E args).map (allocQuestion m)
/-- lua-rr.go:18-102 -/
def newRR (E : Env) (m : Mem) (t : List (LVal × LVal)) : Option (Mem × LVal) :=
  (recNew E t).map (allocRec m .rr)
/-- lua-opt.go:16-121 -/
def newOPT (E : Env) (m : Mem) (args : List LVal) : Option (Mem × LVal) :=
  (optNew E args).map (allocRec m .opt)
/-- lua-edns0.go:13-895 -/
def newOption (E : Env) (m : Mem) (k : Kind) (args : List LVal) : Option (Mem × LVal) :=
  (optionNew E k args).map (allocOpt m)

/-- What `SetReply` of the DNS library does to the header of a message `o`, given the request `q`. Used in lua-message.go:66. -/
def replyHeader (o q : MsgObj) : MsgObj :=
  { o with id := q.id, response := true, opcode := q.opcode, rcode := 0,
           rd := if q.opcode = 0 then q.rd else o.rd, cd := if q.opcode = 0 then q.cd else o.cd }

/-- `msg:set_reply(request)`, lua-message.go:59-70, with `SetReply` of the DNS library. -/
def setReplyTo (m : Mem) (a b : Nat) : Mem :=
  let o := replyHeader (m.msgs a) (m.msgs b)
  match m.arrs (m.msgs b).question with
  | [] => { m with msgs := upd m.msgs a o }
  | first :: _ =>
    { m with next := m.next + 1, arrs := upd m.arrs m.next [first], msgs := upd m.msgs a { o with question := m.next } }

/-- `msg:set_question(name, type)`, lua-message.go:71-78, with `SetQuestion` of the DNS library, which draws
a random ID. -/
def setQuestionTo (E : Env) (random : Nat) (m : Mem) (a : Nat) (name type : LVal) : Option Mem :=
  (checkString E name).bind fun n => (checkNumber E type).map fun x =>
    { m with next := m.next + 1, arrs := upd m.arrs m.next [⟨n, E.uint 16 x, 1⟩],
             msgs := upd m.msgs a { m.msgs a with id := random % 2 ^ 16, rd := true, question := m.next } }

/-- `msg:is_edns0()`, lua-message.go:79-90, with `IsEdns0` of the DNS library: the last OPT record of the
additional section, with the metatable "OPT". -/
def isEdns0 (m : Mem) (a : Nat) : LVal :=
  match (m.msgs a).extra.reverse.find? fun r => (m.recs r).rtype = typeOPT with
  | some r => .user (some .opt) (.record r)
  | none => .nil

/-- `msg:set_edns0(size, do)`, lua-message.go:91-97, with `SetEdns0` of the DNS library: one more OPT record
at the end of the additional section. -/
def setEdns0 (E : Env) (m : Mem) (a : Nat) (size d : LVal) : Option Mem :=
  (checkNumber E size).bind fun x => (checkBool d).map fun b =>
    { m with next := m.next + 1,
             recs := upd m.recs m.next { blankOPT with cls := E.uint 16 x, ttl := if b then setDo 0 true else 0 },
             msgs := upd m.msgs a { m.msgs a with extra := (m.msgs a).extra ++ [m.next] } }

/-- The outcome of `resolver:resolve(msg, ci)`, lua-resolver.go:30-65, given what the resolver returned (the
address of the answer, the error). `none`: an error is raised and no resolver is asked. -/
def resolveCall (ask : Nat → Nat → Client → Option Nat × Option Str) : List LVal → Option (LVal × LVal)
  | [.user _ (.resolver i), .user _ (.msg a), .user _ (.client ci)] =>
    let (resp, err) := ask i a ci
    some (match resp with
      | some b => .user (some .message) (.msg b)
      | none => .nil,
      match err with
      | some e => .user (some .error) (.error e)
      | none => .nil)
  | _ => none

/-! ## The globals of a script -/

/-- What a global can be, as far as the sandbox matters: a function of a library, a library (its functions by
name), something of this program's own (a metatable, a constant, the resolvers), or something of the script. lua-script.go:50-71. -/
inductive Global where
  | fn (f : Nat)
  | lib (fns : List (Str × Nat))
  | api (name : Str)
  | script (x : Nat)
  deriving DecidableEq, Repr

/-- The globals by name. The globals of a script, lua-script.go:36-71. -/
abbrev Globals := Str → Option Global

/-- `L.SetGlobal`. gopher-lua; used in lua-types.go:8-47. -/
def Globals.put (g : Globals) (n : Str) (v : Option Global) : Globals := fun k => if k = n then v else g k

/-- The Lua library: the functions of the base library and of the others. gopher-lua; used in lua-script.go:50-71. -/
structure Libs where
  base : List (Str × Nat)
  table : List (Str × Nat)
  string : List (Str × Nat)
  math : List (Str × Nat)
  coroutine : List (Str × Nat)
  package : List (Str × Nat)
  io : List (Str × Nat)
  os : List (Str × Nat)
  debug : List (Str × Nat)
  channel : List (Str × Nat)

/-- The functions taken away in the sandbox, lua-script.go:69. -/
def removed : List Str :=
  [str "dofile", str "loadfile", str "load", str "loadstring", str "module", str "require"]

/-- Define several globals. lua-types.go:8-47. -/
def Globals.putAll (g : Globals) (l : List (Str × Option Global)) : Globals := l.foldl (fun g e => g.put e.1 e.2) g

/-- `openSandboxedLibs`, lua-script.go:50-72. -/
def sandboxed (L : Libs) : Globals :=
  let g : Globals := fun _ => none
  let g := g.putAll (L.base.map fun e => (e.1, some (.fn e.2)))
  let g := g.putAll [(str "table", some (.lib L.table)), (str "string", some (.lib L.string)),
    (str "math", some (.lib L.math)), (str "coroutine", some (.lib L.coroutine))]
  g.putAll (removed.map fun n => (n, none))

/-- `lua.NewState()` of lua-script.go:43: all libraries. -/
def unsandboxed (L : Libs) : Globals :=
  let g : Globals := fun _ => none
  let g := g.putAll (L.base.map fun e => (e.1, some (.fn e.2)))
  g.putAll [(str "package", some (.lib L.package)), (str "table", some (.lib L.table)), (str "io", some (.lib L.io)),
    (str "os", some (.lib L.os)), (str "string", some (.lib L.string)), (str "math", some (.lib L.math)),
    (str "debug", some (.lib L.debug)), (str "channel", some (.lib L.channel)),
    (str "coroutine", some (.lib L.coroutine))]

/-- The tables of numbers and names that the constants come from (`dns.TypeToString` and so on). miekg/dns; used in lua-types.go:8-47. -/
structure Names where
  types : List (Nat × Str)
  classes : List (Nat × Str)
  rcodes : List (Nat × Str)

/-- The names of the option codes, lua-types.go:30-46. -/
def optionNames : List Str :=
  [str "EDNS0LLQ", str "EDNS0UL", str "EDNS0NSID", str "EDNS0ESU", str "EDNS0DAU", str "EDNS0DHU", str "EDNS0N3U",
   str "EDNS0SUBNET", str "EDNS0EXPIRE", str "EDNS0COOKIE", str "EDNS0TCPKEEPALIVE", str "EDNS0PADDING",
   str "EDNS0EDE"]

/-- The names of the types, lua.go:108-117. -/
def typeNames : List Str :=
  [str "Message", str "Question", str "RR", str "OPT", str "EDNS0_COOKIE", str "EDNS0_DAU", str "EDNS0_DHU",
   str "EDNS0_EDE", str "EDNS0_ESU", str "EDNS0_EXPIRE", str "EDNS0_LLQ", str "EDNS0_LOCAL", str "EDNS0_N3U",
   str "EDNS0_NSID", str "EDNS0_PADDING", str "EDNS0_SUBNET", str "EDNS0_TCP_KEEPALIVE", str "EDNS0_UL",
   str "Error", str "ClientInfo", str "Resolver", str "Resolvers"]

/-- Everything the program registers, in order (lua.go:106-117, lua-types.go:8-47). -/
def apiNames (N : Names) : List Str :=
  [str "BuildVersion"] ++ N.types.map (fun e => str "Type" ++ e.2) ++ N.classes.map (fun e => str "Class" ++ e.2) ++
    N.rcodes.map (fun e => str "Rcode" ++ e.2) ++ optionNames ++ typeNames

/-- The registration of lua.go:106-117. -/
def register (N : Names) (g : Globals) : Globals := g.putAll ((apiNames N).map fun n => (n, some (.api n)))

/-- `newScript`, lua.go:100-125: libraries, then the body of the script (`body` is what it does to the globals,
`none` when it fails), then the registration. The last condition is that of the entry point: there must be a
function `Resolve`; `isFunction` tells which script values are functions. -/
def newScript (L : Libs) (N : Names) (sandbox : Bool) (body : Globals → Option Globals) (isFunction : Nat → Bool) :
    Option Globals :=
  (body (if sandbox then sandboxed L else unsandboxed L)).bind fun g =>
    let g := register N g
    match g (str "Resolve") with
    | some (.fn _) => some g
    | some (.script x) => if isFunction x then some g else none
    | _ => none

end Verif.LuaBind
