import Verif.Model.Dnssec
/-
dnssec/keystore.go: the store of keys used by concurrent validations, with its two levels of locks.

Between taking and releasing a lock a goroutine makes one step here; the accesses of a section under a lock are not interleaved with conflicting ones.
`log` is not part of the program: it records operations in the order in which they took effect.
-/
namespace Verif.Keystore
open Verif Verif.Dnssec

/-- The operations. dnssec/keystore.go:47-133. -/
inductive Op where
  | addKeys (name : Str) (keys : List Key)
  | addDs (name : Str) (ds : List Ds)
  | getKeys (name : Str)
  | getDs (name : Str)

/-- The first argument of dnssec/keystore.go:47-133 -/
def Op.name : Op → Str
  | .addKeys n _ => n | .addDs n _ => n | .getKeys n => n | .getDs n => n

/-- The results of dnssec/keystore.go:101-133 -/
inductive Result where
  | unit
  | keys (zsk ksk : List Key)
  | ds (records : List Ds)

/-- dnssec/keystore.go:17-21 `keystoreEntry` -/
structure Entry where
  keys : Option KeySet
  ds : Option DsSet

/-- dnssec/keystore.go:11-15 `keystore`: the map holds pointers (here numbers) to entries -/
structure Mem where
  items : Str → Option Nat
  entries : Nat → Entry
  next : Nat

/-- Where a goroutine is: before its first lock (after reading the clock and making the key set, for `addDNSKEY`), between the two locks of `getItem`, with an
entry, at the end. dnssec/keystore.go:47-150. -/
inductive Pc where
  | begin
  | lookup (set : Option (Int × KeySet))
  | create (set : Option (Int × KeySet))
  | item (id : Nat) (set : Option (Int × KeySet))
  | done (r : Result)

/-- dnssec/keystore.go:57-68: the merged records and their least TTL -/
def mergeDs (old : Option DsSet) (ds : List Ds) (now : Int) : DsSet :=
  let records := (match old with | some s => s.records | none => []) ++ ds
  ⟨now + seconds (records.foldl (fun m r => min m r.hdr.ttl) 4294967295), records⟩

/-- dnssec/keystore.go:76-96: the set made from the keys -/
def keySet (keys : List Key) (now : Int) : KeySet :=
  ⟨now + seconds (minTtl keys), keys.filter fun k => k.flags = 256, keys.filter fun k => k.flags = 257⟩

/-- dnssec/keystore.go:111-114 -/
def readKeys (e : Entry) (now : Int) : Result := match e.keys with
  | none => .keys [] []
  | some ks => if now > ks.expiresAt then .keys [] [] else .keys ks.zsk ks.ksk

/-- dnssec/keystore.go:127-130 -/
def readDs (e : Entry) (now : Int) : Result := match e.ds with
  | none => .ds []
  | some ds => if now > ds.expiresAt then .ds [] else .ds ds.records

/-- Assignment to a `keystoreEntry`, dnssec/keystore.go:17-27 -/
def Mem.setEntry (m : Mem) (id : Nat) (e : Entry) : Mem := { m with entries := fun i => if i = id then e else m.entries i }

/-- dnssec/keystore.go:144-156: under the write lock -/
def getOrCreate (m : Mem) (name : Str) : Mem × Nat := match m.items name with
  | some id => (m, id)
  | none => ({ items := fun n => if n = name then some m.next else m.items n, entries := fun i => if i = m.next then ⟨none, none⟩ else m.entries i, next := m.next + 1 }, m.next)

/-- What a step did: memory, new place, and the operation if it took effect: the time it read from the clock, and its result. dnssec/keystore.go:47-150. -/
structure Out where
  mem : Mem
  pc : Pc
  effect : Option (Int × Result) := none

/-- One step of a goroutine that is at `pc` in the operation, at time `now`. dnssec/keystore.go:47-150. -/
def step (m : Mem) (op : Op) (now : Int) : Pc → Option Out
  | .begin => match op with
    -- :92-97
    | .addKeys _ keys => some { mem := m, pc := .lookup (some (now, keySet keys now)) }
    -- :48
    | .addDs _ _ => some { mem := m, pc := .lookup none }
    -- :102-108
    | .getKeys n => match m.items (canonicalName n) with
      | none => some { mem := m, pc := .done (.keys [] []), effect := some (now, .keys [] []) }
      | some id => some { mem := m, pc := .item id none }
    -- :118-124
    | .getDs n => match m.items (canonicalName n) with
      | none => some { mem := m, pc := .done (.ds []), effect := some (now, .ds []) }
      | some id => some { mem := m, pc := .item id none }
  -- :136-142
  | .lookup set => match m.items (canonicalName op.name) with
    | none => some { mem := m, pc := .create set }
    | some id => some { mem := m, pc := .item id set }
  -- :144-156
  | .create set =>
    let r := getOrCreate m (canonicalName op.name)
    some { mem := r.1, pc := .item r.2 set }
  | .item id set => match op with
    -- :24-26, :98
    | .addKeys _ _ => match set with
      | some (t, ks) => some { mem := m.setEntry id { m.entries id with keys := some ks }, pc := .done .unit, effect := some (t, .unit) }
      | none => none
    -- :49-72
    | .addDs _ ds => some { mem := m.setEntry id { m.entries id with ds := some (mergeDs (m.entries id).ds ds now) }, pc := .done .unit, effect := some (now, .unit) }
    -- :109-114
    | .getKeys _ => some { mem := m, pc := .done (readKeys (m.entries id) now), effect := some (now, readKeys (m.entries id) now) }
    -- :125-130
    | .getDs _ => some { mem := m, pc := .done (readDs (m.entries id) now), effect := some (now, readDs (m.entries id) now) }
  | .done _ => none

/-- A goroutine: its operation, where it is, and when it began (the time, and the length of the log). A call of one of dnssec/keystore.go:47-133. -/
structure Thread where
  op : Op
  pc : Pc
  began : Int
  since : Nat

/-- An operation in the log: who, what, the time it read from the clock, the result. Not part of dnssec/keystore.go. -/
structure Event where
  who : Nat
  op : Op
  time : Int
  result : Result

/-- The store of dnssec/keystore.go:11-38, its callers, and the log -/
structure Sys where
  mem : Mem
  now : Int
  threads : List Thread
  log : List Event

/-- dnssec/keystore.go:40-45 -/
def init (now : Int) : Sys := ⟨⟨fun _ => none, fun _ => ⟨none, none⟩, 0⟩, now, [], []⟩

/-- The steps of the callers of dnssec/keystore.go:47-133 -/
inductive Ev where
  | call (op : Op)
  | step (i : Nat)

/-- dnssec/keystore.go:47-150 -/
def Sys.step (s : Sys) (now : Int) : Ev → Option Sys
  | .call op => if now < s.now then none else some { s with now := now, threads := s.threads ++ [⟨op, .begin, now, s.log.length⟩] }
  | .step i =>
    if now < s.now then none
    else match s.threads[i]? with
      | none => none
      | some t => match Keystore.step s.mem t.op now t.pc with
        | none => none
        | some o => some
          { mem := o.mem, now := now, threads := s.threads.set i { t with pc := o.pc },
            log := match o.effect with | none => s.log | some (time, r) => s.log ++ [⟨i, t.op, time, r⟩] }

/-- dnssec/keystore.go:47-150, in any interleaving -/
inductive Reach (s0 : Sys) : Sys → Prop where
  | refl : Reach s0 s0
  | step {s s' : Sys} {now : Int} {e : Ev} (h : Reach s0 s) (hs : s.step now e = some s') : Reach s0 s'

end Verif.Keystore
