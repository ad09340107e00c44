import Verif.Model.Validate
/-
geoip-db.go, asn-db.go: lists of locations and autonomous systems, looked up in a MaxMind database file; ip-db-multi.go and the
refresh loops of response-blocklist-ip.go and client-blocklist.go, which open and close such databases while queries run.
-/
namespace Verif.Location
open Verif Verif.Validate

/-- `strconv.ParseUint(s, 10, 64)`. Go library; used in geoip-db.go:26-61 and asn-db.go:26-61. -/
def parseUint64 (s : Str) : Option Nat :=
  if s ≠ [] ∧ s.all isDigit ∧ decimal s < 18446744073709551616 then some (decimal s) else none

/-- geoip-db.go:39-51, asn-db.go:39-51: the loop over the rules; `none` is the error for a line that is no number. The
Go map is a list of its keys. -/
def loadIds : List Str → Option (List Nat)
  | [] => some []
  | r :: rs =>
    let r := trimSpace r
    if r.head? = some 35 ∨ r = [] then loadIds rs
    else
      let r := (splitOn 35 r).headD []
      let r := trimSpace r
      match parseUint64 r with
      | none => none
      | some v => (loadIds rs).map fun ids => v :: ids

/-- geoip-db.go:66-79: the parts of a database record that are read; missing parts are 0 -/
structure Place where
  continent : Nat := 0
  country : Nat := 0
  city : Nat := 0
  subdivisions : List Nat := []

/-- geoip-db.go:65-102 `Match`: the rule matched. `find` is `maxminddb.Reader.Lookup`, `none` its error; an address that is not in
the database gives a record of zeros. -/
def matchGeo {α : Type} (db : List Nat) (find : α → Option Place) (ip : α) : Option Nat :=
  match find ip with
  | none => none
  | some p => ([p.continent, p.country, p.city] ++ p.subdivisions).find? fun id => db.contains id

/-- asn-db.go:65-86 `Match` -/
def matchAsn {α : Type} (db : List Nat) (find : α → Option Nat) (ip : α) : Option Nat :=
  match find ip with
  | none => none
  | some asn => if db.contains asn then some asn else none

/-! ### Database files opened and closed -/

/-- A query in the middle of `match` (response-blocklist-ip.go:88-92, client-blocklist.go:105-109) with the read lock held: the
databases it still has to look at (ip-db-multi.go:31-38). -/
structure Reader where
  todo : List Nat

/-- Where the refresh loop is (response-blocklist-ip.go:94-115, client-blocklist.go:111-134). A list is made of `n` databases
(`n = 1` without `MultiIPDB`). -/
inductive Refresh where
  | sleeping
  /-- `Reload`: the databases opened so far, and whether the last one is still without its rules -/
  | reloading (opened : List Nat) (rulesPending : Bool)
  /-- waiting for the write lock with the new list -/
  | swapping (new : List Nat)
  /-- lock released, old databases being closed -/
  | closing (old : List Nat)

/-- A list of `size` databases in use by any number of queries. Databases are numbered in the order they are opened. ip-db-multi.go:15-48, response-blocklist-ip.go:88-114 and client-blocklist.go:112-140. -/
structure Sys where
  size : Nat
  next : Nat
  /-- databases open at the moment -/
  isOpen : List Nat
  /-- `r.BlocklistDB` -/
  current : List Nat
  readers : List Reader
  refresh : Refresh
  /-- databases a failed reload left open without anyone to close them -/
  lost : List Nat
  /-- set when a closed database was looked up -/
  usedClosed : Bool

/-- The steps of ip-db-multi.go:15-48, response-blocklist-ip.go:88-114 and client-blocklist.go:112-140 -/
inductive Ev where
  /-- `r.mu.RLock()` -/
  | matchBegin
  /-- the next `db.Match(ip)` of reader number `i`; `hit`: it matched, so the rest is skipped -/
  | look (i : Nat) (hit : Bool)
  /-- `RUnlock` of reader `i` -/
  | matchEnd (i : Nat)
  | reloadBegin
  /-- geoip-db.go:28, asn-db.go:28 `maxminddb.Open` -/
  | openDb (ok : Bool)
  /-- geoip-db.go:33-52, asn-db.go:33-52: rules loaded and parsed, or an error -/
  | rules (ok : Bool)
  /-- all members reloaded -/
  | reloadEnd
  /-- `mu.Lock()`, swap, `mu.Unlock()`: one step since nothing else runs while the write lock is held -/
  | swap
  /-- ip-db-multi.go:40-48: the next old database is closed -/
  | close
  | closeEnd

/-- One step; `none`: not possible in this state. ip-db-multi.go:15-48, response-blocklist-ip.go:88-114 and client-blocklist.go:112-140. -/
def step (s : Sys) : Ev → Option Sys
  | .matchBegin => some { s with readers := s.readers ++ [⟨s.current⟩] }
  | .look i hit => match s.readers[i]? with
    | some ⟨d :: rest⟩ => some { s with
        readers := s.readers.set i ⟨if hit then [] else rest⟩
        usedClosed := s.usedClosed || !s.isOpen.contains d }
    | _ => none
  | .matchEnd i => match s.readers[i]? with
    | some ⟨[]⟩ => some { s with readers := s.readers.eraseIdx i }
    | _ => none
  | .reloadBegin => match s.refresh with
    | .sleeping => some { s with refresh := .reloading [] false }
    | _ => none
  | .openDb ok => match s.refresh with
    | .reloading opened false =>
      if opened.length < s.size then
        if ok then some { s with next := s.next + 1, isOpen := s.next :: s.isOpen, refresh := .reloading (opened ++ [s.next]) true }
        else some { s with refresh := .sleeping, lost := s.lost ++ opened }
      else none
    | _ => none
  | .rules ok => match s.refresh with
    | .reloading opened true =>
      if ok then some { s with refresh := .reloading opened false }
      else some { s with refresh := .sleeping, lost := s.lost ++ opened }
    | _ => none
  | .reloadEnd => match s.refresh with
    | .reloading opened false => if opened.length = s.size then some { s with refresh := .swapping opened } else none
    | _ => none
  | .swap => match s.refresh with
    | .swapping new => if s.readers = [] then some { s with current := new, refresh := .closing s.current } else none
    | _ => none
  | .close => match s.refresh with
    | .closing (d :: rest) => some { s with isOpen := s.isOpen.erase d, refresh := .closing rest }
    | _ => none
  | .closeEnd => match s.refresh with
    | .closing [] => some { s with refresh := .sleeping }
    | _ => none

/-- After start-up: the databases were opened once. geoip-db.go:26-61, asn-db.go:26-61. -/
def start (size : Nat) : Sys :=
  { size := size, next := size, isOpen := List.range size, current := List.range size, readers := [], refresh := .sleeping,
    lost := [], usedClosed := false }

/-- ip-db-multi.go:15-48, response-blocklist-ip.go:88-114 and client-blocklist.go:112-140, in any interleaving -/
def run (s : Sys) : List Ev → Option Sys
  | [] => some s
  | e :: es => (step s e).bind fun s => run s es

end Verif.Location
