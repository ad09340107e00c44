import Verif.Model.Dns
/-
Blocklist loaders: blocklistloader-http.go and blocklistloader-local.go, with bufio.Scanner as far as they use it.
-/
namespace Verif.Loader
open Verif

/-- Line feed, blocklistloader-http.go:131 -/
def LF : UInt8 := 10
/-- Carriage return, dropped by bufio.Scanner (blocklistloader-http.go:94-98) -/
def CR : UInt8 := 13

/-- bufio.Scanner's maximum: a line must be shorter. Go library bufio; used in blocklistloader-http.go:94-98, 117-122 and blocklistloader-local.go:28-56. -/
def maxToken : Nat := 65536

/-- bufio dropCR. Go library bufio; used in blocklistloader-http.go:94-98, 117-122 and blocklistloader-local.go:28-56. -/
def dropCR (l : Str) : Str := if l.getLast? = some CR then l.dropLast else l

/-- The lines up to the last line feed, and what follows it. Go library bufio; used in blocklistloader-http.go:94-98, 117-122 and blocklistloader-local.go:28-56. -/
def rawLines (acc : Str) : Str → List Str × Str
  | [] => ([], acc)
  | c :: cs => if c = LF then let r := rawLines [] cs; (acc :: r.1, r.2) else rawLines (acc ++ [c]) cs

/-- The lines a bufio.Scanner returns before it stops, and whether it stopped because a line was too long. Go library bufio; used in blocklistloader-http.go:94-98, 117-122 and blocklistloader-local.go:28-56. -/
def scanRaw : List Str → List Str × Bool
  | [] => ([], false)
  | l :: ls => if maxToken ≤ l.length then ([], true) else let r := scanRaw ls; (dropCR l :: r.1, r.2)

/-- bufio.Scanner with ScanLines over `data`: `for scanner.Scan() { rules = append(rules, scanner.Text()) }` and whether `scanner.Err()` is a line that is too long. A last line without a
line feed counts if there is something on it. Go library bufio; used in blocklistloader-http.go:94-98, 117-122 and blocklistloader-local.go:28-56. -/
def scan (data : Str) : List Str × Bool :=
  let r := rawLines [] data
  scanRaw (r.1 ++ if r.2 = [] then [] else [r.2])

/-- What http.DefaultClient makes of the request: blocklistloader-http.go 77-91. `failed`: NewRequest or Do returns an error. `readErr`: reading the body ends with an error. -/
inductive Http where
  | failed
  | response (code : Int) (body : Str) (readErr : Bool)
deriving DecidableEq, Repr

/-- HTTPLoader: blocklistloader-http.go 16-21, with the cache file on disk (its content, if it exists) as part of the state. -/
structure HttpLoader where
  allowFailure : Bool
  cacheDir : Bool
  fromDisk : Bool
  lastSuccess : List Str := []
  disk : Option Str := none
deriving DecidableEq, Repr

/-- NewHTTPLoader: 35-42. blocklistloader-http.go. -/
def newHttp (allowFailure cacheDir : Bool) (disk : Option Str) : HttpLoader := { allowFailure, cacheDir, fromDisk := cacheDir, disk }

/-- What happens to one Load: can the cache file be opened and read, what does the server do, can the cache file be written. The outside of blocklistloader-http.go:44-137. -/
structure Io where
  diskReadErr : Bool := false
  http : Http
  writeOk : Bool := true
deriving DecidableEq, Repr

/-- writeToDisk: 125-137 (what is written; the file is replaced atomically). blocklistloader-http.go. -/
def fileContent (rules : List Str) : Str := rules.flatMap fun r => r ++ [LF]

/-- loadFromDisk: 111-123. `none` = error. blocklistloader-http.go. -/
def loadFromDisk (l : HttpLoader) (io : Io) : Option (List Str) :=
  match l.disk with
  | none => none
  | some data =>
    let r := scan data
    if io.diskReadErr ∨ r.2 then none else some r.1

/-- Loading from the server: the loader, the rules and whether there is an error. 74-106. blocklistloader-http.go. -/
def fetch (l : HttpLoader) (io : Io) : HttpLoader × List Str × Bool :=
  match io.http with
  | .failed => (l, [], true)
  | .response code body readErr =>
    if code < 200 ∨ code > 299 then (l, [], true)
    else
      let r := scan body
      let err := readErr || r.2
      let l' := if ! err && l.cacheDir && io.writeOk then { l with disk := some (fileContent r.1) } else l
      (l', r.1, err)

/-- The named results of Load before the deferred function: 61-106. blocklistloader-http.go. -/
def loadBody (l : HttpLoader) (io : Io) : HttpLoader × List Str × Bool :=
  match if l.fromDisk then loadFromDisk l io else none with
  | some rules => ({ l with fromDisk := false }, rules, false)
  | none => fetch { l with fromDisk := false } io

/-- The deferred function and the result: 50-59. `none` = Load returns an error. blocklistloader-http.go. -/
def load (l : HttpLoader) (io : Io) : HttpLoader × Option (List Str) :=
  match loadBody l io with
  | (l', rules, err) =>
    if err && l.allowFailure then (l', some l'.lastSuccess)
    else ({ l' with lastSuccess := rules }, if err then none else some rules)

/-- FileLoader: blocklistloader-local.go 10-14 -/
structure FileLoader where
  allowFailure : Bool
  lastSuccess : List Str := []
deriving DecidableEq, Repr

/-- What the local file is like when it is read. blocklistloader-local.go:28-56. -/
inductive Local where
  | missing
  | content (data : Str) (readErr : Bool)
deriving DecidableEq, Repr

/-- FileLoader.Load: blocklistloader-local.go 28-56 -/
def loadLocal (l : FileLoader) (f : Local) : FileLoader × Option (List Str) :=
  let (rules, err) := match f with
    | .missing => ([], true)
    | .content data readErr => ((scan data).1, readErr || (scan data).2)
  if err && l.allowFailure then (l, some l.lastSuccess) else ({ l with lastSuccess := rules }, if err then none else some rules)

/-- Repeated loads: the results in order and the loader at the end. blocklistloader-http.go:44-107. -/
def loads (l : HttpLoader) : List Io → List (Option (List Str)) × HttpLoader
  | [] => ([], l)
  | io :: ios => let (l', r) := load l io; let (rs, l'') := loads l' ios; (r :: rs, l'')

/-- Repeated loads, blocklistloader-local.go:28-56 -/
def loadsLocal (l : FileLoader) : List Local → List (Option (List Str))
  | [] => []
  | f :: fs => let (l', r) := loadLocal l f; r :: loadsLocal l' fs

end Verif.Loader
