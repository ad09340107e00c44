import Verif.Model.Blocklist
/-
static.go, static-template.go, template.go, replace.go, drop.go, syslog.go, query-log.go.
-/
namespace Verif.Static
open Verif Verif.Blocklist

/-! ### Static responses -/

/-- static.go:10-35. A record is `none` if it is nil: `dns.NewRR` gives nil without error for a text without a record (empty, or a comment). -/
structure Static where
  answer : List (Option RR) := []
  ns : List (Option RR) := []
  extra : List (Option RR) := []
  rcode : Nat := 0
  truncate : Bool := false
  ede : Option Ede := none

/-- static.go:38-57: all records or the error; `newRR` is `dns.NewRR` -/
def parseRRs (newRR : Str → Option (Option RR)) : List Str → Option (List (Option RR))
  | [] => some []
  | s :: ss => match newRR s with
    | none => none
    | some rr => (parseRRs newRR ss).map (rr :: ·)

/-- static.go:34-63 `NewStaticResolver` -/
def newStatic (newRR : Str → Option (Option RR)) (answer ns extra : List Str) (rcode : Nat) (truncate : Bool) (ede : Option Ede) : Option Static := do
  let a ← parseRRs newRR answer
  let n ← parseRRs newRR ns
  let e ← parseRRs newRR extra
  pure { answer := a, ns := n, extra := e, rcode := rcode, truncate := truncate, ede := ede }

/-- message.go:40-45 `qName` -/
def qName (q : Msg) : Str := match q.question with
  | [] => []
  | qu :: _ => qu.name

/-- message.go:118-127 `copyRRs`; `dns.Copy` panics on nil (`none`) -/
def copyRRs : List (Option RR) → Option (List RR)
  | [] => some []
  | none :: _ => none
  | some rr :: rrs => (copyRRs rrs).map (rr :: ·)

/-- static.go:66-93 `Resolve` -/
def resolve (s : Static) (q : Msg) : Option Res := do
  let a ← copyRRs s.answer
  let n ← copyRRs s.ns
  let e ← copyRRs s.extra
  let m := { setReply q with ra := true, aa := true, ns := n, extra := e, answer := a.map fun rr => { rr with name := qName q }, rcode := s.rcode, tc := s.truncate }
  pure (.ok (applyEde s.ede m q none))

/-! Records in memory. The resolver keeps the addresses of its records; a response is given as the addresses of its records. -/

/-- Memory: address → record. The records of static.go:10-20. -/
abbrev Mem := List RR

/-- message.go:118-127 `copyRRs`: every record is copied to a new place -/
def copyAll : Mem → List Nat → Mem × List Nat
  | mem, [] => (mem, [])
  | mem, a :: as => match mem[a]? with
    | none => copyAll mem as
    | some rr =>
      let (mem', as') := copyAll (mem ++ [rr]) as
      (mem', mem.length :: as')

/-- static.go:80-82: the names are written in place -/
def setNames (name : Str) : Mem → List Nat → Mem
  | mem, [] => mem
  | mem, a :: as => match mem[a]? with
    | none => setNames name mem as
    | some rr => setNames name (mem.set a { rr with name := name }) as

/-- A response: the addresses of the records of its three sections. static.go:66-93. -/
structure Resp where
  answer : List Nat
  ns : List Nat
  extra : List Nat
deriving DecidableEq, Repr

/-- The resolver with all its responses so far. static.go:10-20, 66-93. -/
structure Sys where
  mem : Mem
  answer : List Nat
  ns : List Nat
  extra : List Nat
  resps : List Resp := []

/-- A query (static.go:66-93), or a change of a response by whoever has it -/
inductive Ev where
  /-- a query for this name -/
  | query (name : Str)
  /-- whoever has response `k` writes to the `i`-th record of it -/
  | write (k i : Nat) (rr : RR)

/-- static.go:75-82 -/
def makeResp (s : Sys) (name : Str) : Mem × Resp :=
  let (m1, a) := copyAll s.mem s.answer
  let (m2, n) := copyAll m1 s.ns
  let (m3, e) := copyAll m2 s.extra
  (setNames name m3 a, ⟨a, n, e⟩)

/-- static.go:66-93 -/
def step (s : Sys) : Ev → Sys
  | .query name =>
    let (m, r) := makeResp s name
    { s with mem := m, resps := s.resps ++ [r] }
  | .write k i rr => match s.resps[k]? with
    | none => s
    | some r => match (r.answer ++ r.ns ++ r.extra)[i]? with
      | none => s
      | some a => { s with mem := s.mem.set a rr }

/-- The resolver right after static.go:34-63 -/
def init (answer ns extra : List RR) : Sys :=
  { mem := answer ++ ns ++ extra,
    answer := List.range' 0 answer.length, ns := List.range' answer.length ns.length, extra := List.range' (answer.length + ns.length) extra.length }

/-- Any number of events of static.go:66-93 -/
def run (s : Sys) : List Ev → Sys
  | [] => s
  | e :: es => run (step s e) es

/-! ### Templates -/

/-- static-template.go:10-18; a template is a function that may fail (template.go:44-51) -/
structure Template where
  answer : List (TemplateInput → Option Str) := []
  ns : List (TemplateInput → Option Str) := []
  extra : List (TemplateInput → Option Str) := []
  rcode : Nat := 0
  truncate : Bool := false
  ede : Option Ede := none

/-- static-template.go:80-111 `processRRTemplates` -/
def process (newRR : Str → Option (Option RR)) (q : Msg) (ts : List (TemplateInput → Option Str)) : List (Option RR) :=
  let qu := q.question.head?.getD ⟨[], 0, 0⟩
  ts.filterMap fun t => (t { id := q.id, question := qu.name, qclass := qu.qclass, qtype := qu.qtype }).bind newRR

/-- static-template.go:54-74 `Resolve`; `none`: the response has a nil record, which cannot be sent -/
def resolveTemplate (newRR : Str → Option (Option RR)) (t : Template) (q : Msg) : Option Res := do
  let a ← copyRRs (process newRR q t.answer)
  let n ← copyRRs (process newRR q t.ns)
  let e ← copyRRs (process newRR q t.extra)
  let m := { setReply q with ra := true, aa := true, ns := n, extra := e, answer := a, rcode := t.rcode, tc := t.truncate }
  pure (.ok (applyEde t.ede m q none))

/-! ### Replace -/

/-- replace.go:27-32 `apply`; an expression is the function `regexp.ReplaceAllString` for it -/
def apply (exps : List (Str → Str)) (name : Str) : Str := exps.foldl (fun n f => f n) name

/-- replace.go:56-95 `Resolve`; `none` is the panic on a query without question -/
def resolveReplace (exps : List (Str → Str)) (up : Msg → Res) (q : Msg) : Option Res := match q.question with
  | [] => none
  | qu :: rest =>
    let new := apply exps qu.name
    if new = qu.name then some (up q)
    else
      let r := up { q with question := { qu with name := new } :: rest }
      match r.err, r.msg with
      | some e, _ => some (.fail e)
      | none, none => some .drop
      | none, some a => some (.ok { a with
          question := match a.question with
            | [] => []
            | x :: xs => { x with name := qu.name } :: xs
          answer := a.answer.map fun rr => if rr.name = new then { rr with name := qu.name } else rr })

/-! ### Logging and dropping -/

/-- drop.go:21-24 -/
def resolveDrop : Res := .drop

/-- The lines of syslog.go:67, 91, 99, 106 -/
inductive Line where
  | query
  | answer (i n : Nat) (rr : RR)
  | nodata
  | code (rcode : Nat)
deriving DecidableEq, Repr

/-- syslog.go:89-96: the records, numbered from `i` -/
def answerLines (n : Nat) : Nat → List RR → List Line
  | _, [] => []
  | i, rr :: rrs => .answer (i + 1) n rr :: answerLines n (i + 1) rrs

/-- syslog.go:29-40: which lines are wanted -/
structure SyslogOptions where
  logRequest : Bool := false
  logResponse : Bool := false
  verbose : Bool := false

/-- syslog.go:59-114 `Resolve`: the result, and the lines written in this order. `none` is the panic on a query without question (only when the answers are looked at). `connected`: there is a
connection to syslog. Whether writing succeeds makes no difference. -/
def resolveSyslog (o : SyslogOptions) (connected : Bool) (up : Msg → Res) (q : Msg) : Option (Res × List Line) :=
  if ! connected then some (up q, [])
  else
    let first := if o.logRequest then [Line.query] else []
    let r := up q
    match r.err, r.msg with
    | none, some a =>
      if ! o.logResponse then some (r, first)
      else if a.rcode = rcodeSuccess then
        let rrs : Option (List RR) := if o.verbose then some a.answer else match a.answer, q.question with
          | [], _ => some []
          | _, [] => none
          | ans, qu :: _ => some (ans.filter fun rr => rr.rtype = qu.qtype)
        rrs.map fun rrs => (r, first ++ answerLines rrs.length 0 rrs ++ if rrs = [] then [.nodata] else [])
      else some (r, first ++ [.code a.rcode])
    | _, _ => some (r, first)

/-- The attributes of a query log line: query-log.go 66-84 (the client address and the texts of class and type are left out). -/
structure LogAttrs where
  name : Str
  qclass : Nat
  qtype : Nat
  ecs : List (List UInt8) := []
deriving DecidableEq, Repr

/-- QueryLogResolver.Resolve: query-log.go 65-88. `none` = panic without a question. -/
def resolveQueryLog (up : Msg → Res) (q : Msg) : Option (Res × LogAttrs) :=
  match q.question with
  | [] => none
  | qu :: _ =>
    let ecs := match q.edns? with
      | none => []
      | some e => e.options.filterMap fun o => match o with | .ecs _ _ _ addr => some addr | _ => none
    some (up q, ⟨qu.name, qu.qclass, qu.qtype, ecs⟩)

end Verif.Static
