import Verif.Model.Dns
/-
lua.go and lua-script.go: running scripts for queries. What a script does is a parameter; modelled are the pool of script states, the
calling of the script's function with its results on the Lua stack, and what becomes of the results.
-/
namespace Verif.Lua
open Verif

/-- Lua values, as far as they are told apart: `other` are numbers, booleans, tables, functions …. gopher-lua, as told apart in lua.go:58-87 and lua-script.go:77-110. -/
inductive Val where
  | nil
  | msg (m : Msg)
  | err (e : Str)
  | userData
  | string (s : Str)
  | other
deriving DecidableEq

/-- lua-script.go:99-110: the types that can be returned -/
def Val.supported : Val → Bool
  | .other => false
  | _ => true

/-- The end of a protected call of the script's function: an error, or two values (`NRet: 2` cuts or fills up with nil). lua-script.go:77-110. -/
inductive End where
  | failed (e : Str)
  | values (first second : Val)
deriving DecidableEq

/-- A script state: the script's own variables, and what is on its stack (the top first). lua-script.go:16-20. -/
structure Script (σ : Type) where
  vars : σ
  stack : List Val

/-- What the script's function does: from its variables and the query to its variables and its end. `need`: how much room on the stack the
call takes. The user's script, called in lua-script.go:77-110. -/
structure Code (σ : Type) where
  exec : σ → Msg → ClientInfo → σ × End
  need : σ → Msg → ClientInfo → Nat
  /-- the size of the stack ("registry") -/
  room : Nat

/-- The error of gopher-lua when the stack is full (lua-script.go:77-110) -/
def overflow : Str := str "registry overflow"

/-- gopher-lua `CallByParam` with `Protect`: the results are left on the stack. An error leaves the stack as it was. The script's variables
when the stack overflows are simplified to unchanged. Called in lua-script.go:77-110. -/
def callByParam {σ : Type} (c : Code σ) (s : Script σ) (q : Msg) (ci : ClientInfo) : Script σ × Option Str :=
  if s.stack.length + c.need s.vars q ci > c.room then (s, some overflow)
  else match c.exec s.vars q ci with
    | (v, .failed e) => (⟨v, s.stack⟩, some e)
    | (v, .values a b) => (⟨v, b :: a :: s.stack⟩, none)

/-- lua-script.go:90-114: taking `n` values off the stack, last first; `none` is the error for an unsupported type, upon which the rest is
left there -/
def collect : Nat → List Val → List Val → Option (List Val) × List Val
  | 0, acc, st => (some acc, st)
  | n + 1, acc, v :: st => if v.supported then collect n (v :: acc) st else (none, st)
  | n + 1, acc, [] => collect n (.nil :: acc) []

/-- lua-script.go:77-116 `Call` with two results -/
def call {σ : Type} (c : Code σ) (s : Script σ) (q : Msg) (ci : ClientInfo) : Script σ × Option (List Val) :=
  match callByParam c s q ci with
  | (s, some _) => (s, none)
  | (s, none) =>
    let r := collect 2 [] s.stack
    (⟨s.vars, r.2⟩, r.1)

/-- What a query gets: the error of a script is kept apart from errors of this code. lua.go:58-87. -/
inductive Reply where
  | done (answer : Option Msg) (error : Option Str)
  | bad
deriving DecidableEq

/-- lua.go:69-85: the results of the call as answer and error -/
def reply : Option (List Val) → Reply
  | some [a, b] =>
    match a with
    | .nil => second none b
    | .msg m => second (some m) b
    | _ => .bad
  | _ => .bad
where second (answer : Option Msg) : Val → Reply
  | .nil => .done answer none
  | .err e => .done answer (some e)
  | _ => .bad

/-! ### The pool -/

/-- A query is waiting for a script state, is using one, has handed in its result, or is through. lua.go:58-87. -/
inductive Phase where
  | waiting
  | using (script : Nat)
  | returning (script : Nat) (r : Reply)
  | through (r : Reply)
deriving DecidableEq

/-- `pool` is the channel (oldest first); `scripts` are the script states by number; `queries` all queries that arrived. lua.go:11-20. -/
structure Sys (σ : Type) where
  scripts : List (Script σ)
  pool : List Nat
  queries : List (Msg × ClientInfo × Phase)

/-- The steps of lua.go:58-87 -/
inductive Ev where
  | arrive (q : Msg) (ci : ClientInfo)
  | take (i : Nat)
  | call (i : Nat)
  | put (i : Nat)

/-- lua.go:57-59, 63: the steps of `Resolve`; `none`: the step is not possible (blocked) -/
def step {σ : Type} (c : Code σ) (s : Sys σ) : Ev → Option (Sys σ)
  | .arrive q ci => some { s with queries := s.queries ++ [(q, ci, .waiting)] }
  | .take i => match s.queries[i]?, s.pool with
    | some (q, ci, .waiting), k :: rest => some { s with pool := rest, queries := s.queries.set i (q, ci, .using k) }
    | _, _ => none
  | .call i => match s.queries[i]? with
    | some (q, ci, .using k) => match s.scripts[k]? with
      | some x => some { s with scripts := s.scripts.set k (call c x q ci).1, queries := s.queries.set i (q, ci, .returning k (reply (call c x q ci).2)) }
      | none => none
    | _ => none
  | .put i => match s.queries[i]? with
    | some (q, ci, .returning k r) => if s.pool.length < s.scripts.length then some { s with pool := s.pool ++ [k], queries := s.queries.set i (q, ci, .through r) } else none
    | _ => none

/-- lua.go:27-55 `NewLua`: the concurrency defaults to 4; each script state has had the script's main part run, which gave its variables
and left its results on the stack -/
def start {σ : Type} (concurrency : Nat) (init : Script σ) : Sys σ :=
  let n := if concurrency = 0 then 4 else concurrency
  ⟨List.replicate n init, List.range n, []⟩

/-- lua.go:58-87, in any interleaving -/
def run {σ : Type} (c : Code σ) : Sys σ → List Ev → Option (Sys σ)
  | s, [] => some s
  | s, e :: es => (step c s e).bind fun s => run c s es

end Verif.Lua
