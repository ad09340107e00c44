/-
netns_linux.go:46-82 `RunInNetNS` (without xsocket): several goroutines, each on its own operating-system thread (`runtime.LockOSThread`), switch to network namespaces and back.

Thread 0 is the leader of the process, its main thread: `/proc/self/ns/net` (netns_linux.go:58) is the namespace of that thread, whoever opens it (proc(5); that of the
calling thread would be `/proc/thread-self/ns/net`). Between two calls a thread may run any other work of the program.
-/
namespace Verif.Setns

/-- How far a call has come on a thread. netns_linux.go:47-84. -/
inductive Phase where
  /-- no call: the thread runs other work -/
  | out
  /-- netns_linux.go:58-69: the current namespace has been opened -/
  | saved (orig : Nat)
  /-- netns_linux.go:72-81: within the target namespace, `fn` runs -/
  | inside (orig : Nat)
deriving DecidableEq, Repr

/-- The namespace of every thread, and the calls in progress. netns_linux.go:47-84. -/
structure Sys where
  ns : Nat → Nat
  phase : Nat → Phase

/-- The steps of netns_linux.go:47-84 -/
inductive Ev where
  /-- netns_linux.go:54-62: lock the thread, open `/proc/self/ns/net` -/
  | save (t : Nat)
  /-- netns_linux.go:65-74: opening the target or switching to it fails, the call ends with an error -/
  | fail (t : Nat)
  /-- netns_linux.go:72: `setns` to the target -/
  | switch (t : Nat) (target : Nat)
  /-- netns_linux.go:79: the deferred `setns`; its error is ignored -/
  | back (t : Nat) (ok : Bool)
deriving DecidableEq, Repr

/-- One thread of netns_linux.go:47-84 changes -/
def upd {α : Type} (f : Nat → α) (t : Nat) (v : α) : Nat → α := fun x => if x = t then v else f x

/-- One step; `none` if it cannot happen. netns_linux.go:47-84. -/
def step (s : Sys) : Ev → Option Sys
  | .save t => match s.phase t with
    | .out => some { s with phase := upd s.phase t (.saved (s.ns 0)) }
    | _ => none
  | .fail t => match s.phase t with
    | .saved _ => some { s with phase := upd s.phase t .out }
    | _ => none
  | .switch t target => match s.phase t with
    | .saved o => some { ns := upd s.ns t target, phase := upd s.phase t (.inside o) }
    | _ => none
  | .back t ok => match s.phase t with
    | .inside o => some { ns := if ok then upd s.ns t o else s.ns, phase := upd s.phase t .out }
    | _ => none

/-- netns_linux.go:47-84, in any interleaving -/
def run (s : Sys) : List Ev → Option Sys
  | [] => some s
  | e :: es => (step s e).bind (run · es)

/-- The program as it starts: every thread in the namespace `home`. The state before the first call of netns_linux.go:47-84. -/
def init (home : Nat) : Sys := { ns := fun _ => home, phase := fun _ => .out }

end Verif.Setns
