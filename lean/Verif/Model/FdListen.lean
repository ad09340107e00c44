import Verif.Model.Bytes
/-
Opening and closing the socket of the fd-server: `listen` and `Stop` of xsocketserver_linux.go, for any number of servers that use one path.

A step machine: what is at the path, and how far the call of `listen` of each server has come. `net.ListenUnix` is two steps (bind, listen). What the kernel does: `bind` fails with
EADDRINUSE when anything is at the path; `connect` to something behind which nobody listens is refused (ECONNREFUSED), also when it is no socket; a listener that is closed
unlinks its path, whatever is there (net/unixsock_posix.go).
-/
namespace Verif.FdListen
open Verif

/-- What is at the path (or behind the abstract name). The file system, as seen by xsocketserver_linux.go:56-124. -/
inductive Node where
  /-- the socket of server `i`, with its permissions (`none`: those that the umask left) -/
  | sock (i : Nat) (perm : Option Nat)
  /-- a file, an empty directory, or a socket to which no process listens any more -/
  | dead
  /-- a socket to which another program listens -/
  | foreign
deriving DecidableEq, Repr

/-- How far a server is. xsocketserver_linux.go:56-124. -/
inductive Phase where
  | idle
  /-- its socket is bound and does not listen yet -/
  | bound
  /-- accepts connections, `listen` has not returned -/
  | listening
  /-- xsocketserver_linux.go:96: the address is in use -/
  | inUse
  /-- xsocketserver_linux.go:102: nobody answers -/
  | refused
  /-- xsocketserver_linux.go:109: the file has been removed -/
  | removed
  /-- `listen` has returned a listener -/
  | up
  /-- `listen` has returned an error -/
  | failed
  /-- stopped, or its process has ended -/
  | gone
deriving DecidableEq, Repr

/-- xsocketserver_linux.go:93, 115: the path starts with `@`; the configured mode (0: none) -/
structure Cfg where
  abstract : Bool := false
  mode : Nat := 0

/-- The path, and all servers that use it (xsocketserver_linux.go:56-124) -/
structure Sys where
  node : Option Node := none
  srv : Nat → Phase := fun _ => .idle

/-- The steps of xsocketserver_linux.go:56-124 and of the kernel; the lines are given at the cases -/
inductive Ev where
  /-- xsocketserver_linux.go:95: first attempt to bind; `err`: fails for another reason -/
  | bind (i : Nat) (err : Bool)
  /-- the second half of `net.ListenUnix` -/
  | listen (i : Nat) (ok : Bool)
  /-- xsocketserver_linux.go:99; `err`: fails for another reason than that nobody listens -/
  | dial (i : Nat) (err : Bool)
  /-- xsocketserver_linux.go:106 -/
  | remove (i : Nat) (ok : Bool)
  /-- xsocketserver_linux.go:109 -/
  | rebind (i : Nat) (err : Bool)
  /-- xsocketserver_linux.go:114-120 -/
  | chmod (i : Nat) (ok : Bool)
  /-- xsocketserver_linux.go:82-90 `Stop`; also line 64, when `Stop` came first -/
  | stop (i : Nat)
  /-- the process of a server ends -/
  | crash (i : Nat)
  /-- somebody else changes what is at the path -/
  | outside (n : Option Node)
deriving DecidableEq, Repr

/-- A server goes on in xsocketserver_linux.go:56-124 -/
def setPhase (s : Sys) (i : Nat) (p : Phase) : Nat → Phase := fun x => if x = i then p else s.srv x

/-- Somebody accepts connections there. The kernel, for the `Dial` in xsocketserver_linux.go:99. -/
def answers (s : Sys) : Bool := match s.node with
  | some (.sock i _) => s.srv i = .listening ∨ s.srv i = .up
  | some .foreign => true
  | _ => false

/-- The node belongs to server `i`. For xsocketserver_linux.go:56-124. -/
def isOf (i : Nat) : Option Node → Bool
  | some (.sock j _) => j = i
  | _ => false

/-- What the kernel frees when the descriptor of server `i` is closed: a file stays, an abstract name does not. The kernel, for xsocketserver_linux.go:82-90. -/
def freed (c : Cfg) (s : Sys) (i : Nat) : Option Node := if c.abstract = true ∧ isOf i s.node then none else s.node

/-- `ln.Close()`: unlinks the path, whatever is there. Called in xsocketserver_linux.go:82-90 and 115-122. -/
def closed (c : Cfg) (s : Sys) (i : Nat) : Option Node := if c.abstract then freed c s i else none

/-- xsocketserver_linux.go:116: the mode is set on whatever is at the path -/
def chmodded (m : Nat) : Option Node → Option Node
  | some (.sock i _) => some (.sock i (some m))
  | n => n

/-- One step; `none` if it cannot happen. xsocketserver_linux.go:56-124. -/
def step (c : Cfg) (s : Sys) : Ev → Option Sys
  | .bind i err => if s.srv i = .idle then
      if err then some { s with srv := setPhase s i .failed }
      else if s.node = none then some { node := some (.sock i none), srv := setPhase s i .bound }
      else if c.abstract then some { s with srv := setPhase s i .failed }
      else some { s with srv := setPhase s i .inUse }
    else none
  | .listen i ok => if s.srv i = .bound then
      if ok then some { s with srv := setPhase s i .listening }
      else some { node := freed c s i, srv := setPhase s i .failed }
    else none
  | .dial i err => if s.srv i = .inUse then
      if err ∨ s.node = none ∨ answers s = true then some { s with srv := setPhase s i .failed }
      else some { s with srv := setPhase s i .refused }
    else none
  | .remove i ok => if s.srv i = .refused then
      if ok = false ∨ s.node = none then some { s with srv := setPhase s i .failed }
      else some { node := none, srv := setPhase s i .removed }
    else none
  | .rebind i err => if s.srv i = .removed then
      if err ∨ s.node ≠ none then some { s with srv := setPhase s i .failed }
      else some { node := some (.sock i none), srv := setPhase s i .bound }
    else none
  | .chmod i ok => if s.srv i = .listening then
      if c.mode = 0 ∨ c.abstract = true then some { s with srv := setPhase s i .up }
      else if ok = false ∨ s.node = none then some { node := closed c s i, srv := setPhase s i .failed }
      else some { node := chmodded c.mode s.node, srv := setPhase s i .up }
    else none
  | .stop i => if s.srv i = .up then some { node := closed c s i, srv := setPhase s i .gone } else none
  | .crash i => some { node := freed c s i, srv := setPhase s i .gone }
  | .outside n => match n with
    | some (.sock _ _) => none
    | _ => if c.abstract = true ∧ s.node ≠ none ∧ s.node ≠ some .foreign then none else some { s with node := n }

/-- `strconv.ParseUint(s, 8, 32)`, the digits: `none` is an error. Go library; used in cmd/routedns/main.go:110-139. -/
def octal (acc : Nat) : Str → Option Nat
  | [] => some acc
  | b :: bs => if 0x30 ≤ b.toNat ∧ b.toNat < 0x38 then
      (if acc * 8 + (b.toNat - 0x30) < 4294967296 then octal (acc * 8 + (b.toNat - 0x30)) bs else none)
    else none

/-- cmd/routedns/main.go:117-124: the mode of the command line (never empty where `octal` is called); `none`: the program ends with an error -/
def modeOf (arg : Str) : Option Nat :=
  if arg = [] then some 0
  else match octal 0 arg with
    | some m => if m > 0o777 then none else some m
    | none => none

/-- xsocketserver_linux.go:56-124, in any interleaving -/
def run (c : Cfg) (s : Sys) : List Ev → Option Sys
  | [] => some s
  | e :: es => (step c s e).bind (run c · es)

end Verif.FdListen
