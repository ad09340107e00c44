/-
The life of a listener: `Start` and `Stop` of dnslistener.go:47-77, dotlistener.go:49-72, dtlslistener.go:45-82, doqlistener.go:83-143, dohlistener.go:120-209,
adminlistener.go:72-160, xsocketserver_linux.go:56-90.

A step machine for one listener object. `Start` is called again and again, one call at a time (cmd/routedns/main.go:448-458, cmd/routedns/main.go:1225-1320); `Stop` any number of times, by anybody, at
any time. Sockets are numbered by the call of `Start` that opened them. Contracts of the libraries:
* `http.Server`: `Shutdown` closes the listeners being served and makes `Serve` return, also one that is called later.
* `http3.Server`, `quic.EarlyListener`: `Close` makes `ServeListener` and `Accept` return, also if called later; the UDP socket stays open.
* `dns.Server` (miekg): `ListenAndServe` and `ActivateAndServe` fail if the server is started; serving closes the socket when it ends; only `Shutdown` makes the server not started,
  it fails if the server is not started, and it waits until serving has ended.
* Serving may end with an error at any time (`fail`).
What `Start` and `Stop` return, connections and handlers are not modelled.
-/
namespace Verif.LifeCycle

/-- The listeners of dnslistener.go:47-77, dotlistener.go:49-72, dtlslistener.go:45-82, doqlistener.go:83-143, dohlistener.go:120-209, adminlistener.go:72-160 and xsocketserver_linux.go:56-90 -/
inductive Kind where
  /-- DoH and admin over TCP -/
  | http
  /-- DoH and admin over QUIC -/
  | h3
  | doq
  /-- DNS and DoT, the library opens the socket -/
  | dns (udp : Bool)
  /-- DNS and DoT in a namespace or with socket options, DTLS: `Start` opens the socket -/
  | own (udp : Bool)
  /-- `XSocketServer` -/
  | xs
deriving DecidableEq, Repr

/-- Where the call of `Start` is. dnslistener.go:47-77, dotlistener.go:49-72, dtlslistener.go:45-82, doqlistener.go:83-143, dohlistener.go:120-209, adminlistener.go:72-160 and xsocketserver_linux.go:56-90. -/
inductive Phase where
  | idle
  | entered
  /-- the socket is open -/
  | bound
  /-- QUIC: `ListenEarly` succeeded -/
  | early
  /-- the handles are where `Stop` finds them -/
  | ready
  | serving
deriving DecidableEq, Repr

/-- Where a call of `Stop` is. dnslistener.go:47-77, dotlistener.go:49-72, dtlslistener.go:45-82, doqlistener.go:83-143, dohlistener.go:120-209, adminlistener.go:72-160 and xsocketserver_linux.go:56-90. -/
inductive Stop where
  | none
  | called
  /-- has read the handles of that call of `Start` -/
  | holding (g : Nat)
  /-- has closed the server; the rest is to be closed -/
  | closing (g : Nat)
  /-- `dns.Server.Shutdown` waits -/
  | waiting (g : Nat)
  /-- returned; the call of `Start` it was about -/
  | returned (g : Option Nat)
deriving DecidableEq, Repr

/-- A listener object of dnslistener.go:47-77, dotlistener.go:49-72, dtlslistener.go:45-82, doqlistener.go:83-143, dohlistener.go:120-209, adminlistener.go:72-160 and xsocketserver_linux.go:56-90 -/
structure Sys where
  phase : Phase := .idle
  /-- calls of `Start` so far; the running one has this number -/
  gen : Nat := 0
  /-- the sockets that are open -/
  opened : List Nat := []
  /-- the handles in the object: those of that call of `Start` -/
  pub : Option Nat := none
  /-- servers and QUIC listeners closed -/
  shut : List Nat := []
  /-- `dns.Server.started` -/
  started : Bool := false
  /-- `XSocketServer.closed` -/
  closed : Bool := false
  stops : Nat → Stop := fun _ => .none

/-- The steps of dnslistener.go:47-77, dotlistener.go:49-72, dtlslistener.go:45-82, doqlistener.go:83-143, dohlistener.go:120-209, adminlistener.go:72-160 and xsocketserver_linux.go:56-90 -/
inductive Ev where
  /-- `Start` is called -/
  | start
  /-- the socket is opened -/
  | listen (ok : Bool)
  /-- `ListenEarly` -/
  | early (ok : Bool)
  /-- the handles are stored -/
  | publish
  /-- `ActivateAndServe`; `ok`: the options of the socket can be set -/
  | activate (ok : Bool)
  /-- `Serve`, `ServeTLS`, `ServeListener` are called -/
  | serve
  /-- serving ends, or accepting fails, without a `Stop` -/
  | fail
  /-- serving ends because of a `Stop` -/
  | ended
  /-- `Stop` is called: call `i` -/
  | stop (i : Nat)
  /-- it looks at the handles -/
  | look (i : Nat)
  /-- it closes the server -/
  | shut (i : Nat)
  /-- it closes the rest and returns -/
  | finish (i : Nat)
deriving DecidableEq, Repr

/-- A socket is closed in dnslistener.go:47-77, dotlistener.go:49-72, dtlslistener.go:45-82, doqlistener.go:83-143, dohlistener.go:120-209, adminlistener.go:72-160 and xsocketserver_linux.go:56-90 -/
def close (s : Sys) (g : Nat) : Sys := { s with opened := s.opened.filter (· ≠ g) }

/-- `Start` returns. dnslistener.go:47-77, dotlistener.go:49-72, dtlslistener.go:45-82, doqlistener.go:83-143, dohlistener.go:120-209, adminlistener.go:72-160 and xsocketserver_linux.go:56-90. -/
def ret (s : Sys) : Sys := { s with phase := .idle }

/-- `Start` returns after closing its socket. dnslistener.go:47-77, dotlistener.go:49-72, dtlslistener.go:45-82, doqlistener.go:83-143, dohlistener.go:120-209, adminlistener.go:72-160 and xsocketserver_linux.go:56-90. -/
def closeRet (s : Sys) : Sys := ret (close s s.gen)

/-- A call of `Stop` goes on in dnslistener.go:47-77, dotlistener.go:49-72, dtlslistener.go:45-82, doqlistener.go:83-143, dohlistener.go:120-209, adminlistener.go:72-160 and xsocketserver_linux.go:56-90 -/
def setStop (s : Sys) (i : Nat) (v : Stop) : Sys := { s with stops := fun x => if x = i then v else s.stops x }

/-- `Start` is called, dnslistener.go:47-77, dotlistener.go:49-72, dtlslistener.go:45-82, doqlistener.go:83-143, dohlistener.go:120-209, adminlistener.go:72-160 and xsocketserver_linux.go:56-90 -/
def begin (s : Sys) : Option Sys := if s.phase = .idle then some { s with phase := .entered, gen := s.gen + 1 } else none

/-- The socket is opened in phase `p`. `ListenInNetNS` and `ListenUDPInNetNS`, netns_linux.go:86-141. -/
def listen (s : Sys) (p : Phase) (ok : Bool) : Option Sys :=
  if s.phase = p then some (if ok then { s with phase := .bound, opened := s.gen :: s.opened } else ret s) else none

/-- dohlistener.go:129-150, adminlistener.go:84-102 `startTCP`. `ServeTLS` may fail before it serves (certificates). -/
def http (s : Sys) : Ev → Option Sys
  | .start => begin s
  | .publish => if s.phase = .entered then some { s with phase := .ready, pub := some s.gen } else none
  | .listen ok => listen s .ready ok
  | .serve => if s.phase = .bound then some (if s.gen ∈ s.shut then closeRet s else { s with phase := .serving }) else none
  | .fail => if s.phase = .bound ∨ s.phase = .serving then some (closeRet s) else none
  | .ended => if s.phase = .serving ∧ s.gen ∈ s.shut then some (closeRet s) else none
  | _ => none

/-- `ListenEarly`: doqlistener.go:93-100, dohlistener.go:164-171, adminlistener.go:116-120 -/
def listenEarly (s : Sys) (ok : Bool) : Option Sys :=
  if s.phase = .bound then some (if ok then { s with phase := .early } else closeRet s) else none

/-- dohlistener.go:153-184, adminlistener.go:105-132 `startQUIC`: when `ServeListener` returns, so does `Start` -/
def h3 (s : Sys) : Ev → Option Sys
  | .start => begin s
  | .listen ok => listen s .entered ok
  | .early ok => listenEarly s ok
  | .publish => if s.phase = .early then some { s with phase := .ready, pub := some s.gen } else none
  | .serve => if s.phase = .ready then some (if s.gen ∈ s.shut then ret s else { s with phase := .serving }) else none
  | .fail => if s.phase = .serving then some (ret s) else none
  | .ended => if s.phase = .serving ∧ s.gen ∈ s.shut then some (ret s) else none
  | _ => none

/-- doqlistener.go:83-124: after an error that is not due to `Stop` the loop goes on -/
def doq (s : Sys) : Ev → Option Sys
  | .start => begin s
  | .listen ok => listen s .entered ok
  | .early ok => listenEarly s ok
  | .publish => if s.phase = .early then some { s with phase := .serving, pub := some s.gen } else none
  | .fail => if s.phase = .serving ∧ ¬ s.gen ∈ s.shut then some s else none
  | .ended => if s.phase = .serving ∧ s.gen ∈ s.shut then some (ret s) else none
  | _ => none

/-- dnslistener.go:52, dotlistener.go:62: `ListenAndServe` -/
def dns (s : Sys) : Ev → Option Sys
  | .start => begin s
  | .listen ok => if s.phase = .entered then
      some (if s.started then ret s
        else if ok then { s with phase := .serving, opened := s.gen :: s.opened, pub := some s.gen, started := true } else ret s)
    else none
  | .fail => if s.phase = .serving then some (closeRet s) else none
  | .ended => if s.phase = .serving ∧ s.started = false then some (closeRet s) else none
  | _ => none

/-- dnslistener.go:55-73, dotlistener.go:54-61, dtlslistener.go:65-75: the socket is opened and stored in the server, then `ActivateAndServe` -/
def own (udp : Bool) (s : Sys) : Ev → Option Sys
  | .start => begin s
  | .listen ok => listen s .entered ok
  | .publish => if s.phase = .bound then some { s with phase := .ready, pub := some s.gen } else none
  | .activate ok => if s.phase = .ready then
      some (if s.started then ret s else if ok || !udp then { s with phase := .serving, started := true } else ret s)
    else none
  | .fail => if s.phase = .serving then some (closeRet s) else none
  | .ended => if s.phase = .serving ∧ s.started = false then some (closeRet s) else none
  | _ => none

/-- xsocketserver_linux.go:56-79 -/
def xs (s : Sys) : Ev → Option Sys
  | .start => begin s
  | .listen ok => listen s .entered ok
  | .publish => if s.phase = .bound then
      some (if s.closed then closeRet s else { s with phase := .serving, pub := some s.gen })
    else none
  | .fail => if s.phase = .serving then some (ret s) else none
  | .ended => if s.phase = .serving ∧ ¬ s.gen ∈ s.opened then some (ret s) else none
  | _ => none

/-- The next step of `Start`. The lines are given at the functions for each kind (dnslistener.go:47-73 and so on). -/
def startStep : Kind → Sys → Ev → Option Sys
  | .http => http
  | .h3 => h3
  | .doq => doq
  | .dns _ => dns
  | .own udp => own udp
  | .xs => xs

/-- Closes the socket whose handle is in the object. `Stop` of dohlistener.go:187-209, doqlistener.go:127-143, dtlslistener.go:79-82, xsocketserver_linux.go:82-90. -/
def closePub (s : Sys) : Sys := match s.pub with
  | some g => close s g
  | none => s

/-- doqlistener.go:129-136, dohlistener.go:189-196 and 205-207, adminlistener.go:140-147 and 156-158: handles are read under the lock -/
def lookHandles (s : Sys) (i : Nat) : Sys := match s.pub with
  | some g => setStop s i (.holding g)
  | none => setStop s i (.returned none)

/-- dnslistener.go:75-77, dotlistener.go:66-72, dtlslistener.go:79-82: the first part of `Shutdown`. A TCP listener is closed, for UDP reading is ended. -/
def lookDns (udp : Bool) (s : Sys) (i : Nat) : Sys :=
  if s.started then setStop (if udp then { s with started := false } else closePub { s with started := false }) i (.waiting (s.pub.getD 0))
  else setStop s i (.returned none)

/-- The first thing `Stop` does. xsocketserver_linux.go:82-90: all of it under the lock. -/
def look : Kind → Sys → Nat → Sys
  | .dns udp, s, i => lookDns udp s i
  | .own udp, s, i => lookDns udp s i
  | .xs, s, i => setStop (closePub { s with closed := true }) i (.returned s.pub)
  | _, s, i => lookHandles s i

/-- dohlistener.go:197 and 208, doqlistener.go:137, adminlistener.go:148 and 159: the server is closed -/
def shutServer (k : Kind) (s : Sys) (i g : Nat) : Sys :=
  let s1 := { s with shut := g :: s.shut }
  setStop (if k = .http ∧ s.phase = .serving ∧ s.gen = g then close s1 g else s1) i (.closing g)

/-- dohlistener.go:201-203, doqlistener.go:140-142, adminlistener.go:152-154: transport and UDP socket are closed; `Shutdown` of an HTTP server has nothing more to close -/
def closeRest (k : Kind) (s : Sys) (i g : Nat) : Sys :=
  setStop (if k = .http then s else close s g) i (.returned (some g))

/-- The end of `dns.Server.Shutdown`: it closes the `PacketConn` of the server, for UDP. miekg/dns; called in dnslistener.go:75-77, dotlistener.go:66-72. -/
def endShutdown (k : Kind) (s : Sys) (i g : Nat) : Sys :=
  setStop (if k = .dns true ∨ k = .own true then closePub s else s) i (.returned (some g))

/-- One step; `none`: it cannot happen. dnslistener.go:47-77, dotlistener.go:49-72, dtlslistener.go:45-82, doqlistener.go:83-143, dohlistener.go:120-209, adminlistener.go:72-160 and xsocketserver_linux.go:56-90. -/
def step (k : Kind) (s : Sys) : Ev → Option Sys
  | .stop i => if s.stops i = .none then some (setStop s i .called) else none
  | .look i => if s.stops i = .called then some (look k s i) else none
  | .shut i => match s.stops i with
    | .holding g => some (shutServer k s i g)
    | _ => none
  | .finish i => match s.stops i with
    | .closing g => some (closeRest k s i g)
    | .waiting g => if s.phase = .serving ∧ s.gen = g then none else some (endShutdown k s i g)
    | _ => none
  | e => startStep k s e

/-- dnslistener.go:47-77, dotlistener.go:49-72, dtlslistener.go:45-82, doqlistener.go:83-143, dohlistener.go:120-209, adminlistener.go:72-160 and xsocketserver_linux.go:56-90, in any interleaving -/
def run (k : Kind) : Sys → List Ev → Option Sys
  | s, [] => some s
  | s, e :: es => (step k s e).bind (run k · es)

end Verif.LifeCycle
