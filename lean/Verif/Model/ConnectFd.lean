/-
xsocket_linux.go:241-281 `connectFd`: connecting a descriptor within a time limit. What the system calls return is given; times are in nanoseconds.
-/
namespace Verif.ConnectFd

/-- unix.Errno, as used in xsocket_linux.go:241-281 -/
abbrev Errno := Nat

/-- xsocket_linux.go:249, 262 -/
def EINTR : Errno := 4
/-- xsocket_linux.go:249 -/
def EINPROGRESS : Errno := 115

/-- What one `poll` returns. xsocket_linux.go:261. -/
inductive Poll where
  | ready
  | timedOut
  | err (e : Errno)
deriving DecidableEq, Repr

/-- What xsocket_linux.go:241-281 returns -/
inductive Result where
  | connected
  /-- `os.ErrDeadlineExceeded` -/
  | timedOut
  /-- an error of this system call -/
  | err (call : String) (e : Errno)
deriving DecidableEq, Repr

/-- What the system calls return: `none` is no error. The system calls of xsocket_linux.go:241-281. -/
structure Calls where
  setNonblock : Option Errno
  connect : Option Errno
  /-- successive polls -/
  polls : List Poll
  /-- SO_ERROR -/
  soError : Except Errno Nat

/-- xsocket_linux.go:253-258: the limit of each poll, in milliseconds; -1 is none. (`poll` takes 32 bits; longer limits are not modelled.) -/
def limit (timeout : Int) : Int :=
  if timeout > 0 then (if timeout / 1000000 = 0 then 1 else timeout / 1000000) else -1

/-- xsocket_linux.go:273-280 -/
def finish (so : Except Errno Nat) : Result := match so with
  | .error e => .err "getsockopt" e
  | .ok e => if e ≠ 0 then .err "connect" e else .connected

/-- xsocket_linux.go:260-272: the loop, and the limits with which it polls; `none`: it still waits after these polls -/
def loop (timeout : Int) (so : Except Errno Nat) : List Poll → Option Result × List Int
  | [] => (none, [limit timeout])
  | .ready :: _ => (some (finish so), [limit timeout])
  | .timedOut :: _ => (some .timedOut, [limit timeout])
  | .err e :: ps => if e = EINTR then
      let r := loop timeout so ps
      (r.1, limit timeout :: r.2)
    else (some (.err "poll" e), [limit timeout])

/-- xsocket_linux.go:241-281 `connectFd` -/
def connectFd (timeout : Int) (c : Calls) : Option Result × List Int := match c.setNonblock with
  | some e => (some (.err "setnonblock" e), [])
  | none => match c.connect with
    | none => (some .connected, [])
    | some e => if e ≠ EINPROGRESS ∧ e ≠ EINTR then (some (.err "connect" e), []) else loop timeout c.soError c.polls

end Verif.ConnectFd
