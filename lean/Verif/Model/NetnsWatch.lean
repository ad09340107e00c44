/-
Listeners in network namespaces: netns_watch_linux.go (watcher) and cmd/routedns/main.go:1225-1350 (supervisor), for one namespace name and one listener.

A step machine: the file system, the kernel's queue of inotify events, the watcher's goroutine, the channel to the supervisor, the supervisor's goroutine and the goroutines in which
instances of the listener run. Every interleaving of their steps is an execution. Left out: other names (they change nothing here), the length of waits (a timer is
a step that may come at any time), `WaitNetNSReady` (cmd/routedns/main.go:1286; a wait between two steps), overflow of the kernel's queue.
-/
namespace Verif.NetnsWatch

/-- An instance of the listener. cmd/routedns/main.go:1225-1350. -/
inductive Inst where
  | unborn
  /-- `Start` has been called and has not bound its address yet -/
  | starting
  /-- serving in the namespace with this number -/
  | serving (gen : Nat)
  /-- `Start` has returned -/
  | done
deriving DecidableEq, Repr

/-- netns_watch_linux.go:150-173: how far `subscribe` has come -/
inductive Sub where
  | no
  /-- the file system has been asked (line 152); the watcher does not know the subscriber yet. `old`: events in the queue that are older than that (not part of the program,
  for the proofs) -/
  | asked (state : Bool) (old : Nat)
  | yes
deriving DecidableEq, Repr

/-- Where the supervisor is. cmd/routedns/main.go:1225-1350. -/
inductive Mode where
  /-- at the `select` of cmd/routedns/main.go:1267 -/
  | idle
  /-- cmd/routedns/main.go:1286-1289: waits for the namespace to be ready, then launches -/
  | waiting
  /-- cmd/routedns/main.go:1328-1350 `stopNetNSListener`: `Stop` has been called that often -/
  | stopping (calls : Nat)
deriving DecidableEq, Repr

/-- All that netns_watch_linux.go:97-241 and cmd/routedns/main.go:1225-1350 work on -/
structure Sys where
  /-- the namespace exists; namespaces of that name are numbered -/
  there : Bool := false
  gen : Nat := 0
  /-- inotify events not yet read: created (true) or deleted -/
  queue : List Bool := []
  sub : Sub := .no
  /-- the channel of the subscriber, oldest first -/
  chan : List Bool := []
  /-- `last`, `hasLast` -/
  last : Option Bool := none
  /-- supervisor: `present`, `ln`, `retryC ≠ nil` -/
  present : Bool := false
  cur : Option Nat := none
  retry : Bool := false
  mode : Mode := .idle
  /-- instances -/
  inst : Nat → Inst := fun _ => .unborn
  next : Nat := 0
  /-- given up by `stopNetNSListener` -/
  abandoned : List Nat := []
  /-- not part of the program, for the proofs: an event was dropped because the channel was full, or read by the watcher between lines 152 and 155 -/
  lost : Bool := false

/-- The steps of netns_watch_linux.go:97-241 and cmd/routedns/main.go:1225-1350, of the kernel and of the administrator -/
inductive Ev where
  | create
  | delete
  /-- the watcher reads an event -/
  | dispatch
  /-- netns_watch_linux.go:152 -/
  | ask
  /-- netns_watch_linux.go:154-160 -/
  | register
  /-- cmd/routedns/main.go:1268: the supervisor receives from the channel -/
  | receive
  /-- cmd/routedns/main.go:1289 `launch`; `ok`: `build` succeeds -/
  | launch (ok : Bool)
  /-- cmd/routedns/main.go:1312: the retry timer has fired -/
  | timer (ok : Bool)
  /-- an instance binds its address; it can only do so in a namespace that is there -/
  | bind (i : Nat) (ok : Bool)
  /-- `Start` of a serving instance returns by itself -/
  | exit (i : Nat)
  /-- cmd/routedns/main.go:1301: the supervisor learns that its instance has ended -/
  | ended
  /-- cmd/routedns/main.go:1335: `Stop`; `effect`: the instance is serving and ends -/
  | stop (effect : Bool)
  /-- cmd/routedns/main.go:1339: the instance has ended -/
  | stopped
  /-- cmd/routedns/main.go:1341-1345 -/
  | giveUp
deriving DecidableEq, Repr

/-- An instance goes on, cmd/routedns/main.go:1225-1350 -/
def setInst (s : Sys) (i : Nat) (v : Inst) : Nat → Inst := fun x => if x = i then v else s.inst x

/-- The instances after a `Stop` (cmd/routedns/main.go:1335): it may have an effect only on an instance that serves; see the comment at cmd/routedns/main.go:1322-1327 -/
def stopInst (s : Sys) (i : Nat) (effect : Bool) : Nat → Inst := match s.inst i with
  | .serving _ => if effect then setInst s i .done else s.inst
  | _ => s.inst

/-- netns_watch_linux.go:231-241 `notifyLocked`; the channel has room for 16 -/
def notify (s : Sys) (state : Bool) : Sys :=
  if s.last = some state then s
  else if s.chan.length < 16 then { s with chan := s.chan ++ [state], last := some state }
  else { s with lost := true }

/-- cmd/routedns/main.go:1249-1264 `launch` -/
def launch (s : Sys) (ok : Bool) : Sys :=
  if ok then { s with mode := .idle, retry := false, cur := some s.next, inst := setInst s s.next .starting, next := s.next + 1 }
  else { s with mode := .idle, retry := true }

/-- cmd/routedns/main.go:1272-1289: the namespace is there -/
def onPresent (s : Sys) : Sys := match s.cur with
  | some _ => { s with present := true }
  | none => { s with present := true, mode := .waiting }

/-- cmd/routedns/main.go:1290-1300: the namespace is gone -/
def onAbsent (s : Sys) : Sys := match s.cur with
  | some _ => { s with present := false, retry := false, mode := .stopping 0 }
  | none => { s with present := false, retry := false }

/-- One step; `none` if it cannot happen. netns_watch_linux.go:97-241 and cmd/routedns/main.go:1225-1350. -/
def step (s : Sys) : Ev → Option Sys
  | .create => if s.there then none else some { s with there := true, gen := s.gen + 1, queue := s.queue ++ [true] }
  | .delete => if s.there then some { s with there := false, queue := s.queue ++ [false] } else none
  | .dispatch => match s.queue with
    | [] => none
    | e :: q => match s.sub with
      | .no => some { s with queue := q }
      | .asked st 0 => some { s with queue := q, sub := .asked st 0, lost := true }
      | .asked st (k + 1) => some { s with queue := q, sub := .asked st k }
      | .yes => some (notify { s with queue := q } e)
  | .ask => match s.sub with
    | .no => some { s with sub := .asked s.there s.queue.length }
    | _ => none
  | .register => match s.sub with
    | .asked st _ => some (notify { s with sub := .yes } st)
    | _ => none
  | .receive => if s.mode = .idle then
      match s.chan with
      | [] => none
      | true :: c => some (onPresent { s with chan := c })
      | false :: c => some (onAbsent { s with chan := c })
    else none
  | .launch ok => if s.mode = .waiting then some (launch s ok) else none
  | .timer ok => if s.mode = .idle ∧ s.retry = true then
      (if s.present = true ∧ s.cur = none then some (launch { s with retry := false } ok) else some { s with retry := false })
    else none
  | .bind i ok => if s.inst i = .starting then
      some { s with inst := setInst s i (if ok && s.there then .serving s.gen else .done) }
    else none
  | .exit i => match s.inst i with
    | .serving _ => some { s with inst := setInst s i .done }
    | _ => none
  | .ended => match s.cur with
    | some i => if s.mode = .idle ∧ s.inst i = .done then some { s with cur := none, retry := s.retry || s.present } else none
    | none => none
  | .stop effect => match s.mode, s.cur with
    | .stopping n, some i => if n ≤ 30 then
        some { s with mode := .stopping (n + 1), inst := stopInst s i effect }
      else none
    | _, _ => none
  | .stopped => match s.mode, s.cur with
    | .stopping (_ + 1), some i => if s.inst i = .done then some { s with cur := none, mode := .idle } else none
    | _, _ => none
  | .giveUp => match s.mode, s.cur with
    | .stopping 31, some i => some { s with cur := none, mode := .idle, abandoned := i :: s.abandoned }
    | _, _ => none

/-- netns_watch_linux.go:97-241 and cmd/routedns/main.go:1225-1350, in any interleaving -/
def run (s : Sys) : List Ev → Option Sys
  | [] => some s
  | e :: es => (step s e).bind (run · es)

end Verif.NetnsWatch
