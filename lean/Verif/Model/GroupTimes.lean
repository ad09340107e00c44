import Verif.Model.Group
import Verif.Model.Assemble
/-
failback.go:78-172 and random.go:50-120 with time: when groups come back to members that failed. Times are nanoseconds, any origin.

The steps are those of `Verif.Group`; here they happen at times, timers have deadlines and sleeping goroutines wake-up times, and what the groups log is kept. Simplified: the goroutine of
`startResetTimer` makes its timer at once when it is started (failback.go:150-151); times do not overflow.
-/
namespace Verif.GroupTimes
open Verif Verif.Group

/-! ### Fail-back -/
namespace Back
open Verif.Group.Back

/-- What is logged: failback.go:142 "failing over to resolver", 164 "failing back to resolver" -/
inductive Note where
  | failover
  | back
deriving DecidableEq, Repr

/-- The group (failback.go:20-29), the clock, the timer of failback.go:151 and the log, newest first -/
structure TSys where
  sys : Sys := init
  now : Int := 0
  /-- when the timer expires, if it runs -/
  deadline : Int := 0
  log : List (Int × Note) := []

/-- A step of failback.go:78-172, or time passes -/
inductive TEv where
  | ev (e : Ev)
  | tick (t : Int)

/-- The timer after a step: failback.go:151 `NewTimer`, 169 `Reset` -/
def deadline (reset : Int) (s : TSys) (s1 : Sys) : Ev → Int
  | .report _ => if s.sys.timer = .off ∧ s1.timer = .armed then s.now + reset else s.deadline
  | .recv => s.now + reset
  | _ => s.deadline

/-- What a step logs: failback.go:142, 164 -/
def notes (s : TSys) (s1 : Sys) : Ev → List (Int × Note)
  | .report k => match s1.queries[k]? with
    | some (.sending _ _) => [(s.now, .failover)]
    | _ => []
  | .fire => [(s.now, .back)]
  | _ => []

/-- Whether the step can happen now: the timer of failback.go:151 expires at its deadline or later -/
def due (s : TSys) : Ev → Bool
  | .fire => s.deadline ≤ s.now
  | _ => true

/-- failback.go:78-172: one step -/
def tstep (n : Nat) (ok : Res → Bool) (reset : Int) (s : TSys) : TEv → Option TSys
  | .tick t => if s.now < t then some { s with now := t } else none
  | .ev e =>
    if due s e then (step n ok s.sys e).map fun s1 => { s with sys := s1, deadline := deadline reset s s1 e, log := notes s s1 e ++ s.log }
    else none

/-- failback.go:78-172, in any interleaving and at any times -/
def trun (n : Nat) (ok : Res → Bool) (reset : Int) : TSys → List TEv → Option TSys
  | s, [] => some s
  | s, e :: es => (tstep n ok reset s e).bind (trun n ok reset · es)

end Back

/-! ### Random -/
namespace Random
open Verif.Group.Random

/-- What is logged or counted: random.go:58 the member asked, 97 "de-activating resolver", 114 "re-activating resolver" -/
inductive Note where
  | asked (m : Nat)
  | off (m : Nat)
  | on (m : Nat)
deriving DecidableEq, Repr

/-- The group (random.go:15-24), the goroutines of random.go:101 with the times they wake up at, the clock, and the log, newest first -/
structure TSys where
  active : List Nat
  sleeping : List (Nat × Int) := []
  queries : List Group.Random.Phase := []
  now : Int := 0
  log : List (Int × Note) := []

/-- The steps of random.go:50-120, and time passes -/
inductive TEv where
  | start
  /-- `pick`, with the index drawn by `rand.Intn` -/
  | pick (k draw : Nat)
  | reply (k : Nat) (r : Res)
  | deactivate (k : Nat)
  /-- a sleeping goroutine wakes up -/
  | wake (i : Nat)
  | tick (t : Int)

/-- random.go: one step. `pick` 77-87, `reply` 60-63, `deactivate` 91-107, `reactivateLater` 110-120: `time.Sleep` takes the time asked for or longer. -/
def tstep (ok : Res → Bool) (reset : Int) (s : TSys) : TEv → Option TSys
  | .start => some { s with queries := s.queries ++ [.idle] }
  | .pick k draw => match s.queries[k]? with
    | some .idle =>
      if s.active = [] then some { s with queries := s.queries.set k (.done none) }
      else match s.active[draw]? with
        | some m => some { s with queries := s.queries.set k (.calling m), log := (s.now, .asked m) :: s.log }
        | none => none
    | _ => none
  | .reply k r => match s.queries[k]? with
    | some (.calling m) => some { s with queries := s.queries.set k (if ok r then .done (some r) else .failed m) }
    | _ => none
  | .deactivate k => match s.queries[k]? with
    | some (.failed m) =>
      let bad := s.active.filter (fun x => x = m)
      some { s with
        active := s.active.filter (fun x => ¬ x = m)
        sleeping := bad.map (fun x => (x, s.now + reset)) ++ s.sleeping
        queries := s.queries.set k .idle
        log := bad.map (fun x => (s.now, Note.off x)) ++ s.log }
    | _ => none
  | .wake i => match s.sleeping[i]? with
    | some (m, t) => if t ≤ s.now then some { s with active := s.active ++ [m], sleeping := s.sleeping.eraseIdx i, log := (s.now, .on m) :: s.log } else none
    | none => none
  | .tick t => if s.now < t then some { s with now := t } else none

/-- random.go:50-120, in any interleaving and at any times -/
def trun (ok : Res → Bool) (reset : Int) : TSys → List TEv → Option TSys
  | s, [] => some s
  | s, e :: es => (tstep ok reset s e).bind (trun ok reset · es)

end Random

/-- cmd/routedns/main.go:494-504, 514-524: the time of a group in nanoseconds (`time.Duration`; without overflow) -/
def resetTime (g : Assemble.Group) : Int := Assemble.resetAfter g * 1000000000

end Verif.GroupTimes
