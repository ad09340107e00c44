import Verif.Model.Pipeline
/-
pipeline.go with a clock: what Verif/Model/Pipeline.lean does, and when. Times are in nanoseconds, like `time.Duration`.
-/
namespace Verif.PipelineTimed
open Verif Verif.Pipeline

/-- pipeline.go:15 -/
def defaultQueryTimeout : Nat := 2 * 1000000000

/-- pipeline.go:18 -/
def idleTimeout : Nat := 10 * 1000000000

/-- The timeout of a new pipeline. pipeline.go:39-50 `NewPipeline`. -/
def newPipeline (timeout : Nat) : Nat := if timeout = 0 then defaultQueryTimeout else timeout

/-- What the goroutines do without waiting for the network, a timer, or each other: complete the request in hand, notice the end of the reader, tidy up, return with a completed
request. pipeline.go:71-78, 107, 120, 129-132, 184, 193-194. -/
def internal (e : Ev) : Prop := e = .writerFailed ∨ e = .writerStop ∨ e = .readerDone ∨ e = .drain ∨ ∃ r, e = .ret r

/-- A run of a pipeline with timeout `T`: at each moment there is an event, or time passes. Call number `r` is made when there are `r` calls. Simplified: what the program does by itself takes no time, and timers
are neither early nor late. How long dialling and writing take is left open (they have no time limit in pipeline.go). pipeline.go:55-196. -/
structure Run (T : Nat) where
  state : Nat → Sys
  time : Nat → Nat
  ev : Nat → Option Ev
  start : state 0 = {}
  next : ∀ n, (∃ e, ev n = some e ∧ step (state n) e = some (state (n + 1)) ∧ time (n + 1) = time n) ∨
    (ev n = none ∧ state (n + 1) = state n ∧ time n ≤ time (n + 1))
  /-- pipeline.go:58: the timer is not early -/
  notEarly : ∀ (m n : Nat) (q : Msg), ev m = some (.call q) →
    ev n = some (.queueTimeout (state m).reqs.length) ∨ ev n = some (.timeout (state m).reqs.length) → time m + T ≤ time n
  /-- pipeline.go:64, 72: when it has gone off, a `select` that waits for it goes on -/
  notLate : ∀ (m n : Nat) (q : Msg), ev m = some (.call q) → time n < time (n + 1) → time m + T < time (n + 1) →
    step (state n) (.queueTimeout (state m).reqs.length) = none ∧ step (state n) (.timeout (state m).reqs.length) = none
  /-- pipeline.go:142: the deadline of a read -/
  reads : ∀ m n : Nat, m ≤ n → (∀ j, m ≤ j → j ≤ n → (state j).reader = .reading) → (∀ j a, m ≤ j → j < n → ev j ≠ some (.recv a)) →
    time n ≤ time m + idleTimeout
  prompt : ∀ (n : Nat) (e : Ev), time n < time (n + 1) → internal e → step (state n) e = none

end Verif.PipelineTimed
