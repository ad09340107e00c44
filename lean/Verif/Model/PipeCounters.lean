import Verif.Model.Counters
import Verif.Model.Pipeline
/-
The counters of pipeline.go, beside the step machine of `Pipeline`.
-/
namespace Verif.PipeCounters
open Verif Verif.Counters Verif.Pipeline

/-- What is counted in one event of `Pipeline.step`; `why` is the kind of error with which reading ends, `none` for the idle timeout (pipeline.go:145-172). pipeline.go:65 and 74
(timeouts), 92, 108, 112, 124, 150, 158, 168, 179 and 183. -/
def counts (s : Sys) (why : Option Str) : Ev → List Count
  | .queueTimeout _ | .timeout _ => [.error (str "querytimeout")]
  | .dialFail _ => [.error (str "open")]
  | .writerTake _ _ => [.query]
  | .writerFailed => match s.writer with
    | .failing _ _ stop => [.error (if stop then str "send_query" else str "inflight_full")]
    | _ => []
  | .writeFail _ => match s.writer with
    | .writing _ id => if (s.inflight.lookup id).isSome then [] else [.error (str "send_query")]
    | _ => []
  | .recv a => if (s.inflight.lookup a.id).isSome then [.response a.rcode] else [.error (str "unexpected_a")]
  | .readerStop => match why with
    | some w => [.error w]
    | none => []
  | _ => []

/-- pipeline.go:55-196 with its counters, in any interleaving -/
def run : Sys × List Count → List (Ev × Option Str) → Option (Sys × List Count)
  | x, [] => some x
  | (s, cs), (e, why) :: es => match step s e with
    | none => none
    | some s' => run (s', cs ++ counts s why e) es

/-- The state with the longest queue so far (pipeline.go:242 `maxLen`) and the gauge `maxqueue`. pipeline.go:24-32, 239-243. -/
structure Queue where
  s : Sys := {}
  peak : Nat := 0
  gauge : Nat := 0
deriving DecidableEq, Repr

/-- One event of `Pipeline.step`, in which pipeline.go:269-271 notes the length of the queue, or (`none`) pipeline.go:185-188, where the reader sets the gauge (which in the code
it does after each request it completed; here it may at any time). -/
def queueStep (x : Queue) : Option Ev → Option Queue
  | none => some { x with gauge := if x.peak > x.gauge then x.peak else x.gauge }
  | some e => match step x.s e with
    | none => none
    | some s' => some { x with s := s', peak := match e with
        | .writerTake _ _ => if s'.inflight.length > x.peak then s'.inflight.length else x.peak
        | _ => x.peak }

/-- pipeline.go:55-196 with `maxqueue`, in any interleaving -/
def queueRun : Queue → List (Option Ev) → Option Queue
  | x, [] => some x
  | x, e :: es => match queueStep x e with
    | none => none
    | some x' => queueRun x' es

end Verif.PipeCounters
