import Verif.Model.Group
import Verif.Model.Listeners
import Verif.Model.Counters
/-
C92 in words: what happened, to be compared with what was counted.
-/
namespace Verif.Spec.Counters
open Verif Verif.Listeners

/-- The responses with this code among what a listener did -/
def replies (code : Nat) (outs : List Wire) : Nat := outs.countP fun w => match w with
  | .reply m => m.rcode = code
  | _ => false

/-- All responses -/
def allReplies (outs : List Wire) : Nat := outs.countP fun w => match w with
  | .reply _ => true
  | _ => false

/-- The request carries a message, as a parameter or as a body of the permitted size. -/
def HasMessage (req : Req) : Prop :=
  (req.method = str "GET" ∧ ∃ b rest, req.dns = some (some b :: rest)) ∨ (req.method = str "POST" ∧ ∃ b, req.body = some b ∧ b.length ≤ 65535)

/-- A count of a response, whatever its code -/
def isResponse : Verif.Counters.Count → Bool
  | .response _ => true
  | _ => false

/-- What members replied to queries of a fail-rotate group, in order, over these events -/
def rotateReplies (n : Nat) (ok : Res → Bool) : Group.Rotate.Sys → List Group.Rotate.Ev → List (Nat × Res)
  | _, [] => []
  | s, e :: es =>
    (match e with
    | .reply k r => match s.queries[k]? with
      | some (.calling _ m) => [(m, r)]
      | _ => []
    | _ => []) ++
    match Group.Rotate.step n ok s e with
    | some s' => rotateReplies n ok s' es
    | none => []

/-- What members replied to queries of a fail-back group, in order, over these events -/
def backReplies (n : Nat) (ok : Res → Bool) : Group.Back.Sys → List Group.Back.Ev → List (Nat × Res)
  | _, [] => []
  | s, e :: es =>
    (match e with
    | .reply k r => match s.queries[k]? with
      | some (.calling _ m) => [(m, r)]
      | _ => []
    | _ => []) ++
    match Group.Back.step n ok s e with
    | some s' => backReplies n ok s' es
    | none => []

/-- What members replied to queries of a random group, in order, over these events -/
def randomReplies (ok : Res → Bool) : Group.Random.Sys → List Group.Random.Ev → List (Nat × Res)
  | _, [] => []
  | s, e :: es =>
    (match e with
    | .reply k r => match s.queries[k]? with
      | some (.calling m) => [(m, r)]
      | _ => []
    | _ => []) ++
    match Group.Random.step ok s e with
    | some s' => randomReplies ok s' es
    | none => []

/-- The queries that wait for this member -/
def waiting (m : Nat) (qs : List Group.Phase) : Nat := qs.countP fun p => match p with
  | .calling _ m' => m' = m
  | _ => false

def randomWaiting (m : Nat) (qs : List Group.Random.Phase) : Nat := qs.countP fun p => match p with
  | .calling m' => m' = m
  | _ => false

/-- The queries that found no member -/
def gaveUp (qs : List Group.Random.Phase) : Nat := qs.countP fun p => match p with
  | .done none => true
  | _ => false

/-- The routes to all members -/
def routes (log : List Verif.Counters.GCount) : Nat := log.countP fun c => match c with
  | .route _ => true
  | _ => false

/-- How often the member replied, and how often it failed -/
def asked (m : Nat) (l : List (Nat × Res)) : Nat := l.countP fun x => x.1 = m
def failed (ok : Res → Bool) (m : Nat) (l : List (Nat × Res)) : Nat := l.countP fun x => x.1 = m && !ok x.2

end Verif.Spec.Counters
