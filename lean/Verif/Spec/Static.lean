import Verif.Model.Static
/-
C43, C44, C64 in words.
-/
namespace Verif.Spec.Static
open Verif Verif.Static

/-- `m` replies to `q` with this code and flag and these records -/
structure Answers (q m : Msg) (rcode : Nat) (truncated : Bool) (answer ns extra : List RR) : Prop where
  id : m.id = q.id
  question : m.question = q.question.take 1
  response : m.response = true
  opcode : m.opcode = q.opcode
  ra : m.ra = true
  aa : m.aa = true
  rcode : m.rcode = rcode
  tc : m.tc = truncated
  answer : m.answer = answer
  ns : m.ns = ns
  extra : m.extra = extra

/-- The records at some addresses -/
def at' (mem : Mem) (as : List Nat) : List (Option RR) := as.map fun a => mem[a]?

/-- All records of a response as they are now -/
def content (s : Sys) (r : Resp) : List (Option RR) := at' s.mem (r.answer ++ r.ns ++ r.extra)

end Verif.Spec.Static
