import Verif.Model.Keystore
/-
What the key store promises, in terms of the operations that came before.
-/
namespace Verif.KeystoreSpec
open Verif Verif.Dnssec Verif.Keystore

/-- Names are the same up to case and a final dot -/
def same (a b : Str) : Bool := canonicalName a = canonicalName b

/-- The keys most recently added for a name, and when -/
def lastKeys (before : List Event) (name : Str) : Option (List Key × Int) := before.reverse.findSome? fun e => match e.op with
  | .addKeys n keys => if same n name then some (keys, e.time) else none
  | _ => none

/-- All DS records added for a name -/
def allDs (before : List Event) (name : Str) : List Ds := before.flatMap fun e => match e.op with
  | .addDs n ds => if same n name then ds else []
  | _ => []

/-- When DS records were last added for a name -/
def lastDs (before : List Event) (name : Str) : Option Int := before.reverse.findSome? fun e => match e.op with
  | .addDs n _ => if same n name then some e.time else none
  | _ => none

/-- Not longer after `t` than the TTL of each record, nor than the largest TTL there is -/
def Alive (t now : Int) (ttls : List Nat) : Prop := now ≤ t + 4294967295 * 1000000000 ∧ ∀ ttl ∈ ttls, now ≤ t + (ttl : Int) * 1000000000

/-- The result of an operation is what it should be after the operations `before` -/
def Right (before : List Event) (e : Event) : Prop := match e.op, e.result with
  | .addKeys _ _, .unit => True
  | .addDs _ _, .unit => True
  | .getKeys n, .keys zsk ksk => match lastKeys before n with
    | none => zsk = [] ∧ ksk = []
    | some (keys, t) => (Alive t e.time (keys.map (·.hdr.ttl)) ∧ zsk = keys.filter (·.flags = 256) ∧ ksk = keys.filter (·.flags = 257))
        ∨ (¬ Alive t e.time (keys.map (·.hdr.ttl)) ∧ zsk = [] ∧ ksk = [])
  | .getDs n, .ds l => match lastDs before n with
    | none => l = []
    | some t => (Alive t e.time ((allDs before n).map (·.hdr.ttl)) ∧ l = allDs before n)
        ∨ (¬ Alive t e.time ((allDs before n).map (·.hdr.ttl)) ∧ l = [])
  | _, _ => False

end Verif.KeystoreSpec
