import Verif.Model.Cache
/-
cache.go:383-494: re-ordering of address records in cached answers.
-/
namespace Verif.Shuffle
open Verif

/-- cache.go:394, :472: the record is an A or AAAA record (by header type). -/
def isAddr (r : RR) : Bool := r.rtype = typeA || r.rtype = typeAAAA

/-- cache.go:393-397: the indexes of the address records. -/
def addrIdx : List RR → Nat → List Nat
  | [], _ => []
  | r :: rs, i => if isAddr r then i :: addrIdx rs (i + 1) else addrIdx rs (i + 1)

/-- cache.go:399: `Answer[a], Answer[b] = Answer[b], Answer[a]`; `none` is an out of range panic. -/
def swapAt (l : List RR) (a b : Nat) : Option (List RR) := do
  let x ← l[a]?
  let y ← l[b]?
  return (l.set a y).set b x

/-- cache.go:398-400, `rand.Shuffle(n, swap)`: it calls `swap(i, j)` with `i, j < n` chosen at random; here
any sequence of such calls. -/
def swaps (l : List RR) (idx : List Nat) : List (Nat × Nat) → Option (List RR)
  | [] => some l
  | (i, j) :: rest => do
    let a ← idx[i]?
    let b ← idx[j]?
    swaps (← swapAt l a b) idx rest

/-- cache.go:388-402 `AnswerShuffleRandom` on the answer section, with the random swaps given. -/
def random (l : List RR) (choice : List (Nat × Nat)) : Option (List RR) :=
  if l.length < 2 then some l else swaps l (addrIdx l 0) choice

/-- cache.go:487-489: `for j := n-1; j > 0; j-- { *a[j] = *a[j-1] }`, on the values the (distinct) pointers
refer to; called with `j = n-1`. -/
def shiftLoop (v : List RR) : Nat → Option (List RR)
  | 0 => some v
  | j + 1 => do
    let x ← v[j]?
    shiftLoop (v.set (j + 1) x) j

/-- cache.go:486-490: one rotation. -/
def rotateOnce (v : List RR) : Option (List RR) := do
  let last ← v[v.length - 1]?
  let v ← shiftLoop v (v.length - 1)
  return v.set 0 last

/-- cache.go:485-491 -/
def rotate (v : List RR) : Nat → Option (List RR)
  | 0 => some v
  | n + 1 => do rotate (← rotateOnce v) n

/-- Writing the values back through the pointers: the address records are replaced in order. cache.go:388-460. -/
def scatter : List RR → List RR → List RR
  | [], _ => []
  | r :: rs, v => if isAddr r then match v with
      | x :: xs => x :: scatter rs xs
      | [] => r :: scatter rs []
    else r :: scatter rs v

/-- cache.go:452-466: how far to shift, and the new state of the message's key (`reads`, if there is a record).
`none` instead of a shift: the message is left alone. `hasTTL` is the second result of `minTTL`. -/
def shiftFor (rec : Option Nat) (hasTTL : Bool) : Option Nat × Option Nat :=
  match rec with
  | some reads => let n := (reads + 1) % 18446744073709551616; (some n, some n)
  | none => if hasTTL then (some 0, some 0) else (none, none)

/-- cache.go:468-491: the effect on the answer section for a given shift. -/
def shifted (l : List RR) (shiftBy : Nat) : Option (List RR) :=
  let v := l.filter isAddr
  if v.length < 2 then some l
  else do return scatter l (← rotate v (shiftBy % v.length + 1))

/-- cache.go:418-494 `AnswerShuffleRoundRobin`: answer section and state of the key after one serving. The state map is
keyed by `lruKey`, so servings of other keys do not touch `rec`. Simplified: the lock-free window between
the lookup and the insertion of a new record is not modelled (two first servings at once both shift by one). -/
def roundRobin (l : List RR) (hasTTL : Bool) (rec : Option Nat) : Option (List RR × Option Nat) :=
  if l.length < 2 then some (l, rec)
  else match shiftFor rec hasTTL with
    | (none, rec') => some (l, rec')
    | (some s, rec') => (shifted l s).map (·, rec')

end Verif.Shuffle
