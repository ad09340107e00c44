/-
Specification of an LRU cache as a plain list, most recently used entry first. Independent of the
pointer structure. `hash` and `matchKey` only enter because the cache is indexed by hash: two keys with
the same hash displace one another.
-/
namespace Verif.Spec.Lru
variable {H K B : Type} [DecidableEq H]

/-- Keep at most `cap` entries; `cap ≤ 0` means unlimited. -/
def trim (cap : Int) (es : List (H × B)) : List (H × B) := if cap ≤ 0 then es else es.take cap.toNat

/-- The entry stored under this key, if any. -/
def lookup (matchKey : B → K → Bool) (es : List (H × B)) (h : H) (k : K) : Option (H × B) :=
  es.find? (fun e => e.1 = h ∧ matchKey e.2 k = true)

/-- All entries whose hash differs from `h`, order kept. -/
def without (es : List (H × B)) (h : H) : List (H × B) := es.filter (fun e => ¬ e.1 = h)

/-- Adding puts the record first, displaces whatever had the same hash, drops the oldest beyond
the capacity. -/
def add (cap : Int) (es : List (H × B)) (h : H) (b : B) : List (H × B) :=
  trim cap ((h, b) :: without es h)

/-- A read moves the entry to the front. -/
def get (matchKey : B → K → Bool) (es : List (H × B)) (h : H) (k : K) : List (H × B) × Option B :=
  match lookup matchKey es h k with
  | some e => (e :: without es h, some e.2)
  | none => (es, none)

/-- Deleting removes the entry stored under the key and nothing else. -/
def delete (matchKey : B → K → Bool) (es : List (H × B)) (h : H) (k : K) : List (H × B) :=
  match lookup matchKey es h k with
  | some _ => without es h
  | none => es

/-- Conditional removal. -/
def deleteIf (f : H × B → Bool) (es : List (H × B)) : List (H × B) := es.filter (fun e => ¬ f e = true)

end Verif.Spec.Lru

/-! ### Histories -/
namespace Verif.Spec.Lru
variable {H K B : Type} [DecidableEq H]

/-- The operations of the cache. -/
inductive Op (H K B : Type) where
  | add (k : K) (b : B)
  | get (k : K)
  | del (k : K)
  | delIf (f : H × B → Bool)
  | reset

/-- One step of the list specification; the second component is what a `get` returned. -/
def step (hash : K → H) (matchKey : B → K → Bool) (cap : Int) (es : List (H × B)) :
    Op H K B → List (H × B) × Option B
  | .add k b => (add cap es (hash k) b, none)
  | .get k => get matchKey es (hash k) k
  | .del k => (delete matchKey es (hash k) k, none)
  | .delIf f => (deleteIf f es, none)
  | .reset => ([], none)

/-- A whole history: the final list and the result of each operation. -/
def run (hash : K → H) (matchKey : B → K → Bool) (cap : Int) (es : List (H × B)) :
    List (Op H K B) → List (H × B) × List (Option B)
  | [] => (es, [])
  | op :: ops =>
    let r := step hash matchKey cap es op
    let rest := run hash matchKey cap r.1 ops
    (rest.1, r.2 :: rest.2)

/-- The ideal: an unbounded map from keys to records, no hashing. -/
abbrev Ideal (K B : Type) := K → Option B

def Ideal.step [DecidableEq K] (hash : K → H) (m : Ideal K B) : Op H K B → Ideal K B
  | .add k b => fun k' => if k' = k then some b else m k'
  | .get _ => m
  | .del k => fun k' => if k' = k then none else m k'
  | .delIf f => fun k' => (m k').filter (fun b => ! f (hash k', b))
  | .reset => fun _ => none

def Ideal.run [DecidableEq K] (hash : K → H) (m : Ideal K B) (ops : List (Op H K B)) : Ideal K B :=
  ops.foldl (Ideal.step hash) m

/-- The position (counted from the start of the history) of the last operation that added or
successfully read an entry with hash `h`; `outs` are the results of the operations. -/
def lastUse (hash : K → H) (h : H) : List (Op H K B × Option B) → Nat → Option Nat → Option Nat
  | [], _, acc => acc
  | (.add k _, _) :: rest, i, acc => lastUse hash h rest (i + 1) (if hash k = h then some i else acc)
  | (.get k, some _) :: rest, i, acc => lastUse hash h rest (i + 1) (if hash k = h then some i else acc)
  | _ :: rest, i, acc => lastUse hash h rest (i + 1) acc

end Verif.Spec.Lru
