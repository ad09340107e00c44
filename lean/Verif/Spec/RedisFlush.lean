import Verif.Model.RedisFlush
/-
What Redis promises about patterns and about `SCAN`, and what emptying the cache is to do.
-/
namespace Verif.Spec.RedisFlush
open Verif Verif.RedisFlush

/-- The bytes with a meaning in a pattern: `*`, `?`, `[` and `\`. -/
def Special (c : UInt8) : Prop := c = 42 ∨ c = 63 ∨ c = 91 ∨ c = 92

/-- What the Redis documentation says about patterns (`m pattern key`), as far as needed. -/
structure Glob (m : Str → Str → Prop) : Prop where
  /-- any other byte stands for itself -/
  literal : ∀ (c : UInt8) (p k : Str), ¬ Special c → (m (c :: p) k ↔ ∃ r, k = c :: r ∧ m p r)
  /-- `*` at the end matches anything -/
  star : ∀ (k : Str), m [42] k
  /-- `?` matches any byte -/
  question : ∀ (p k : Str), m (63 :: p) k ↔ ∃ c r, k = c :: r ∧ m p r
  /-- `[c]` matches `c` -/
  single : ∀ (c : UInt8) (p k : Str), c ≠ 93 → c ≠ 94 → c ≠ 92 → (m (91 :: c :: 93 :: p) k ↔ ∃ r, k = c :: r ∧ m p r)

/-- The scans of a run are one iteration: they start at cursor 0 and go on with the cursor of the last reply. -/
def Iteration (pat : Str) : Nat → List Ev → Prop
  | _, [] => True
  | c, .scan p c' _ next :: es => p = pat ∧ c' = c ∧ Iteration pat next es
  | c, _ :: es => Iteration pat c es

/-- The keys at the end of a run. -/
def keysAfter (pre : Str) (db : List Str) (es : List Ev) : Option (List Str) := (run pre (start db) es).map (·.db)

/-- `k` is on the server at every moment of the run. -/
def AlwaysThere (pre : Str) (db : List Str) (es : List Ev) (k : Str) : Prop :=
  ∀ (before after : List Ev), es = before ++ after → ∃ keys, keysAfter pre db before = some keys ∧ k ∈ keys

/-- What Redis promises about `SCAN ... MATCH`: only matching keys are returned, and a complete iteration returns
every matching key that was there all the time. -/
structure ScanOk (m : Str → Str → Prop) (pre : Str) (db : List Str) (es : List Ev) : Prop where
  matching : ∀ (pat : Str) (c : Nat) (keys : List Str) (next : Nat) (k : Str), Ev.scan pat c keys next ∈ es → k ∈ keys → m pat k
  complete : ∀ (before after : List Ev) (pat : Str) (c : Nat) (keys : List Str) (k : Str), es = before ++ .scan pat c keys 0 :: after →
    Iteration pat 0 (before ++ [.scan pat c keys 0]) → m pat k → AlwaysThere pre db before k →
    ∃ p c' ks next, Ev.scan p c' ks next ∈ before ++ [.scan pat c keys 0] ∧ k ∈ ks

/-- `k` begins with the prefix. -/
def HasPrefix (pre k : Str) : Prop := ∃ r, k = pre ++ r

end Verif.Spec.RedisFlush
