import Verif.Model.CacheLives
import Verif.Spec.Cache
/-
C91 in words: a cache with a file, over restarts.
-/
namespace Verif.Spec.CacheLives
open Verif Verif.CacheM Verif.CacheLives Verif.Spec.Cache
variable {H : Type}

/-- The options in force after these events. -/
def inForce (o : Opts) : List (Ev H) → Opts
  | [] => o
  | .start _ o' _ _ :: es => inForce o' es
  | _ :: es => inForce o es

/-- The capacity in force after these events. -/
def capacity (cap : Int) : List (Ev H) → Int
  | [] => cap
  | .start _ _ cap' _ :: es => capacity cap' es
  | _ :: es => capacity cap es

/-- The event replaces or removes what the cache has for the request of `q`. -/
inductive Supersedes (env : Env H) (q : Msg) : Ev H → Prop
  | flush : Supersedes env q .flush
  | evict {q' : Msg} : SameRequest env.ipStr q' q → Supersedes env q (.evict q')
  | store {q' m : Msg} {t : Int} : SameRequest env.ipStr q' q → cacheable m.rcode = true → env.encode m ≠ none → Supersedes env q (.store q' m t)

inductive Place where
  | cache
  | file

/-- What was stored before these events may now be found in the cache (or in the file): it stays in the cache until it is superseded or the program ends, a save brings it into
the file, where it stays until the next save, and a start brings it back into the cache. -/
inductive Kept (S : Ev H → Prop) : Place → List (Ev H) → Prop
  | stored : Kept S .cache []
  | stays {es : List (Ev H)} {e : Ev H} : Kept S .cache es → ¬ S e → (∀ h o c n, e ≠ .start h o c n) → Kept S .cache (es ++ [e])
  | saved {es : List (Ev H)} : Kept S .cache es → Kept S .file (es ++ [.save])
  | onDisk {es : List (Ev H)} {e : Ev H} : Kept S .file es → e ≠ .save → Kept S .file (es ++ [e])
  | loaded {es : List (Ev H)} {hash : LruKey → H} {o : Opts} {cap : Int} {n : Nat} : Kept S .file es → Kept S .cache (es ++ [.start hash o cap n])

/-- `a` is an answer for `q` at time `now` that the history justifies: some run of the program stored a response for the same request, which was kept since, is within the lifetime
that the options of that run gave it, and has aged exactly. -/
def Justified (env : Env H) (o : Opts) (hist : List (Ev H)) (q : Msg) (now : Int) (a : Msg) : Prop :=
  ∃ (q0 m : Msg) (t : Int) (m' : Msg) (expiry : Int) (pf : Bool) (before after : List (Ev H)),
    hist = before ++ .store q0 m t :: after ∧ Kept (Supersedes env q) .cache after ∧ SameRequest env.ipStr q0 q ∧
    lifetime (inForce o before) m t = some (expiry, pf) ∧ now ≤ expiry ∧
    (∃ w, env.encode m = some w ∧ env.decode w = some m') ∧ AgedCopy (wholeSeconds t now) q m' a

end Verif.Spec.CacheLives
