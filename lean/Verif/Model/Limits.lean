import Verif.Model.Shared
/-
Whole configurations as goroutines (`Shared`), with a look at one rate limiter in them: which queries it let through, and which not.
-/
namespace Verif.Limits
open Verif Verif.Composition Verif.Shared

/-- rate-limiter.go:69-105: the limiter has the lock, reads the clock (seconds) and decides on a query of the client. -/
structure Verdict where
  now : Int
  client : ClientInfo
  rejected : Bool

/-- The program runs, and the limiter (`hasLimit`, `t`, `l`: with limit resolver or not, resolver, limit resolver) has decided so (rate-limiter.go:64-116), the first verdict first. What it decides and when is left open
here, as in `Shared`. -/
inductive Logged {H : Type} (hasLimit : Bool) (t l : Tree H) : St H → List Verdict → St H → Prop
  | start {s} : Logged hasLimit t l s [] s
  /-- rate-limiter.go:69-116: a verdict -/
  | verdict {a b : St H} {log i m ci st} (v : Verdict) : Logged hasLimit t l a log b → b.At i (code (.rateLimit hasLimit t l) m ci) st → v.client = ci →
      Logged hasLimit t l a (log ++ [v]) (b.go i (limited t l m ci (Rate.dest hasLimit v.rejected)) st)
  /-- all other steps -/
  | step {a b c : St H} {log} : Logged hasLimit t l a log b → Step b c →
      (∀ i m ci st x, b.At i (code (.rateLimit hasLimit t l) m ci) st → c ≠ b.go i (limited t l m ci (Rate.dest hasLimit x)) st) → Logged hasLimit t l a log c

/-- rate-limiter.go:64-105: the verdicts are those of the limiter with the options `o`, from its start on. -/
def Decided (o : Rate.Options) (log : List Verdict) : Prop :=
  Rate.run o {} (log.map fun v => (v.now, v.client.sourceIP)) = some (log.map (·.rejected))

/-- rate-limiter.go:81-85: a query reads the clock (and computes the window) before it waits for the lock. Queries are numbered in the order in which they read the clock. -/
inductive Ev where
  | reads (now : Int) (source : Str)
  | locks (query : Nat)

/-- rate-limiter.go:69-105, with the two steps apart: the verdicts in the order in which queries get the lock. A query that has not read the clock cannot take the lock. -/
def lateRun (o : Rate.Options) : Rate.State → List (Int × Str) → List Ev → Option (List Bool)
  | _, _, [] => some []
  | s, readings, .reads now source :: es => lateRun o s (readings ++ [(now, source)]) es
  | s, readings, .locks i :: es => match readings[i]? with
    | none => none
    | some (now, source) => match Rate.step o s now source with
      | none => none
      | some (s', rejected) => (lateRun o s' readings es).map (rejected :: ·)

end Verif.Limits
