import Verif.Model.Entries
/-
Vocabulary for the claim about the gauge `entries` (C92).
-/
namespace Verif.Spec.Entries
open Verif Verif.Entries

/-- The goroutine is not late: it goes on at most `d` after it is due, and what it does takes at most `d`. -/
def WOnTime {H : Type} [DecidableEq H] (env : CacheM.Env H) (d : Int) (m : Settings.Memory) : Watched H → List (WEv H) → Prop
  | _, [] => True
  | s, e :: es => (∀ t, e = .other (.tick t) → (∀ u, s.watch = .asleep u → t ≤ u + d) ∧ ∀ w n, s.watch = .measured w n → t ≤ w + d) ∧
    ∀ s', wstep env m s e = some s' → WOnTime env d m s' es

/-- How many entries the cache has: as many as would be saved. -/
def Has {H : Type} [DecidableEq H] (s : Watched H) (n : Int) : Prop := ∃ recs, CacheM.saveFile s.kept.sys.cache = some recs ∧ n = recs.length

end Verif.Spec.Entries
