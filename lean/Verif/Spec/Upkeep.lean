import Verif.Model.Upkeep
/-
Vocabulary for the claims about work in the background (C99).
-/
namespace Verif.Spec.Upkeep
open Verif Verif.Upkeep

/-- When a loop is to go on at the latest, if nothing takes more than `d` longer than asked for. -/
def latest (d : Int) : Phase → Int
  | .asleep u => u + d
  | .working t => t + d

/-- The machine is not late: goroutines go on at most `d` after they are due, and what they do takes at most `d`. -/
def OnTime {γ : Type} (d period : Int) : Reloaded γ → List (LEv γ) → Prop
  | _, [] => True
  | s, e :: es => (∀ t, e = .tick t → ∀ p, s.loop = some p → t ≤ latest d p) ∧ ∀ s', lstep period s e = some s' → OnTime d period s' es

/-- A reload brings what the source of the list has at some moment while it lasts, and does not fail. -/
def Faithful {γ : Type} (source : Int → γ) (period : Int) : Reloaded γ → List (LEv γ) → Prop
  | _, [] => True
  | s, e :: es => e ≠ .fail ∧ (∀ l t, e = .swap l → s.loop = some (.working t) → ∃ x, t ≤ x ∧ x ≤ s.now ∧ l = source x) ∧
    ∀ s', lstep period s e = some s' → Faithful source period s' es

/-- The same for the goroutines of a cache; also, responses are stored at most `d` after their time was taken. -/
def KOnTime {H : Type} [DecidableEq H] (env : CacheM.Env H) (d : Int) (m : Settings.Memory) : Kept H → List (KEv H) → Prop
  | _, [] => True
  | s, e :: es => (∀ t, e = .tick t → t ≤ latest d s.gc ∧ ∀ p, s.saver = some p → t ≤ latest d p) ∧ (∀ q r t, e = .use (.store q r t) → s.now ≤ t + d) ∧
    ∀ s', kstep env m s e = some s' → KOnTime env d m s' es

/-- What the cache has in memory: the records that a save would write. -/
def Holds {H : Type} [DecidableEq H] (s : Kept H) (r : CacheM.FileRec) : Prop := ∃ recs, CacheM.saveFile s.sys.cache = some recs ∧ r ∈ recs

end Verif.Spec.Upkeep
