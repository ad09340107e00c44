import Verif.Model.AtomicFile
/-
C45 in words.
-/
namespace Verif.Spec.AtomicFile
open Verif Verif.AtomicFile

/-- What a reader finds under a name -/
def contents (s : Sys) (name : Str) : Option (List UInt8) := (s.dir name).map fun i => (s.files i).data

/-- The permissions of the file under a name -/
def mode (s : Sys) (name : Str) : Option Nat := (s.dir name).map fun i => (s.files i).mode

/-- Before any of the calls: the files in the directory are on the disk, and nobody is asked to replace a file whose name looks like a temporary file. -/
structure Start (s : Sys) : Prop where
  disk : ∀ name i, s.dir name = some i → i < s.next ∧ (s.files i).synced = true
  past : s.past = []
  idle : ∀ w, (s.writers w).pc = .idle
  targets : ∀ w, hasPrefix tmpPrefix (s.writers w).target = false

/-- The complete old content of the file, or everything one of the calls for this file was to write -/
def OldOrNew (s₀ : Sys) (name : Str) (c : Option (List UInt8)) : Prop :=
  c = contents s₀ name ∨ ∃ w, (s₀.writers w).target = name ∧ c = some (s₀.writers w).content

end Verif.Spec.AtomicFile
