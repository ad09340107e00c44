import Verif.Model.Loader
/-
C46 in words.
-/
namespace Verif.Spec.Loader
open Verif Verif.Loader

/-- `ls` are the lines of `data`: each ends with a line feed (10), except that the last one need not if it is not empty; a carriage return (13) before the end of a line does not count. -/
inductive Lines : Str → List Str → Prop where
  | nil : Lines [] []
  | line {l rest : Str} {ls : List Str} : 10 ∉ l → (∀ m, l ≠ m ++ [13]) → Lines rest ls → Lines (l ++ 10 :: rest) (l :: ls)
  | lineCR {l rest : Str} {ls : List Str} : 10 ∉ l → Lines rest ls → Lines (l ++ 13 :: 10 :: rest) (l :: ls)
  | last {l : Str} : l ≠ [] → 10 ∉ l → (∀ m, l ≠ m ++ [13]) → Lines l [l]
  | lastCR {l : Str} : 10 ∉ l → Lines (l ++ [13]) [l]

/-- No line is as long as 64 KB -/
def Short (data : Str) : Prop := ∀ l, 10 ∉ l → l <:+: data → l.length < 65536

/-- A good answer of the server: status 2xx, read to the end, all lines short enough -/
def fetched : Http → Option (List Str)
  | .failed => none
  | .response code body readErr => if 200 ≤ code ∧ code ≤ 299 ∧ readErr = false ∧ (scan body).2 = false then some (scan body).1 else none

/-- The rules of the last attempt that was good, no rules if there was none -/
def lastGood (attempts : List (Option (List Str))) : List Str := (attempts.filterMap id).getLast?.getD []

/-- The rules every load finds: the first one looks at the cache file if there is one that can be read; all others ask the server. -/
def attempts (l : HttpLoader) : List Io → List (Option (List Str))
  | [] => []
  | io :: ios =>
    (match l.fromDisk, l.disk with
      | true, some data => if io.diskReadErr = false ∧ (scan data).2 = false then some (scan data).1 else fetched io.http
      | _, _ => fetched io.http) :: ios.map fun io => fetched io.http

def localRules : Local → Option (List Str)
  | .missing => none
  | .content data readErr => if readErr = false ∧ (scan data).2 = false then some (scan data).1 else none

end Verif.Spec.Loader
