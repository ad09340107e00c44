import Verif.Model.Config
/-
C60 in words. Only the configuration, the trees and the constructors (`Ctor`) are used, none of the functions that build.
-/
namespace Verif.Spec.Config
open Verif.Config

/-- Elements refer to each other: directly, or by a chain -/
inductive Uses (els : List Elem) : Str → Str → Prop where
  | one {e : Elem} {r : Str} : e ∈ els → r ∈ e.refs ++ e.opts → r ≠ [] → Uses els e.id r
  | more {e : Elem} {r x : Str} : e ∈ els → r ∈ e.refs ++ e.opts → r ≠ [] → Uses els r x → Uses els e.id x

/-- A configuration that makes sense -/
structure Good (els : List Elem) : Prop where
  /-- no id is used twice, in whatever section, and none is empty -/
  nodup : (els.map (·.id)).Nodup
  nonempty : ∀ e ∈ els, e.id ≠ []
  /-- everything an element refers to is there; optional references may be left empty -/
  refs : ∀ e ∈ els, ∀ r ∈ e.refs, ∃ f ∈ els, f.id = r
  opts : ∀ e ∈ els, ∀ r ∈ e.opts, r ≠ [] → ∃ f ∈ els, f.id = r
  /-- a group refers to no element twice -/
  once : ∀ e ∈ els, e.isRouter = false → ((e.refs ++ e.opts).filter (· ≠ [])).Nodup
  /-- no element refers to itself by a chain -/
  acyclic : ∀ id, ¬ Uses els id id

/-- Every element has been built from exactly the elements it refers to, in the order given, and its constructor was content. -/
def Wired (ok : Ctor) (els : List Elem) (m : Str → Option El) : Prop :=
  ∀ e ∈ els, ∃ rs : List El, e.refs.map m = rs.map some ∧ m e.id = some (.mk e.id rs (e.opts.map m)) ∧ ok e rs (e.opts.map m) = true

/-- What is not configured is not there, except the bootstrap resolver. -/
def NothingElse (c : Cfg) (m : Str → Option El) : Prop :=
  ∀ id : Str, (∀ e ∈ elems c, e.id ≠ id) → m id = if c.bootstrap = true ∧ id = str "bootstrap-resolver" then some (.mk id [] []) else none

/-- Every listener has the element it refers to; only admin listeners may do without. -/
def Listeners (ls : List ListenerCfg) (m : Str → Option El) (ws : List (Option El)) : Prop :=
  ws = ls.map (fun l => m l.resolver) ∧ ∀ l ∈ ls, l.ok = true ∧ (m l.resolver ≠ none ∨ l.admin = true)

/-- Maps may be iterated in any order. -/
structure AnyOrder (o : Orders) : Prop where
  deps : ∀ l, (o.deps l).Nodup ∧ ∀ x, x ∈ o.deps l ↔ x ∈ l
  edges : ∀ l, (o.edges l).Perm l
  leaves : ∀ n l, (o.leaves n l).Perm l

end Verif.Spec.Config
