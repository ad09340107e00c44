import Verif.Model.Dns
/-
blocklistdb-domain.go: lists of domain names.

Go maps are references that can be shared, and the code shares two of them on purpose. The model therefore has an explicit heap: an address
stands for a map, `none` for the nil map. The three maps made first are at fixed addresses.
-/
namespace Verif.Domain
open Verif

/-- The address of a map of blocklistdb-domain.go:30 -/
abbrev Ref := Option Nat
/-- a map from labels to maps; at most one entry per key is visible (`lookup`). blocklistdb-domain.go:30 `node`. -/
abbrev Map := List (Str × Ref)
/-- The maps that blocklistdb-domain.go:54-160 makes -/
abbrev Heap := List Map

/-- blocklistdb-domain.go:69, 62, 63 -/
def root : Nat := 0
/-- blocklistdb-domain.go:62 -/
def dotNode : Nat := 1
/-- blocklistdb-domain.go:63 -/
def starNode : Nat := 2
/-- The key `""`, blocklistdb-domain.go:62 -/
def emptyLabel : Str := []
/-- The key `"*"`, blocklistdb-domain.go:63 -/
def starLabel : Str := [42]
/-- blocklistdb-domain.go:39 -/
def exactKey : Str := [46]

/-- The heap at the start: blocklistdb-domain.go:62-69 -/
def initial : Heap := [[], [(emptyLabel, none)], [(starLabel, none)]]

/-- `n[k]`. As in blocklistdb-domain.go:54-160. -/
def get (h : Heap) (n : Nat) (k : Str) : Option Ref := (h.getD n []).lookup k
/-- `n[k] = r`. As in blocklistdb-domain.go:54-160. -/
def put (h : Heap) (n : Nat) (k : Str) (r : Ref) : Heap := h.set n ((k, r) :: (h.getD n []).filter fun e => e.1 ≠ k)
/-- `len(r)`. As in blocklistdb-domain.go:164-177. -/
def size (h : Heap) : Ref → Nat
  | none => 0
  | some a => (h.getD a []).length
/-- `make(node)`, a map literal or `maps.Clone`: the new map's address is the length of the old heap. As in blocklistdb-domain.go:54-160. -/
def alloc (h : Heap) (m : Map) : Heap := h ++ [m]

/-- blocklistdb-domain.go:164-177 `isSharedShape` -/
def isSharedShape (h : Heap) : Ref → Bool
  | none => true
  | some a =>
    if (h.getD a []).length = 1 then match get h a emptyLabel with
      | some v => v = none
      | none => match get h a starLabel with
        | some v => v = none
        | none => false
    else false

/-- blocklistdb-domain.go:90-153: the loop over the parts of one rule, last part first, at map `n`. The number of parts left after this one is the loop index. -/
def insert (h : Heap) (n : Nat) : List Str → Heap
  | [] => h
  | part :: rest => match get h n part with
    | none => match rest with
      -- 101-102
      | [] => put h n part none
      | [p0] =>
        -- 103-106
        if p0 = emptyLabel then insert (put h n part (some dotNode)) dotNode [p0]
        else if p0 = starLabel then insert (put h n part (some starNode)) starNode [p0]
        else insert (put (alloc h []) n part (some h.length)) h.length [p0]
      -- 107-108
      | p1 :: p2 :: ps => insert (put (alloc h []) n part (some h.length)) h.length (p1 :: p2 :: ps)
    | some sub => match rest with
      -- 116-138
      | [] =>
        if size h sub = 0 then h
        else match sub with
          | none => h
          | some a =>
            if (get h a emptyLabel).isSome then h
            else if isSharedShape h sub then put (put (alloc h (h.getD a [])) n part (some h.length)) h.length exactKey none
            else put h a exactKey none
      -- 144-152
      | p1 :: ps =>
        if isSharedShape h sub then match sub with
          | none => insert (put (alloc h [(exactKey, none)]) n part (some h.length)) h.length (p1 :: ps)
          | some a => insert (put (alloc h (h.getD a [])) n part (some h.length)) h.length (p1 :: ps)
        else match sub with
          | none => h
          | some a => insert h a (p1 :: ps)

/-- blocklistdb-domain.go:71-84: a line of the list as a rule -/
def normalize (includeSubdomains : Bool) (r : Str) : Str :=
  let r := lower (trimDot (trimSpace r))
  if includeSubdomains ∧ r ≠ [] ∧ ¬ (r.head? = some 46) ∧ ¬ (r.take 2 = [42, 46]) then 46 :: r else r

/-- blocklistdb-domain.go:93-96: a part with a `*` that is not all of the first part; `rest` are the parts left -/
def badWildcard : List Str → Bool
  | [] => false
  | part :: rest => (part.contains 42 && (rest.length > 0 || part.length ≠ 1)) || badWildcard rest

/-- blocklistdb-domain.go:69-155: an error is `none`. (The code checks a part just before it enters it; what it has built is thrown away on error.) -/
def load (includeSubdomains : Bool) : List Str → Heap → Option Heap
  | [], h => some h
  | r :: rs, h =>
    let parts := (splitOn 46 (normalize includeSubdomains r)).reverse
    if badWildcard parts then none else load includeSubdomains rs (insert h root parts)

/-- blocklistdb-domain.go:189-223: the loop of `Match` at map `n`, with the parts matched so far; result: the prefix and the parts of the rule reported. -/
def walk (h : Heap) (n : Ref) (matched : List Str) : List Str → Option (Str × List Str)
  | [] => if size h n = 0 ∨ (n.bind fun a => get h a exactKey).isSome then some ([], matched.reverse) else none
  | part :: rest => match n.bind fun a => get h a part with
    | none => none
    | some sub =>
      if (sub.bind fun a => get h a emptyLabel).isSome then some ([46], (matched ++ [part]).reverse)
      else if (sub.bind fun a => get h a starLabel).isSome ∧ rest.length > 0 then some ([42, 46], (matched ++ [part]).reverse)
      else walk h sub (matched ++ [part]) rest

/-- blocklistdb-domain.go:185-187: the parts of a query name, last first -/
def nameParts (name : Str) : List Str := (splitOn 46 (lower (trimDot name))).reverse

/-- blocklistdb-domain.go:183-224 `Match`: the rule reported, if any -/
def lookupName (h : Heap) (name : Str) : Option Str :=
  (walk h (some root) [] (nameParts name)).map fun e => e.1 ++ joinWith 46 e.2

end Verif.Domain
