/-
lru-cache.go: the pointer-level LRU structure: heap nodes with `prev`/`next`, two sentinels and an
index from key hash to node.

A dereference of a nil or unallocated pointer is `none`, i.e. a Go panic. Loops carry fuel; running
out of fuel is also `none` and is proved not to happen.

The model is generic in the hash type `H`, the key type `K` and the stored record type `B`.
`hash : K → H` is `maphash.Comparable(seed, key)` (lru-cache.go:177-179), an arbitrary function;
`matchKey : B → K → Bool` is `cacheBlob.matchesKey`.
-/
namespace Verif.Lru

/-- A `*cacheItem`. lru-cache.go:30-34. -/
abbrev Ref := Nat

/-- lru-cache.go:30-34 `cacheItem`. The sentinels carry no hash/record: `none`. -/
structure Node (H B : Type) where
  prev : Option Ref
  next : Option Ref
  payload : Option (H × B)

/-- The garbage collected heap. The items of lru-cache.go:30-34. -/
abbrev Heap (H B : Type) := Ref → Option (Node H B)

/-- Lookup in the index map `c.items[h]`. lru-cache.go:183-190. -/
def mapGet {H} [DecidableEq H] (m : List (H × Ref)) (h : H) : Option Ref :=
  (m.find? (fun e => e.1 = h)).map (·.2)
/-- `delete(c.items, h)`. lru-cache.go:171-175, 207-214. -/
def mapDel {H} [DecidableEq H] (m : List (H × Ref)) (h : H) : List (H × Ref) :=
  m.filter (fun e => ¬ e.1 = h)
/-- `c.items[h] = r`. lru-cache.go:156-169. -/
def mapSet {H} [DecidableEq H] (m : List (H × Ref)) (h : H) (r : Ref) : List (H × Ref) :=
  (h, r) :: mapDel m h

/-- lru-cache.go:22-27 `lruCache`. `items` is the Go map as a list without duplicate keys;
`alloc` is the next unused address. -/
structure Cache (H B : Type) where
  maxItems : Int
  items : List (H × Ref)
  head : Ref
  tail : Ref
  heap : Heap H B
  alloc : Nat

variable {H K B : Type} [DecidableEq H]

/-- Assignment to one item, as in lru-cache.go:156-205 -/
def upd (hp : Heap H B) (r : Ref) (n : Node H B) : Heap H B := fun x => if x = r then some n else hp x

/-- `p.next = v`. As in lru-cache.go:156-205. -/
def setNext (hp : Heap H B) (p : Option Ref) (v : Option Ref) : Option (Heap H B) := do
  let r ← p
  let n ← hp r
  return upd hp r { n with next := v }
/-- `p.prev = v`. As in lru-cache.go:156-205. -/
def setPrev (hp : Heap H B) (p : Option Ref) (v : Option Ref) : Option (Heap H B) := do
  let r ← p
  let n ← hp r
  return upd hp r { n with prev := v }
/-- `item.blob = b`. As in lru-cache.go:144-154. -/
def setBlob (hp : Heap H B) (r : Ref) (b : B) : Option (Heap H B) := do
  let n ← hp r
  let (h, _) ← n.payload
  return upd hp r { n with payload := some (h, b) }
/-- `p.next`. As in lru-cache.go:156-254. -/
def getNext (hp : Heap H B) (p : Option Ref) : Option (Option Ref) := do
  let r ← p
  let n ← hp r
  return n.next
/-- `p.prev`. As in lru-cache.go:156-254. -/
def getPrev (hp : Heap H B) (p : Option Ref) : Option (Option Ref) := do
  let r ← p
  let n ← hp r
  return n.prev
/-- `item.hash` and `item.blob` of a non-sentinel item. As in lru-cache.go:183-254. -/
def getPayload (hp : Heap H B) (r : Ref) : Option (H × B) := do
  let n ← hp r
  n.payload

/-- lru-cache.go:129-142 `newLRUCache` -/
def new (capacity : Int) : Cache H B :=
  { maxItems := capacity, items := [], head := 0, tail := 1, alloc := 2,
    heap := fun r => if r = 0 then some ⟨none, some 1, none⟩
                     else if r = 1 then some ⟨some 0, none, none⟩ else none }

/-- lru-cache.go:171-175 `unlink` -/
def unlink (c : Cache H B) (item : Ref) : Option (Cache H B) := do
  let hp ← setNext c.heap (← getPrev c.heap (some item)) (← getNext c.heap (some item))
  let hp ← setPrev hp (← getNext hp (some item)) (← getPrev hp (some item))
  let (h, _) ← getPayload hp item
  return { c with heap := hp, items := mapDel c.items h }

/-- Common to `insert` (lru-cache.go:162-165) and `touch` (lru-cache.go:200-203):
link an item behind the head sentinel. -/
def linkFront (c : Cache H B) (hp : Heap H B) (item : Ref) : Option (Heap H B) := do
  let hp ← setNext hp (some item) (← getNext hp (some c.head))
  let hp ← setPrev hp (some item) (some c.head)
  let hp ← setPrev hp (← getNext hp (some c.head)) (some item)
  setNext hp (some c.head) (some item)

/-- lru-cache.go:226-228, the loop of `resize`. -/
def resizeLoop : Nat → Cache H B → Option (Cache H B)
  | 0, _ => none
  | fuel + 1, c =>
    if (c.items.length : Int) > c.maxItems then do
      let last ← getPrev c.heap (some c.tail)
      let c ← unlink c (← last)
      resizeLoop fuel c
    else some c

/-- lru-cache.go:222-229 `resize` -/
def resize (c : Cache H B) : Option (Cache H B) :=
  if c.maxItems ≤ 0 then some c else resizeLoop (c.items.length + 1) c

/-- lru-cache.go:156-168 `insert` of a freshly allocated item (the allocation is at
lru-cache.go:152). -/
def insert (c : Cache H B) (h : H) (b : B) : Option (Cache H B) := do
  let item := c.alloc
  let c := { c with alloc := c.alloc + 1, heap := upd c.heap item ⟨none, none, some (h, b)⟩ }
  let c ← match mapGet c.items h with
    | some existing => unlink c existing
    | none => some c
  let c := { c with items := mapSet c.items h item }
  let hp ← linkFront c c.heap item
  resize { c with heap := hp }

/-- lru-cache.go:183-189 `find` -/
def find (matchKey : B → K → Bool) (c : Cache H B) (h : H) (k : K) : Option (Option Ref) :=
  match mapGet c.items h with
  | none => some none
  | some item => do
    let (_, b) ← getPayload c.heap item
    return if matchKey b k then some item else none

/-- lru-cache.go:192-205 `touch` -/
def touch (matchKey : B → K → Bool) (c : Cache H B) (h : H) (k : K) :
    Option (Cache H B × Option Ref) := do
  match ← find matchKey c h k with
  | none => return (c, none)
  | some item =>
    let hp ← setNext c.heap (← getPrev c.heap (some item)) (← getNext c.heap (some item))
    let hp ← setPrev hp (← getNext hp (some item)) (← getPrev hp (some item))
    let hp ← linkFront c hp item
    return ({ c with heap := hp }, some item)

/-- lru-cache.go:144-153 `addKey` -/
def addKey (hash : K → H) (matchKey : B → K → Bool) (c : Cache H B) (k : K) (b : B) :
    Option (Cache H B) := do
  let h := hash k
  let (c, item) ← touch matchKey c h k
  match item with
  | some item => return { c with heap := ← setBlob c.heap item b }
  | none => insert c h b

/-- lru-cache.go:207-214 `delete`, the key being computed by the caller. -/
def delete (hash : K → H) (matchKey : B → K → Bool) (c : Cache H B) (k : K) : Option (Cache H B) := do
  match ← find matchKey c (hash k) k with
  | none => return c
  | some item => unlink c item

/-- lru-cache.go:216-219 `get`; the record found is returned as `memoryBackend.Lookup` reads
`item.blob` right away (cache-memory.go:78-80). -/
def get (hash : K → H) (matchKey : B → K → Bool) (c : Cache H B) (k : K) :
    Option (Cache H B × Option B) := do
  let (c, item) ← touch matchKey c (hash k) k
  match item with
  | none => return (c, none)
  | some r =>
    let (_, b) ← getPayload c.heap r
    return (c, some b)

/-- lru-cache.go:232-241 `reset`: fresh sentinels, the old nodes are garbage. -/
def reset (c : Cache H B) : Cache H B :=
  { c with items := [], head := c.alloc, tail := c.alloc + 1, alloc := c.alloc + 2,
           heap := upd (upd c.heap c.alloc ⟨none, some (c.alloc + 1), none⟩)
                     (c.alloc + 1) ⟨some c.alloc, none, none⟩ }

/-- lru-cache.go:247-253, the loop of `deleteFunc`; `f` sees the item's record. -/
def deleteLoop (f : H × B → Bool) : Nat → Cache H B → Ref → Option (Cache H B)
  | 0, _, _ => none
  | fuel + 1, c, item =>
    if item = c.tail then some c
    else do
      let next ← getNext c.heap (some item)
      let p ← getPayload c.heap item
      let c ← if f p then unlink c item else some c
      deleteLoop f fuel c (← next)

/-- lru-cache.go:245-254 `deleteFunc` -/
def deleteFunc (f : H × B → Bool) (c : Cache H B) : Option (Cache H B) := do
  let first ← getNext c.heap (some c.head)
  deleteLoop f (c.items.length + 1) c (← first)

/-- lru-cache.go:256-258 `size` -/
def size (c : Cache H B) : Nat := c.items.length

/-- lru-cache.go:262-266, the loop of `serialize`: records from the tail to the head. -/
def serializeLoop : Nat → Cache H B → Ref → Option (List B)
  | 0, _, _ => none
  | fuel + 1, c, item =>
    if item = c.head then some []
    else do
      let (_, b) ← getPayload c.heap item
      let prev ← getPrev c.heap (some item)
      let rest ← serializeLoop fuel c (← prev)
      return b :: rest

/-- lru-cache.go:260-268 `serialize`, the records in the order they are written. -/
def serialize (c : Cache H B) : Option (List B) := do
  let last ← getPrev c.heap (some c.tail)
  serializeLoop (c.items.length + 1) c (← last)

/-- lru-cache.go:270-285 `deserialize` of already decoded records: each is added in turn. -/
def deserialize (hash : K → H) (matchKey : B → K → Bool) (c : Cache H B) :
    List (K × B) → Option (Cache H B)
  | [] => some c
  | (k, b) :: rest => do
    let c ← addKey hash matchKey c k b
    deserialize hash matchKey c rest

end Verif.Lru
