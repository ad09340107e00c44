import Verif.Model.Dns
/-
Building the elements of a configuration: cmd/routedns/main.go:174-446 and 474-484, 1087-1108.

Go iterates over maps in any order, so a section of the configuration is a list in the order in which the map was iterated, and the orders of the other maps are a parameter
(`Orders`). The graph is github.com/heimdalr/dag v1.5.1, which is not part of the repository: `addVertex`, `addEdge`, `leaves` and `delVertex` are its documented behaviour.
What a constructor makes of its options is a parameter (`Ctor`): whether it succeeds; its result is a tree (`El`) of the elements it was given.
-/
namespace Verif.Config

/-- An element that has been built, with the elements it was given: those listed in `resolvers` (or in routes), and the four optional ones. cmd/routedns/main.go:259-281 and 475-1108: what is put into `resolvers`. -/
inductive El where
  | mk (id : Str) (refs : List El) (opts : List (Option El))

/-- cmd/routedns/config.go `group`: its references -/
structure GroupCfg where
  id : Str
  resolvers : List Str
  allowListResolver : Str := []
  blockListResolver : Str := []
  limitResolver : Str := []
  retryResolver : Str := []

/-- cmd/routedns/config.go `router`: the resolvers of its routes -/
structure RouterCfg where
  id : Str
  routes : List Str

/-- cmd/routedns/config.go `listener`; `ok`: its other options are accepted (cmd/routedns/main.go:296-412) -/
structure ListenerCfg where
  id : Str
  resolver : Str
  admin : Bool := false
  ok : Bool := true

/-- cmd/routedns/config.go:14-21, as far as cmd/routedns/main.go:174-446 uses it for references -/
structure Cfg where
  /-- `bootstrap-resolver` has an address -/
  bootstrap : Bool := false
  resolvers : List Str := []
  groups : List GroupCfg := []
  routers : List RouterCfg := []
  listeners : List ListenerCfg := []

/-- A node of the graph. cmd/routedns/main.go:159-169 `Node`. -/
structure Elem where
  id : Str
  isRouter : Bool := false
  refs : List Str := []
  opts : List Str := []

/-- cmd/routedns/main.go:212-218 -/
def resolverElem (id : Str) : Elem := { id := id }

/-- cmd/routedns/main.go:227: the references of a group -/
def groupElem (g : GroupCfg) : Elem :=
  { id := g.id, refs := g.resolvers, opts := [g.allowListResolver, g.blockListResolver, g.limitResolver, g.retryResolver] }

/-- cmd/routedns/main.go:229-243 -/
def routerElem (r : RouterCfg) : Elem := { id := r.id, isRouter := true, refs := r.routes }

/-- cmd/routedns/main.go:212-246: all vertices -/
def elems (c : Cfg) : List Elem := c.resolvers.map resolverElem ++ c.groups.map groupElem ++ c.routers.map routerElem

/-- The orders in which maps are iterated: `dep` (cmd/routedns/main.go:240), `edges` (cmd/routedns/main.go:245) and the leaves (cmd/routedns/main.go:259) -/
structure Orders where
  deps : List Str → List Str
  edges : List Elem → List Elem
  leaves : Nat → List Elem → List Elem

/-- cmd/routedns/main.go:211: `edges`, as a list of pairs -/
abbrev Edges := List (Str × Str)

/-- Whether `y` can be reached from `x`. heimdalr/dag, for the test for loops in `AddEdge`, cmd/routedns/main.go:253. -/
def reach : Edges → Str → Str → Bool
  | [], x, y => x == y
  | (a, b) :: es, x, y => reach es x y || (reach es x a && reach es b y)

/-- cmd/routedns/main.go:214-232 `AddVertex`: fails on an id that is there already -/
def addVertices : List Elem → List Str → Option (List Str)
  | [], ids => some ids
  | e :: es, ids => if e.id ∈ ids then none else addVertices es (ids ++ [e.id])

/-- cmd/routedns/main.go:250 `AddEdge`: both ids must be known and not empty, the edge must be new and not close a loop -/
def addEdge (ids : List Str) (es : Edges) (x : Str × Str) : Option Edges :=
  if x.1 = [] ∨ x.2 = [] ∨ x.1 ∉ ids ∨ x.2 ∉ ids then none
  else if x.1 = x.2 then none
  else if x ∈ es then none
  else if reach es x.2 x.1 then none
  else some (x :: es)

/-- cmd/routedns/main.go:248-257 -/
def addEdges (ids : List Str) : Edges → Edges → Option Edges
  | [], es => some es
  | x :: xs, es => match addEdge ids es x with
    | none => none
    | some es' => addEdges ids xs es'

/-- cmd/routedns/main.go:223-243 and 246-249: the edges of an element; empty references are skipped -/
def edgesOf (o : Orders) (e : Elem) : Edges :=
  (((if e.isRouter then o.deps e.refs else e.refs ++ e.opts)).filter (· ≠ [])).map fun r => (e.id, r)

/-- cmd/routedns/main.go:199: `resolvers` -/
abbrev Map := Str → Option El

/-- cmd/routedns/main.go: `resolvers[id] = …`, for example 1106 -/
def upd (m : Map) (id : Str) (v : El) : Map := fun x => if x = id then some v else m x

/-- Whether the constructor succeeds with these elements. cmd/routedns/main.go:475-1108 and cmd/routedns/resolver.go:12-159. -/
abbrev Ctor := Elem → List El → List (Option El) → Bool

/-- The references of a group or the routes of a router, which must all have been built (cmd/routedns/main.go:478-484, 1091-1094) -/
def lookups (m : Map) : List Str → Option (List El)
  | [] => some []
  | r :: rs => match m r with
    | none => none
    | some v => (lookups m rs).map (v :: ·)

/-- resolver.go `instantiateResolver`, cmd/routedns/main.go:475 `instantiateGroup`, cmd/routedns/main.go:1088 `instantiateRouter`. The optional elements are just looked up (cmd/routedns/main.go:599, 602, 651, 866, 905, 942,
1010); which of them a type of group uses is not modelled. -/
def instantiate (ok : Ctor) (m : Map) (e : Elem) : Option Map := match lookups m e.refs with
  | none => none
  | some rs => if ok e rs (e.opts.map m) then some (upd m e.id (.mk e.id rs (e.opts.map m))) else none

/-- cmd/routedns/main.go:210: the graph -/
structure Graph where
  verts : List Elem
  edges : Edges

/-- cmd/routedns/main.go:261 `GetLeaves` of heimdalr/dag -/
def leaves (g : Graph) : List Elem := g.verts.filter fun v => g.edges.all fun x => x.1 ≠ v.id

/-- cmd/routedns/main.go:276 `DeleteVertex`: fails on an empty id -/
def delVertex (g : Graph) (id : Str) : Option Graph :=
  if id = [] then none else some { verts := g.verts.filter (·.id ≠ id), edges := g.edges.filter fun x => x.1 ≠ id ∧ x.2 ≠ id }

/-- cmd/routedns/main.go:259-279: the leaves of one round -/
def round (ok : Ctor) : List Elem → Map → Graph → Option (Map × Graph)
  | [], m, g => some (m, g)
  | e :: es, m, g => match instantiate ok m e with
    | none => none
    | some m' => match delVertex g e.id with
      | none => none
      | some g' => round ok es m' g'

/-- cmd/routedns/main.go:257-280. The number of rounds is limited here, to the number of elements; `none` stands for an error and for a loop without end -/
def loop (ok : Ctor) (o : Orders) : Nat → Map → Graph → Option Map
  | 0, m, g => if g.verts = [] then some m else none
  | n + 1, m, g => if g.verts = [] then some m else match round ok (o.leaves n (leaves g)) m g with
    | none => none
    | some (m', g') => loop ok o n m' g'

/-- cmd/routedns/main.go:205 -/
def bootId : Str := str "bootstrap-resolver"

/-- cmd/routedns/main.go:204-209 -/
def bootMap (c : Cfg) : Map := if c.bootstrap then upd (fun _ => none) bootId (.mk bootId [] []) else fun _ => none

/-- cmd/routedns/main.go:290-295: what a listener is given: `none` is an error, `some none` the nil resolver of an admin listener -/
def listenerResolver (m : Map) (l : ListenerCfg) : Option (Option El) := match m l.resolver with
  | some r => if l.ok then some (some r) else none
  | none => if l.admin && l.ok then some none else none

/-- cmd/routedns/main.go:290-441: all listeners -/
def listeners (m : Map) : List ListenerCfg → Option (List (Option El))
  | [] => some []
  | l :: ls => match listenerResolver m l with
    | none => none
    | some r => (listeners m ls).map (r :: ·)

/-- cmd/routedns/main.go:199-413 `start`, up to the point where listeners are started -/
def start (ok : Ctor) (o : Orders) (c : Cfg) : Option (Map × List (Option El)) :=
  if c.bootstrap && !ok (resolverElem bootId) [] [] then none
  else match addVertices (elems c) [] with
    | none => none
    | some ids => match addEdges ids ((o.edges (c.groups.map groupElem ++ c.routers.map routerElem)).flatMap (edgesOf o)) [] with
      | none => none
      | some es => match loop ok o (elems c).length (bootMap c) { verts := elems c, edges := es } with
        | none => none
        | some m => (listeners m c.listeners).map fun ws => (m, ws)

end Verif.Config
