import Verif.Model.Net
/-
cidr-db.go, ip-blocklist-trie.go: lists of IP networks.

`net.ParseCIDR` is a parameter. Pointers become an inductive tree (`nil` is a node pointer that is nil); every node has one parent, so updates in place are
updates of the tree. The bit reads `bit(ip, 0)`, `bit(ip, 1)`, … of the two loops are made first, as a list.
-/
namespace Verif.Cidr
open Verif Verif.Net

/-- ip-blocklist-trie.go:11-18 -/
inductive Trie where
  | nil
  | node (leaf : Bool) (left right : Trie)
deriving DecidableEq, Repr

/-- ip-blocklist-trie.go:98-107 -/
def bitMask : List UInt8 := [128, 64, 32, 16, 8, 4, 2, 1]

/-- ip-blocklist-trie.go:110-117. An index beyond the address (a panic in the code) reads as 0. -/
def bit (ip : Str) (n : Nat) : Bool := ! ((ip.getD (n / 8) 0 &&& bitMask.getD (n % 8) 0) == 0)

/-- the first `n` bits read by the loops. ip-blocklist-trie.go:21-50, 54-82. -/
def readBits (ip : Str) (n : Nat) : List Bool := (List.range n).map (bit ip)

/-- ip-blocklist-trie.go:26-49: descend along the bits, stop at a leaf, and make the node reached a leaf without children -/
def addBits : Trie → List Bool → Trie
  | .node true _ _, _ => .node true .nil .nil
  | _, [] => .node true .nil .nil
  | .nil, true :: bs => .node false .nil (addBits .nil bs)
  | .nil, false :: bs => .node false (addBits .nil bs) .nil
  | .node false l r, true :: bs => .node false l (addBits r bs)
  | .node false l r, false :: bs => .node false (addBits l bs) r

/-- A `net.IPNet`: address and prefix length (`Mask.Size`). The Go library's, used in cidr-db.go:20-73. -/
structure IPNet where
  ip : Str
  ones : Nat
deriving DecidableEq, Repr

/-- ip-blocklist-trie.go:21-50 `add` -/
def Trie.add (t : Trie) (n : IPNet) : Trie := addBits t (readBits n.ip n.ones)

/-- ip-blocklist-trie.go:65-82: the loop of `hasIP` from bit `i`; gives the prefix length of the match. At the end of the address any node counts. -/
def walk : Trie → List Bool → Nat → Option Nat
  | .nil, _, _ => none
  | .node _ _ _, [], i => some i
  | .node true _ _, _ :: _, i => some i
  | .node false l r, b :: bs, i => walk (if b then r else l) bs (i + 1)

/-- ip-blocklist-trie.go:54-83 `hasIP`; the rule text is represented by the network it is the text of (`ruleString`, 85-96). -/
def Trie.hasIP (t : Trie) (ip : Str) : Option IPNet :=
  let addr := (to4 ip).getD ip
  let size := if (to4 ip).isSome then 32 else 128
  match walk t (readBits addr size) 0 with
  | none => none
  | some n => some { ip := ipMask addr (cidrMask n (size / 8)), ones := n }

/-- cidr-db.go:11-15 -/
structure DB where
  ip4 : Trie := .nil
  ip6 : Trie := .nil
deriving DecidableEq, Repr

/-- cidr-db.go:48-52: one network. `ip` is the first result of `net.ParseCIDR`. -/
def DB.insert (db : DB) (ip : Str) (n : IPNet) : DB := match to4 ip with
  | none => { db with ip6 := db.ip6.add n }
  | some _ => { db with ip4 := db.ip4.add n }

/-- cidr-db.go:32-44: a line of the list as handed to `net.ParseCIDR`; `none` for comments and empty lines -/
def normalize (r : Str) : Option Str :=
  let r := trimSpace r
  if r.head? = some 35 ∨ r = [] then none
  else if r.contains 47 then some r
  else if r.contains 46 then some (r ++ str "/32")
  else if r.contains 58 then some (r ++ str "/128")
  else some r

/-- cidr-db.go:20-55 `NewCidrDB` after the list is loaded; `none` is an error -/
def load (parseCIDR : Str → Option (Str × IPNet)) : List Str → DB → Option DB
  | [], db => some db
  | r :: rs, db => match normalize r with
    | none => load parseCIDR rs db
    | some r => match parseCIDR r with
      | none => none
      | some (ip, n) => load parseCIDR rs (db.insert ip n)

/-- cidr-db.go:61-73 `Match` -/
def DB.lookup (db : DB) (ip : Str) : Option IPNet :=
  if ip.length = 0 then none
  else match to4 ip with
    | none => db.ip6.hasIP ip
    | some _ => db.ip4.hasIP ip

end Verif.Cidr
