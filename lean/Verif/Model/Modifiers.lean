import Verif.Model.Net
/-
ecs-modifier.go, edns0-modifier.go, padding.go.

The elements copy the query before they change it (ecs-modifier.go:33-36, edns0-modifier.go:31-34), so they are functions on messages.
-/
namespace Verif.Modifiers
open Verif Verif.Net

/-- `_, ok := opt.(*dns.EDNS0_SUBNET)`. ecs-modifier.go:60-120. -/
def isEcs : EOpt → Bool
  | .ecs .. => true
  | _ => false

/-- ecs-modifier.go:46-68 `ECSModifierDelete` -/
def ecsDelete (q : Msg) : Msg := q.mapEdns fun e => { e with options := e.options.filter fun o => ! isEcs o }

/-- ecs-modifier.go:76-95: family, mask, address -/
def ecsSubnet (addr : Str) (prefix4 prefix6 : Nat) (ci : ClientInfo) : EOpt :=
  let source := if addr = [] then ci.sourceIP else addr
  match to4 source with
  | some ip4 => .ecs 1 prefix4 0 (ipMask ip4 (cidrMask prefix4 4))
  | none => .ecs 2 prefix6 0 (ipMask source (cidrMask prefix6 16))

/-- ecs-modifier.go:97-102, edns0-modifier.go:67-72: there is an OPT record afterwards -/
def withEdns (q : Msg) : Msg := if q.edns? = none then q.setEdns0 4096 false else q

/-- ecs-modifier.go:70-118 `ECSModifierAdd`; no address is the empty list -/
def ecsAdd (addr : Str) (prefix4 prefix6 : Nat) (q : Msg) (ci : ClientInfo) : Msg :=
  (withEdns (ecsDelete q)).mapEdns fun e => { e with options := e.options ++ [ecsSubnet addr prefix4 prefix6 ci] }

/-- ecs-modifier.go:120-144 `ECSModifierAddIfMissing` -/
def ecsAddIfMissing (addr : Str) (prefix4 prefix6 : Nat) (q : Msg) (ci : ClientInfo) : Msg :=
  if (q.edns?.map fun e => e.options.any isEcs).getD false then q else ecsAdd addr prefix4 prefix6 q ci

/-- ecs-modifier.go:164-175 -/
def ecsPrivacyOpt (prefix4 prefix6 : Nat) (o : EOpt) : EOpt := match o with
  | .ecs 1 _ s a => .ecs 1 prefix4 s (ipMask ((to4 a).getD []) (cidrMask prefix4 4))
  | .ecs 2 _ s a => .ecs 2 prefix6 s (ipMask a (cidrMask prefix6 16))
  | o => o

/-- ecs-modifier.go:146-188 `ECSModifierPrivacy` -/
def ecsPrivacy (prefix4 prefix6 : Nat) (q : Msg) : Msg := q.mapEdns fun e => { e with options := e.options.map (ecsPrivacyOpt prefix4 prefix6) }

/-- edns0-modifier.go:44-60 `EDNS0ModifierDelete` -/
def edns0Delete (code : Nat) (q : Msg) : Msg := q.mapEdns fun e => { e with options := e.options.filter fun o => ! (o.code = code) }

/-- edns0-modifier.go:62-80 `EDNS0ModifierAdd` -/
def edns0Add (code : Nat) (data : Str) (q : Msg) : Msg :=
  (withEdns (edns0Delete code q)).mapEdns fun e => { e with options := e.options ++ [.loc code data] }

/-! ### Padding -/

/-- padding.go:6, 9 -/
def queryBlock : Nat := 128
/-- padding.go:9 -/
def responseBlock : Nat := 468

/-- padding.go:31-37: all padding options are emptied. `none`: the type assertion panics on an option with this code that is not a `*dns.EDNS0_PADDING`. -/
def clearPadding : List EOpt → Option (List EOpt)
  | [] => some []
  | .padding _ :: os => (clearPadding os).map (.padding 0 :: ·)
  | o :: os => if o.code = 12 then none else (clearPadding os).map (o :: ·)

/-- padding.go:40-43: there is a padding option afterwards -/
def withPadding (os : List EOpt) : List EOpt := if os.any (fun o => o.code = 12) then os else os ++ [.padding 0]

/-- padding.go:56: the last padding option gets its length -/
def setPadding (n : Nat) (os : List EOpt) : List EOpt :=
  let rec go : List EOpt → List EOpt
    | [] => []
    | .padding _ :: os => .padding n :: os
    | o :: os => o :: go os
  (go os.reverse).reverse

/-- padding.go:17-57 `padAnswer`. `len` is `dns.Msg.Len`. `none` is a panic. -/
def padAnswer (len : Msg → Nat) (q a : Msg) : Option Msg := match q.edns? with
  | none => some a
  | some eq =>
    let a := match a.edns? with
      | none => a.setEdns0 eq.udpSize eq.dnssecOk
      | some _ => a
    match a.edns? with
    | none => none
    | some ea => match clearPadding ea.options with
      | none => none
      | some os =>
        let a := a.mapEdns fun e => { e with options := withPadding os }
        let l := len a
        let padLen := responseBlock - l % responseBlock
        let padLen := if l + padLen > eq.udpSize then eq.udpSize - l else padLen
        if padLen > responseBlock then none
        else some (a.mapEdns fun e => { e with options := setPadding padLen e.options })

/-- padding.go:61-86 `padQuery` -/
def padQuery (len : Msg → Nat) (q : Msg) : Option Msg := match q.edns? with
  | none => some q
  | some eq => match clearPadding eq.options with
    | none => none
    | some os =>
      let q := q.mapEdns fun e => { e with options := withPadding os }
      let padLen := queryBlock - len q % queryBlock
      if padLen > queryBlock then none
      else some (q.mapEdns fun e => { e with options := setPadding padLen e.options })

/-- padding.go:90-102 `stripPadding` -/
def stripPadding (m : Msg) : Msg := m.mapEdns fun e => { e with options := e.options.filter fun o => o.code ≠ 12 }

end Verif.Modifiers
