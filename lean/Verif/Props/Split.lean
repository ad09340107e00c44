import Verif.Spec.Split
import Verif.Model.Asks
import Verif.Props.Asks
import Verif.Props.Route
/-
C113: names and clients that are kept away from some of the servers.
-/
namespace Verif.Props.Split
open Verif Verif.Net Verif.Composition Verif.Asks Verif.Spec.Asks Verif.Spec.Split Verif.Props.Asks

variable {H : Type}

/-- The route taken is not behind one that takes the query for sure. -/
private theorem route_le {q : Msg} {qu : Question} {ci : ClientInfo} {now : Nat → Route.Now} : ∀ {routes : List Route.Route} {i k m : Nat} {r : Route.Route},
    Route.routeIndex routes q qu ci now i = some m → routes[k]? = some r → (∀ t, Route.matches' r q qu ci t = true) → i ≤ m ∧ m ≤ i + k
  | [], _, _, _, _, h, _, _ => by cases h
  | x :: xs, i, k, m, r, h, hk, hr => by
    unfold Route.routeIndex at h
    split at h
    · injection h with h; omega
    · rename_i hx
      cases k with
      | zero =>
        injection hk with hk
        subst hk
        exact absurd (hr _) hx
      | succ k =>
        have := route_le h (by simpa using hk) hr
        omega

/-- Servers that are not in the configuration are not asked. -/
private theorem no_way (S : Nat → Prop) (t : Tree H) (q : Msg) (ci : ClientInfo) (i : Nat) (q' : Msg) (ci' : ClientInfo) (hg : NoWay S t) (h : Asks t q ci i q' ci') : ¬ S i := by
  intro hS
  induction h with
  | client => exact hg hS
  | ttl _ ih => exact ih hg hS
  | truncate _ ih => exact ih hg.1 hS
  | retry _ ih => exact ih hg.2 hS
  | collapse _ ih => exact ih hg hS
  | minimize _ ih => exact ih hg hS
  | modify _ ih => exact ih hg hS
  | blocklist _ _ _ ih => exact ih (branch_all hg.1 hg.2.1 hg.2.2 _) hS
  | clientBlocklist _ _ _ ih => exact ih (branch_all hg.1 hg.1 hg.2 _) hS
  | responseIp _ ih => exact ih hg.1 hS
  | responseIpBlock _ _ _ ih => exact ih (branch_all hg.1 hg.1 hg.2 _) hS
  | responseName _ ih => exact ih hg.1 hS
  | responseNameBlock _ _ _ ih => exact ih (branch_all hg.1 hg.1 hg.2 _) hS
  | rateOn _ ih => exact ih hg.1 hS
  | rateLimited _ ih => exact ih hg.2 hS
  | replace _ ih => exact ih hg hS
  | syslog _ ih => exact ih hg hS
  | queryLog _ ih => exact ih hg hS
  | dns64 _ ih => exact ih hg hS
  | dns64A _ ih => exact ih hg hS
  | failRotate _ ih => exact ih (hg _) hS
  | failBack _ ih => exact ih (hg _) hS
  | failBackEach _ ih => exact ih (hg _) hS
  | roundRobin _ ih => exact ih (hg _) hS
  | random _ ih => exact ih (hg _) hS
  | loadBalance _ ih => exact ih (hg _) hS
  | fastest _ ih => exact ih (hg _) hS
  | fastestTcp _ ih => exact ih hg hS
  | router _ _ _ ih => exact ih (hg _) hS
  | dedup _ ih => exact ih hg hS
  | cache _ ih => exact ih hg hS
  | prefetch _ ih => exact ih hg hS
  | prefetchAgain _ ih => exact ih hg hS
  | dnssec _ ih => exact ih hg hS
  | dnssecLookup _ _ ih => exact ih hg hS

/-- C113: if each way to the servers `S` leads through a router that sends these names elsewhere (or a blocklist for them), no server in `S` is ever asked about one of these names, whatever
clients ask, whatever the elements have seen before, and whatever servers reply. -/
theorem names_apart (S : Nat → Prop) (bad : Str → Prop) (t : Tree H) (q : Msg) (ci : ClientInfo) (i : Nat) (q' : Msg) (ci' : ClientInfo) (hg : Apart S bad t) (h : Asks t q ci i q' ci')
    (hS : S i) (n : Str) (hn : Named q' n) : ¬ bad n := by
  induction h with
  | client => exact (hg hS).elim
  | ttl _ ih => exact ih hg hS hn
  | truncate _ ih => exact ih hg.1 hS hn
  | retry _ ih => exact ih hg.2 hS hn
  | collapse _ ih => exact ih hg hS hn
  | minimize _ ih => exact ih hg hS hn
  | modify _ ih => exact ih hg hS hn
  | blocklist ho hr ha ih =>
    rcases hg with ⟨hb, h1, h2, h3⟩ | ⟨h1, h2, h3⟩
    · rename_i x _ _ _ _ _ _
      intro hbad
      have hp := resolve_forward hr
      subst hp
      cases x with
      | block => exact ih h3 hS hn hbad
      | upstream =>
        rcases h1 with h1 | h1
        · cases blocked_forward hb ho ((keeps_name _ _ _ _ _ _ h1 ha n).mp hn) hbad hr
        · exact ih h1 hS hn hbad
      | allow =>
        rcases h2 with h2 | h2
        · cases blocked_forward hb ho ((keeps_name _ _ _ _ _ _ h2 ha n).mp hn) hbad hr
        · exact ih h2 hS hn hbad
    · exact ih (branch_all h1 h2 h3 _) hS hn
  | clientBlocklist _ _ _ ih => exact ih (branch_all hg.1 hg.1 hg.2 _) hS hn
  | responseIp _ ih => exact ih hg.1 hS hn
  | responseIpBlock _ _ _ ih => exact ih (branch_all hg.1 hg.1 hg.2 _) hS hn
  | responseName _ ih => exact ih hg.1 hS hn
  | responseNameBlock _ _ _ ih => exact ih (branch_all hg.1 hg.1 hg.2 _) hS hn
  | rateOn _ ih => exact ih hg.1 hS hn
  | rateLimited _ ih => exact ih hg.2 hS hn
  | replace _ ih => exact ih hg hS hn
  | syslog _ ih => exact ih hg hS hn
  | queryLog _ ih => exact ih hg hS hn
  | dns64 _ ih => exact ih hg hS hn
  | dns64A _ ih => exact ih hg hS hn
  | failRotate _ ih => exact ih (hg _) hS hn
  | failBack _ ih => exact ih (hg _) hS hn
  | failBackEach _ ih => exact ih (hg _) hS hn
  | roundRobin _ ih => exact ih (hg _) hS hn
  | random _ ih => exact ih (hg _) hS hn
  | loadBalance _ ih => exact ih (hg _) hS hn
  | fastest _ ih => exact ih (hg _) hS hn
  | fastestTcp _ ih => exact ih hg hS hn
  | @router routes member q qu rest ci now m i q' ci' hq hm ha ih =>
    rcases hg with hg | ⟨⟨k, r, hk, hc, hj⟩, hm'⟩
    · exact ih (hg _) hS hn
    · rcases hm' m with hkeep | hg
      · intro hbad
        obtain ⟨qu', rest', hq', hn'⟩ := (keeps_name _ _ _ _ _ _ hkeep ha n).mp hn
        rw [hq] at hq'
        injection hq' with h1 h2
        subst h1 h2
        have := route_le hm hk fun τ => hc q qu ci τ (by rw [hn']; exact hbad)
        exact ih (hj m (by omega)) hS hn hbad
      · exact ih hg hS hn
  | dedup _ ih => exact ih hg hS hn
  | cache _ ih => exact ih hg hS hn
  | prefetch _ ih => exact ih hg hS hn
  | prefetchAgain _ ih => exact ih hg hS hn
  | dnssec _ ih => exact ih hg hS hn
  | dnssecLookup _ _ ih => exact ih hg hS hn

/-- C113: what these servers would reply about these names makes no difference. -/
theorem names_apart_replies [DecidableEq H] (S : Nat → Prop) (bad : Str → Prop) (C C' : Nat → Msg → ClientInfo → Option Res → Prop)
    (hC : ∀ i q ci o, (S i → ∀ n, Named q n → ¬ bad n) → (C i q ci o ↔ C' i q ci o)) (t : Tree H) (hg : Apart S bad t) (q : Msg) (ci : ClientInfo) (o : Option Res) :
    Replies C t q ci o ↔ Replies C' t q ci o :=
  ⟨fun h => replies_only_asked C C' t q ci o h fun i q' ci' o' a hc => (hC i q' ci' o' fun hS n hn => names_apart S bad t q ci i q' ci' hg a hS n hn).mp hc,
   fun h => replies_only_asked C' C t q ci o h fun i q' ci' o' a hc => (hC i q' ci' o' fun hS n hn => names_apart S bad t q ci i q' ci' hg a hS n hn).mpr hc⟩

/-- C113: if each way to the servers `S` leads through a router that sends these clients elsewhere, and no element asks by itself before it, nothing these clients ask reaches a server in
`S`. -/
theorem clients_apart (S : Nat → Prop) (who : ClientInfo → Prop) (t : Tree H) (q : Msg) (ci : ClientInfo) (i : Nat) (q' : Msg) (ci' : ClientInfo) (hg : ApartFrom S who t) (hc : who ci)
    (h : Asks t q ci i q' ci') : ¬ S i := by
  intro hS
  induction h with
  | client => exact hg hS
  | ttl _ ih => exact ih hg hc hS
  | truncate _ ih => exact ih hg.1 hc hS
  | retry _ ih => exact ih hg.2 hc hS
  | collapse _ ih => exact ih hg hc hS
  | minimize _ ih => exact ih hg hc hS
  | modify _ ih => exact ih hg hc hS
  | blocklist _ _ _ ih => exact ih (branch_all hg.1 hg.2.1 hg.2.2 _) hc hS
  | clientBlocklist _ _ _ ih => exact ih (branch_all hg.1 hg.1 hg.2 _) hc hS
  | responseIp _ ih => exact ih hg.1 hc hS
  | responseIpBlock _ _ _ ih => exact ih (branch_all hg.1 hg.1 hg.2 _) hc hS
  | responseName _ ih => exact ih hg.1 hc hS
  | responseNameBlock _ _ _ ih => exact ih (branch_all hg.1 hg.1 hg.2 _) hc hS
  | rateOn _ ih => exact ih hg.1 hc hS
  | rateLimited _ ih => exact ih hg.2 hc hS
  | replace _ ih => exact ih hg hc hS
  | syslog _ ih => exact ih hg hc hS
  | queryLog _ ih => exact ih hg hc hS
  | dns64 _ ih => exact ih hg hc hS
  | dns64A _ ih => exact ih hg hc hS
  | failRotate _ ih => exact ih (hg _) hc hS
  | failBack _ ih => exact ih (hg _) hc hS
  | failBackEach _ ih => exact ih (hg _) hc hS
  | roundRobin _ ih => exact ih (hg _) hc hS
  | random _ ih => exact ih (hg _) hc hS
  | loadBalance _ ih => exact ih (hg _) hc hS
  | fastest _ ih => exact ih (hg _) hc hS
  | fastestTcp _ ih => exact ih hg hc hS
  | router hq hm ha ih =>
    rcases hg with hg | ⟨k, r, hk, hr, hj⟩
    · exact ih (hg _) hc hS
    · have := route_le hm hk fun τ => hr _ _ _ τ hc
      exact ih (hj _ (by omega)) hc hS
  | dedup _ ih => exact ih hg hc hS
  | cache _ ih => exact ih hg hc hS
  | prefetch ha _ => exact no_way S _ _ _ _ _ _ hg ha hS
  | prefetchAgain ha _ => exact no_way S _ _ _ _ _ _ hg ha hS
  | dnssec ha _ => exact no_way S _ _ _ _ _ _ hg ha hS
  | dnssecLookup _ ha _ => exact no_way S _ _ _ _ _ _ hg ha hS

/-- C113: so these clients get the same replies whatever these servers do. -/
theorem clients_apart_replies [DecidableEq H] (S : Nat → Prop) (who : ClientInfo → Prop) (C C' : Nat → Msg → ClientInfo → Option Res → Prop)
    (hC : ∀ i q ci o, ¬ S i → (C i q ci o ↔ C' i q ci o)) (t : Tree H) (hg : ApartFrom S who t) (q : Msg) (ci : ClientInfo) (hc : who ci) (o : Option Res) :
    Replies C t q ci o ↔ Replies C' t q ci o :=
  ⟨fun h => replies_only_asked C C' t q ci o h fun i q' ci' o' a => (hC i q' ci' o' (clients_apart S who t q ci i q' ci' hg hc a)).mp,
   fun h => replies_only_asked C' C t q ci o h fun i q' ci' o' a => (hC i q' ci' o' (clients_apart S who t q ci i q' ci' hg hc a)).mpr⟩

/-! ### Routes of the configuration that catch -/

/-- A route with an expression for names, and nothing else, takes queries about all names the expression matches. The empty expression matches everything. -/
theorem name_route_catches (table : List (Nat × Str)) (compile : Str → Option (Str → Bool)) (parseCIDR : Str → Option (Str × Cidr.IPNet)) (hempty : ∀ f, compile [] = some f → ∀ s, f s = true)
    (e : Str) (r : Route.Route) (h : Route.newRoute table compile parseCIDR { name := e } = some r) (f : Str → Bool) (hf : compile e = some f) (bad : Str → Prop)
    (hb : ∀ n, bad n → f n = true) : Catches r bad := by
  intro q qu ci now hn
  cases he : compile [] with
  | none => simp [Route.newRoute, Route.stringToType, Route.stringsToWeekdays, Route.parseTimeOfDay, he] at h
  | some f0 =>
    simp [Route.newRoute, Route.stringToType, Route.stringsToWeekdays, Route.parseTimeOfDay, Route.stringToClass, Route.upper, Route.parseNet, he, hf] at h
    subst h
    simp [Route.matches', hb _ hn, hempty f0 he]

/-- A route with a network for the addresses of clients, and nothing else, takes all queries of clients in it. -/
theorem source_route_catches (table : List (Nat × Str)) (compile : Str → Option (Str → Bool)) (parseCIDR : Str → Option (Str × Cidr.IPNet)) (hempty : ∀ f, compile [] = some f → ∀ s, f s = true)
    (e : Str) (he : e ≠ []) (r : Route.Route) (h : Route.newRoute table compile parseCIDR { source := e } = some r) (a : Str) (net : Cidr.IPNet) (hp : parseCIDR e = some (a, net))
    (hn : net.ip.length = 4 ∨ net.ip.length = 16) :
    CatchesFrom r fun ci => (ci.sourceIP.length = 4 ∨ ci.sourceIP.length = 16) ∧ Spec.Route.Lies net ci.sourceIP := by
  intro q qu ci now ⟨hl, hin⟩
  have hc := (Props.Route.route_contains net hn ci.sourceIP (.inr hl)).mpr hin
  cases hf : compile [] with
  | none => simp [Route.newRoute, Route.stringToType, Route.stringsToWeekdays, Route.parseTimeOfDay, hf] at h
  | some f0 =>
    simp [Route.newRoute, Route.stringToType, Route.stringsToWeekdays, Route.parseTimeOfDay, Route.stringToClass, Route.upper, Route.parseNet, hf, he, hp] at h
    subst h
    simp [Route.matches', hempty f0 hf, hc]

/-- A route with an expression for listeners, and nothing else, takes all queries that came in through listeners it matches. -/
theorem listener_route_catches (table : List (Nat × Str)) (compile : Str → Option (Str → Bool)) (parseCIDR : Str → Option (Str × Cidr.IPNet)) (hempty : ∀ f, compile [] = some f → ∀ s, f s = true)
    (e : Str) (r : Route.Route) (h : Route.newRoute table compile parseCIDR { listenerID := e } = some r) (f : Str → Bool) (hf : compile e = some f) :
    CatchesFrom r fun ci => f ci.listener = true := by
  intro q qu ci now hn
  cases he : compile [] with
  | none => simp [Route.newRoute, Route.stringToType, Route.stringsToWeekdays, Route.parseTimeOfDay, he] at h
  | some f0 =>
    simp [Route.newRoute, Route.stringToType, Route.stringsToWeekdays, Route.parseTimeOfDay, Route.stringToClass, Route.upper, Route.parseNet, he, hf] at h
    subst h
    simp [Route.matches', hn, hempty f0 he]

/-! ### Limits and a case -/

/-- An expression of which only the ends of names matter, in small letters: as `\.internal\.$` -/
private def exName : Str → Bool := fun s => (str ".internal.").isSuffixOf s
private def exRoute : Route.Route :=
  { types := [], cls := 0, name := exName, source := none, ecsSource := none, weekdays := [], before := none, after := none, inverted := false, dohPath := fun _ => true,
    listenerID := fun _ => true, tlsServerName := fun _ => true }
private def exAll : Route.Route := { exRoute with name := fun _ => true }
private def exLan : Route.Route := { exAll with source := some ⟨[10, 0, 0, 0], 8⟩ }

/-- Server 0 for internal names, server 1 for all others: behind a cache with DNS64 in front, and prefetching in front of all -/
private def exTree : Tree Nat := .prefetch (.dns64 [] (.router [exRoute, exAll] fun
  | 0 => .client 0
  | _ => .dedup (.failRotate 2 (fun r => r.err.isNone) fun _ => .client 1)))

private theorem exCatches : Catches exRoute fun n => (str ".internal.").isSuffixOf n = true := by
  intro q qu ci now h
  simp [Route.matches', exRoute, exName, h]

private theorem exApart : Apart (· = 1) (fun n => (str ".internal.").isSuffixOf n = true) exTree := by
  refine .inr ⟨⟨0, exRoute, rfl, exCatches, ?_⟩, ?_⟩
  · intro j hj
    obtain rfl : j = 0 := by omega
    simp [Apart]
  · intro m
    match m with
    | 0 => exact .inl trivial
    | n + 1 => exact .inl fun _ => trivial

example : Apart (· = 1) (fun n => (str ".internal.").isSuffixOf n = true) exTree := exApart
example : Asks exTree { question := [⟨str "a.internal.", 1, 1⟩] } {} 0 { question := [⟨str "a.internal.", 1, 1⟩] } {} :=
  .prefetch (.dns64 (.router (m := 0) (now := fun _ => ⟨0, 0, 0⟩) rfl (by decide) .client))

/-- Expressions distinguish capitals from small letters: a name of the same domain in capitals, which servers take for the same, goes to the other server. -/
theorem capitals_pass_routes : ∃ (t : Tree Nat) (S : Nat → Prop) (bad : Str → Prop) (q : Msg) (n n' : Str), Apart S bad t ∧ bad n ∧ Spec.InCapitals n' n ∧ Named q n' ∧ S 1 ∧ Asks t q {} 1 q {} := by
  refine ⟨exTree, _, _, { question := [⟨str "A.INTERNAL.", 1, 1⟩] }, str "a.internal.", str "A.INTERNAL.", exApart, by decide, ⟨by decide, by decide⟩, ⟨_, _, rfl, rfl⟩, rfl, ?_⟩
  exact .prefetch (.dns64 (.router (m := 1) (now := fun _ => ⟨0, 0, 0⟩) rfl (by decide) (.dedup (.failRotate (m := 0) .client))))

/-- Prefetching in front of a router asks again as for a client of no address: so queries go to servers the router keeps that client from. -/
theorem prefetch_forgets_client : ∃ (t : Tree Nat) (who : ClientInfo → Prop) (S : Nat → Prop) (q : Msg) (ci : ClientInfo), ApartFrom S who t ∧ who ci ∧ S 1 ∧
    Asks (.prefetch t) q ci 1 q { listener := str "prefetch" } := by
  refine ⟨.router [exLan, exAll] fun | 0 => .client 0 | _ => .client 1, fun ci => ci.sourceIP = [10, 1, 2, 3], (· = 1), { question := [⟨str "a.", 1, 1⟩] }, { sourceIP := [10, 1, 2, 3] },
    .inr ⟨0, exLan, rfl, ?_, ?_⟩, rfl, rfl, .prefetchAgain (.router (m := 1) (now := fun _ => ⟨0, 0, 0⟩) rfl (by decide) .client)⟩
  · intro q qu ci now h
    have : Route.contains ⟨[10, 0, 0, 0], 8⟩ [10, 1, 2, 3] = true := by decide
    simp [Route.matches', exLan, exAll, exRoute, h, this]
  · intro j hj
    obtain rfl : j = 0 := by omega
    simp [ApartFrom]

end Verif.Props.Split
