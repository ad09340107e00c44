import Verif.Spec.Available
import Verif.Props.Records
import Verif.Props.Asks
import Verif.Props.Balance
import Mathlib.Data.List.Nodup
import Mathlib.Data.List.Perm.Subperm
/-
C117: availability. If some servers work, clients get replies of the kinds that a configuration promises, whatever the other servers do.
-/
namespace Verif.Props.Available
open Verif Verif.Net Verif.Composition Verif.Available Verif.Props.Composition Verif.Props.Records

/-! ### Elements keep the kind of a reply, or say which one they give -/

private theorem kind_ok (m : Msg) : kind (.ok m) = .code m.rcode := rfl

private theorem ttl_kind (o : Elements.TTLOptions) (r : Res) : kind (Elements.ttlResolve o r) = kind r := by
  unfold Elements.ttlResolve
  split
  · rename_i a he hm
    rw [kind_ok]
    simp only [kind, he, hm, Elements.mapTTL]
    cases Elements.selected o a <;> rfl
  · rfl

private theorem minimize_kind (r : Res) : kind (Elements.minimize r) = kind r := by
  unfold Elements.minimize
  split
  · rename_i a he hm; simp only [kind, he, hm, Res.ok]
  · rfl

private theorem collapse_kind {n : Nat} {q : Msg} {r x : Res} (h : Elements.collapse n q r = some x) : kind x = kind r ∨ (kind r = .code 0 ∧ kind x = .code n) := by
  unfold Elements.collapse at h
  split at h
  · rename_i a he hm
    have hk : kind r = .code a.rcode := by simp only [kind, he, hm]
    split at h
    · cases h; exact .inl rfl
    · rename_i h0
      have h0 : a.rcode = 0 := by simpa [rcodeSuccess] using h0
      split at h
      · cases h
      · simp only at h
        split at h <;> cases h
        · exact .inr ⟨by rw [hk, h0], rfl⟩
        · exact .inl (by rw [hk]; rfl)
  · cases h; exact .inl rfl

private theorem truncate_kind (r r2 : Res) : (Elements.truncateRetry r r2).1 = r ∨ ((Elements.truncateRetry r r2).2 = true ∧ (Elements.truncateRetry r r2).1 = r2) := by
  unfold Elements.truncateRetry
  split
  · split
    · exact .inr ⟨rfl, rfl⟩
    · exact .inl rfl
  · exact .inl rfl

private theorem ede_code (e : Option Blocklist.Ede) (m q : Msg) (x : Option Lists.Match) : (Blocklist.applyEde e m q x).rcode = m.rcode := by
  unfold Blocklist.applyEde
  cases e with
  | none => rfl
  | some e =>
    simp only
    split <;> rfl

private theorem blocklist_kind {o : Blocklist.Options} {q : Msg} {r : Res} (h : Blocklist.resolve o q = some (.done r)) : kind r = .code 0 ∨ (o.hasBlockResolver = false ∧ kind r = .code 3) := by
  unfold Blocklist.resolve at h
  split at h
  · cases h
  · split at h
    · cases h
    · split at h
      · cases h
      · split at h
        · cases h; exact .inl rfl
        · split at h
          · cases h
          · rename_i hb
            split at h <;> cases h
            · exact .inl rfl
            · exact .inr ⟨by simpa using hb, rfl⟩

private theorem blocklist_target {o : Blocklist.Options} {q q' : Msg} {t : Blocklist.Target} (h : Blocklist.resolve o q = some (.forward t q')) :
    (t = .allow → o.hasAllowResolver = true) ∧ (t = .block → o.hasBlockResolver = true) := by
  unfold Blocklist.resolve at h
  split at h
  · cases h
  · split at h
    · cases h
      cases ha : o.hasAllowResolver <;> simp
    · split at h
      · cases h; simp
      · split at h
        · cases h
        · split at h
          · rename_i hb; cases h; simpa using hb
          · split at h <;> cases h

private theorem client_kind {e hb : Bool} {db : Str → Option Lists.Match} {q : Msg} {ci : ClientInfo} {r : Res} (h : Blocklist.resolveClient e hb db q ci = .done r) : hb = false ∧ kind r = .code 5 := by
  unfold Blocklist.resolveClient at h
  simp only at h
  split at h
  · cases h
  · split at h
    · split at h
      · cases h
      · rename_i hb'; cases h; exact ⟨by simpa using hb', rfl⟩
    · cases h

private theorem client_target {e hb : Bool} {db : Str → Option Lists.Match} {q q' : Msg} {ci : ClientInfo} {t : Blocklist.Target} (h : Blocklist.resolveClient e hb db q ci = .forward t q') :
    t = .upstream ∨ (t = .block ∧ hb = true) := by
  unfold Blocklist.resolveClient at h
  simp only at h
  split at h
  · cases h; exact .inl rfl
  · split at h
    · split at h
      · rename_i hb'; cases h; exact .inr ⟨rfl, hb'⟩
      · cases h
    · cases h; exact .inl rfl

private theorem block_kind {κ : Type} {key : RR → Option κ} {db : κ → Option Lists.Match} {inv hb : Bool} {e : Option Blocklist.Ede} {q a : Msg} {x : Res}
    (h : Blocklist.blockIfMatch key db inv hb e q a = .done x) : x = .ok a ∨ (hb = false ∧ kind x = .code 3) := by
  unfold Blocklist.blockIfMatch at h
  split at h
  · cases h; exact .inl rfl
  · split at h
    · cases h
    · rename_i hb'; cases h; exact .inr ⟨by simpa using hb', by rw [kind_ok, ede_code]; rfl⟩

private theorem block_target {κ : Type} {key : RR → Option κ} {db : κ → Option Lists.Match} {inv hb : Bool} {e : Option Blocklist.Ede} {q q' a : Msg} {t : Blocklist.Target}
    (h : Blocklist.blockIfMatch key db inv hb e q a = .forward t q') : t = .block ∧ hb = true := by
  unfold Blocklist.blockIfMatch at h
  split at h
  · cases h
  · split at h
    · rename_i hb'; cases h; exact ⟨rfl, hb'⟩
    · cases h

private theorem ip_kind {o : Blocklist.IpOptions} {r x : Res} {q : Msg} (h : Blocklist.resolveIp o r q = .done x) : kind x = kind r ∨ (o.hasBlockResolver = false ∧ kind x = .code 3) := by
  unfold Blocklist.resolveIp at h
  split at h
  · rename_i a hm he
    have hk : kind r = .code a.rcode := by simp only [kind, he, hm]
    split at h
    · cases h; exact .inl rfl
    · split at h
      · unfold Blocklist.filterMatch at h
        split at h
        · split at h
          · cases h
          · rename_i hb; cases h; exact .inr ⟨by simpa using hb, rfl⟩
        · cases h; exact .inl (by rw [hk]; rfl)
      · rcases block_kind h with rfl | h
        · exact .inl (by rw [hk]; rfl)
        · exact .inr h
  · cases h; exact .inl rfl

private theorem ip_target {o : Blocklist.IpOptions} {r : Res} {q q' : Msg} {t : Blocklist.Target} (h : Blocklist.resolveIp o r q = .forward t q') : t = .block ∧ o.hasBlockResolver = true := by
  unfold Blocklist.resolveIp at h
  split at h
  · split at h
    · cases h
    · split at h
      · unfold Blocklist.filterMatch at h
        split at h
        · split at h
          · rename_i hb; cases h; exact ⟨rfl, hb⟩
          · cases h
        · cases h
      · exact block_target h
  · cases h

private theorem name_kind {o : Blocklist.NameOptions} {r x : Res} {q : Msg} (h : Blocklist.resolveName o r q = .done x) : kind x = kind r ∨ (o.hasBlockResolver = false ∧ kind x = .code 3) := by
  unfold Blocklist.resolveName at h
  split at h
  · rename_i a hm he
    rcases block_kind h with rfl | h
    · exact .inl (by simp only [kind, he, hm, Res.ok])
    · exact .inr h
  · cases h; exact .inl rfl

private theorem name_target {o : Blocklist.NameOptions} {r : Res} {q q' : Msg} {t : Blocklist.Target} (h : Blocklist.resolveName o r q = .forward t q') : t = .block ∧ o.hasBlockResolver = true := by
  unfold Blocklist.resolveName at h
  split at h
  · exact block_target h
  · cases h

private theorem static_kind {s : Static.Static} {q : Msg} {x : Res} (h : Static.resolve s q = some x) : kind x = .code s.rcode := by
  unfold Static.resolve at h
  simp only [Option.bind_eq_bind, Option.bind_eq_some_iff, Option.pure_def, Option.some.injEq] at h
  obtain ⟨a, -, n, -, e, -, rfl⟩ := h
  rw [kind_ok, ede_code]

private theorem template_kind {newRR : Str → Option (Option RR)} {s : Static.Template} {q : Msg} {x : Res} (h : Static.resolveTemplate newRR s q = some x) : kind x = .code s.rcode := by
  unfold Static.resolveTemplate at h
  simp only [Option.bind_eq_bind, Option.bind_eq_some_iff, Option.pure_def, Option.some.injEq] at h
  obtain ⟨a, -, n, -, e, -, rfl⟩ := h
  rw [kind_ok, ede_code]

private theorem replace_kind {exps : List (Str → Str)} {q : Msg} {r x : Res} (h : Static.resolveReplace exps (fun _ => r) q = some x) : kind x = kind r := by
  unfold Static.resolveReplace at h
  split at h
  · cases h
  · simp only at h
    split at h
    · cases h; rfl
    · split at h <;> (cases h; simp [kind, Res.fail, Res.drop, Res.ok, *])

private theorem dns64_kind {ps : List Dns64.Pfx} {q : Msg} {up : Msg → Res} {x : Res} (h : Dns64.resolve ps up q = some x) : kind x = kind (up q) := by
  unfold Dns64.resolve at h
  split at h
  · cases h
  · split at h
    · cases h; rfl
    · split at h
      · cases h; rfl
      · simp only at h
        split at h
        · cases h; rfl
        · rename_i he
          have he : (up q).err = none := by simpa using he
          split at h
          · cases h; rfl
          · rename_i a hm
            split at h
            · cases h; rfl
            · rename_i h0
              have h0 : a.rcode = 0 := by simpa [rcodeSuccess] using h0
              have hk : kind (up q) = .code 0 := by simp only [kind, he, hm, h0]
              split at h
              · cases h; rfl
              · split at h
                · cases h; rfl
                · split at h
                  · cases h; rfl
                  · split at h
                    · cases h; rfl
                    · split at h
                      · cases h; rfl
                      · cases h; rw [hk]; rfl

private theorem tcp_kind {w : Bool} {n : Nat} {q : Msg} {r x : Res} {ps : List Balance.Tcp.Probe} (h : Balance.Tcp.resolve w n q r ps = some x) : kind x = kind r := by
  unfold Balance.Tcp.resolve at h
  split at h
  · rename_i a he hm
    have hk : kind r = .code a.rcode := by simp only [kind, he, hm]
    rw [hk]
    split at h
    · cases h
    · simp only at h
      split at h
      · cases h; rfl
      · split at h
        · cases h; rfl
        · split at h <;> (cases h; rfl)
  · cases h; rfl

private theorem restore_kind (q : Msg) (r : Res) : kind (Dedup.restore q r) = kind r := by
  unfold Dedup.restore
  split
  · rename_i a hm
    simp only [kind, hm]
    cases r.err <;> rfl
  · rfl

private theorem strip_code (a : Msg) (d e : Bool) (n : Nat) : (DnssecResolver.stripDNSSEC a d e n).rcode = a.rcode := by
  unfold DnssecResolver.stripDNSSEC
  split
  · rfl
  · simp only
    split <;> rfl

private theorem dnssec_kind {l : Bool} {v : Msg → DnssecResolver.Verdict} {r x : Res} {q : Msg} {ci : ClientInfo} (h : DnssecResolver.resolve l v (fun _ _ => r) q ci = some x) :
    kind x = kind r ∨ (l = false ∧ kind x = .code 2) := by
  unfold DnssecResolver.resolve at h
  simp only at h
  split at h
  · cases h
  · simp only [Option.some.injEq] at h
    subst h
    split
    · exact .inl rfl
    · exact .inl rfl
    · rename_i a he hm
      have hk : kind r = .code a.rcode := by simp only [kind, he, hm]
      split
      · exact .inl (by rw [kind_ok, strip_code, hk])
      · split
        · exact .inl (by rw [kind_ok, strip_code, hk])
        · split
          · rename_i hl; exact .inr ⟨hl, rfl⟩
          · exact .inl (by rw [kind_ok, strip_code, hk])
        · exact .inl (by rw [kind_ok, strip_code, hk])

private theorem route_in {q : Msg} {qu : Question} {ci : ClientInfo} {now : Nat → Route.Now} : ∀ (routes : List Route.Route) (i k : Nat), Route.routeIndex routes q qu ci now i = some k → k < i + routes.length
  | [], i, k, h => by simp [Route.routeIndex] at h
  | r :: rs, i, k, h => by
    unfold Route.routeIndex at h
    split at h
    · cases h; simp
    · have := route_in rs (i + 1) k h
      simp only [List.length_cons]
      omega

private theorem route_none {q : Msg} {qu : Question} {ci : ClientInfo} {now : Nat → Route.Now} : ∀ (routes : List Route.Route) (i : Nat), Route.routeIndex routes q qu ci now i = none →
    ∀ r, r ∈ routes → ∃ j, Route.matches' r q qu ci (now j) = false
  | [], _, _, _, h => by cases h
  | r :: rs, i, h, x, hx => by
    unfold Route.routeIndex at h
    split at h
    · cases h
    · rename_i hm
      rcases List.mem_cons.mp hx with rfl | hx
      · exact ⟨i, by simpa using hm⟩
      · exact route_none rs (i + 1) h x hx

/-! ### Groups -/

/-- Where a reply of the group comes from: a member, if it is not the first attempt -/
private def Came (n : Nat) (P : Res → Prop) : Group.Phase → Prop
  | .idle i last => i = 0 ∨ P last
  | .calling _ m => m < n
  | .failed _ _ r => P r
  | .sending _ r => P r
  | .done r => P r

private theorem came_next {n i : Nat} {P : Res → Prop} {r : Res} (h : P r) : Came n P (Group.nextAttempt n i r) := by
  unfold Group.nextAttempt
  split
  · exact .inr h
  · exact h

private theorem rotate_all {n : Nat} (hn : 0 < n) {ok : Res → Bool} {k : Nat} {P : Res → Prop} :
    ∀ (es : List Group.Rotate.Ev) (s s' : Group.Rotate.Sys), Group.Rotate.run n ok s es = some s' → s.active < n →
    (∀ p, s.queries[k]? = some p → Came n P p) →
    (∀ pre x post s1 i m, es = pre ++ .reply k x :: post → Group.Rotate.run n ok s pre = some s1 → s1.queries[k]? = some (.calling i m) → m < n → P x) →
    ∀ p, s'.queries[k]? = some p → Came n P p := by
  intro es
  induction es with
  | nil => intro s s' h _ hi _; simp only [Group.Rotate.run, Option.some.injEq] at h; subst h; exact hi
  | cons e es ih =>
    intro s s' h ha hi hr
    simp only [Group.Rotate.run, Option.bind_eq_bind] at h
    obtain ⟨s1, hs, h⟩ := Option.bind_eq_some_iff.mp h
    have hr' : ∀ pre x post s2 i m, es = pre ++ .reply k x :: post → Group.Rotate.run n ok s1 pre = some s2 → s2.queries[k]? = some (.calling i m) → m < n → P x :=
      fun pre x post s2 i m h1 h2 h3 => hr (e :: pre) x post s2 i m (by rw [h1]; rfl) (by simp [Group.Rotate.run, hs, h2]) h3
    cases e with
    | start =>
      simp only [Group.Rotate.step, Option.some.injEq] at hs
      subst hs
      refine ih _ s' h ha (fun p hp => ?_) hr'
      rcases get_snoc_or hp with rfl | hp
      · rw [if_pos hn]; exact .inl rfl
      · exact hi p hp
    | current j =>
      simp only [Group.Rotate.step] at hs
      split at hs
      · simp only [Option.some.injEq] at hs; subst hs
        refine ih _ s' h ha (fun p hp => ?_) hr'
        rcases get_set_or hp with ⟨rfl, rfl⟩ | hp
        · exact ha
        · exact hi p hp
      · cases hs
    | reply j r =>
      simp only [Group.Rotate.step] at hs
      split at hs
      · rename_i i m hj
        simp only [Option.some.injEq] at hs; subst hs
        refine ih _ s' h ha (fun p hp => ?_) hr'
        rcases get_set_or hp with ⟨rfl, rfl⟩ | hp
        · have hPr : P r := hr [] r es s i m rfl rfl hj (hi _ hj)
          split <;> exact hPr
        · exact hi p hp
      · cases hs
    | report j =>
      simp only [Group.Rotate.step] at hs
      split at hs
      · rename_i i m r hj
        simp only [Option.some.injEq] at hs; subst hs
        refine ih _ s' h ?_ (fun p hp => ?_) hr'
        · show (if m = s.active then (s.active + 1) % n else s.active) < n
          split
          · exact Nat.mod_lt _ hn
          · exact ha
        rcases get_set_or hp with ⟨rfl, rfl⟩ | hp
        · exact came_next (hi _ hj)
        · exact hi p hp
      · cases hs

private theorem back_all {n : Nat} (hn : 0 < n) {ok : Res → Bool} {k : Nat} {P : Res → Prop} :
    ∀ (es : List Group.Back.Ev) (s s' : Group.Back.Sys), Group.Back.run n ok s es = some s' → s.active < n →
    (∀ p, s.queries[k]? = some p → Came n P p) →
    (∀ pre x post s1 i m, es = pre ++ .reply k x :: post → Group.Back.run n ok s pre = some s1 → s1.queries[k]? = some (.calling i m) → m < n → P x) →
    ∀ p, s'.queries[k]? = some p → Came n P p := by
  intro es
  induction es with
  | nil => intro s s' h _ hi _; simp only [Group.Back.run, Option.some.injEq] at h; subst h; exact hi
  | cons e es ih =>
    intro s s' h ha hi hr
    simp only [Group.Back.run, Option.bind_eq_bind] at h
    obtain ⟨s1, hs, h⟩ := Option.bind_eq_some_iff.mp h
    have hr' : ∀ pre x post s2 i m, es = pre ++ .reply k x :: post → Group.Back.run n ok s1 pre = some s2 → s2.queries[k]? = some (.calling i m) → m < n → P x :=
      fun pre x post s2 i m h1 h2 h3 => hr (e :: pre) x post s2 i m (by rw [h1]; rfl) (by simp [Group.Back.run, hs, h2]) h3
    cases e with
    | start =>
      simp only [Group.Back.step, Option.some.injEq] at hs
      subst hs
      refine ih _ s' h ha (fun p hp => ?_) hr'
      rcases get_snoc_or hp with rfl | hp
      · rw [if_pos hn]; exact .inl rfl
      · exact hi p hp
    | current j =>
      simp only [Group.Back.step] at hs
      split at hs
      · simp only [Option.some.injEq] at hs; subst hs
        refine ih _ s' h ha (fun p hp => ?_) hr'
        rcases get_set_or hp with ⟨rfl, rfl⟩ | hp
        · exact ha
        · exact hi p hp
      · cases hs
    | reply j r =>
      simp only [Group.Back.step] at hs
      split at hs
      · rename_i i m hj
        simp only [Option.some.injEq] at hs; subst hs
        refine ih _ s' h ha (fun p hp => ?_) hr'
        rcases get_set_or hp with ⟨rfl, rfl⟩ | hp
        · have hPr : P r := hr [] r es s i m rfl rfl hj (hi _ hj)
          split <;> exact hPr
        · exact hi p hp
      · cases hs
    | report j =>
      simp only [Group.Back.step] at hs
      split at hs
      · rename_i i m r hj
        split at hs
        · simp only [Option.some.injEq] at hs; subst hs
          refine ih _ s' h ha (fun p hp => ?_) hr'
          rcases get_set_or hp with ⟨rfl, rfl⟩ | hp
          · exact came_next (hi _ hj)
          · exact hi p hp
        · simp only [Option.some.injEq] at hs; subst hs
          refine ih _ s' h (Nat.mod_lt _ hn) (fun p hp => ?_) hr'
          rcases get_set_or hp with ⟨rfl, rfl⟩ | hp
          · have hP : P r := hi _ hj
            exact hP
          · exact hi p hp
      · cases hs
    | send j =>
      simp only [Group.Back.step] at hs
      split at hs
      · rename_i i r hj
        split at hs
        · simp only [Option.some.injEq] at hs; subst hs
          refine ih _ s' h ha (fun p hp => ?_) hr'
          rcases get_set_or hp with ⟨rfl, rfl⟩ | hp
          · exact came_next (hi _ hj)
          · exact hi p hp
        · cases hs
      · cases hs
    | recv =>
      simp only [Group.Back.step] at hs
      split at hs
      · simp only [Option.some.injEq] at hs; subst hs; exact ih _ s' h ha hi hr'
      · cases hs
    | fire =>
      simp only [Group.Back.step] at hs
      split at hs
      · simp only [Option.some.injEq] at hs; subst hs; exact ih _ s' h hn hi hr'
      · cases hs

/-- As long as the first member does not fail, no other one is asked. -/
private def Front (ok : Res → Bool) : Group.Phase → Prop
  | .idle i _ => i = 0
  | .calling _ m => m = 0
  | .done r => ok r = true
  | _ => False

private theorem back_first {n : Nat} (hn : 0 < n) {ok : Res → Bool} :
    ∀ (es : List Group.Back.Ev) (s s' : Group.Back.Sys), Group.Back.run n ok s es = some s' → s.active = 0 →
    (∀ (k : Nat) p, s.queries[k]? = some p → Front ok p) →
    (∀ pre j x post s1 i, es = pre ++ .reply j x :: post → Group.Back.run n ok s pre = some s1 → s1.queries[j]? = some (.calling i 0) → ok x = true) →
    ∀ (k : Nat) p, s'.queries[k]? = some p → Front ok p := by
  intro es
  induction es with
  | nil => intro s s' h _ hi _; simp only [Group.Back.run, Option.some.injEq] at h; subst h; exact hi
  | cons e es ih =>
    intro s s' h ha hi hr
    simp only [Group.Back.run, Option.bind_eq_bind] at h
    obtain ⟨s1, hs, h⟩ := Option.bind_eq_some_iff.mp h
    have hr' : ∀ pre j x post s2 i, es = pre ++ .reply j x :: post → Group.Back.run n ok s1 pre = some s2 → s2.queries[j]? = some (.calling i 0) → ok x = true :=
      fun pre j x post s2 i h1 h2 h3 => hr (e :: pre) j x post s2 i (by rw [h1]; rfl) (by simp [Group.Back.run, hs, h2]) h3
    cases e with
    | start =>
      simp only [Group.Back.step, Option.some.injEq] at hs
      subst hs
      refine ih _ s' h ha (fun k p hp => ?_) hr'
      rcases get_snoc_or hp with rfl | hp
      · rw [if_pos hn]; exact rfl
      · exact hi k p hp
    | current j =>
      simp only [Group.Back.step] at hs
      split at hs
      · simp only [Option.some.injEq] at hs; subst hs
        refine ih _ s' h ha (fun k p hp => ?_) hr'
        rcases get_set_or hp with ⟨rfl, rfl⟩ | hp
        · exact ha
        · exact hi k p hp
      · cases hs
    | reply j r =>
      simp only [Group.Back.step] at hs
      split at hs
      · rename_i i m hj
        simp only [Option.some.injEq] at hs; subst hs
        refine ih _ s' h ha (fun k p hp => ?_) hr'
        rcases get_set_or hp with ⟨rfl, rfl⟩ | hp
        · have hm : m = 0 := hi _ _ hj
          subst hm
          have hok : ok r = true := hr [] _ r es s i rfl rfl hj
          rw [if_pos hok]
          exact hok
        · exact hi k p hp
      · cases hs
    | report j =>
      simp only [Group.Back.step] at hs
      split at hs
      · rename_i hj; exact (hi _ _ hj).elim
      · cases hs
    | send j =>
      simp only [Group.Back.step] at hs
      split at hs
      · rename_i hj; exact (hi _ _ hj).elim
      · cases hs
    | recv =>
      simp only [Group.Back.step] at hs
      split at hs
      · simp only [Option.some.injEq] at hs; subst hs; exact ih _ s' h ha hi hr'
      · cases hs
    | fire =>
      simp only [Group.Back.step] at hs
      split at hs
      · simp only [Option.some.injEq] at hs; subst hs; exact ih _ s' h rfl hi hr'
      · cases hs

private theorem rotate_good {n : Nat} {ok : Res → Bool} {g : Nat} : ∀ (es : List Group.Rotate.Ev) (s : Group.Rotate.Sys),
    (∀ pre j x post s1 i, es = pre ++ .reply j x :: post → Group.Rotate.run n ok s pre = some s1 → s1.queries[j]? = some (.calling i g) → ok x = true) → Group.Rotate.Good n ok g s es := by
  intro es
  induction es with
  | nil => intro s _; trivial
  | cons e es ih =>
    intro s h
    refine ⟨fun k r i he hq => h [] k r es s i (by rw [he]; rfl) rfl hq, fun s' hs => ih s' fun pre j x post s1 i h1 h2 h3 => h (e :: pre) j x post s1 i (by rw [h1]; rfl) (by simp [Group.Rotate.run, hs, h2]) h3⟩

/-- A member that does not fail is never put aside. -/
private def Fine (ok : Res → Bool) (g : Nat) : Group.Random.Phase → Prop
  | .idle => True
  | .calling _ => True
  | .failed m => m ≠ g
  | .done (some r) => ok r = true
  | .done none => False

private theorem random_good {ok : Res → Bool} {g : Nat} :
    ∀ (es : List Group.Random.Ev) (s s' : Group.Random.Sys), Group.Random.run ok s es = some s' → g ∈ s.active →
    (∀ (k : Nat) p, s.queries[k]? = some p → Fine ok g p) →
    (∀ pre j x post s1, es = pre ++ .reply j x :: post → Group.Random.run ok s pre = some s1 → s1.queries[j]? = some (.calling g) → ok x = true) →
    ∀ (k : Nat) p, s'.queries[k]? = some p → Fine ok g p := by
  intro es
  induction es with
  | nil => intro s s' h _ hi _; simp only [Group.Random.run, Option.some.injEq] at h; subst h; exact hi
  | cons e es ih =>
    intro s s' h ha hi hr
    simp only [Group.Random.run, Option.bind_eq_bind] at h
    obtain ⟨s1, hs, h⟩ := Option.bind_eq_some_iff.mp h
    have hr' : ∀ pre j x post s2, es = pre ++ .reply j x :: post → Group.Random.run ok s1 pre = some s2 → s2.queries[j]? = some (.calling g) → ok x = true :=
      fun pre j x post s2 h1 h2 h3 => hr (e :: pre) j x post s2 (by rw [h1]; rfl) (by simp [Group.Random.run, hs, h2]) h3
    cases e with
    | start =>
      simp only [Group.Random.step, Option.some.injEq] at hs
      subst hs
      refine ih _ s' h ha (fun k p hp => ?_) hr'
      rcases get_snoc_or hp with rfl | hp
      · trivial
      · exact hi k p hp
    | pick j d =>
      simp only [Group.Random.step] at hs
      split at hs
      · split at hs
        · rename_i he; rw [he] at ha; cases ha
        · split at hs
          · simp only [Option.some.injEq] at hs; subst hs
            refine ih _ s' h ha (fun k p hp => ?_) hr'
            rcases get_set_or hp with ⟨rfl, rfl⟩ | hp
            · trivial
            · exact hi k p hp
          · cases hs
      · cases hs
    | reply j r =>
      simp only [Group.Random.step] at hs
      split at hs
      · rename_i m hj
        simp only [Option.some.injEq] at hs; subst hs
        refine ih _ s' h ha (fun k p hp => ?_) hr'
        rcases get_set_or hp with ⟨rfl, rfl⟩ | hp
        · split
          · rename_i hok; exact hok
          · rename_i hok
            intro hm
            subst hm
            exact hok (hr [] _ r es s rfl rfl hj)
        · exact hi k p hp
      · cases hs
    | deactivate j =>
      simp only [Group.Random.step] at hs
      split at hs
      · rename_i m hj
        simp only [Option.some.injEq] at hs; subst hs
        have hm : m ≠ g := hi _ _ hj
        refine ih _ s' h (by simp only [List.mem_filter]; exact ⟨ha, by simpa using fun h => hm h.symm⟩) (fun k p hp => ?_) hr'
        rcases get_set_or hp with ⟨rfl, rfl⟩ | hp
        · trivial
        · exact hi k p hp
      · cases hs
    | reactivate m =>
      simp only [Group.Random.step] at hs
      split at hs
      · simp only [Option.some.injEq] at hs; subst hs
        exact ih _ s' h (by simp [ha]) hi hr'
      · cases hs

private def Known (n : Nat) (P : Res → Prop) : Group.Random.Phase → Prop
  | .calling m => m < n
  | .done (some r) => P r
  | _ => True

private theorem random_all {n : Nat} {ok : Res → Bool} {k : Nat} {P : Res → Prop} :
    ∀ (es : List Group.Random.Ev) (s s' : Group.Random.Sys), Group.Random.run ok s es = some s' → (∀ m, m ∈ s.active → m < n) → (∀ m, m ∈ s.waiting → m < n) →
    (∀ p, s.queries[k]? = some p → Known n P p) →
    (∀ pre x post s1 m, es = pre ++ .reply k x :: post → Group.Random.run ok s pre = some s1 → s1.queries[k]? = some (.calling m) → m < n → P x) →
    ∀ p, s'.queries[k]? = some p → Known n P p := by
  intro es
  induction es with
  | nil => intro s s' h _ _ hi _; simp only [Group.Random.run, Option.some.injEq] at h; subst h; exact hi
  | cons e es ih =>
    intro s s' h ha hw hi hr
    simp only [Group.Random.run, Option.bind_eq_bind] at h
    obtain ⟨s1, hs, h⟩ := Option.bind_eq_some_iff.mp h
    have hr' : ∀ pre x post s2 m, es = pre ++ .reply k x :: post → Group.Random.run ok s1 pre = some s2 → s2.queries[k]? = some (.calling m) → m < n → P x :=
      fun pre x post s2 m h1 h2 h3 => hr (e :: pre) x post s2 m (by rw [h1]; rfl) (by simp [Group.Random.run, hs, h2]) h3
    cases e with
    | start =>
      simp only [Group.Random.step, Option.some.injEq] at hs
      subst hs
      refine ih _ s' h ha hw (fun p hp => ?_) hr'
      rcases get_snoc_or hp with rfl | hp
      · trivial
      · exact hi p hp
    | pick j d =>
      simp only [Group.Random.step] at hs
      split at hs
      · split at hs
        · simp only [Option.some.injEq] at hs; subst hs
          refine ih _ s' h ha hw (fun p hp => ?_) hr'
          rcases get_set_or hp with ⟨rfl, rfl⟩ | hp
          · trivial
          · exact hi p hp
        · split at hs
          · rename_i m hm
            simp only [Option.some.injEq] at hs; subst hs
            refine ih _ s' h ha hw (fun p hp => ?_) hr'
            rcases get_set_or hp with ⟨rfl, rfl⟩ | hp
            · exact ha m (List.mem_of_getElem? hm)
            · exact hi p hp
          · cases hs
      · cases hs
    | reply j r =>
      simp only [Group.Random.step] at hs
      split at hs
      · rename_i m hj
        simp only [Option.some.injEq] at hs; subst hs
        refine ih _ s' h ha hw (fun p hp => ?_) hr'
        rcases get_set_or hp with ⟨rfl, rfl⟩ | hp
        · split
          · exact hr [] r es s m rfl rfl hj (hi _ hj)
          · trivial
        · exact hi p hp
      · cases hs
    | deactivate j =>
      simp only [Group.Random.step] at hs
      split at hs
      · rename_i m hj
        simp only [Option.some.injEq] at hs; subst hs
        refine ih _ s' h (fun x hx => ha x (List.mem_filter.mp hx).1) (fun x hx => ?_) (fun p hp => ?_) hr'
        · rcases List.mem_append.mp hx with hx | hx
          · exact ha x (List.mem_filter.mp hx).1
          · exact hw x hx
        rcases get_set_or hp with ⟨rfl, rfl⟩ | hp
        · trivial
        · exact hi p hp
      · cases hs
    | reactivate m =>
      simp only [Group.Random.step] at hs
      split at hs
      · rename_i hm
        simp only [Option.some.injEq] at hs; subst hs
        refine ih _ s' h (fun x hx => ?_) (fun x hx => hw x (List.mem_of_mem_erase hx)) hi hr'
        rcases List.mem_append.mp hx with hx | hx
        · exact ha x hx
        · rw [List.mem_singleton.mp hx]; exact hw m hm
      · cases hs

private theorem asked_mem {good : Nat → Prop} {l asked : List Nat} (h : Spec.Group.Asked good l asked) : ∀ m, m ∈ asked → m ∈ l := by
  induction h with
  | nil => exact fun _ h => h
  | hit _ => intro m hm; rw [List.mem_singleton.mp hm]; exact List.mem_cons_self
  | miss _ _ ih =>
    intro m hm
    rcases List.mem_cons.mp hm with rfl | hm
    · exact List.mem_cons_self
    · exact List.mem_cons_of_mem _ (ih m hm)

private theorem each_good {n : Nat} {ok : Res → Bool} {beh : Nat → Res} {g : Nat} {i left : Nat} (hg : g ∈ List.range' i left) :
    ∀ {last : Res}, (g ∈ (Group.Back.perQuery n ok beh left i last).2 → ok (beh g) = true) → ok (Group.Back.perQuery n ok beh left i last).1 = true := by
  intro last h
  obtain ⟨-, h2⟩ := Group.failback_zero_reset n ok beh left i last
  rcases h2 with ⟨m, -, hm, he⟩ | ⟨h3, h4, -⟩
  · rw [he]; exact hm
  · rw [h4] at h
    have := h3 g hg
    rw [h hg] at this
    cases this

private theorem balance_good {ok : Res → Bool} {beh : Nat → Res} {choose : Nat → Nat} {g : Nat} :
    ∀ (fuel round : Nat) (rem : List Nat) (last r : Res) (asked : List Nat), rem.length = fuel → g ∈ rem → Balance.loop ok beh choose fuel round rem last = some (r, asked) →
    (g ∈ asked → ok (beh g) = true) → ok r = true := by
  intro fuel
  induction fuel with
  | zero => intro round rem last r asked hl hg; rw [List.length_eq_zero_iff.mp hl] at hg; cases hg
  | succ fuel ih =>
    intro round rem last r asked hl hg h ha
    simp only [Balance.loop] at h
    split at h
    · cases h
    · rename_i idx hidx
      split at h
      · rename_i hok
        simp only [Option.some.injEq, Prod.mk.injEq] at h
        rw [← h.1]
        exact hok
      · rename_i hok
        split at h
        · cases h
        · rename_i res asked' hl'
          simp only [Option.some.injEq, Prod.mk.injEq] at h
          obtain ⟨rfl, rfl⟩ := h
          have hp := Balance.swapRemove_perm rem _ _ hidx
          have hlen := hp.length_eq
          simp only [List.length_cons] at hlen
          have hgm := hp.mem_iff.mpr hg
          rcases List.mem_cons.mp hgm with rfl | hgm
          · exact absurd (ha (by simp)) hok
          · exact ih _ _ _ _ _ (by omega) hgm hl' fun hm => ha (by simp [hm])

private theorem balance_all {n : Nat} {ok : Res → Bool} (hdrop : ok .drop = true) {beh : Nat → Res} {choose : Nat → Nat} {P : Res → Prop} :
    ∀ (fuel round : Nat) (rem : List Nat) (last r : Res) (asked : List Nat), (∀ m, m ∈ rem → m < n) → rem.length = fuel → (0 < fuel ∨ (last ≠ .drop ∧ P last)) →
    Balance.loop ok beh choose fuel round rem last = some (r, asked) → (∀ m, m < n → m ∈ asked → P (beh m)) → P r := by
  intro fuel
  induction fuel with
  | zero =>
    intro round rem last r asked _ _ hl h _
    rcases hl with hl | ⟨h1, h2⟩
    · omega
    · simp only [Balance.loop, Option.some.injEq, Prod.mk.injEq, if_neg h1] at h
      rw [← h.1]; exact h2
  | succ fuel ih =>
    intro round rem last r asked hrem hlen _ h ha
    simp only [Balance.loop] at h
    split at h
    · cases h
    · rename_i idx hidx
      have hin := hrem idx (List.mem_of_getElem? hidx)
      split at h
      · simp only [Option.some.injEq, Prod.mk.injEq] at h
        rw [← h.1]
        exact ha idx hin (by rw [← h.2]; simp)
      · rename_i hok
        split at h
        · cases h
        · rename_i res asked' hl'
          simp only [Option.some.injEq, Prod.mk.injEq] at h
          obtain ⟨rfl, rfl⟩ := h
          have hp := Balance.swapRemove_perm rem _ _ hidx
          have hl2 := hp.length_eq
          simp only [List.length_cons] at hl2
          exact ih _ _ _ _ _ (fun m hm => hrem m (hp.mem_iff.mp (List.mem_cons_of_mem _ hm))) (by omega) (.inr ⟨fun he => hok (by rw [he]; exact hdrop), ha idx hin (by simp)⟩) hl'
            fun m hm hma => ha m hm (by simp [hma])

/-- The reply is a good one, or as many bad ones came before as there are members. -/
private theorem fastest_cases {n : Nat} : ∀ (l : List Res) (i : Nat) (r : Res), Balance.fastest n i l = some r →
    Balance.fastestGood r = true ∨ ∃ k, k < l.length ∧ n ≤ i + k + 1 ∧ ∀ (j : Nat) x, j ≤ k → l[j]? = some x → Balance.fastestGood x = false := by
  intro l
  induction l with
  | nil => intro i r h; cases h
  | cons x l ih =>
    intro i r h
    simp only [Balance.fastest] at h
    split at h
    · rename_i hg; cases h; exact .inl hg
    · rename_i hg
      have hg : Balance.fastestGood x = false := by simpa using hg
      split at h
      · rename_i hn
        refine .inr ⟨0, by simp, by omega, fun j y hj hy => ?_⟩
        obtain rfl : j = 0 := by omega
        simp only [List.getElem?_cons_zero, Option.some.injEq] at hy
        rw [← hy]; exact hg
      · rcases ih _ _ h with h | ⟨k, h1, h2, h3⟩
        · exact .inl h
        · refine .inr ⟨k + 1, by simp; omega, by omega, fun j y hj hy => ?_⟩
          cases j with
          | zero => simp only [List.getElem?_cons_zero, Option.some.injEq] at hy; rw [← hy]; exact hg
          | succ j => exact h3 j y (by omega) (by simpa using hy)

/-- If no two of the first `n` replies are from the same member, then one is from `g`. -/
private theorem pigeon {n : Nat} {who : Nat → Nat} (h1 : ∀ i, i < n → who i < n) (h2 : ∀ i j, i < n → j < n → who i = who j → i = j) {g : Nat} (hg : g < n) : ∃ i, i < n ∧ who i = g := by
  have hnd : ((List.range n).map who).Nodup := by
    refine List.Nodup.map_on ?_ List.nodup_range
    intro x hx y hy h
    exact h2 x y (List.mem_range.mp hx) (List.mem_range.mp hy) h
  have hsub : (List.range n).map who ⊆ List.range n := by
    intro x hx
    obtain ⟨i, hi, rfl⟩ := List.mem_map.mp hx
    exact List.mem_range.mpr (h1 i (List.mem_range.mp hi))
  have hperm : ((List.range n).map who).Perm (List.range n) := by
    refine (List.Nodup.subperm hnd hsub).perm_of_length_le (by simp)
  obtain ⟨i, hi, e⟩ := List.mem_map.mp (hperm.mem_iff.mpr (List.mem_range.mpr hg))
  exact ⟨i, List.mem_range.mp hi, e⟩

/-! ### The theorems -/

/-- C117: whatever the servers do about which nothing is known, and whatever other queries are under way, replies are of the kinds promised. -/
theorem replies_served {H : Type} [DecidableEq H] {W : Around H} {C : Nat → Msg → ClientInfo → Option Res → Prop} {S : Nat → Kind → Prop} (hC : ∀ i q ci r, C i q ci (some r) → S i (kind r)) (hW : Kept W C)
    {P : Kind → Prop} {t : Tree H} (ht : Serves S P t) (q : Msg) (ci : ClientInfo) (r : Res) (h : RepliesIn W C t q ci (some r)) : P (kind r) := by
  induction ht generalizing q ci r with
  | client hp => cases h with | client h => exact hp _ (hC _ _ _ _ h)
  | ttl _ ih =>
    generalize ho' : some r = o' at h
    cases h with
    | ttl h =>
      obtain ⟨x, rfl, rfl⟩ := Option.map_eq_some_iff.mp ho'.symm
      rw [ttl_kind]
      exact ih _ _ _ h
  | truncateRetry _ _ iht ihu =>
    cases h with
    | truncateKeep h1 h2 =>
      rcases truncate_kind _ _ with h | ⟨h, -⟩
      · rw [h]; exact iht _ _ _ h1
      · rw [h2] at h; cases h
    | truncateAsk h1 _ h3 =>
      rcases truncate_kind _ _ with h | ⟨-, h⟩
      · rw [h]; exact iht _ _ _ h1
      · rw [h]; exact ihu _ _ _ h3
  | collapse _ hp ih =>
    generalize ho' : some r = o' at h
    cases h with
    | collapse h =>
      obtain ⟨x, rfl, hx⟩ := Option.bind_eq_some_iff.mp ho'.symm
      have := ih _ _ _ h
      rcases collapse_kind hx with e | ⟨e1, e2⟩
      · rw [e]; exact this
      · rw [e2]; rw [e1] at this; exact hp this
  | minimize _ ih =>
    generalize ho' : some r = o' at h
    cases h with
    | minimize h =>
      obtain ⟨x, rfl, rfl⟩ := Option.map_eq_some_iff.mp ho'.symm
      rw [minimize_kind]
      exact ih _ _ _ h
  | drop hp => cases h; exact hp
  | modify _ ih => cases h with | modify h => exact ih _ _ _ h
  | blocklist _ _ _ h0 h3 iht iha ihb =>
    cases h with
    | blocklistDone hl h =>
      rcases blocklist_kind h with e | ⟨e1, e2⟩
      · rw [e]; exact h0
      · rw [e2]; exact h3 _ hl e1
    | @blocklistForward _ _ _ _ _ target _ _ _ _ hl hf h =>
      obtain ⟨h1, h2⟩ := blocklist_target hf
      cases target with
      | upstream => exact iht _ _ _ h
      | allow => exact iha _ hl (h1 rfl) _ _ _ h
      | block => exact ihb _ hl (h2 rfl) _ _ _ h
  | clientBlocklist _ _ h5 iht ihb =>
    cases h with
    | clientDone hl h =>
      obtain ⟨rfl, e⟩ := client_kind h
      rw [e]; exact h5 _ _ hl
    | @clientForward _ _ _ _ _ _ target _ _ _ _ hl hf h =>
      rcases client_target hf with rfl | ⟨rfl, rfl⟩
      · exact iht _ _ _ h
      · exact ihb _ _ hl _ _ _ h
  | responseIp _ _ h3 iht ihb =>
    cases h with
    | ipDone hl h1 h2 =>
      rcases ip_kind h2 with e | ⟨e1, e2⟩
      · rw [e]; exact iht _ _ _ h1
      · rw [e2]; exact h3 _ hl e1
    | ipForward hl _ h2 h =>
      obtain ⟨rfl, hb⟩ := ip_target h2
      exact ihb _ hl hb _ _ _ h
  | responseName _ _ h3 iht ihb =>
    cases h with
    | nameDone hl h1 h2 =>
      rcases name_kind h2 with e | ⟨e1, e2⟩
      · rw [e]; exact iht _ _ _ h1
      · rw [e2]; exact h3 _ hl e1
    | nameForward hl _ h2 h =>
      obtain ⟨rfl, hb⟩ := name_target h2
      exact ihb _ hl hb _ _ _ h
  | rateLimit _ _ iht ihl =>
    cases h with
    | rateOn _ h => exact iht _ _ _ h
    | rateLimit _ h => exact ihl _ _ _ h
    | @rateDrop _ rejected _ _ _ _ h => cases rejected <;> cases h
  | rateDrop _ hd ih =>
    cases h with
    | rateOn _ h => exact ih _ _ _ h
    | @rateLimit _ rejected _ _ _ _ _ h _ => cases rejected <;> cases h
    | rateDrop _ => exact hd
  | static hp =>
    generalize ho' : some r = o' at h
    cases h
    rw [static_kind ho'.symm]
    exact hp
  | template hp =>
    generalize ho' : some r = o' at h
    cases h
    rw [template_kind ho'.symm]
    exact hp
  | replace _ ih =>
    generalize ho' : some r = o' at h
    cases h with
    | replace h =>
      obtain ⟨x, rfl, hx⟩ := Option.bind_eq_some_iff.mp ho'.symm
      rw [replace_kind hx]
      exact ih _ _ _ h
  | syslog _ ih =>
    generalize ho' : some r = o' at h
    cases h with
    | syslog h =>
      obtain ⟨x, rfl, hx⟩ := Option.bind_eq_some_iff.mp ho'.symm
      obtain rfl := syslog_same hx
      exact ih _ _ _ h
  | queryLog _ ih =>
    generalize ho' : some r = o' at h
    cases h with
    | queryLog h =>
      obtain ⟨x, rfl, hx⟩ := Option.bind_eq_some_iff.mp ho'.symm
      obtain rfl := queryLog_same hx
      exact ih _ _ _ h
  | dns64 _ ih =>
    generalize ho' : some r = o' at h
    cases h with
    | dns64One h1 h2 =>
      have h3 := h2 .drop
      rw [← ho'] at h3
      rw [dns64_kind h3]
      simp only [two, if_true]
      exact ih _ _ _ h1
    | dns64Two h1 _ =>
      rw [dns64_kind ho'.symm]
      simp only [two, if_true]
      exact ih _ _ _ h1
    | dns64Crash => cases ho'
    | dns64Crash2 => cases ho'
  | @failRotate P Q n ok member g hg _ h1 h2 ih =>
    cases h with
    | @failRotate _ _ _ _ _ _ _ k _ e1 e2 e3 e4 =>
      refine h2 _ (Group.Rotate.failrotate_concurrent_complete n g hg ok _ _ (rotate_good _ _ fun pre j x post s1 i g1 g2 g3 => h1 _ ?_) e1 k r e2)
      by_cases hj : j = k
      · subst hj
        exact ih _ _ _ (e4 pre x post s1 i g g1 g2 g3)
      · obtain ⟨q', ci', hx⟩ := hW.group _ _ (e3 pre j x post s1 i g g1 g2 g3 hj)
        exact ih _ _ _ hx
  | failRotateAll hn _ ih =>
    cases h with
    | failRotate e1 e2 _ e4 =>
      exact rotate_all (P := fun r => _) hn _ _ _ e1 hn (by simp) (fun pre x post s1 i m g1 g2 g3 hm => ih m hm _ _ _ (e4 pre x post s1 i m g1 g2 g3)) _ e2
  | @failBack P Q n ok member hn _ h1 h2 ih =>
    cases h with
    | @failBack _ _ _ _ _ _ _ k _ e1 e2 e3 e4 =>
      refine h2 _ (back_first hn _ _ _ e1 rfl (by simp [Group.Back.init]) (fun pre j x post s1 i g1 g2 g3 => h1 _ ?_) k _ e2)
      by_cases hj : j = k
      · subst hj
        exact ih _ _ _ (e4 pre x post s1 i 0 g1 g2 g3)
      · obtain ⟨q', ci', hx⟩ := hW.group _ _ (e3 pre j x post s1 i 0 g1 g2 g3 hj)
        exact ih _ _ _ hx
  | failBackAll hn _ ih =>
    cases h with
    | failBack e1 e2 _ e4 =>
      exact back_all (P := fun r => _) hn _ _ _ e1 hn (by simp [Group.Back.init]) (fun pre x post s1 i m g1 g2 g3 hm => ih m hm _ _ _ (e4 pre x post s1 i m g1 g2 g3)) _ e2
  | @failBackEach P Q n ok member g hg _ h1 h2 ih =>
    cases h with
    | failBackEach e => exact h2 _ (each_good (g := g) (by simp [List.mem_range']; omega) fun hm => h1 _ (ih _ _ _ (e g hm)))
  | @failBackEachAll P n ok member hn _ ih =>
    cases h with
    | @failBackEach _ _ _ _ _ beh e =>
      obtain ⟨hA, h2⟩ := Group.failback_zero_reset n ok beh n 0 Res.drop
      have hin : ∀ m, m ∈ (Group.Back.perQuery n ok beh n 0 Res.drop).2 → m < n := fun m hm => by
        have := asked_mem hA m hm
        simpa [List.mem_range'] using this
      rcases h2 with ⟨m, e1, -, e2⟩ | ⟨-, e1, e2⟩
      · have hm := List.mem_of_getLast? e1
        rw [e2]
        exact ih m (hin m hm) _ _ _ (e m hm)
      · rw [if_neg (by omega)] at e2
        have hm : 0 + n - 1 ∈ (Group.Back.perQuery n ok beh n 0 Res.drop).2 := by rw [e1]; simp [List.mem_range']; omega
        rw [e2]
        exact ih _ (hin _ hm) _ _ _ (e _ hm)
  | roundRobin _ ih => cases h with | roundRobin hc h => exact ih _ hc _ _ _ h
  | @random P Q n ok member g hg _ h1 h2 ih =>
    generalize ho' : some r = o' at h
    cases h with
    | @random _ _ _ _ _ _ _ k r' e1 e2 e3 e4 =>
      cases ho'
      have := random_good (g := g) _ _ _ e1 (List.mem_range.mpr hg) (by simp) (fun pre j x post s1 g1 g2 g3 => by
        refine h1 _ ?_
        by_cases hj : j = k
        · subst hj
          exact ih _ _ _ (e4 pre x post s1 g g1 g2 g3)
        · obtain ⟨q', ci', hx⟩ := hW.group _ _ (e3 pre j x post s1 g g1 g2 g3 hj)
          exact ih _ _ _ hx) k _ e2
      cases r' with
      | none => exact this.elim
      | some x => exact h2 _ this
    | randomCrash => cases ho'
  | @randomAll P n ok member _ hf ih =>
    generalize ho' : some r = o' at h
    cases h with
    | @random _ _ _ _ _ _ _ k r' e1 e2 _ e4 =>
      cases ho'
      cases r' with
      | none => exact hf
      | some x => exact random_all (n := n) (P := fun r => P (kind r)) _ _ _ e1 (fun m hm => List.mem_range.mp hm) (by simp) (by simp) (fun pre x post s1 m g1 g2 g3 hm => ih m hm _ _ _ (e4 pre x post s1 m g1 g2 g3)) _ e2
    | randomCrash => cases ho'
  | @loadBalance P Q n ok member g hg _ h1 h2 ih =>
    cases h with
    | loadBalance e1 e2 => exact h2 _ (balance_good (g := g) _ _ _ _ _ _ (by simp) (List.mem_range.mpr hg) e1 fun hm => h1 _ (ih _ _ _ (e2 g hm)))
  | @loadBalanceAll P n ok member hn _ hd ih =>
    cases h with
    | loadBalance e1 e2 => exact balance_all (n := n) hd (P := fun r => P (kind r)) _ _ _ _ _ _ (fun m hm => List.mem_range.mp hm) (by simp) (.inl hn) e1 fun m hm ha => ih m hm _ _ _ (e2 m ha)
  | @fastest P Q n member g hg _ h1 h2 h3 ih =>
    cases h with
    | @fastest _ _ _ _ l who _ e1 e2 e3 e4 =>
      have good : ∀ x : Res, Balance.fastestGood x = true ↔ kind x ≠ .failed ∧ kind x ≠ .code 2 := by
        intro x
        unfold Balance.fastestGood kind
        cases x.err <;> cases x.msg <;> simp [rcodeServerFailure]
      rcases fastest_cases _ _ _ e1 with hg' | ⟨k, k1, k2, k3⟩
      · obtain ⟨a, b⟩ := (good r).mp hg'
        exact h3 _ a b
      · obtain ⟨i, hi, rfl⟩ := pigeon (n := n) (who := who) (fun i hi => e2 i (by omega)) (fun i j hi hj he => e3 i j (by omega) (by omega) he) hg
        obtain ⟨x, hx⟩ : ∃ x, l[i]? = some x := ⟨l[i]'(by omega), List.getElem?_eq_getElem _⟩
        have hq := ih _ _ _ (e4 i x hx)
        have := k3 i x (by omega) hx
        rw [(good x).mpr ⟨fun e => h1 (e ▸ hq), fun e => h2 (e ▸ hq)⟩] at this
        cases this
  | fastestAll _ ih =>
    cases h with
    | fastest e1 e2 _ e4 =>
      obtain ⟨i, hi⟩ := List.getElem?_of_mem (fastest_mem _ _ _ e1)
      exact ih _ (e2 i (List.getElem?_eq_some_iff.mp hi).1) _ _ _ (e4 i _ hi)
  | fastestTcp _ ih =>
    generalize ho' : some r = o' at h
    cases h with
    | fastestTcp h =>
      obtain ⟨x, rfl, hx⟩ := Option.bind_eq_some_iff.mp ho'.symm
      rw [tcp_kind hx]
      exact ih _ _ _ h
  | router _ hr ih =>
    cases h with
    | router _ hi h => exact ih _ (by have := route_in _ _ _ hi; omega) _ _ _ h
    | routerNone _ hn =>
      rcases hr with hf | ⟨x, hx, hall⟩
      · exact hf
      · obtain ⟨j, hj⟩ := route_none _ _ hn x hx
        rw [hall] at hj
        cases hj
  | @dedup P t _ ih =>
    cases h with
    | dedup h1 h2 h3 h4 h5 =>
      obtain ⟨r', rfl, hr'⟩ := (dedup_from (Q := fun r => P (kind r)) _ _ _ h1 (fun l y hy => by
        obtain ⟨q', ci', hy'⟩ := hW.dedup t y (h5 l y hy)
        exact ih _ _ _ hy') (by simp) _ _ h2).2 _ h4
      rw [restore_kind]
      exact hr'
  | @cache P env o cap t _ hneg hip hsh hcode hfl ih =>
    generalize ho' : some r = o' at h
    cases h with
    | @cache _ _ _ _ _ _ hist c up clock ts h1 h0 _ h2 h3 h4 h5 =>
      obtain ⟨out, hout, rfl⟩ := Option.map_eq_some_iff.mp ho'.symm
      obtain ⟨qu, qs, hqq⟩ := List.exists_cons_of_ne_nil h3.question
      have hqu : q.question.head? = some qu := by rw [hqq]; rfl
      have stored : ∀ {q' : Msg} {now : Int} {a : Msg}, Cache.Justified env o hist q' now a → P (.code a.rcode) := by
        intro q' now a hj
        obtain ⟨q0, m, t0, m', ex, pf, b, aft, hh, -, -, -, -, ⟨w, hw1, hw2⟩, hc⟩ := hj
        obtain ⟨q1, ci1, hm⟩ := hW.cache _ _ _ (h0 q0 m t0 (by rw [hh]; simp))
        have := ih _ _ _ hm
        rw [kind_ok] at this
        rw [(aged_all hc).1, show m'.rcode = m.rcode from hcode m w m' hw1 hw2]
        exact this
      rcases Cache.cache_resolve_sound env hip o hneg cap hist h1 c h2 q qu hqu up clock ts out hout with ⟨ha, hr⟩ | ⟨-, -, a, hr, hk⟩
      · have := ih _ _ _ (h5 out hout ha)
        rcases hr with hr | ⟨hr1, hr2⟩
        · rw [hr]; exact this
        · have hu : kind up = .failed := by
            unfold kind
            cases he : up.err with
            | none => exact absurd he hr1
            | some e => rfl
          rw [hu] at this
          rw [hr2]
          unfold kind
          cases he : up.err with
          | none => exact absurd he hr1
          | some e => exact this
      · rw [hr, kind_ok]
        rcases hk with ⟨hf, -, rfl⟩ | ⟨a0, hj, rfl⟩ | ⟨-, rfl, -, p, n, m, i, -, -, hj, hc⟩
        · exact hfl hf
        · have := stored hj
          split
          · rename_i f hf
            rw [show (f a0).rcode = a0.rcode from hsh f hf a0]
            exact this
          · exact this
        · have := stored hj
          rw [hc] at this
          exact this
    | cacheCrash => cases ho'
  | prefetch _ ih => cases h with | prefetch h => exact ih _ _ _ h
  | dnssec _ hl ih =>
    generalize ho' : some r = o' at h
    cases h with
    | dnssec h _ =>
      obtain ⟨x, rfl, hx⟩ := Option.bind_eq_some_iff.mp ho'.symm
      rcases dnssec_kind hx with e | ⟨e1, e2⟩
      · rw [e]; exact ih _ _ _ h
      · rw [e2]; exact hl e1

/-! ### One working server -/

/-- The server always answers: with NOERROR or NXDOMAIN. -/
private abbrev Works (k : Kind) : Prop := k = .code 0 ∨ k = .code 3

/-- C117: with `servfail-error`, an error of the group, SERVFAIL, NOTIMP and REFUSED never get through if one member works, whatever the other members are. -/
theorem one_member_suffices {H : Type} {S : Nat → Kind → Prop} {n g i : Nat} (hg : g < n) {member : Nat → Tree H} (hm : member g = .client i) (hS : ∀ k, S i k → k = .code 0 ∨ k = .code 3) :
    let P : Kind → Prop := fun k => k ≠ .failed ∧ k ≠ .code 2 ∧ k ≠ .code 4 ∧ k ≠ .code 5
    let ok := Group.succeeded true false
    Serves S P (.failRotate n ok member) ∧ Serves S P (.random n ok member) ∧ Serves S P (.loadBalance n ok member) ∧ Serves S P (.failBackEach n ok member) ∧
      (g = 0 → Serves S P (.failBack n ok member)) := by
  intro P ok
  have h1 : ∀ r, Works (kind r) → ok r = true := by
    intro r h
    simp only [kind] at h
    split at h
    · rcases h with h | h <;> cases h
    · rcases h with h | h <;> cases h
    · rename_i a he hm
      simp only [Works, Kind.code.injEq] at h
      show Group.succeeded true false r = true
      rcases h with h | h <;> simp [Group.succeeded, Group.isSuccessResponse, he, hm, h, rcodeServerFailure, rcodeRefused, rcodeNotImplemented]
  have h2 : ∀ r, ok r = true → P (kind r) := by
    intro r h
    have h : Group.succeeded true false r = true := h
    simp only [Group.succeeded, Bool.and_eq_true, Option.isNone_iff_eq_none] at h
    obtain ⟨he, h⟩ := h
    simp only [P, kind, he]
    cases hm : r.msg with
    | none => simp
    | some a =>
      rw [hm] at h
      simp [Group.isSuccessResponse, rcodeServerFailure, rcodeRefused, rcodeNotImplemented] at h
      simp only [ne_eq, reduceCtorEq, not_false_eq_true, Kind.code.injEq, true_and]
      omega
  have hs : Serves S Works (member g) := by rw [hm]; exact .client hS
  exact ⟨.failRotate hg hs h1 h2, .random hg hs h1 h2, .loadBalance hg hs h1 h2, .failBackEach hg hs h1 h2, fun h0 => by subst h0; exact .failBack hg hs h1 h2⟩

/-- A cache and a de-duplication in front of a fail-over between two servers of which the second works -/
example : Serves (H := Nat) (fun i k => i = 1 → Works k) (fun k => k ≠ .failed ∧ k ≠ .code 2 ∧ k ≠ .code 4 ∧ k ≠ .code 5)
    (.cache ⟨fun a => 49 :: a, fun _ => 0, fun _ => none, fun _ => none⟩ {} 10 (.dedup (.failRotate 2 (Group.succeeded true false) .client))) :=
  .cache (.dedup (one_member_suffices (g := 1) (i := 1) (by decide) rfl fun _ h => h rfl).1) (by decide) (by simp) (by intro f hf; cases hf) (by intro m w m' h; cases h) (by simp)

/-! ### Limits -/

private def down : Res := .fail "down"

/-- The order matters for fail-back groups with a timer: the second server always answers, but the client gets an error, if the timer fires between the two attempts. -/
theorem failback_order_matters (W : Around Nat) (q : Msg) (ci : ClientInfo) :
    RepliesIn W (fun i _ _ o => (i = 0 ∧ o = some down) ∨ (i = 1 ∧ ∃ m, o = some (.ok m) ∧ m.rcode = 0)) (.failBack 2 (Group.succeeded true false) .client) q ci (some down) := by
  let es : List Group.Back.Ev := [.start, .current 0, .reply 0 down, .report 0, .send 0, .fire, .current 0, .reply 0 down, .report 0, .recv, .send 0]
  obtain ⟨s, h1, h2⟩ : ∃ s, Group.Back.run 2 (Group.succeeded true false) Group.Back.init es = some s ∧ s.queries[0]? = some (.done down) := ⟨_, rfl, by decide⟩
  have split : ∀ pre j x post s1 i m, es = pre ++ .reply j x :: post → Group.Back.run 2 (Group.succeeded true false) Group.Back.init pre = some s1 → s1.queries[j]? = some (.calling i m) →
      j = 0 ∧ x = down ∧ m = 0 := by
    intro pre j x post s1 i m e1 e2 e3
    have hcut : pre = es.take pre.length ∧ es[pre.length]? = some (.reply j x) := by rw [e1]; simp
    obtain ⟨hp, hj⟩ := hcut
    generalize pre.length = len at hp hj
    subst hp
    have : len = 2 ∨ len = 7 := by
      rcases len with _ | _ | _ | _ | _ | _ | _ | _ | _ | _ | _ | len <;> simp [es] at hj ⊢
    rcases this with rfl | rfl
    · simp only [es, List.getElem?_cons_succ, List.getElem?_cons_zero, Option.some.injEq, Group.Back.Ev.reply.injEq] at hj
      obtain ⟨rfl, rfl⟩ := hj
      have e2' : some s1 = some _ := e2.symm
      cases e2'
      simp at e3
      exact ⟨rfl, rfl, e3.2.symm⟩
    · simp only [es, List.getElem?_cons_succ, List.getElem?_cons_zero, Option.some.injEq, Group.Back.Ev.reply.injEq] at hj
      obtain ⟨rfl, rfl⟩ := hj
      have e2' : some s1 = some _ := e2.symm
      cases e2'
      simp at e3
      exact ⟨rfl, rfl, e3.2.symm⟩
  refine .failBack h1 h2 (fun pre j x post s1 i m e1 e2 e3 hj => absurd (split pre j x post s1 i m e1 e2 e3).1 hj) fun pre x post s1 i m e1 e2 e3 => ?_
  obtain ⟨-, rfl, rfl⟩ := split pre 0 x post s1 i m e1 e2 e3
  exact .client (.inl ⟨rfl, rfl⟩)

/-- With `empty-error`, a response of a working server is lost if the server asked after it is down: the first server says that the name does not exist, and the client gets an error. -/
theorem empty_error_loses_nxdomain (q : Msg) : ∃ (beh : Nat → Res),
    beh 0 = .ok (nxdomain q) ∧ Group.failRotate 2 (Group.succeeded true true) beh 0 = (.fail "down", 0, [0, 1]) ∧ Group.Back.perQuery 2 (Group.succeeded true true) beh 2 0 .drop = (.fail "down", [0, 1]) := by
  refine ⟨fun m => if m = 0 then .ok (nxdomain q) else .fail "down", rfl, ?_, ?_⟩ <;>
    simp [Group.failRotate, Group.failRotateLoop, Group.Back.perQuery, Group.succeeded, Group.isSuccessResponse, Group.deliberatelyEmpty, Res.ok, Res.fail, nxdomain, responseWithCode, setReply, Msg.edns?,
      rcodeNameError, rcodeServerFailure, rcodeRefused, rcodeNotImplemented, rcodeSuccess]

private def rounds (bad : Res) : Nat → List Group.Random.Ev
  | 0 => []
  | n + 1 => .pick 0 0 :: .reply 0 bad :: .deactivate 0 :: rounds bad n

private theorem rounds_run {ok : Res → Bool} {bad : Res} (hb : ok bad = false) : ∀ (l w : List Nat), l.Nodup →
    ∃ w', Group.Random.run ok ⟨l, w, [.idle]⟩ (rounds bad l.length) = some ⟨[], w', [.idle]⟩
  | [], w, _ => ⟨w, rfl⟩
  | m :: l, w, h => by
    obtain ⟨hm, hl⟩ := List.nodup_cons.mp h
    have hf : (m :: l).filter (fun x => ¬ x = m) = l := by
      rw [List.filter_cons_of_neg (by simp)]
      exact List.filter_eq_self.mpr fun x hx => by simp; rintro rfl; exact hm hx
    obtain ⟨w', h'⟩ := rounds_run hb l ((m :: l).filter (fun x => x = m) ++ w) hl
    refine ⟨w', ?_⟩
    rw [← h']
    simp only [List.length_cons, rounds, Group.Random.run, Group.Random.step, List.getElem?_cons_zero, reduceCtorEq, if_false, List.set_cons_zero, Option.bind_eq_bind, Option.bind_some, hb, Bool.false_eq_true, hf]

private theorem run_append {ok : Res → Bool} : ∀ (es fs : List Group.Random.Ev) (s : Group.Random.Sys), Group.Random.run ok s (es ++ fs) = (Group.Random.run ok s es).bind fun s' => Group.Random.run ok s' fs
  | [], fs, s => rfl
  | e :: es, fs, s => by
    simp only [List.cons_append, Group.Random.run, Option.bind_eq_bind, Option.bind_assoc]
    congr 1
    funext s'
    exact run_append es fs s'

private theorem rounds_reply {bad : Res} : ∀ (n k : Nat) (r : Res), .reply k r ∈ rounds bad n → k = 0 ∧ r = bad
  | 0, k, r, h => by cases h
  | n + 1, k, r, h => by
    simp only [rounds, List.mem_cons, reduceCtorEq, false_or, Group.Random.Ev.reply.injEq] at h
    rcases h with h | h
    · exact h
    · exact rounds_reply n k r h

/-- A random group, of any size, with one client who asks something that all servers refuse (REFUSED and NOTIMP are failures with any options): all members are put aside, and the next query, which no server
is even asked, ends with an error. All servers work. -/
theorem random_one_query_outage (n : Nat) (e1 e2 : Bool) (q : Msg) : ∃ (es : List Group.Random.Ev) (s : Group.Random.Sys), Group.Random.run (Group.succeeded e1 e2) ⟨List.range n, [], []⟩ es = some s ∧
    (∀ k r, .reply k r ∈ es → k = 0 ∧ r = .ok (refused q)) ∧ s.active = [] ∧ s.queries[1]? = some (.done none) := by
  have hb : Group.succeeded e1 e2 (.ok (refused q)) = false := by
    simp [Group.succeeded, Group.isSuccessResponse, Res.ok, refused, responseWithCode, rcodeRefused, rcodeServerFailure]
  obtain ⟨w, hw⟩ := rounds_run hb (List.range n) [] List.nodup_range
  rw [List.length_range] at hw
  refine ⟨.start :: (rounds (.ok (refused q)) n ++ [.pick 0 0, .start, .pick 1 0]), ⟨[], w, [.done none, .done none]⟩, ?_, ?_, rfl, rfl⟩
  · simp only [Group.Random.run, Group.Random.step, Option.bind_eq_bind, Option.bind_some, List.nil_append]
    rw [run_append, hw]
    rfl
  · intro k r h
    simp only [List.mem_cons, List.mem_append, reduceCtorEq, false_or, List.not_mem_nil, or_false] at h
    exact rounds_reply n k r h

end Verif.Props.Available
