import Verif.Model.Gets
import Verif.Spec.Privacy
import Verif.Props.Asks
import Verif.Props.Modifiers
/-
C110: what modifiers remove from queries does not reach the servers behind them, in any composition of elements.
-/
set_option linter.unusedVariables false
set_option linter.unusedSimpArgs false
namespace Verif.Props.Privacy
open Verif Verif.Composition Verif.Asks Verif.Props.Asks Verif.Spec.Privacy Verif.Spec.Modifiers Verif.Modifiers Verif.Net Verif.Edns0
variable {H : Type}

/-! ### OPT records -/

private def optCount (l : List RR) : Nat := (l.filter fun r => r.edns?.isSome).length

private theorem none_count {l : List RR} (h : ∀ x, x ∈ l → x.edns? = none) : optCount l = 0 := by
  unfold optCount
  rw [List.filter_eq_nil_iff.2 (fun x hx => by simp [h x hx])]
  rfl

private theorem count_none {l : List RR} (h : optCount l = 0) : ∀ x, x ∈ l → x.edns? = none := by
  intro x hx
  unfold optCount at h
  have := List.filter_eq_nil_iff.1 (List.length_eq_zero_iff.1 h) x hx
  simpa using this

private theorem count_split (a : List RR) (r : RR) (b : List RR) : optCount (a ++ r :: b) = optCount a + (if r.edns?.isSome then 1 else 0) + optCount b := by
  unfold optCount
  simp only [List.filter_append, List.length_append, List.filter_cons]
  split <;> simp <;> omega

private theorem edns_none {q : Msg} (h : q.edns? = none) : ∀ x, x ∈ q.extra → x.edns? = none := by
  intro x hx
  unfold Msg.edns? at h
  exact List.findSome?_eq_none_iff.1 h x (by simpa using hx)

private theorem map_one {q : Msg} (f : Edns → Edns) (h : OneOpt q) : OneOpt (q.mapEdns f) := by
  cases he : q.edns? with
  | none => rw [mapEdns_none q f he]; exact h
  | some e =>
    obtain ⟨pre, r, post, h1, h2, h3, h4⟩ := mapEdns_some q f e he
    rw [h4]
    show optCount _ ≤ 1
    have : optCount q.extra ≤ 1 := h
    rw [h1, count_split, h2] at this
    rw [count_split]
    simpa [RR.edns?] using this

private theorem set_one {q : Msg} (s : Nat) (d : Bool) (h : q.edns? = none) : OneOpt (q.setEdns0 s d) := by
  show optCount (q.extra ++ [_]) ≤ 1
  rw [count_split, none_count (edns_none h)]
  simp [optCount, RR.edns?]

private theorem with_one {q : Msg} (h : OneOpt q) : OneOpt (withEdns q) := by
  unfold withEdns
  split
  · next e => exact set_one _ _ e
  · exact h

/-- Modifiers leave one OPT record at most if there was one at most. -/
theorem apply_one (m : Modifier) (q : Msg) (ci : ClientInfo) (h : OneOpt q) : OneOpt (m.apply q ci) := by
  cases m with
  | keep => exact h
  | ecsDelete => exact map_one _ h
  | ecsAdd a p4 p6 => exact map_one _ (with_one (map_one _ h))
  | ecsAddIfMissing a p4 p6 =>
    show OneOpt (ecsAddIfMissing a p4 p6 q ci)
    unfold ecsAddIfMissing
    split
    · exact h
    · exact map_one _ (with_one (map_one _ h))
  | ecsPrivacy p4 p6 => exact map_one _ h
  | edns0Delete c => exact map_one _ h
  | edns0Add c d => exact map_one _ (with_one (map_one _ h))

/-- What is carried behind a change of the OPT record. -/
private theorem map_carries {q : Msg} {f : Edns → Edns} {o : EOpt} (h : Carries (q.mapEdns f) o) :
    (Carries q o ∧ ¬ OneOpt q) ∨ ∃ e, q.edns? = some e ∧ o ∈ (f e).options := by
  cases he : q.edns? with
  | none =>
    rw [mapEdns_none q f he] at h
    obtain ⟨r, hr, e, h1, _⟩ := h
    rw [edns_none he r hr] at h1
    cases h1
  | some e =>
    obtain ⟨pre, r, post, h1, h2, h3, h4⟩ := mapEdns_some q f e he
    rw [h4] at h
    obtain ⟨x, hx, e', h5, h6⟩ := h
    rcases List.mem_append.1 hx with hx | hx
    · left
      refine ⟨⟨x, by rw [h1]; simp [hx], e', h5, h6⟩, ?_⟩
      intro hone
      have : optCount q.extra ≤ 1 := hone
      rw [h1, count_split, h2] at this
      simp only [Option.isSome_some, if_true] at this
      rw [count_none (by omega : optCount pre = 0) x hx] at h5
      cases h5
    · rcases List.mem_cons.1 hx with rfl | hx
      · simp only [RR.edns?, Option.some.injEq] at h5
        subst h5
        exact .inr ⟨e, rfl, h6⟩
      · rw [h3 x hx] at h5
        cases h5

private theorem edns_carries {q : Msg} {e : Edns} (h : q.edns? = some e) {o : EOpt} (ho : o ∈ e.options) : Carries q o := by
  rcases findSome_rev q.extra with ⟨h1, _⟩ | ⟨pre, r, post, e', h1, h2, h3, h4⟩
  · unfold Msg.edns? at h; rw [h1] at h; cases h
  · unfold Msg.edns? at h
    rw [h4] at h
    cases h
    exact ⟨r, by rw [h1]; simp, e, h2, ho⟩

private theorem with_carries {q : Msg} {o : EOpt} (h : Carries (withEdns q) o) : Carries q o := by
  unfold withEdns at h
  split at h
  · obtain ⟨r, hr, e, h1, h2⟩ := h
    rcases List.mem_append.1 hr with hr | hr
    · exact ⟨r, hr, e, h1, h2⟩
    · simp only [List.mem_singleton] at hr
      subst hr
      simp only [RR.edns?, Option.some.injEq] at h1
      subst h1
      cases h2
  · exact h

/-! ### Modifiers -/

private theorem filter_carries {q : Msg} {p : EOpt → Bool} {o : EOpt} (h : Carries (q.mapEdns fun e => { e with options := e.options.filter p }) o) :
    Carries q o ∧ (OneOpt q → p o = true) := by
  rcases map_carries h with ⟨h1, h2⟩ | ⟨e, h1, h2⟩
  · exact ⟨h1, fun h => absurd h h2⟩
  · obtain ⟨a, b⟩ := List.mem_filter.1 h2
    exact ⟨edns_carries h1 a, fun _ => b⟩

private theorem append_carries {q : Msg} {x : EOpt} {o : EOpt} (h : Carries (q.mapEdns fun e => { e with options := e.options ++ [x] }) o) : Carries q o ∨ o = x := by
  rcases map_carries h with ⟨h1, h2⟩ | ⟨e, h1, h2⟩
  · exact .inl h1
  · rcases List.mem_append.1 h2 with h2 | h2
    · exact .inl (edns_carries h1 h2)
    · exact .inr (List.mem_singleton.1 h2)

/-- Deleting client subnets leaves none. -/
theorem delete_enforces : Enforces (fun o => ¬ IsSubnet o) .ecsDelete := by
  intro q ci h1 o ho
  have := (filter_carries ho).2 h1
  rintro ⟨f, m, s, a, rfl⟩
  simp [isEcs] at this

/-- Deleting a kind of option leaves none of it. -/
theorem edns0_delete_enforces (c : Nat) : Enforces (fun o => o.code ≠ c) (.edns0Delete c) := by
  intro q ci h1 o ho
  have := (filter_carries ho).2 h1
  simpa using this

/-- Adding an option leaves no other of its kind. -/
theorem edns0_add_enforces (c : Nat) (d : Str) : Enforces (fun o => o.code = c → o = .loc c d) (.edns0Add c d) := by
  intro q ci h1 o ho hc
  rcases append_carries ho with h | h
  · have := (filter_carries (with_carries h)).2 h1
    simp [hc] at this
  · exact h

/-- Adding the client subnet of a configured address leaves no other: nothing about the client. -/
theorem ecs_add_enforces (a : Str) (p4 p6 : Nat) (ha : a.length = 4 ∨ a.length = 16) (h4 : p4 ≤ 32) (h6 : p6 ≤ 128) :
    Enforces (fun o => IsSubnet o → SubnetOf a p4 p6 o) (.ecsAdd a p4 p6) := by
  intro q ci h1 o ho hs
  have hne : a ≠ [] := by rintro rfl; simp at ha
  rcases append_carries ho with h | h
  · have := (filter_carries (with_carries h)).2 h1
    obtain ⟨f, m, s, x, rfl⟩ := hs
    simp [isEcs] at this
  · subst h
    have := Modifiers.subnet_of a p4 p6 ci h4 h6 (by rw [if_neg hne]; exact ha)
    rwa [if_neg hne] at this

private theorem mask_bits (ip : Str) (n : Nat) (hl : ip.length = 4 ∨ ip.length = 16) (hn : n ≤ 8 * ip.length) (i : Nat)
    (h : (bits (ipMask ip (cidrMask n ip.length)))[i]? = some true) : i < n := by
  obtain ⟨h1, _, h3⟩ := Modifiers.masked_mask ip n hl hn
  by_cases hi : i < n
  · exact hi
  · by_cases h8 : i < 8 * ip.length
    · rw [h3 i (by omega) h8] at h; simp at h
    · have : i < (bits (ipMask ip (cidrMask n ip.length))).length := (List.getElem?_eq_some_iff.1 h).1
      rw [bits_length, h1] at this
      omega

private theorem coarse_opt (p4 p6 : Nat) (h4 : p4 ≤ 32) (h6 : p6 ≤ 128) (o : EOpt) : Coarse p4 p6 (ecsPrivacyOpt p4 p6 o) := by
  intro f m s a he i hi
  unfold ecsPrivacyOpt at he
  split at he
  · next s' a' =>
    simp only [EOpt.ecs.injEq] at he
    obtain ⟨rfl, _, _, rfl⟩ := he
    refine ⟨fun _ => ?_, by omega⟩
    cases ht : to4 a' with
    | none =>
      rw [ht] at hi
      have : ipMask ([] : Str) (cidrMask p4 4) = [] := by
        unfold ipMask
        simp
      simp [this, bits] at hi
    | some x =>
      rw [ht] at hi
      have hx : x.length = 4 := by
        unfold to4 at ht
        split at ht
        · cases ht; assumption
        · split at ht
          · next h => cases ht; simp [h.1]
          · cases ht
      have := mask_bits x p4 (.inl hx) (by omega) i
      rw [hx] at this
      exact this hi
  · next s' a' =>
    simp only [EOpt.ecs.injEq] at he
    obtain ⟨rfl, _, _, rfl⟩ := he
    refine ⟨by omega, fun _ => ?_⟩
    by_cases h16 : a'.length = 16
    · have := mask_bits a' p6 (.inr h16) (by omega) i
      rw [h16] at this
      exact this hi
    · have hl : i < (bits (ipMask a' (cidrMask p6 16))).length := (List.getElem?_eq_some_iff.1 hi).1
      rw [bits_length] at hl
      have hm : (cidrMask p6 16).length = 16 := by
        unfold cidrMask
        rw [if_neg (by omega), cidrMaskBytes_length]
      unfold ipMask at hl
      by_cases hc : (cidrMask p6 16).length = 16 ∧ a'.length = 4 ∧ (cidrMask p6 16).take 12 = List.replicate 12 255
      · have small : ∀ p : Fin 32, (cidrMask p.val 16).take 12 ≠ List.replicate 12 255 := by decide +kernel
        have : 32 ≤ p6 := by
          by_cases hp : 32 ≤ p6
          · exact hp
          · exact absurd hc.2.2 (small ⟨p6, by omega⟩)
        simp only [if_pos hc] at hl
        rw [if_neg (by rw [hc.2.1]; omega : ¬ (((cidrMask p6 16).drop 12).length = 4 ∧ a'.length = 16 ∧ a'.take 12 = v4Prefix))] at hl
        rw [if_neg (by rw [List.length_drop, hm, hc.2.1]; decide), List.length_zipWith, List.length_drop, hm, hc.2.1] at hl
        omega
      · simp only [hc, if_false] at hl
        rw [if_neg (by rw [hm]; omega : ¬ ((cidrMask p6 16).length = 4 ∧ a'.length = 16 ∧ a'.take 12 = v4Prefix))] at hl
        rw [if_pos (by rw [hm]; exact h16)] at hl
        simp at hl
  · next h1 h2 =>
    subst he
    exact ⟨fun e => absurd (by rw [e]) (h1 m s a), fun e => absurd (by rw [e]) (h2 m s a)⟩

/-- "Privacy" leaves no address bits beyond the configured lengths. -/
theorem privacy_enforces (p4 p6 : Nat) (h4 : p4 ≤ 32) (h6 : p6 ≤ 128) : Enforces (Coarse p4 p6) (.ecsPrivacy p4 p6) := by
  intro q ci h1 o ho
  rcases map_carries ho with ⟨_, h2⟩ | ⟨e, _, h2⟩
  · exact absurd h1 h2
  · obtain ⟨x, _, rfl⟩ := List.mem_map.1 h2
    exact coarse_opt p4 p6 h4 h6 x

/-- Modifiers that only delete respect everything. -/
theorem deleting_respects (good : EOpt → Prop) (m : Modifier) (h : m = .keep ∨ m = .ecsDelete ∨ ∃ c, m = .edns0Delete c) : Respects good m := by
  intro q ci hq o ho
  rcases h with rfl | rfl | ⟨c, rfl⟩
  · exact hq o ho
  · exact hq o (filter_carries ho).1
  · exact hq o (filter_carries ho).1

/-- Adding a good option respects. -/
theorem edns0_add_respects (good : EOpt → Prop) (c : Nat) (d : Str) (h : good (.loc c d)) : Respects good (.edns0Add c d) := by
  intro q ci hq o ho
  rcases append_carries ho with h1 | rfl
  · exact hq o (filter_carries (with_carries h1)).1
  · exact h

/-- Adding good client subnets respects. -/
theorem ecs_add_respects (good : EOpt → Prop) (a : Str) (p4 p6 : Nat) (h : ∀ ci, good (ecsSubnet a p4 p6 ci)) : Respects good (.ecsAdd a p4 p6) := by
  intro q ci hq o ho
  rcases append_carries ho with h1 | rfl
  · exact hq o (filter_carries (with_carries h1)).1
  · exact h ci

/-- "Privacy" respects what does not depend on subnets. -/
theorem privacy_respects (good : EOpt → Prop) (p4 p6 : Nat) (h : ∀ o, good o → good (ecsPrivacyOpt p4 p6 o)) : Respects good (.ecsPrivacy p4 p6) := by
  intro q ci hq o ho
  rcases map_carries ho with ⟨h1, _⟩ | ⟨e, h1, h2⟩
  · exact hq o h1
  · obtain ⟨x, hx, rfl⟩ := List.mem_map.1 h2
    exact h x (hq x (edns_carries h1 hx))

/-! ### Whole configurations -/

/-- The guard of the modifiers passed so far, or none was needed so far. -/
private def Safe (good : EOpt → Prop) (clean : Prop) (ms : List Modifier) : Prop := Guard good ms ∨ (clean ∧ ∀ m ∈ ms, Respects good m)

private structure Passed (good : EOpt → Prop) (clean : Prop) (root t : Tree H) (q : Msg) : Prop where
  one : OneOpt q
  way : ∃ pre, (∀ ms i, Way t ms i → Way root (pre ++ ms) i) ∧ (Safe good clean pre → Only good q)

private theorem passed_to {good : EOpt → Prop} {clean : Prop} {root t u : Tree H} {q p : Msg} (h : Passed good clean root t q) (hw : ∀ ms i, Way u ms i → Way t ms i)
    (h1 : OneOpt q → OneOpt p) (h2 : ∀ o, Carries p o → Carries q o) : Passed good clean root u p := by
  obtain ⟨one, pre, a, b⟩ := h
  exact ⟨h1 one, pre, fun ms i w => a ms i (hw ms i w), fun hs o ho => b hs o (h2 o ho)⟩

private theorem aQuery_extra (q : Msg) : (Dns64.aQuery q).extra = q.extra := by
  unfold Dns64.aQuery
  split <;> rfl

private theorem replace_extra (exps : List (Str → Str)) (q : Msg) : (replaceAsk exps q).extra = q.extra := by
  unfold replaceAsk
  split <;> rfl

private theorem carries_extra {p q : Msg} (h : p.extra = q.extra) (o : EOpt) (ho : Carries p o) : Carries q o := by
  obtain ⟨r, hr, x⟩ := ho
  exact ⟨r, h ▸ hr, x⟩

private theorem one_extra {p q : Msg} (h : p.extra = q.extra) (ho : OneOpt q) : OneOpt p := by
  unfold OneOpt at *
  rw [h]; exact ho

private theorem upstream_one {q : Msg} (h : OneOpt q) : OneOpt (DnssecResolver.upstreamQuery q) := by
  unfold DnssecResolver.upstreamQuery
  split
  · next e => exact set_one _ _ e
  · exact map_one _ h

private theorem upstream_carries {q : Msg} {o : EOpt} (h : Carries (DnssecResolver.upstreamQuery q) o) : Carries q o := by
  unfold DnssecResolver.upstreamQuery at h
  split at h
  · next e => 
    refine with_carries (q := q) ?_
    unfold withEdns
    rw [if_pos e]
    obtain ⟨r, hr, e', h1, h2⟩ := h
    rcases List.mem_append.1 hr with hr | hr
    · exact ⟨r, List.mem_append.2 (.inl hr), e', h1, h2⟩
    · simp only [List.mem_singleton] at hr
      subst hr
      simp only [RR.edns?, Option.some.injEq] at h1
      subst h1
      cases h2
  · rcases map_carries h with ⟨h1, _⟩ | ⟨e, h1, h2⟩
    · exact h1
    · exact edns_carries h1 h2

private theorem lookup_one {p : Msg} (h : Lookup p) : OneOpt p ∧ ∀ o, ¬ Carries p o := by
  obtain ⟨id, name, ty, _, rfl⟩ := h
  refine ⟨set_one _ _ rfl, ?_⟩
  rintro o ⟨r, hr, e, h1, h2⟩
  simp only [Msg.setEdns0, List.nil_append, List.mem_singleton] at hr
  subst hr
  simp only [RR.edns?, Option.some.injEq] at h1
  subst h1
  cases h2

private theorem gets_passed (good : EOpt → Prop) (root : Tree H) (Q : Msg → ClientInfo → Prop) (hone : ∀ q ci, Q q ci → OneOpt q) {t : Tree H} {q : Msg} {ci : ClientInfo}
    (h : Gets root Q t q ci) : Passed good (∀ q ci, Q q ci → Only good q) root t q := by
  induction h with
  | root h =>
    refine ⟨hone _ _ h, [], fun _ _ w => w, ?_⟩
    rintro (⟨a, m, b, he, _⟩ | ⟨hc, _⟩)
    · simp at he
    · exact hc _ _ h
  | ttl _ ih => exact passed_to ih (fun _ _ => .ttl) id fun _ => id
  | truncate _ ih => exact passed_to ih (fun _ _ => .truncate) id fun _ => id
  | retry _ ih => exact passed_to ih (fun _ _ => .retry) id fun _ => id
  | collapse _ ih => exact passed_to ih (fun _ _ => .collapse) id fun _ => id
  | minimize _ ih => exact passed_to ih (fun _ _ => .minimize) id fun _ => id
  | @modify m t q ci _ ih =>
    obtain ⟨one, pre, hw, hs⟩ := ih
    refine ⟨apply_one m q ci one, pre ++ [m], fun ms i w => by simpa using hw _ _ (Way.modify w), ?_⟩
    rintro (⟨a, x, b, he, hen, hre⟩ | ⟨hc, hall⟩)
    · rcases List.eq_nil_or_concat b with rfl | ⟨b', y, rfl⟩
      · have : pre ++ [m] = a ++ [x] := he
        obtain ⟨_, e⟩ := List.append_inj' this rfl
        simp only [List.cons.injEq, and_true] at e
        subst e
        exact hen q ci one
      · have : pre ++ [m] = (a ++ x :: b') ++ [y] := by simpa using he
        obtain ⟨e1, e2⟩ := List.append_inj' this rfl
        simp only [List.cons.injEq, and_true] at e2
        subst e2
        exact hre m (by simp) q ci (hs (.inl ⟨a, x, b', e1, hen, fun z hz => hre z (by simp [hz])⟩))
    · exact hall m (by simp) q ci (hs (.inr ⟨hc, fun z hz => hall z (by simp [hz])⟩))
  | @blocklist _ _ _ _ _ target _ _ _ _ _ hr ih =>
    rw [resolve_forward hr]
    refine passed_to ih (fun _ _ w => ?_) id fun _ => id
    cases target
    · exact .blocklist w
    · exact .blocklistAllow w
    · exact .blocklistBlock w
  | @clientBlocklist _ _ _ _ _ _ target _ _ _ _ _ hr ih =>
    rw [client_forward hr]
    refine passed_to ih (fun _ _ w => ?_) id fun _ => id
    cases target
    · exact .clientBlocklist w
    · exact .clientBlocklist w
    · exact .clientBlocklistBlock w
  | responseIp _ ih => exact passed_to ih (fun _ _ => .responseIp) id fun _ => id
  | responseIpBlock _ _ hr ih =>
    obtain ⟨rfl, rfl⟩ := ip_forward hr
    exact passed_to ih (fun _ _ => .responseIpBlock) id fun _ => id
  | responseName _ ih => exact passed_to ih (fun _ _ => .responseName) id fun _ => id
  | responseNameBlock _ _ hr ih =>
    obtain ⟨rfl, rfl⟩ := name_forward hr
    exact passed_to ih (fun _ _ => .responseNameBlock) id fun _ => id
  | rateOn _ ih => exact passed_to ih (fun _ _ => .rateLimit) id fun _ => id
  | rateLimited _ ih => exact passed_to ih (fun _ _ => .rateLimitOver) id fun _ => id
  | replace _ ih => exact passed_to ih (fun _ _ => .replace) (one_extra (replace_extra _ _)) (carries_extra (replace_extra _ _))
  | syslog _ ih => exact passed_to ih (fun _ _ => .syslog) id fun _ => id
  | queryLog _ ih => exact passed_to ih (fun _ _ => .queryLog) id fun _ => id
  | dns64 _ ih => exact passed_to ih (fun _ _ => .dns64) id fun _ => id
  | dns64A _ ih => exact passed_to ih (fun _ _ => .dns64) (one_extra (aQuery_extra _)) (carries_extra (aQuery_extra _))
  | failRotate _ ih => exact passed_to ih (fun _ _ => .failRotate _) id fun _ => id
  | failBack _ ih => exact passed_to ih (fun _ _ => .failBack _) id fun _ => id
  | failBackEach _ ih => exact passed_to ih (fun _ _ => .failBackEach _) id fun _ => id
  | roundRobin _ ih => exact passed_to ih (fun _ _ => .roundRobin _) id fun _ => id
  | random _ ih => exact passed_to ih (fun _ _ => .random _) id fun _ => id
  | loadBalance _ ih => exact passed_to ih (fun _ _ => .loadBalance _) id fun _ => id
  | fastest _ ih => exact passed_to ih (fun _ _ => .fastest _) id fun _ => id
  | fastestTcp _ ih => exact passed_to ih (fun _ _ => .fastestTcp) id fun _ => id
  | router _ _ _ ih => exact passed_to ih (fun _ _ => .router _) id fun _ => id
  | dedup _ ih => exact passed_to ih (fun _ _ => .dedup) id fun _ => id
  | cache _ ih => exact passed_to ih (fun _ _ => .cache) id fun _ => id
  | prefetch _ ih => exact passed_to ih (fun _ _ => .prefetch) id fun _ => id
  | prefetchAgain _ ih => exact passed_to ih (fun _ _ => .prefetch) id fun _ => id
  | dnssec _ ih => exact passed_to ih (fun _ _ => .dnssec) upstream_one fun _ => upstream_carries
  | dnssecLookup _ hl ih =>
    obtain ⟨h1, h2⟩ := lookup_one hl
    exact passed_to ih (fun _ _ => .dnssec) (fun _ => h1) fun o ho => absurd ho (h2 o)

/-- **What modifiers remove does not reach the servers.** If on each way to a server one modifier enforces that there are only good options and those after it respect it
(or no query that comes has other options, and all modifiers respect it), servers only get queries with good options, including those that elements send by themselves.
Queries that come may carry anything, in one OPT record. -/
theorem only_good_options (good : EOpt → Prop) (root : Tree H) (Q : Msg → ClientInfo → Prop) (hone : ∀ q ci, Q q ci → OneOpt q)
    (hway : ∀ ms i, Way root ms i → Guard good ms ∨ ((∀ q ci, Q q ci → Only good q) ∧ ∀ m ∈ ms, Respects good m))
    (i : Nat) (q : Msg) (ci : ClientInfo) (h : Gets root Q (.client i) q ci) : Only good q := by
  obtain ⟨_, pre, hw, hs⟩ := gets_passed good root Q hone h
  have := hw [] i .client
  rw [List.append_nil] at this
  exact hs (hway pre i this)

/-- Servers get nothing but what the elements ask for some query that comes. -/
theorem gets_asked (root : Tree H) (Q : Msg → ClientInfo → Prop) (t : Tree H) (q' : Msg) (ci' : ClientInfo) (h : Gets root Q t q' ci') :
    ∃ q ci, Q q ci ∧ ∀ i p cp, Asks t q' ci' i p cp → Asks root q ci i p cp := by
  induction h with
  | root h => exact ⟨_, _, h, fun _ _ _ a => a⟩
  | ttl _ ih => obtain ⟨q, ci, hq, f⟩ := ih; exact ⟨q, ci, hq, fun i p cp a => f i p cp (.ttl a)⟩
  | truncate _ ih => obtain ⟨q, ci, hq, f⟩ := ih; exact ⟨q, ci, hq, fun i p cp a => f i p cp (.truncate a)⟩
  | retry _ ih => obtain ⟨q, ci, hq, f⟩ := ih; exact ⟨q, ci, hq, fun i p cp a => f i p cp (.retry a)⟩
  | collapse _ ih => obtain ⟨q, ci, hq, f⟩ := ih; exact ⟨q, ci, hq, fun i p cp a => f i p cp (.collapse a)⟩
  | minimize _ ih => obtain ⟨q, ci, hq, f⟩ := ih; exact ⟨q, ci, hq, fun i p cp a => f i p cp (.minimize a)⟩
  | modify _ ih => obtain ⟨q, ci, hq, f⟩ := ih; exact ⟨q, ci, hq, fun i p cp a => f i p cp (.modify a)⟩
  | blocklist _ h1 h2 ih => obtain ⟨q, ci, hq, f⟩ := ih; exact ⟨q, ci, hq, fun i p cp a => f i p cp (.blocklist h1 h2 a)⟩
  | clientBlocklist _ h1 h2 ih => obtain ⟨q, ci, hq, f⟩ := ih; exact ⟨q, ci, hq, fun i p cp a => f i p cp (.clientBlocklist h1 h2 a)⟩
  | responseIp _ ih => obtain ⟨q, ci, hq, f⟩ := ih; exact ⟨q, ci, hq, fun i p cp a => f i p cp (.responseIp a)⟩
  | responseIpBlock _ h1 h2 ih => obtain ⟨q, ci, hq, f⟩ := ih; exact ⟨q, ci, hq, fun i p cp a => f i p cp (.responseIpBlock h1 h2 a)⟩
  | responseName _ ih => obtain ⟨q, ci, hq, f⟩ := ih; exact ⟨q, ci, hq, fun i p cp a => f i p cp (.responseName a)⟩
  | responseNameBlock _ h1 h2 ih => obtain ⟨q, ci, hq, f⟩ := ih; exact ⟨q, ci, hq, fun i p cp a => f i p cp (.responseNameBlock h1 h2 a)⟩
  | rateOn _ ih => obtain ⟨q, ci, hq, f⟩ := ih; exact ⟨q, ci, hq, fun i p cp a => f i p cp (.rateOn a)⟩
  | rateLimited _ ih => obtain ⟨q, ci, hq, f⟩ := ih; exact ⟨q, ci, hq, fun i p cp a => f i p cp (.rateLimited a)⟩
  | replace _ ih => obtain ⟨q, ci, hq, f⟩ := ih; exact ⟨q, ci, hq, fun i p cp a => f i p cp (.replace a)⟩
  | syslog _ ih => obtain ⟨q, ci, hq, f⟩ := ih; exact ⟨q, ci, hq, fun i p cp a => f i p cp (.syslog a)⟩
  | queryLog _ ih => obtain ⟨q, ci, hq, f⟩ := ih; exact ⟨q, ci, hq, fun i p cp a => f i p cp (.queryLog a)⟩
  | dns64 _ ih => obtain ⟨q, ci, hq, f⟩ := ih; exact ⟨q, ci, hq, fun i p cp a => f i p cp (.dns64 a)⟩
  | dns64A _ ih => obtain ⟨q, ci, hq, f⟩ := ih; exact ⟨q, ci, hq, fun i p cp a => f i p cp (.dns64A a)⟩
  | failRotate _ ih => obtain ⟨q, ci, hq, f⟩ := ih; exact ⟨q, ci, hq, fun i p cp a => f i p cp (.failRotate a)⟩
  | failBack _ ih => obtain ⟨q, ci, hq, f⟩ := ih; exact ⟨q, ci, hq, fun i p cp a => f i p cp (.failBack a)⟩
  | failBackEach _ ih => obtain ⟨q, ci, hq, f⟩ := ih; exact ⟨q, ci, hq, fun i p cp a => f i p cp (.failBackEach a)⟩
  | roundRobin _ ih => obtain ⟨q, ci, hq, f⟩ := ih; exact ⟨q, ci, hq, fun i p cp a => f i p cp (.roundRobin a)⟩
  | random _ ih => obtain ⟨q, ci, hq, f⟩ := ih; exact ⟨q, ci, hq, fun i p cp a => f i p cp (.random a)⟩
  | loadBalance _ ih => obtain ⟨q, ci, hq, f⟩ := ih; exact ⟨q, ci, hq, fun i p cp a => f i p cp (.loadBalance a)⟩
  | fastest _ ih => obtain ⟨q, ci, hq, f⟩ := ih; exact ⟨q, ci, hq, fun i p cp a => f i p cp (.fastest a)⟩
  | fastestTcp _ ih => obtain ⟨q, ci, hq, f⟩ := ih; exact ⟨q, ci, hq, fun i p cp a => f i p cp (.fastestTcp a)⟩
  | router _ h1 h2 ih => obtain ⟨q, ci, hq, f⟩ := ih; exact ⟨q, ci, hq, fun i p cp a => f i p cp (.router h1 h2 a)⟩
  | dedup _ ih => obtain ⟨q, ci, hq, f⟩ := ih; exact ⟨q, ci, hq, fun i p cp a => f i p cp (.dedup a)⟩
  | cache _ ih => obtain ⟨q, ci, hq, f⟩ := ih; exact ⟨q, ci, hq, fun i p cp a => f i p cp (.cache a)⟩
  | prefetch _ ih => obtain ⟨q, ci, hq, f⟩ := ih; exact ⟨q, ci, hq, fun i p cp a => f i p cp (.prefetch a)⟩
  | prefetchAgain _ ih => obtain ⟨q, ci, hq, f⟩ := ih; exact ⟨q, ci, hq, fun i p cp a => f i p cp (.prefetchAgain a)⟩
  | dnssec _ ih => obtain ⟨q, ci, hq, f⟩ := ih; exact ⟨q, ci, hq, fun i p cp a => f i p cp (.dnssec a)⟩
  | dnssecLookup _ h1 ih => obtain ⟨q, ci, hq, f⟩ := ih; exact ⟨q, ci, hq, fun i p cp a => f i p cp (.dnssecLookup h1 a)⟩

/-- What an element replies depends only on what servers reply to the queries that they get. -/
theorem replies_only_got [DecidableEq H] (root : Tree H) (Q : Msg → ClientInfo → Prop) (C C' : Nat → Msg → ClientInfo → Option Res → Prop) (t : Tree H) (q : Msg) (ci : ClientInfo)
    (o : Option Res) (hg : Gets root Q t q ci) (h : Replies C t q ci o) (hs : ∀ i q' ci' o', Gets root Q (.client i) q' ci' → C i q' ci' o' → C' i q' ci' o') : Replies C' t q ci o := by
  induction h with
  | client h => exact .client (hs _ _ _ _ hg h)
  | ttl _ ih => exact .ttl (ih (.ttl hg))
  | truncateKeep _ h ih => exact .truncateKeep (ih (.truncate hg)) h
  | truncateAsk _ h _ ih ih2 => exact .truncateAsk (ih (.truncate hg)) h (ih2 (.retry hg))
  | truncateCrash _ ih => exact .truncateCrash (ih (.truncate hg))
  | truncateCrash2 _ _ ih ih2 => exact .truncateCrash2 (ih (.truncate hg)) (ih2 (.retry hg))
  | collapse _ ih => exact .collapse (ih (.collapse hg))
  | minimize _ ih => exact .minimize (ih (.minimize hg))
  | drop => exact .drop
  | modify _ ih => exact .modify (ih (.modify hg))
  | blocklistDone h1 h2 => exact .blocklistDone h1 h2
  | blocklistForward h1 h2 _ ih => exact .blocklistForward h1 h2 (ih (.blocklist hg h1 h2))
  | blocklistCrash h1 h2 => exact .blocklistCrash h1 h2
  | clientDone h1 h2 => exact .clientDone h1 h2
  | clientForward h1 h2 _ ih => exact .clientForward h1 h2 (ih (.clientBlocklist hg h1 h2))
  | ipDone h1 _ h2 ih => exact .ipDone h1 (ih (.responseIp hg)) h2
  | ipForward h1 _ h2 _ ih ih2 => exact .ipForward h1 (ih (.responseIp hg)) h2 (ih2 (.responseIpBlock hg h1 h2))
  | ipCrash _ ih => exact .ipCrash (ih (.responseIp hg))
  | nameDone h1 _ h2 ih => exact .nameDone h1 (ih (.responseName hg)) h2
  | nameForward h1 _ h2 _ ih ih2 => exact .nameForward h1 (ih (.responseName hg)) h2 (ih2 (.responseNameBlock hg h1 h2))
  | nameCrash _ ih => exact .nameCrash (ih (.responseName hg))
  | rateOn h _ ih => exact .rateOn h (ih (.rateOn hg))
  | @rateLimit hl rej _ _ _ _ _ h _ ih =>
    have hl' : hl = true := by
      cases hl with
      | true => rfl
      | false => cases rej <;> cases h
    subst hl'
    exact .rateLimit h (ih (.rateLimited hg))
  | rateDrop h => exact .rateDrop h
  | static => exact .static
  | template => exact .template
  | replace _ ih => exact .replace (ih (.replace hg))
  | syslog _ ih => exact .syslog (ih (.syslog hg))
  | queryLog _ ih => exact .queryLog (ih (.queryLog hg))
  | dns64One _ h ih => exact .dns64One (ih (.dns64 hg)) h
  | dns64Two _ _ ih ih2 => exact .dns64Two (ih (.dns64 hg)) (ih2 (.dns64A hg))
  | dns64Crash _ ih => exact .dns64Crash (ih (.dns64 hg))
  | dns64Crash2 _ _ ih ih2 => exact .dns64Crash2 (ih (.dns64 hg)) (ih2 (.dns64A hg))
  | failRotate h1 h2 hx _ ih => exact .failRotate h1 h2 hx fun pre x post s1 i m e1 e2 e3 => ih pre x post s1 i m e1 e2 e3 (.failRotate hg)
  | failRotateCrash _ ih => exact .failRotateCrash (ih (.failRotate hg))
  | failBack h1 h2 hx _ ih => exact .failBack h1 h2 hx fun pre x post s1 i m e1 e2 e3 => ih pre x post s1 i m e1 e2 e3 (.failBack hg)
  | failBackCrash _ ih => exact .failBackCrash (ih (.failBack hg))
  | failBackEach _ ih => exact .failBackEach fun m hm => ih m hm (.failBackEach hg)
  | failBackEachCrash _ ih => exact .failBackEachCrash (ih (.failBackEach hg))
  | roundRobin h _ ih => exact .roundRobin h (ih (.roundRobin hg))
  | roundRobinEmpty => exact .roundRobinEmpty
  | random h1 h2 hx _ ih => exact .random h1 h2 hx fun pre x post s1 m e1 e2 e3 => ih pre x post s1 m e1 e2 e3 (.random hg)
  | randomCrash _ ih => exact .randomCrash (ih (.random hg))
  | loadBalance h _ ih => exact .loadBalance h fun m hm => ih m hm (.loadBalance hg)
  | loadBalanceCrash _ ih => exact .loadBalanceCrash (ih (.loadBalance hg))
  | fastest h h1 h2 _ ih => exact .fastest h h1 h2 fun i x hx => ih i x hx (.fastest hg)
  | fastestCrash _ ih => exact .fastestCrash (ih (.fastest hg))
  | fastestTcp _ ih => exact .fastestTcp (ih (.fastestTcp hg))
  | router h1 h2 _ ih => exact .router h1 h2 (ih (.router hg h1 h2))
  | routerNone h1 h2 => exact .routerNone h1 h2
  | routerCrash h => exact .routerCrash h
  | dedup h1 h2 h3 h4 h5 => exact .dedup h1 h2 h3 h4 h5
  | dedupCrash _ ih => exact .dedupCrash (ih (.dedup hg))
  | dedupNoKey h => exact .dedupNoKey h
  | cache h1 h0 hk h2 h3 h4 _ ih => exact .cache h1 h0 hk h2 h3 h4 fun x hx hxa => ih x hx hxa (.cache hg)
  | cacheCrash _ ih => exact .cacheCrash (ih (.cache hg))
  | prefetch _ ih => exact .prefetch (ih (.prefetch hg))
  | dnssec _ hv ih => exact .dnssec (ih (.dnssec hg)) hv


/-- So what servers know from bad options makes no difference: with such modifiers clients get the same replies from servers that treat queries with good options alike. -/
theorem options_make_no_difference [DecidableEq H] (good : EOpt → Prop) (root : Tree H) (hway : ∀ ms i, Way root ms i → Guard good ms) (C C' : Nat → Msg → ClientInfo → Option Res → Prop)
    (hC : ∀ i q ci o, Only good q → (C i q ci o ↔ C' i q ci o)) (q : Msg) (ci : ClientInfo) (hone : OneOpt q) (o : Option Res) : Replies C root q ci o ↔ Replies C' root q ci o := by
  have key : ∀ i q' ci', Gets root (fun p cp => p = q ∧ cp = ci) (.client i) q' ci' → Only good q' :=
    fun i q' ci' h => only_good_options good root _ (by rintro _ _ ⟨rfl, rfl⟩; exact hone) (fun ms i w => .inl (hway ms i w)) i q' ci' h
  exact ⟨fun h => replies_only_got root _ C C' root q ci o (.root ⟨rfl, rfl⟩) h fun i q' ci' o' g hc => (hC i q' ci' o' (key i q' ci' g)).mp hc,
    fun h => replies_only_got root _ C' C root q ci o (.root ⟨rfl, rfl⟩) h fun i q' ci' o' g hc => (hC i q' ci' o' (key i q' ci' g)).mpr hc⟩

/-! ### Operations -/

/-- **No client subnet.** If every way to a server has a modifier that deletes client subnets, and none after it that adds some, no server gets a client subnet. -/
theorem no_client_subnet (root : Tree H) (Q : Msg → ClientInfo → Prop) (hone : ∀ q ci, Q q ci → OneOpt q)
    (hway : ∀ ms i, Way root ms i → ∃ pre post, ms = pre ++ .ecsDelete :: post ∧ ∀ a p4 p6, .ecsAdd a p4 p6 ∉ post ∧ .ecsAddIfMissing a p4 p6 ∉ post)
    (i : Nat) (q : Msg) (ci : ClientInfo) (h : Gets root Q (.client i) q ci) (o : EOpt) (ho : Carries q o) : ¬ IsSubnet o := by
  refine only_good_options (fun o => ¬ IsSubnet o) root Q hone (fun ms i w => .inl ?_) i q ci h o ho
  obtain ⟨pre, post, h1, h2⟩ := hway ms i w
  refine ⟨pre, _, post, h1, delete_enforces, fun x hx => ?_⟩
  cases x with
  | keep => exact deleting_respects _ _ (.inl rfl)
  | ecsDelete => exact deleting_respects _ _ (.inr (.inl rfl))
  | ecsAdd a p4 p6 => exact absurd hx (h2 a p4 p6).1
  | ecsAddIfMissing a p4 p6 => exact absurd hx (h2 a p4 p6).2
  | ecsPrivacy p4 p6 =>
    refine privacy_respects _ _ _ fun o ho => ?_
    unfold ecsPrivacyOpt
    split
    · exact absurd ⟨_, _, _, _, rfl⟩ ho
    · exact absurd ⟨_, _, _, _, rfl⟩ ho
    · exact ho
  | edns0Delete c => exact deleting_respects _ _ (.inr (.inr ⟨c, rfl⟩))
  | edns0Add c d => exact edns0_add_respects _ _ _ (by rintro ⟨_, _, _, _, h⟩; cases h)

/-- **Only the configured subnet.** If every way to a server has a modifier that adds the subnet of a configured address, and none after it that changes client subnets, servers get
no other client subnet: nothing of the client's address. -/
theorem only_configured_subnet (a : Str) (p4 p6 : Nat) (ha : a.length = 4 ∨ a.length = 16) (h4 : p4 ≤ 32) (h6 : p6 ≤ 128) (root : Tree H) (Q : Msg → ClientInfo → Prop)
    (hone : ∀ q ci, Q q ci → OneOpt q)
    (hway : ∀ ms i, Way root ms i → ∃ pre post, ms = pre ++ .ecsAdd a p4 p6 :: post ∧ ∀ x n4 n6, .ecsAdd x n4 n6 ∉ post ∧ .ecsAddIfMissing x n4 n6 ∉ post ∧ .ecsPrivacy n4 n6 ∉ post)
    (i : Nat) (q : Msg) (ci : ClientInfo) (h : Gets root Q (.client i) q ci) (o : EOpt) (ho : Carries q o) (hs : IsSubnet o) : SubnetOf a p4 p6 o := by
  refine only_good_options (fun o => IsSubnet o → SubnetOf a p4 p6 o) root Q hone (fun ms i w => .inl ?_) i q ci h o ho hs
  obtain ⟨pre, post, h1, h2⟩ := hway ms i w
  refine ⟨pre, _, post, h1, ecs_add_enforces a p4 p6 ha h4 h6, fun x hx => ?_⟩
  cases x with
  | keep => exact deleting_respects _ _ (.inl rfl)
  | ecsDelete => exact deleting_respects _ _ (.inr (.inl rfl))
  | ecsAdd x n4 n6 => exact absurd hx (h2 x n4 n6).1
  | ecsAddIfMissing x n4 n6 => exact absurd hx (h2 x n4 n6).2.1
  | ecsPrivacy n4 n6 => exact absurd hx (h2 [] n4 n6).2.2
  | edns0Delete c => exact deleting_respects _ _ (.inr (.inr ⟨c, rfl⟩))
  | edns0Add c d => exact edns0_add_respects _ _ _ (by rintro ⟨_, _, _, _, h⟩; cases h)

/-- **Coarse subnets.** If every way to a server has a modifier that shortens client subnets, and none after it that adds some or shortens them otherwise, servers get no address bits
beyond its lengths. -/
theorem only_coarse_subnets (p4 p6 : Nat) (h4 : p4 ≤ 32) (h6 : p6 ≤ 128) (root : Tree H) (Q : Msg → ClientInfo → Prop) (hone : ∀ q ci, Q q ci → OneOpt q)
    (hway : ∀ ms i, Way root ms i → ∃ pre post, ms = pre ++ .ecsPrivacy p4 p6 :: post ∧ ∀ x n4 n6, .ecsAdd x n4 n6 ∉ post ∧ .ecsAddIfMissing x n4 n6 ∉ post ∧ .ecsPrivacy n4 n6 ∉ post)
    (i : Nat) (q : Msg) (ci : ClientInfo) (h : Gets root Q (.client i) q ci) (o : EOpt) (ho : Carries q o) : Coarse p4 p6 o := by
  refine only_good_options (Coarse p4 p6) root Q hone (fun ms i w => .inl ?_) i q ci h o ho
  obtain ⟨pre, post, h1, h2⟩ := hway ms i w
  refine ⟨pre, _, post, h1, privacy_enforces p4 p6 h4 h6, fun x hx => ?_⟩
  cases x with
  | keep => exact deleting_respects _ _ (.inl rfl)
  | ecsDelete => exact deleting_respects _ _ (.inr (.inl rfl))
  | ecsAdd x n4 n6 => exact absurd hx (h2 x n4 n6).1
  | ecsAddIfMissing x n4 n6 => exact absurd hx (h2 x n4 n6).2.1
  | ecsPrivacy n4 n6 => exact absurd hx (h2 [] n4 n6).2.2
  | edns0Delete c => exact deleting_respects _ _ (.inr (.inr ⟨c, rfl⟩))
  | edns0Add c d => exact edns0_add_respects _ _ _ (by intro _ _ _ _ h; cases h)

/-- **No option of a kind.** If every way to a server has a modifier that deletes options of code `c` (other than 8, client subnets), and none after it that adds one, no server gets
such an option. -/
theorem no_option (c : Nat) (hc : c ≠ 8) (root : Tree H) (Q : Msg → ClientInfo → Prop) (hone : ∀ q ci, Q q ci → OneOpt q)
    (hway : ∀ ms i, Way root ms i → ∃ pre post, ms = pre ++ .edns0Delete c :: post ∧ ∀ d, .edns0Add c d ∉ post)
    (i : Nat) (q : Msg) (ci : ClientInfo) (h : Gets root Q (.client i) q ci) (o : EOpt) (ho : Carries q o) : o.code ≠ c := by
  refine only_good_options (fun o => o.code ≠ c) root Q hone (fun ms i w => .inl ?_) i q ci h o ho
  obtain ⟨pre, post, h1, h2⟩ := hway ms i w
  have sub : ∀ a p4 p6 ci, (ecsSubnet a p4 p6 ci).code ≠ c := by
    intro a p4 p6 ci
    unfold ecsSubnet
    simp only []
    split <;> (simp only [EOpt.code]; omega)
  refine ⟨pre, _, post, h1, edns0_delete_enforces c, fun x hx => ?_⟩
  cases x with
  | keep => exact deleting_respects _ _ (.inl rfl)
  | ecsDelete => exact deleting_respects _ _ (.inr (.inl rfl))
  | ecsAdd a p4 p6 => exact ecs_add_respects _ _ _ _ (sub a p4 p6)
  | ecsAddIfMissing a p4 p6 =>
    intro q ci hq o ho
    have ho : Carries (ecsAddIfMissing a p4 p6 q ci) o := ho
    unfold ecsAddIfMissing at ho
    split at ho
    · exact hq o ho
    · exact ecs_add_respects _ a p4 p6 (sub a p4 p6) q ci hq o ho
  | ecsPrivacy p4 p6 =>
    refine privacy_respects _ _ _ fun o ho => ?_
    unfold ecsPrivacyOpt
    split
    · simp only [EOpt.code]; omega
    · simp only [EOpt.code]; omega
    · exact ho
  | edns0Delete c => exact deleting_respects _ _ (.inr (.inr ⟨c, rfl⟩))
  | edns0Add c' d =>
    refine edns0_add_respects _ _ _ ?_
    intro (e : c' = c)
    subst e
    exact h2 d hx

/-! ### Limits -/

private def exOpt (os : List EOpt) : RR := ⟨str ".", 41, 1232, 0, .opt 1232 false os⟩

/-- In a query with two OPT records the first keeps its client subnet: modifiers see the last only. -/
theorem first_of_two_kept : ∃ q ci o, Carries (Modifier.ecsDelete.apply q ci) o ∧ IsSubnet o ∧
    Gets (.modify .ecsDelete (.client 0) : Tree Nat) (fun p cp => p = q ∧ cp = ci) (.client 0) (Modifier.ecsDelete.apply q ci) ci :=
  ⟨{ extra := [exOpt [.ecs 1 32 0 [192, 0, 2, 1]], exOpt []] }, {}, .ecs 1 32 0 [192, 0, 2, 1],
    ⟨exOpt [.ecs 1 32 0 [192, 0, 2, 1]], by decide +kernel, _, rfl, by simp⟩, ⟨_, _, _, _, rfl⟩, .modify (.root ⟨rfl, rfl⟩)⟩

/-! ### A case -/

private def exTree : Tree Nat := .modify (.ecsAdd [192, 0, 2, 1] 24 56) (.prefetch (.failBack 2 (fun _ => true) fun k => .modify .ecsDelete (.dnssec true (.client k))))

/-- The hypotheses of `no_client_subnet` hold: a group of validators behind a modifier each, behind prefetching. -/
example : ∀ ms i, Way exTree ms i → ∃ pre post, ms = pre ++ .ecsDelete :: post ∧ ∀ a p4 p6, .ecsAdd a p4 p6 ∉ post ∧ .ecsAddIfMissing a p4 p6 ∉ post := by
  intro ms i w
  cases w with
  | modify w => cases w with
    | prefetch w => cases w with
      | failBack k w => cases w with
        | modify w => cases w with
          | dnssec w => cases w; exact ⟨[.ecsAdd [192, 0, 2, 1] 24 56], [], rfl, by simp⟩

/-- Its second server gets a query that came with a client subnet, asked again and without it. -/
example : ∃ q, Gets exTree (fun p cp => p = { extra := [exOpt [.ecs 1 32 0 [192, 0, 2, 7], .loc 10 [1]]] } ∧ cp = {}) (.client 1) q { listener := str "prefetch" } ∧
    Carries q (.loc 10 [1]) := by
  refine ⟨_, .dnssec (.modify (.failBack (m := 1) (.prefetchAgain (.modify (.root ⟨rfl, rfl⟩))))), ?_⟩
  exact ⟨{ exOpt [.loc 10 [1]] with data := .opt 4096 true [.loc 10 [1]] }, by decide +kernel, _, rfl, by simp⟩

end Verif.Props.Privacy
