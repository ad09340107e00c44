import Verif.Spec.Fresh
import Verif.Props.Records
/-
C112: how old records may be when a client gets them, in whole configurations.
-/
namespace Verif.Props.Fresh
open Verif Verif.Net Verif.Composition Verif.Fresh Verif.Props.Composition Verif.Props.Records

variable {H ε : Type} [DecidableEq H] {start stop : ε → Int} {W : ε → Around H} {C : ε → Nat → Msg → ClientInfo → Option Res → Prop} {own : RData → Nat → Prop} {D : Int}

/-- What is proved of each record: it is an OPT record, or fresh with `c` caches and `d` times de-duplication on the way. -/
private def Q (start stop : ε → Int) (C : ε → Nat → Msg → ClientInfo → Option Res → Prop) (own : RData → Nat → Prop) (D : Int) (c d : Nat) (e : ε) (x : RData) (ttl : Nat) : Prop :=
  (∃ s b o, x = .opt s b o) ∨ Fresh start stop C own (D + c * (sec + D) + d * D) e x ttl

private theorem whole (ts now : Int) : now < ts + (Spec.Cache.wholeSeconds ts now + 1) * sec := by
  unfold Spec.Cache.wholeSeconds sec
  omega

private theorem sec_eq : sec = 1000000000 := rfl

private theorem fresh_hold (T : Timeline start stop W C D) (t : Tree H) (c d : Nat) (ht : Ages own c d t) (e : ε) (q : Msg) (ci : ClientInfo) (r : Res)
    (h : RepliesIn (W e) (C e) t q ci (some r)) : Holds (fun _ => True) (fun _ r => Q start stop C own D c d e r.data r.ttl) r := by
  have ho : ∀ {c d : Nat} {e : ε}, Opts (fun _ r => Q start stop C own D c d e r.data r.ttl) := by
    intro c d e _ r hr
    unfold RR.isOpt at hr
    split at hr
    · rename_i hd
      exact .inl ⟨_, _, _, hd⟩
    · cases hr
  have now : ∀ {c d : Nat} {e : ε} {v : Nat}, stop e + v * sec ≤ start e + v * sec + (D + c * (sec + D) + d * D) := by
    intro c d e v
    have h1 := T.lasts e
    have h2 : 0 ≤ (c : Int) * (sec + D) := Int.mul_nonneg (by omega) (by rw [sec_eq]; omega)
    have h3 : 0 ≤ (d : Int) * D := Int.mul_nonneg (by omega) (by omega)
    omega
  have made : ∀ {c d : Nat} {e : ε} {x : RData} {v : Nat}, own x v → Q start stop C own D c d e x v := fun h => .inr ⟨_, _, _, .inr h, .inl rfl, Int.le_refl _, now⟩
  have down : ∀ {c d : Nat} {e : ε} (x : RData) (v v' : Nat), Q start stop C own D c d e x v → v' ≤ v → Q start stop C own D c d e x v' := by
    rintro c d e x v v' (h | ⟨e0, d0, v0, h1, h2, ho, h3⟩) hv
    · exact .inl h
    · exact .inr ⟨e0, d0, v0, h1, h2, ho, by rw [sec_eq] at h3 ⊢; omega⟩
  have mapped64 : ∀ {c d : Nat} {e : ε} {ip ip6 : Str} {v : Nat}, Q start stop C own D c d e (.a ip) v → Q start stop C own D c d e (.aaaa ip6) v := by
    rintro c d e ip ip6 v (⟨_, _, _, h⟩ | ⟨e0, d0, v0, h1, h2, ho, h3⟩)
    · cases h
    · refine .inr ⟨e0, d0, v0, h1, .inr ?_, ho, h3⟩
      rcases h2 with rfl | ⟨_, _, _, h⟩
      · exact ⟨ip, ip6, rfl, rfl⟩
      · cases h
  induction t generalizing c d e q ci r with
  | client i =>
    cases h with
    | client h =>
      intro he m hm
      refine holds_all.mpr fun _ r' hr' => ?_
      obtain ⟨msg, err⟩ := r
      simp only at he hm
      subst he hm
      exact .inr ⟨e, _, _, .inl ⟨i, q, ci, m, r', h, hr', rfl, rfl⟩, .inl rfl, Int.le_refl _, now⟩
  | ttl o t ih =>
    generalize ho' : some r = o' at h
    cases h with
    | ttl h =>
      obtain ⟨x, rfl, rfl⟩ := Option.map_eq_some_iff.mp ho'.symm
      exact ttl_hold (.inr ⟨fun _ r t => down r.data r.ttl t, ht.1, ht.2.1⟩) (ih _ _ ht.2.2 _ _ _ _ h)
  | truncateRetry t u iht ihu =>
    cases h with
    | truncateKeep h1 h2 => exact truncate_hold (iht _ _ ht.1 _ _ _ _ h1) fun h => by rw [h2] at h; cases h
    | truncateAsk h1 _ h3 => exact truncate_hold (iht _ _ ht.1 _ _ _ _ h1) fun _ => ihu _ _ ht.2 _ _ _ _ h3
  | collapse n t ih =>
    generalize ho' : some r = o' at h
    cases h with
    | collapse h =>
      obtain ⟨x, rfl, hx⟩ := Option.bind_eq_some_iff.mp ho'.symm
      exact collapse_hold (fun _ _ _ h => h) (ih _ _ ht _ _ _ _ h) hx
  | minimize t ih =>
    generalize ho' : some r = o' at h
    cases h with
    | minimize h =>
      obtain ⟨x, rfl, rfl⟩ := Option.map_eq_some_iff.mp ho'.symm
      exact minimize_hold (ih _ _ ht _ _ _ _ h)
  | drop => cases h; exact hold_none rfl
  | modify m t ih => cases h with | modify h => exact ih _ _ ht _ _ _ _ h
  | blocklist L t a b iht iha ihb =>
    cases h with
    | blocklistDone hl h => exact blocklist_hold ho (fun q h hh => ⟨fun ip hip r hr hv => by
        rcases hr with hr | hr <;> rw [hr, hv]
        · exact made ((ht.1 _ hl q h hh).1 ip hip).1
        · exact made ((ht.1 _ hl q h hh).1 ip hip).2, fun n hn r hr hv => by rw [hr, hv]; exact made ((ht.1 _ hl q h hh).2 n hn)⟩) h
    | @blocklistForward _ _ _ _ _ target _ _ _ _ hl _ h =>
      cases target with
      | upstream => exact iht _ _ ht.2.1 _ _ _ _ h
      | allow => exact iha _ _ ht.2.2.1 _ _ _ _ h
      | block => exact ihb _ _ ht.2.2.2 _ _ _ _ h
  | clientBlocklist L t b iht ihb =>
    cases h with
    | clientDone _ h => exact client_hold h
    | @clientForward _ _ _ _ _ _ target _ _ _ _ _ _ h =>
      cases target with
      | upstream => exact iht _ _ ht.1 _ _ _ _ h
      | allow => exact iht _ _ ht.1 _ _ _ _ h
      | block => exact ihb _ _ ht.2 _ _ _ _ h
  | responseIp L t b iht ihb =>
    cases h with
    | ipDone hl h1 h2 =>
      exact ip_hold ho (iht _ _ ht.1 _ _ _ _ h1) h2
    | ipForward hl h1 h2 h3 =>
      obtain ⟨-, rfl⟩ := Asks.ip_forward h2
      exact ihb _ _ ht.2 _ _ _ _ h3
  | responseName L t b iht ihb =>
    cases h with
    | nameDone hl h1 h2 =>
      exact name_hold ho (iht _ _ ht.1 _ _ _ _ h1) h2
    | nameForward hl h1 h2 h3 =>
      obtain ⟨-, rfl⟩ := Asks.name_forward h2
      exact ihb _ _ ht.2 _ _ _ _ h3
  | rateLimit l t u iht ihu =>
    cases h with
    | rateOn _ h => exact iht _ _ ht.1 _ _ _ _ h
    | rateLimit _ h => exact ihu _ _ ht.2 _ _ _ _ h
    | rateDrop _ => exact hold_none rfl
  | static s =>
    generalize ho' : some r = o' at h
    cases h
    exact static_hold ho (fun rr hr _ r h1 h2 => by rw [h1, h2]; exact made (ht rr hr)) ho'.symm
  | template newRR s =>
    generalize ho' : some r = o' at h
    cases h
    exact template_hold ho (fun f hf i text rr h1 h2 _ => made (ht f hf i text rr h1 h2)) ho'.symm
  | replace exps t ih =>
    generalize ho' : some r = o' at h
    cases h with
    | replace h =>
      obtain ⟨x, rfl, hx⟩ := Option.bind_eq_some_iff.mp ho'.symm
      exact replace_hold (fun _ _ _ h => h) (ih _ _ ht _ _ _ _ h) hx
  | syslog o t ih =>
    generalize ho' : some r = o' at h
    cases h with
    | syslog h =>
      obtain ⟨x, rfl, hx⟩ := Option.bind_eq_some_iff.mp ho'.symm
      obtain rfl := syslog_same hx
      exact ih _ _ ht _ _ _ _ h
  | queryLog t ih =>
    generalize ho' : some r = o' at h
    cases h with
    | queryLog h =>
      obtain ⟨x, rfl, hx⟩ := Option.bind_eq_some_iff.mp ho'.symm
      obtain rfl := queryLog_same hx
      exact ih _ _ ht _ _ _ _ h
  | dns64 ps t ih =>
    generalize ho' : some r = o' at h
    cases h with
    | dns64One h1 h2 =>
      have h3 := h2 .drop
      rw [← ho'] at h3
      exact dns64_hold (fun p hp ip ip4 ip6 h4 h6 r r' hn e1 e2 e3 => by rw [e2, e3]; rw [e1] at hn; exact mapped64 hn) (two_hold (ih _ _ ht _ _ _ _ h1) (hold_none rfl)) (two_hold (ih _ _ ht _ _ _ _ h1) (hold_none rfl)) h3
    | dns64Two h1 h2 =>
      exact dns64_hold (fun p hp ip ip4 ip6 h4 h6 r r' hn e1 e2 e3 => by rw [e2, e3]; rw [e1] at hn; exact mapped64 hn) (two_hold (ih _ _ ht _ _ _ _ h1) (ih _ _ ht _ _ _ _ h2)) (two_hold (ih _ _ ht _ _ _ _ h1) (ih _ _ ht _ _ _ _ h2)) ho'.symm
    | dns64Crash => cases ho'
    | dns64Crash2 => cases ho'
  | failRotate n ok member ih =>
    cases h with
    | failRotate h1 h2 _ h3 =>
      exact rotate_run (P := Holds (fun _ => True) (fun _ r => Q start stop C own D c d e r.data r.ttl)) (hold_none rfl) _ _ _ h1 (by simp) (fun pre x post s1 i m e1 e2 e3 => ih m _ _ (ht m) _ _ _ _ (h3 pre x post s1 i m e1 e2 e3)) _ _ h2 rfl
  | failBack n ok member ih =>
    cases h with
    | failBack h1 h2 _ h3 =>
      exact back_run (P := Holds (fun _ => True) (fun _ r => Q start stop C own D c d e r.data r.ttl)) (hold_none rfl) _ _ _ h1 (by simp [Group.Back.init]) (fun pre x post s1 i m e1 e2 e3 => ih m _ _ (ht m) _ _ _ _ (h3 pre x post s1 i m e1 e2 e3)) _ _ h2 rfl
  | failBackEach n ok member ih =>
    cases h with
    | failBackEach h => exact each_run (P := Holds (fun _ => True) (fun _ r => Q start stop C own D c d e r.data r.ttl)) _ _ _ (hold_none rfl) fun m hm => ih m _ _ (ht m) _ _ _ _ (h m hm)
  | roundRobin n member ih => cases h with | roundRobin _ h => exact ih _ _ _ (ht _) _ _ _ _ h
  | random n ok member ih =>
    generalize ho' : some r = o' at h
    cases h with
    | @random _ _ _ _ _ _ _ _ r' h1 h2 _ h3 =>
      cases ho'
      cases r' with
      | none => exact hold_err (by simp [Res.fail])
      | some x => exact random_run (P := Holds (fun _ => True) (fun _ r => Q start stop C own D c d e r.data r.ttl)) _ _ _ h1 (by simp) (fun pre x post s1 m e1 e2 e3 => ih m _ _ (ht m) _ _ _ _ (h3 pre x post s1 m e1 e2 e3)) _ h2
    | randomCrash => cases ho'
  | loadBalance n ok member ih =>
    cases h with
    | loadBalance h1 h2 => exact balance_run (P := Holds (fun _ => True) (fun _ r => Q start stop C own D c d e r.data r.ttl)) (fun e => hold_err (by simp [Res.fail])) _ _ _ _ _ _ (hold_none rfl) h1 fun m hm => ih m _ _ (ht m) _ _ _ _ (h2 m hm)
  | fastest n member ih =>
    cases h with
    | fastest h1 _ _ h2 =>
      obtain ⟨i, hi⟩ := List.getElem?_of_mem (fastest_mem _ _ _ h1)
      exact ih _ _ _ (ht _) _ _ _ _ (h2 i _ hi)
  | fastestTcp w n t ih =>
    generalize ho' : some r = o' at h
    cases h with
    | fastestTcp h =>
      obtain ⟨x, rfl, hx⟩ := Option.bind_eq_some_iff.mp ho'.symm
      exact tcp_hold (.inr ht.1) (ih _ _ ht.2 _ _ _ _ h) hx
  | router routes member ih =>
    cases h with
    | router _ _ h => exact ih _ _ _ (ht _) _ _ _ _ h
    | routerNone _ _ => exact hold_err (by simp [Res.fail])
  | dedup t ih =>
    cases h with
    | dedup h1 h2 h3 h4 h5 =>
      obtain ⟨d', rfl, ht⟩ := ht
      obtain ⟨r', rfl, hr'⟩ := (dedup_from (Q := Holds (fun _ => True) (fun _ r => Q start stop C own D c (d' + 1) e r.data r.ttl)) _ _ _ h1 (fun l y hy => by
        obtain ⟨e', q', ci', hy', ht', hs'⟩ := T.shared e t y (h5 l y hy)
        intro he m hm
        refine holds_all.mpr fun hc r hr => ?_
        rcases holds_all.mp (ih _ _ ht _ _ _ _ hy' he m hm) hc r hr with h | ⟨e0, d0, v0, g1, g2, g0, g3⟩
        · exact .inl h
        · refine .inr ⟨e0, d0, v0, g1, g2, by omega, ?_⟩
          have := (T.lasts e).2
          simp only [Int.natCast_add, Int.add_mul] at g3 ⊢
          omega) (by simp) _ _ h2).2 _ h4
      exact restore_hold hr'
  | cache env o cap t ih =>
    generalize ho' : some r = o' at h
    cases h with
    | @cache _ _ _ _ _ _ hist c0 up clk ts h1 h0 hk h2 h3 h4 h5 =>
      obtain ⟨g1, g2, g3, g4, c', rfl, ht⟩ := ht
      have more : ∀ d0 v, Q start stop C own D c' d e d0 v → Q start stop C own D (c' + 1) d e d0 v := by
        rintro d0 v (h | ⟨e0, d1, v0, k1, k2, k0, k3⟩)
        · exact .inl h
        · refine .inr ⟨e0, d1, v0, k1, k2, k0, ?_⟩
          have := T.lasts e
          simp only [Int.natCast_add, Int.add_mul, sec_eq] at k3 ⊢
          omega
      refine cache_hold h1 h2 h3 g1 g2 (fun f hf m hm => holds_all.mpr fun hc r hr => ?_) (fun q' m ts' w m' a hm hw hd ha => holds_all.mpr fun hc r hr => ?_) (fun x hx ha he m hm => holds_all.mpr fun hc r hr => more _ _ (holds_all.mp (ih _ _ ht _ _ _ _ (h5 x hx ha) he m hm) hc r hr)) ho'.symm
      · obtain ⟨r0, e1, e2, e3⟩ := g3 f hf m r hr
        rw [← e2]
        exact down _ _ _ (holds_all.mp hm trivial r0 e1) e3
      · obtain ⟨e', q'', ci', hy', t1, t2, t3⟩ := T.stored e t m ts' (h0 q' m ts' hm)
        obtain ⟨k3, k4⟩ := aged_all ha
        obtain ⟨r1, e3, e4⟩ := k4 r hr
        obtain ⟨r0, e1, e2, e5⟩ := g4 m w m' hw hd r1 e3
        have hq := holds_all.mp (ih _ _ ht _ _ _ _ hy' rfl m rfl) trivial r0 e1
        unfold Spec.Cache.Lowered at e4
        split at e4
        · rename_i hopt
          subst e4
          refine .inl ?_
          unfold RR.isOpt at hopt
          split at hopt
          · rename_i hdd
            exact ⟨_, _, _, hdd⟩
          · cases hopt
        · obtain ⟨e4, rfl⟩ := e4
          rcases hq with h | ⟨e0, d0, v0, k1, k2, k0, k3⟩
          · exact .inl (by rw [← e2]; exact h)
          · refine .inr ⟨e0, d0, v0, k1, by rw [← e2]; exact k2, by omega, ?_⟩
            have hck := (T.clock e _ (hk 0)).1
            have hl := T.lasts e
            have hw := whole ts' (clk 0)
            simp only [Int.natCast_add, Int.add_mul, sec_eq] at k3 hw ⊢
            omega
    | cacheCrash => cases ho'
  | prefetch t ih => cases h with | prefetch h => exact ih _ _ ht _ _ _ _ h
  | dnssec l t ih =>
    generalize ho' : some r = o' at h
    cases h with
    | dnssec h _ =>
      obtain ⟨x, rfl, hx⟩ := Option.bind_eq_some_iff.mp ho'.symm
      exact dnssec_hold ho (ih _ _ ht _ _ _ _ h) hx

/-- C112: in a configuration in which no element raises TTLs, with at most `c` caches and `d` times de-duplication on each way, and if no query takes longer than `D`: for each record a
client gets there is a record that a server has sent (or that the configuration says), in an episode that is over, and the time to live the client sees ends at most
`D + c (1 s + D) + d D` after the one the server gave. -/
theorem records_fresh (T : Timeline start stop W C D) (t : Tree H) (c d : Nat) (ht : Ages own c d t) (e : ε) (q : Msg) (ci : ClientInfo) (m : Msg)
    (h : RepliesIn (W e) (C e) t q ci (some (.ok m))) (r : RR) (hr : r ∈ m.answer ++ m.ns ++ m.extra) (hopt : ¬ ∃ s b o, r.data = .opt s b o) :
    Fresh start stop C own (D + c * (sec + D) + d * D) e r.data r.ttl := by
  rcases holds_all.mp (fresh_hold T t c d ht e q ci _ h rfl m rfl) trivial r hr with h | h
  · exact absurd h hopt
  · exact h

/-- C112: no client gets a record when more than its time to live (and that much again) is over since the query for which the server sent it; and no TTL is longer than the server's by more
than that. -/
theorem records_not_after (T : Timeline start stop W C D) (t : Tree H) (c d : Nat) (ht : Ages (fun _ _ => False) c d t) (e : ε) (q : Msg) (ci : ClientInfo) (m : Msg)
    (h : RepliesIn (W e) (C e) t q ci (some (.ok m))) (r : RR) (hr : r ∈ m.answer ++ m.ns ++ m.extra) (hopt : ¬ ∃ s b o, r.data = .opt s b o) :
    ∃ e0 d0 ttl0, Sent (C e0) d0 ttl0 ∧ Comes d0 r.data ∧ stop e ≤ start e0 + ttl0 * sec + (D + c * (sec + D) + d * D) ∧
      r.ttl * sec ≤ ttl0 * sec + (D + c * (sec + D) + d * D) := by
  obtain ⟨e0, d0, v0, h1, h2, h3, h4⟩ := records_fresh T t c d ht e q ci m h r hr hopt
  rcases h1 with h1 | h1
  · have h5 := T.lasts e0
    have h6 : 0 ≤ (r.ttl : Int) * sec := Int.mul_nonneg (by omega) (by decide)
    exact ⟨e0, d0, v0, h1, h2, by omega, by omega⟩
  · exact h1.elim

/-- C112: without caches and de-duplication every record comes from a server asked for this very query or an earlier one, with a TTL that is not longer, if queries take no time. -/
theorem records_now (T : Timeline start stop W C 0) (t : Tree H) (ht : Ages (fun _ _ => False) 0 0 t) (e : ε) (q : Msg) (ci : ClientInfo) (m : Msg)
    (h : RepliesIn (W e) (C e) t q ci (some (.ok m))) (r : RR) (hr : r ∈ m.answer ++ m.ns ++ m.extra) (hopt : ¬ ∃ s b o, r.data = .opt s b o) :
    ∃ e0 d0 ttl0, Sent (C e0) d0 ttl0 ∧ Comes d0 r.data ∧ r.ttl ≤ ttl0 := by
  obtain ⟨e0, d0, v0, h1, h2, -, h4⟩ := records_not_after T t 0 0 ht e q ci m h r hr hopt
  refine ⟨e0, d0, v0, h1, h2, ?_⟩
  simp only [sec_eq] at h4
  omega

/-! ### The limit: caches round down, each for itself -/

private def exQ : Msg := { id := 5, question := [⟨str "a.", 1, 1⟩] }
private def exA : Msg := { id := 5, question := [⟨str "a.", 1, 1⟩], response := true, answer := [⟨str "a.", 1, 1, 200, .a [1, 2, 3, 4]⟩] }
/-- An environment in which only this message can be encoded -/
private def exEnv : CacheM.Env Nat where
  ipStr a := 49 :: a
  hash _ := 7
  encode m := if m = exA then some [] else none
  decode _ := some exA
private def t0 : Int := 1700000000000000000
/-- Each episode is a nanosecond less than a second after the one before. -/
private def exT (k : Nat) : Int := t0 + k * 999999999
private def exTree : Nat → Tree Nat
  | 0 => .client 0
  | k + 1 => .cache exEnv {} 10 (exTree k)
/-- What is stored in an episode is from the one before. -/
private def exW (k : Nat) : Around Nat where
  stored t m ts := ∃ j, k = j + 1 ∧ j < 2 ∧ t = exTree j ∧ m = exA ∧ ts = exT j
  shared _ _ := False
  clock τ := τ = exT k
  verdict _ _ _ := True
  replied _ _ := True
/-- The server replies in the first episode, and never again. -/
private def exC (k : Nat) (_ : Nat) (_ : Msg) (_ : ClientInfo) (o : Option Res) : Prop := k = 0 ∧ o = some (.ok exA)

private theorem exWF : Props.Cache.WellFormed exEnv.ipStr exQ := ⟨by simp [exQ], by simp [exQ], by intro x hx; simp [Spec.Cache.subnet, exQ, Msg.edns?] at hx⟩
private theorem exHit (j : Nat) (hj : j < 2) (hs : ∃ c, Props.Cache.runEv exEnv {} (Lru.new 10) [.store exQ exA (exT j)] = some c ∧
    (CacheM.resolve exEnv {} c exQ (.fail "") (fun _ => exT (j + 1)) (exT (j + 1))).map (fun x => (x.res, x.asked)) = some (.ok exA, false)) :
    RepliesIn (exW (j + 1)) (exC (j + 1)) (exTree (j + 1)) exQ {} (some (.ok exA)) := by
  obtain ⟨c, h1, h2⟩ := hs
  have hsane : ∀ k, k < 3 → Props.Cache.SaneTime (exT k) := fun k hk => by unfold Props.Cache.SaneTime exT t0; omega
  cases hx : CacheM.resolve exEnv {} c exQ (.fail "") (fun _ => exT (j + 1)) (exT (j + 1)) with
  | none => rw [hx] at h2; cases h2
  | some x =>
    rw [hx] at h2
    simp only [Option.map_some, Option.some.injEq, Prod.mk.injEq] at h2
    have := RepliesIn.cache (W := exW (j + 1)) (C := exC (j + 1)) (t := exTree j) (ci := {}) (hist := [.store exQ exA (exT j)]) (clock := fun _ => exT (j + 1)) (ts := exT (j + 1)) (up := .fail "")
      (fun e he => by
        simp only [List.mem_singleton] at he
        subst he
        refine ⟨?_, by simp, by simp⟩
        intro q m t h
        simp only [Props.Cache.Ev.store.injEq] at h
        obtain ⟨rfl, rfl, rfl⟩ := h
        exact ⟨exWF, hsane j (by omega)⟩)
      (fun q' m ts' h => by
        simp only [List.mem_singleton, Props.Cache.Ev.store.injEq] at h
        obtain ⟨rfl, rfl, rfl⟩ := h
        exact ⟨j, rfl, hj, rfl, rfl, rfl⟩)
      (fun _ => rfl) h1 exWF (hsane (j + 1) (by omega)) (fun y hy ha => by
        rw [hx] at hy
        cases hy
        rw [h2.2] at ha
        cases ha)
    rw [hx, Option.map_some, h2.1] at this
    exact this

private theorem exReplies : ∀ k, k < 3 → RepliesIn (exW k) (exC k) (exTree k) exQ {} (some (.ok exA))
  | 0, _ => .client ⟨rfl, rfl⟩
  | 1, _ => exHit 0 (by omega) ⟨_, rfl, by decide⟩
  | 2, _ => exHit 1 (by omega) ⟨_, rfl, by decide⟩

private theorem exLine : Timeline exT exT exW exC 0 where
  lasts e := ⟨Int.le_refl _, by omega⟩
  clock e τ h := by cases h; exact ⟨Int.le_refl _, Int.le_refl _⟩
  stored e t m ts h := by
    obtain ⟨j, rfl, hj, rfl, rfl, rfl⟩ := h
    exact ⟨j, exQ, {}, exReplies j (by omega), Int.le_refl _, Int.le_refl _, by unfold exT; omega⟩
  shared e t y h := h.elim

private theorem exAges (own : RData → Nat → Prop) : ∀ k, Ages own k 0 (exTree k)
  | 0 => trivial
  | k + 1 => by
    refine ⟨by decide, fun a => by simp [exEnv], ?_, ?_, k, rfl, exAges own k⟩
    · intro f hf
      cases hf
    · intro m w m' h1 h2
      simp only [exEnv] at h1 h2
      split at h1
      · rename_i hm
        cases h2
        subst hm
        exact fun r hr => ⟨r, hr, rfl, Nat.le_refl _⟩
      · cases h1

/-- A TTL may come out of two caches as it went in although almost two seconds are over: both round down to whole seconds, each for itself. The bound of `records_fresh` is two seconds then. -/
theorem caches_round_down : ∃ (start : Nat → Int) (W : Nat → Around Nat) (C : Nat → Nat → Msg → ClientInfo → Option Res → Prop) (t : Tree Nat) (q m : Msg) (r : RR),
    Timeline start start W C 0 ∧ Ages (fun _ _ => False) 2 0 t ∧ RepliesIn (W 2) (C 2) t q {} (some (.ok m)) ∧ r ∈ m.answer ∧ r.ttl = 200 ∧
    (∀ e d ttl, Sent (C e) d ttl → e = 0 ∧ ttl = 200) ∧ start 2 = start 0 + (2 * sec - 2) := by
  refine ⟨exT, exW, exC, exTree 2, exQ, exA, _, exLine, exAges _ 2, exReplies 2 (by omega), List.mem_singleton.mpr rfl, rfl, ?_, rfl⟩
  rintro e d ttl ⟨i, q, ci, m, r, ⟨h1, h2⟩, h3, -, rfl⟩
  cases h2
  refine ⟨h1, ?_⟩
  simp only [exA, List.append_nil, List.mem_singleton] at h3
  rw [h3]

/-- An element with a least TTL makes records of any age out of one that is over: with it there is no such bound. -/
theorem min_ttl_raises (n : Nat) : ∃ (start : Unit → Int) (W : Unit → Around Nat) (C : Unit → Nat → Msg → ClientInfo → Option Res → Prop) (t : Tree Nat) (q m : Msg) (r : RR),
    Timeline start start W C 0 ∧ RepliesIn (W ()) (C ()) t q {} (some (.ok m)) ∧ r ∈ m.answer ∧ r.ttl = n ∧ ∀ e d ttl, Sent (C e) d ttl → ttl = 0 := by
  let z : Msg := { exA with answer := [⟨str "a.", 1, 1, 0, .a [1, 2, 3, 4]⟩] }
  let x : RR := ⟨str "a.", 1, 1, n, .a [1, 2, 3, 4]⟩
  refine ⟨fun _ => 0, fun _ => ⟨fun _ _ _ => False, fun _ _ => False, fun _ => False, fun _ _ _ => False, fun _ _ => False⟩, fun _ _ _ _ o => o = some (.ok z), .ttl ⟨.none, n, n⟩ (.client 0), exQ, { z with answer := [x] }, x,
    ⟨fun _ => ⟨Int.le_refl _, Int.le_refl _⟩, fun _ _ h => h.elim, fun _ _ _ _ h => h.elim, fun _ _ _ h => h.elim⟩, ?_, List.mem_singleton.mpr rfl, rfl, ?_⟩
  · have h := RepliesIn.ttl (H := Nat) (W := ⟨fun _ _ _ => False, fun _ _ => False, fun _ => False, fun _ _ _ => False, fun _ _ => False⟩) (C := fun _ _ _ o => o = some (.ok z)) (opt := ⟨.none, n, n⟩) (q := exQ) (ci := {}) (.client (i := 0) rfl)
    have he : Elements.ttlResolve ⟨.none, n, n⟩ (.ok z) = .ok { z with answer := [x] } := by
      unfold Elements.ttlResolve
      simp [Res.ok, z, x, exA, Elements.selected, Elements.mapTTL, Elements.limit, RR.isOpt]
      omega
    rw [Option.map_some, he] at h
    exact h
  · rintro e d ttl ⟨i, q, ci, m, r, h2, h3, -, rfl⟩
    cases h2
    simp only [z, exA, List.append_nil, List.mem_singleton] at h3
    rw [h3]

/-- De-duplication in front of a cache in front of two servers, one of them behind DNS64 and a static answer for queries that are too many -/
example : Ages (fun d v => d = .a [127, 0, 0, 1] ∧ v = 60) 1 1 (.dedup (.cache exEnv {} 10 (.failRotate 2 (fun r => r.err.isNone) fun
    | 0 => .ttl ⟨.lowest, 0, 100⟩ (.client 0)
    | _ => .dns64 [] (.truncateRetry (.client 1) (.static { answer := [some ⟨str "x.", 1, 1, 60, .a [127, 0, 0, 1]⟩] }))))) := by
  obtain ⟨h1, h2, h3, h4, -⟩ := exAges (fun d v => d = .a [127, 0, 0, 1] ∧ v = 60) 1
  refine ⟨0, rfl, h1, h2, h3, h4, 0, rfl, fun m => ?_⟩
  match m with
  | 0 => exact ⟨rfl, .inr rfl, trivial⟩
  | n + 1 =>
    refine ⟨trivial, fun rr hr => ?_⟩
    simp only [List.append_nil, List.mem_singleton, Option.some.injEq] at hr
    subst hr
    exact ⟨rfl, rfl⟩

end Verif.Props.Fresh
