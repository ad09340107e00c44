/-
C98: elements with state work with the numbers, times and addresses in their sections, and with the documented ones where the section has none.
-/
import Verif.Model.Settings
import Verif.Spec.Settings
import Verif.Lemmas.Bytes
import Verif.Props.Rate
import Verif.Props.Balance
import Verif.Props.Prefetch
import Verif.Props.Lua
namespace Verif.Props.Settings
open Verif Verif.Settings Verif.Spec.Settings

private theorem dur (n unit : Int) (h : InI64 (n * unit)) : duration n unit = n * unit := toI64_toU64 h

private theorem dur_sec (n : Int) (h : Seconds n) : duration n sec = n * 1000000000 := dur n sec (by unfold Seconds at h; unfold InI64 sec; omega)

private theorem dur_msec (n : Int) (h : Millis n) : duration n msec = n * 1000000 := dur n msec (by unfold Millis at h; unfold InI64 msec; omega)

/-- **C98.** A rate limiter rejects a query exactly if at least `requests` earlier queries came from the same network in the same window. Windows have `window` seconds (60), networks
are the first `prefix4` bits of IPv4 addresses (24) and the first `prefix6` bits of IPv6 addresses (56). -/
theorem rate_limit_as_configured (s : Section) (h4 : s.prefix4 ≤ 32) (h6 : s.prefix6 ≤ 128) (qs : List (Int × Str))
    (h0 : ∀ q ∈ qs, (orDefault s.window 60 : Int) ≤ q.1) (hp : qs.Pairwise (fun a b => a.1 ≤ b.1)) :
    ∃ bs, Rate.run (rateLimiter s) {} qs = some bs ∧ bs.length = qs.length ∧
      ∀ (i : Nat) (q : Int × Str), qs[i]? = some q →
        bs[i]? = some (decide (s.requests ≤ Spec.Rate.before (orDefault s.window 60) (orDefault s.prefix4 24) (orDefault s.prefix6 56) (qs.take i) q)) := by
  have e1 : (rateLimiter s).window = orDefault s.window 60 := rfl
  have e2 : (rateLimiter s).prefix4 = orDefault s.prefix4 24 := rfl
  have e3 : (rateLimiter s).prefix6 = orDefault s.prefix6 56 := rfl
  have e4 : (rateLimiter s).requests = s.requests := rfl
  rw [← e1, ← e2, ← e3, ← e4]
  apply Rate.rate_limit_exact
  · rw [e1]; unfold orDefault; split <;> omega
  · rw [e2]; unfold orDefault; split <;> omega
  · rw [e3]; unfold orDefault; split <;> omega
  · rw [e1]; exact h0
  · exact hp

/-- **C98.** From the second failure in a row on, a failure of a member of a load-balance group counts in its average like a response that took `failure-penalty` seconds, if the
section has that; without, it counts with the time it took, and only if that raises the average. -/
theorem penalty_as_configured (s : Section) (hs : Seconds s.failurePenalty) (fails : Nat) (st : Balance.Stats) (hc : 0 < st.count) (elapsed : Int) :
    (0 < s.failurePenalty → 2 ≤ fails →
      (Balance.updateOnFailure (failurePenalty s) fails st elapsed).rttEMA = 1 / 10 * ((s.failurePenalty : Rat) * 1000000) + 9 / 10 * st.rttEMA) ∧
    (s.failurePenalty = 0 ∨ fails < 2 →
      (Balance.updateOnFailure (failurePenalty s) fails st elapsed).rttEMA = max st.rttEMA (1 / 10 * Balance.sample elapsed + 9 / 10 * st.rttEMA)) := by
  have hd : failurePenalty s = s.failurePenalty * 1000000000 := dur_sec _ hs
  constructor
  · intro h hf
    have hp : Balance.penalize (failurePenalty s) fails = true := by
      simp only [Balance.penalize, Bool.and_eq_true, decide_eq_true_eq]
      rw [hd]; exact ⟨by omega, hf⟩
    have hus : Balance.sample (failurePenalty s) = (s.failurePenalty : Rat) * 1000000 := by
      unfold Balance.sample
      rw [hd, if_neg (by omega), show (s.failurePenalty : Int) * 1000000000 / 1000 = s.failurePenalty * 1000000 by omega]
      rw [Rat.intCast_mul]; rfl
    have hc' : st.count ≠ 0 := by omega
    simp only [Balance.updateOnFailure, hp, if_true, if_neg hc', true_or, hus]
    grind
  · intro h
    have hp : Balance.penalize (failurePenalty s) fails = false := by
      have : ¬ (Balance.penalize (failurePenalty s) fails = true) := by
        simp only [Balance.penalize, Bool.and_eq_true, decide_eq_true_eq, Balance.penaltyThreshold]
        rw [hd]; omega
      simpa using this
    have hc' : st.count ≠ 0 := by omega
    simp only [Balance.updateOnFailure, hp, Bool.false_eq_true, if_false, if_neg hc', false_or]
    split <;> grind

/-- **C98.** A cache without a `backend` keeps up to `cache-size` entries in memory and removes expired ones every `gc-period` seconds (60), without a file. -/
theorem cache_without_backend (s : Section) (hb : s.backend = none) (hg : Seconds s.gcPeriod) : ∃ m, store s = some (.memory m) ∧
    m.capacity = s.cacheSize ∧ m.gcPeriod = secondsOr s.gcPeriod 60 ∧ m.filename = [] ∧ m.saveInterval = 0 := by
  refine ⟨_, by rw [store, hb], ?_⟩
  rw [dur_sec _ hg]
  unfold newMemory secondsOr
  by_cases h : s.gcPeriod = 0
  · simp [h, sec]
  · rw [if_neg (by show ¬ s.gcPeriod * 1000000000 = 0; omega), if_neg h]
    exact ⟨rfl, rfl, rfl, rfl⟩

/-- **C98.** A cache with a `memory` backend keeps up to `size` entries in memory, removes expired ones every `gc-period` seconds (60), and writes them to `filename` every
`save-interval` seconds. What the section says outside of `backend` is not used. -/
theorem cache_in_memory (s : Section) (b : Backend) (hb : s.backend = some b) (ht : b.type = str "memory") (hg : Seconds b.gcPeriod) (hi : Seconds b.saveInterval) :
    ∃ m, store s = some (.memory m) ∧
    m.capacity = b.size ∧ m.gcPeriod = secondsOr b.gcPeriod 60 ∧ m.filename = b.filename ∧ m.saveInterval = b.saveInterval * 1000000000 := by
  refine ⟨_, by rw [store, hb]; simp only [if_pos ht]; rfl, ?_⟩
  rw [dur_sec _ hg, dur_sec _ hi]
  unfold newMemory secondsOr
  by_cases h : b.gcPeriod = 0
  · simp [h, sec]
  · rw [if_neg (by show ¬ b.gcPeriod * 1000000000 = 0; omega), if_neg h]
    exact ⟨rfl, rfl, rfl, rfl⟩

/-- **C98.** A cache with a `redis` backend uses the server, the account and the database of its section, each in its place, and puts its prefix before the keys. Back-off times are
milliseconds; -1 stays -1, which turns back-off off. Numbers left out are 0, for which the Redis library has its defaults. -/
theorem cache_in_redis (s : Section) (b : Backend) (hb : s.backend = some b) (ht : b.type = str "redis") (hmin : Millis b.minRetryBackoff) (hmax : Millis b.maxRetryBackoff) :
    ∃ r, store s = some (.redis r) ∧
    (r.network, r.addr, r.username, r.password) = (b.network, b.address, b.username, b.password) ∧ (r.db, r.maxRetries) = (b.db, b.maxRetries) ∧
    (r.keyPrefix, r.syncSet, r.contextTimeout) = (b.keyPrefix, b.syncSet, true) ∧
    (b.minRetryBackoff = -1 → r.minRetryBackoff = -1) ∧ (b.minRetryBackoff ≠ -1 → r.minRetryBackoff = b.minRetryBackoff * 1000000) ∧
    (b.maxRetryBackoff = -1 → r.maxRetryBackoff = -1) ∧ (b.maxRetryBackoff ≠ -1 → r.maxRetryBackoff = b.maxRetryBackoff * 1000000) := by
  refine ⟨_, by rw [store, hb]; show (if _ then _ else _) = _; rw [if_neg (by rw [ht]; decide), if_pos ht], rfl, rfl, rfl, ?_, ?_, ?_, ?_⟩
  · intro h; show backoff _ = _; rw [backoff, if_pos h]
  · intro h; show backoff _ = _; rw [backoff, if_neg h, dur_msec _ hmin]
  · intro h; show backoff _ = _; rw [backoff, if_pos h]
  · intro h; show backoff _ = _; rw [backoff, if_neg h, dur_msec _ hmax]

/-- **C98.** Sections with any other backend are rejected, and no others because of their backend. -/
theorem cache_backends (s : Section) : store s = none ↔ ∃ b, s.backend = some b ∧ b.type ≠ str "memory" ∧ b.type ≠ str "redis" := by
  unfold store
  cases s.backend with
  | none => simp
  | some b =>
    simp only [Option.some.injEq]
    constructor
    · intro h
      by_cases h1 : b.type = str "memory"
      · rw [if_pos h1] at h; cases h
      · by_cases h2 : b.type = str "redis"
        · rw [if_neg h1, if_pos h2] at h; cases h
        · exact ⟨b, rfl, h1, h2⟩
    · rintro ⟨_, rfl, h1, h2⟩
      rw [if_neg h1, if_neg h2]

/-- **C98.** Lists are reloaded every so many seconds as their section says: `refresh` in a blocklist section, `blocklist-refresh` in the others, and `allowlist-refresh` for the
allowlist of a blocklist-v2. -/
theorem refresh_as_configured (s : Section) :
    (Seconds s.refresh → blocklistRefresh s .blocklist = s.refresh * 1000000000) ∧
    (Seconds s.blocklistRefresh → ∀ k, k ≠ .blocklist → blocklistRefresh s k = s.blocklistRefresh * 1000000000) ∧
    (Seconds s.allowlistRefresh → allowlistRefresh s .blocklistV2 = s.allowlistRefresh * 1000000000) := by
  refine ⟨dur_sec _, fun h k hk => ?_, dur_sec _⟩
  cases k with
  | blocklist => exact absurd rfl hk
  | _ => exact dur_sec _ h

/-- **C98.** A fastest-tcp group probes the port in its section, 443 if there is none. -/
theorem port_as_configured (s : Section) : (s.port = 0 → probePort s = 443) ∧ (s.port ≠ 0 → probePort s = s.port) :=
  ⟨fun h => if_pos h, fun h => if_neg h⟩

/-- **C98.** A prefetch group repeats a query only after `prefetch-threshold` queries (5) with less than `prefetch-window` (an hour) between them. Here windows of whole seconds. -/
theorem prefetch_as_configured (s : Section) (w : Int) (hw : s.prefetchWindow = w * 1000000000) (keyOf : Msg → Str) (o : Prefetch.Options)
    (ho : (prefetch s).window = o.window * 1000000000 ∧ (prefetch s).threshold = o.threshold) (evs : List Prefetch.Ev) (k : Str) (up : Res) (now : Int) (q : Msg)
    (h : (Prefetch.step keyOf o (Prefetch.run keyOf o evs) (.expired k up now)).2 = some q) :
    ∃ ts last, List.Sublist ts (Spec.Prefetch.asked keyOf k evs) ∧ orDefault s.prefetchThreshold 5 ≤ ts.length ∧ ts.getLast? = some last ∧
      Props.Prefetch.Dense (if w = 0 then 3600 else w) ts ∧ now < last.2 + if w = 0 then 3600 else w := by
  have e : o = Prefetch.Options.withDefaults ⟨w, s.prefetchThreshold⟩ := by
    obtain ⟨h1, h2⟩ := ho
    obtain ⟨ow, ot⟩ := o
    have : ow = if w = 0 then 3600 else w := by
      have h1 : (if s.prefetchWindow = 0 then 3600 * sec else s.prefetchWindow) = ow * 1000000000 := h1
      unfold sec at h1
      split at h1 <;> split <;> omega
    simp only [Prefetch.Options.withDefaults, Prefetch.Options.mk.injEq]
    exact ⟨this, h2.symm⟩
  rw [e] at h
  obtain ⟨_, ts, last, h1, h2, h3, h4, h5⟩ := Prefetch.prefetch_only_frequent keyOf _ evs k up now q h
  exact ⟨ts, last, h1, h2, h4, h3, h5⟩

/-- **C98.** A prefetch group keeps at most the number of queries and counters in its section; without `prefetch-cache-size`, three counters for each query. -/
theorem prefetch_sizes (s : Section) (h : InI64 (s.prefetchMaxItems * 3)) :
    (prefetch s).maxItems = s.prefetchMaxItems ∧ (s.prefetchCacheSize ≠ 0 → (prefetch s).cacheSize = s.prefetchCacheSize) ∧
    (s.prefetchCacheSize = 0 → (prefetch s).cacheSize = s.prefetchMaxItems * 3) :=
  ⟨rfl, fun h => if_neg h, fun h0 => (if_pos h0).trans (toI64_toU64 h)⟩

/-- **C98.** At most `lua-concurrency` scripts of a Lua group run at once (4). -/
theorem lua_as_configured {σ : Type} (s : Section) (c : Lua.Code σ) (x : Lua.Script σ) (es : List Lua.Ev) (y : Lua.Sys σ)
    (h : Lua.run c (Lua.start (luaConcurrency s) x) es = some y) : (Props.Lua.held y.queries).length ≤ orDefault s.luaConcurrency 4 := by
  have h1 := (Lua.lua_exclusive c (luaConcurrency s) x es y h).2
  have h2 : Props.Lua.count (luaConcurrency s) = orDefault s.luaConcurrency 4 := by
    unfold Props.Lua.count luaConcurrency orDefault; by_cases h : s.luaConcurrency = 0 <;> simp [h]
  omega

/-- Finding: a time that is too long wraps around: a penalty of 300 years is the same as none. -/
theorem penalty_wraps : ∃ s : Section, s.failurePenalty = 9467085600 ∧ failurePenalty s < 0 := ⟨{ failurePenalty := 9467085600 }, rfl, by decide⟩

/-- Finding: a backend section without a type is rejected, although the comment in cmd/routedns/config.go:92 says that the type defaults to memory. -/
theorem backend_without_type (s : Section) (b : Backend) (hb : s.backend = some b) (ht : b.type = []) : store s = none :=
  (cache_backends s).mpr ⟨b, hb, by rw [ht]; decide, by rw [ht]; decide⟩

section Examples

private def exS : Section := { requests := 2, prefix4 := 16, window := 10, failurePenalty := 5, gcPeriod := 7, port := 853, luaConcurrency := 2, refresh := 3600, prefetchMaxItems := 50 }
private def exB : Backend := { type := str "redis", address := str "10.0.0.1:6379", minRetryBackoff := -1, maxRetryBackoff := 100, keyPrefix := str "rdns:" }

example : Rate.run (rateLimiter exS) {} [(20, [10,0,0,1]), (21, [10,0,9,2]), (22, [10,0,5,1]), (30, [10,0,0,2])] = some [false, false, true, false] := by decide
example : Seconds exS.failurePenalty ∧ 0 < exS.failurePenalty := by unfold Seconds; decide
example : store exS = some (.memory ⟨0, 7000000000, [], 0⟩) := by decide
example : ∃ r, store { exS with backend := some exB } = some (.redis r) ∧ r.minRetryBackoff = -1 ∧ r.maxRetryBackoff = 100000000 := ⟨_, rfl, rfl, by decide⟩
example : blocklistRefresh exS .blocklist = 3600 * 1000000000 ∧ probePort exS = 853 ∧ (prefetch exS).cacheSize = 150 ∧ (prefetch exS).window = 3600 * 1000000000 := by decide

end Examples

end Verif.Props.Settings
