import Verif.Spec.Entries
import Verif.Props.Upkeep
/-
C92: the gauge `entries` of a cache.
-/
set_option linter.unusedSectionVars false
namespace Verif.Props.Entries
open Verif Verif.Entries Verif.Upkeep Verif.Spec.Entries Verif.CacheM
open Verif.Props.CacheLives (OkEv)
open Verif.Props.Upkeep (OkUse)

variable {H : Type} [DecidableEq H]

private theorem kstep_event {env : Env H} {m : Settings.Memory} {s s' : Kept H} {e : KEv H} (hok : OkUse env.ipStr e) (h : kstep env m s e = some s') :
    ∃ l : List (CacheLives.Ev H), (∀ x ∈ l, OkEv env.ipStr x ∧ ∀ h o c n, x ≠ .start h o c n) ∧ CacheLives.run env s.sys l = some s'.sys := by
  have one : ∀ (x : CacheLives.Ev H) (y : CacheLives.Sys H), CacheLives.step env s.sys x = some y → CacheLives.run env s.sys [x] = some y := by
    intro x y hx; simp [CacheLives.run, hx]
  cases e with
  | tick t => simp only [kstep] at h; split at h <;> cases h; exact ⟨[], by simp, rfl⟩
  | use e =>
    simp only [kstep] at h
    split at h
    · next hu =>
      simp only [Option.map_eq_some_iff] at h
      obtain ⟨x, h3, rfl⟩ := h
      refine ⟨[e], ?_, one _ _ h3⟩
      intro y hy
      rw [List.mem_singleton] at hy; subst hy
      exact ⟨hok _ rfl, by rintro a b c d rfl; cases hu⟩
    · cases h
  | gcWakes =>
    simp only [kstep] at h
    split at h
    · split at h <;> cases h
      exact ⟨[], by simp, rfl⟩
    · cases h
  | gcSweeps =>
    simp only [kstep] at h
    split at h
    · next g hg =>
      simp only [Option.map_eq_some_iff] at h
      obtain ⟨x, h3, rfl⟩ := h
      refine ⟨[.gc g], ?_, one _ _ h3⟩
      intro y hy
      rw [List.mem_singleton] at hy; subst hy
      exact ⟨⟨by simp, by simp, by simp, by simp⟩, by simp⟩
    · cases h
  | saveBegins =>
    simp only [kstep] at h
    split at h
    · split at h <;> cases h
      exact ⟨[], by simp, rfl⟩
    · cases h
  | saved =>
    simp only [kstep] at h
    split at h
    · simp only [Option.map_eq_some_iff] at h
      obtain ⟨x, h3, rfl⟩ := h
      refine ⟨[.save], ?_, one _ _ h3⟩
      intro y hy
      rw [List.mem_singleton] at hy; subst hy
      exact ⟨⟨by simp, by simp, by simp, by simp⟩, by simp⟩
    · cases h
  | saveFails =>
    simp only [kstep] at h
    split at h <;> cases h
    exact ⟨[], by simp, rfl⟩

private theorem run_append {env : Env H} {a b : List (CacheLives.Ev H)} : ∀ {s t u : CacheLives.Sys H}, CacheLives.run env s a = some t → CacheLives.run env t b = some u →
    CacheLives.run env s (a ++ b) = some u := by
  induction a with
  | nil => intro s t u h g; cases h; exact g
  | cons e a ih =>
    intro s t u h g
    simp only [CacheLives.run, Option.bind_eq_bind, Option.bind_eq_some_iff, List.cons_append] at h ⊢
    obtain ⟨x, hx, h⟩ := h
    exact ⟨x, hx, ih h g⟩

private theorem capacity_same (l : List (CacheLives.Ev H)) (hl : ∀ x ∈ l, ∀ h o c n, x ≠ .start h o c n) : ∀ (cap : Int) (hist : List (CacheLives.Ev H)),
    Spec.CacheLives.capacity cap (hist ++ l) = Spec.CacheLives.capacity cap hist := by
  have base : ∀ cap, Spec.CacheLives.capacity cap l = cap := by
    intro cap
    induction l with
    | nil => rfl
    | cons e l ih =>
      cases e with
      | start h o c n => exact absurd rfl (hl _ (by simp) h o c n)
      | _ => exact ih fun x hx => hl x (by simp [hx])
  intro cap hist
  induction hist generalizing cap with
  | nil => exact base cap
  | cons e hist ih => cases e <;> exact ih _

/-- Where the cache comes from. -/
private structure From (env : Env H) (hash : LruKey → H) (o : Opts) (cap : Int) (top : Int) (s : CacheLives.Sys H) : Prop where
  from_ : ∃ hist, (∀ e ∈ hist, OkEv env.ipStr e) ∧ CacheLives.run env (CacheLives.first hash o cap) hist = some s ∧ Spec.CacheLives.capacity cap hist = top

private theorem From.step {env : Env H} {hash : LruKey → H} {o : Opts} {cap top : Int} {m : Settings.Memory} {s s' : Kept H} {e : KEv H} (hs : From env hash o cap top s.sys)
    (hok : OkUse env.ipStr e) (h : kstep env m s e = some s') : From env hash o cap top s'.sys := by
  obtain ⟨hist, h1, h2, h3⟩ := hs.from_
  obtain ⟨l, g1, g2⟩ := kstep_event hok h
  refine ⟨hist ++ l, ?_, run_append h2 g2, by rw [capacity_same l (fun x hx => (g1 x hx).2), h3]⟩
  intro x hx
  rcases List.mem_append.mp hx with hx | hx
  · exact h1 x hx
  · exact (g1 x hx).1

private theorem mapM_length {α β : Type} {f : α → Option β} : ∀ {l : List α} {l' : List β}, l.mapM f = some l' → l'.length = l.length
  | [], l', h => by cases h; rfl
  | a :: l, l', h => by
    simp only [List.mapM_cons, Option.bind_eq_bind, Option.bind_eq_some_iff, Option.pure_def, Option.some.injEq] at h
    obtain ⟨b, -, t, ht, rfl⟩ := h
    simp [mapM_length ht]

private theorem From.size {env : Env H} {hash : LruKey → H} {o : Opts} (ho : o.negativeTTL ≤ 4294967295) {cap top : Int} {s : CacheLives.Sys H} (hs : From env hash o cap top s) :
    ∃ recs, saveFile s.cache = some recs ∧ Lru.size s.cache = recs.length ∧ (0 < top → (recs.length : Int) ≤ top) := by
  obtain ⟨hist, h1, h2, h3⟩ := hs.from_
  obtain ⟨_, es, hi⟩ := Props.CacheLives.reached_inv ho h1 h2
  obtain ⟨refs, hr⟩ := hi.rep
  obtain ⟨recs, g1, -⟩ := Props.CacheLives.save_good hi
  have hlen : recs.length = es.length := by
    have := g1
    simp only [saveFile, hr.serialize_ok, Option.bind_eq_bind, Option.bind_some] at this
    simpa using mapM_length this
  refine ⟨recs, g1, ?_, ?_⟩
  · have a := hr.idx.length_eq
    have b := congrArg List.length hr.pay
    simp only [List.length_map, List.length_zip] at a b
    simp only [Lru.size]
    omega
  · intro ht
    obtain ⟨s', k1, k2⟩ := Props.CacheLives.within_capacity env hash o ho cap hist h1 (by rw [h3]; exact ht)
    have : CacheLives.run env (CacheLives.first hash o cap) (hist ++ [.save]) = some { s with file := recs } :=
      run_append h2 (by simp [CacheLives.run, CacheLives.step, g1])
    rw [this] at k1; cases k1
    rw [h3] at k2
    exact k2

private theorem wrun_cons {env : Env H} {m : Settings.Memory} {s s' : Watched H} {e : WEv H} {es : List (WEv H)} (h : wrun env m s (e :: es) = some s') :
    ∃ s1, wstep env m s e = some s1 ∧ wrun env m s1 es = some s' := by
  simp only [wrun, Option.bind_eq_some_iff] at h
  exact h

private theorem wrun_append {env : Env H} {m : Settings.Memory} {a b : List (WEv H)} : ∀ {s s1 : Watched H}, wrun env m s a = some s1 → wrun env m s (a ++ b) = wrun env m s1 b := by
  induction a with
  | nil => intro s s1 h; cases h; rfl
  | cons e a ih =>
    intro s s1 h
    obtain ⟨s2, h1, h2⟩ := wrun_cons h
    simp only [List.cons_append, wrun, h1, Option.bind_some]
    exact ih h2

/-- Queries are well-formed, and the clock is sane. -/
def OkW (ipStr : Str → Str) (e : WEv H) : Prop := ∀ x, e = .other x → OkUse ipStr x

/-- `n` was the number of entries at the time `x`. -/
private def At (env : Env H) (m : Settings.Memory) (k0 : Watched H) (pre : List (WEv H)) (x n : Int) : Prop :=
  ∃ es1 es2 s1, pre = es1 ++ es2 ∧ wrun env m k0 es1 = some s1 ∧ s1.kept.now = x ∧ Has s1 n

private theorem At.more {env : Env H} {m : Settings.Memory} {k0 : Watched H} {pre : List (WEv H)} {x n : Int} (h : At env m k0 pre x n) (e : WEv H) : At env m k0 (pre ++ [e]) x n := by
  obtain ⟨es1, es2, s1, h1, h2⟩ := h
  exact ⟨es1, es2 ++ [e], s1, by rw [h1]; simp, h2⟩

private structure GInv (env : Env H) (m : Settings.Memory) (d t0 top : Int) (hash : LruKey → H) (o : Opts) (cap : Int) (k0 : Watched H) (pre : List (WEv H)) (s : Watched H) : Prop where
  run : wrun env m k0 pre = some s
  src : From env hash o cap top s.kept.sys
  late : (∀ u, s.watch = .asleep u → s.kept.now ≤ u + d) ∧ ∀ w n, s.watch = .measured w n → w ≤ s.kept.now ∧ s.kept.now ≤ w + d ∧ At env m k0 pre w n
  small : 0 < top → s.gauge ≤ top ∧ ∀ w n, s.watch = .measured w n → (n : Int) ≤ top
  gauge : (s.gauge = 0 ∧ (∀ u, s.watch = .asleep u → u = t0 + minute) ∧ ∀ w n, s.watch = .measured w n → w ≤ t0 + minute + d) ∨
    ∃ x, At env m k0 pre x s.gauge ∧ x ≤ s.kept.now ∧ (∀ u, s.watch = .asleep u → u ≤ x + d + minute) ∧ ∀ w n, s.watch = .measured w n → w ≤ x + 2 * d + minute

private theorem kstep_now {env : Env H} {m : Settings.Memory} {s s' : Kept H} {e : KEv H} (h : kstep env m s e = some s') : s'.now = s.now ∨ ∃ t, e = .tick t ∧ s'.now = t ∧ s.now < t := by
  cases e with
  | tick t =>
    simp only [kstep] at h
    split at h
    · next ht => cases h; exact Or.inr ⟨t, rfl, rfl, ht⟩
    · cases h
  | use e =>
    simp only [kstep] at h
    split at h
    · simp only [Option.map_eq_some_iff] at h
      obtain ⟨x, -, rfl⟩ := h
      exact Or.inl rfl
    · cases h
  | gcWakes =>
    simp only [kstep] at h
    split at h
    · split at h <;> cases h
      exact Or.inl rfl
    · cases h
  | gcSweeps =>
    simp only [kstep] at h
    split at h
    · simp only [Option.map_eq_some_iff] at h
      obtain ⟨x, -, rfl⟩ := h
      exact Or.inl rfl
    · cases h
  | saveBegins =>
    simp only [kstep] at h
    split at h
    · split at h <;> cases h
      exact Or.inl rfl
    · cases h
  | saved =>
    simp only [kstep] at h
    split at h
    · simp only [Option.map_eq_some_iff] at h
      obtain ⟨x, -, rfl⟩ := h
      exact Or.inl rfl
    · cases h
  | saveFails =>
    simp only [kstep] at h
    split at h <;> cases h
    exact Or.inl rfl

private theorem ginv_run {env : Env H} {m : Settings.Memory} {d t0 top : Int} {hash : LruKey → H} {o : Opts} (ho : o.negativeTTL ≤ 4294967295) {cap : Int} (hd : 0 ≤ d) {k0 : Watched H}
    {es : List (WEv H)} : ∀ {pre : List (WEv H)} {s s' : Watched H}, GInv env m d t0 top hash o cap k0 pre s → (∀ e ∈ es, OkW env.ipStr e) → WOnTime env d m s es →
      wrun env m s es = some s' → GInv env m d t0 top hash o cap k0 (pre ++ es) s' := by
  have hmin : minute = 60000000000 := rfl
  induction es with
  | nil => intro pre s s' h _ _ hr; cases hr; simpa using h
  | cons e es ih =>
    intro pre s s' h hok hon hr
    obtain ⟨s1, h1, h2⟩ := wrun_cons hr
    have happ : pre ++ e :: es = (pre ++ [e]) ++ es := by simp
    rw [happ]
    refine ih ?_ (fun x hx => hok x (by simp [hx])) (hon.2 s1 h1) h2
    have hrun : wrun env m k0 (pre ++ [e]) = some s1 := by rw [wrun_append h.run]; simp [wrun, h1]
    cases e with
    | other e =>
      simp only [wstep, Option.map_eq_some_iff] at h1
      obtain ⟨k, h3, rfl⟩ := h1
      have hnow : s.kept.now ≤ k.now ∧ (∀ u, s.watch = .asleep u → k.now ≤ u + d) ∧ ∀ w n, s.watch = .measured w n → k.now ≤ w + d := by
        rcases kstep_now h3 with g | ⟨t, rfl, g, g'⟩
        · rw [g]; exact ⟨Int.le_refl _, h.late.1, fun w n hw => (h.late.2 w n hw).2.1⟩
        · rw [g]; exact ⟨Int.le_of_lt g', (hon.1 t rfl).1, (hon.1 t rfl).2⟩
      refine ⟨hrun, h.src.step (hok _ (by simp) _ rfl) h3, ⟨hnow.2.1, ?_⟩, h.small, ?_⟩
      · intro w n hw
        obtain ⟨a, _, b⟩ := h.late.2 w n hw
        exact ⟨Int.le_trans a hnow.1, hnow.2.2 w n hw, b.more _⟩
      · rcases h.gauge with g | ⟨x, g1, g2, g3⟩
        · exact Or.inl g
        · exact Or.inr ⟨x, g1.more _, Int.le_trans g2 hnow.1, g3⟩
    | measure =>
      simp only [wstep] at h1
      split at h1
      · next u hu =>
        split at h1 <;> cases h1
        obtain ⟨recs, r1, r2, r3⟩ := h.src.size ho
        have hl := h.late.1 u hu
        refine ⟨hrun, h.src, ⟨by simp, ?_⟩, ?_, ?_⟩
        · intro w n hw
          cases hw
          refine ⟨Int.le_refl _, by show s.kept.now ≤ s.kept.now + d; omega, pre, [.measure], s, rfl, h.run, rfl, recs, r1, by rw [r2]⟩
        · intro ht
          refine ⟨(h.small ht).1, ?_⟩
          intro w n hw
          cases hw
          rw [r2]; exact r3 ht
        · rcases h.gauge with ⟨g1, g2, _⟩ | ⟨x, g1, g2, g3, _⟩
          · have := g2 u hu
            exact Or.inl ⟨g1, by simp, fun w n hw => by cases hw; omega⟩
          · have := g3 u hu
            exact Or.inr ⟨x, g1.more _, g2, by simp, fun w n hw => by cases hw; omega⟩
      · cases h1
    | emit =>
      simp only [wstep] at h1
      split at h1
      · next w n hw =>
        cases h1
        obtain ⟨a, b, c⟩ := h.late.2 w n hw
        refine ⟨hrun, h.src, ⟨fun u hu => ?_, by simp⟩, fun ht => ⟨(h.small ht).2 w n hw, by simp⟩, Or.inr ⟨w, c.more _, a, fun u hu => ?_, by simp⟩⟩
        · cases hu; show s.kept.now ≤ s.kept.now + minute + d; omega
        · cases hu; show s.kept.now + minute ≤ w + d + minute; omega
      · cases h1

private theorem reach (env : Env H) (hash : LruKey → H) (o : Opts) (ho : o.negativeTTL ≤ 4294967295) (cap : Int) (hist : List (CacheLives.Ev H)) (s0 : CacheLives.Sys H)
    (hhist : ∀ e ∈ hist, OkEv env.ipStr e) (h0 : CacheLives.run env (CacheLives.first hash o cap) hist = some s0)
    (m : Settings.Memory) (d t0 : Int) (hd : 0 ≤ d) (es : List (WEv H)) (hok : ∀ e ∈ es, OkW env.ipStr e) (s : Watched H)
    (h : wrun env m (startWatch (startCache m t0 s0)) es = some s) (hon : WOnTime env d m (startWatch (startCache m t0 s0)) es) :
    GInv env m d t0 (Spec.CacheLives.capacity cap hist) hash o cap (startWatch (startCache m t0 s0)) es s := by
  have hmin : minute = 60000000000 := rfl
  have hi : GInv env m d t0 (Spec.CacheLives.capacity cap hist) hash o cap (startWatch (startCache m t0 s0)) [] (startWatch (startCache m t0 s0)) := by
    refine ⟨rfl, ⟨hist, hhist, h0, rfl⟩, ⟨?_, by simp [startWatch]⟩, fun ht => ⟨?_, by simp [startWatch]⟩, Or.inl ⟨rfl, ?_, by simp [startWatch]⟩⟩
    · intro u hu; cases hu; show t0 ≤ t0 + minute + d; omega
    · show (0 : Int) ≤ _; omega
    · intro u hu; cases hu; rfl
  simpa using ginv_run ho hd hi hok hon h

/-- C92: from a minute after the start on, `entries` is the number of entries that the cache had at some moment not longer than a minute ago, plus three times the longest delay `d`. -/
theorem entries_fresh (env : Env H) (hash : LruKey → H) (o : Opts) (ho : o.negativeTTL ≤ 4294967295) (cap : Int) (hist : List (CacheLives.Ev H)) (s0 : CacheLives.Sys H)
    (hhist : ∀ e ∈ hist, OkEv env.ipStr e) (h0 : CacheLives.run env (CacheLives.first hash o cap) hist = some s0)
    (m : Settings.Memory) (d t0 : Int) (hd : 0 ≤ d) (es : List (WEv H)) (hok : ∀ e ∈ es, OkW env.ipStr e) (s : Watched H)
    (h : wrun env m (startWatch (startCache m t0 s0)) es = some s) (hon : WOnTime env d m (startWatch (startCache m t0 s0)) es)
    (hlate : t0 + 60000000000 + 2 * d < s.kept.now) :
    ∃ es1 es2 s1, es = es1 ++ es2 ∧ wrun env m (startWatch (startCache m t0 s0)) es1 = some s1 ∧ s.kept.now ≤ s1.kept.now + 60000000000 + 3 * d ∧ Has s1 s.gauge := by
  have hmin : minute = 60000000000 := rfl
  have hg := reach env hash o ho cap hist s0 hhist h0 m d t0 hd es hok s h hon
  rcases hg.gauge with ⟨_, a, b⟩ | ⟨x, ⟨es1, es2, s1, k1, k2, k3, k4⟩, a, b, c⟩
  · exfalso
    cases hw : s.watch with
    | asleep u => have := a u hw; have := hg.late.1 u hw; omega
    | measured w n => have := b w n hw; have := (hg.late.2 w n hw).2.1; omega
  · refine ⟨es1, es2, s1, k1, k2, ?_, k4⟩
    cases hw : s.watch with
    | asleep u => have := b u hw; have := hg.late.1 u hw; omega
    | measured w n => have := c w n hw; have := (hg.late.2 w n hw).2.1; omega

/-- C92: `entries` is 0, or the number of entries at some earlier moment; it is never more than the configured size of the cache. -/
theorem entries_real (env : Env H) (hash : LruKey → H) (o : Opts) (ho : o.negativeTTL ≤ 4294967295) (cap : Int) (hist : List (CacheLives.Ev H)) (s0 : CacheLives.Sys H)
    (hhist : ∀ e ∈ hist, OkEv env.ipStr e) (h0 : CacheLives.run env (CacheLives.first hash o cap) hist = some s0)
    (m : Settings.Memory) (d t0 : Int) (hd : 0 ≤ d) (es : List (WEv H)) (hok : ∀ e ∈ es, OkW env.ipStr e) (s : Watched H)
    (h : wrun env m (startWatch (startCache m t0 s0)) es = some s) (hon : WOnTime env d m (startWatch (startCache m t0 s0)) es) :
    (s.gauge = 0 ∨ ∃ es1 es2 s1, es = es1 ++ es2 ∧ wrun env m (startWatch (startCache m t0 s0)) es1 = some s1 ∧ Has s1 s.gauge) ∧
      (0 < Spec.CacheLives.capacity cap hist → s.gauge ≤ Spec.CacheLives.capacity cap hist) := by
  have hg := reach env hash o ho cap hist s0 hhist h0 m d t0 hd es hok s h hon
  refine ⟨?_, fun ht => (hg.small ht).1⟩
  rcases hg.gauge with ⟨a, _⟩ | ⟨x, ⟨es1, es2, s1, k1, k2, _, k4⟩, _⟩
  · exact Or.inl a
  · exact Or.inr ⟨es1, es2, s1, k1, k2, k4⟩

section Examples

private def exEnv : Env Nat where
  ipStr a := 49 :: a
  hash _ := 7
  encode m := some [m.rcode.toUInt8, (m.answer.map (fun r => r.ttl.toUInt8)).headD 0]
  decode w := match w with
    | [r, t] => some { rcode := r.toNat, response := true,
                       answer := if t = 0 then [] else [{ name := [97], rtype := 1, cls := 1, ttl := t.toNat, data := .a [1, 2, 3, 4] }] }
    | _ => none

private def exHash (k : LruKey) : Nat := k.name.length
private def exQ (name : String) : Msg := { id := 5, question := [{ name := str name, qtype := 1, qclass := 1 }] }
private def exA (ttl : Nat) : Msg := { response := true, answer := [{ name := [97], rtype := 1, cls := 1, ttl := ttl, data := .a [1, 2, 3, 4] }] }
private def exT : Int := 1700000000000000000
private def secs (n : Int) : Int := n * 1000000000
private def exM : Settings.Memory := ⟨10, secs 60, [], 0⟩

/-- Two responses are stored, of 20 and 200 seconds. After a minute there are two entries; then one of them is removed, which the gauge shows a minute later. -/
private def exRun : List (WEv Nat) :=
  [.other (.use (.store (exQ "a.b.") (exA 20) exT)), .other (.use (.store (exQ "c.") (exA 200) exT)), .other (.tick (exT + secs 60)), .measure, .other .gcWakes, .other .gcSweeps, .emit,
    .other (.tick (exT + secs 61))]
private def exLater : List (WEv Nat) := [.other (.tick (exT + secs 120)), .measure, .emit, .other (.tick (exT + secs 121))]

private def exStart : Watched Nat := startWatch (startCache exM exT (CacheLives.first exHash {} 10))

example : (wrun exEnv exM exStart exRun).map (fun s => (s.gauge, (saveFile s.kept.sys.cache).map List.length)) = some (2, some 1) := by decide
example : (wrun exEnv exM exStart (exRun ++ exLater)).map (fun s => (s.gauge, (saveFile s.kept.sys.cache).map List.length)) = some (1, some 1) := by decide

private def onTime (d : Int) : Watched Nat → List (WEv Nat) → Bool
  | _, [] => true
  | s, e :: es => (match e with
      | .other (.tick t) => (match s.watch with | .asleep u => decide (t ≤ u + d) | .measured w _ => decide (t ≤ w + d))
      | _ => true) && (match wstep exEnv exM s e with | some s' => onTime d s' es | none => true)

private theorem onTime_sound {d : Int} {es : List (WEv Nat)} : ∀ {s : Watched Nat}, onTime d s es = true → WOnTime exEnv d exM s es := by
  induction es with
  | nil => intro _ _; trivial
  | cons e es ih =>
    intro s h
    simp only [onTime, Bool.and_eq_true] at h
    obtain ⟨h1, h2⟩ := h
    refine ⟨?_, ?_⟩
    · rintro t rfl
      refine ⟨fun u hu => ?_, fun w n hw => ?_⟩
      · simpa [hu] using h1
      · simpa [hw] using h1
    · intro s' hs
      rw [hs] at h2
      exact ih h2

example : WOnTime exEnv 0 exM exStart (exRun ++ exLater) := onTime_sound (by decide)

example : ∀ e ∈ exRun ++ exLater, OkW exEnv.ipStr e := by
  intro e he y hy x hx
  subst hy; subst hx
  have hw : ∀ n, Props.Cache.WellFormed exEnv.ipStr (exQ n) := fun n => ⟨by simp [exQ], by simp [exQ], by intro x hx; simp [Spec.Cache.subnet, exQ, Msg.edns?] at hx⟩
  simp only [exRun, exLater, List.cons_append, List.nil_append, List.mem_cons, List.not_mem_nil, or_false, WEv.other.injEq, KEv.use.injEq, reduceCtorEq, false_or] at he
  have ht : Props.Cache.SaneTime exT := by unfold Props.Cache.SaneTime exT; omega
  rcases he with rfl | rfl <;> exact ⟨fun _ _ _ h => by cases h; exact ⟨hw _, ht⟩, by simp, by simp, by simp⟩

end Examples

end Verif.Props.Entries
