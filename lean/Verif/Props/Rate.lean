/-
C21: rate limiting.
-/
import Verif.Model.Rate
import Verif.Spec.Rate
import Verif.Lemmas.Net
namespace Verif.Props.Rate
open Verif Verif.Net Verif.Rate Verif.Spec.Rate

private theorem ipMask_v4 (ip b : Str) (p : Nat) (hp : p ≤ 32) (h : to4 ip = some b) :
    b.length = 4 ∧ ipMask ip (cidrMask p 4) = List.zipWith (· &&& ·) b (cidrMaskBytes b.length p) := by
  have hm : cidrMask p 4 = cidrMaskBytes 4 p := by unfold cidrMask; rw [if_neg (by omega)]
  unfold to4 at h
  split at h
  · next h4 =>
    simp only [Option.some.injEq] at h; subst h
    refine ⟨h4, ?_⟩
    unfold ipMask
    simp only [hm, cidrMaskBytes_length, h4]
    simp [h4]
  · split at h
    · next h16 =>
      simp only [Option.some.injEq] at h; subst h
      have hl : (ip.drop 12).length = 4 := by simp [h16.1]
      refine ⟨hl, ?_⟩
      unfold ipMask
      simp only [hm, cidrMaskBytes_length, hl, h16.1, h16.2]
      simp [hl]
    · cases h

private theorem ipMask_v6 (ip : Str) (p : Nat) (hp : p ≤ 128) (h : to4 ip = none) :
    ipMask ip (cidrMask p 16) = if ip.length = 16 then List.zipWith (· &&& ·) ip (cidrMaskBytes ip.length p) else [] := by
  have hm : cidrMask p 16 = cidrMaskBytes 16 p := by unfold cidrMask; rw [if_neg (by omega)]
  have h4 : ip.length ≠ 4 := by
    intro h4; unfold to4 at h; rw [if_pos h4] at h; cases h
  unfold ipMask
  simp only [hm, cidrMaskBytes_length, h4]
  simp
  by_cases h : ip.length = 16 <;> simp [h]

/-- C21: two addresses are counted together exactly if they are in the same network. -/
theorem rate_same_network (o : Options) (h4 : o.prefix4 ≤ 32) (h6 : o.prefix6 ≤ 128) (a b : Str) :
    key o a = key o b ↔ network o.prefix4 o.prefix6 a = network o.prefix4 o.prefix6 b := by
  unfold key network
  cases ha : to4 a with
  | some x =>
    obtain ⟨hx, hx2⟩ := ipMask_v4 a x _ h4 ha
    cases hb : to4 b with
    | some y =>
      obtain ⟨hy, hy2⟩ := ipMask_v4 b y _ h4 hb
      simp only [hx2, hy2]
      rw [mask_eq_iff x y _ (by omega)]
      simp
    | none =>
      simp only [hx2, ipMask_v6 b _ h6 hb]
      constructor
      · intro h
        have hl := congrArg List.length h
        split at hl
        · next h16 => simp [hx, h16] at hl
        · simp [hx] at hl
      · intro h; split at h <;> simp at h
  | none =>
    cases hb : to4 b with
    | some y =>
      obtain ⟨hy, hy2⟩ := ipMask_v4 b y _ h4 hb
      simp only [hy2, ipMask_v6 a _ h6 ha]
      constructor
      · intro h
        have hl := congrArg List.length h
        split at hl
        · next h16 => simp [hy, h16] at hl
        · simp [hy] at hl
      · intro h; split at h <;> simp at h
    | none =>
      simp only [ipMask_v6 a _ h6 ha, ipMask_v6 b _ h6 hb]
      by_cases h1 : a.length = 16
      · by_cases h2 : b.length = 16
        · rw [if_pos h1, if_pos h2, if_pos h1, if_pos h2, mask_eq_iff a b _ (by omega)]; simp
        · rw [if_pos h1, if_neg h2, if_pos h1, if_neg h2]
          constructor
          · intro h; have := congrArg List.length h; simp [h1] at this
          · intro h; simp at h
      · by_cases h2 : b.length = 16
        · rw [if_neg h1, if_pos h2, if_neg h1, if_pos h2]
          constructor
          · intro h; have := congrArg List.length h; simp [h2] at this
          · intro h; simp at h
        · rw [if_neg h1, if_neg h2, if_neg h1, if_neg h2]; simp

private theorem lookup_filter (m : List (Str × Nat)) (k k' : Str) (h : k' ≠ k) :
    (m.filter (fun e => e.1 ≠ k)).lookup k' = m.lookup k' := by
  induction m with
  | nil => rfl
  | cons e m ih =>
    obtain ⟨a, n⟩ := e
    by_cases ha : a = k
    · subst ha
      simp only [List.filter_cons, ne_eq, not_true_eq_false, decide_false, Bool.false_eq_true, if_false, List.lookup_cons]
      have : (k' == a) = false := by simpa using h
      rw [this]; exact ih
    · simp only [List.filter_cons, ne_eq, ha, not_false_eq_true, decide_true, if_true, List.lookup_cons]
      cases k' == a with
      | true => rfl
      | false => exact ih

theorem count_bump (m : List (Str × Nat)) (k k' : Str) :
    count (bump m k) k' = count m k' + if k' = k then 1 else 0 := by
  unfold bump
  by_cases h : k' = k
  · subst h; simp [count]
  · rw [if_neg h]
    unfold count
    rw [List.lookup_cons]
    have : (k' == k) = false := by simpa using h
    rw [this]
    simp only
    rw [lookup_filter _ _ _ h]; rfl

/-- counters agree with the queries seen so far -/
private def Tracks (o : Options) (seen : List (Int × Str)) (s : State) : Prop :=
  ∃ m, s.counters = some m ∧ (∀ k, count m k = (seen.filter fun e => key o e.2 = k ∧ e.1 / o.window = s.currWinID).length) ∧
    (∀ e, e ∈ seen → e.1 / o.window ≤ s.currWinID) ∧ ∃ e, e ∈ seen ∧ e.1 / o.window = s.currWinID

/-- The verdict on each query, from the queries before it. -/
def verdicts (o : Options) : List (Int × Str) → List (Int × Str) → List Bool
  | _, [] => []
  | seen, q :: qs => decide (o.requests ≤ before o.window o.prefix4 o.prefix6 seen q) :: verdicts o (seen ++ [q]) qs

private theorem step_tracks (o : Options) (hw : 0 < o.window) (h4 : o.prefix4 ≤ 32) (h6 : o.prefix6 ≤ 128)
    (seen : List (Int × Str)) (s : State) (q : Int × Str)
    (hs : Tracks o seen s ∨ (seen = [] ∧ s = {} ∧ q.1 / o.window ≠ 0)) (h0 : 0 ≤ q.1)
    (hmono : ∀ e, e ∈ seen → e.1 ≤ q.1) :
    ∃ s', step o s q.1 q.2 = some (s', decide (o.requests ≤ before o.window o.prefix4 o.prefix6 seen q)) ∧
      Tracks o (seen ++ [q]) s' := by
  have hdiv : q.1.tdiv o.window = q.1 / o.window := Int.tdiv_eq_ediv_of_nonneg h0
  have hle : ∀ e, e ∈ seen → e.1 / (o.window : Int) ≤ q.1 / o.window := fun e he =>
    Int.ediv_le_ediv (by omega) (hmono e he)
  have hnet : ∀ a b : Str, key o a = key o b ↔ network o.prefix4 o.prefix6 a = network o.prefix4 o.prefix6 b := rate_same_network o h4 h6
  have hbefore : before o.window o.prefix4 o.prefix6 seen q
      = (seen.filter fun e => key o e.2 = key o q.2 ∧ e.1 / o.window = q.1 / o.window).length := by
    unfold before
    congr 1
    apply List.filter_congr
    intro e _
    simp only [hnet]
  have happ : ∀ (w : Int) (k : Str), q.1 / o.window = w →
      ((seen ++ [q]).filter fun e => key o e.2 = k ∧ e.1 / o.window = w).length
        = (seen.filter fun e => key o e.2 = k ∧ e.1 / o.window = w).length + if k = key o q.2 then 1 else 0 := by
    intro w k hw
    rw [List.filter_append, List.length_append]
    congr 1
    by_cases hk : k = key o q.2
    · subst hk; simp [hw]
    · have : key o q.2 ≠ k := fun h => hk h.symm
      simp [hk, this]
  have hlast : ∀ e, e ∈ seen ++ [q] → e.1 / (o.window : Int) ≤ q.1 / o.window := by
    intro e he
    rcases List.mem_append.mp he with he | he
    · exact hle e he
    · rw [List.mem_singleton] at he; subst he; exact Int.le_refl _
  unfold step
  simp only [hdiv]
  by_cases hwin : q.1 / o.window = s.currWinID
  · rw [if_neg (by simpa using hwin)]
    rcases hs with ⟨m, hm, hc, hb, hx⟩ | ⟨_, hs, hne⟩
    · rw [hm]
      simp only
      refine ⟨{ s with counters := some (bump m (key o q.2)) }, ?_, bump m (key o q.2), rfl, ?_, ?_, q, by simp, hwin⟩
      · rw [hbefore, hc, hwin]
      · intro k
        rw [count_bump, hc, happ _ _ hwin]
      · intro e he
        rw [← hwin]; exact hlast e he
    · subst hs; exact absurd hwin hne
  · rw [if_pos (by simpa using hwin)]
    simp only
    have hempty : ∀ k, (seen.filter fun e => key o e.2 = k ∧ e.1 / o.window = q.1 / o.window) = [] := by
      intro k
      rw [List.filter_eq_nil_iff]
      intro e he
      rcases hs with ⟨m, hm, hc, hb, hx⟩ | ⟨hs, _⟩
      · have h1 := hb e he
        obtain ⟨e1, he1, hw1⟩ := hx
        have h2 := hle e1 he1
        have : e.1 / (o.window : Int) ≠ q.1 / o.window := by
          intro h
          exact hwin (Int.le_antisymm (h ▸ h1) (hw1 ▸ h2))
        simp [this]
      · subst hs; cases he
    refine ⟨{ currWinID := q.1 / o.window, counters := some (bump [] (key o q.2)) }, ?_, bump [] (key o q.2), rfl, ?_, ?_, q, by simp, rfl⟩
    · rw [hbefore, hempty]; rfl
    · intro k
      rw [count_bump, happ _ _ rfl, hempty]; rfl
    · exact hlast

private theorem run_tracks (o : Options) (hw : 0 < o.window) (h4 : o.prefix4 ≤ 32) (h6 : o.prefix6 ≤ 128) :
    ∀ (qs seen : List (Int × Str)) (s : State),
    (Tracks o seen s ∨ (seen = [] ∧ s = {} ∧ ∀ q, q ∈ qs.head? → q.1 / o.window ≠ 0)) →
    (∀ q, q ∈ qs → 0 ≤ q.1) → (∀ e, e ∈ seen → ∀ q, q ∈ qs → e.1 ≤ q.1) → qs.Pairwise (fun a b => a.1 ≤ b.1) →
    run o s qs = some (verdicts o seen qs) := by
  intro qs
  induction qs with
  | nil => intros; rfl
  | cons q qs ih =>
    intro seen s hs h0 hmono hp
    rw [List.pairwise_cons] at hp
    obtain ⟨s', h1, h2⟩ := step_tracks o hw h4 h6 seen s q
      (hs.imp id fun ⟨a, b, c⟩ => ⟨a, b, c q rfl⟩) (h0 q (by simp)) (fun e he => hmono e he q (by simp))
    have h3 := ih (seen ++ [q]) s' (Or.inl h2) (fun x hx => h0 x (by simp [hx])) (by
      intro e he x hx
      rcases List.mem_append.mp he with he | he
      · exact hmono e he x (by simp [hx])
      · rw [List.mem_singleton] at he; subst he; exact hp.1 x hx) hp.2
    unfold run
    obtain ⟨t, ip⟩ := q
    simp only [h1, h3, verdicts]

/-- C21: with a clock that does not run backwards, a query is rejected exactly if at least `requests` earlier queries came from the same
network in the same window; rejected queries count too. -/
theorem rate_limit_exact (o : Options) (hw : 0 < o.window) (h4 : o.prefix4 ≤ 32) (h6 : o.prefix6 ≤ 128) (qs : List (Int × Str))
    (h0 : ∀ q, q ∈ qs → (o.window : Int) ≤ q.1) (hp : qs.Pairwise (fun a b => a.1 ≤ b.1)) :
    ∃ bs, run o {} qs = some bs ∧ bs.length = qs.length ∧
      ∀ (i : Nat) (q : Int × Str), qs[i]? = some q →
        bs[i]? = some (decide (o.requests ≤ before o.window o.prefix4 o.prefix6 (qs.take i) q)) := by
  have hv : ∀ (qs seen : List (Int × Str)), (verdicts o seen qs).length = qs.length ∧
      ∀ (i : Nat) (q : Int × Str), qs[i]? = some q →
        (verdicts o seen qs)[i]? = some (decide (o.requests ≤ before o.window o.prefix4 o.prefix6 (seen ++ qs.take i) q)) := by
    intro qs
    induction qs with
    | nil => intro seen; exact ⟨rfl, by simp⟩
    | cons a qs ih =>
      intro seen
      obtain ⟨h1, h2⟩ := ih (seen ++ [a])
      refine ⟨by simp [verdicts, h1], ?_⟩
      intro i q hi
      cases i with
      | zero => simp at hi; subst hi; simp [verdicts]
      | succ i =>
        simp only [List.getElem?_cons_succ] at hi
        have h3 := h2 i q hi
        rw [List.append_assoc] at h3
        exact h3
  refine ⟨verdicts o [] qs, ?_, (hv qs []).1, by simpa using (hv qs []).2⟩
  refine run_tracks o hw h4 h6 qs [] {} (Or.inr ⟨rfl, rfl, ?_⟩) (fun q hq => by have := h0 q hq; omega) (by simp) hp
  intro q hq
  have hm : q ∈ qs := List.mem_of_mem_head? hq
  have h1 := h0 q hm
  have h2 : (1 : Int) ≤ q.1 / o.window := Int.le_ediv_of_mul_le (by omega) (by omega)
  omega

private def o1 : Options := Options.withDefaults ⟨1, 0, 0, 0⟩

/-- two clients of one /24, another /24, then the next window -/
example : run o1 {} [(60, [10,0,0,1]), (61, [10,0,0,2]), (62, [10,0,1,1]), (120, [10,0,0,2])] = some [false, true, false, false] := by decide

/-- C21: the defaults satisfy the hypotheses of `rate_limit_exact`. -/
theorem rate_defaults (n : Nat) : let o := Options.withDefaults ⟨n, 0, 0, 0⟩
    o.window = 60 ∧ o.prefix4 = 24 ∧ o.prefix6 = 56 ∧ o.requests = n := ⟨rfl, rfl, rfl, rfl⟩

/-- C21: only rejected queries are kept from the resolver, and these go to the limit resolver if there is one. -/
theorem rate_dest (l r : Bool) : (dest l r = .resolver ↔ r = false) ∧ (dest l r = .limitResolver ↔ r = true ∧ l = true) ∧
    (dest l r = .dropped ↔ r = true ∧ l = false) := by
  cases l <;> cases r <;> decide

/-- Finding: if the clock steps back over a window boundary and forward again, the count starts over, so a network gets more than the limit. -/
theorem rate_backwards_clock : run o1 {} [(120, [10,0,0,1]), (119, [10,0,0,1]), (120, [10,0,0,1])] = some [false, false, false] ∧
    before 60 24 56 [(120, [10,0,0,1]), (119, [10,0,0,1])] (120, [10,0,0,1]) = 1 := by decide

/-- Finding: in the very first window since the epoch the counters are still a nil map, and the query panics. -/
theorem rate_nil_map : run o1 {} [(59, [10,0,0,1])] = none := by decide

/-- Finding: an IPv4 prefix length above 32 is accepted and puts all IPv4 clients in one network. -/
theorem rate_prefix_too_long (o : Options) (h : 32 < o.prefix4) (a b : Str) (ha : a.length = 4) (hb : b.length = 4) :
    key o a = key o b := by
  have hm : cidrMask o.prefix4 4 = [] := by unfold cidrMask; rw [if_pos (by omega)]
  unfold key to4
  rw [if_pos ha, if_pos hb]
  simp [hm, ipMask, ha, hb]

end Verif.Props.Rate
