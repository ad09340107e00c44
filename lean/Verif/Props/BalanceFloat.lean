import Verif.Model.BalanceFloat
import Verif.Props.Float64
/-
C105: load balancing in floating point.
-/
namespace Verif.Props.BalanceFloat
open Verif Verif.Float64 Verif.BalanceFloat Verif.Props.Float64

variable {rnd : ℚ → ℚ} (hr : Nearest rnd)
include hr

/-! ### The constants -/

/-- **C105.** 0.1 and 1 - 0.1 as `float64`: their sum is a little more than 1. -/
theorem constants : alpha rnd = 3602879701896397 / 2 ^ 55 ∧ beta rnd = 8106479329266893 / 2 ^ 53 := by
  constructor
  · have hx : |(1 / 10 : ℚ)| ≤ 2 ^ 200 := by norm_num [abs_of_pos]
    have h1 := (hr _ hx).2 (3602879701896397 / 2 ^ 55) (by
      have := rep_mul 3602879701896397 (-55) (by norm_num) (by norm_num) (by norm_num)
      norm_num at this ⊢; exact this)
    have h2 := (hr _ hx).1
    unfold alpha
    generalize rnd (1 / 10) = a at *
    norm_num at h1
    have hb := abs_le.mp h1
    obtain ⟨k, hk⟩ := grain_above h2 (-4) (by norm_num; linarith [hb.1])
    norm_num at hk
    have h3 : (k : ℚ) < 7205759403792795 := by rw [hk] at hb; linarith [hb.2]
    have h4 : (7205759403792793 : ℚ) < k := by rw [hk] at hb; linarith [hb.1]
    have h5 : k = 7205759403792794 := by
      have : k < 7205759403792795 := by exact_mod_cast h3
      have : 7205759403792793 < k := by exact_mod_cast h4
      omega
    rw [hk, h5]; norm_num
  · have hx : |(1 - 1 / 10 : ℚ)| ≤ 2 ^ 200 := by norm_num [abs_of_pos]
    have h1 := (hr _ hx).2 (8106479329266893 / 2 ^ 53) (by
      have := rep_mul 8106479329266893 (-53) (by norm_num) (by norm_num) (by norm_num)
      norm_num at this ⊢; exact this)
    have h2 := (hr _ hx).1
    unfold beta
    generalize rnd (1 - 1 / 10) = a at *
    norm_num at h1
    have hb := abs_le.mp h1
    obtain ⟨k, hk⟩ := grain_above h2 (-1) (by norm_num; linarith [hb.1])
    norm_num at hk
    have h3 : (k : ℚ) < 8106479329266894 := by rw [hk] at hb; linarith [hb.2]
    have h4 : (8106479329266892 : ℚ) < k := by rw [hk] at hb; linarith [hb.1]
    have h5 : k = 8106479329266893 := by
      have : k < 8106479329266894 := by exact_mod_cast h3
      have : 8106479329266892 < k := by exact_mod_cast h4
      omega
    rw [hk, h5]; norm_num

/-- **C105.** The share of explorations: a random number is below 0.05 as a `float64`. -/
theorem exploration_share : exploration rnd = 3602879701896397 / 2 ^ 56 ∧ |exploration rnd - 1 / 20| < 1 / 2 ^ 57 := by
  have hx : |(1 / 20 : ℚ)| ≤ 2 ^ 200 := by norm_num [abs_of_pos]
  have h1 := (hr _ hx).2 (3602879701896397 / 2 ^ 56) (by
    have := rep_mul 3602879701896397 (-56) (by norm_num) (by norm_num) (by norm_num)
    norm_num at this ⊢; exact this)
  have h2 := (hr _ hx).1
  have hv : exploration rnd = 3602879701896397 / 2 ^ 56 := by
    unfold exploration
    generalize rnd (1 / 20) = a at *
    norm_num at h1
    have hb := abs_le.mp h1
    obtain ⟨k, hk⟩ := grain_above h2 (-5) (by norm_num; linarith [hb.1])
    norm_num at hk
    have h3 : (k : ℚ) < 7205759403792795 := by rw [hk] at hb; linarith [hb.2]
    have h4 : (7205759403792793 : ℚ) < k := by rw [hk] at hb; linarith [hb.1]
    have h5 : k = 7205759403792794 := by
      have : k < 7205759403792795 := by exact_mod_cast h3
      have : 7205759403792793 < k := by exact_mod_cast h4
      omega
    rw [hk, h5]; norm_num
  refine ⟨hv, ?_⟩
  rw [hv]; norm_num

/-! ### Averages -/

/-- The error of a product that may or may not be rounded. -/
private theorem near {x y : ℚ} (hx1 : 1 / 100 ≤ x) (hx2 : x ≤ 2 ^ 60) (h : y = rnd x ∨ y = x) :
    x * (1 - 1 / 2 ^ 53) ≤ y ∧ y ≤ x * (1 + 1 / 2 ^ 53) := by
  rcases h with rfl | rfl
  · have := (rnd_err hr (x := x) (le_trans (by norm_num) hx1) (le_trans hx2 (by norm_num))).2
    have := abs_le.mp this
    constructor <;> nlinarith [this.1, this.2]
  · constructor <;> nlinarith

omit hr in
private theorem blend_parts (f : Fused) (us old : ℚ) : ∃ p q, (p = rnd (alpha rnd * us) ∨ p = alpha rnd * us) ∧
    (q = rnd (beta rnd * old) ∨ q = beta rnd * old) ∧ blend rnd f us old = rnd (p + q) := by
  cases f
  · exact ⟨_, _, .inl rfl, .inl rfl, rfl⟩
  · exact ⟨_, _, .inr rfl, .inl rfl, rfl⟩
  · exact ⟨_, _, .inl rfl, .inr rfl, rfl⟩

/-- The new average is nearly the weighted mean. -/
private theorem blend_err (f : Fused) (us old : ℚ) (h1 : 1 ≤ us) (h2 : us ≤ 2 ^ 56) (h3 : 1 ≤ old) (h4 : old ≤ 2 ^ 56) :
    (alpha rnd * us + beta rnd * old) * (1 - 1 / 2 ^ 53) ^ 2 ≤ blend rnd f us old ∧
    blend rnd f us old ≤ (alpha rnd * us + beta rnd * old) * (1 + 1 / 2 ^ 53) ^ 2 ∧ 1 ≤ blend rnd f us old := by
  obtain ⟨p, q, hp, hq, he⟩ := blend_parts (rnd := rnd) f us old
  obtain ⟨ha, hb⟩ := constants hr
  rw [he]
  rw [ha] at hp ⊢
  rw [hb] at hq ⊢
  have a1 : (1 / 100 : ℚ) ≤ 3602879701896397 / 2 ^ 55 * us := by norm_num; linarith
  have a2 : 3602879701896397 / 2 ^ 55 * us ≤ 2 ^ 60 := by norm_num at h2 ⊢; linarith
  have b1 : (1 / 100 : ℚ) ≤ 8106479329266893 / 2 ^ 53 * old := by norm_num; linarith
  have b2 : 8106479329266893 / 2 ^ 53 * old ≤ 2 ^ 60 := by norm_num at h4 ⊢; linarith
  obtain ⟨p1, p2⟩ := near hr a1 a2 hp
  obtain ⟨q1, q2⟩ := near hr b1 b2 hq
  -- both are at least the constants
  have pa : 3602879701896397 / 2 ^ 55 ≤ p := by
    have hle : (3602879701896397 / 2 ^ 55 : ℚ) ≤ 3602879701896397 / 2 ^ 55 * us := by norm_num; linarith
    rcases hp with rfl | rfl
    · refine le_rnd hr ?_ ?_ ?_ hle
      · rw [abs_of_nonneg (by linarith)]; exact le_trans a2 (by norm_num)
      · rw [← ha]; exact rnd_rep hr (by norm_num [abs_of_pos])
      · norm_num [abs_of_pos]
    · exact hle
  have qb : 8106479329266893 / 2 ^ 53 ≤ q := by
    have hle : (8106479329266893 / 2 ^ 53 : ℚ) ≤ 8106479329266893 / 2 ^ 53 * old := by norm_num; linarith
    rcases hq with rfl | rfl
    · refine le_rnd hr ?_ ?_ ?_ hle
      · rw [abs_of_nonneg (by linarith)]; exact le_trans b2 (by norm_num)
      · rw [← hb]; exact rnd_rep hr (by norm_num [abs_of_pos])
      · norm_num [abs_of_pos]
    · exact hle
  have hone : 1 ≤ p + q := by norm_num at pa qb ⊢; linarith
  have hmax : p + q ≤ 2 ^ 60 := by norm_num at p2 q2 h2 h4 ⊢; linarith
  obtain ⟨r1, r2⟩ := near hr (x := p + q) (by linarith) hmax (.inl rfl)
  generalize 3602879701896397 / 2 ^ 55 * us = A at *
  generalize 8106479329266893 / 2 ^ 53 * old = B at *
  refine ⟨?_, ?_, ?_⟩
  · refine le_trans ?_ r1
    have : (A + B) * (1 - 1 / 2 ^ 53) ≤ p + q := by linarith
    have h5 : (0 : ℚ) ≤ 1 - 1 / 2 ^ 53 := by norm_num
    nlinarith
  · refine le_trans r2 ?_
    have : p + q ≤ (A + B) * (1 + 1 / 2 ^ 53) := by linarith
    have h5 : (0 : ℚ) ≤ 1 + 1 / 2 ^ 53 := by norm_num
    nlinarith
  · exact le_rnd hr (by rw [abs_of_nonneg (by linarith)]; exact le_trans hmax (by norm_num)) rep_one (by norm_num) hone

omit hr

/-- A time in whole microseconds, at least one. -/
def micros (d : Int) : Int := (if d < 1000 then 1000 else d) / 1000

/-- What a member can have gone through: updates in the order of their locked regions. Times are in nanoseconds. -/
inductive Op where
  | success (f : Fused) (d : Int)
  /-- a failure, with the failure streak the code saw -/
  | failure (f : Fused) (fails : Nat) (elapsed : Int)

/-- The time an update is about fits a `time.Duration`. -/
def Op.Fits : Op → Prop
  | .success _ d => d < 2 ^ 63
  | .failure _ _ d => d < 2 ^ 63

def apply (rnd : ℚ → ℚ) (penalty : Int) (s : Stats) : Op → Stats
  | .success f d => updateOnSuccess rnd f s d
  | .failure f n d => updateOnFailure rnd f penalty n s d

def history (rnd : ℚ → ℚ) (penalty : Int) (ops : List Op) : Stats := ops.foldl (apply rnd penalty) {}

/-- The sample an update contributes, in microseconds: the time measured; the penalty if it applies; the baseline at least for the first
update if that is a failure. -/
def contributes (penalty : Int) (first : Bool) : Op → Int
  | .success _ d => micros d
  | .failure _ n d =>
    let us := micros (if penalty > 0 ∧ n ≥ 2 then penalty else d)
    if first then max us 100000 else us

def samples (penalty : Int) : List Op → List Int
  | [] => []
  | o :: os => contributes penalty true o :: os.map (contributes penalty false)

theorem micros_range (d : Int) (h : d < 2 ^ 63) : 1 ≤ micros d ∧ micros d ≤ 2 ^ 54 := by
  unfold micros; split <;> constructor <;> omega

include hr

private theorem sample_near (d : Int) (h : d < 2 ^ 63) : (micros d : ℚ) * (1 - 1 / 2 ^ 53) ≤ sample rnd d ∧
    sample rnd d ≤ (micros d : ℚ) * (1 + 1 / 2 ^ 53) ∧ 1 ≤ sample rnd d ∧ sample rnd d ≤ 2 ^ 54 ∧ Rep (sample rnd d) := by
  obtain ⟨h1, h2⟩ := micros_range d h
  have h1' : (1 : ℚ) ≤ micros d := by exact_mod_cast h1
  have h2' : (micros d : ℚ) ≤ 2 ^ 54 := by exact_mod_cast h2
  have hx : |(micros d : ℚ)| ≤ 2 ^ 200 := by rw [abs_of_nonneg (by linarith)]; exact le_trans h2' (by norm_num)
  obtain ⟨n1, n2⟩ := near hr (x := (micros d : ℚ)) (by linarith) (le_trans h2' (by norm_num)) (.inl rfl)
  refine ⟨n1, n2, le_rnd hr hx rep_one (by norm_num) h1', ?_, rnd_rep hr hx⟩
  have := rep_mul 1 54 (by norm_num) (by norm_num) (by norm_num)
  norm_num at this
  have h54 : (2 : ℚ) ^ 54 = 18014398509481984 := by norm_num
  rw [h54]
  exact rnd_le hr hx this (by norm_num) (by rw [← h54]; exact h2')

/-- What holds of a member's average: bounds `lo`, `hi` on the samples are met up to a relative error of 2^-48 -/
private def Good (lo hi : ℚ) (s : Stats) : Prop :=
  Rep s.rttEMA ∧ 1 ≤ s.rttEMA ∧ s.rttEMA ≤ 2 ^ 54 * (1 + 1 / 2 ^ 48) ∧ lo * (1 - 1 / 2 ^ 48) ≤ s.rttEMA ∧ s.rttEMA ≤ hi * (1 + 1 / 2 ^ 48)

private theorem blend_good (f : Fused) (lo hi : ℚ) (s : Stats) (h : Good lo hi s) (d : Int) (hd : d < 2 ^ 63)
    (hlo : lo ≤ micros d) (hhi : micros d ≤ hi) (e : ℚ) (he : e = blend rnd f (sample rnd d) s.rttEMA) :
    Rep e ∧ 1 ≤ e ∧ e ≤ 2 ^ 54 * (1 + 1 / 2 ^ 48) ∧ lo * (1 - 1 / 2 ^ 48) ≤ e ∧ e ≤ hi * (1 + 1 / 2 ^ 48) := by
  obtain ⟨-, g1, g2, g3, g4⟩ := h
  obtain ⟨s1, s2, s3, s4, -⟩ := sample_near hr d hd
  obtain ⟨m1, m2⟩ := micros_range d hd
  have m1' : (1 : ℚ) ≤ micros d := by exact_mod_cast m1
  obtain ⟨b1, b2, b3⟩ := blend_err hr f (sample rnd d) s.rttEMA s3 (le_trans s4 (by norm_num)) g1 (le_trans g2 (by norm_num))
  rw [(constants hr).1, (constants hr).2] at b1 b2
  rw [← he] at b1 b2 b3
  have hrep : Rep e := by
    obtain ⟨p, q, hp, hq, hpq⟩ := blend_parts (rnd := rnd) f (sample rnd d) s.rttEMA
    rw [he, hpq]
    apply rnd_rep hr
    obtain ⟨ca, cb⟩ := constants hr
    obtain ⟨p1, p2⟩ := near hr (x := alpha rnd * sample rnd d) (by rw [ca]; norm_num; linarith) (by rw [ca]; norm_num at s4 ⊢; linarith) hp
    obtain ⟨q1, q2⟩ := near hr (x := beta rnd * s.rttEMA) (by rw [cb]; norm_num; linarith) (by rw [cb]; norm_num at g2 ⊢; linarith) hq
    rw [ca] at p1 p2
    rw [cb] at q1 q2
    rw [abs_of_nonneg (by norm_num at p1 q1; linarith)]
    norm_num at p2 q2 s4 g2 ⊢; linarith
  generalize sample rnd d = us at *
  refine ⟨hrep, b3, ?_, ?_, ?_⟩
  · norm_num at b2 g2 s4 ⊢; linarith
  · rcases le_total lo 0 with hneg | hpos
    · have : lo * (1 - 1 / 2 ^ 48) ≤ 0 := by norm_num; linarith
      linarith
    · norm_num at b1 s1 g3 ⊢; linarith
  · norm_num at b2 s2 g4 ⊢; linarith

omit hr in
private theorem count_apply (p : Int) (s : Stats) (o : Op) : (apply rnd p s o).count = s.count + 1 := by
  cases o with
  | success f d => rfl
  | failure f n d =>
    simp only [apply, updateOnFailure]
    generalize sample rnd _ = us
    split
    · next h => simp [h]
    · split <;> rfl

omit hr in
private theorem penalize_iff (p : Int) (n : Nat) : (penalize p n = true) ↔ (p > 0 ∧ n ≥ 2) := by simp [penalize]

omit hr in
private theorem elapsed_eq (p : Int) (n : Nat) (d : Int) :
    (if penalize p n = true then p else d) = (if p > 0 ∧ n ≥ 2 then p else d) := by
  by_cases h : p > 0 ∧ n ≥ 2
  · rw [if_pos h, if_pos ((penalize_iff p n).mpr h)]
  · rw [if_neg h, if_neg (fun h' => h ((penalize_iff p n).mp h'))]

private theorem good_apply (p : Int) (hp : p < 2 ^ 63) (s : Stats) (o : Op) (ho : o.Fits) (lo hi : ℚ) (h : 0 < s.count → Good lo hi s)
    (hlo : lo ≤ contributes p (s.count = 0) o) (hhi : contributes p (s.count = 0) o ≤ hi) : Good lo hi (apply rnd p s o) := by
  have seed : ∀ d : Int, d < 2 ^ 63 → lo ≤ micros d → micros d ≤ hi → ∀ t : Stats, t.rttEMA = sample rnd d → Good lo hi t := by
    intro d hd h1 h2 t ht
    obtain ⟨s1, s2, s3, s4, s5⟩ := sample_near hr d hd
    have m1' : (1 : ℚ) ≤ micros d := by exact_mod_cast (micros_range d hd).1
    refine ⟨ht ▸ s5, ht ▸ s3, ?_, ?_, ?_⟩ <;> rw [ht]
    · exact le_trans s4 (by norm_num)
    · rcases le_total lo 0 with hneg | hpos
      · have : lo * (1 - 1 / 2 ^ 48) ≤ 0 := by norm_num; linarith
        linarith
      · norm_num at s1 ⊢; linarith
    · norm_num at s2 ⊢; linarith
  cases o with
  | success f d =>
    simp only [contributes] at hlo hhi
    simp only [apply, updateOnSuccess]
    by_cases hc : s.count = 0 ∨ s.emaInflated = true
    · exact seed d ho hlo hhi _ (by simp only [if_pos hc])
    · have hpos : 0 < s.count := by
        rcases Nat.eq_zero_or_pos s.count with h0 | h0
        · exact absurd (.inl h0) hc
        · exact h0
      exact blend_good hr f lo hi s (h hpos) d ho hlo hhi _ (by simp only [if_neg hc])
  | failure f n d =>
    have hd : (if p > 0 ∧ n ≥ 2 then p else d) < 2 ^ 63 := by
      have : d < 2 ^ 63 := ho
      split <;> omega
    simp only [contributes] at hlo hhi
    simp only [apply, updateOnFailure, elapsed_eq]
    generalize (if p > 0 ∧ n ≥ 2 then p else d) = d' at *
    by_cases hc : s.count = 0
    · simp only [hc, decide_true, if_true] at hlo hhi ⊢
      obtain ⟨s1, s2, s3, s4, s5⟩ := sample_near hr d' hd
      have m1' : (1 : ℚ) ≤ micros d' := by exact_mod_cast (micros_range d' hd).1
      push_cast at hlo hhi
      have hrep : Rep (max (sample rnd d') 100000) := by
        rcases max_choice (sample rnd d') 100000 with hm | hm <;> rw [hm]
        · exact s5
        · simpa using rep_int 100000 (by norm_num)
      have hi1 : (micros d' : ℚ) ≤ hi := le_trans (le_max_left _ _) hhi
      have hi2 : (100000 : ℚ) ≤ hi := le_trans (le_max_right _ _) hhi
      refine ⟨hrep, le_max_of_le_left s3, max_le (le_trans s4 (by norm_num)) (by norm_num), ?_, max_le ?_ ?_⟩
      · rcases le_total lo 0 with hneg | hpos
        · have : lo * (1 - 1 / 2 ^ 48) ≤ 0 := by norm_num; linarith
          exact le_trans this (le_trans (by norm_num) (le_max_right _ _))
        · rcases le_max_iff.mp hlo with h1 | h1
          · refine le_trans ?_ (le_max_left _ _); norm_num at s1 ⊢; linarith
          · refine le_trans ?_ (le_max_right _ _); norm_num; linarith
      · norm_num at s2 ⊢; linarith
      · norm_num; linarith
    · simp only [hc, decide_false, if_false, Bool.false_eq_true] at hlo hhi ⊢
      have hg := h (by omega)
      split
      · exact blend_good hr f lo hi s hg d' hd hlo hhi _ rfl
      · exact hg

private theorem good_history (p : Int) (hp : p < 2 ^ 63) (ops : List Op) (hops : ∀ o ∈ ops, o.Fits) (hne : ops ≠ []) (lo hi : ℚ)
    (h : ∀ x ∈ samples p ops, lo ≤ (x : ℚ) ∧ (x : ℚ) ≤ hi) : Good lo hi (history rnd p ops) := by
  have key : ∀ (os : List Op) (s : Stats), (∀ o ∈ os, o.Fits) → 0 < s.count → Good lo hi s →
      (∀ x ∈ os.map (contributes p false), lo ≤ (x : ℚ) ∧ (x : ℚ) ≤ hi) → Good lo hi (os.foldl (apply rnd p) s) := by
    intro os
    induction os with
    | nil => intro s _ _ hg _; exact hg
    | cons o os ih =>
      intro s hf hc hg hb
      rw [List.foldl_cons]
      have hc0 : decide (s.count = 0) = false := by simp; omega
      have hb0 := hb _ (List.mem_cons_self ..)
      refine ih _ (fun o ho => hf o (List.mem_cons_of_mem _ ho)) (by rw [count_apply]; omega)
        (good_apply hr p hp s o (hf o (List.mem_cons_self ..)) lo hi (fun _ => hg) ?_ ?_) (fun x hx => hb x (List.mem_cons_of_mem _ hx))
      · rw [hc0]; exact hb0.1
      · rw [hc0]; exact hb0.2
  cases ops with
  | nil => exact absurd rfl hne
  | cons o os =>
    simp only [history, List.foldl_cons]
    have hb0 := h _ (List.mem_cons_self ..)
    exact key os _ (fun o ho => hops o (List.mem_cons_of_mem _ ho)) (by rw [count_apply]; simp)
      (good_apply hr p hp {} o (hops o (List.mem_cons_self ..)) lo hi (fun hc => by simp at hc) (by simpa using hb0.1) (by simpa using hb0.2))
      (fun x hx => h x (List.mem_cons_of_mem _ hx))

/-- **C105.** However long the history, rounding errors do not add up: a member's average lies between the smallest and the largest sample up
to a relative error of 2^-48, and is never less than one microsecond. -/
theorem average_bounds (penalty : Int) (hp : penalty < 2 ^ 63) (ops : List Op) (hops : ∀ o ∈ ops, o.Fits) (hne : ops ≠ []) (lo hi : ℚ)
    (h : ∀ x ∈ samples penalty ops, lo ≤ (x : ℚ) ∧ (x : ℚ) ≤ hi) :
    1 ≤ (history rnd penalty ops).rttEMA ∧ lo * (1 - 1 / 2 ^ 48) ≤ (history rnd penalty ops).rttEMA ∧
    (history rnd penalty ops).rttEMA ≤ hi * (1 + 1 / 2 ^ 48) := by
  obtain ⟨-, h1, -, h2, h3⟩ := good_history hr penalty hp ops hops hne lo hi h
  exact ⟨h1, h2, h3⟩

private theorem good_any (p : Int) (hp : p < 2 ^ 63) (ops : List Op) (hops : ∀ o ∈ ops, o.Fits) (hne : ops ≠ []) :
    Good 1 (2 ^ 54) (history rnd p ops) := by
  apply good_history hr p hp ops hops hne
  have one : ∀ (b : Bool), ∀ o : Op, o.Fits → (1 : ℚ) ≤ contributes p b o ∧ (contributes p b o : ℚ) ≤ 2 ^ 54 := by
    intro b o ho
    have : 1 ≤ contributes p b o ∧ contributes p b o ≤ 2 ^ 54 := by
      cases o with
      | success f d => exact micros_range d ho
      | failure f n d =>
        have := micros_range (if p > 0 ∧ n ≥ 2 then p else d) (by have : d < 2 ^ 63 := ho; split <;> omega)
        simp only [contributes]
        split <;> omega
    exact ⟨by exact_mod_cast this.1, by exact_mod_cast this.2⟩
  intro x hx
  cases ops with
  | nil => simp [samples] at hx
  | cons o os =>
    simp only [samples, List.mem_cons, List.mem_map] at hx
    rcases hx with rfl | ⟨o', ho', rfl⟩
    · exact one _ _ (hops _ (List.mem_cons_self ..))
    · exact one _ _ (hops _ (List.mem_cons_of_mem _ ho'))

/-- **C105.** No overflow: averages are below 2^55 microseconds. -/
theorem average_range (penalty : Int) (hp : penalty < 2 ^ 63) (ops : List Op) (hops : ∀ o ∈ ops, o.Fits) (hne : ops ≠ []) :
    Rep (history rnd penalty ops).rttEMA ∧ 1 ≤ (history rnd penalty ops).rttEMA ∧ (history rnd penalty ops).rttEMA < 2 ^ 55 := by
  obtain ⟨h1, h2, h3, -, -⟩ := good_any hr penalty hp ops hops hne
  exact ⟨h1, h2, lt_of_le_of_lt h3 (by norm_num)⟩

omit hr in
private theorem history_nil (p : Int) (ops : List Op) (h : (history rnd p ops).count = 0) : ops = [] := by
  cases ops with
  | nil => rfl
  | cons o os =>
    exfalso
    have : ∀ (os : List Op) (t : Stats), t.count ≤ (os.foldl (apply rnd p) t).count := by
      intro os
      induction os with
      | nil => intro t; exact Nat.le_refl _
      | cons o os ih => intro t; rw [List.foldl_cons]; have := ih (apply rnd p t o); rw [count_apply] at this; omega
    have h2 := this os (apply rnd p {} o)
    rw [count_apply] at h2
    have h3 : (history rnd p (o :: os)).count = (os.foldl (apply rnd p) (apply rnd p {} o)).count := rfl
    omega

/-! ### Weights -/

omit hr in
private theorem quot_range {e : ℚ} (h2 : e ≤ 2 ^ 54 * (1 + 1 / 2 ^ 48)) :
    1 / 2 ^ 40 ≤ 100000 / max e 1000 ∧ 100000 / max e 1000 ≤ 100 := by
  have hm : (1000 : ℚ) ≤ max e 1000 := le_max_right _ _
  have hm2 : max e 1000 ≤ 2 ^ 55 := max_le (le_trans h2 (by norm_num)) (by norm_num)
  generalize max e 1000 = m at *
  constructor
  · rw [le_div_iff₀ (by linarith)]; norm_num at hm2 ⊢; linarith
  · rw [div_le_iff₀ (by linarith)]; linarith

/-- **C105.** After any history the weight of a member is a number between 2^-40 and 100. It is 1 without measurements, otherwise 100 ms divided
by the average (which counts as one millisecond if it is less), up to a relative error of 2^-53. -/
theorem weight_range (penalty : Int) (hp : penalty < 2 ^ 63) (ops : List Op) (hops : ∀ o ∈ ops, o.Fits) :
    let w := weight rnd (history rnd penalty ops)
    let e := (history rnd penalty ops).rttEMA
    Rep w ∧ 1 / 2 ^ 40 ≤ w ∧ w ≤ 100 ∧ (ops = [] → w = 1) ∧
    (ops ≠ [] → |w - 100000 / max e 1000| ≤ 1 / 2 ^ 53 * (100000 / max e 1000)) := by
  intro w e
  by_cases hne : ops = []
  · have hw : w = 1 := by show weight rnd (history rnd penalty ops) = 1; rw [hne]; simp [weight, history]
    rw [hw]
    exact ⟨rep_one, by norm_num, by norm_num, fun _ => rfl, fun h => absurd hne h⟩
  · obtain ⟨-, g1, g2, -, -⟩ := good_any hr penalty hp ops hops hne
    have hc : 0 < (history rnd penalty ops).count := by
      rcases Nat.eq_zero_or_pos (history rnd penalty ops).count with h0 | h0
      · exact absurd (history_nil penalty ops h0) hne
      · exact h0
    have hw : w = rnd (100000 / max e 1000) := by
      show weight rnd (history rnd penalty ops) = _
      unfold weight
      rw [if_pos ⟨hc, by linarith⟩]
    obtain ⟨q1, q2⟩ := quot_range g2
    have hx : |100000 / max e 1000| ≤ 2 ^ 200 := by
      rw [abs_of_nonneg (le_trans (by norm_num) q1)]; exact le_trans q2 (by norm_num)
    rw [hw]
    refine ⟨rnd_rep hr hx, le_rnd hr hx ?_ (by norm_num [abs_of_pos]) q1, rnd_le hr hx ?_ (by norm_num) q2, fun h => absurd h hne, fun _ => ?_⟩
    · have := rep_pow (-40) (by norm_num) (by norm_num)
      norm_num at this ⊢; exact this
    · simpa using rep_int 100 (by norm_num)
    · exact (rnd_err hr (le_trans (by norm_num) q1) (le_trans q2 (by norm_num))).2

/-- The weight never grows with the average. -/
private theorem weight_anti {s s' : Stats} (hs : 0 < s.count) (hs' : 0 < s'.count) (h1 : 1 ≤ s.rttEMA) (h2 : s.rttEMA ≤ s'.rttEMA)
    (h3 : s'.rttEMA ≤ 2 ^ 54 * (1 + 1 / 2 ^ 48)) : weight rnd s' ≤ weight rnd s := by
  unfold weight
  rw [if_pos ⟨hs', by linarith⟩, if_pos ⟨hs, by linarith⟩]
  obtain ⟨q1, q2⟩ := quot_range h3
  obtain ⟨q3, q4⟩ := quot_range (le_trans h2 h3)
  apply rnd_mono hr
  · rw [abs_of_nonneg (le_trans (by norm_num) q1)]; exact le_trans q2 (by norm_num)
  · rw [abs_of_nonneg (le_trans (by norm_num) q3)]; exact le_trans q4 (by norm_num)
  · have hm : (1000 : ℚ) ≤ max s.rttEMA 1000 := le_max_right _ _
    exact div_le_div_of_nonneg_left (by norm_num) (by linarith) (max_le_max_right _ h2)

/-- **C105.** Rounding does not make failures pay off: after any history, a failure the penalty does not apply to never lowers the average and
never raises the weight. -/
theorem failure_never_rewards (penalty : Int) (hp : penalty < 2 ^ 63) (ops : List Op) (hops : ∀ o ∈ ops, o.Fits) (f : Fused) (fails : Nat)
    (elapsed : Int) (he : elapsed < 2 ^ 63) (hn : ¬ (penalty > 0 ∧ fails ≥ 2)) :
    let s := history rnd penalty ops
    let s' := updateOnFailure rnd f penalty fails s elapsed
    s.rttEMA ≤ s'.rttEMA ∧ weight rnd s' ≤ weight rnd s := by
  intro s s'
  have hs' : s' = history rnd penalty (ops ++ [.failure f fails elapsed]) := by
    simp [history, apply, s', s]
  have hg' := good_any hr penalty hp (ops ++ [.failure f fails elapsed]) (by
    intro o ho
    rcases List.mem_append.mp ho with h | h
    · exact hops o h
    · rw [List.mem_singleton.mp h]; exact he) (by simp)
  rw [← hs'] at hg'
  have hc' : 0 < s'.count := by
    show 0 < (apply rnd penalty s (.failure f fails elapsed)).count
    rw [count_apply]; omega
  have hpf : penalize penalty fails = false := by
    cases h : penalize penalty fails with
    | false => rfl
    | true => exact absurd ((penalize_iff _ _).mp h) hn
  by_cases hne : ops = []
  · have hs : s = {} := by show history rnd penalty ops = {}; rw [hne]; rfl
    have hge : (100000 : ℚ) ≤ s'.rttEMA := by
      show 100000 ≤ (updateOnFailure rnd f penalty fails s elapsed).rttEMA
      rw [hs]; simp only [updateOnFailure, if_true]; exact le_max_right _ _
    constructor
    · rw [hs]; show (0 : ℚ) ≤ _; linarith
    · have hw : weight rnd s = 1 := by rw [hs]; simp [weight]
      rw [hw]
      have := weight_anti hr (s := { rttEMA := 100000, count := 1 }) (s' := s') (by norm_num) hc' (by norm_num) hge hg'.2.2.1
      refine le_trans this (le_of_eq ?_)
      unfold weight
      rw [if_pos ⟨by norm_num, by norm_num⟩]
      have h1 : (100000 : ℚ) / max 100000 1000 = 1 := by norm_num
      simp only [h1]
      exact rnd_fix hr rep_one (by norm_num)
  · obtain ⟨-, g1, -, -, -⟩ := good_any hr penalty hp ops hops hne
    have hc : s.count ≠ 0 := fun h0 => hne (history_nil penalty ops h0)
    have hle : s.rttEMA ≤ s'.rttEMA := by
      show s.rttEMA ≤ (updateOnFailure rnd f penalty fails s elapsed).rttEMA
      simp only [updateOnFailure, if_neg hc, hpf, Bool.false_eq_true, if_false, false_or]
      split
      · next h => exact le_of_lt h
      · exact le_refl _
    exact ⟨hle, weight_anti hr (Nat.pos_of_ne_zero hc) hc' g1 hle hg'.2.2.1⟩

/-- **C105.** A penalty of at least the average lowers the average by no more than a rounding error, 2^-51 of it. -/
theorem penalty_counts (penalty : Int) (hp : penalty < 2 ^ 63) (ops : List Op) (hops : ∀ o ∈ ops, o.Fits) (hne : ops ≠ []) (f : Fused)
    (fails : Nat) (elapsed : Int) (hpen : penalty > 0 ∧ fails ≥ 2) (hge : (history rnd penalty ops).rttEMA ≤ micros penalty) :
    (history rnd penalty ops).rttEMA * (1 - 1 / 2 ^ 51) ≤ (updateOnFailure rnd f penalty fails (history rnd penalty ops) elapsed).rttEMA := by
  obtain ⟨-, g1, g2, -, -⟩ := good_any hr penalty hp ops hops hne
  have hc : (history rnd penalty ops).count ≠ 0 := fun h0 => hne (history_nil penalty ops h0)
  simp only [updateOnFailure, if_neg hc, (penalize_iff penalty fails).mpr hpen, if_true, true_or]
  obtain ⟨s1, -, s3, s4, -⟩ := sample_near hr penalty hp
  obtain ⟨b1, -, -⟩ := blend_err hr f (sample rnd penalty) _ s3 (le_trans s4 (by norm_num)) g1 (le_trans g2 (by norm_num))
  rw [(constants hr).1, (constants hr).2] at b1
  refine le_trans ?_ b1
  norm_num at s1 ⊢; linarith

/-- **C105.** The first success after failures that raised the average sets it to the time measured (exactly, below 285 years). -/
theorem recovers (f f' : Fused) (s : Stats) (penalty : Int) (fails : Nat) (elapsed d : Int) (hd : micros d ≤ 2 ^ 53)
    (hup : s.rttEMA < (updateOnFailure rnd f penalty fails s elapsed).rttEMA) :
    (updateOnSuccess rnd f' (updateOnFailure rnd f penalty fails s elapsed) d).rttEMA = micros d := by
  have hinf : (updateOnFailure rnd f penalty fails s elapsed).emaInflated = true := by
    simp only [updateOnFailure] at hup ⊢
    generalize sample rnd _ = us at *
    by_cases hc : s.count = 0
    · simp only [if_pos hc]
    · simp only [if_neg hc] at hup ⊢
      split at hup
      · next h => simp only [if_pos h]
      · exact absurd hup (lt_irrefl _)
  simp only [updateOnSuccess, hinf, or_true, if_true]
  show rnd (micros d : ℚ) = micros d
  have h1 : 1 ≤ micros d := by unfold micros; split <;> omega
  have h1' : (1 : ℚ) ≤ micros d := by exact_mod_cast h1
  have h2' : (micros d : ℚ) ≤ 2 ^ 53 := by exact_mod_cast hd
  exact rnd_fix hr (rep_int (micros d) (by rw [abs_of_nonneg (by omega)]; exact hd))
    (by rw [abs_of_nonneg (by linarith)]; exact le_trans h2' (by norm_num))

/-! ### Picking -/

/-- The absolute error of a result that is not above `M`. -/
private theorem abs_err {x M : ℚ} (h0 : 0 ≤ x) (h1 : x ≤ M) (h2 : 1 / 2 ^ 100 ≤ M) (h3 : M ≤ 2 ^ 200) : |rnd x - x| ≤ 1 / 2 ^ 53 * M := by
  by_cases h : 1 / 2 ^ 200 ≤ x
  · refine le_trans (rnd_err hr h (le_trans h1 h3)).2 ?_
    norm_num; linarith
  · have h : x < 1 / 2 ^ 200 := lt_of_not_ge h
    have hx : |x| ≤ 2 ^ 200 := by rw [abs_of_nonneg h0]; exact le_trans h1 h3
    have hr0 := rnd_nonneg hr hx h0
    have hr1 : rnd x ≤ 1 / 2 ^ 200 := by
      refine rnd_le hr hx ?_ (by norm_num [abs_of_pos]) h.le
      have := rep_pow (-200) (by norm_num) (by norm_num)
      norm_num at this ⊢; exact this
    have : |rnd x - x| ≤ 1 / 2 ^ 200 := by rw [abs_le]; constructor <;> linarith
    refine le_trans this ?_
    norm_num at h2 ⊢; linarith

/-- **C105.** Exploration: a draw below 1 times the number of members stays below that number after rounding, so the position is valid. -/
theorem explore_valid (v : ℚ) (hv : Rep v) (h0 : 0 ≤ v) (h1 : v < 1) (n : Nat) (hn : 0 < n) (hn2 : n ≤ 2 ^ 53) :
    0 ≤ rnd (v * n) ∧ rnd (v * n) < n := by
  have hn' : (1 : ℚ) ≤ n := by exact_mod_cast hn
  have hn2' : (n : ℚ) ≤ 2 ^ 53 := by exact_mod_cast hn2
  have hv1 := below_one hv h1
  have hle : v * n ≤ n - n / 2 ^ 53 := by
    have : v * n ≤ (1 - 1 / 2 ^ 53) * n := by nlinarith
    linarith
  have hx0 : 0 ≤ v * n := by positivity
  have big : (2 : ℚ) ^ 53 ≤ 2 ^ 200 := by norm_num
  have hx : |v * n| ≤ 2 ^ 200 := by
    rw [abs_of_nonneg hx0]; refine le_trans hle (le_trans ?_ (le_trans hn2' big)); linarith [show (0 : ℚ) ≤ n / 2 ^ 53 by positivity]
  refine ⟨rnd_nonneg hr hx hx0, ?_⟩
  have hy0 : (0 : ℚ) ≤ n - n / 2 ^ 53 := le_trans hx0 hle
  have hy : |(n : ℚ) - n / 2 ^ 53| ≤ 2 ^ 200 := by
    rw [abs_of_nonneg hy0]; refine le_trans ?_ (le_trans hn2' big); linarith [show (0 : ℚ) ≤ n / 2 ^ 53 by positivity]
  refine lt_of_le_of_lt (rnd_mono hr hx hy hle) ?_
  have hup : rnd ((n : ℚ) - n / 2 ^ 53) ≤ n := by
    refine rnd_le hr hy (rep_nat n hn2) ?_ (by linarith [show (0 : ℚ) ≤ n / 2 ^ 53 by positivity])
    rw [abs_of_nonneg (by linarith)]; exact le_trans hn2' big
  refine lt_of_le_of_ne hup fun heq => ?_
  -- the power of two below n
  obtain ⟨j, hj1, hj2⟩ : ∃ j : Nat, 2 ^ j ≤ n ∧ n < 2 ^ (j + 1) :=
    ⟨Nat.log 2 n, Nat.pow_log_le_self 2 (by omega), Nat.lt_pow_succ_log_self (by norm_num) n⟩
  have hj53 : j ≤ 53 := by
    by_contra hc
    have : 2 ^ 54 ≤ 2 ^ j := Nat.pow_le_pow_right (by norm_num) (by omega)
    omega
  rcases Nat.eq_or_lt_of_le hj1 with hpow | hgt
  · -- n is a power of two: the product is representable
    have hrep : Rep ((n : ℚ) - n / 2 ^ 53) := by
      have := rep_mul (2 ^ 53 - 1) ((j : ℤ) - 53) (by norm_num) (by omega) (by omega)
      have he : ((2 ^ 53 - 1 : ℤ) : ℚ) * (2 : ℚ) ^ ((j : ℤ) - 53) = n - n / 2 ^ 53 := by
        rw [← hpow, zpow_sub₀ (by norm_num), zpow_natCast]
        push_cast
        norm_num
        ring
      rwa [he] at this
    rw [rnd_fix hr hrep hy] at heq
    have : (0 : ℚ) < n / 2 ^ 53 := by positivity
    linarith
  · -- otherwise the predecessor of n is nearer than n
    have hg : (0 : ℚ) < (2 : ℚ) ^ ((j : ℤ) - 52) := by positivity
    have hgj : (2 : ℚ) ^ j = 2 ^ 52 * (2 : ℚ) ^ ((j : ℤ) - 52) := by
      rw [← zpow_natCast, ← zpow_natCast, ← zpow_add₀ (by norm_num)]; congr 1; push_cast; omega
    have hgt' : (2 : ℚ) ^ j < n := by exact_mod_cast hgt
    have hj2' : (n : ℚ) < 2 * 2 ^ j := by
      have : (n : ℚ) < 2 ^ (j + 1) := by exact_mod_cast hj2
      rw [pow_succ] at this; linarith
    have hrepn : Rep (n : ℚ) := rep_nat n hn2
    obtain ⟨k, hk⟩ := grain_above hrepn (j : ℤ) (by rw [zpow_natCast]; exact hgt'.le)
    generalize hG : (2 : ℚ) ^ ((j : ℤ) - 52) = g at *
    have hk1 : (2 : ℚ) ^ 52 < k := by
      rw [hk, hgj] at hgt'; exact lt_of_mul_lt_mul_right hgt' hg.le
    have hk2 : (k : ℚ) < 2 ^ 53 := by
      rw [hk, hgj, ← mul_assoc] at hj2'
      have := lt_of_mul_lt_mul_right hj2' hg.le
      norm_num at this ⊢; exact this
    have hk1' : (2 : ℤ) ^ 52 < k := by exact_mod_cast hk1
    have hk2' : k < (2 : ℤ) ^ 53 := by exact_mod_cast hk2
    have hrep : Rep ((n : ℚ) - g) := by
      have := rep_mul (k - 1) ((j : ℤ) - 52) (by rw [abs_of_nonneg (by omega)]; omega) (by omega) (by omega)
      have he : ((k - 1 : ℤ) : ℚ) * (2 : ℚ) ^ ((j : ℤ) - 52) = n - g := by rw [hG, hk]; push_cast; ring
      rwa [he] at this
    have hnear := (hr _ hy).2 _ hrep
    rw [heq] at hnear
    have hN : (0 : ℚ) < n / 2 ^ 53 := by positivity
    rw [show (n : ℚ) - (n - n / 2 ^ 53) = n / 2 ^ 53 by ring, show (n : ℚ) - g - (n - n / 2 ^ 53) = n / 2 ^ 53 - g by ring, abs_of_pos hN] at hnear
    have hgN : n / 2 ^ 53 < g := by rw [div_lt_iff₀ (by positivity)]; rw [hk]; nlinarith
    rw [abs_of_neg (by linarith)] at hnear
    have : g < 2 * (n / 2 ^ 53) := by
      have : g * 2 ^ 52 < n := by rw [hk]; nlinarith
      rw [show 2 * ((n : ℚ) / 2 ^ 53) = n / 2 ^ 52 by norm_num; ring, lt_div_iff₀ (by positivity)]
      exact this
    linarith

private theorem total_spec : ∀ (ws : List ℚ) (k : Nat) (t : ℚ), (∀ w ∈ ws, 1 / 2 ^ 40 ≤ w ∧ w ≤ 100) → k + ws.length ≤ 2 ^ 53 → Rep t → 0 ≤ t →
    t ≤ 128 * k →
    let T := ws.foldl (fun t w => rnd (t + w)) t
    Rep T ∧ t ≤ T ∧ T ≤ 128 * (k + ws.length : Nat) ∧ |T - (t + ws.sum)| ≤ ws.length * (1 / 2 ^ 53 * T) ∧ (ws ≠ [] → 1 / 2 ^ 40 ≤ T) := by
  intro ws
  induction ws with
  | nil => intro k t _ _ ht _ hk; simpa using ⟨ht, hk⟩
  | cons w ws ih =>
    intro k t hw hlen ht h0 hk T
    obtain ⟨hw1, hw2⟩ := hw w (List.mem_cons_self ..)
    simp only [List.length_cons] at hlen
    have hw0 : (0 : ℚ) < w := lt_of_lt_of_le (by norm_num) hw1
    have hk1 : ((k + 1 : Nat) : ℚ) ≤ 2 ^ 53 := by exact_mod_cast (show k + 1 ≤ 2 ^ 53 by omega)
    have hrk : Rep (128 * ((k + 1 : Nat) : ℚ)) := by
      have := rep_mul ((k + 1 : Nat) : ℤ) 7 (by rw [abs_of_nonneg (by positivity)]; exact_mod_cast (show k + 1 ≤ 2 ^ 53 by omega)) (by norm_num) (by norm_num)
      norm_num at this ⊢
      rwa [mul_comm] at this
    have hle : t + w ≤ 128 * ((k + 1 : Nat) : ℚ) := by push_cast; linarith
    have hbig : 128 * ((k + 1 : Nat) : ℚ) ≤ 2 ^ 200 := by norm_num at hk1 ⊢; linarith
    have hx : |t + w| ≤ 2 ^ 200 := by rw [abs_of_nonneg (by linarith)]; linarith
    have hb : |128 * ((k + 1 : Nat) : ℚ)| ≤ 2 ^ 200 := by rw [abs_of_nonneg (by positivity)]; exact hbig
    have h1 : t ≤ rnd (t + w) := le_rnd hr hx ht (by rw [abs_of_nonneg h0]; linarith) (by linarith)
    have h2 : rnd (t + w) ≤ 128 * ((k + 1 : Nat) : ℚ) := rnd_le hr hx hrk hb hle
    have h3 : 1 / 2 ^ 40 ≤ rnd (t + w) := by
      refine le_rnd hr hx ?_ (by norm_num [abs_of_pos]) (by linarith)
      have := rep_pow (-40) (by norm_num) (by norm_num)
      norm_num at this ⊢; exact this
    have herr := (rnd_err hr (x := t + w) (le_trans (by norm_num) (le_trans hw1 (by linarith))) (le_trans hle hbig)).1
    obtain ⟨i1, i2, i3, i4, -⟩ := ih (k + 1) (rnd (t + w)) (fun w hw' => hw w (List.mem_cons_of_mem _ hw')) (by omega) (rnd_rep hr hx) (le_trans h0 h1) h2
    have hT : T = ws.foldl (fun t w => rnd (t + w)) (rnd (t + w)) := rfl
    rw [← hT] at i1 i2 i3 i4
    refine ⟨i1, le_trans h1 i2, ?_, ?_, fun _ => le_trans h3 i2⟩
    · rw [show k + (w :: ws).length = k + 1 + ws.length by simp; omega]; exact i3
    · have e1 : T - (t + (w :: ws).sum) = (T - (rnd (t + w) + ws.sum)) + (rnd (t + w) - (t + w)) := by rw [List.sum_cons]; ring
      rw [e1]
      refine le_trans (abs_add_le _ _) ?_
      have h4 : 1 / 2 ^ 53 * rnd (t + w) ≤ 1 / 2 ^ 53 * T := mul_le_mul_of_nonneg_left i2 (by norm_num)
      rw [List.length_cons]; push_cast
      linarith

private theorem walk_spec (M : ℚ) (hM1 : 1 / 2 ^ 100 ≤ M) (hM2 : M ≤ 2 ^ 100) : ∀ (ws : List ℚ) (n i : Nat) (sel : ℚ),
    (∀ w ∈ ws, Rep w ∧ 0 ≤ w ∧ w ≤ 100) → Rep sel → 0 ≤ sel → sel ≤ M →
    (∃ j, j < ws.length ∧ walk rnd n i sel ws = i + j ∧ (ws.take j).sum ≤ sel + j * (1 / 2 ^ 53 * M) ∧
      sel ≤ (ws.take (j + 1)).sum + j * (1 / 2 ^ 53 * M)) ∨
    (walk rnd n i sel ws = n - 1 ∧ ws.sum ≤ sel + ws.length * (1 / 2 ^ 53 * M)) := by
  intro ws
  induction ws with
  | nil => intro n i sel _ _ h0 _; right; exact ⟨rfl, by simpa using h0⟩
  | cons w ws ih =>
    intro n i sel hw hs h0 h1
    obtain ⟨hw1, hw2, hw3⟩ := hw w (List.mem_cons_self ..)
    have hx : |sel - w| ≤ 2 ^ 200 := by
      rw [abs_le]; norm_num at hM2 ⊢; constructor <;> linarith
    have hpos := rnd_sub_pos hr hs hw1 hx
    simp only [walk]
    by_cases hd : rnd (sel - w) ≤ 0
    · left
      refine ⟨0, by simp, by simp [hd], by simpa using h0, ?_⟩
      have : ¬ w < sel := fun h => absurd (hpos.mpr h) (not_lt.mpr hd)
      simpa using this
    · rw [if_neg hd]
      have hlt : w < sel := hpos.mp (lt_of_not_ge hd)
      have herr := abs_le.mp (abs_err hr (x := sel - w) (by linarith) (by linarith : sel - w ≤ M) hM1 (le_trans hM2 (by norm_num)))
      have hle : rnd (sel - w) ≤ sel := by
        refine rnd_le hr hx hs ?_ (by linarith)
        rw [abs_of_nonneg h0]; exact le_trans h1 (le_trans hM2 (by norm_num))
      generalize 1 / 2 ^ 53 * M = δ at *
      rcases ih n (i + 1) (rnd (sel - w)) (fun w hw' => hw w (List.mem_cons_of_mem _ hw')) (rnd_rep hr hx) (le_of_lt (lt_of_not_ge hd)) (le_trans hle h1) with
        ⟨j, hj, hwalk, j1, j2⟩ | ⟨hwalk, j1⟩
      · left
        refine ⟨j + 1, by simpa using hj, by rw [hwalk]; omega, ?_, ?_⟩
        · rw [List.take_succ_cons, List.sum_cons]; push_cast; linarith [herr.1, herr.2]
        · rw [List.take_succ_cons, List.sum_cons]; push_cast; linarith [herr.1, herr.2]
      · right
        refine ⟨hwalk, ?_⟩
        rw [List.sum_cons, List.length_cons]; push_cast; linarith [herr.1, herr.2]

omit hr in
private theorem take_sum_le : ∀ (ws : List ℚ), (∀ w ∈ ws, 0 ≤ w) → ∀ n, (ws.take n).sum ≤ ws.sum := by
  intro ws
  induction ws with
  | nil => intro _ n; simp
  | cons w ws ih =>
    intro h n
    cases n with
    | zero =>
      have h1 := ih (fun w hw => h w (List.mem_cons_of_mem _ hw)) 0
      have h2 := h w (List.mem_cons_self ..)
      rw [List.take_zero, List.sum_nil] at h1 ⊢
      rw [List.sum_cons]; linarith
    | succ n =>
      rw [List.take_succ_cons, List.sum_cons, List.sum_cons]
      linarith [ih (fun w hw => h w (List.mem_cons_of_mem _ hw)) n]

/-- **C105.** The position picked is valid for all weights a history can give and all random numbers below 1, in spite of rounding. -/
theorem pick_valid (u v : ℚ) (ws : List ℚ) (hne : ws ≠ []) (hlen : ws.length ≤ 2 ^ 53) (hv : Rep v) (h0 : 0 ≤ v) (h1 : v < 1) :
    pick rnd u v ws < ws.length := by
  have hpos : 0 < ws.length := List.length_pos_iff.mpr hne
  unfold pick
  split
  · obtain ⟨e0, e1⟩ := explore_valid hr v hv h0 h1 ws.length hpos hlen
    have : ⌊rnd (v * (ws.length : ℚ))⌋ < (ws.length : ℤ) := Int.floor_lt.mpr (by exact_mod_cast e1)
    have : 0 ≤ ⌊rnd (v * (ws.length : ℚ))⌋ := Int.floor_nonneg.mpr e0
    omega
  · have key : ∀ (l : List ℚ) (n i : Nat) (x : ℚ), 0 < n → i + l.length = n → walk rnd n i x l < n := by
      intro l
      induction l with
      | nil => intro n i x h _; simp only [walk]; omega
      | cons w l ih =>
        intro n i x h hi
        simp only [List.length_cons] at hi
        simp only [walk]
        split
        · omega
        · exact ih n (i + 1) _ h (by omega)
    exact key ws ws.length 0 _ hpos (by simp)

/-- **C105.** Exploring, every position is picked by its equal share of the random numbers, up to an error of 2^-53 of the range. -/
theorem explore_uniform (u v : ℚ) (ws : List ℚ) (hne : ws ≠ []) (hlen : ws.length ≤ 2 ^ 53) (hv : Rep v) (h0 : 0 ≤ v) (h1 : v < 1)
    (hu : u < exploration rnd) :
    (pick rnd u v ws : ℚ) / ws.length - 1 / 2 ^ 53 ≤ v ∧ v < ((pick rnd u v ws : ℚ) + 1) / ws.length + 1 / 2 ^ 53 := by
  have hpos : 0 < ws.length := List.length_pos_iff.mpr hne
  have hn' : (1 : ℚ) ≤ ws.length := by exact_mod_cast hpos
  have hn2' : (ws.length : ℚ) ≤ 2 ^ 53 := by exact_mod_cast hlen
  obtain ⟨e0, e1⟩ := explore_valid hr v hv h0 h1 ws.length hpos hlen
  have hp : ((pick rnd u v ws : Nat) : ℤ) = ⌊rnd (v * (ws.length : ℚ))⌋ := by
    unfold pick
    rw [if_pos hu]
    exact Int.toNat_of_nonneg (Int.floor_nonneg.mpr e0)
  have hpq : ((pick rnd u v ws : Nat) : ℚ) = (⌊rnd (v * (ws.length : ℚ))⌋ : ℚ) := by rw [← hp]; simp
  have f1 := Int.floor_le (rnd (v * (ws.length : ℚ)))
  have f2 := Int.lt_floor_add_one (rnd (v * (ws.length : ℚ)))
  rw [← hpq] at f1 f2
  have hx : v * ws.length ≤ ws.length := by nlinarith
  have herr := abs_le.mp (abs_err hr (x := v * ws.length) (by positivity) hx (le_trans (by norm_num) hn') (le_trans hn2' (by norm_num)))
  generalize ((pick rnd u v ws : Nat) : ℚ) = P at *
  generalize (ws.length : ℚ) = n at *
  have hn0 : (0 : ℚ) < n := by linarith
  constructor
  · have : P ≤ (v + 1 / 2 ^ 53) * n := by linarith [herr.2]
    have := (div_le_iff₀ hn0).mpr this
    linarith
  · have : (v - 1 / 2 ^ 53) * n < P + 1 := by linarith [herr.1]
    have := (lt_div_iff₀ hn0).mpr this
    linarith

/-- **C105.** Otherwise, every position is picked by the share of the random numbers its weight has in the sum of the weights, in spite of
rounding: `S` is the sum as computed, off by at most `n`·2^-53 of it for `n` members, and the borders between positions are off by at most
(`n`+1)·2^-53 of it. -/
theorem pick_weighted (u v : ℚ) (ws : List ℚ) (hne : ws ≠ []) (hlen : ws.length ≤ 2 ^ 53) (hw : ∀ w ∈ ws, Rep w ∧ 1 / 2 ^ 40 ≤ w ∧ w ≤ 100)
    (h0 : 0 ≤ v) (h1 : v < 1) (hu : ¬ u < exploration rnd) :
    ∃ S : ℚ, |S - ws.sum| ≤ ws.length * (1 / 2 ^ 53 * S) ∧ S < 2 ^ 61 ∧
      (ws.take (pick rnd u v ws)).sum ≤ v * S + (ws.length + 1) * (1 / 2 ^ 53 * S) ∧
      v * S ≤ (ws.take (pick rnd u v ws + 1)).sum + (ws.length + 1) * (1 / 2 ^ 53 * S) := by
  obtain ⟨t0, t1, t2, t3, t4⟩ := total_spec hr ws 0 0 (fun w h => (hw w h).2) (by omega) rep_zero (le_refl _) (by norm_num)
  have hTt : ws.foldl (fun t w => rnd (t + w)) 0 = total rnd ws := rfl
  rw [hTt] at t0 t1 t2 t3 t4
  have hS1 := t4 hne
  have hlen' : (ws.length : ℚ) ≤ 2 ^ 53 := by exact_mod_cast hlen
  have hS2 : total rnd ws ≤ 2 ^ 60 := by
    refine le_trans t2 ?_
    rw [Nat.zero_add, show (2 : ℚ) ^ 60 = 128 * 2 ^ 53 by norm_num]; linarith
  rw [zero_add] at t3
  refine ⟨total rnd ws, t3, lt_of_le_of_lt hS2 (by norm_num), ?_⟩
  have hpick : pick rnd u v ws = walk rnd ws.length 0 (rnd (v * total rnd ws)) ws := by unfold pick; rw [if_neg hu]
  rw [hpick]
  generalize total rnd ws = S at *
  have hx0 : 0 ≤ v * S := by positivity
  have hx1 : v * S ≤ S := by nlinarith
  have hx : |v * S| ≤ 2 ^ 200 := by rw [abs_of_nonneg hx0]; exact le_trans hx1 (le_trans hS2 (by norm_num))
  have herr := abs_le.mp (abs_err hr hx0 hx1 (le_trans (by norm_num) hS1) (le_trans hS2 (by norm_num)))
  have hsel0 := rnd_nonneg hr hx hx0
  have hsel1 : rnd (v * S) ≤ S := rnd_le hr hx t0 (by rw [abs_of_nonneg t1]; exact le_trans hS2 (by norm_num)) hx1
  have hnn : ∀ w ∈ ws, (0 : ℚ) ≤ w := fun w h => le_trans (by norm_num) (hw w h).2.1
  have hδ : 0 ≤ 1 / 2 ^ 53 * S := by positivity
  rcases walk_spec hr S (le_trans (by norm_num) hS1) (le_trans hS2 (by norm_num)) ws ws.length 0 (rnd (v * S))
    (fun w h => ⟨(hw w h).1, hnn w h, (hw w h).2.2⟩) (rnd_rep hr hx) hsel0 hsel1 with ⟨j, hj, hwalk, j1, j2⟩ | ⟨hwalk, j1⟩
  · rw [hwalk, Nat.zero_add]
    have hjn : (j : ℚ) ≤ ws.length := by exact_mod_cast hj.le
    have hjd := mul_le_mul_of_nonneg_right hjn hδ
    generalize 1 / 2 ^ 53 * S = δ at *
    constructor
    · linarith [herr.1, herr.2]
    · linarith [herr.1, herr.2]
  · rw [hwalk]
    have hpos : 0 < ws.length := List.length_pos_iff.mpr hne
    have h2 := take_sum_le ws hnn (ws.length - 1)
    rw [Nat.sub_add_cancel hpos, List.take_length]
    have t3' := abs_le.mp t3
    generalize 1 / 2 ^ 53 * S = δ at *
    constructor
    · linarith [herr.1, herr.2]
    · linarith [t3'.2]

/-- **C105.** Members with any histories: the choice falls on one of them, by the shares of their weights up to rounding. -/
theorem pick_after (penalty : Int) (hp : penalty < 2 ^ 63) (members : List (List Op)) (hops : ∀ ops ∈ members, ∀ o ∈ ops, o.Fits)
    (hne : members ≠ []) (hlen : members.length ≤ 2 ^ 53) (u v : ℚ) (hv : Rep v) (h0 : 0 ≤ v) (h1 : v < 1) :
    let ws := members.map fun ops => weight rnd (history rnd penalty ops)
    pick rnd u v ws < members.length ∧ (¬ u < exploration rnd →
      ∃ S : ℚ, |S - ws.sum| ≤ members.length * (1 / 2 ^ 53 * S) ∧
        (ws.take (pick rnd u v ws)).sum ≤ v * S + (members.length + 1) * (1 / 2 ^ 53 * S) ∧
        v * S ≤ (ws.take (pick rnd u v ws + 1)).sum + (members.length + 1) * (1 / 2 ^ 53 * S)) := by
  intro ws
  have hl : ws.length = members.length := by simp [ws]
  have hwne : ws ≠ [] := by simpa [ws] using hne
  rw [← hl] at hlen ⊢
  refine ⟨pick_valid hr u v ws hwne hlen hv h0 h1, fun hu => ?_⟩
  obtain ⟨S, s1, -, s2, s3⟩ := pick_weighted hr u v ws hwne hlen (fun w hw => by
    obtain ⟨ops, ho, rfl⟩ := List.mem_map.mp hw
    obtain ⟨w1, w2, w3, -, -⟩ := weight_range hr penalty hp ops (hops ops ho)
    exact ⟨w1, w2, w3⟩) h0 h1 hu
  exact ⟨S, s1, s2, s3⟩

omit hr

section Examples

/-- A member answers in 20 ms, fails twice after 5 s with a penalty of 1 s, and answers in 30 ms. -/
def ops : List Op := [.success .none 20000000, .failure .first 1 5000000000, .failure .second 2 5000000000]

theorem ops_fit : ∀ o ∈ ops, o.Fits := by simp [ops, Op.Fits]

example : samples 1000000000 ops = [20000, 5000000, 1000000] := by decide

/-- Its average is between 19.9 ms and 5.1 s -/
example : ∃ rnd : ℚ → ℚ, Nearest rnd ∧ 19900 ≤ (history rnd 1000000000 ops).rttEMA ∧ (history rnd 1000000000 ops).rttEMA ≤ 5100000 := by
  obtain ⟨rnd, hr⟩ := nearest_exists
  obtain ⟨-, h1, h2⟩ := average_bounds hr 1000000000 (by norm_num) ops ops_fit (by simp [ops]) 20000 5000000
    (by rw [show samples 1000000000 ops = [20000, 5000000, 1000000] by decide]; simp; norm_num)
  refine ⟨rnd, hr, ?_, ?_⟩
  · norm_num at h1 ⊢; linarith
  · norm_num at h2 ⊢; linarith

/-- The largest random number and three members: exactly, `v * 3` is less than 3, but no `float64` is as close to it as 3 or its predecessor. -/
example : ∃ rnd : ℚ → ℚ, Nearest rnd ∧ pick rnd 0 (1 - 1 / 2 ^ 53) [1, 1, 1] < 3 := by
  obtain ⟨rnd, hr⟩ := nearest_exists
  refine ⟨rnd, hr, pick_valid hr 0 _ [1, 1, 1] (by simp) (by simp) ?_ (by norm_num) (by norm_num)⟩
  have := rep_mul (2 ^ 53 - 1) (-53) (by norm_num) (by norm_num) (by norm_num)
  norm_num at this ⊢; exact this

/-- The walk, with weights 100 and 1 and the random number 1/2: the first -/
example : ∃ rnd : ℚ → ℚ, Nearest rnd ∧ pick rnd (1 / 2) (1 / 2) [100, 1] = 0 := by
  obtain ⟨rnd, hr⟩ := nearest_exists
  refine ⟨rnd, hr, ?_⟩
  have hu : ¬ (1 / 2 : ℚ) < exploration rnd := by rw [(exploration_share hr).1]; norm_num
  have r100 : Rep 100 := by simpa using rep_int 100 (by norm_num)
  have rh : Rep (1 / 2) := by have := rep_pow (-1) (by norm_num) (by norm_num); norm_num at this ⊢; exact this
  have hlt := pick_valid hr (1 / 2) (1 / 2) [100, 1] (by simp) (by simp) rh (by norm_num) (by norm_num)
  obtain ⟨S, h1, h2, h3, h4⟩ := pick_weighted hr (1 / 2) (1 / 2) [100, 1] (by simp) (by simp)
    (by simp only [List.mem_cons, List.not_mem_nil, or_false]; rintro w (rfl | rfl)
        · exact ⟨r100, by norm_num, by norm_num⟩
        · exact ⟨rep_one, by norm_num, by norm_num⟩) (by norm_num) (by norm_num) hu
  generalize pick rnd (1 / 2) (1 / 2) [100, 1] = i at *
  simp only [List.length_cons, List.length_nil] at hlt
  rcases (by omega : i = 0 ∨ i = 1) with rfl | rfl
  · rfl
  · exfalso
    have h5 := abs_le.mp h1
    simp at h3 h5
    norm_num at h3 h5
    linarith [h5.1, h5.2]

end Examples

end Verif.Props.BalanceFloat
