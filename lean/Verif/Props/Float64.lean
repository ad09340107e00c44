import Verif.Model.Float64
import Mathlib.Algebra.Order.Field.Power
import Mathlib.Data.Set.Finite.Lemmas
import Mathlib.Order.Interval.Finset.Defs
import Mathlib.Data.Int.Interval
import Mathlib.Tactic.Linarith
import Mathlib.Tactic.NormNum
import Mathlib.Tactic.Positivity
import Mathlib.Tactic.Ring
import Mathlib.Tactic.FieldSimp
/-
What follows from rounding to nearest.
-/
namespace Verif.Props.Float64
open Verif Verif.Float64

/-! ### The numbers that can be represented -/

theorem rep_mul (m : ℤ) (e : ℤ) (hm : |m| ≤ 2 ^ 53) (h1 : -1074 ≤ e) (h2 : e ≤ 970) : Rep (m * (2 : ℚ) ^ e) := ⟨m, e, hm, h1, h2, rfl⟩

theorem rep_int (m : ℤ) (hm : |m| ≤ 2 ^ 53) : Rep (m : ℚ) := ⟨m, 0, hm, by norm_num, by norm_num, by simp⟩

theorem rep_nat (n : Nat) (hn : n ≤ 2 ^ 53) : Rep (n : ℚ) := by
  have := rep_int (n : ℤ) (by rw [abs_of_nonneg (by positivity)]; exact_mod_cast hn)
  simpa using this

theorem rep_zero : Rep 0 := by simpa using rep_int 0 (by norm_num)
theorem rep_one : Rep 1 := by simpa using rep_int 1 (by norm_num)

theorem rep_pow (e : ℤ) (h1 : -1074 ≤ e) (h2 : e ≤ 970) : Rep ((2 : ℚ) ^ e) := by
  simpa using rep_mul 1 e (by norm_num) h1 h2

theorem rep_neg {x : ℚ} (h : Rep x) : Rep (-x) := by
  obtain ⟨m, e, h1, h2, h3, rfl⟩ := h
  exact ⟨-m, e, by rwa [abs_neg], h2, h3, by push_cast; ring⟩

/-- All of them are multiples of the smallest. -/
theorem grain {x : ℚ} (h : Rep x) : ∃ k : ℤ, x = k * (2 : ℚ) ^ (-1074 : ℤ) := by
  obtain ⟨m, e, -, h2, -, rfl⟩ := h
  obtain ⟨n, hn⟩ := Int.eq_ofNat_of_zero_le (show 0 ≤ e + 1074 by omega)
  refine ⟨m * 2 ^ n, ?_⟩
  have : (2 : ℚ) ^ e = (2 : ℚ) ^ n * (2 : ℚ) ^ (-1074 : ℤ) := by
    rw [← zpow_natCast, ← zpow_add₀ (by norm_num)]; congr 1; omega
  rw [this]
  generalize (2 : ℚ) ^ (-1074 : ℤ) = g
  push_cast; ring

/-- Above a power of two they are multiples of a larger one. -/
theorem grain_above {x : ℚ} (h : Rep x) (p : ℤ) (hp : (2 : ℚ) ^ p ≤ x) : ∃ k : ℤ, x = k * (2 : ℚ) ^ (p - 52) := by
  obtain ⟨m, e, h1, h2, -, rfl⟩ := h
  have hm : (m : ℚ) ≤ 2 ^ 53 := by exact_mod_cast le_trans (le_abs_self m) h1
  have he : (0 : ℚ) < (2 : ℚ) ^ e := by positivity
  have hlt : p - 53 ≤ e := by
    by_contra hcon
    have h3 : (m : ℚ) * (2 : ℚ) ^ e ≤ 2 ^ 53 * (2 : ℚ) ^ e := by nlinarith
    have h4 : (2 : ℚ) ^ (53 : ℕ) * (2 : ℚ) ^ e = (2 : ℚ) ^ (53 + e) := by rw [← zpow_natCast, ← zpow_add₀ (by norm_num)]; rfl
    have h5 : (2 : ℚ) ^ (53 + e) < (2 : ℚ) ^ p := zpow_lt_zpow_right₀ (by norm_num) (by omega)
    linarith
  rcases eq_or_lt_of_le hlt with heq | hgt
  · -- then the number is the power of two
    have h6 : (2 : ℚ) ^ p = 2 ^ 53 * (2 : ℚ) ^ e := by
      rw [← heq, ← zpow_natCast, ← zpow_add₀ (by norm_num)]; congr 1; push_cast; omega
    have h7 : (m : ℚ) = 2 ^ 53 := by
      apply le_antisymm hm
      rw [h6] at hp
      exact le_of_mul_le_mul_right hp he
    refine ⟨2 ^ 52, ?_⟩
    rw [h7, ← heq, show p - 52 = 1 + (p - 53) by omega, zpow_add₀ (by norm_num), zpow_one]
    push_cast; ring
  · obtain ⟨n, hn⟩ := Int.eq_ofNat_of_zero_le (show 0 ≤ e - (p - 52) by omega)
    refine ⟨m * 2 ^ n, ?_⟩
    have : (2 : ℚ) ^ e = (2 : ℚ) ^ n * (2 : ℚ) ^ (p - 52) := by
      rw [← zpow_natCast, ← zpow_add₀ (by norm_num)]; congr 1; omega
    rw [this]; push_cast; ring

/-- A number below 1 is at most the last before it. -/
theorem below_one {v : ℚ} (h : Rep v) (hv : v < 1) : v ≤ 1 - 1 / 2 ^ 53 := by
  by_cases hh : v < 1 / 2
  · norm_num; linarith
  · obtain ⟨k, hk⟩ := grain_above h (-1) (by norm_num; linarith)
    norm_num at hk
    have h1 : (k : ℚ) < 2 ^ 53 := by rw [hk] at hv; norm_num at hv ⊢; linarith
    have h2 : k ≤ 2 ^ 53 - 1 := by
      have : k < 2 ^ 53 := by exact_mod_cast h1
      omega
    have h3 : (k : ℚ) ≤ 2 ^ 53 - 1 := by exact_mod_cast h2
    rw [hk]; norm_num at h3 ⊢; linarith

/-! ### Rounding -/

variable {rnd : ℚ → ℚ} (hr : Nearest rnd)
include hr

theorem rnd_rep {x : ℚ} (hx : |x| ≤ 2 ^ 200) : Rep (rnd x) := (hr x hx).1

theorem rnd_fix {x : ℚ} (h : Rep x) (hx : |x| ≤ 2 ^ 200) : rnd x = x := by
  have := (hr x hx).2 x h
  rw [sub_self, abs_zero] at this
  linarith [abs_nonpos_iff.mp this]

theorem rnd_mono {x y : ℚ} (hx : |x| ≤ 2 ^ 200) (hy : |y| ≤ 2 ^ 200) (h : x ≤ y) : rnd x ≤ rnd y := by
  rcases eq_or_lt_of_le h with rfl | hlt
  · exact le_refl _
  by_contra hcon
  have hcon : rnd y < rnd x := lt_of_not_ge hcon
  have h1 := (hr x hx).2 _ (hr y hy).1
  have h2 := (hr y hy).2 _ (hr x hx).1
  rcases abs_cases (rnd x - x) with ⟨a1, b1⟩ | ⟨a1, b1⟩ <;> rcases abs_cases (rnd y - x) with ⟨a2, b2⟩ | ⟨a2, b2⟩ <;>
    rcases abs_cases (rnd y - y) with ⟨a3, b3⟩ | ⟨a3, b3⟩ <;> rcases abs_cases (rnd x - y) with ⟨a4, b4⟩ | ⟨a4, b4⟩ <;>
    rw [a1, a2] at h1 <;> rw [a3, a4] at h2 <;> linarith

theorem rnd_le {x y : ℚ} (hx : |x| ≤ 2 ^ 200) (hy : Rep y) (hy' : |y| ≤ 2 ^ 200) (h : x ≤ y) : rnd x ≤ y := by
  have := rnd_mono hr hx hy' h
  rwa [rnd_fix hr hy hy'] at this

theorem le_rnd {x y : ℚ} (hx : |x| ≤ 2 ^ 200) (hy : Rep y) (hy' : |y| ≤ 2 ^ 200) (h : y ≤ x) : y ≤ rnd x := by
  have := rnd_mono hr hy' hx h
  rwa [rnd_fix hr hy hy'] at this

theorem rnd_nonneg {x : ℚ} (hx : |x| ≤ 2 ^ 200) (h : 0 ≤ x) : 0 ≤ rnd x :=
  le_rnd hr hx rep_zero (by norm_num) h

/-- The relative error of one operation, against the result and against the exact value. -/
theorem rnd_err {x : ℚ} (h1 : 1 / 2 ^ 200 ≤ x) (h2 : x ≤ 2 ^ 200) :
    |rnd x - x| ≤ 1 / 2 ^ 53 * rnd x ∧ |rnd x - x| ≤ 1 / 2 ^ 53 * x := by
  have hpos : 0 < x := lt_of_lt_of_le (by positivity) h1
  have hx : |x| ≤ 2 ^ 200 := by rwa [abs_of_pos hpos]
  obtain ⟨e, hlo, hhi⟩ : ∃ e : ℤ, (2 : ℚ) ^ e ≤ x ∧ x < (2 : ℚ) ^ (e + 1) :=
    ⟨Int.log 2 x, by exact_mod_cast Int.zpow_log_le_self (by norm_num) hpos, by exact_mod_cast Int.lt_zpow_succ_log_self (by norm_num) x⟩
  have he1 : -201 < e := by
    by_contra hc
    have h3 : (2 : ℚ) ^ (e + 1) ≤ (2 : ℚ) ^ (-200 : ℤ) := zpow_le_zpow_right₀ (by norm_num) (by omega)
    have h4 : (2 : ℚ) ^ (-200 : ℤ) = 1 / 2 ^ 200 := by norm_num
    rw [h4] at h3
    exact absurd (lt_of_le_of_lt h1 (lt_of_lt_of_le hhi h3)) (lt_irrefl _)
  have he2 : e ≤ 200 := by
    by_contra hc
    have h3 : (2 : ℚ) ^ (201 : ℤ) ≤ (2 : ℚ) ^ e := zpow_le_zpow_right₀ (by norm_num) (by omega)
    have h4 : (2 : ℚ) ^ (201 : ℤ) = 2 * 2 ^ 200 := by norm_num
    have h5 : (0 : ℚ) < 2 ^ 200 := by positivity
    linarith
  have hg : (0 : ℚ) < (2 : ℚ) ^ (e - 52) := by positivity
  have hgl : (2 : ℚ) ^ e = 2 ^ 52 * (2 : ℚ) ^ (e - 52) := by
    rw [← zpow_natCast, ← zpow_add₀ (by norm_num)]; congr 1; omega
  have hgh : (2 : ℚ) ^ (e + 1) = 2 ^ 53 * (2 : ℚ) ^ (e - 52) := by
    rw [← zpow_natCast, ← zpow_add₀ (by norm_num)]; congr 1; omega
  -- the neighbours
  generalize hG : (2 : ℚ) ^ (e - 52) = g at *
  have hk1 := Int.floor_le (x / g)
  have hk2 := Int.lt_floor_add_one (x / g)
  generalize ⌊x / g⌋ = k at *
  rw [le_div_iff₀ hg] at hk1
  rw [div_lt_iff₀ hg] at hk2
  have hkpos : 0 ≤ k := by
    by_contra hc
    have h6 : (k : ℚ) + 1 ≤ 0 := by exact_mod_cast (show k + 1 ≤ 0 by omega)
    nlinarith
  have hklt : k + 1 ≤ 2 ^ 53 := by
    have h6 : (k : ℚ) < 2 ^ 53 := by
      by_contra hc
      have : (2 : ℚ) ^ 53 ≤ k := le_of_not_gt hc
      nlinarith
    have : k < 2 ^ 53 := by exact_mod_cast h6
    omega
  have r1 : Rep ((k : ℚ) * g) := by rw [← hG]; exact rep_mul k _ (by rw [abs_of_nonneg hkpos]; omega) (by omega) (by omega)
  have r2 : Rep (((k + 1 : ℤ) : ℚ) * g) := by rw [← hG]; exact rep_mul (k + 1) _ (by rw [abs_of_nonneg (by omega)]; omega) (by omega) (by omega)
  have n1 := (hr x hx).2 _ r1
  have n2 := (hr x hx).2 _ r2
  have herr : |rnd x - x| ≤ g / 2 := by
    rw [abs_of_nonpos (by linarith : (k : ℚ) * g - x ≤ 0)] at n1
    rw [abs_of_nonneg (by push_cast; linarith : (0 : ℚ) ≤ ((k + 1 : ℤ) : ℚ) * g - x)] at n2
    push_cast at n2
    linarith
  have hge : (2 : ℚ) ^ e ≤ rnd x := by
    apply le_rnd hr hx (rep_pow e (by omega) (by omega)) ?_ hlo
    rw [abs_of_pos (by positivity)]; linarith
  rw [hgl] at hge hlo
  constructor
  · refine le_trans herr ?_; norm_num at hge ⊢; linarith
  · refine le_trans herr ?_; norm_num at hlo ⊢; linarith

/-- The difference of two numbers is rounded to something positive exactly if it is positive. -/
theorem rnd_sub_pos {x y : ℚ} (hx : Rep x) (hy : Rep y) (h : |x - y| ≤ 2 ^ 200) : 0 < rnd (x - y) ↔ y < x := by
  constructor
  · intro hp
    by_contra hc
    have := rnd_le hr h rep_zero (by norm_num) (by linarith : x - y ≤ 0)
    linarith
  · intro hlt
    obtain ⟨a, ha⟩ := grain hx
    obtain ⟨b, hb⟩ := grain hy
    have hg : (0 : ℚ) < (2 : ℚ) ^ (-1074 : ℤ) := by positivity
    have hab : b < a := by
      have : (b : ℚ) < a := by rw [ha, hb] at hlt; exact lt_of_mul_lt_mul_right hlt hg.le
      exact_mod_cast this
    have h1 : (1 : ℚ) ≤ a - b := by exact_mod_cast (show 1 ≤ a - b by omega)
    have h2 : (2 : ℚ) ^ (-1074 : ℤ) ≤ x - y := by rw [ha, hb]; nlinarith
    refine lt_of_lt_of_le hg (le_rnd hr h (rep_pow _ (by norm_num) (by norm_num)) ?_ h2)
    rw [abs_of_pos hg]
    calc (2 : ℚ) ^ (-1074 : ℤ) ≤ (2 : ℚ) ^ (0 : ℤ) := zpow_le_zpow_right₀ (by norm_num) (by norm_num)
      _ ≤ 2 ^ 200 := by norm_num

omit hr

/-- There is such a rounding (so what is proved for all of them says something). -/
theorem nearest_exists : ∃ rnd : ℚ → ℚ, Nearest rnd := by
  have key : ∀ x : ℚ, ∃ y : ℚ, Rep y ∧ ∀ z : ℚ, Rep z → |y - x| ≤ |z - x| := by
    intro x
    have hg : (0 : ℚ) < (2 : ℚ) ^ (-1074 : ℤ) := by positivity
    let S : Set ℚ := {z | Rep z ∧ |z| ≤ 2 * |x|}
    have hfin : S.Finite := by
      let K : ℤ := ⌈2 * |x| / (2 : ℚ) ^ (-1074 : ℤ)⌉
      refine Set.Finite.subset ((Set.finite_Icc (-K) K).image fun k : ℤ => (k : ℚ) * (2 : ℚ) ^ (-1074 : ℤ)) ?_
      rintro z ⟨hz, hzb⟩
      obtain ⟨k, rfl⟩ := grain hz
      refine ⟨k, ?_, rfl⟩
      rw [abs_mul, abs_of_pos hg, ← le_div_iff₀ hg] at hzb
      have h1 : (|k| : ℤ) ≤ K := by
        have : ((|k| : ℤ) : ℚ) ≤ K := by push_cast; exact le_trans hzb (Int.le_ceil _)
        exact_mod_cast this
      exact abs_le.mp h1
    obtain ⟨y, ⟨hy, -⟩, hmin⟩ := Set.exists_min_image S (fun z => |z - x|) hfin ⟨0, rep_zero, by simp⟩
    refine ⟨y, hy, fun z hz => ?_⟩
    by_cases hb : |z| ≤ 2 * |x|
    · exact hmin z ⟨hz, hb⟩
    · have h0 := hmin 0 ⟨rep_zero, by simp⟩
      simp only [zero_sub, abs_neg] at h0
      have h1 : |z| ≤ |z - x| + |x| := by simpa using abs_add_le (z - x) x
      linarith
  choose f hf using key
  exact ⟨f, fun x _ => hf x⟩

end Verif.Props.Float64
