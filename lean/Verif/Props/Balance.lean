/-
C17 - C20: load-balance, fastest and fastest-tcp groups.
-/
import Verif.Model.Balance
import Verif.Spec.Balance
set_option linter.unusedVariables false
namespace Verif.Props.Balance
open Verif Verif.Group Verif.Balance Verif.Spec.Balance

/-! ### C17: each member at most once -/

private theorem cons_set_perm : ∀ (l : List Nat) (p : Nat) (x y : Nat), l[p]? = some x → (x :: l.set p y).Perm (y :: l) := by
  intro l
  induction l with
  | nil => intro p x y h; simp at h
  | cons a l ih =>
    intro p x y h
    cases p with
    | zero => simp only [List.getElem?_cons_zero, Option.some.injEq] at h; subst h; exact List.Perm.swap _ _ _
    | succ p =>
      simp only [List.getElem?_cons_succ] at h
      simp only [List.set_cons_succ]
      exact (List.Perm.swap _ _ _).trans (((ih p x y h).cons a).trans (List.Perm.swap _ _ _))

theorem swapRemove_perm (l : List Nat) (p x : Nat) (h : l[p]? = some x) : (x :: swapRemove l p).Perm l := by
  unfold swapRemove
  cases hl : l.getLast? with
  | none => rw [List.getLast?_eq_none_iff] at hl; subst hl; simp at h
  | some y =>
    obtain ⟨init, rfl⟩ := List.getLast?_eq_some_iff.mp hl
    simp only
    by_cases hp : p < init.length
    · rw [List.set_append_left _ _ hp, List.dropLast_concat]
      rw [List.getElem?_append_left hp] at h
      exact (cons_set_perm init p x y h).trans (List.perm_append_comm (l₁ := [y]))
    · have hp' : p = init.length := by
        have : p < (init ++ [y]).length := by
          rcases Nat.lt_or_ge p (init ++ [y]).length with h' | h'
          · exact h'
          · rw [List.getElem?_eq_none h'] at h; cases h
        simp at this; omega
      subst hp'
      simp at h; subst h
      simp only [List.set_append_right _ _ (Nat.le_refl _), Nat.sub_self, List.set_cons_zero, List.dropLast_concat]
      exact List.perm_append_comm (l₁ := [y])

private theorem loop_spec (ok : Res → Bool) (beh : Nat → Res) (choose : Nat → Nat) : ∀ (fuel round : Nat) (rem : List Nat) (last : Res),
    (ok Res.drop = true) → rem.length = fuel → rem.Nodup → (∀ i, i < fuel → choose (round + i) < fuel - i) →
    ∃ res asked, loop ok beh choose fuel round rem last = some (res, asked) ∧ asked.Nodup ∧ (∀ m, m ∈ asked → m ∈ rem) ∧
      (∀ m, m ∈ asked.dropLast → ok (beh m) = false) ∧
      ((∃ m, asked.getLast? = some m ∧ res = beh m ∧ ok res = true) ∨
       ((∀ m, m ∈ rem → m ∈ asked ∧ ok (beh m) = false) ∧
        (asked = [] ∧ (last = Res.drop ∨ res = last) ∨ ∃ m, asked.getLast? = some m ∧ res = beh m))) := by
  intro fuel
  induction fuel with
  | zero =>
    intro round rem last hdr hl _ _
    have : rem = [] := List.length_eq_zero_iff.mp hl
    subst this
    refine ⟨_, [], rfl, .nil, by simp, by simp, .inr ⟨by simp, .inl ⟨rfl, ?_⟩⟩⟩
    by_cases h : last = Res.drop
    · exact .inl h
    · exact .inr (by rw [if_neg h])
  | succ fuel ih =>
    intro round rem last hdr hl hnd hch
    have h0 : choose round < rem.length := by have := hch 0 (by omega); simp at this; omega
    have hget : rem[choose round]? = some rem[choose round] := List.getElem?_eq_getElem h0
    generalize hx : rem[choose round] = x at hget
    have hperm := swapRemove_perm rem (choose round) x hget
    have hnd' := hperm.symm.nodup hnd
    rw [List.nodup_cons] at hnd'
    have hlen : (swapRemove rem (choose round)).length = fuel := by
      have := hperm.length_eq; simp at this; omega
    simp only [loop, hget]
    by_cases hok : ok (beh x) = true
    · rw [if_pos hok]
      refine ⟨beh x, [x], rfl, by simp, ?_, by simp, .inl ⟨x, rfl, rfl, hok⟩⟩
      intro m hm; rw [List.mem_singleton] at hm; subst hm
      exact List.mem_of_getElem? hget
    · rw [if_neg hok]
      obtain ⟨res, asked, he, hn, hsub, hfail, hres⟩ := ih (round + 1) (swapRemove rem (choose round)) (beh x) hdr hlen hnd'.2
        (fun i hi => by have := hch (i + 1) (by omega); rw [show round + 1 + i = round + (i + 1) by omega]; omega)
      rw [he]
      have hokf : ok (beh x) = false := by simpa using hok
      refine ⟨res, x :: asked, rfl, ?_, ?_, ?_, ?_⟩
      · exact List.nodup_cons.mpr ⟨fun h => hnd'.1 (hsub x h), hn⟩
      · intro m hm
        rcases List.mem_cons.mp hm with h | h
        · subst h; exact List.mem_of_getElem? hget
        · exact hperm.mem_iff.mp (List.mem_cons_of_mem _ (hsub m h))
      · intro m hm
        cases asked with
        | nil => simp at hm
        | cons b bs =>
          rw [List.dropLast_cons_cons] at hm
          rcases List.mem_cons.mp hm with h | h
          · subst h; exact hokf
          · exact hfail m h
      · rcases hres with ⟨m, h1, h2, h3⟩ | ⟨h1, h2⟩
        · exact .inl ⟨m, by rw [List.getLast?_cons, h1]; rfl, h2, h3⟩
        · right
          refine ⟨?_, .inr ?_⟩
          · intro m hm
            rcases List.mem_cons.mp (hperm.mem_iff.mpr hm) with h | h
            · subst h; exact ⟨List.mem_cons_self, hokf⟩
            · exact ⟨List.mem_cons_of_mem _ (h1 m h).1, (h1 m h).2⟩
          · rcases h2 with ⟨h3, h4⟩ | ⟨m, h3, h4⟩
            · subst h3; refine ⟨x, rfl, ?_⟩
              rcases h4 with h4 | h4
              · rw [h4, hdr] at hokf; cases hokf
              · exact h4
            · exact ⟨m, by rw [List.getLast?_cons, h3]; rfl, h4⟩

/-- C17: whatever positions are picked (each valid for the number of members left), a query is sent to each member at most once, stops at
the first success and gives up only after all failed. -/
theorem loadbalance_each_once (n : Nat) (hn : 0 < n) (servfailErr emptyErr : Bool) (beh : Nat → Res) (choose : Nat → Nat)
    (hch : ∀ i, i < n → choose i < n - i) :
    ∃ res asked, resolve n (succeeded servfailErr emptyErr) beh choose = some (res, asked) ∧
      EachOnce n (fun r => succeeded servfailErr emptyErr r = true) beh asked res := by
  obtain ⟨res, asked, he, hnd, hsub, hfail, hres⟩ := loop_spec (succeeded servfailErr emptyErr) beh choose n 0 (List.range n) Res.drop
    (by simp [succeeded, Res.drop, isSuccessResponse]) (by simp)
    List.nodup_range (fun i hi => by rw [Nat.zero_add]; exact hch i hi)
  refine ⟨res, asked, he, hnd, fun m hm => List.mem_range.mp (hsub m hm), fun m hm => by rw [hfail m hm]; simp, ?_⟩
  rcases hres with h | ⟨h1, h2⟩
  · exact .inl h
  · right
    refine ⟨fun m hm => ⟨(h1 m (List.mem_range.mpr hm)).1, by rw [(h1 m (List.mem_range.mpr hm)).2]; simp⟩, ?_⟩
    rcases h2 with ⟨h3, _⟩ | h2
    · have := (h1 0 (List.mem_range.mpr hn)).1
      rw [h3] at this; cases this
    · exact h2

/-- Three members: position 1, then 1 again (the third member, moved there), then the one left. -/
example : let beh : Nat → Res := fun m => if m = 0 then .ok {} else .fail "down"
    resolve 3 (succeeded false false) beh (fun i => if i < 2 then 1 else 0) = some (.ok {}, [1, 2, 0]) := by decide

private theorem foldl_sum : ∀ (ws : List Rat) (a : Rat), ws.foldl (· + ·) a = a + ws.sum := by
  intro ws
  induction ws with
  | nil => intro a; simp [Rat.add_zero]
  | cons w ws ih => intro a; rw [List.foldl_cons, ih, List.sum_cons, Rat.add_assoc]

private theorem walk_spec : ∀ (ws : List Rat) (n i : Nat) (x : Rat), ws ≠ [] → x ≤ ws.sum →
    ∃ j, walk n i x ws = i + j ∧ j < ws.length ∧ x ≤ (ws.take (j + 1)).sum ∧ (0 < j → (ws.take j).sum < x) := by
  intro ws
  induction ws with
  | nil => intro n i x h; exact absurd rfl h
  | cons w ws ih =>
    intro n i x _ hx
    simp only [walk]
    by_cases h : x - w ≤ 0
    · rw [if_pos h]
      refine ⟨0, rfl, by simp, ?_, by omega⟩
      simp only [Nat.zero_add, List.take_succ_cons, List.take_zero, List.sum_cons, List.sum_nil]
      grind
    · rw [if_neg h]
      rw [List.sum_cons] at hx
      have hne : ws ≠ [] := by
        rintro rfl; simp only [List.sum_nil] at hx; grind
      obtain ⟨j, h1, h2, h3, h4⟩ := ih n (i + 1) (x - w) hne (by grind)
      refine ⟨j + 1, by omega, by simpa using h2, ?_, ?_⟩
      · rw [List.take_succ_cons, List.sum_cons]; grind
      · intro _
        rw [List.take_succ_cons, List.sum_cons]
        by_cases hj : 0 < j
        · have := h4 hj; grind
        · have : j = 0 := by omega
          subst this; simp only [List.take_zero, List.sum_nil]; grind

private theorem sum_nonneg : ∀ (ws : List Rat), (∀ w, w ∈ ws → 0 < w) → 0 ≤ ws.sum := by
  intro ws
  induction ws with
  | nil => intro _; simp
  | cons w ws ih =>
    intro h
    have := ih (fun w hw => h w (List.mem_cons_of_mem _ hw))
    have := h w List.mem_cons_self
    rw [List.sum_cons]; grind

/-- C17: outside exploration the member picked is the one in whose stretch of the summed weights the draw falls: each is picked with probability
proportional to its weight. -/
theorem loadbalance_pick_weighted (u v : Rat) (ws : List Rat) (hne : ws ≠ []) (hw : ∀ w, w ∈ ws → 0 < w)
    (hu : ¬ u < 1 / 20) (hv0 : 0 ≤ v) (hv1 : v < 1) :
    pick u v ws < ws.length ∧ v * ws.sum ≤ (ws.take (pick u v ws + 1)).sum ∧
    (0 < pick u v ws → (ws.take (pick u v ws)).sum < v * ws.sum) := by
  have hle : v * ws.sum ≤ ws.sum := by
    have := Rat.mul_le_mul_of_nonneg_right (Rat.le_of_lt hv1) (sum_nonneg ws hw)
    rwa [Rat.one_mul] at this
  obtain ⟨j, h1, h2, h3, h4⟩ := walk_spec ws ws.length 0 _ hne hle
  have hp : pick u v ws = j := by
    unfold pick
    rw [if_neg hu, foldl_sum, Rat.zero_add, h1, Nat.zero_add]
  rw [hp]; exact ⟨h2, h3, h4⟩

/-- C17: the position picked is valid whatever the draws and weights. -/
theorem loadbalance_pick_valid (u v : Rat) (ws : List Rat) (hne : ws ≠ []) (hw : ∀ w, w ∈ ws → 0 < w)
    (hv0 : 0 ≤ v) (hv1 : v < 1) : pick u v ws < ws.length := by
  by_cases hu : u < 1 / 20
  · unfold pick
    rw [if_pos hu]
    have hlen : 0 < ws.length := List.length_pos_iff.mpr hne
    have hl : (0 : Rat) < (ws.length : Rat) := by exact_mod_cast hlen
    have h1 : (v * (ws.length : Rat)).floor < (ws.length : Int) := by
      rw [Rat.floor_lt_iff]
      have := (Rat.mul_lt_mul_right hl).mpr hv1
      rw [Rat.one_mul] at this
      exact_mod_cast this
    omega
  · exact (loadbalance_pick_weighted u v ws hne hw hu hv0 hv1).1

/-- C17: and even if the amount to walk along the weights is too large, as rounding could make it: any amount, any weights. -/
theorem loadbalance_walk_valid (ws : List Rat) (hne : ws ≠ []) (x : Rat) : walk ws.length 0 x ws < ws.length := by
  have key : ∀ (l : List Rat) (n i : Nat) (x : Rat), 0 < n → i + l.length = n → walk n i x l < n := by
    intro l
    induction l with
    | nil => intro n i x h _; simp only [walk]; omega
    | cons w l ih =>
      intro n i x h hi
      simp only [List.length_cons] at hi
      simp only [walk]
      split
      · omega
      · exact ih n (i + 1) _ h (by omega)
  exact key ws ws.length 0 x (List.length_pos_iff.mpr hne) (by omega)

example : walk 2 0 10 [1, 2] = 1 := by decide +kernel

/-- C17: in exploration every member has the same share of the draws. -/
theorem loadbalance_pick_uniform (u v : Rat) (ws : List Rat) (hne : ws ≠ []) (hu : u < 1 / 20) (hv0 : 0 ≤ v) (hv1 : v < 1) (i : Nat) :
    pick u v ws = i ↔ (i : Rat) ≤ v * (ws.length : Rat) ∧ v * (ws.length : Rat) < (i : Rat) + 1 := by
  unfold pick
  rw [if_pos hu]
  have h0 : (0 : Int) ≤ (v * (ws.length : Rat)).floor := by
    rw [Rat.le_floor_iff]
    have : (0 : Rat) ≤ (ws.length : Rat) := by exact_mod_cast Nat.zero_le _
    exact_mod_cast Rat.mul_nonneg hv0 this
  have e1 : (i : Rat) ≤ v * (ws.length : Rat) ↔ (i : Int) ≤ (v * (ws.length : Rat)).floor := by
    rw [Rat.le_floor_iff]; norm_cast
  have e2 : v * (ws.length : Rat) < (i : Rat) + 1 ↔ (v * (ws.length : Rat)).floor < (i : Int) + 1 := by
    rw [Rat.floor_lt_iff]; norm_cast
  rw [e1, e2]; omega

example : pick (1/2) (1/2) [1, 100, 1] = 1 := by
  unfold pick; simp [walk]; grind

/-! ### C18: statistics -/

theorem sample_ge_one (d : Int) : 1 ≤ sample d := by
  unfold sample
  have : (1 : Int) ≤ (if d < 1000 then 1000 else d) / 1000 := by split <;> omega
  generalize (if d < 1000 then (1000 : Int) else d) / 1000 = x at this
  exact_mod_cast this

private theorem div_anti (c a b : Rat) (hc : 0 ≤ c) (ha : 0 < a) (h : a ≤ b) : c / b ≤ c / a := by
  rcases Rat.le_total (a := c / b) (b := c / a) with h' | h'
  · exact h'
  · have hb : 0 < b := by grind
    apply Classical.byContradiction; intro hn
    have hlt : c / a < c / b := by grind
    rw [Rat.div_lt_iff ha] at hlt
    have hpos : 0 ≤ c / b := by
      rw [Rat.div_def]; exact Rat.mul_nonneg hc (Rat.le_of_lt (Rat.inv_pos.mpr hb))
    have h2 := Rat.mul_le_mul_of_nonneg_left h hpos
    have h3 : c / b * b = c := by
      rw [Rat.div_def, Rat.mul_assoc, Rat.inv_mul_cancel b (by grind), Rat.mul_one]
    grind

/-- What a member can have gone through: updates in the order of their locked regions. -/
inductive Op where
  | success (d : Int)
  /-- a failure, with the failure streak the code saw -/
  | failure (fails : Nat) (elapsed : Int)

def apply (penalty : Int) (s : Stats) : Op → Stats
  | .success d => updateOnSuccess s d
  | .failure f d => updateOnFailure penalty f s d

def history (penalty : Int) (ops : List Op) : Stats := ops.foldl (apply penalty) {}

/-- The sample an update contributes, in microseconds: the time measured; the penalty if it applies; the baseline at least for the first
update if that is a failure. -/
def contributes (penalty : Int) (first : Bool) : Op → Rat
  | .success d => sample d
  | .failure f d =>
    let us := sample (if penalty > 0 ∧ f ≥ 2 then penalty else d)
    if first then max us 100000 else us

def samples (penalty : Int) : List Op → List Rat
  | [] => []
  | o :: os => contributes penalty true o :: os.map (contributes penalty false)

private theorem penalize_iff (p : Int) (f : Nat) : penalize p f = true ↔ p > 0 ∧ f ≥ 2 := by
  simp [penalize, penaltyThreshold]

private theorem us_eq (p : Int) (f : Nat) (d : Int) :
    sample (if penalize p f then p else d) = sample (if p > 0 ∧ f ≥ 2 then p else d) := by
  congr 1
  by_cases h : p > 0 ∧ f ≥ 2
  · rw [if_pos h, if_pos ((penalize_iff p f).mpr h)]
  · rw [if_neg h, if_neg (fun h' => h ((penalize_iff p f).mp h'))]

private theorem count_apply (p : Int) (s : Stats) (o : Op) : (apply p s o).count = s.count + 1 := by
  cases o with
  | success d => rfl
  | failure f d =>
    simp only [apply, updateOnFailure]
    generalize sample _ = us
    split
    · next h => simp [h]
    · split <;> rfl

private theorem bounds_apply (p : Int) (s : Stats) (o : Op) (lo hi : Rat)
    (h : 0 < s.count → lo ≤ s.rttEMA ∧ s.rttEMA ≤ hi)
    (hs : lo ≤ contributes p (s.count = 0) o ∧ contributes p (s.count = 0) o ≤ hi) :
    lo ≤ (apply p s o).rttEMA ∧ (apply p s o).rttEMA ≤ hi := by
  cases o with
  | success d =>
    simp only [apply, updateOnSuccess, contributes] at hs ⊢
    by_cases hc : s.count = 0 ∨ s.emaInflated = true
    · rw [if_pos hc]; exact hs
    · rw [if_neg hc]
      have := h (by omega)
      constructor <;> grind
  | failure f d =>
    simp only [apply, updateOnFailure, contributes, us_eq] at hs ⊢
    by_cases hc : s.count = 0
    · rw [if_pos hc]; simp only [hc, decide_true, if_true] at hs; exact hs
    · rw [if_neg hc]
      simp only [hc, decide_false, Bool.false_eq_true, if_false] at hs
      have := h (by omega)
      generalize sample _ = us at hs ⊢
      split
      · constructor <;> (simp only; grind)
      · exact this

private theorem bounds_fold (p : Int) (lo hi : Rat) : ∀ (os : List Op) (s : Stats), 0 < s.count →
    lo ≤ s.rttEMA ∧ s.rttEMA ≤ hi → (∀ x, x ∈ os.map (contributes p false) → lo ≤ x ∧ x ≤ hi) →
    lo ≤ (os.foldl (apply p) s).rttEMA ∧ (os.foldl (apply p) s).rttEMA ≤ hi := by
  intro os
  induction os with
  | nil => intro s _ h _; exact h
  | cons o os ih =>
    intro s hc h hx
    rw [List.foldl_cons]
    refine ih _ (by rw [count_apply]; omega) ?_ (fun x hx' => hx x (List.mem_cons_of_mem _ hx'))
    refine bounds_apply p s o lo hi (fun _ => h) ?_
    have : decide (s.count = 0) = false := by simp; omega
    rw [this]; exact hx _ List.mem_cons_self

/-- C18: a member's average always lies between the smallest and the largest sample it was given. -/
theorem loadbalance_average_bounds (penalty : Int) (ops : List Op) (hne : ops ≠ []) (lo hi : Rat)
    (h : ∀ x, x ∈ samples penalty ops → lo ≤ x ∧ x ≤ hi) :
    lo ≤ (history penalty ops).rttEMA ∧ (history penalty ops).rttEMA ≤ hi := by
  cases ops with
  | nil => exact absurd rfl hne
  | cons o os =>
    simp only [history, List.foldl_cons]
    refine bounds_fold penalty lo hi os _ (by rw [count_apply]; omega) ?_ (fun x hx => h x (List.mem_cons_of_mem _ hx))
    exact bounds_apply penalty {} o lo hi (fun h => by simp at h) (h _ List.mem_cons_self)

private theorem contributes_ge_one (p : Int) (b : Bool) (o : Op) : 1 ≤ contributes p b o := by
  cases o with
  | success d => exact sample_ge_one d
  | failure f d =>
    simp only [contributes]
    have := sample_ge_one (if p > 0 ∧ f ≥ 2 then p else d)
    split
    · exact Std.le_trans this (by grind)
    · exact this

/-- C18: and is at least the minimum sample of one microsecond. -/
theorem loadbalance_average_min (penalty : Int) (ops : List Op) (hne : ops ≠ []) : 1 ≤ (history penalty ops).rttEMA := by
  cases ops with
  | nil => exact absurd rfl hne
  | cons o os =>
    have key : ∀ (os : List Op) (s : Stats), 1 ≤ s.rttEMA → 0 < s.count → 1 ≤ (os.foldl (apply penalty) s).rttEMA := by
      intro os
      induction os with
      | nil => intro s h _; exact h
      | cons o os ih =>
        intro s h hc
        rw [List.foldl_cons]
        refine ih _ ?_ (by rw [count_apply]; omega)
        have h1 := contributes_ge_one penalty (s.count = 0) o
        exact (bounds_apply penalty s o 1 (max s.rttEMA (contributes penalty (s.count = 0) o)) (fun _ => ⟨h, by grind⟩) ⟨h1, by grind⟩).1
    simp only [history, List.foldl_cons]
    refine key os _ ?_ (by rw [count_apply]; omega)
    exact (bounds_apply penalty {} o 1 _ (fun h => by simp at h) ⟨contributes_ge_one _ _ _, Rat.le_refl⟩).1

private theorem history_inv (penalty : Int) (ops : List Op) : 0 < (history penalty ops).count → 1 ≤ (history penalty ops).rttEMA := by
  intro h
  cases ops with
  | nil => simp [history] at h
  | cons o os => exact loadbalance_average_min penalty _ (by simp)

private theorem weight_anti (s s' : Stats) (hs : 0 < s.count) (hs' : 0 < s'.count) (h1 : 1 ≤ s.rttEMA)
    (h : s.rttEMA ≤ s'.rttEMA) : weight s' ≤ weight s := by
  unfold weight
  rw [if_pos ⟨hs', by grind⟩, if_pos ⟨hs, by grind⟩]
  apply div_anti
  · decide
  · grind
  · grind

/-- C18: after any history, a failure the penalty does not apply to never lowers the average and never raises the weight. For a member never
asked before the weight is that of an unknown member. -/
theorem loadbalance_failure_never_rewards (penalty : Int) (ops : List Op) (fails : Nat) (elapsed : Int)
    (hp : ¬ (penalty > 0 ∧ fails ≥ 2)) :
    let s := history penalty ops
    let s' := updateOnFailure penalty fails s elapsed
    s.rttEMA ≤ s'.rttEMA ∧ weight s' ≤ weight s := by
  intro s s'
  have hpf : penalize penalty fails = false := by
    cases h : penalize penalty fails with
    | false => rfl
    | true => exact absurd ((penalize_iff _ _).mp h) hp
  have hinv := history_inv penalty ops
  have hc' : 0 < s'.count := by
    show 0 < (apply penalty s (.failure fails elapsed)).count
    rw [count_apply]; omega
  by_cases hc : s.count = 0
  · have hs0 : s = {} := by
      cases ops with
      | nil => rfl
      | cons o os =>
        exfalso
        have : ∀ (os : List Op) (t : Stats), t.count ≤ (os.foldl (apply penalty) t).count := by
          intro os
          induction os with
          | nil => intro t; exact Nat.le_refl _
          | cons o os ih => intro t; rw [List.foldl_cons]; have := ih (apply penalty t o); rw [count_apply] at this; omega
        have h2 := this os (apply penalty {} o)
        rw [count_apply] at h2
        have : s.count = (os.foldl (apply penalty) (apply penalty {} o)).count := rfl
        omega
    have hs' : s'.rttEMA = max (sample elapsed) 100000 := by
      show (updateOnFailure penalty fails s elapsed).rttEMA = _
      simp only [updateOnFailure, if_pos hc, hpf, Bool.false_eq_true, if_false]
    have hge : (100000 : Rat) ≤ s'.rttEMA := by rw [hs']; grind
    constructor
    · rw [hs0]; show (0 : Rat) ≤ _; grind
    · rw [hs0]
      have hw : weight ({} : Stats) = 1 := by simp [weight]
      rw [hw]
      unfold weight
      rw [if_pos ⟨hc', by grind⟩]
      have h1 := div_anti 100000 100000 (max s'.rttEMA minWeightRTT) (by decide) (by decide) (by grind)
      have h2 : (100000 : Rat) / 100000 = 1 := by grind
      rw [h2] at h1; exact h1
  · have h1 := hinv (by show 0 < s.count; omega)
    have hle : s.rttEMA ≤ s'.rttEMA := by
      show s.rttEMA ≤ (updateOnFailure penalty fails s elapsed).rttEMA
      simp only [updateOnFailure, if_neg hc, hpf, Bool.false_eq_true, if_false, false_or]
      split
      · next h => exact Rat.le_of_lt h
      · exact Rat.le_refl
    exact ⟨hle, weight_anti s s' (by omega) hc' h1 hle⟩

/-- C17: the weight of a member is 100 ms divided by its average, at most 100 (an average below a millisecond counts as one); without measurements it is 1. Averages are in microseconds. -/
theorem loadbalance_weight (s : Stats) : (s.count = 0 → weight s = 1) ∧ (s.count > 0 → s.rttEMA ≥ 1000 → weight s = 100000 / s.rttEMA) ∧
    (s.count > 0 → 0 < s.rttEMA → s.rttEMA ≤ 1000 → weight s = 100) := by
  unfold weight
  refine ⟨fun h => if_neg (by omega), fun h h1 => ?_, fun h h1 h2 => ?_⟩
  · rw [if_pos ⟨h, by grind⟩, show max s.rttEMA minWeightRTT = s.rttEMA by grind]
  · rw [if_pos ⟨h, h1⟩, show max s.rttEMA minWeightRTT = 1000 by grind]
    grind

/-- C18: the first failure seeds at least the baseline of 100 ms. -/
theorem loadbalance_first_failure (penalty : Int) (fails : Nat) (elapsed : Int) :
    100000 ≤ (history penalty [.failure fails elapsed]).rttEMA := by
  show (100000 : Rat) ≤ (updateOnFailure penalty fails {} elapsed).rttEMA
  simp only [updateOnFailure, if_true]; grind

/-- C18: after failures that raised the average, one success sets it to the time measured. -/
theorem loadbalance_recovers (penalty : Int) (ops : List Op) (fails : Nat) (elapsed d : Int)
    (hraise : (history penalty ops).rttEMA < (history penalty (ops ++ [.failure fails elapsed])).rttEMA) :
    (history penalty (ops ++ [.failure fails elapsed, .success d])).rttEMA = sample d := by
  have h1 : ∀ o, history penalty (ops ++ [o]) = apply penalty (history penalty ops) o := by
    intro o; simp [history, List.foldl_append]
  have h2 : history penalty (ops ++ [.failure fails elapsed, .success d])
      = updateOnSuccess (updateOnFailure penalty fails (history penalty ops) elapsed) d := by
    simp [history, List.foldl_append, apply]
  rw [h1] at hraise
  rw [h2]
  simp only [apply] at hraise
  simp only [updateOnSuccess]
  have : (updateOnFailure penalty fails (history penalty ops) elapsed).emaInflated = true := by
    unfold updateOnFailure at hraise ⊢
    simp only at hraise ⊢
    generalize sample _ = us at hraise ⊢
    split
    · rfl
    · next hc =>
      rw [if_neg hc] at hraise
      split
      · rfl
      · next hn => rw [if_neg hn] at hraise; simp only at hraise; grind
  rw [if_pos (.inr this)]

/-- The average was raised by failures since the last success: since then there was a failure to which the penalty applies, or one that raised the average, or the
very first update was a failure. -/
def Raised (penalty : Int) (ops : List Op) : Prop := ∃ pre fails elapsed post, ops = pre ++ .failure fails elapsed :: post ∧ (∀ d, .success d ∉ post) ∧
  (pre = [] ∨ (penalty > 0 ∧ fails ≥ 2) ∨ (history penalty pre).rttEMA < (history penalty (pre ++ [.failure fails elapsed])).rttEMA)

private theorem raised_success (penalty : Int) (ops : List Op) (d : Int) : ¬ Raised penalty (ops ++ [.success d]) := by
  rintro ⟨pre, f, e, post, h, hno, -⟩
  rcases List.eq_nil_or_concat post with rfl | ⟨post', x, rfl⟩
  · have := congrArg List.getLast? h
    simp at this
  · have := congrArg List.getLast? h
    simp only [List.concat_eq_append, List.getLast?_append, List.getLast?_cons] at this
    simp at this
    exact hno d (by simp [← this])

private theorem raised_failure (penalty : Int) (ops : List Op) (f : Nat) (e : Int) : Raised penalty (ops ++ [.failure f e]) ↔
    Raised penalty ops ∨ ops = [] ∨ (penalty > 0 ∧ f ≥ 2) ∨ (history penalty ops).rttEMA < (history penalty (ops ++ [.failure f e])).rttEMA := by
  constructor
  · rintro ⟨pre, f', e', post, h, hno, hr⟩
    rcases List.eq_nil_or_concat post with rfl | ⟨post', x, rfl⟩
    · obtain ⟨rfl, h2⟩ := List.append_inj' h rfl
      simp only [List.cons.injEq, Op.failure.injEq, and_true] at h2
      obtain ⟨rfl, rfl⟩ := h2
      exact .inr hr
    · rw [List.concat_eq_append, ← List.cons_append, ← List.append_assoc] at h
      obtain ⟨rfl, -⟩ := List.append_inj' h rfl
      exact .inl ⟨pre, f', e', post', rfl, fun d hd => hno d (by simp [hd]), hr⟩
  · rintro (⟨pre, f', e', post, rfl, hno, hr⟩ | h)
    · exact ⟨pre, f', e', post ++ [.failure f e], by simp, fun d hd => by
        rcases List.mem_append.mp hd with h | h
        · exact hno d h
        · simp at h, hr⟩
    · exact ⟨ops, f, e, [], by simp, by simp, h⟩

private theorem history_snoc (penalty : Int) (ops : List Op) (o : Op) : history penalty (ops ++ [o]) = apply penalty (history penalty ops) o := by
  simp [history, List.foldl_append]

private theorem history_count (penalty : Int) (ops : List Op) : (history penalty ops).count = 0 ↔ ops = [] := by
  rcases List.eq_nil_or_concat ops with rfl | ⟨ops, o, rfl⟩
  · simp [history]
  · rw [List.concat_eq_append, history_snoc]
    cases o with
    | success d => simp [apply, updateOnSuccess]
    | failure f e =>
      simp only [apply, updateOnFailure]
      generalize sample _ = us
      split
      · simp
      · split <;> simp

private theorem inflated_iff (penalty : Int) : ∀ (n : Nat) (ops : List Op), ops.length = n → ((history penalty ops).emaInflated = true ↔ Raised penalty ops) := by
  intro n
  induction n with
  | zero =>
    intro ops h
    have := List.length_eq_zero_iff.mp h
    subst this
    simp [history, Raised]
  | succ n ih =>
    intro ops h
    rcases List.eq_nil_or_concat ops with rfl | ⟨ops, o, rfl⟩
    · cases h
    · rw [List.concat_eq_append] at h ⊢
      have hi := ih ops (by simpa using h)
      cases o with
      | success d =>
        rw [history_snoc]
        simp only [apply, updateOnSuccess, Bool.false_eq_true, false_iff]
        exact raised_success penalty ops d
      | failure f e =>
        rw [raised_failure, history_snoc, ← hi, ← history_count penalty ops]
        have hp : penalize penalty f = true ↔ penalty > 0 ∧ f ≥ 2 := by simp [penalize, penaltyThreshold]
        rw [← hp]
        simp only [apply]
        unfold updateOnFailure
        dsimp only
        generalize sample _ = us
        generalize history penalty ops = s
        by_cases hc : s.count = 0
        · rw [if_pos hc]; simp [hc]
        · rw [if_neg hc]
          by_cases hn : penalize penalty f = true ∨ alpha * us + (1 - alpha) * s.rttEMA > s.rttEMA
          · rw [if_pos hn]
            simp only [true_iff]
            rcases hn with h | h
            · exact .inr (.inr (.inl h))
            · exact .inr (.inr (.inr h))
          · rw [if_neg hn]
            have h1 : ¬ s.rttEMA < s.rttEMA := by grind
            have h2 : ¬ penalize penalty f = true := fun h => hn (.inl h)
            simp [hc, h1, h2]

/-- C18: what a success does, after any history: the first one, and one after failures that raised the average, set the average to the time measured; any other
moves it by a tenth of the difference. -/
theorem loadbalance_success (penalty : Int) (ops : List Op) (d : Int) :
    (ops = [] ∨ Raised penalty ops → (history penalty (ops ++ [.success d])).rttEMA = sample d) ∧
    (ops ≠ [] → ¬ Raised penalty ops →
      (history penalty (ops ++ [.success d])).rttEMA = (history penalty ops).rttEMA + (1 / 10) * (sample d - (history penalty ops).rttEMA)) := by
  rw [history_snoc, ← inflated_iff penalty _ ops rfl, ne_eq, ← history_count penalty ops]
  simp only [apply, updateOnSuccess]
  constructor
  · intro h; rw [if_pos h]
  · intro h1 h2
    rw [if_neg (fun h => h.elim h1 h2)]
    show alpha * _ + (1 - alpha) * _ = _
    unfold alpha
    grind

/-- 100 ms, then 200 ms: the average moves to 110 ms. After a failure of 300 ms the next success counts alone. -/
example : (history 0 [.success 100000000, .success 200000000]).rttEMA = 110000 ∧ Raised 0 [.success 100000000, .failure 1 300000000] ∧
    (history 0 [.success 100000000, .failure 1 300000000, .success 50000000]).rttEMA = 50000 := by
  refine ⟨by decide +kernel, ⟨[.success 100000000], 1, 300000000, [], rfl, by simp, .inr (.inr (by decide +kernel))⟩, by decide +kernel⟩

/-- The exception found: a configured penalty below the member's average does reward failing. Average one second (a slow answer), penalty 10 ms:
the second failure in a row lowers the average and raises the weight. -/
theorem loadbalance_small_penalty_rewards : ∃ (ops : List Op) (penalty : Int), penalty > 0 ∧
    let s := history penalty ops
    let s' := updateOnFailure penalty 2 s 1000000000
    s'.rttEMA < s.rttEMA ∧ weight s < weight s' := by
  refine ⟨[.success 1000000000], 10000000, by decide, ?_⟩
  have hs : history 10000000 [.success 1000000000] = { rttEMA := 1000000, count := 1, emaInflated := false } := by
    simp [history, apply, updateOnSuccess, sample]
  have hs' : updateOnFailure 10000000 2 { rttEMA := 1000000, count := 1, emaInflated := false } 1000000000
      = { rttEMA := 901000, count := 2, emaInflated := true } := by
    simp [updateOnFailure, penalize, sample]; grind
  rw [hs]
  simp only [hs']
  refine ⟨by decide, ?_⟩
  simp only [weight]
  rw [if_pos (by decide), if_pos (by decide)]
  have e1 : max (1000000 : Rat) minWeightRTT = 1000000 := by grind
  have e2 : max (901000 : Rat) minWeightRTT = 901000 := by grind
  rw [e1, e2]; simp only [initialRTT]; grind

/-! ### C19: fastest -/

/-- C19: fastest returns the first good response to arrive, as soon as it is there, whatever arrives later. -/
theorem fastest_first_good (n : Nat) (bad rest : List Res) (r : Res) (hb : ∀ x, x ∈ bad → fastestGood x = false)
    (hr : fastestGood r = true) (hn : bad.length < n) : fastest n 0 (bad ++ r :: rest) = some r := by
  have key : ∀ (bad : List Res) (i : Nat), (∀ x, x ∈ bad → fastestGood x = false) → i + bad.length < n →
      fastest n i (bad ++ r :: rest) = some r := by
    intro bad
    induction bad with
    | nil => intro i _ _; simp [fastest, hr]
    | cons b bs ih =>
      intro i hb hn
      have := hb b List.mem_cons_self
      simp only [List.length_cons] at hn
      simp only [List.cons_append, fastest, this, Bool.false_eq_true, if_false]
      rw [if_neg (by omega)]
      exact ih (i + 1) (fun x hx => hb x (List.mem_cons_of_mem _ hx)) (by omega)
  exact key bad 0 hb (by omega)

/-- C19: if all `n` are bad the last one is returned. -/
theorem fastest_all_bad (n : Nat) (bad : List Res) (r : Res) (hb : ∀ x, x ∈ bad ++ [r] → fastestGood x = false)
    (hn : bad.length + 1 = n) : fastest n 0 (bad ++ [r]) = some r := by
  have key : ∀ (bad : List Res) (i : Nat), (∀ x, x ∈ bad ++ [r] → fastestGood x = false) → i + bad.length + 1 = n →
      fastest n i (bad ++ [r]) = some r := by
    intro bad
    induction bad with
    | nil =>
      intro i hb hn
      simp only [List.length_nil, Nat.add_zero] at hn
      simp [fastest, hn]
    | cons b bs ih =>
      intro i hb hn
      have := hb b (by simp)
      simp only [List.length_cons] at hn
      simp only [List.cons_append, fastest, this, Bool.false_eq_true, if_false]
      rw [if_neg (by omega)]
      exact ih (i + 1) (fun x hx => hb x (List.mem_cons_of_mem _ hx)) (by omega)
  exact key bad 0 hb (by omega)

/-- C19: with at least one member the call returns once everybody has answered, in whatever order. -/
theorem fastest_terminates (n : Nat) (hn : 0 < n) (arrivals : List Res) (hl : arrivals.length = n) :
    (fastest n 0 arrivals).isSome := by
  have key : ∀ (l : List Res) (i : Nat), l ≠ [] → i + l.length = n → (fastest n i l).isSome := by
    intro l
    induction l with
    | nil => intro i h; exact absurd rfl h
    | cons b bs ih =>
      intro i _ hl
      simp only [List.length_cons] at hl
      simp only [fastest]
      split
      · rfl
      · split
        · rfl
        · exact ih (i + 1) (by rintro rfl; simp at hl; omega) (by omega)
  exact key arrivals 0 (by rintro rfl; simp at hl; omega) (by omega)

/-- C19: a good response is one without error that is not SERVFAIL; a dropped query counts as one. -/
theorem fastest_good_iff (r : Res) : fastestGood r = true ↔ r.err = none ∧ ∀ a, r.msg = some a → a.rcode ≠ 2 := by
  unfold fastestGood
  cases he : r.err <;> cases hm : r.msg <;> simp

/-- Nobody answers in an empty group: the call waits for ever. -/
theorem fastest_empty_group : ∀ i, fastest 0 i [] = none := fun _ => rfl

example : fastest 3 0 [.fail "x", .ok { rcode := 2 }, .ok { rcode := 3 }] = some (.ok { rcode := 3 }) := by decide
example : fastest 2 0 [.fail "x", .ok { rcode := 2 }] = some (.ok { rcode := 2 }) := by decide

/-! ### C20: fastest-tcp -/
namespace Tcp
open Verif.Balance.Tcp

/-- the records of the asked type that are probed: the first 32 -/
def probed (t : Nat) (answer : List RR) : List RR := (answer.filter fun r => r.rtype = t).take 32

private theorem setTTL_type (m : Nat) (r : RR) : (setTTL m r).rtype = r.rtype := by unfold setTTL; split <;> rfl

private theorem setTTL_spec (m : Nat) (r : RR) : setTTL m r = r ∨ (r.ttl < m ∧ setTTL m r = { r with ttl := m }) := by
  unfold setTTL; split
  · next h => exact .inr ⟨h, rfl⟩
  · exact .inl rfl

private theorem merge_length (t : Nat) : ∀ (l ss : List RR), (merge t l ss).length = l.length := by
  intro l
  induction l with
  | nil => intro ss; cases ss <;> rfl
  | cons r l ih =>
    intro ss
    cases ss with
    | nil => rfl
    | cons s ss =>
      simp only [merge]; split <;> simp [ih]

private theorem merge_others (t : Nat) : ∀ (l ss : List RR) (i : Nat) (r : RR), l[i]? = some r → r.rtype ≠ t →
    (merge t l ss)[i]? = some r := by
  intro l
  induction l with
  | nil => intro ss i r h; simp at h
  | cons a l ih =>
    intro ss i r h ht
    cases ss with
    | nil => exact h
    | cons s ss =>
      simp only [merge]
      cases i with
      | zero =>
        simp only [List.getElem?_cons_zero, Option.some.injEq] at h; subst h
        rw [if_neg ht]; rfl
      | succ i =>
        simp only [List.getElem?_cons_succ] at h
        split <;> simp [ih _ _ _ h ht]

private theorem merge_filter (t : Nat) : ∀ (l ss : List RR), (∀ s, s ∈ ss → s.rtype = t) →
    ss.length ≤ (l.filter fun r => r.rtype = t).length →
    ((merge t l ss).filter fun r => r.rtype = t) = ss ++ (l.filter fun r => r.rtype = t).drop ss.length := by
  intro l
  induction l with
  | nil =>
    intro ss _ h
    simp at h; subst h; rfl
  | cons a l ih =>
    intro ss hs h
    cases ss with
    | nil => simp [merge]
    | cons s ss =>
      simp only [merge]
      by_cases ha : a.rtype = t
      · rw [if_pos ha]
        simp only [List.filter_cons, ha, decide_true, if_true, List.length_cons] at h ⊢
        rw [hs s List.mem_cons_self]
        simp only [decide_true, if_true]
        rw [ih ss (fun s h => hs s (List.mem_cons_of_mem _ h)) (by omega)]
        simp
      · rw [if_neg ha]
        simp only [List.filter_cons, ha, decide_false, Bool.false_eq_true, if_false] at h ⊢
        exact ih (s :: ss) hs h

private theorem merged (t minTTL : Nat) (l sorted : List RR) (hp : sorted.Perm (probed t l)) :
    Reordered t minTTL l (merge t l (sorted.map (setTTL minTTL))) := by
  have hty : ∀ s, s ∈ sorted → s.rtype = t := by
    intro s hs
    have := List.mem_of_mem_take (hp.mem_iff.mp hs)
    simpa using (List.mem_filter.mp this).2
  have hlen : sorted.length ≤ (l.filter fun r => r.rtype = t).length := by
    rw [hp.length_eq]; unfold probed; rw [List.length_take]; omega
  refine ⟨merge_length _ _ _, fun i r h1 h2 => merge_others _ _ _ _ _ h1 h2, ?_⟩
  have hf := merge_filter t l (sorted.map (setTTL minTTL))
    (by intro s hs; obtain ⟨r, hr, rfl⟩ := List.mem_map.mp hs; rw [setTTL_type]; exact hty r hr) (by simpa using hlen)
  rw [List.length_map] at hf
  have hdrop : (l.filter fun r => r.rtype = t).drop sorted.length = (l.filter fun r => r.rtype = t).drop 32 := by
    rw [hp.length_eq]; unfold probed; rw [List.length_take]
    rcases Nat.le_total 32 (l.filter fun r => r.rtype = t).length with h | h
    · rw [Nat.min_eq_left h]
    · rw [Nat.min_eq_right h, List.drop_of_length_le (Nat.le_refl _), List.drop_of_length_le h]
  refine ⟨sorted ++ (l.filter fun r => r.rtype = t).drop sorted.length, ?_, ?_, ?_⟩
  · rw [hdrop]
    have := hp.append_right ((l.filter fun r => r.rtype = t).drop 32)
    unfold probed at this
    rwa [List.take_append_drop] at this
  · rw [hf]; simp
  · intro i r r' h1 h2
    rw [hf] at h2
    by_cases hi : i < sorted.length
    · rw [List.getElem?_append_left hi] at h1
      rw [List.getElem?_append_left (by simpa using hi), List.getElem?_map, h1] at h2
      simp only [Option.map_some, Option.some.injEq] at h2
      rw [← h2]
      exact setTTL_spec minTTL r
    · rw [List.getElem?_append_right (by omega)] at h1
      rw [List.getElem?_append_right (by simp; omega), List.length_map, h1] at h2
      exact .inl (by simpa using h2.symm)

private theorem probeAll_some (rrs : List RR) : ∀ (k : Nat) (ps : List Probe) (sorted : List RR), probeAll rrs k ps = some sorted →
    ∃ (order : List Nat) (rest : List Probe), ps = order.map Probe.ok ++ rest ∧ order.length = k ∧ sorted = order.filterMap (rrs[·]?) ∧
      ∀ i, i ∈ order → i < rrs.length := by
  intro k
  induction k with
  | zero => intro ps sorted h; simp only [probeAll, Option.some.injEq] at h; subst h; exact ⟨[], ps, rfl, rfl, rfl, by simp⟩
  | succ k ih =>
    intro ps sorted h
    cases ps with
    | nil => simp [probeAll] at h
    | cons p ps =>
      cases p with
      | failed => simp [probeAll] at h
      | timeout => simp [probeAll] at h
      | ok i =>
        simp only [probeAll] at h
        cases hg : rrs[i]? with
        | none => simp [hg] at h
        | some r =>
          cases hr : probeAll rrs k ps with
          | none => simp [hg, hr] at h
          | some rest =>
            simp only [hg, hr, Option.some.injEq] at h
            obtain ⟨order, tail, h1, h2, h3, h4⟩ := ih ps rest hr
            refine ⟨i :: order, tail, by rw [h1]; rfl, by simp [h2], ?_, ?_⟩
            · rw [List.filterMap_cons, hg, ← h3, ← h]
            · intro j hj
              rcases List.mem_cons.mp hj with e | e
              · subst e
                rcases Nat.lt_or_ge j rrs.length with h | h
                · exact h
                · rw [List.getElem?_eq_none h] at hg; cases hg
              · exact h4 j e

private theorem filterMap_range (rrs : List RR) : (List.range rrs.length).filterMap (rrs[·]?) = rrs := by
  apply List.ext_getElem?
  intro i
  induction rrs generalizing i with
  | nil => rfl
  | cons r rrs ih =>
    rw [List.length_cons, List.range_succ_eq_map, List.filterMap_cons]
    simp only [List.getElem?_cons_zero]
    cases i with
    | zero => rfl
    | succ i => rw [List.getElem?_cons_succ, List.getElem?_cons_succ, List.filterMap_map, ← ih i]; rfl

theorem order_perm (order : List Nat) (n : Nat) (hnd : order.Nodup) (hlt : ∀ i, i ∈ order → i < n) (hl : order.length = n) :
    order.Perm (List.range n) := by
  rw [List.perm_ext_iff_of_nodup hnd List.nodup_range]
  intro i
  rw [List.mem_range]
  refine ⟨hlt i, fun hi => ?_⟩
  apply Classical.byContradiction; intro hni
  have hsub : order ⊆ (List.range n).erase i := by
    intro j hj
    rw [List.Nodup.mem_erase_iff List.nodup_range]
    exact ⟨fun h => hni (h ▸ hj), List.mem_range.mpr (hlt j hj)⟩
  have h1 := List.Nodup.length_le_of_subset hnd hsub
  rw [List.length_erase_of_mem (List.mem_range.mpr hi), List.length_range] at h1
  omega

/-- records reported as connected, in order -/
def connected (ps : List Probe) : List Nat := ps.filterMap fun p => match p with | .ok i => some i | _ => none

private theorem connected_map (order : List Nat) (rest : List Probe) :
    connected (order.map Probe.ok ++ rest) = order ++ connected rest := by
  unfold connected
  rw [List.filterMap_append, List.filterMap_map]
  congr 1
  induction order with
  | nil => rfl
  | cons a l ih => rw [List.filterMap_cons]; simp only [Function.comp]; congr 1

/-- C20, waiting for all probes (each of which reports once): the reply is the upstream's with the records of the asked type
reordered among their positions and TTLs raised to the minimum, nothing else; and if any record was moved or changed, the probed records stand in
the order in which their connections came up. -/
theorem tcp_waitall (minTTL : Nat) (q a : Msg) (qu : Question) (probes : List Probe)
    (hq : q.question.head? = some qu) (hone : (connected probes).Nodup) :
    ∃ b, Tcp.resolve true minTTL q (.ok a) probes = some (.ok b) ∧ b = { a with answer := b.answer } ∧
      Reordered qu.qtype minTTL a.answer b.answer ∧
      (b.answer ≠ a.answer → ∃ (order : List Nat) (rest : List Probe), probes = order.map Probe.ok ++ rest ∧ order.length = (probed qu.qtype a.answer).length ∧
        (b.answer.filter fun r => r.rtype = qu.qtype).take order.length
          = order.filterMap fun i => ((probed qu.qtype a.answer)[i]?).map (setTTL minTTL)) := by
  have hrefl : Reordered qu.qtype minTTL a.answer a.answer :=
    ⟨rfl, fun _ _ h _ => h, _, .refl _, rfl, fun i r r' h1 h2 => .inl (by rw [h1] at h2; simpa using h2.symm)⟩
  cases hqq : q.question with
  | nil => rw [hqq] at hq; cases hq
  | cons x xs =>
    rw [hqq] at hq; simp only [List.head?_cons, Option.some.injEq] at hq; subst hq
    simp only [Tcp.resolve, Res.ok, hqq]
    split
    · exact ⟨a, rfl, rfl, hrefl, fun h => absurd rfl h⟩
    · split
      · exact ⟨a, rfl, rfl, hrefl, fun h => absurd rfl h⟩
      · simp only [if_true]
        have hpr : (a.answer.filter fun r => r.rtype = x.qtype).take maxProbes = probed x.qtype a.answer := rfl
        rw [hpr]
        cases hp : probeAll (probed x.qtype a.answer) (probed x.qtype a.answer).length probes with
        | none => exact ⟨a, rfl, rfl, hrefl, fun h => absurd rfl h⟩
        | some sorted =>
          obtain ⟨order, rest, h1, h2, h3, h4⟩ := probeAll_some _ _ _ _ hp
          have hnd : order.Nodup := by
            rw [h1, connected_map] at hone
            exact (List.nodup_append.mp hone).1
          have hperm : sorted.Perm (probed x.qtype a.answer) := by
            rw [h3]
            have := (order_perm order _ hnd h4 h2).filterMap ((probed x.qtype a.answer)[·]?)
            rwa [filterMap_range] at this
          refine ⟨_, rfl, rfl, merged _ _ _ _ hperm, fun _ => ⟨order, rest, h1, h2, ?_⟩⟩
          have hty : ∀ s, s ∈ sorted.map (setTTL minTTL) → s.rtype = x.qtype := by
            intro s hs
            obtain ⟨r, hr, rfl⟩ := List.mem_map.mp hs
            rw [setTTL_type]
            have := List.mem_of_mem_take (hperm.mem_iff.mp hr)
            simpa using (List.mem_filter.mp this).2
          have hlen : (sorted.map (setTTL minTTL)).length ≤ (a.answer.filter fun r => r.rtype = x.qtype).length := by
            rw [List.length_map, hperm.length_eq]; unfold probed; rw [List.length_take]; omega
          have hf := merge_filter x.qtype a.answer _ hty hlen
          simp only
          rw [hf]
          have hl2 : order.length = (sorted.map (setTTL minTTL)).length := by
            rw [List.length_map, hperm.length_eq, h2]
          rw [hl2, List.take_left, h3, List.map_filterMap]

private theorem bubble_shift : ∀ (n s j : Nat), (∀ i, i < n → s + i ≠ j) → 0 < n →
    bubble j (List.range' s n) = j :: List.range' s (n - 1) := by
  intro n
  induction n with
  | zero => intro s j _ h; omega
  | succ n ih =>
    intro s j hj _
    rw [List.range'_succ, bubble, if_neg (by have := hj 0 (by omega); omega)]
    by_cases h0 : n = 0
    · subst h0; rfl
    · have e : n + 1 - 1 = (n - 1) + 1 := by omega
      rw [ih (s + 1) s (fun i _ => by omega) (by omega), e, List.range'_succ]

/-- The loop that is to put the fastest record on top, in full: record 0 leaves everything as it is; any other record is put on top and
everything else moves down one place, so that the last record is lost (and the fastest appears twice unless it was the last). -/
theorem bubble_spec (n j : Nat) (hj : j < n) :
    bubble j (List.range n) = if j = 0 then List.range n else j :: List.range (n - 1) := by
  have hn : n = (n - 1) + 1 := by omega
  rw [List.range_eq_range']
  by_cases h : j = 0
  · subst h; rw [if_pos rfl, hn, List.range'_succ, bubble, if_pos rfl]
  · rw [if_neg h]
    have e : List.range' 0 n = 0 :: List.range' 1 (n - 1) := by conv => lhs; rw [hn, List.range'_succ]
    rw [e, bubble, if_neg (by omega)]
    by_cases h1 : n - 1 = 0
    · omega
    · have e2 : n - 1 = (n - 1 - 1) + 1 := by omega
      rw [bubble_shift (n - 1) 1 0 (fun i _ => by omega) (by omega), List.range_eq_range']
      conv => rhs; rw [e2, List.range'_succ]

/-- C20, returning on the first probe result: the record whose connection came up first is the first of its type in the reply. -/
theorem tcp_fastest_first (minTTL : Nat) (q a : Msg) (qu : Question) (j : Nat) (rest : List Probe) (r : RR)
    (hq : q.question.head? = some qu) (hty : qu.qtype = 1 ∨ qu.qtype = 28)
    (hr : (probed qu.qtype a.answer)[j]? = some r) (h2 : 2 ≤ (probed qu.qtype a.answer).length) :
    ∃ b, Tcp.resolve false minTTL q (.ok a) (.ok j :: rest) = some (.ok b) ∧ b = { a with answer := b.answer } ∧
      (b.answer.filter fun r => r.rtype = qu.qtype).head? = some (setTTL minTTL r) := by
  have hjl : j < (probed qu.qtype a.answer).length := by
    rcases Nat.lt_or_ge j (probed qu.qtype a.answer).length with h | h
    · exact h
    · rw [List.getElem?_eq_none h] at hr; cases hr
  cases hqq : q.question with
  | nil => rw [hqq] at hq; cases hq
  | cons x xs =>
    rw [hqq] at hq; simp only [List.head?_cons, Option.some.injEq] at hq; subst hq
    simp only [Tcp.resolve, Res.ok, hqq]
    rw [if_neg (by simp only [typeA, typeAAAA]; omega)]
    have hpr : (a.answer.filter fun r => r.rtype = x.qtype).take maxProbes = probed x.qtype a.answer := rfl
    rw [hpr, if_neg (by omega)]
    simp only [Bool.false_eq_true, if_false, List.headD_cons, probeFastest]
    refine ⟨_, rfl, rfl, ?_⟩
    simp only
    have hhead : ∃ tl, bubble j (List.range (probed x.qtype a.answer).length) = j :: tl ∧
        (j :: tl).length = (probed x.qtype a.answer).length := by
      rw [bubble_spec _ _ hjl]
      by_cases h0 : j = 0
      · rw [if_pos h0]
        have : (probed x.qtype a.answer).length = ((probed x.qtype a.answer).length - 1) + 1 := by omega
        rw [this, List.range_succ_eq_map]
        exact ⟨_, by rw [h0], by simp⟩
      · rw [if_neg h0]; exact ⟨_, rfl, by simp; omega⟩
    obtain ⟨tl, he, hl⟩ := hhead
    rw [he]
    have hsort : ((j :: tl).filterMap ((probed x.qtype a.answer)[·]?)).length ≤ (a.answer.filter fun r => r.rtype = x.qtype).length := by
      refine Nat.le_trans (List.length_filterMap_le _ _) ?_
      rw [hl]; unfold probed; rw [List.length_take]; omega
    rw [merge_filter]
    · rw [List.filterMap_cons, hr]; rfl
    · intro s hs
      obtain ⟨r', hr', rfl⟩ := List.mem_map.mp hs
      rw [setTTL_type]
      obtain ⟨i, _, hi⟩ := List.mem_filterMap.mp hr'
      have := List.mem_of_mem_take (List.mem_of_getElem? hi)
      simpa using (List.mem_filter.mp this).2
    · rw [List.length_map]; exact hsort

private theorem filterMap_range_take (l : List RR) (n : Nat) : (List.range n).filterMap (l[·]?) = l.take n := by
  induction n with
  | zero => rfl
  | succ n ih =>
    rw [List.range_succ, List.filterMap_append, ih, List.take_add_one]
    congr 1

/-- C20, first-result mode, in full: which records of the asked type the reply has, in which order. The fastest comes first, then those probed in their order
without the last one, then those that were not probed; records of other types stay where they are. So the fastest is given twice and the last one is gone, unless
the fastest is that last one (`tcp_fastest_ends`), or the first, when the order stays. -/
theorem tcp_fastest_exact (minTTL : Nat) (q a : Msg) (qu : Question) (j : Nat) (rest : List Probe) (r : RR)
    (hq : q.question.head? = some qu) (hty : qu.qtype = 1 ∨ qu.qtype = 28)
    (hr : (probed qu.qtype a.answer)[j]? = some r) (h2 : 2 ≤ (probed qu.qtype a.answer).length) :
    ∃ b, Tcp.resolve false minTTL q (.ok a) (.ok j :: rest) = some (.ok b) ∧ b = { a with answer := b.answer } ∧
      b.answer.length = a.answer.length ∧
      (∀ (i : Nat) (x : RR), a.answer[i]? = some x → x.rtype ≠ qu.qtype → b.answer[i]? = some x) ∧
      (b.answer.filter fun r => r.rtype = qu.qtype) =
        (if j = 0 then probed qu.qtype a.answer else r :: (probed qu.qtype a.answer).dropLast).map (setTTL minTTL)
          ++ (a.answer.filter fun r => r.rtype = qu.qtype).drop 32 := by
  have hjl : j < (probed qu.qtype a.answer).length := by
    rcases Nat.lt_or_ge j (probed qu.qtype a.answer).length with h | h
    · exact h
    · rw [List.getElem?_eq_none h] at hr; cases hr
  cases hqq : q.question with
  | nil => rw [hqq] at hq; cases hq
  | cons x xs =>
    rw [hqq] at hq; simp only [List.head?_cons, Option.some.injEq] at hq; subst hq
    simp only [Tcp.resolve, Res.ok, hqq]
    rw [if_neg (by simp only [typeA, typeAAAA]; omega)]
    have hpr : (a.answer.filter fun r => r.rtype = x.qtype).take maxProbes = probed x.qtype a.answer := rfl
    rw [hpr, if_neg (by omega)]
    simp only [Bool.false_eq_true, if_false, List.headD_cons, probeFastest]
    have hdl : (List.range ((probed x.qtype a.answer).length - 1)).filterMap ((probed x.qtype a.answer)[·]?) = (probed x.qtype a.answer).dropLast := by
      rw [filterMap_range_take, List.dropLast_eq_take]
    have hs : (bubble j (List.range (probed x.qtype a.answer).length)).filterMap ((probed x.qtype a.answer)[·]?)
        = if j = 0 then probed x.qtype a.answer else r :: (probed x.qtype a.answer).dropLast := by
      rw [bubble_spec _ _ hjl]
      by_cases h0 : j = 0
      · rw [if_pos h0, if_pos h0, filterMap_range]
      · rw [if_neg h0, if_neg h0, List.filterMap_cons, hr, hdl]
    rw [hs]
    have hl : (if j = 0 then probed x.qtype a.answer else r :: (probed x.qtype a.answer).dropLast).length = (probed x.qtype a.answer).length := by
      split
      · rfl
      · rw [List.length_cons, List.length_dropLast]; omega
    refine ⟨_, rfl, rfl, merge_length _ _ _, fun i y h1 h3 => merge_others _ _ _ _ _ h1 h3, ?_⟩
    have hty' : ∀ s, s ∈ probed x.qtype a.answer → s.rtype = x.qtype := fun s h => by
      simpa using (List.mem_filter.mp (List.mem_of_mem_take h)).2
    rw [merge_filter]
    · congr 1
      rw [List.length_map, hl]; unfold probed; rw [List.length_take]
      rcases Nat.le_total 32 (a.answer.filter fun r => r.rtype = x.qtype).length with h | h
      · rw [Nat.min_eq_left h]
      · rw [Nat.min_eq_right h, List.drop_of_length_le (Nat.le_refl _), List.drop_of_length_le h]
    · intro s hs
      obtain ⟨r', hr', rfl⟩ := List.mem_map.mp hs
      rw [setTTL_type]
      split at hr'
      · exact hty' _ hr'
      · rcases List.mem_cons.mp hr' with e | e
        · rw [e]; exact hty' _ (List.mem_of_getElem? hr)
        · exact hty' _ (List.mem_of_mem_take (List.dropLast_eq_take ▸ e))
    · rw [List.length_map, hl]; unfold probed; rw [List.length_take]; omega

/-- C20, first-result mode: if the fastest record is the first or the last of those probed, the reply is a rearrangement of the upstream's. -/
theorem tcp_fastest_ends (minTTL : Nat) (q a : Msg) (qu : Question) (j : Nat) (rest : List Probe)
    (hq : q.question.head? = some qu) (hj : j = 0 ∨ j + 1 = (probed qu.qtype a.answer).length)
    (h2 : 2 ≤ (probed qu.qtype a.answer).length) :
    ∃ b, Tcp.resolve false minTTL q (.ok a) (.ok j :: rest) = some (.ok b) ∧ b = { a with answer := b.answer } ∧
      Reordered qu.qtype minTTL a.answer b.answer := by
  have hrefl : Reordered qu.qtype minTTL a.answer a.answer :=
    ⟨rfl, fun _ _ h _ => h, _, .refl _, rfl, fun i r r' h1 h2 => .inl (by rw [h1] at h2; simpa using h2.symm)⟩
  cases hqq : q.question with
  | nil => rw [hqq] at hq; cases hq
  | cons x xs =>
    rw [hqq] at hq; simp only [List.head?_cons, Option.some.injEq] at hq; subst hq
    simp only [Tcp.resolve, Res.ok, hqq]
    split
    · exact ⟨a, rfl, rfl, hrefl⟩
    · have hpr : (a.answer.filter fun r => r.rtype = x.qtype).take maxProbes = probed x.qtype a.answer := rfl
      rw [hpr, if_neg (by omega)]
      simp only [Bool.false_eq_true, if_false, List.headD_cons, probeFastest]
      refine ⟨_, rfl, rfl, merged _ _ _ _ ?_⟩
      rw [bubble_spec _ _ (by omega)]
      by_cases h0 : j = 0
      · rw [if_pos h0, filterMap_range]
      · rw [if_neg h0]
        have hjn : j = (probed x.qtype a.answer).length - 1 := by omega
        have hpm : (j :: List.range ((probed x.qtype a.answer).length - 1)).Perm (List.range (probed x.qtype a.answer).length) := by
          have e : (probed x.qtype a.answer).length = ((probed x.qtype a.answer).length - 1) + 1 := by omega
          conv => rhs; rw [e, List.range_succ]
          rw [hjn]
          exact List.perm_append_comm (l₁ := [_])
        have := hpm.filterMap ((probed x.qtype a.answer)[·]?)
        rwa [filterMap_range] at this

/-- C20: when the first probe to finish fails or nothing finishes in time, the reply is the upstream's. -/
theorem tcp_fastest_failure (minTTL : Nat) (q a : Msg) (p : Probe) (rest : List Probe) (hq : q.question ≠ [])
    (hp : ∀ i, p ≠ .ok i) : Tcp.resolve false minTTL q (.ok a) (p :: rest) = some (.ok a) := by
  cases hqq : q.question with
  | nil => exact absurd hqq hq
  | cons x xs =>
    simp only [Tcp.resolve, Res.ok, hqq]
    split
    · rfl
    · split
      · rfl
      · cases p with
        | ok i => exact absurd rfl (hp i)
        | _ => rfl

/-- C20: waiting for all, one failure among the results leaves the reply as it was. -/
theorem tcp_waitall_failure (minTTL : Nat) (q a : Msg) (qu : Question) (probes : List Probe) (hq : q.question.head? = some qu)
    (hp : ∃ p, p ∈ probes.take (probed qu.qtype a.answer).length ∧ ∀ i, p ≠ .ok i) :
    Tcp.resolve true minTTL q (.ok a) probes = some (.ok a) := by
  cases hqq : q.question with
  | nil => rw [hqq] at hq; cases hq
  | cons x xs =>
    rw [hqq] at hq; simp only [List.head?_cons, Option.some.injEq] at hq; subst hq
    simp only [Tcp.resolve, Res.ok, hqq]
    split
    · rfl
    · split
      · rfl
      · have hpr : (a.answer.filter fun r => r.rtype = x.qtype).take maxProbes = probed x.qtype a.answer := rfl
        simp only [hpr, if_true]
        cases hs : probeAll (probed x.qtype a.answer) (probed x.qtype a.answer).length probes with
        | none => rfl
        | some sorted =>
          exfalso
          obtain ⟨order, rest, h1, h2, _, _⟩ := probeAll_some _ _ _ _ hs
          obtain ⟨p, hp1, hp2⟩ := hp
          rw [h1, ← h2, ← List.length_map (f := Probe.ok), List.take_left] at hp1
          obtain ⟨i, _, hi⟩ := List.mem_map.mp hp1
          exact hp2 i hi.symm

/-- C20: with nothing to choose, no address records are asked for or there are fewer than two, the reply is the upstream's, whatever the probes would say. -/
theorem tcp_no_choice (w : Bool) (minTTL : Nat) (q a : Msg) (qu : Question) (ps : List Probe) (hq : q.question.head? = some qu)
    (h : (qu.qtype ≠ 1 ∧ qu.qtype ≠ 28) ∨ (a.answer.filter fun r => r.rtype = qu.qtype).length < 2) : Tcp.resolve w minTTL q (.ok a) ps = some (.ok a) := by
  cases hqq : q.question with
  | nil => rw [hqq] at hq; cases hq
  | cons x xs =>
    rw [hqq] at hq; simp only [List.head?_cons, Option.some.injEq] at hq; subst hq
    simp only [Tcp.resolve, Res.ok, hqq]
    by_cases ht : x.qtype ≠ typeA ∧ x.qtype ≠ typeAAAA
    · rw [if_pos ht]
    · rw [if_neg ht]
      rcases h with h | h
      · exact absurd h ht
      · rw [if_pos (by rw [List.length_take]; omega)]

/-- C20: errors and dropped queries pass through. -/
theorem tcp_passthrough (w : Bool) (minTTL : Nat) (q : Msg) (r : Res) (ps : List Probe) (h : r.err ≠ none ∨ r.msg = none) :
    Tcp.resolve w minTTL q r ps = some r := by
  unfold Tcp.resolve
  split
  · next h1 h2 => rcases h with h | h
                  · exact absurd h1 h
                  · rw [h] at h2; cases h2
  · rfl

private def rec4 (b : UInt8) : RR := { name := str "a.", rtype := 1, ttl := 60, cls := 1, data := .a [10, 0, 0, b] }

/-- The finding: three addresses, the second answers first. The reply has the second twice and the third is gone. -/
theorem tcp_fastest_loses_record :
    let q : Msg := { question := [⟨str "a.", 1, 1⟩] }
    let a : Msg := { question := [⟨str "a.", 1, 1⟩], answer := [rec4 1, rec4 2, rec4 3] }
    Tcp.resolve false 0 q (.ok a) [.ok 1] = some (.ok { a with answer := [rec4 2, rec4 1, rec4 2] }) ∧
    ¬ Reordered 1 0 a.answer [rec4 2, rec4 1, rec4 2] := by
  refine ⟨by decide, fun h => ?_⟩
  obtain ⟨m, h1, h2, h3⟩ := h.same
  have h3' : ∀ (i : Nat) (r r' : RR), m[i]? = some r → [rec4 2, rec4 1, rec4 2][i]? = some r' → r' = r := by
    intro i r r' e1 e2
    rcases h3 i r r' e1 e2 with h | h
    · exact h
    · exact absurd h.1 (by omega)
  have hm : m = [rec4 2, rec4 1, rec4 2] := by
    apply List.ext_getElem?; intro i
    cases hi : m[i]? with
    | none =>
      have : m.length ≤ i := List.getElem?_eq_none_iff.mp hi
      rw [h2] at this
      exact (List.getElem?_eq_none this).symm
    | some r =>
      have hlt : i < m.length := by
        rcases Nat.lt_or_ge i m.length with h | h
        · exact h
        · rw [List.getElem?_eq_none h] at hi; cases hi
      rw [h2] at hlt
      have := h3' i r _ hi (List.getElem?_eq_getElem hlt)
      rw [← this]; exact (List.getElem?_eq_getElem hlt).symm
  have hc := h1.count_eq (rec4 3)
  rw [hm] at hc
  revert hc; decide

/-- With a CNAME in front and all three probed, slowest last. -/
example : let q : Msg := { question := [⟨str "a.", 1, 1⟩] }
    let c : RR := { name := str "a.", rtype := 5, ttl := 9, cls := 1, data := .cname (str "b.") }
    let a : Msg := { answer := [c, rec4 1, rec4 2, rec4 3] }
    Tcp.resolve true 300 q (.ok a) [.ok 2, .ok 0, .ok 1] =
      some (.ok { a with answer := [c, { rec4 3 with ttl := 300 }, { rec4 1 with ttl := 300 }, { rec4 2 with ttl := 300 }] }) := by decide

/-- A case of `tcp_fastest_exact`: four addresses behind a CNAME, the third is the fastest; it comes first and the fourth
is gone. -/
example : let q : Msg := { question := [⟨str "a.", 1, 1⟩] }
    let c : RR := { name := str "a.", rtype := 5, ttl := 9, cls := 1, data := .cname (str "b.") }
    let a : Msg := { answer := [c, rec4 1, rec4 2, rec4 3, rec4 4] }
    (probed 1 a.answer)[2]? = some (rec4 3) ∧ 2 ≤ (probed 1 a.answer).length ∧
    Tcp.resolve false 0 q (.ok a) [.ok 2] = some (.ok { a with answer := [c, rec4 3, rec4 1, rec4 2, rec4 3] }) := by decide

end Tcp

end Verif.Props.Balance
