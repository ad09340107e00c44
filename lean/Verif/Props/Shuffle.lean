/-
C11: answer shuffling.
-/
import Verif.Model.Shuffle
import Verif.Spec.Shuffle
namespace Verif.Props.Shuffle
open Verif Verif.Shuffle Verif.Spec.Shuffle

private theorem isAddr_iff (r : RR) : isAddr r = true ↔ address r := by
  simp [isAddr, address]

private theorem isAddr_dec (r : RR) : isAddr r = decide (address r) := by
  rw [Bool.eq_iff_iff, isAddr_iff]; simp

private theorem rearranged_refl (l : List RR) : Rearranged l l :=
  ⟨rfl, fun _ _ h _ => h, fun _ r h ha => ⟨r, h, ha⟩, List.Perm.refl _⟩

private theorem rearranged_trans {a b c : List RR} (h1 : Rearranged a b) (h2 : Rearranged b c) : Rearranged a c := by
  refine ⟨by rw [h2.length, h1.length], ?_, ?_, h2.same.trans h1.same⟩
  · intro i r hr hn; exact h2.others i r (h1.others i r hr hn) hn
  · intro i r hr hn
    obtain ⟨r', h3, h4⟩ := h1.addresses i r hr hn
    exact h2.addresses i r' h3 h4

private theorem addrIdx_spec (l : List RR) (k : Nat) :
    ∀ i, i ∈ addrIdx l k → ∃ j r, i = k + j ∧ l[j]? = some r ∧ address r := by
  induction l generalizing k with
  | nil => intro i h; simp [addrIdx] at h
  | cons r rs ih =>
    intro i h
    unfold addrIdx at h
    have tail : i ∈ addrIdx rs (k + 1) → ∃ j r', i = k + j ∧ (r :: rs)[j]? = some r' ∧ address r' := by
      intro h
      obtain ⟨j, r', h1, h2, h3⟩ := ih (k + 1) i h
      exact ⟨j + 1, r', by omega, by simpa using h2, h3⟩
    split at h
    · rename_i hr
      rcases List.mem_cons.mp h with rfl | h
      · exact ⟨0, r, rfl, rfl, (isAddr_iff r).mp hr⟩
      · exact tail h
    · exact tail h

private theorem filter_set_perm (p : RR → Bool) (l : List RR) (a : Nat) (x y : RR) (hl : l[a]? = some x)
    (hx : p x = true) (hy : p y = true) : (y :: l.filter p).Perm (x :: (l.set a y).filter p) := by
  induction l generalizing a with
  | nil => simp at hl
  | cons r rs ih =>
    cases a with
    | zero =>
      simp only [List.getElem?_cons_zero, Option.some.injEq] at hl; subst hl
      simp only [List.set_cons_zero, List.filter_cons, hx, hy, if_true]
      exact List.Perm.swap _ _ _
    | succ a =>
      simp only [List.getElem?_cons_succ] at hl
      have := ih a hl
      simp only [List.set_cons_succ, List.filter_cons]
      split
      · refine (List.Perm.swap r y _).trans (((this.cons r)).trans (List.Perm.swap x r _))
      · exact this

private theorem swapAt_ok {l : List RR} {a b : Nat} {x y : RR} (ha : l[a]? = some x) (hb : l[b]? = some y)
    (hx : address x) (hy : address y) : ∃ l', swapAt l a b = some l' ∧ Rearranged l l' := by
  refine ⟨(l.set a y).set b x, by simp [swapAt, ha, hb], ?_⟩
  have hlena : a < l.length := by
    rcases Nat.lt_or_ge a l.length with h | h
    · exact h
    · rw [List.getElem?_eq_none h] at ha; simp at ha
  have hlenb : b < l.length := by
    rcases Nat.lt_or_ge b l.length with h | h
    · exact h
    · rw [List.getElem?_eq_none h] at hb; simp at hb
  refine ⟨by simp, ?_, ?_, ?_⟩
  · intro i r hr hn
    have h1 : b ≠ i := by rintro rfl; rw [hb] at hr; obtain rfl := Option.some.inj hr; exact hn hy
    have h2 : a ≠ i := by rintro rfl; rw [ha] at hr; obtain rfl := Option.some.inj hr; exact hn hx
    rw [List.getElem?_set_ne h1, List.getElem?_set_ne h2]; exact hr
  · intro i r hr hn
    by_cases h1 : b = i
    · subst h1; exact ⟨x, by rw [List.getElem?_set_self (by simpa using hlenb)], hx⟩
    · rw [List.getElem?_set_ne h1]
      by_cases h2 : a = i
      · subst h2; exact ⟨y, by rw [List.getElem?_set_self hlena], hy⟩
      · rw [List.getElem?_set_ne h2]; exact ⟨r, hr, hn⟩
  · have px : decide (address x) = true := by simpa using hx
    have py : decide (address y) = true := by simpa using hy
    have s1 := filter_set_perm (decide <| address ·) l a x y ha px py
    have hb' : (l.set a y)[b]? = some y := by
      by_cases h : a = b
      · subst h; rw [List.getElem?_set_self hlena]
      · rw [List.getElem?_set_ne h]; exact hb
    have s2 := filter_set_perm (decide <| address ·) (l.set a y) b y x hb' py px
    exact ((List.perm_cons y).mp (s1.trans s2)).symm

private theorem addrIdx_of {l l' : List RR} (h : Rearranged l l') (k : Nat) : addrIdx l' k = addrIdx l k := by
  have key : ∀ (l l' : List RR) (k : Nat), l'.map isAddr = l.map isAddr → addrIdx l' k = addrIdx l k := by
    intro l
    induction l with
    | nil => intro l' k h; simp at h; subst h; rfl
    | cons r rs ih =>
      intro l' k h
      cases l' with
      | nil => simp at h
      | cons r' rs' =>
        simp only [List.map_cons, List.cons.injEq] at h
        simp only [addrIdx, h.1, ih rs' (k + 1) h.2]
  apply key
  apply List.ext_getElem?
  intro i
  simp only [List.getElem?_map]
  cases hr : l[i]? with
  | none =>
    have : l'[i]? = none := by
      rw [List.getElem?_eq_none_iff] at hr ⊢; rw [h.length]; exact hr
    rw [this]
  | some r =>
    by_cases hn : address r
    · obtain ⟨r', h1, h2⟩ := h.addresses i r hr hn
      rw [h1]; simp [isAddr_dec, hn, h2]
    · rw [h.others i r hr hn]

private theorem swaps_ok (choice : List (Nat × Nat)) : ∀ (l : List RR) (idx : List Nat),
    (∀ i ∈ idx, ∃ r, l[i]? = some r ∧ address r) → (∀ c ∈ choice, c.1 < idx.length ∧ c.2 < idx.length) →
    ∃ l', swaps l idx choice = some l' ∧ Rearranged l l' := by
  induction choice with
  | nil => intro l idx _ _; exact ⟨l, rfl, rearranged_refl l⟩
  | cons c rest ih =>
    intro l idx hidx hc
    obtain ⟨i, j⟩ := c
    obtain ⟨h1, h2⟩ := hc (i, j) (by simp)
    simp only at h1 h2
    obtain ⟨x, hx, ax⟩ := hidx idx[i] (List.getElem_mem h1)
    obtain ⟨y, hy, ay⟩ := hidx idx[j] (List.getElem_mem h2)
    obtain ⟨l1, g1, g2⟩ := swapAt_ok hx hy ax ay
    obtain ⟨l2, g3, g4⟩ := ih l1 idx (fun k hk => by
      obtain ⟨r, hr, ar⟩ := hidx k hk
      exact g2.addresses k r hr ar) (fun c hc' => hc c (by simp [hc']))
    refine ⟨l2, ?_, rearranged_trans g2 g4⟩
    simp [swaps, List.getElem?_eq_getElem h1, List.getElem?_eq_getElem h2, g1, g3]

/-- **C11 (random).** Whatever swaps the random shuffle makes, it does not crash, and only rearranges the address
records among their own positions. -/
theorem shuffle_random_rearranges (l : List RR) (choice : List (Nat × Nat))
    (hc : ∀ c ∈ choice, c.1 < (l.filter (decide <| address ·)).length ∧ c.2 < (l.filter (decide <| address ·)).length) :
    ∃ l', random l choice = some l' ∧ Rearranged l l' := by
  unfold random
  split
  · exact ⟨l, rfl, rearranged_refl l⟩
  · have hlen : ∀ (l : List RR) k, (addrIdx l k).length = (l.filter (decide <| address ·)).length := by
      intro l
      induction l with
      | nil => intro k; rfl
      | cons r rs ih =>
        intro k
        simp only [addrIdx, List.filter_cons, isAddr_dec]
        split <;> simp [ih]
    apply swaps_ok
    · intro i hi
      obtain ⟨j, r, rfl, h2, h3⟩ := addrIdx_spec l 0 i hi
      exact ⟨r, by simpa using h2, h3⟩
    · intro c h; rw [hlen]; exact hc c h

private theorem shiftLoop_ok (v : List RR) : ∀ (j : Nat), j < v.length → ∃ v', shiftLoop v j = some v' ∧
    v'.length = v.length ∧ ∀ i, v'[i]? = if 1 ≤ i ∧ i ≤ j then v[i - 1]? else v[i]? := by
  intro j
  induction j generalizing v with
  | zero =>
    intro _
    refine ⟨v, rfl, rfl, ?_⟩
    intro i; rw [if_neg (by omega)]
  | succ j ih =>
    intro hj
    have hj' : j < v.length := by omega
    obtain ⟨v', h1, h2, h3⟩ := ih (v.set (j + 1) v[j]) (by simpa using hj')
    refine ⟨v', by simp [shiftLoop, List.getElem?_eq_getElem hj', h1], by simpa using h2, ?_⟩
    intro i
    rw [h3 i]
    by_cases hi : i = j + 1
    · subst hi
      rw [if_neg (by omega), if_pos (by omega), List.getElem?_set_self hj]
      simp [List.getElem?_eq_getElem hj']
    · by_cases h : 1 ≤ i ∧ i ≤ j
      · rw [if_pos h, if_pos (by omega), List.getElem?_set_ne (by omega)]
      · rw [if_neg h, if_neg (by omega), List.getElem?_set_ne (by omega)]

private theorem rotateOnce_eq {v : List RR} (hne : v ≠ []) : rotateOnce v = some (v.getLast hne :: v.dropLast) := by
  have hl : 0 < v.length := List.length_pos_iff.mpr hne
  obtain ⟨v', h1, h2, h3⟩ := shiftLoop_ok v (v.length - 1) (by omega)
  have hlast : v[v.length - 1]? = some (v.getLast hne) := by
    rw [List.getLast_eq_getElem]; exact List.getElem?_eq_getElem _
  simp only [rotateOnce, hlast, h1, Option.bind_eq_bind, Option.bind_some]
  congr 1
  apply List.ext_getElem?
  intro i
  cases i with
  | zero => rw [List.getElem?_set_self (by omega)]; rfl
  | succ i =>
    rw [List.getElem?_set_ne (by omega), h3, List.getElem?_cons_succ, List.getElem?_dropLast]
    by_cases h : i < v.length - 1
    · rw [if_pos (by omega), if_pos h, Nat.add_sub_cancel]
    · rw [if_neg (by omega), if_neg h]
      exact List.getElem?_eq_none (by omega)

/-- Rotation to the right by one. -/
private def rot : List RR → List RR
  | [] => []
  | a :: l => (a :: l).getLast (by simp) :: (a :: l).dropLast

private theorem rot_eq {v : List RR} (hne : v ≠ []) : rot v = v.getLast hne :: v.dropLast := by
  cases v with
  | nil => exact absurd rfl hne
  | cons a l => rfl

private theorem rot_perm (v : List RR) : (rot v).Perm v := by
  cases v with
  | nil => exact List.Perm.refl _
  | cons a l =>
    have h : (a :: l).dropLast ++ [(a :: l).getLast (by simp)] = a :: l := List.dropLast_concat_getLast (by simp)
    calc rot (a :: l) = (a :: l).getLast (by simp) :: (a :: l).dropLast := rfl
      _ |>.Perm ((a :: l).dropLast ++ [(a :: l).getLast (by simp)]) := (List.perm_append_comm (l₁ := [_]))
      _ = a :: l := h

private theorem rotate_eq (v : List RR) (hne : v ≠ []) (n : Nat) : ∃ v', rotate v n = some v' ∧ v'.Perm v ∧
    ∀ i, i < v.length → v'[i]? = v[(i + n * (v.length - 1)) % v.length]? := by
  induction n generalizing v with
  | zero => exact ⟨v, rfl, List.Perm.refl _, fun i hi => by rw [Nat.zero_mul, Nat.add_zero, Nat.mod_eq_of_lt hi]⟩
  | succ n ih =>
    have hl : 0 < v.length := List.length_pos_iff.mpr hne
    have hr : rotateOnce v = some (rot v) := by rw [rot_eq hne]; exact rotateOnce_eq hne
    have hlen : (rot v).length = v.length := (rot_perm v).length_eq
    obtain ⟨v', h1, h2, h3⟩ := ih (rot v) (by intro h0; rw [h0] at hlen; simp at hlen; omega)
    refine ⟨v', by simp [rotate, hr, h1], h2.trans (rot_perm v), ?_⟩
    intro i hi
    rw [h3 i (by omega), hlen]
    have hget : ∀ j, j < v.length → (rot v)[j]? = v[(j + (v.length - 1)) % v.length]? := by
      intro j hj
      rw [rot_eq hne]
      cases j with
      | zero =>
        rw [List.getElem?_cons_zero, Nat.zero_add, Nat.mod_eq_of_lt (by omega), List.getLast_eq_getElem]
        exact (List.getElem?_eq_getElem _).symm
      | succ j =>
        rw [List.getElem?_cons_succ, List.getElem?_dropLast, if_pos (by omega)]
        rw [show j + 1 + (v.length - 1) = j + v.length by omega, Nat.add_mod_right, Nat.mod_eq_of_lt (by omega)]
    rw [hget _ (Nat.mod_lt _ hl), Nat.mod_add_mod]
    congr 2
    rw [Nat.succ_mul]; omega

private theorem scatter_ok (l : List RR) : ∀ v : List RR, v.length = (l.filter isAddr).length → (∀ r ∈ v, address r) →
    (scatter l v).filter isAddr = v ∧ (scatter l v).length = l.length ∧
    (∀ (i : Nat) (r : RR), l[i]? = some r → ¬ address r → (scatter l v)[i]? = some r) ∧
    (∀ (i : Nat) (r : RR), l[i]? = some r → address r → ∃ r', (scatter l v)[i]? = some r' ∧ address r') := by
  induction l with
  | nil => intro v hv _; simp at hv; subst hv; exact ⟨rfl, rfl, by simp, by simp⟩
  | cons a l ih =>
    intro v hv hva
    by_cases ha : isAddr a = true
    · cases v with
      | nil => simp [ha] at hv
      | cons x xs =>
        obtain ⟨h1, h2, h3, h4⟩ := ih xs (by simpa [ha] using hv) (fun r hr => hva r (by simp [hr]))
        have hx : address x := hva x (by simp)
        simp only [scatter, ha, if_true]
        refine ⟨by simp [(isAddr_iff x).mpr hx, h1], by simp [h2], ?_, ?_⟩
        · intro i r hi hn
          cases i with
          | zero => simp at hi; subst hi; exact absurd ((isAddr_iff _).mp ha) hn
          | succ i => simpa using h3 i r (by simpa using hi) hn
        · intro i r hi hn
          cases i with
          | zero => exact ⟨x, rfl, hx⟩
          | succ i => simpa using h4 i r (by simpa using hi) hn
    · obtain ⟨h1, h2, h3, h4⟩ := ih v (by simpa [ha] using hv) hva
      simp only [scatter, if_neg ha]
      refine ⟨by simp [ha, h1], by simp [h2], ?_, ?_⟩
      · intro i r hi hn
        cases i with
        | zero => simpa using hi
        | succ i => simpa using h3 i r (by simpa using hi) hn
      · intro i r hi hn
        cases i with
        | zero => simp at hi; subst hi; exact absurd ((isAddr_iff _).mpr hn) ha
        | succ i => simpa using h4 i r (by simpa using hi) hn

private theorem filter_addr (l : List RR) : l.filter isAddr = l.filter (decide <| address ·) :=
  List.filter_congr (fun r _ => isAddr_dec r)

private theorem shifted_ok (l : List RR) (s : Nat) : ∃ l', shifted l s = some l' ∧ Rearranged l l' ∧
    (2 ≤ (l.filter isAddr).length → (l'.filter isAddr).head? =
      (l.filter isAddr)[((s % (l.filter isAddr).length + 1) * ((l.filter isAddr).length - 1)) % (l.filter isAddr).length]?) := by
  unfold shifted
  simp only
  split
  · exact ⟨l, rfl, rearranged_refl l, fun h => by omega⟩
  · rename_i hlen
    have hne : l.filter isAddr ≠ [] := by intro h0; rw [h0] at hlen; simp at hlen
    obtain ⟨v', h1, h2, h3⟩ := rotate_eq (l.filter isAddr) hne (s % (l.filter isAddr).length + 1)
    have hva : ∀ r ∈ v', address r := by
      intro r hr
      have := h2.mem_iff.mp hr
      exact (isAddr_iff r).mp (List.mem_filter.mp this).2
    obtain ⟨g1, g2, g3, g4⟩ := scatter_ok l v' h2.length_eq hva
    refine ⟨scatter l v', by simp [h1], ⟨g2, g3, g4, ?_⟩, ?_⟩
    · rw [← filter_addr, ← filter_addr, g1]; exact h2
    · intro _
      rw [g1, List.head?_eq_getElem?, h3 0 (by omega), Nat.zero_add]

/-- **C11 (round-robin, one serving).** Whatever was served before, a serving does not crash and only rearranges the
address records among their own positions. -/
theorem shuffle_roundrobin_rearranges (l : List RR) (hasTTL : Bool) (rec : Option Nat) :
    ∃ l' rec', roundRobin l hasTTL rec = some (l', rec') ∧ Rearranged l l' := by
  unfold roundRobin
  split
  · exact ⟨l, rec, rfl, rearranged_refl l⟩
  · cases hs : shiftFor rec hasTTL with
    | mk s rec' =>
      cases s with
      | none => exact ⟨l, rec', rfl, rearranged_refl l⟩
      | some s =>
        obtain ⟨l', h1, h2, -⟩ := shifted_ok l s
        exact ⟨l', rec', by simp [h1], h2⟩

/-- The answer sections of the next `n` servings of the same answer. -/
def servings (l : List RR) (rec : Option Nat) : Nat → Option (List (List RR))
  | 0 => some []
  | n + 1 => do
    let (l', rec') ← roundRobin l true rec
    return l' :: (← servings l rec' n)

private theorem servings_ok (l : List RR) (hl : 2 ≤ (l.filter isAddr).length) (n : Nat) : ∀ (rec : Option Nat) (k : Nat),
    (k = match rec with | none => 0 | some r => r + 1) → k + n ≤ 18446744073709551616 →
    ∃ ls, servings l rec n = some ls ∧ ls.map (fun l' => (l'.filter isAddr).head?) =
      (List.range' k n).map (fun s => (l.filter isAddr)[((s % (l.filter isAddr).length + 1) * ((l.filter isAddr).length - 1)) % (l.filter isAddr).length]?) := by
  have hl2 : ¬ l.length < 2 := by
    have := List.length_filter_le isAddr l; omega
  induction n with
  | zero => intro rec k _ _; exact ⟨[], rfl, rfl⟩
  | succ n ih =>
    intro rec k hk hb
    obtain ⟨l', h1, h2, h3⟩ := shifted_ok l k
    have hs : shiftFor rec true = (some k, some k) := by
      cases rec with
      | none => simp only at hk; subst hk; rfl
      | some r => simp only at hk; subst hk; simp only [shiftFor]; rw [Nat.mod_eq_of_lt (by omega)]
    obtain ⟨ls, g1, g2⟩ := ih (some k) (k + 1) rfl (by omega)
    refine ⟨l' :: ls, ?_, ?_⟩
    · simp [servings, roundRobin, hl2, hs, h1, g1]
    · rw [List.range'_succ, List.map_cons, List.map_cons, g2, h3 hl]

private theorem cyc_perm (v : List RR) (k : Nat) :
    ((List.range' k v.length).map (fun s => v[((s % v.length + 1) * (v.length - 1)) % v.length]?)).Perm (v.map some) := by
  have step : ∀ (F : Nat → Option RR) (n k : Nat), F (k + n) = F k →
      ((List.range' (k + 1) n).map F).Perm ((List.range' k n).map F) := by
    intro F n k hF
    cases n with
    | zero => exact List.Perm.refl _
    | succ n =>
      rw [List.range'_succ (s := k), List.range'_concat, List.map_append, List.map_cons]
      have : F (k + 1 + n) = F k := by rw [← hF]; congr 1; omega
      simp only [List.map_cons, List.map_nil, Nat.one_mul, this]
      exact List.perm_append_comm (l₂ := [F k])
  induction k with
  | zero =>
    have : (List.range' 0 v.length).map (fun s => v[((s % v.length + 1) * (v.length - 1)) % v.length]?) = (v.map some).reverse := by
      apply List.ext_getElem?
      intro i
      rw [List.getElem?_map]
      by_cases hi : i < v.length
      · rw [List.getElem?_range' (by simpa using hi), List.getElem?_reverse (by simpa using hi)]
        simp only [Option.map_some, List.length_map, List.getElem?_map, Nat.zero_add, Nat.one_mul]
        rw [Nat.mod_eq_of_lt hi]
        have : ((i + 1) * (v.length - 1)) % v.length = v.length - 1 - i := by
          have e : (i + 1) * (v.length - 1) = i * v.length + (v.length - 1 - i) := by
            have h1 : (i + 1) * (v.length - 1) = (i + 1) * v.length - (i + 1) := by rw [Nat.mul_sub, Nat.mul_one]
            rw [h1, Nat.succ_mul]; omega
          rw [e, Nat.mul_add_mod_self_right, Nat.mod_eq_of_lt (by omega)]
        rw [this, List.getElem?_eq_getElem (by omega)]
        simp
      · rw [List.getElem?_eq_none (by simpa using hi), List.getElem?_eq_none (by simpa using hi)]; rfl
    rw [this]; exact List.reverse_perm _
  | succ k ih =>
    refine (step _ _ _ ?_).trans ih
    simp [Nat.add_mod_right]

/-- **C11 (round-robin, fairness).** Over `n` consecutive servings of an answer with `n ≥ 2` address records, the
first address is each of them exactly once. (From any earlier count of servings short of 2^64.) -/
theorem shuffle_roundrobin_fair (l : List RR) (hn : 2 ≤ (l.filter (decide <| address ·)).length) (rec : Option Nat)
    (hrec : ∀ r, rec = some r → r + 1 + (l.filter (decide <| address ·)).length ≤ 18446744073709551616)
    (hsmall : (l.filter (decide <| address ·)).length ≤ 18446744073709551616) :
    ∃ ls, servings l rec (l.filter (decide <| address ·)).length = some ls ∧
      (ls.map (fun l' => (l'.filter (decide <| address ·)).head?)).Perm ((l.filter (decide <| address ·)).map some) := by
  rw [← filter_addr] at hn hrec hsmall ⊢
  obtain ⟨ls, h1, h2⟩ := servings_ok l hn (l.filter isAddr).length rec (rec.elim 0 (· + 1)) (by cases rec <;> rfl) (by
    cases rec with
    | none => simpa using hsmall
    | some r => exact hrec r rfl)
  refine ⟨ls, h1, ?_⟩
  have : (fun l' : List RR => (l'.filter (decide <| address ·)).head?) = fun l' => (l'.filter isAddr).head? := by
    funext l'; rw [filter_addr]
  rw [this, h2]
  exact cyc_perm _ _

/-! ### Concrete cases -/
private def ex (t : Nat) (x : UInt8) : RR := { name := [97], rtype := t, cls := 1, ttl := 60, data := .other [x] }
private def exL : List RR := [ex 5 0, ex 1 1, ex 28 2, ex 16 9, ex 1 3]

example : (servings exL none 3).map (fun ls => ls.map (fun l => l.map (·.data))) =
    some [[.other [0], .other [3], .other [1], .other [9], .other [2]],
          [.other [0], .other [2], .other [3], .other [9], .other [1]],
          [.other [0], .other [1], .other [2], .other [9], .other [3]]] := by decide
example : (random exL [(2, 0), (1, 1)]).map (fun l => l.map (·.data)) =
    some [.other [0], .other [3], .other [2], .other [9], .other [1]] := by decide

end Verif.Props.Shuffle
