/-
C37 (router), C38 (route conditions).
-/
import Verif.Lemmas.Letters
import Verif.Spec.Route
import Verif.Lemmas.Net
set_option linter.unusedVariables false
set_option linter.unusedSimpArgs false
namespace Verif.Props.Route
open Verif Verif.Net Verif.Cidr Verif.Route Verif.Spec.Route

/-! ### Networks -/

private theorem maskBytes_drop : ∀ (k len n : Nat), k ≤ len → (cidrMaskBytes len n).drop k = cidrMaskBytes (len - k) (n - 8 * k)
  | 0, len, n, h => by simp
  | k + 1, 0, n, h => by omega
  | k + 1, len + 1, n, h => by
    simp only [cidrMaskBytes, List.drop_succ_cons]
    rw [maskBytes_drop k len (n - 8) (by omega), show len + 1 - (k + 1) = len - k from by omega, show n - 8 * (k + 1) = n - 8 - 8 * k from by omega]

private theorem to4_length (ip a : Str) (h : to4 ip = some a) : a.length = 4 ∧ (ip.length = 4 ∧ a = ip ∨ ip.length = 16) := by
  unfold to4 at h
  split at h
  · rename_i h4; simp only [Option.some.injEq] at h; subst h; exact ⟨h4, .inl ⟨h4, rfl⟩⟩
  · split at h
    · rename_i h16; simp only [Option.some.injEq] at h; subst h; exact ⟨by simp [h16.1], .inr h16.1⟩
    · simp at h

/-- C38: the address test of a route. -/
theorem route_contains (n : IPNet) (hn : n.ip.length = 4 ∨ n.ip.length = 16) (ip : Str) (hip : ip.length = 0 ∨ ip.length = 4 ∨ ip.length = 16) :
    contains n ip = true ↔ Lies n ip := by
  unfold contains Lies
  have hml : (cidrMaskBytes n.ip.length n.ones).length = n.ip.length := cidrMaskBytes_length _ _
  cases hn4 : to4 n.ip with
  | some a =>
    obtain ⟨ha, hn'⟩ := to4_length _ _ hn4
    simp only [Option.getD_some, ha, hml]
    have hmask : (if n.ip.length = 16 ∧ True then (cidrMaskBytes n.ip.length n.ones).drop 12 else cidrMaskBytes n.ip.length n.ones) =
        cidrMaskBytes 4 (if n.ip.length = 16 then n.ones - 96 else n.ones) := by
      by_cases h16 : n.ip.length = 16
      · rw [if_pos ⟨h16, trivial⟩, if_pos h16, maskBytes_drop 12 _ _ (by omega), h16]
      · rw [if_neg (fun h => h16 h.1), if_neg h16]
        have : n.ip.length = 4 := by omega
        rw [this]
    rw [hmask]
    cases hi4 : to4 ip with
    | some b =>
      have hb := (to4_length _ _ hi4).1
      simp only [Option.getD_some, hb]
      have := mask_eq_iff a b (if n.ip.length = 16 then n.ones - 96 else n.ones) (by omega)
      rw [ha, hb] at this
      simp [this]
    | none =>
      simp only [Option.getD_none]
      have : ip.length ≠ 4 := by intro h; unfold to4 at hi4; rw [if_pos h] at hi4; simp at hi4
      simp [this]
  | none =>
    have h4 : n.ip.length ≠ 4 := by intro h; unfold to4 at hn4; rw [if_pos h] at hn4; simp at hn4
    have h16 : n.ip.length = 16 := by omega
    simp only [Option.getD_none, h16, hml]
    cases hi4 : to4 ip with
    | some b =>
      have hb := (to4_length _ _ hi4).1
      simp [hb]
    | none =>
      simp only [Option.getD_none]
      by_cases hl : ip.length = 16
      · have := mask_eq_iff n.ip ip n.ones (by omega)
        rw [h16, hl] at this
        simp [this, hl]
      · simp [hl]

/-! ### Times -/

private theorem digits_spec : ∀ (s : Str) (acc n : Nat), digits acc s = some n ↔
    (∀ c, c ∈ s → 48 ≤ c ∧ c ≤ 57) ∧ s.foldl (fun n c => n * 10 + (c.toNat - 48)) acc = n
  | [], acc, n => by simp [digits]
  | c :: cs, acc, n => by
    simp only [digits, List.forall_mem_cons, List.foldl_cons]
    by_cases h : 48 ≤ c ∧ c ≤ 57
    · rw [if_pos h, digits_spec cs]; simp [h]
    · rw [if_neg h]; simp [h]

private theorem digit_ne (c : UInt8) (h : 48 ≤ c ∧ c ≤ 57) : c ≠ 43 ∧ c ≠ 45 := by
  constructor
  · rintro rfl; exact absurd h (by decide)
  · rintro rfl; exact absurd h (by decide)

private theorem atoi_nonneg (s : Str) (n : Nat) : atoi s = some (n : Int) ↔ Number s n := by
  unfold Number
  constructor
  · intro h
    unfold atoi at h
    split at h
    · simp at h
    · rename_i r
      split at h
      · simp at h
      · rename_i hr
        obtain ⟨k, h1, h2⟩ := Option.map_eq_some_iff.mp h
        obtain ⟨h3, h4⟩ := (digits_spec r 0 k).mp h1
        have : k = n := by omega
        exact ⟨[43], r, rfl, hr, h3, by rw [← this]; exact h4, .inr (.inl rfl)⟩
    · rename_i r
      split at h
      · simp at h
      · rename_i hr
        obtain ⟨k, h1, h2⟩ := Option.map_eq_some_iff.mp h
        obtain ⟨h3, h4⟩ := (digits_spec r 0 k).mp h1
        have h5 : k = 0 ∧ n = 0 := by omega
        refine ⟨[45], r, rfl, hr, h3, ?_, .inr (.inr ⟨rfl, h5.2⟩)⟩
        rw [h5.2, ← h5.1]; exact h4
    · rename_i hne h1 h2
      obtain ⟨k, h1, h2⟩ := Option.map_eq_some_iff.mp h
      obtain ⟨h3, h4⟩ := (digits_spec s 0 k).mp h1
      have : k = n := by omega
      exact ⟨[], s, rfl, hne, h3, by rw [← this]; exact h4, .inl rfl⟩
  · rintro ⟨sign, ds, rfl, hne, hd, hv, hs⟩
    have hdig : digits 0 ds = some n := (digits_spec ds 0 n).mpr ⟨hd, hv⟩
    rcases hs with rfl | rfl | ⟨rfl, rfl⟩
    · cases ds with
      | nil => exact absurd rfl hne
      | cons c cs =>
        obtain ⟨h1, h2⟩ := digit_ne c (hd c (by simp))
        unfold atoi
        simp only [List.nil_append]
        split
        · rename_i h; simp at h
        · rename_i h; simp only [List.cons.injEq] at h; exact absurd h.1 h1
        · rename_i h; simp only [List.cons.injEq] at h; exact absurd h.1 h2
        · rw [hdig]; rfl
    · show (if ds = [] then none else (digits 0 ds).map fun n : Nat => (n : Int)) = _
      rw [if_neg hne, hdig]; rfl
    · show (if ds = [] then none else (digits 0 ds).map fun n : Nat => - (n : Int)) = _
      rw [if_neg hne, hdig]; rfl

private theorem cutColon_spec : ∀ (s : Str), match cutColon s with
    | (a, none) => a = s ∧ 58 ∉ s
    | (a, some b) => s = a ++ 58 :: b ∧ 58 ∉ a
  | [] => by simp [cutColon]
  | c :: cs => by
    unfold cutColon
    by_cases h : c = 58
    · subst h; simp
    · rw [if_neg h]
      have ih := cutColon_spec cs
      cases hc : cutColon cs with
      | mk a b =>
        rw [hc] at ih
        cases b with
        | none => simp only [] at ih ⊢; exact ⟨by rw [ih.1], by simp [ih.2, Ne.symm h]⟩
        | some b => simp only [] at ih ⊢; exact ⟨by rw [ih.1]; rfl, by simp [ih.2, Ne.symm h]⟩

private theorem cut_unique (a b a' b' : Str) (h : a ++ 58 :: b = a' ++ 58 :: b') (ha : 58 ∉ a) (ha' : 58 ∉ a') : a = a' ∧ b = b' := by
  induction a generalizing a' with
  | nil =>
    cases a' with
    | nil => simp at h; exact ⟨rfl, h⟩
    | cons x xs => simp at h; exact absurd (by simp [h.1]) ha'
  | cons y ys ih =>
    cases a' with
    | nil => simp at h; exact absurd (by simp [h.1]) ha
    | cons x xs =>
      simp only [List.cons_append, List.cons.injEq] at h
      have := ih xs h.2 (fun e => ha (by simp [e])) (fun e => ha' (by simp [e]))
      exact ⟨by rw [h.1, this.1], this.2⟩

/-- C38: exactly the texts `HH` and `HH:MM` within the day are accepted as times of the day. -/
theorem route_time_parse (s : Str) (hs : s ≠ []) (h m : Nat) : parseTimeOfDay s = some (some ⟨h, m⟩) ↔ ClockText s h m := by
  unfold parseTimeOfDay ClockText
  rw [if_neg hs]
  have hcut := cutColon_spec s
  have num : ∀ (x : Str) (n : Nat), Number x n → atoi x = some (n : Int) := fun x n => (atoi_nonneg x n).mpr
  cases hc : cutColon s with
  | mk a b =>
    rw [hc] at hcut
    simp only [hc]
    have numa : ∀ (i : Int), atoi a = some i → 0 ≤ i → Number a i.toNat := by
      intro i hi h0
      rw [← atoi_nonneg, hi]; congr 1; omega
    constructor
    · intro hp
      cases ha : atoi a with
      | none => rw [ha] at hp; simp at hp
      | some hour =>
        rw [ha] at hp
        simp only [] at hp
        by_cases hr : hour < 0 ∨ hour > 23
        · rw [if_pos hr] at hp; simp at hp
        · rw [if_neg hr] at hp
          cases b with
          | none =>
            simp only [Option.some.injEq, TimeOfDay.mk.injEq] at hp hcut
            obtain ⟨rfl, rfl⟩ := hp
            refine ⟨by omega, by omega, .inl ⟨?_, hcut.2, rfl⟩⟩
            rw [← hcut.1]; exact numa hour ha (by omega)
          | some f =>
            simp only [] at hp hcut
            cases hf : atoi f with
            | none => rw [hf] at hp; simp at hp
            | some min =>
              rw [hf] at hp
              simp only [] at hp
              by_cases hr2 : min < 0 ∨ min > 59
              · rw [if_pos hr2] at hp; simp at hp
              · rw [if_neg hr2] at hp
                simp only [Option.some.injEq, TimeOfDay.mk.injEq] at hp
                obtain ⟨rfl, rfl⟩ := hp
                refine ⟨by omega, by omega, .inr ⟨a, f, hcut.1, hcut.2, numa hour ha (by omega), ?_⟩⟩
                rw [← atoi_nonneg, hf]; congr 1; omega
    · rintro ⟨h24, h60, ⟨hn, hno, rfl⟩ | ⟨a', b', hs', hno, hna, hnb⟩⟩
      · cases b with
        | some f => simp only [] at hcut; rw [hcut.1] at hno; exact absurd (by simp) hno
        | none =>
          simp only [] at hcut
          rw [hcut.1, num s h hn]
          simp only []
          rw [if_neg (by omega)]
          simp
      · cases b with
        | none => simp only [] at hcut; rw [hs'] at hcut; exact absurd (by simp) hcut.2
        | some f =>
          simp only [] at hcut
          obtain ⟨rfl, rfl⟩ := cut_unique a f a' b' (by rw [← hcut.1, hs']) hcut.2 hno
          rw [num a h hna]
          simp only []
          rw [if_neg (by omega), num f m hnb]
          simp only []
          rw [if_neg (by omega)]
          simp

example : ClockText (str "9:05") 9 5 ∧ parseTimeOfDay (str "24:00") = none ∧ parseTimeOfDay (str "9:60") = none ∧ parseTimeOfDay (str "x") = none := by
  refine ⟨(route_time_parse _ (by decide) 9 5).mp (by decide +kernel), by decide +kernel⟩

private theorem time_range (s : Str) (t : TimeOfDay) (h : parseTimeOfDay s = some (some t)) : s ≠ [] ∧ ClockText s t.hour t.minute := by
  have hs : s ≠ [] := by rintro rfl; simp [parseTimeOfDay] at h
  exact ⟨hs, (route_time_parse s hs t.hour t.minute).mp h⟩

private theorem number_unique (s : Str) (n n' : Nat) (h : Number s n) (h' : Number s n') : n = n' := by
  have := (atoi_nonneg s n).mpr h
  rw [(atoi_nonneg s n').mpr h'] at this
  simp at this; omega

/-! ### The other conditions -/

private theorem capitals_iff (u t : Str) : Spec.InCapitals u t ↔ u = upper t := Lemmas.capitals_iff u t

private theorem upper_nil (s : Str) : upper s = [] ↔ s = [] := by unfold upper; simp

private theorem class_spec (s : Str) (c : Nat) (h : stringToClass s = some c) (k : Nat) : (c = 0 ∨ c = k) ↔ (s = [] ∨ upper s ∈ className k) := by
  unfold stringToClass at h
  rw [← upper_nil s]
  generalize upper s = u at h ⊢
  simp only [] at h
  have hk : ∀ (x : Str), x ∈ className k ↔ (k = 1 ∧ (x = str "IN" ∨ x = str "INET")) ∨ (k = 3 ∧ x = str "CH") ∨ (k = 4 ∧ x = str "HS") ∨
      (k = 254 ∧ x = str "NONE") ∨ (k = 255 ∧ x = str "ANY") := by
    intro x
    unfold className
    split <;> simp_all
  rw [hk]
  have d1 : str "IN" ≠ str "INET" := by decide
  by_cases h0 : u = []
  · rw [if_pos h0] at h; simp only [Option.some.injEq] at h; subst h; simp [h0]
  rw [if_neg h0] at h
  by_cases h1 : u = str "IN" ∨ u = str "INET"
  · rw [if_pos h1] at h; simp only [Option.some.injEq] at h; subst h
    rcases h1 with rfl | rfl
    · simp [show str "IN" ≠ [] by decide, show str "IN" ≠ str "CH" by decide, show str "IN" ≠ str "HS" by decide, show str "IN" ≠ str "NONE" by decide, show str "IN" ≠ str "ANY" by decide, eq_comm]
    · simp [show str "INET" ≠ [] by decide, show str "INET" ≠ str "CH" by decide, show str "INET" ≠ str "HS" by decide, show str "INET" ≠ str "NONE" by decide, show str "INET" ≠ str "ANY" by decide, eq_comm]
  rw [if_neg h1] at h
  have h1a : u ≠ str "IN" := fun e => h1 (.inl e)
  have h1b : u ≠ str "INET" := fun e => h1 (.inr e)
  by_cases h3 : u = str "CH"
  · rw [if_pos h3] at h; simp only [Option.some.injEq] at h; subst h; subst h3
    simp [show str "CH" ≠ [] by decide, show str "CH" ≠ str "IN" by decide, show str "CH" ≠ str "INET" by decide, show str "CH" ≠ str "HS" by decide, show str "CH" ≠ str "NONE" by decide, show str "CH" ≠ str "ANY" by decide, eq_comm]
  rw [if_neg h3] at h
  by_cases h4 : u = str "HS"
  · rw [if_pos h4] at h; simp only [Option.some.injEq] at h; subst h; subst h4
    simp [show str "HS" ≠ [] by decide, show str "HS" ≠ str "IN" by decide, show str "HS" ≠ str "INET" by decide, show str "HS" ≠ str "CH" by decide, show str "HS" ≠ str "NONE" by decide, show str "HS" ≠ str "ANY" by decide, eq_comm]
  rw [if_neg h4] at h
  by_cases h5 : u = str "NONE"
  · rw [if_pos h5] at h; simp only [Option.some.injEq] at h; subst h; subst h5
    simp [show str "NONE" ≠ [] by decide, show str "NONE" ≠ str "IN" by decide, show str "NONE" ≠ str "INET" by decide, show str "NONE" ≠ str "CH" by decide, show str "NONE" ≠ str "HS" by decide, show str "NONE" ≠ str "ANY" by decide, eq_comm]
  rw [if_neg h5] at h
  by_cases h6 : u = str "ANY"
  · rw [if_pos h6] at h; simp only [Option.some.injEq] at h; subst h; subst h6
    simp [show str "ANY" ≠ [] by decide, show str "ANY" ≠ str "IN" by decide, show str "ANY" ≠ str "INET" by decide, show str "ANY" ≠ str "CH" by decide, show str "ANY" ≠ str "HS" by decide, show str "ANY" ≠ str "NONE" by decide, eq_comm]
  rw [if_neg h6] at h
  simp at h

private theorem types_spec (table : List (Nat × Str)) (hu : ∀ e e', e ∈ table → e' ∈ table → e.2 = e'.2 → e = e') : ∀ (ts : List Str) (l : List Nat),
    stringToType table ts = some l → (l = [] ↔ ts = []) ∧ ∀ k, k ∈ l ↔ ∃ t, t ∈ ts ∧ (k, upper t) ∈ table
  | [], l, h => by simp only [stringToType, Option.some.injEq] at h; subst h; simp
  | t :: ts, l, h => by
    simp only [stringToType] at h
    cases hf : table.find? (fun e => e.2 = upper t) with
    | none => rw [hf] at h; simp at h
    | some e =>
      rw [hf] at h
      obtain ⟨l', h1, rfl⟩ := Option.map_eq_some_iff.mp h
      have ih := types_spec table hu ts l' h1
      have he := List.mem_of_find?_eq_some hf
      have he2 : e.2 = upper t := by simpa using List.find?_some hf
      refine ⟨by simp, ?_⟩
      intro k
      rw [List.mem_cons, ih.2]
      constructor
      · rintro (rfl | ⟨t', h2, h3⟩)
        · exact ⟨t, by simp, by rw [← he2]; exact he⟩
        · exact ⟨t', by simp [h2], h3⟩
      · rintro ⟨t', h2, h3⟩
        rcases List.mem_cons.mp h2 with rfl | h2
        · left
          have := hu _ _ h3 he he2.symm
          rw [← this]
        · exact .inr ⟨t', h2, h3⟩

private theorem weekday_spec (d : Str) (n : Nat) (h : weekday d = some n) (k : Nat) : k = n ↔ dayNames[k]? = some d := by
  have hn : n < 7 ∧ dayNames[n]? = some d := by
    unfold weekday at h
    repeat' split at h
    all_goals first
      | (simp at h; done)
      | (rename_i e; simp only [Option.some.injEq] at h; subst h; subst e; decide)
  constructor
  · rintro rfl; exact hn.2
  · intro hk
    have hk7 : k < 7 := by
      have := (List.getElem?_eq_some_iff.mp hk).1
      exact this
    have inj : ∀ a, a < 7 → ∀ b, b < 7 → dayNames[a]? = dayNames[b]? → a = b := by decide +kernel
    exact inj k hk7 n hn.1 (by rw [hk, hn.2])

private theorem weekdays_spec : ∀ (ds : List Str) (l : List Nat), stringsToWeekdays ds = some l →
    (l = [] ↔ ds = []) ∧ ∀ k, k ∈ l ↔ ∃ d, d ∈ ds ∧ dayNames[k]? = some d
  | [], l, h => by simp only [stringsToWeekdays, Option.some.injEq] at h; subst h; simp
  | d :: ds, l, h => by
    simp only [stringsToWeekdays] at h
    cases hw : weekday d with
    | none => rw [hw] at h; simp at h
    | some n =>
      rw [hw] at h
      obtain ⟨l', h1, rfl⟩ := Option.map_eq_some_iff.mp h
      have ih := weekdays_spec ds l' h1
      refine ⟨by simp, ?_⟩
      intro k
      rw [List.mem_cons, ih.2, weekday_spec d n hw k]
      constructor
      · rintro (h2 | ⟨d', h2, h3⟩)
        · exact ⟨d, by simp, h2⟩
        · exact ⟨d', by simp [h2], h3⟩
      · rintro ⟨d', h2, h3⟩
        rcases List.mem_cons.mp h2 with rfl | h2
        · exact .inl h3
        · exact .inr ⟨d', h2, h3⟩

private def ecsStep (acc : Str) (o : EOpt) : Str := match o with
  | .ecs _ _ _ addr => addr
  | _ => acc

private theorem ecsFold : ∀ (l : List EOpt) (acc : Str), (l.foldl ecsStep acc = acc ∧ ∀ f m s a, EOpt.ecs f m s a ∉ l) ∨
    ∃ pre post f m s, l = pre ++ .ecs f m s (l.foldl ecsStep acc) :: post ∧ ∀ f m s a, EOpt.ecs f m s a ∉ post
  | [], acc => .inl ⟨rfl, by simp⟩
  | o :: os, acc => by
    rcases ecsFold os (ecsStep acc o) with ⟨h1, h2⟩ | ⟨pre, post, f, m, s, h1, h2⟩
    · cases o with
      | ecs f m s a => right; exact ⟨[], os, f, m, s, by simp only [List.foldl_cons, h1]; rfl, h2⟩
      | _ => left; exact ⟨by simp only [List.foldl_cons, h1]; rfl, by simpa using h2⟩
    · right
      refine ⟨o :: pre, post, f, m, s, ?_, h2⟩
      simp only [List.foldl_cons, List.cons_append, List.cons.injEq, true_and]
      exact h1

private theorem ecsIP_eq (q : Msg) : ecsIP q = match q.edns? with | none => [] | some e => e.options.foldl ecsStep [] := rfl

private theorem ecs_unique (l pre pre' post post' : List EOpt) (f m s f' m' s' : Nat) (a a' : Str) (h : l = pre ++ .ecs f m s a :: post) (hp : ∀ f m s a, EOpt.ecs f m s a ∉ post)
    (h' : l = pre' ++ .ecs f' m' s' a' :: post') (hp' : ∀ f m s a, EOpt.ecs f m s a ∉ post') : a = a' := by
  rw [h] at h'
  rcases List.append_eq_append_iff.mp h' with ⟨x, h1, h2⟩ | ⟨x, h1, h2⟩
  · cases x with
    | nil => simp at h2; exact h2.1.2.2.2
    | cons y ys =>
      simp only [List.cons_append, List.cons.injEq] at h2
      exact absurd (by rw [h2.2]; simp) (hp f' m' s' a')
  · cases x with
    | nil => simp at h2; exact h2.1.2.2.2.symm
    | cons y ys =>
      simp only [List.cons_append, List.cons.injEq] at h2
      exact absurd (by rw [h2.2]; simp) (hp' f m s a)

private theorem ecs_spec (q : Msg) (ip : Str) : EcsAddress q ip → ecsIP q = ip := by
  rintro ⟨e, pre, post, f, m, s, h1, h2, h3⟩
  rw [ecsIP_eq, h1]
  simp only []
  rcases ecsFold e.options [] with ⟨h4, h5⟩ | ⟨pre', post', f', m', s', h4, h5⟩
  · exact absurd (by rw [h2]; simp) (h5 f m s ip)
  · exact ecs_unique _ _ _ _ _ _ _ _ _ _ _ _ _ h4 h5 h2 h3

private theorem ecs_some (q : Msg) (h : ecsIP q ≠ []) : EcsAddress q (ecsIP q) := by
  rw [ecsIP_eq] at h ⊢
  cases he : q.edns? with
  | none => rw [he] at h; exact absurd rfl h
  | some e =>
    rw [he] at h
    simp only [] at h ⊢
    rcases ecsFold e.options [] with ⟨h4, h5⟩ | ⟨pre', post', f', m', s', h4, h5⟩
    · exact absurd h4 h
    · exact ⟨e, pre', post', f', m', s', he, h4, h5⟩

private theorem time_lt (t : TimeOfDay) (hour minute : Nat) (h1 : t.minute < 60) (h2 : minute < 60) :
    (t.isAfter hour minute = true ↔ hour * 60 + minute < t.hour * 60 + t.minute) ∧ (t.isBefore hour minute = true ↔ t.hour * 60 + t.minute ≤ hour * 60 + minute) := by
  unfold TimeOfDay.isAfter TimeOfDay.isBefore
  simp only [decide_eq_true_eq]
  omega

/-- the conditions of a route in the order of the code -/
private def Conds (r : Route) (q : Msg) (qu : Question) (ci : ClientInfo) (now : Now) : Prop :=
  (r.types = [] ∨ qu.qtype ∈ r.types) ∧ (r.cls = 0 ∨ r.cls = qu.qclass) ∧ r.name qu.name = true ∧ (∀ n, r.source = some n → contains n ci.sourceIP = true) ∧
  (∀ n, r.ecsSource = some n → ecsIP q ≠ [] ∧ contains n (ecsIP q) = true) ∧ r.dohPath ci.dohPath = true ∧ r.listenerID ci.listener = true ∧
  r.tlsServerName ci.tlsServerName = true ∧ (r.weekdays = [] ∨ now.weekday ∈ r.weekdays) ∧ (∀ t, r.before = some t → t.isAfter now.hour now.minute = true) ∧
  (∀ t, r.after = some t → t.isBefore now.hour now.minute = true)

private theorem matches_conds (r : Route) (q : Msg) (qu : Question) (ci : ClientInfo) (now : Now) :
    (Conds r q qu ci now → matches' r q qu ci now = ! r.inverted) ∧ (¬ Conds r q qu ci now → matches' r q qu ci now = r.inverted) := by
  have anyf : ∀ {α : Type} (o : Option α) (p : α → Bool), o.any (fun x => ! p x) = true ↔ ¬ ∀ n, o = some n → p n = true := by
    intro α o p
    cases o <;> simp
  have c1 : (r.types ≠ [] ∧ ¬ r.types.contains qu.qtype = true) ↔ ¬ (r.types = [] ∨ qu.qtype ∈ r.types) := by simp [not_or]
  have c2 : (r.cls ≠ 0 ∧ r.cls ≠ qu.qclass) ↔ ¬ (r.cls = 0 ∨ r.cls = qu.qclass) := by simp [not_or]
  have c4 := anyf r.source (fun n => contains n ci.sourceIP)
  have c5 : r.ecsSource.any (fun n => ecsIP q = [] || ! contains n (ecsIP q)) = true ↔ ¬ ∀ n, r.ecsSource = some n → ecsIP q ≠ [] ∧ contains n (ecsIP q) = true := by
    cases r.ecsSource with
    | none => simp
    | some n => by_cases h : ecsIP q = [] <;> simp [h]
  have c9 : (r.weekdays ≠ [] ∧ ¬ r.weekdays.contains now.weekday = true) ↔ ¬ (r.weekdays = [] ∨ now.weekday ∈ r.weekdays) := by simp [not_or]
  have c10 := anyf r.before (fun t => t.isAfter now.hour now.minute)
  have c11 := anyf r.after (fun t => t.isBefore now.hour now.minute)
  unfold Conds
  constructor
  · rintro ⟨h1, h2, h3, h4, h5, h6, h7, h8, h9, h10, h11⟩
    unfold matches'
    rw [if_neg (fun h => c1.mp h h1), if_neg (fun h => c2.mp h h2), if_neg (by simp [h3]), if_neg (fun h => c4.mp h h4), if_neg (fun h => c5.mp h h5),
      if_neg (by simp [h6]), if_neg (by simp [h7]), if_neg (by simp [h8]), if_neg (fun h => c9.mp h h9), if_neg (fun h => c10.mp h h10), if_neg (fun h => c11.mp h h11)]
  · intro hn
    unfold matches'
    by_cases h1 : r.types ≠ [] ∧ ¬ r.types.contains qu.qtype = true
    · rw [if_pos h1]
    rw [if_neg h1]
    by_cases h2 : r.cls ≠ 0 ∧ r.cls ≠ qu.qclass
    · rw [if_pos h2]
    rw [if_neg h2]
    by_cases h3 : ¬ r.name qu.name = true
    · rw [if_pos h3]
    rw [if_neg h3]
    by_cases h4 : r.source.any (fun n => ! contains n ci.sourceIP) = true
    · rw [if_pos h4]
    rw [if_neg h4]
    by_cases h5 : r.ecsSource.any (fun n => ecsIP q = [] || ! contains n (ecsIP q)) = true
    · rw [if_pos h5]
    rw [if_neg h5]
    by_cases h6 : ¬ r.dohPath ci.dohPath = true
    · rw [if_pos h6]
    rw [if_neg h6]
    by_cases h7 : ¬ r.listenerID ci.listener = true
    · rw [if_pos h7]
    rw [if_neg h7]
    by_cases h8 : ¬ r.tlsServerName ci.tlsServerName = true
    · rw [if_pos h8]
    rw [if_neg h8]
    by_cases h9 : r.weekdays ≠ [] ∧ ¬ r.weekdays.contains now.weekday = true
    · rw [if_pos h9]
    rw [if_neg h9]
    by_cases h10 : r.before.any (fun t => ! t.isAfter now.hour now.minute) = true
    · rw [if_pos h10]
    rw [if_neg h10]
    by_cases h11 : r.after.any (fun t => ! t.isBefore now.hour now.minute) = true
    · rw [if_pos h11]
    exfalso
    exact hn ⟨Decidable.not_not.mp fun h => h1 (c1.mpr h), Decidable.not_not.mp fun h => h2 (c2.mpr h), by simpa using h3,
      Classical.not_not.mp fun h => h4 (c4.mpr h), Classical.not_not.mp fun h => h5 (c5.mpr h), by simpa using h6, by simpa using h7, by simpa using h8,
      Decidable.not_not.mp fun h => h9 (c9.mpr h), Classical.not_not.mp fun h => h10 (c10.mpr h), Classical.not_not.mp fun h => h11 (c11.mpr h)⟩

/-- C38: a route made from a configuration matches a query exactly if all the conditions of the configuration hold, and with `invert` exactly if not all do. -/
theorem route_matches_iff (table : List (Nat × Str)) (hu : ∀ e e', e ∈ table → e' ∈ table → e.2 = e'.2 → e = e')
    (compile : Str → Option (Str → Bool)) (parseCIDR : Str → Option (Str × IPNet)) (hp : ∀ s e, parseCIDR s = some e → e.2.ip.length = 4 ∨ e.2.ip.length = 16)
    (c : Config) (r : Route) (h : newRoute table compile parseCIDR c = some r)
    (q : Msg) (qu : Question) (ci : ClientInfo) (hci : ci.sourceIP.length = 0 ∨ ci.sourceIP.length = 4 ∨ ci.sourceIP.length = 16)
    (hecs : ∀ ip, EcsAddress q ip → ip.length = 4 ∨ ip.length = 16) (now : Now) (hnow : now.minute < 60) :
    (Holds table compile parseCIDR c q qu ci now → matches' r q qu ci now = ! c.invert) ∧ (¬ Holds table compile parseCIDR c q qu ci now → matches' r q qu ci now = c.invert) := by
  unfold newRoute at h
  simp only [Option.bind_eq_bind, Option.bind_eq_some_iff, Option.pure_def, Option.some.injEq] at h
  obtain ⟨t, ht, w, hw, b, hb, a, ha, cl, hcl, re, hre, dohRe, hdoh, liRe, hli, tlsRe, htls, sNet, hs, eNet, he, rfl⟩ := h
  have key : Conds { types := t, cls := cl, name := re, source := sNet, ecsSource := eNet, weekdays := w, before := b, after := a, inverted := c.invert, dohPath := dohRe, listenerID := liRe, tlsServerName := tlsRe } q qu ci now ↔ Holds table compile parseCIDR c q qu ci now := by
    obtain ⟨t1, t2⟩ := types_spec table hu _ _ ht
    obtain ⟨w1, w2⟩ := weekdays_spec _ _ hw
    have tm : ∀ (s : Str) (o : Option TimeOfDay), parseTimeOfDay s = some o → (s = [] ↔ o = none) ∧ ∀ x, o = some x → x.minute < 60 ∧ ∀ h m, ClockText s h m ↔ x = ⟨h, m⟩ := by
      intro s o ho
      constructor
      · constructor
        · rintro rfl; simp [parseTimeOfDay] at ho; exact ho.symm
        · rintro rfl
          cases s with
          | nil => rfl
          | cons x xs =>
            exfalso
            unfold parseTimeOfDay at ho
            rw [if_neg (by simp)] at ho
            repeat' split at ho
            all_goals simp at ho
      · rintro x rfl
        obtain ⟨hs, hc⟩ := time_range s x ho
        refine ⟨hc.2.1, ?_⟩
        intro h m
        rw [← route_time_parse s hs h m, ho]
        simp
    obtain ⟨b1, b2⟩ := tm _ _ hb
    obtain ⟨a1, a2⟩ := tm _ _ ha
    have net : ∀ (s : Str) (o : Option IPNet), parseNet parseCIDR s = some o → (s = [] ∧ o = none) ∨ (s ≠ [] ∧ ∃ e, parseCIDR s = some e ∧ o = some e.2) := by
      intro s o ho
      unfold parseNet at ho
      by_cases h : s = []
      · rw [if_pos h] at ho; simp at ho; exact .inl ⟨h, ho.symm⟩
      · rw [if_neg h] at ho
        obtain ⟨e, h1, h2⟩ := Option.map_eq_some_iff.mp ho
        exact .inr ⟨h, e, h1, h2.symm⟩
    have hi1 : (t = [] ∨ qu.qtype ∈ t) ↔ (c.types = [] ∨ ∃ x, x ∈ c.types ∧ ∃ n, (qu.qtype, n) ∈ table ∧ Spec.InCapitals n x) := by simp only [t1, t2, capitals_iff, exists_eq_right]
    have hi2 : (cl = 0 ∨ cl = qu.qclass) ↔ (c.cls = [] ∨ ∃ n, n ∈ className qu.qclass ∧ Spec.InCapitals n c.cls) := by simp only [class_spec c.cls cl hcl qu.qclass, capitals_iff, exists_eq_right]
    have hi9 : (w = [] ∨ now.weekday ∈ w) ↔ (c.weekdays = [] ∨ ∃ d, d ∈ c.weekdays ∧ dayNames[now.weekday]? = some d) := by rw [w1, w2]
    have hi4 : (∀ n, sNet = some n → contains n ci.sourceIP = true) ↔ (c.source = [] ∨ ∃ e, parseCIDR c.source = some e ∧ Lies e.2 ci.sourceIP) := by
      rcases net _ _ hs with ⟨h1, rfl⟩ | ⟨h1, e, h2, rfl⟩
      · simp [h1]
      · simp only [Option.some.injEq, forall_eq', h1, false_or, h2]
        rw [route_contains e.2 (hp _ _ h2) _ hci]
        constructor
        · intro hl; exact ⟨e, rfl, hl⟩
        · rintro ⟨e', rfl, hl⟩; exact hl
    have hi5 : (∀ n, eNet = some n → ecsIP q ≠ [] ∧ contains n (ecsIP q) = true) ↔ (c.ecsSource = [] ∨ ∃ e ip, parseCIDR c.ecsSource = some e ∧ EcsAddress q ip ∧ Lies e.2 ip) := by
      rcases net _ _ he with ⟨h1, rfl⟩ | ⟨h1, e, h2, rfl⟩
      · simp [h1]
      · simp only [Option.some.injEq, forall_eq', h1, false_or, h2]
        constructor
        · rintro ⟨h3, h4⟩
          have h5 := ecs_some q h3
          exact ⟨e, _, rfl, h5, (route_contains e.2 (hp _ _ h2) _ (.inr (hecs _ h5))).mp h4⟩
        · rintro ⟨e', ip, rfl, h5, h6⟩
          have h7 := ecs_spec q ip h5
          rw [h7]
          refine ⟨?_, (route_contains e.2 (hp _ _ h2) _ (.inr (hecs _ h5))).mpr h6⟩
          rintro rfl
          have := hecs _ h5
          simp at this
    have hi10 : (∀ x, b = some x → x.isAfter now.hour now.minute = true) ↔ (c.before = [] ∨ ∃ h m, ClockText c.before h m ∧ Now.minutes now < h * 60 + m) := by
      cases b with
      | none => simp [b1]
      | some x =>
        have hne : ¬ c.before = [] := fun e => by simpa using b1.mp e
        obtain ⟨x1, x2⟩ := b2 x rfl
        simp only [Option.some.injEq, forall_eq', hne, false_or, x2]
        rw [(time_lt x now.hour now.minute x1 hnow).1]
        constructor
        · intro h; exact ⟨x.hour, x.minute, rfl, h⟩
        · rintro ⟨h, m, rfl, h3⟩; exact h3
    have hi11 : (∀ x, a = some x → x.isBefore now.hour now.minute = true) ↔ (c.after = [] ∨ ∃ h m, ClockText c.after h m ∧ h * 60 + m ≤ Now.minutes now) := by
      cases a with
      | none => simp [a1]
      | some x =>
        have hne : ¬ c.after = [] := fun e => by simpa using a1.mp e
        obtain ⟨x1, x2⟩ := a2 x rfl
        simp only [Option.some.injEq, forall_eq', hne, false_or, x2]
        rw [(time_lt x now.hour now.minute x1 hnow).2]
        constructor
        · intro h; exact ⟨x.hour, x.minute, rfl, h⟩
        · rintro ⟨h, m, rfl, h3⟩; exact h3
    have fn : ∀ (s x : Str) (f : Str → Bool), compile s = some f → (f x = true ↔ ∃ g, compile s = some g ∧ g x = true) := by
      intro s x f hf
      constructor
      · intro h; exact ⟨f, hf, h⟩
      · rintro ⟨g, hg, h⟩; rw [hf] at hg; simp only [Option.some.injEq] at hg; rw [hg]; exact h
    constructor
    · rintro ⟨h1, h2, h3, h4, h5, h6, h7, h8, h9, h10, h11⟩
      exact ⟨hi1.mp h1, hi2.mp h2, (fn _ _ _ hre).mp h3, hi4.mp h4, hi5.mp h5, (fn _ _ _ hdoh).mp h6, (fn _ _ _ hli).mp h7, (fn _ _ _ htls).mp h8, hi9.mp h9, hi10.mp h10, hi11.mp h11⟩
    · rintro ⟨h1, h2, h3, h4, h5, h6, h7, h8, h9, h10, h11⟩
      exact ⟨hi1.mpr h1, hi2.mpr h2, (fn _ _ _ hre).mpr h3, hi4.mpr h4, hi5.mpr h5, (fn _ _ _ hdoh).mpr h6, (fn _ _ _ hli).mpr h7, (fn _ _ _ htls).mpr h8, hi9.mpr h9, hi10.mpr h10, hi11.mpr h11⟩
  have hm := matches_conds { types := t, cls := cl, name := re, source := sNet, ecsSource := eNet, weekdays := w, before := b, after := a, inverted := c.invert, dohPath := dohRe, listenerID := liRe, tlsServerName := tlsRe } q qu ci now
  exact ⟨fun h => hm.1 (key.mpr h), fun h => hm.2 (fun h' => h (key.mp h'))⟩

private def exTable : List (Nat × Str) := [(1, str "A"), (28, str "AAAA")]
private def exCompile (s : Str) : Option (Str → Bool) := some fun x => s.isSuffixOf x
private def exCIDR (s : Str) : Option (Str × IPNet) := if s = str "10.0.0.0/8" then some (v4Prefix ++ [10, 0, 0, 0], ⟨[10, 0, 0, 0], 8⟩) else none
private def exCfg : Config := { name := str "com.", types := [str "a"], cls := str "in", weekdays := [str "mon"], before := str "17:30", after := str "9", source := str "10.0.0.0/8" }
private def exQ : Msg := { question := [⟨str "x.com.", 1, 1⟩] }
private def exRes : Nat → Msg → ClientInfo → Res := fun i _ _ => .fail (toString i)

example : (newRoute exTable exCompile exCIDR exCfg).isSome ∧
    (newRoute exTable exCompile exCIDR exCfg).map (fun r => (matches' r exQ ⟨str "x.com.", 1, 1⟩ { sourceIP := [10, 1, 2, 3] } ⟨1, 9, 0⟩,
      matches' r exQ ⟨str "x.com.", 1, 1⟩ { sourceIP := [10, 1, 2, 3] } ⟨1, 17, 30⟩, matches' r exQ ⟨str "x.com.", 28, 1⟩ { sourceIP := [10, 1, 2, 3] } ⟨1, 9, 0⟩,
      matches' r exQ ⟨str "x.com.", 1, 1⟩ { sourceIP := [11, 1, 2, 3] } ⟨1, 9, 0⟩)) = some (true, false, false, false) ∧
    (newRoute exTable exCompile exCIDR { exCfg with types := [str "XX"] }).isNone := by decide +kernel

/-- Finding: a time window across midnight never holds. -/
theorem route_window_across_midnight (table : List (Nat × Str)) (compile : Str → Option (Str → Bool)) (parseCIDR : Str → Option (Str × IPNet)) (c : Config) (q : Msg) (qu : Question)
    (ci : ClientInfo) (now : Now) (ha : c.after = str "22:00") (hb : c.before = str "6:00") : ¬ Holds table compile parseCIDR c q qu ci now := by
  intro h
  have tm : ∀ (s : Str) (hh mm h m : Nat), s ≠ [] → parseTimeOfDay s = some (some ⟨hh, mm⟩) → ClockText s h m → h = hh ∧ m = mm := by
    intro s hh mm h m hs hp hc
    have := (route_time_parse s hs h m).mpr hc
    rw [hp] at this
    simp at this
    exact ⟨this.1.symm, this.2.symm⟩
  rcases h.before with e | ⟨h1, m1, hc1, hl1⟩
  · rw [hb] at e; exact absurd e (by decide)
  rcases h.after with e | ⟨h2, m2, hc2, hl2⟩
  · rw [ha] at e; exact absurd e (by decide)
  rw [hb] at hc1; rw [ha] at hc2
  have e1 := tm _ 6 0 _ _ (by decide) (by decide +kernel) hc1
  have e2 := tm _ 22 0 _ _ (by decide) (by decide +kernel) hc2
  rw [e1.1, e1.2] at hl1
  rw [e2.1, e2.2] at hl2
  omega

/-! ### Router -/

theorem routeIndex_spec (q : Msg) (qu : Question) (ci : ClientInfo) (now : Nat → Now) : ∀ (routes : List Route) (i : Nat),
    match routeIndex routes q qu ci now i with
    | some k => i ≤ k ∧ ∃ r, routes[k - i]? = some r ∧ matches' r q qu ci (now k) = true ∧ ∀ j r', j < k - i → routes[j]? = some r' → matches' r' q qu ci (now (i + j)) = false
    | none => ∀ j r', routes[j]? = some r' → matches' r' q qu ci (now (i + j)) = false
  | [], i => by simp [routeIndex]
  | r :: rs, i => by
    unfold routeIndex
    by_cases hm : matches' r q qu ci (now i) = true
    · rw [if_pos hm]
      simp [hm]
    · rw [if_neg hm]
      have hm : matches' r q qu ci (now i) = false := by simpa using hm
      have ih := routeIndex_spec q qu ci now rs (i + 1)
      cases hr : routeIndex rs q qu ci now (i + 1) with
      | some k =>
        rw [hr] at ih
        simp only [] at ih ⊢
        obtain ⟨h1, r', h2, h3, h4⟩ := ih
        refine ⟨by omega, r', ?_, h3, ?_⟩
        · rw [show k - i = (k - (i + 1)) + 1 from by omega]; simpa using h2
        · intro j r'' hj hr''
          cases j with
          | zero => simp at hr''; subst hr''; exact hm
          | succ j =>
            have := h4 j r'' (by omega) (by simpa using hr'')
            rw [show i + (j + 1) = i + 1 + j from by omega]; exact this
      | none =>
        rw [hr] at ih
        simp only [] at ih ⊢
        intro j r'' hr''
        cases j with
        | zero => simp at hr''; subst hr''; exact hm
        | succ j =>
          have := ih j r'' (by simpa using hr'')
          rw [show i + (j + 1) = i + 1 + j from by omega]; exact this

/-- C37: if route `k` matches and none before it does, the result is that of its resolver for the unchanged query; if no route matches, the result is an error. -/
theorem router_first_match (routes : List Route) (resolvers : Nat → Msg → ClientInfo → Res) (q : Msg) (qu : Question) (rest : List Question) (hq : q.question = qu :: rest)
    (ci : ClientInfo) (now : Nat → Now) :
    (∀ k r, routes[k]? = some r → matches' r q qu ci (now k) = true → (∀ j r', j < k → routes[j]? = some r' → matches' r' q qu ci (now j) = false) →
      resolve routes resolvers q ci now = some (resolvers k q ci)) ∧
    ((∀ j r', routes[j]? = some r' → matches' r' q qu ci (now j) = false) → ∃ e, resolve routes resolvers q ci now = some (.fail e)) := by
  have hs := routeIndex_spec q qu ci now routes 0
  unfold resolve
  rw [hq]
  simp only []
  cases hr : routeIndex routes q qu ci now 0 with
  | some k' =>
    rw [hr] at hs
    simp only [Nat.sub_zero, Nat.zero_add] at hs
    obtain ⟨_, r', h1, h2, h3⟩ := hs
    constructor
    · intro k r hk hm hb
      have : k = k' := by
        rcases Nat.lt_trichotomy k k' with h | h | h
        · have := h3 k r h hk; rw [hm] at this; simp at this
        · exact h
        · have := hb k' r' h h1; rw [h2] at this; simp at this
      rw [this]
    · intro h
      have := h k' r' h1
      rw [h2] at this; simp at this
  | none =>
    rw [hr] at hs
    simp only [Nat.zero_add] at hs
    constructor
    · intro k r hk hm
      have := hs k r hk
      rw [hm] at this; simp at this
    · intro _; exact ⟨_, rfl⟩

private def exRoutes : List Route := ([{ exCfg with invert := false }, { types := [str "AAAA"] }, { name := str "com." }].filterMap (newRoute exTable exCompile exCIDR))
example : exRoutes.length = 3 ∧ resolve exRoutes exRes exQ { sourceIP := [10, 1, 2, 3] } (fun _ => ⟨1, 9, 0⟩) = some (.fail "0") ∧
    resolve exRoutes exRes exQ { sourceIP := [10, 1, 2, 3] } (fun _ => ⟨2, 9, 0⟩) = some (.fail "2") ∧
    resolve exRoutes exRes { question := [⟨str "x.org.", 28, 1⟩] } {} (fun _ => ⟨2, 9, 0⟩) = some (.fail "1") ∧
    resolve exRoutes exRes { question := [⟨str "x.org.", 1, 1⟩] } {} (fun _ => ⟨2, 9, 0⟩) = some (.fail "no route") := by decide +kernel

end Verif.Props.Route
