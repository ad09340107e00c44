/-
C28: the domain list.
-/
import Verif.Lemmas.DomainSet
import Verif.Spec.Domain
set_option linter.unusedVariables false
set_option linter.unusedSimpArgs false
namespace Verif.Props.Domain
open Verif Verif.Domain Verif.DomainL Verif.Spec.Domain

/-! ### A line and its path -/

private def pathOf (incl : Bool) (line : Str) : List Str := (splitOn 46 (normalize incl line)).reverse

private def ruleOfPath (R : List Str) : Rule := match R.reverse with
  | [] :: p :: ps => .apexAndSub (p :: ps).reverse
  | [42] :: p :: ps => .subOnly (p :: ps).reverse
  | _ => .exact R

private def txt (line : Str) : Str := lower (trimDot (trimSpace line))

private theorem labels_eq (line : Str) : labels (trimSpace line) = (splitOn 46 (txt line)).reverse := rfl

/-- is the line a plain name? -/
private def Plain (line : Str) : Prop := ∀ (p : Str) (ps : List Str), splitOn 46 (txt line) ≠ [] :: p :: ps ∧ splitOn 46 (txt line) ≠ [42] :: p :: ps

private theorem split_nil_iff (s : Str) : splitOn 46 s = [[]] ↔ s = [] := by
  constructor
  · intro h
    have := joinWith_splitOn (sep := 46) s
    rw [h] at this
    exact this.symm
  · rintro rfl; rfl

private theorem split_dot (s : Str) : splitOn 46 (46 :: s) = [] :: splitOn 46 s := by
  simp [splitOn]

private theorem split_head (s : Str) : s.head? = some 46 ↔ ∃ p ps, splitOn 46 s = [] :: p :: ps := by
  constructor
  · intro h
    cases s with
    | nil => simp at h
    | cons c s =>
      simp only [List.head?_cons, Option.some.injEq] at h
      subst h
      rw [split_dot]
      cases hs : splitOn 46 s with
      | nil => exact absurd hs (splitOn_ne_nil s)
      | cons p ps => exact ⟨p, ps, rfl⟩
  · rintro ⟨p, ps, h⟩
    have := joinWith_splitOn (sep := 46) s
    rw [h] at this
    simp only [joinWith, List.nil_append] at this
    rw [← this]; rfl

private theorem split_star (s : Str) : s.take 2 = [42, 46] ↔ ∃ p ps, splitOn 46 s = [42] :: p :: ps := by
  constructor
  · intro h
    match s, h with
    | a :: b :: s, h =>
      simp only [List.take_succ_cons, List.take_zero, List.cons.injEq, and_true] at h
      obtain ⟨rfl, rfl⟩ := h
      have h1 : splitOn 46 (46 :: s) = [] :: splitOn 46 s := split_dot s
      cases hs : splitOn 46 s with
      | nil => exact absurd hs (splitOn_ne_nil s)
      | cons p ps =>
        refine ⟨p, ps, ?_⟩
        rw [splitOn, if_neg (by decide), h1, hs]
  · rintro ⟨p, ps, h⟩
    have := joinWith_splitOn (sep := 46) s
    rw [h] at this
    simp only [joinWith] at this
    rw [← this]; rfl

private theorem normalize_plain (incl : Bool) (line : Str) (hp : Plain line) (hi : incl = true) (hne : txt line ≠ []) : normalize incl line = 46 :: txt line := by
  unfold normalize
  simp only []
  rw [if_pos]
  · rfl
  · refine ⟨hi, hne, ?_, ?_⟩
    · intro h
      obtain ⟨p, ps, e⟩ := (split_head _).mp h
      exact (hp p ps).1 e
    · intro h
      obtain ⟨p, ps, e⟩ := (split_star _).mp h
      exact (hp p ps).2 e

private theorem normalize_other (incl : Bool) (line : Str) (h : incl = false ∨ txt line = [] ∨ ¬ Plain line) : normalize incl line = txt line := by
  unfold normalize
  simp only []
  rw [if_neg]
  · rfl
  · rintro ⟨h1, h2, h3, h4⟩
    rcases h with h | h | h
    · rw [h] at h1; exact absurd h1 (by simp)
    · exact h2 h
    · apply h
      intro p ps
      exact ⟨fun e => h3 ((split_head _).mpr ⟨p, ps, e⟩), fun e => h4 ((split_star _).mpr ⟨p, ps, e⟩)⟩

private theorem plain_cases (line : Str) : (∃ p ps, splitOn 46 (txt line) = [] :: p :: ps) ∨ (∃ p ps, splitOn 46 (txt line) = [42] :: p :: ps) ∨ Plain line := by
  by_cases h1 : ∃ p ps, splitOn 46 (txt line) = [] :: p :: ps
  · exact .inl h1
  · by_cases h2 : ∃ p ps, splitOn 46 (txt line) = [42] :: p :: ps
    · exact .inr (.inl h2)
    · exact .inr (.inr fun p ps => ⟨fun e => h1 ⟨p, ps, e⟩, fun e => h2 ⟨p, ps, e⟩⟩)

private theorem ruleOfPath_exact (R : List Str) (h : ∀ p ps, R.reverse ≠ [] :: p :: ps ∧ R.reverse ≠ [42] :: p :: ps) : ruleOfPath R = .exact R := by
  unfold ruleOfPath
  split
  · rename_i p ps e; exact absurd e (h _ _).1
  · rename_i p ps e; exact absurd e (h _ _).2
  · rfl

private theorem ruleOf_path (incl : Bool) (line : Str) : ruleOf incl line = ruleOfPath (pathOf incl line) := by
  unfold ruleOf pathOf
  rw [labels_eq]
  simp only [List.reverse_reverse]
  rcases plain_cases line with ⟨p, ps, e⟩ | ⟨p, ps, e⟩ | hp
  · rw [normalize_other incl line (.inr (.inr fun h => (h p ps).1 e)), e]
    simp [ruleOfPath]
  · rw [normalize_other incl line (.inr (.inr fun h => (h p ps).2 e)), e]
    simp [ruleOfPath]
  · have hm : ∀ (r s : Rule), (r = s) → (match splitOn 46 (txt line) with
        | [] :: p :: ps => Rule.apexAndSub (p :: ps).reverse
        | [42] :: p :: ps => .subOnly (p :: ps).reverse
        | _ => r) = s := by
      intro r s hrs
      split
      · rename_i p ps e; exact absurd e (hp _ _).1
      · rename_i p ps e; exact absurd e (hp _ _).2
      · exact hrs
    refine hm _ _ ?_
    by_cases hc : incl = true ∧ txt line ≠ []
    · rw [if_pos ⟨hc.1, fun e => hc.2 ((split_nil_iff _).mp (by simpa using congrArg List.reverse e))⟩, normalize_plain incl line hp hc.1 hc.2, split_dot]
      cases hs : splitOn 46 (txt line) with
      | nil => exact absurd hs (splitOn_ne_nil _)
      | cons p ps => simp [ruleOfPath]
    · have hc' : incl = false ∨ txt line = [] := by
        by_cases h : txt line = []
        · exact .inr h
        · left; cases incl with
          | false => rfl
          | true => exact absurd ⟨rfl, h⟩ hc
      rw [if_neg, normalize_other incl line (hc'.elim .inl (fun e => .inr (.inl e))), ruleOfPath_exact]
      · intro p ps
        simpa using hp p ps
      · rintro ⟨h1, h2⟩
        refine hc ⟨h1, fun e => h2 ?_⟩
        rw [e]; rfl

/-! ### Wildcards -/

private theorem badWildcard_iff : ∀ (parts : List Str), badWildcard parts = false ↔ ∀ x part rest, parts = x ++ part :: rest → 42 ∈ part → rest = [] ∧ part = [42]
  | [] => by simp [badWildcard]
  | q :: qs => by
    have ih := badWildcard_iff qs
    simp only [badWildcard, Bool.or_eq_false_iff, ih]
    constructor
    · rintro ⟨h1, h2⟩ x part rest e hm
      cases x with
      | nil =>
        simp only [List.nil_append, List.cons.injEq] at e
        obtain ⟨rfl, rfl⟩ := e
        have hcon : q.contains 42 = true := by simpa using hm
        rw [hcon] at h1
        simp only [Bool.true_and, Bool.or_eq_false_iff, decide_eq_false_iff_not, Nat.not_lt, ne_eq, Decidable.not_not] at h1
        have h0 : qs = [] := List.length_eq_zero_iff.mp (by omega)
        obtain ⟨c, hc⟩ := List.length_eq_one_iff.mp h1.2
        refine ⟨h0, ?_⟩
        rw [hc] at hm ⊢
        rw [List.mem_singleton] at hm
        rw [← hm]
      | cons y ys =>
        simp only [List.cons_append, List.cons.injEq] at e
        exact h2 ys part rest e.2 hm
    · intro h
      refine ⟨?_, fun x part rest e hm => h (q :: x) part rest (by rw [e]; rfl) hm⟩
      cases hcon : q.contains 42 with
      | false => rfl
      | true =>
        obtain ⟨h1, h2⟩ := h [] q qs rfl (by simpa using hcon)
        subst h1 h2
        rfl

private theorem good_iff (line : Str) : GoodWildcards line ↔ badWildcard (splitOn 46 (txt line)).reverse = false := by
  rw [badWildcard_iff]
  unfold GoodWildcards
  rw [labels_eq, List.reverse_reverse]
  constructor
  · intro h x part rest e hm
    have he : splitOn 46 (txt line) = rest.reverse ++ part :: x.reverse := by
      have := congrArg List.reverse e
      simpa using this
    obtain ⟨h1, h2⟩ := h rest.length part (by rw [he]; simp) hm
    exact ⟨List.length_eq_zero_iff.mp h1, h2⟩
  · intro h i l hi hm
    have he : splitOn 46 (txt line) = (splitOn 46 (txt line)).take i ++ l :: (splitOn 46 (txt line)).drop (i + 1) := by
      obtain ⟨hlt, hl⟩ := List.getElem?_eq_some_iff.mp hi
      rw [← hl, ← List.drop_eq_getElem_cons hlt, List.take_append_drop]
    obtain ⟨h1, h2⟩ := h ((splitOn 46 (txt line)).drop (i + 1)).reverse l ((splitOn 46 (txt line)).take i).reverse (by
      conv => lhs; rw [he]
      simp) hm
    refine ⟨?_, h2⟩
    have := congrArg List.length h1
    have hlt := (List.getElem?_eq_some_iff.mp hi).1
    simp at this
    rcases this with e | e
    · exact e
    · rw [e] at hlt; simp at hlt

private theorem badWildcard_snoc (R : List Str) : badWildcard (R ++ [[]]) = false ↔ ∀ l, l ∈ R → 42 ∉ l := by
  rw [badWildcard_iff]
  constructor
  · intro h l hl hm
    obtain ⟨x, y, e⟩ := List.append_of_mem hl
    have := (h x l (y ++ [[]]) (by rw [e]; simp) hm).1
    simp at this
  · intro h x part rest e hm
    have : part ∈ R ++ [[]] := by rw [e]; simp
    rcases List.mem_append.mp this with hp | hp
    · exact absurd hm (h part hp)
    · rw [List.mem_singleton.mp hp] at hm; simp at hm

private theorem badWildcard_path (incl : Bool) (line : Str) : badWildcard (pathOf incl line) = false ↔
    GoodWildcards line ∧ ¬ (incl = true ∧ labels (trimSpace line) = [[42]]) := by
  unfold pathOf
  by_cases hc : incl = true ∧ txt line ≠ [] ∧ Plain line
  · obtain ⟨hi, hne, hp⟩ := hc
    rw [normalize_plain incl line hp hi hne, split_dot, List.reverse_cons, badWildcard_snoc, good_iff, badWildcard_iff, labels_eq]
    constructor
    · intro h
      refine ⟨fun x part rest e hm => absurd hm (h part (by rw [e]; simp)), ?_⟩
      rintro ⟨_, e⟩
      exact h [42] (by rw [e]; simp) (by simp)
    · rintro ⟨h1, h2⟩ l hl hm
      obtain ⟨x, y, e⟩ := List.append_of_mem hl
      obtain ⟨a, b⟩ := h1 x l y e hm
      subst a b
      have he : splitOn 46 (txt line) = [42] :: x.reverse := by
        have := congrArg List.reverse e
        simpa using this
      cases hx : x.reverse with
      | nil =>
        rw [hx] at he
        exact h2 ⟨hi, by rw [he]; rfl⟩
      | cons p ps => exact (hp p ps).2 (by rw [he, hx])
  · have hc' : incl = false ∨ txt line = [] ∨ ¬ Plain line := by
      by_cases h1 : incl = true
      · by_cases h2 : txt line = []
        · exact .inr (.inl h2)
        · exact .inr (.inr fun h => hc ⟨h1, h2, h⟩)
      · exact .inl (by simpa using h1)
    rw [normalize_other incl line hc', good_iff]
    constructor
    · intro h
      refine ⟨h, ?_⟩
      rintro ⟨hi, e⟩
      have e' : splitOn 46 (txt line) = [[42]] := by
        have := congrArg List.reverse e
        rw [labels_eq] at this
        simpa using this
      rcases hc' with hc' | hc' | hc'
      · rw [hi] at hc'; exact absurd hc' (by simp)
      · rw [hc'] at e'; exact absurd e' (by simp [splitOn])
      · apply hc'
        intro p ps
        rw [e']
        simp
    · exact And.left

/-! ### What is found -/

private theorem found_iff (h : Heap) (Rs : List (List Str)) (hP : Paths (A h) Rs) (N : List Str) (hN : N ≠ []) (hk : exactKey ∉ N) :
    (walk h (some root) [] N).isSome ↔
      (∃ y R, R ∈ Rs ∧ y ≠ [] ∧ y <+: N ∧ y ++ [emptyLabel] <+: R) ∨
      (∃ y R, R ∈ Rs ∧ y ≠ [] ∧ y <+: N ∧ y ≠ N ∧ y ++ [starLabel] <+: R) ∨ N ∈ Rs := by
  have hw := walk_spec h N [] (some root) rfl
  have hsub : ∀ (y : List Str) (l : Str), l ≠ exactKey → (A h (y ++ [l]) ↔ ∃ R, R ∈ Rs ∧ y ++ [l] <+: R) := by
    intro y l hl
    constructor
    · intro ha
      rcases hP.onlyRules _ ha with e | e | ⟨R, hR, e⟩
      · simp at e
      · exact e
      · exact absurd (snoc_inj _ _ _ _ e).2 hl
    · rintro ⟨R, hR, z, e⟩
      exact hP.closed _ z (by rw [e]; exact hP.rules R hR)
  have hex : ∀ (_ : A h N) (_ : leaf (A h) N ∨ A h (N ++ [exactKey])), N ∈ Rs := by
    intro ha hb
    rcases hb with hb | hb
    · rcases hP.leaves N ha hb hN with e | ⟨q, e⟩
      · exact e
      · exact absurd (by rw [e]; simp) hk
    · rcases hP.onlyRules _ hb with e | ⟨R, hR, e⟩ | ⟨R, hR, e⟩
      · simp at e
      · exact absurd (e.subset (by simp)) (hP.noKey R hR)
      · rw [(snoc_inj _ _ _ _ e).1]; exact hR
  cases hr : walk h (some root) [] N with
  | some e =>
    obtain ⟨pre, l⟩ := e
    rw [hr] at hw
    simp only [List.nil_append] at hw
    refine ⟨fun _ => ?_, fun _ => rfl⟩
    rcases hw with ⟨_, y, h1, h2, _, h3⟩ | ⟨_, y, h1, h2, h2', _, h3⟩ | ⟨_, _, h1, h2⟩
    · obtain ⟨R, hR, h4⟩ := (hsub y _ (by decide)).mp h3
      exact .inl ⟨y, R, hR, h1, h2, h4⟩
    · obtain ⟨R, hR, h4⟩ := (hsub y _ (by decide)).mp h3
      exact .inr (.inl ⟨y, R, hR, h1, h2, h2', h4⟩)
    · exact .inr (.inr (hex h1 h2))
  | none =>
    rw [hr] at hw
    simp only [List.nil_append] at hw
    obtain ⟨w1, w2, w3⟩ := hw
    refine ⟨fun h => absurd h (by simp), ?_⟩
    rintro (⟨y, R, hR, h1, h2, h3⟩ | ⟨y, R, hR, h1, h2, h2', h3⟩ | hm)
    · exact absurd ((hsub y _ (by decide)).mpr ⟨R, hR, h3⟩) (w1 y h1 h2)
    · exact absurd ((hsub y _ (by decide)).mpr ⟨R, hR, h3⟩) (w2 y h1 h2 h2')
    · obtain ⟨a, b⟩ := w3 (hP.rules N hm)
      rcases hP.marked N hm with e | e | e
      · exact absurd e a
      · exact absurd e b
      · exact absurd e (w1 N hN List.prefix_rfl)

private theorem nameParts_ne (name : Str) : nameParts name ≠ [] := by
  unfold nameParts; simpa using splitOn_ne_nil _

private theorem loaded (incl : Bool) (lines : List Str) (h : Heap) (hl : load incl lines initial = some h) : Paths (A h) (rulePaths incl lines) := by
  have := (load_paths incl lines initial h [] inv_initial paths_initial hl).2
  simpa using this

private theorem load_good (incl : Bool) : ∀ (lines : List Str) (h0 : Heap), (load incl lines h0).isSome ↔ ∀ line, line ∈ lines → badWildcard (pathOf incl line) = false
  | [], h0 => by simp [load]
  | r :: rs, h0 => by
    have ih := load_good incl rs (insert h0 root (pathOf incl r))
    simp only [load]
    show (if badWildcard (pathOf incl r) = true then none else load incl rs (insert h0 root (pathOf incl r))).isSome ↔ _
    cases hb : badWildcard (pathOf incl r) with
    | true => simp [hb]
    | false => simp only [Bool.false_eq_true, if_false, ih, List.mem_cons, forall_eq_or_imp, hb, true_and]

private theorem mem_rulePaths (incl : Bool) (lines : List Str) (R : List Str) : R ∈ rulePaths incl lines ↔ ∃ line, line ∈ lines ∧ R = pathOf incl line := by
  unfold rulePaths
  simp only [List.mem_map]
  constructor
  · rintro ⟨l, h1, h2⟩; exact ⟨l, h1, h2.symm⟩
  · rintro ⟨l, h1, h2⟩; exact ⟨l, h1, h2.symm⟩

private theorem lookup_isSome (h : Heap) (name : Str) : (lookupName h name).isSome = (walk h (some root) [] (nameParts name)).isSome := by
  unfold lookupName; simp

private theorem path_ne (incl : Bool) (line : Str) : pathOf incl line ≠ [] := by
  unfold pathOf; simpa using splitOn_ne_nil _

/-- the three shapes of a path -/
private theorem path_shapes (R : List Str) : (∃ y, y ≠ [] ∧ R = y ++ [[]] ∧ ruleOfPath R = .apexAndSub y) ∨
    (∃ y, y ≠ [] ∧ R = y ++ [[42]] ∧ ruleOfPath R = .subOnly y) ∨ ruleOfPath R = .exact R := by
  by_cases h1 : ∃ p ps, R.reverse = [] :: p :: ps
  · obtain ⟨p, ps, e⟩ := h1
    refine .inl ⟨(p :: ps).reverse, by simp, ?_, ?_⟩
    · have := congrArg List.reverse e
      simpa using this
    · simp [ruleOfPath, e]
  · by_cases h2 : ∃ p ps, R.reverse = [42] :: p :: ps
    · obtain ⟨p, ps, e⟩ := h2
      refine .inr (.inl ⟨(p :: ps).reverse, by simp, ?_, ?_⟩)
      · have := congrArg List.reverse e
        simpa using this
      · simp [ruleOfPath, e]
    · exact .inr (.inr (ruleOfPath_exact R fun p ps => ⟨fun e => h1 ⟨p, ps, e⟩, fun e => h2 ⟨p, ps, e⟩⟩))

private theorem noHole_path (incl : Bool) (line : Str) (hn : NoHole line) (y z : List Str) (hy : y ≠ []) (e : pathOf incl line = y ++ [] :: z) : z = [] := by
  -- every label but the first and the last is not empty
  have key : ∀ (L y z : List Str), (∀ l, l ∈ L.dropLast.tail → l ≠ []) → y ≠ [] → L = y ++ [] :: z → z = [] := by
    intro L y z hL hy e
    cases z with
    | nil => rfl
    | cons w ws =>
      exfalso
      cases y with
      | nil => exact hy rfl
      | cons a as =>
        refine hL [] ?_ rfl
        rw [e]
        rw [List.dropLast_append_of_ne_nil (by simp), List.dropLast_cons_of_ne_nil (by simp)]
        simp
  unfold NoHole at hn
  rw [labels_eq] at hn
  unfold pathOf at e
  by_cases hc : incl = true ∧ txt line ≠ [] ∧ Plain line
  · obtain ⟨hi, hne, hp⟩ := hc
    rw [normalize_plain incl line hp hi hne, split_dot, List.reverse_cons] at e
    cases hz : z.reverse with
    | nil => simpa using hz
    | cons w ws =>
      exfalso
      have hz' : z = ws.reverse ++ [w] := by
        have := congrArg List.reverse hz
        simpa using this
      rw [hz', show y ++ [] :: (ws.reverse ++ [w]) = (y ++ [] :: ws.reverse) ++ [w] from by simp] at e
      obtain ⟨e1, e2⟩ := snoc_inj _ _ _ _ e
      have := key _ y ws.reverse hn hy e1
      rw [this] at e1
      cases hy' : y.reverse with
      | nil => exact hy (by simpa using hy')
      | cons a as =>
        refine (hp a as).1 ?_
        have := congrArg List.reverse e1
        rw [List.reverse_reverse] at this
        rw [this]
        simp [hy']
  · have hc' : incl = false ∨ txt line = [] ∨ ¬ Plain line := by
      by_cases h1 : incl = true
      · by_cases h2 : txt line = []
        · exact .inr (.inl h2)
        · exact .inr (.inr fun h => hc ⟨h1, h2, h⟩)
      · exact .inl (by simpa using h1)
    rw [normalize_other incl line hc'] at e
    exact key _ y z hn hy e

/-- a path of a good list that a query runs into is the path of a rule that matches -/
private theorem sound_paths (incl : Bool) (line : Str) (hg : badWildcard (pathOf incl line) = false) (hn : NoHole line) (y : List Str) (hy : y ≠ []) (N : List Str) (hN : y <+: N) :
    (y ++ [emptyLabel] <+: pathOf incl line → pathOf incl line = y ++ [[]] ∧ (ruleOf incl line).Matches N) ∧
    (y ≠ N → y ++ [starLabel] <+: pathOf incl line → pathOf incl line = y ++ [[42]] ∧ (ruleOf incl line).Matches N) := by
  rw [ruleOf_path]
  cases hy' : y.reverse with
  | nil => exact absurd (by simpa using hy') hy
  | cons a as =>
  have hya : y = as.reverse ++ [a] := by
    have := congrArg List.reverse hy'
    simpa using this
  constructor
  · rintro ⟨z, e⟩
    have hz := noHole_path incl line hn y z hy (by rw [← e]; simp [emptyLabel])
    subst hz
    have e' : pathOf incl line = y ++ [[]] := by rw [← e]; simp [emptyLabel]
    refine ⟨e', ?_⟩
    have : ruleOfPath (pathOf incl line) = .apexAndSub y := by
      unfold ruleOfPath
      rw [e']
      simp only [List.reverse_append, List.reverse_cons, List.reverse_nil, List.nil_append, List.singleton_append, hy']
      simp [hya]
    rw [this]
    exact hN
  · rintro hne ⟨z, e⟩
    obtain ⟨hz, _⟩ := (badWildcard_iff _).mp hg y [42] z (by rw [← e]; simp [starLabel]) (by simp)
    subst hz
    have e' : pathOf incl line = y ++ [[42]] := by rw [← e]; simp [starLabel]
    refine ⟨e', ?_⟩
    have : ruleOfPath (pathOf incl line) = .subOnly y := by
      unfold ruleOfPath
      rw [e']
      simp only [List.reverse_append, List.reverse_cons, List.reverse_nil, List.nil_append, List.singleton_append, hy']
      simp [hya]
    rw [this]
    exact ⟨hN, fun e => hne e.symm⟩

private theorem exact_path (incl : Bool) (line : Str) : (ruleOf incl line).Matches (pathOf incl line) := by
  rw [ruleOf_path]
  rcases path_shapes (pathOf incl line) with ⟨y, hy, e, er⟩ | ⟨y, hy, e, er⟩ | er
  · rw [er, e]; exact ⟨[[]], rfl⟩
  · rw [er, e]; exact ⟨⟨[[42]], rfl⟩, by simp⟩
  · rw [er]; rfl

/-- C28: nothing that is listed gets through. (No assumption on the lines.) -/
theorem domain_complete (incl : Bool) (lines : List Str) (h : Heap) (hl : load incl lines initial = some h) (name line : Str) (hline : line ∈ lines)
    (hm : (ruleOf incl line).Matches (labels name)) : (lookupName h name).isSome := by
  rw [lookup_isSome, found_iff h _ (loaded incl lines h hl) _ (nameParts_ne name) (exactKey_not_mem _)]
  have hR : pathOf incl line ∈ rulePaths incl lines := (mem_rulePaths incl lines _).mpr ⟨line, hline, rfl⟩
  rw [ruleOf_path] at hm
  rcases path_shapes (pathOf incl line) with ⟨y, hy, e, er⟩ | ⟨y, hy, e, er⟩ | er
  · rw [er] at hm
    exact .inl ⟨y, _, hR, hy, hm, ⟨[], by rw [e]; simp [emptyLabel]⟩⟩
  · rw [er] at hm
    exact .inr (.inl ⟨y, _, hR, hy, hm.1, fun e => hm.2 e.symm, ⟨[], by rw [e]; simp [starLabel]⟩⟩)
  · rw [er] at hm
    refine .inr (.inr ?_)
    show labels name ∈ _
    rw [show labels name = pathOf incl line from hm]
    exact hR

/-- C28: and the rule reported is one that is listed and matches, in its usual spelling. -/
theorem domain_reported (incl : Bool) (lines : List Str) (h : Heap) (hl : load incl lines initial = some h) (hh : ∀ line, line ∈ lines → NoHole line)
    (name t : Str) (ht : lookupName h name = some t) : ∃ line, line ∈ lines ∧ (ruleOf incl line).Matches (labels name) ∧ t = (ruleOf incl line).text := by
  have hP := loaded incl lines h hl
  have hgood := (load_good incl lines initial).mp (by rw [hl]; rfl)
  have hw := walk_spec h (nameParts name) [] (some root) rfl
  unfold lookupName at ht
  cases hr : walk h (some root) [] (nameParts name) with
  | none => rw [hr] at ht; simp at ht
  | some e =>
    obtain ⟨pre, l⟩ := e
    rw [hr] at ht hw
    simp only [Option.map_some, Option.some.injEq] at ht
    simp only [List.nil_append] at hw
    have htext : ∀ line, (ruleOf incl line).text = joinWith 46 (pathOf incl line).reverse := by
      intro line
      rw [ruleOf_path]
      have hj : ∀ (k : Str) (y : List Str), y ≠ [] → joinWith 46 (y ++ [k]).reverse = k ++ 46 :: dotted y := by
        intro k y hy
        unfold dotted
        cases hy' : y.reverse with
        | nil => exact absurd (by simpa using hy') hy
        | cons a as => simp [hy', joinWith]
      rcases path_shapes (pathOf incl line) with ⟨y, hy, e, er⟩ | ⟨y, hy, e, er⟩ | er
      · rw [er, e, hj _ _ hy]; rfl
      · rw [er, e, hj _ _ hy]; rfl
      · rw [er]; rfl
    have hsub : ∀ (y : List Str) (l : Str), l ≠ exactKey → A h (y ++ [l]) → ∃ line, line ∈ lines ∧ y ++ [l] <+: pathOf incl line := by
      intro y l hl' ha
      rcases hP.onlyRules _ ha with e | ⟨R, hR, e⟩ | ⟨R, hR, e⟩
      · simp at e
      · obtain ⟨line, h1, rfl⟩ := (mem_rulePaths incl lines R).mp hR
        exact ⟨line, h1, e⟩
      · exact absurd (snoc_inj _ _ _ _ e).2 hl'
    rcases hw with ⟨rfl, y, h1, h2, rfl, h3⟩ | ⟨rfl, y, h1, h2, h2', rfl, h3⟩ | ⟨rfl, rfl, h1, h2⟩
    · obtain ⟨line, hm, h4⟩ := hsub y _ (by decide) h3
      obtain ⟨e, hmm⟩ := (sound_paths incl line (hgood line hm) (hh line hm) y h1 (nameParts name) h2).1 h4
      refine ⟨line, hm, hmm, ?_⟩
      rw [htext, e, ← ht]
      cases hy' : y.reverse with
      | nil => exact absurd (by simpa using hy') h1
      | cons a as => simp [hy', joinWith]
    · obtain ⟨line, hm, h4⟩ := hsub y _ (by decide) h3
      obtain ⟨e, hmm⟩ := (sound_paths incl line (hgood line hm) (hh line hm) y h1 (nameParts name) h2).2 h2' h4
      refine ⟨line, hm, hmm, ?_⟩
      rw [htext, e, ← ht]
      cases hy' : y.reverse with
      | nil => exact absurd (by simpa using hy') h1
      | cons a as => simp [hy', joinWith]
    · have hN : nameParts name ∈ rulePaths incl lines := by
        rcases h2 with hb | hb
        · rcases hP.leaves _ h1 hb (nameParts_ne name) with e | ⟨q, e⟩
          · exact e
          · exact absurd (show exactKey ∈ nameParts name by rw [e]; simp) (exactKey_not_mem (lower (trimDot name)))
        · rcases hP.onlyRules _ hb with e | ⟨R, hR, e⟩ | ⟨R, hR, e⟩
          · simp at e
          · exact absurd (e.subset (by simp)) (hP.noKey R hR)
          · rw [(snoc_inj _ _ _ _ e).1]; exact hR
      obtain ⟨line, hm, e⟩ := (mem_rulePaths incl lines _).mp hN
      refine ⟨line, hm, ?_, ?_⟩
      · have := exact_path incl line
        rw [← e] at this
        exact this
      · rw [htext, ← e, ← ht]; rfl

/-- C28: a name is matched exactly if a line of the list says so: an exact name, `.name` for the name and everything below, `*.name` for everything
below; whatever other lines there are. -/
theorem domain_match_iff (incl : Bool) (lines : List Str) (h : Heap) (hl : load incl lines initial = some h) (hh : ∀ line, line ∈ lines → NoHole line)
    (name : Str) : (lookupName h name).isSome ↔ ∃ line, line ∈ lines ∧ (ruleOf incl line).Matches (labels name) := by
  constructor
  · intro hs
    obtain ⟨t, ht⟩ := Option.isSome_iff_exists.mp hs
    obtain ⟨line, h1, h2, _⟩ := domain_reported incl lines h hl hh name t ht
    exact ⟨line, h1, h2⟩
  · rintro ⟨line, h1, h2⟩
    exact domain_complete incl lines h hl name line h1 h2

/-- C28: the order of the lines, and lines given twice, make no difference. -/
theorem domain_order (incl : Bool) (lines lines' : List Str) (h h' : Heap) (hl : load incl lines initial = some h) (hl' : load incl lines' initial = some h')
    (hs : ∀ line, line ∈ lines ↔ line ∈ lines') (name : Str) : (lookupName h name).isSome = (lookupName h' name).isSome := by
  have hm : ∀ R, R ∈ rulePaths incl lines ↔ R ∈ rulePaths incl lines' := by
    intro R; simp only [mem_rulePaths, hs]
  rw [Bool.eq_iff_iff, lookup_isSome, lookup_isSome, found_iff h _ (loaded incl lines h hl) _ (nameParts_ne name) (exactKey_not_mem _),
    found_iff h' _ (loaded incl lines' h' hl') _ (nameParts_ne name) (exactKey_not_mem _)]
  simp only [hm]

/-- C28: a list loads exactly if asterisks are only used alone and in front (and, when plain names include what is below, no line is a lone asterisk). -/
theorem domain_load_iff (incl : Bool) (lines : List Str) : (load incl lines initial).isSome ↔
    ∀ line, line ∈ lines → GoodWildcards line ∧ ¬ (incl = true ∧ labels (trimSpace line) = [[42]]) := by
  rw [load_good]
  simp only [badWildcard_path]

/-- C28: case and a final dot of the query name do not matter. -/
theorem domain_case_and_dot (h : Heap) (name name' : Str) (hn : lower name = lower name') :
    lookupName h name = lookupName h name' ∧ (name.getLast? ≠ some 46 → lookupName h (name ++ [46]) = lookupName h name) := by
  have h46 : ∀ c : UInt8, lowerByte c = 46 ↔ c = 46 := by
    intro c
    unfold lowerByte
    constructor
    · intro h
      split at h
      · rename_i hc
        obtain ⟨h1, h2⟩ := hc
        have : c = 46 - 32 := by rw [← h]; exact (UInt8.add_sub_cancel c 32).symm
        rw [this] at h1
        exact absurd h1 (by decide)
      · exact h
    · rintro rfl; decide
  have hld : ∀ s : Str, lower (trimDot s) = trimDot (lower s) := by
    intro s
    unfold trimDot lower
    rw [List.getLast?_map]
    cases hs : s.getLast? with
    | none => simp
    | some c =>
      by_cases hc : c = 46
      · subst hc
        simp only [if_true, Option.map_some, (h46 46).mpr rfl]
        simp
      · have : ¬ lowerByte c = 46 := fun e => hc ((h46 c).mp e)
        simp [hc, this]
  constructor
  · unfold lookupName nameParts
    rw [hld, hld, hn]
  · intro hl
    have : trimDot (name ++ [46]) = trimDot name := by
      unfold trimDot
      rw [if_pos (by simp), if_neg hl]
      simp
    unfold lookupName nameParts
    rw [this]

/-- Finding: a line with an empty label in the middle blocks everything at and below the part behind it: `a..b` blocks `b` and `c.b`, neither of which it names. -/
theorem domain_hole_overblocks (incl : Bool) (lines : List Str) (h : Heap) (hl : load incl lines initial = some h) (line : Str) (hline : line ∈ lines)
    (x y : List Str) (hy : y ≠ []) (hlab : labels (trimSpace line) = y ++ [] :: x) (name : Str) (hn : y <+: labels name) : (lookupName h name).isSome := by
  rw [lookup_isSome, found_iff h _ (loaded incl lines h hl) _ (nameParts_ne name) (exactKey_not_mem _)]
  have hR : pathOf incl line ∈ rulePaths incl lines := (mem_rulePaths incl lines _).mpr ⟨line, hline, rfl⟩
  refine .inl ⟨y, _, hR, hy, hn, ?_⟩
  have hpre : labels (trimSpace line) <+: pathOf incl line := by
    rw [labels_eq]
    unfold pathOf
    by_cases hc : incl = true ∧ txt line ≠ [] ∧ Plain line
    · rw [normalize_plain incl line hc.2.2 hc.1 hc.2.1, split_dot, List.reverse_cons]
      exact ⟨_, rfl⟩
    · rw [normalize_other incl line (by
        by_cases h1 : incl = true
        · by_cases h2 : txt line = []
          · exact .inr (.inl h2)
          · exact .inr (.inr fun h => hc ⟨h1, h2, h⟩)
        · exact .inl (by simpa using h1))]
      exact List.prefix_rfl
  refine List.IsPrefix.trans ?_ hpre
  rw [hlab]
  exact ⟨x, by simp [emptyLabel]⟩

/-! Concrete lists -/
private def exLines : List Str := [str "Evil.com.", str "*.ads.example", str ".track.net", str "a.ads.example", str " ads.example ", str "x.track.net"]
private def look (lines : List Str) (n : String) : Option (Option Str) := (load false lines initial).map fun h => lookupName h (str n)

example : (∀ line, line ∈ exLines → NoHole line) ∧ (load false exLines initial).isSome := by
  refine ⟨?_, by decide +kernel⟩
  simp only [exLines, List.forall_mem_cons, NoHole]
  decide +kernel
example : look exLines "EVIL.com." = some (some (str "evil.com")) ∧ look exLines "x.evil.com." = some none ∧
    look exLines "b.ads.example." = some (some (str "*.ads.example")) ∧ look exLines "ads.example." = some (some (str "ads.example")) ∧
    look exLines "y.z.track.net" = some (some (str ".track.net")) ∧ look exLines "net." = some none := by decide +kernel
example : look [str "a..b"] "c.b." = some (some (str ".b")) ∧ look [str "a..b"] "b." = some (some (str ".b")) := by decide +kernel
example : load false [str "good.com", str "a.*.b"] initial = none ∧ load false [str "x*.b"] initial = none ∧ load true [str "*"] initial = none := by decide +kernel
example : labels (trimSpace (str "a..b")) = [str "b"] ++ [] :: [str "a"] := by decide +kernel

/-- Finding: an empty line in a list blocks queries for the root. -/
theorem domain_blank_line_blocks_root (incl : Bool) : (load incl [[]] initial).bind (fun h => lookupName h (str ".")) = some [] := by
  cases incl <;> decide +kernel

end Verif.Props.Domain
