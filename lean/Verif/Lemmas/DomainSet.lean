/-
The set of paths of a domain list after a number of rules were inserted, and what the walk over a query name finds in it (C28).
-/
import Verif.Lemmas.Domain
import Verif.Lemmas.Str
set_option linter.unusedVariables false
set_option linter.unusedSimpArgs false
namespace Verif.DomainL
open Verif Verif.Domain

theorem added_iff (P : List Str → Prop) : ∀ (R p x : List Str), Added P p R x ↔
    (∃ y, y ≠ [] ∧ y <+: R ∧ x = p ++ y) ∨
    (R ≠ [] ∧ x = p ++ R ++ [exactKey] ∧ P (p ++ R) ∧ ¬ leaf P (p ++ R) ∧ ¬ P (p ++ R ++ [emptyLabel])) ∨
    (∃ y, y ≠ [] ∧ y <+: R ∧ y ≠ R ∧ x = p ++ y ++ [exactKey] ∧ P (p ++ y) ∧ leaf P (p ++ y))
  | [], p, x => by
    simp only [Added, false_iff]
    rintro (⟨y, h1, h2, _⟩ | ⟨h1, _⟩ | ⟨y, h1, h2, _⟩)
    · exact h1 (List.prefix_nil.mp h2)
    · exact h1 rfl
    · exact h1 (List.prefix_nil.mp h2)
  | part :: rest, p, x => by
    have ih := added_iff P rest (p ++ [part]) x
    simp only [Added, ih]
    constructor
    · rintro (rfl | ⟨rfl, rfl, a, b, c⟩ | ⟨hr, rfl, a, b⟩ | ⟨y, h1, h2, rfl⟩ | ⟨h1, rfl, a, b, c⟩ | ⟨y, h1, h2, h3, rfl, a, b⟩)
      · exact .inl ⟨[part], by simp, ⟨rest, rfl⟩, rfl⟩
      · exact .inr (.inl ⟨by simp, by simp, a, b, by simpa using c⟩)
      · exact .inr (.inr ⟨[part], by simp, ⟨rest, rfl⟩, by simpa using hr, by simp, a, b⟩)
      · exact .inl ⟨part :: y, by simp, (List.prefix_cons_inj part).mpr h2, by simp⟩
      · exact .inr (.inl ⟨by simp, by simp, by simpa using a, by simpa using b, by simpa using c⟩)
      · exact .inr (.inr ⟨part :: y, by simp, (List.prefix_cons_inj part).mpr h2, by simpa using h3, by simp, by simpa using a, by simpa using b⟩)
    · rintro (⟨y, h1, h2, rfl⟩ | ⟨h1, rfl, a, b, c⟩ | ⟨y, h1, h2, h3, rfl, a, b⟩)
      · cases y with
        | nil => exact absurd rfl h1
        | cons z zs =>
          obtain ⟨e, h2'⟩ := List.cons_prefix_cons.mp h2
          subst e
          cases zs with
          | nil => exact .inl rfl
          | cons w ws => exact .inr (.inr (.inr (.inl ⟨w :: ws, by simp, h2', by simp⟩)))
      · cases rest with
        | nil => exact .inr (.inl ⟨rfl, by simp, a, b, by simpa using c⟩)
        | cons w ws => exact .inr (.inr (.inr (.inr (.inl ⟨by simp, by simp, by simpa using a, by simpa using b, by simpa using c⟩))))
      · cases y with
        | nil => exact absurd rfl h1
        | cons z zs =>
          obtain ⟨e, h2'⟩ := List.cons_prefix_cons.mp h2
          subst e
          cases zs with
          | nil => exact .inr (.inr (.inl ⟨by simpa using fun e => h3 (by rw [e]), by simp, a, b⟩))
          | cons w ws => exact .inr (.inr (.inr (.inr (.inr ⟨w :: ws, by simp, h2', by simpa using h3, by simp, by simpa using a, by simpa using b⟩))))

/-- what the paths are after the rules `Rs` were inserted -/
structure Paths (P : List Str → Prop) (Rs : List (List Str)) : Prop where
  nil : P []
  closed : ∀ x y, P (x ++ y) → P x
  onlyRules : ∀ x, P x → x = [] ∨ (∃ R, R ∈ Rs ∧ x <+: R) ∨ (∃ R, R ∈ Rs ∧ x = R ++ [exactKey])
  rules : ∀ R, R ∈ Rs → P R
  marked : ∀ R, R ∈ Rs → leaf P R ∨ P (R ++ [exactKey]) ∨ P (R ++ [emptyLabel])
  leaves : ∀ x, P x → leaf P x → x ≠ [] → x ∈ Rs ∨ ∃ q, x = q ++ [exactKey]
  nonempty : ∀ R, R ∈ Rs → R ≠ []
  noKey : ∀ R, R ∈ Rs → exactKey ∉ R

theorem prefix_antisymm (x y : List Str) (h1 : x <+: y) (h2 : x ≠ y) : ∃ k z, y = x ++ k :: z := by
  obtain ⟨z, rfl⟩ := h1
  cases z with
  | nil => simp at h2
  | cons k z => exact ⟨k, z, rfl⟩

theorem snoc_inj (x y : List Str) (a b : Str) (h : x ++ [a] = y ++ [b]) : x = y ∧ a = b := by
  have := List.append_inj' h rfl
  simpa using this

theorem paths_step (P Q : List Str → Prop) (Rs : List (List Str)) (R : List Str) (hP : Paths P Rs) (hR : R ≠ []) (hk : exactKey ∉ R)
    (hc : ∀ x y, Q (x ++ y) → Q x) (hQ : ∀ x, Q x ↔ P x ∨ Added P [] R x) : Paths Q (Rs ++ [R]) := by
  have hA := fun x => added_iff P R [] x
  simp only [List.nil_append] at hA
  have hpk : ∀ y, y <+: R → exactKey ∉ y := fun y hy hm => hk (hy.subset hm)
  refine ⟨(hQ _).mpr (.inl hP.nil), hc, ?_, ?_, ?_, ?_, ?_, ?_⟩
  · intro x hx
    rcases (hQ x).mp hx with hx | hx
    · rcases hP.onlyRules x hx with e | ⟨S, hS, e⟩ | ⟨S, hS, e⟩
      · exact .inl e
      · exact .inr (.inl ⟨S, by simp [hS], e⟩)
      · exact .inr (.inr ⟨S, by simp [hS], e⟩)
    · rcases (hA x).mp hx with ⟨y, h1, h2, rfl⟩ | ⟨_, rfl, _⟩ | ⟨y, h1, h2, h3, rfl, a, b⟩
      · exact .inr (.inl ⟨R, by simp, h2⟩)
      · exact .inr (.inr ⟨R, by simp, rfl⟩)
      · rcases hP.leaves y a b h1 with hy | ⟨q, hq⟩
        · exact .inr (.inr ⟨y, by simp [hy], rfl⟩)
        · exact absurd (by rw [hq]; simp) (hpk y h2)
  · intro S hS
    rcases List.mem_append.mp hS with hS | hS
    · exact (hQ _).mpr (.inl (hP.rules S hS))
    · rw [List.mem_singleton.mp hS]
      exact (hQ _).mpr (.inr ((hA _).mpr (.inl ⟨R, hR, List.prefix_rfl, rfl⟩)))
  · intro S hS
    rcases List.mem_append.mp hS with hS | hS
    · rcases hP.marked S hS with hl | hm | hm
      · by_cases hl' : leaf Q S
        · exact .inl hl'
        · right; left
          obtain ⟨k, hk'⟩ : ∃ k, Q (S ++ [k]) := by
            apply Classical.byContradiction
            intro hn
            exact hl' (fun k hq => hn ⟨k, hq⟩)
          rcases (hQ _).mp hk' with hx | hx
          · exact absurd hx (hl k)
          · rcases (hA _).mp hx with ⟨y, h1, h2, e⟩ | ⟨_, e, a, b, c⟩ | ⟨y, h1, h2, h3, e, a, b⟩
            · refine (hQ _).mpr (.inr ((hA _).mpr (.inr (.inr ⟨S, hP.nonempty S hS, ?_, ?_, rfl, hP.rules S hS, hl⟩))))
              · exact List.IsPrefix.trans ⟨[k], e⟩ h2
              · rintro rfl
                rw [← e] at h2
                have := h2.length_le
                simp at this
                omega
            · obtain ⟨e1, e2⟩ := snoc_inj _ _ _ _ e
              subst e2
              exact hk'
            · obtain ⟨e1, e2⟩ := snoc_inj _ _ _ _ e
              subst e2
              exact hk'
      · exact .inr (.inl ((hQ _).mpr (.inl hm)))
      · exact .inr (.inr ((hQ _).mpr (.inl hm)))
    · rw [List.mem_singleton.mp hS]
      -- what may be added below the new rule is only the mark
      have hbelow : ∀ k, Q (R ++ [k]) → P (R ++ [k]) ∨ (P R ∧ ¬ leaf P R) := by
        intro k hq
        rcases (hQ _).mp hq with hx | hx
        · exact .inl hx
        · rcases (hA _).mp hx with ⟨y, h1, h2, e⟩ | ⟨_, e, a, b, c⟩ | ⟨y, h1, h2, h3, e, a, b⟩
          · rw [← e] at h2
            have := h2.length_le
            simp at this
            omega
          · exact .inr ⟨a, b⟩
          · obtain ⟨e1, e2⟩ := snoc_inj _ _ _ _ e
            exact absurd e1.symm h3
      by_cases hPR : P R
      · by_cases hl : leaf P R
        · left
          intro k hq
          rcases hbelow k hq with hx | ⟨_, hx⟩
          · exact hl k hx
          · exact hx hl
        · by_cases he : P (R ++ [emptyLabel])
          · exact .inr (.inr ((hQ _).mpr (.inl he)))
          · exact .inr (.inl ((hQ _).mpr (.inr ((hA _).mpr (.inr (.inl ⟨hR, rfl, hPR, hl, he⟩))))))
      · left
        intro k hq
        rcases hbelow k hq with hx | ⟨hx, _⟩
        · exact hPR (hP.closed _ _ hx)
        · exact hPR hx
  · intro x hx hl hne
    have hlP : leaf P x := fun k hp => hl k ((hQ _).mpr (.inl hp))
    rcases (hQ x).mp hx with hx | hx
    · rcases hP.leaves x hx hlP hne with e | e
      · exact .inl (by simp [e])
      · exact .inr e
    · rcases (hA x).mp hx with ⟨y, h1, h2, rfl⟩ | ⟨_, rfl, _⟩ | ⟨y, h1, h2, h3, rfl, a, b⟩
      · by_cases he : x = R
        · exact .inl (by simp [he])
        · obtain ⟨k, z, e⟩ := prefix_antisymm x R h2 he
          exact absurd ((hQ _).mpr (.inr ((hA _).mpr (.inl ⟨x ++ [k], by simp, ⟨z, by rw [e]; simp⟩, rfl⟩)))) (hl k)
      · exact .inr ⟨R, rfl⟩
      · exact .inr ⟨y, rfl⟩
  · intro S hS
    rcases List.mem_append.mp hS with hS | hS
    · exact hP.nonempty S hS
    · rw [List.mem_singleton.mp hS]; exact hR
  · intro S hS
    rcases List.mem_append.mp hS with hS | hS
    · exact hP.noKey S hS
    · rw [List.mem_singleton.mp hS]; exact hk

theorem paths_initial : Paths (A initial) [] := by
  have h0 : ∀ x, A initial x → x = [] := by
    intro x hx
    cases x with
    | nil => rfl
    | cons k ks =>
      unfold A at hx
      simp [follow, Domain.get, initial, root] at hx
  exact ⟨A_nil _, A_prefix _, fun x hx => .inl (h0 x hx), by simp, by simp, fun x hx _ hne => absurd (h0 x hx) hne, by simp, by simp⟩

/-- the rule paths of a list of lines -/
def rulePaths (incl : Bool) (lines : List Str) : List (List Str) := lines.map fun l => (splitOn 46 (normalize incl l)).reverse

theorem exactKey_not_mem (s : Str) : exactKey ∉ (splitOn 46 s).reverse := by
  intro h
  have := splitOn_no_sep s exactKey (List.mem_reverse.mp h)
  simp [exactKey] at this

theorem load_paths (incl : Bool) : ∀ (lines : List Str) (h h' : Heap) (Rs : List (List Str)), Inv h root → Paths (A h) Rs →
    load incl lines h = some h' → Inv h' root ∧ Paths (A h') (Rs ++ rulePaths incl lines)
  | [], h, h', Rs, hi, hp, hl => by
    simp only [load, Option.some.injEq] at hl
    subst hl
    simpa [rulePaths] using ⟨hi, hp⟩
  | r :: rs, h, h', Rs, hi, hp, hl => by
    simp only [load] at hl
    split at hl
    · exact absurd hl (by simp)
    · have hne : (splitOn 46 (normalize incl r)).reverse ≠ [] := by simpa using splitOn_ne_nil _
      have hk := exactKey_not_mem (normalize incl r)
      obtain ⟨hI, hA⟩ := insert_paths _ h root [] hi rfl (by decide) (by decide) hne hk
      have hP := paths_step (A h) _ Rs _ hp hne hk (A_prefix _) hA
      have := load_paths incl rs _ h' _ hI hP hl
      simpa [rulePaths] using this

/-! ### The walk -/

theorem walk_spec (h : Heap) : ∀ (rest M : List Str) (r : Ref), follow h (some root) M = some r →
    match walk h r M rest with
    | some (pre, l) =>
        (pre = [46] ∧ ∃ y, y ≠ [] ∧ y <+: rest ∧ l = (M ++ y).reverse ∧ A h (M ++ y ++ [emptyLabel])) ∨
        (pre = [42, 46] ∧ ∃ y, y ≠ [] ∧ y <+: rest ∧ y ≠ rest ∧ l = (M ++ y).reverse ∧ A h (M ++ y ++ [starLabel])) ∨
        (pre = [] ∧ l = (M ++ rest).reverse ∧ A h (M ++ rest) ∧ (leaf (A h) (M ++ rest) ∨ A h (M ++ rest ++ [exactKey])))
    | none =>
        (∀ y, y ≠ [] → y <+: rest → ¬ A h (M ++ y ++ [emptyLabel])) ∧
        (∀ y, y ≠ [] → y <+: rest → y ≠ rest → ¬ A h (M ++ y ++ [starLabel])) ∧
        (A h (M ++ rest) → ¬ leaf (A h) (M ++ rest) ∧ ¬ A h (M ++ rest ++ [exactKey]))
  | [], M, r, hM => by
    have hkey : ∀ k, A h (M ++ [k]) ↔ (r.bind fun a => get h a k).isSome := by
      intro k
      cases r with
      | none => unfold A; rw [follow_append, hM]; simp [follow]
      | some a => exact A_snoc h M a k hM
    have hl := leaf_iff h M r hM
    simp only [walk, List.append_nil]
    by_cases hc : size h r = 0 ∨ (r.bind fun a => get h a exactKey).isSome
    · rw [if_pos hc]
      refine .inr (.inr ⟨rfl, rfl, A_of h M r hM, ?_⟩)
      rw [hl, hkey]; exact hc
    · rw [if_neg hc]
      refine ⟨fun y h1 h2 => absurd (List.prefix_nil.mp h2) h1, fun y h1 h2 => absurd (List.prefix_nil.mp h2) h1, fun _ => ?_⟩
      rw [hl, hkey]
      exact ⟨fun e => hc (.inl e), fun e => hc (.inr e)⟩
  | part :: rest, M, r, hM => by
    simp only [walk]
    cases hg : (r.bind fun a => get h a part) with
    | none =>
      have hno : ∀ z, ¬ A h (M ++ part :: z) := by
        intro z hz
        unfold A at hz
        rw [follow_append, hM] at hz
        cases r with
        | none => simp [follow] at hz
        | some a =>
          simp only [Option.bind_some] at hg
          simp [follow, hg] at hz
      refine ⟨?_, ?_, fun e => absurd e (hno rest)⟩
      · intro y h1 h2 hy
        cases y with
        | nil => exact h1 rfl
        | cons z zs =>
          obtain ⟨e, _⟩ := List.cons_prefix_cons.mp h2
          subst e
          exact hno (zs ++ [emptyLabel]) (by simpa using hy)
      · intro y h1 h2 _ hy
        cases y with
        | nil => exact h1 rfl
        | cons z zs =>
          obtain ⟨e, _⟩ := List.cons_prefix_cons.mp h2
          subst e
          exact hno (zs ++ [starLabel]) (by simpa using hy)
    | some sub =>
      have hM' : follow h (some root) (M ++ [part]) = some sub := by
        cases r with
        | none => simp at hg
        | some a => exact follow_snoc h M a part sub hM (by simpa using hg)
      have hkey : ∀ k, A h (M ++ [part] ++ [k]) ↔ (sub.bind fun a => get h a k).isSome := by
        intro k
        cases sub with
        | none => unfold A; rw [follow_append, hM']; simp [follow]
        | some a => exact A_snoc h _ a k hM'
      by_cases h1 : (sub.bind fun a => get h a emptyLabel).isSome
      · simp only [if_pos h1]
        exact .inl ⟨trivial, [part], by simp, ⟨rest, rfl⟩, rfl, (hkey _).mpr h1⟩
      · simp only [if_neg h1]
        by_cases h2 : (sub.bind fun a => get h a starLabel).isSome ∧ rest.length > 0
        · simp only [if_pos h2]
          refine .inr (.inl ⟨trivial, [part], by simp, ⟨rest, rfl⟩, ?_, rfl, (hkey _).mpr h2.1⟩)
          have := h2.2
          intro e
          simp only [List.cons.injEq, true_and] at e
          rw [← e] at this
          simp at this
        · simp only [if_neg h2]
          have ih := walk_spec h rest (M ++ [part]) sub hM'
          cases hw : walk h sub (M ++ [part]) rest with
          | none =>
            rw [hw] at ih
            obtain ⟨i1, i2, i3⟩ := ih
            refine ⟨?_, ?_, ?_⟩
            · intro y hy1 hy2 hy
              cases y with
              | nil => exact hy1 rfl
              | cons z zs =>
                obtain ⟨e, hp⟩ := List.cons_prefix_cons.mp hy2
                subst e
                cases zs with
                | nil => exact h1 ((hkey _).mp hy)
                | cons w ws => exact i1 (w :: ws) (by simp) hp (by simpa using hy)
            · intro y hy1 hy2 hy3 hy
              cases y with
              | nil => exact hy1 rfl
              | cons z zs =>
                obtain ⟨e, hp⟩ := List.cons_prefix_cons.mp hy2
                subst e
                cases zs with
                | nil =>
                  refine h2 ⟨(hkey _).mp hy, ?_⟩
                  cases rest with
                  | nil => exact absurd rfl hy3
                  | cons => simp
                | cons w ws => exact i2 (w :: ws) (by simp) hp (by simpa using hy3) (by simpa using hy)
            · intro ha
              have := i3 (by simpa using ha)
              simpa using this
          | some e =>
            obtain ⟨pre, l⟩ := e
            rw [hw] at ih
            rcases ih with ⟨rfl, y, a, b, c, d⟩ | ⟨rfl, y, a, b, b', c, d⟩ | ⟨rfl, c, d, e⟩
            · exact .inl ⟨rfl, part :: y, by simp, (List.prefix_cons_inj part).mpr b, by rw [c]; simp, by simpa using d⟩
            · exact .inr (.inl ⟨rfl, part :: y, by simp, (List.prefix_cons_inj part).mpr b, by simpa using b', by rw [c]; simp, by simpa using d⟩)
            · exact .inr (.inr ⟨rfl, by rw [c]; simp, by simpa using d, by simpa using e⟩)

end Verif.DomainL
