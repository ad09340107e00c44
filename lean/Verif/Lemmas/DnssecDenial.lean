import Verif.Lemmas.DnssecName
import Verif.Model.DnssecDenial
import Verif.Spec.DnssecDenial
/- Facts for the denial proofs -/
set_option linter.unusedSimpArgs false
set_option linter.unusedVariables false
namespace Verif.Dnssec
open Verif Verif.DnssecSpec

/-! ### Common labels and order -/

theorem lcp_mono_lt {a b c : List Str} (h1 : a < b) (h2 : b < c) : lcp a c ≤ lcp b c := by
  induction c generalizing a b with
  | nil => cases b <;> simp at h2
  | cons z zs ih =>
    cases a with
    | nil => simp [lcp]
    | cons x xs =>
      cases b with
      | nil => simp at h1
      | cons y ys =>
        rw [List.cons_lt_cons_iff] at h1 h2
        simp only [lcp]
        rcases h1 with h1 | ⟨rfl, h1⟩
        · have : x ≠ z := by
            rintro rfl
            rcases h2 with h2 | ⟨rfl, _⟩
            · exact str_lt_asymm h1 h2
            · exact str_lt_irrefl _ h1
          simp [this]
        · rcases h2 with h2 | ⟨rfl, h2⟩
          · have : x ≠ z := by rintro rfl; exact str_lt_irrefl _ h2
            simp [this]
          · simp only [if_true]
            have := ih h1 h2
            omega

theorem lcp_mono_gt {a b c : List Str} (h1 : c < b) (h2 : b < a) : lcp a c ≤ lcp b c := by
  induction c generalizing a b with
  | nil => cases a <;> simp [lcp]
  | cons z zs ih =>
    cases a with
    | nil => simp [lcp]
    | cons x xs =>
      cases b with
      | nil => simp at h1
      | cons y ys =>
        rw [List.cons_lt_cons_iff] at h1 h2
        simp only [lcp]
        rcases h2 with h2 | ⟨rfl, h2⟩
        · have : x ≠ z := by
            rintro rfl
            rcases h1 with h1 | ⟨rfl, _⟩
            · exact str_lt_asymm h1 h2
            · exact str_lt_irrefl _ h2
          simp [this]
        · rcases h1 with h1 | ⟨rfl, h1⟩
          · have : y ≠ z := by rintro rfl; exact str_lt_irrefl _ h1
            simp [this]
          · simp only [if_true]
            have := ih h1 h2
            omega

theorem names_trichotomy (a b : List Str) : a < b ∨ a = b ∨ b < a := by
  rcases cmpLabels_cases a b with h | h | h
  · exact .inl h.2
  · exact .inr (.inl h.2)
  · exact .inr (.inr h.2)

theorem prefix_not_gt {a b : List Str} (h : a <+: b) : ¬ b < a := by
  obtain ⟨t, rfl⟩ := h
  induction a with
  | nil => simp
  | cons x xs ih =>
    rw [List.cons_append, List.cons_lt_cons_iff]
    rintro (h | ⟨_, h⟩)
    · exact str_lt_irrefl _ h
    · exact ih h

theorem wf_suffix {a q : Name} (h : a <:+ q) (hw : WfName q) : WfName a := fun l hl => hw l (h.subset hl)

theorem canon_suffix {a q : Name} (h : a <:+ q) (hc : canon q = q) : canon a = a := by
  obtain ⟨t, rfl⟩ := h
  unfold canon at *
  rw [List.map_append] at hc
  exact (List.append_inj' hc (by simp)).2

theorem suffix_drop_eq {a q : Name} (h : a <:+ q) : a = q.drop (q.length - a.length) := (List.suffix_iff_eq_drop.mp h)

theorem suffix_of_le {a b q : Name} (ha : a <:+ q) (hb : b <:+ q) (h : a.length ≤ b.length) : a <:+ b := by
  rcases List.suffix_or_suffix_of_suffix ha hb with h' | h'
  · exact h'
  · have := h'.length_le
    have he := h'.eq_of_length (by omega)
    exact he ▸ List.suffix_refl _

theorem suffix_antisymm {a b : Name} (h1 : a <:+ b) (h2 : b <:+ a) : a = b :=
  h1.eq_of_length (Nat.le_antisymm h1.length_le h2.length_le)

theorem common_suffix_lcp {a q m : Name} (hq : a <:+ q) (hm : a <:+ m) : a.length ≤ lcp q.reverse m.reverse := by
  apply le_lcp
  · simpa using hq.length_le
  · rw [← List.reverse_prefix] at hq hm
    have h1 := List.prefix_iff_eq_take.mp hq
    have h2 := List.prefix_iff_eq_take.mp hm
    rw [List.length_reverse] at h1 h2
    rw [← h1, ← h2]

theorem lcp_suffix (q m : Name) : q.drop (q.length - lcp q.reverse m.reverse) <:+ m := by
  have h := lcp_take q.reverse m.reverse
  have hle : lcp q.reverse m.reverse ≤ q.length := by have := lcp_le_left q.reverse m.reverse; simpa using this
  have h1 : (q.drop (q.length - lcp q.reverse m.reverse)).reverse = q.reverse.take (lcp q.reverse m.reverse) := by
    rw [List.reverse_drop]; congr 1; omega
  rw [← List.reverse_prefix, h1, h]
  exact List.take_prefix _ _

/-- What a covering record says in terms of names -/
theorem nsecCovers_names {n : Nsec} {o x q : Name} (ho : n.hdr.name = present o) (hx : n.next = present x) (hwo : WfName o) (hwx : WfName x)
    (hwq : WfName q) (h : nsecCovers n (present q) = true) :
    (CanonLt o x ∧ CanonLt o q ∧ CanonLt q x) ∨ (¬ CanonLt o x ∧ (CanonLt o q ∨ CanonLt q x)) := by
  unfold nsecCovers at h
  simp only [ho, hx, canonicalName_present] at h
  have hcmp : ∀ a b : Name, WfName a → WfName b → (canonicalNameCmp (present (canon a)) (present (canon b)) < 0 ↔ CanonLt a b) := by
    intro a b ha hb
    unfold canonicalNameCmp CanonLt
    rw [canonicalLabels_present (wf_canon ha), canonicalLabels_present (wf_canon hb), canon_idem, canon_idem]
    exact cmpLabels_lt
  split at h
  · simp at h
  · rename_i hne
    by_cases h1 : CanonLt o x
    · rw [if_pos ((hcmp o x hwo hwx).mpr h1)] at h
      simp only [Bool.and_eq_true, decide_eq_true_eq] at h
      exact .inl ⟨h1, (hcmp o q hwo hwq).mp h.1, (hcmp q x hwq hwx).mp h.2⟩
    · rw [if_neg (fun hh => h1 ((hcmp o x hwo hwx).mp hh))] at h
      simp only [Bool.or_eq_true, decide_eq_true_eq] at h
      refine .inr ⟨h1, ?_⟩
      rcases h with h | h
      · exact .inl ((hcmp o q hwo hwq).mp h)
      · exact .inr ((hcmp q x hwq hwx).mp h)

/-- A true record that covers a name of the zone: the name has no records, and all names with records share at most as many labels with it as
owner or next do -/
theorem covers_true {Z : Zone} {n : Nsec} {o x q : Name} (ho : n.hdr.name = present o) (hx : n.next = present x) (hwo : WfName o) (hwx : WfName x)
    (ht : Z.TrueNsec o x n.types) (hq : InZone Z q) (h : nsecCovers n (present q) = true) :
    Z.types q = [] ∧ ∀ m : Name, Z.types m ≠ [] →
      lcp q.reverse m.reverse ≤ max (lcp q.reverse (canon o).reverse) (lcp q.reverse (canon x).reverse) := by
  have hox := nsecCovers_names ho hx hwo hwx hq.wf h
  obtain ⟨hoc, how, hoa⟩ := Z.ok _ ht.owner
  obtain ⟨hxc, hxw, hxa⟩ := Z.ok _ ht.next
  -- the name is after the owner, and before next unless that is the apex
  have key : CanonLt o q ∧ (∀ m : Name, Z.types m ≠ [] → CanonLt o m → CanonLt q x ∧ ¬ CanonLt m x) := by
    rcases ht.gap with ⟨hap, hgap⟩ | ⟨hlt, hgap⟩
    · have hno : ∀ y : Name, canon y = y → Z.apex <:+ y → ¬ CanonLt y x := by
        intro y hy hs
        unfold CanonLt
        rw [hap, hy]
        exact prefix_not_gt (List.reverse_prefix.mpr hs)
      have hno' : ¬ CanonLt o x := by
        unfold CanonLt
        rw [hap]
        exact prefix_not_gt (List.reverse_prefix.mpr hoa)
      rcases hox with h | ⟨_, h | h⟩
      · exact absurd h.1 hno'
      · exact ⟨h, fun m hm hom => absurd hom (hgap m hm)⟩
      · exact absurd h (hno q hq.can hq.sub)
    · rcases hox with h | ⟨h, _⟩
      · exact ⟨h.2.1, fun m hm hom => ⟨h.2.2, fun hmx => hgap m hm ⟨hom, hmx⟩⟩⟩
      · exact absurd hlt h
  obtain ⟨hoq, hm⟩ := key
  refine ⟨?_, ?_⟩
  · apply Decidable.byContradiction
    intro hne
    have := hm q hne hoq
    exact this.2 this.1
  · intro m hmt
    obtain ⟨hmc, _, _⟩ := Z.ok _ hmt
    unfold CanonLt at *
    rw [hq.can] at *
    have h1 := hm m hmt
    rw [hmc] at h1
    rcases names_trichotomy (canon o).reverse m.reverse with h2 | h2 | h2
    · obtain ⟨h3, h4⟩ := h1 h2
      rcases names_trichotomy (canon x).reverse m.reverse with h5 | h5 | h5
      · have := lcp_mono_gt h3 h5
        rw [lcp_comm m.reverse, lcp_comm (canon x).reverse] at this
        omega
      · rw [h5]; omega
      · exact absurd h5 h4
    · rw [h2]; omega
    · have := lcp_mono_lt h2 hoq
      rw [lcp_comm m.reverse, lcp_comm (canon o).reverse] at this
      omega

/-- The closest encloser that the code computes from a true covering record -/
theorem encloser_true {Z : Zone} {n : Nsec} {o x q : Name} (ho : n.hdr.name = present o) (hx : n.next = present x) (hwo : WfName o) (hwx : WfName x)
    (ht : Z.TrueNsec o x n.types) (hq : InZone Z q) (h : nsecCovers n (present q) = true) :
    ∃ ce : Name, nsecClosestEncloser (present q) n = present ce ∧ ce <:+ q ∧ Z.Exists ce ∧ ∀ a : Name, a <:+ q → Z.Exists a → a <:+ ce := by
  obtain ⟨_, hk⟩ := covers_true ho hx hwo hwx ht hq h
  obtain ⟨hoc, how, hoa⟩ := Z.ok _ ht.owner
  obtain ⟨hxc, hxw, hxa⟩ := Z.ok _ ht.next
  unfold nsecClosestEncloser
  simp only [ho, hx, canonicalName_present]
  rw [compareName_present hq.wf how, compareName_present hq.wf hxw, hq.can, canon_idem, canon_idem, lastNLabels_present hq.wf hq.can]
  generalize hK : max (lcp q.reverse (canon o).reverse) (lcp q.reverse (canon x).reverse) = k at hk ⊢
  have hkle : k ≤ q.length := by
    have h1 := lcp_le_left q.reverse (canon o).reverse
    have h2 := lcp_le_left q.reverse (canon x).reverse
    simp only [List.length_reverse] at h1 h2
    omega
  have hsuf : q.drop (q.length - k) <:+ q := List.drop_suffix _ _
  have hlen : (q.drop (q.length - k)).length = k := by simp; omega
  have hapk : Z.apex.length ≤ k := by
    have := common_suffix_lcp hq.sub hoa
    omega
  refine ⟨_, rfl, hsuf, ⟨?_, ?_⟩, ?_⟩
  · exact suffix_of_le hq.sub hsuf (by omega)
  · by_cases hmax : lcp q.reverse (canon x).reverse ≤ lcp q.reverse (canon o).reverse
    · refine ⟨canon o, ht.owner, ?_⟩
      have := lcp_suffix q (canon o)
      rwa [show lcp q.reverse (canon o).reverse = k by omega] at this
    · refine ⟨canon x, ht.next, ?_⟩
      have := lcp_suffix q (canon x)
      rwa [show lcp q.reverse (canon x).reverse = k by omega] at this
  · rintro a ha ⟨_, m, hm, ham⟩
    have h1 := common_suffix_lcp ha ham
    have h2 := hk m hm
    exact suffix_of_le ha hsuf (by omega)

/-! ### Wildcards -/

theorem wildcardOf_present {ce : Name} (h : ce ≠ []) : wildcardOf (present ce) = present (star :: ce) := by
  simp [wildcardOf, present, h, escLabel, star, show escByte 42 = [42] from rfl]

theorem canon_star (ce : Name) : canon (star :: ce) = star :: canon ce := by
  simp [canon, star, lower, show lowerByte 42 = 42 from rfl]

theorem wf_star {ce : Name} (h : WfName ce) : WfName (star :: ce) := by
  intro l hl
  rcases List.mem_cons.mp hl with rfl | hl
  · simp [star]
  · exact h l hl

theorem wildcard_root (o : Name) (hw : WfName o) : present o ≠ canonicalName (wildcardOf root) := by
  intro h
  have e : canonicalName (wildcardOf root) = [42, 46, 46] := by decide
  rw [e] at h
  by_cases hn : o = []
  · subst hn; simp [present] at h
  · have : rawLabels [] (present o) = o := by
      unfold present; rw [if_neg hn]; exact rawLabels_names o
    rw [h] at this
    have e2 : rawLabels [] [42, 46, 46] = [[42], []] := by decide
    rw [e2] at this
    exact hw [] (by rw [← this]; simp) rfl

theorem inZone_star {Z : Zone} {ce q : Name} (hq : InZone Z q) (hs : ce <:+ q) (he : Z.apex <:+ ce) : InZone Z (star :: ce) where
  can := by rw [canon_star, canon_suffix hs hq.can]
  wf := wf_star (wf_suffix hs hq.wf)
  sub := he.trans (List.suffix_cons _ _)

theorem wildcardDenied_covers {w : Str} {l : List Nsec} (h : wildcardDenied w l = true) : ∃ n ∈ l, nsecCovers n w = true := by
  induction l with
  | nil => simp [wildcardDenied] at h
  | cons n rest ih =>
    simp only [wildcardDenied] at h
    split at h
    · simp at h
    · split at h
      · rename_i hc; exact ⟨n, by simp, hc⟩
      · obtain ⟨m, hm, hc⟩ := ih h
        exact ⟨m, by simp [hm], hc⟩

theorem wildcardNODATA_true {nsecs : List Nsec} {q : Str} {t : Nat} {l : List Nsec} (h : wildcardNODATA nsecs q t l = true) :
    ∃ c ∈ l, nsecCovers c q = true ∧ ∃ w, nsecOwned nsecs (canonicalName (wildcardOf (nsecClosestEncloser q c))) = some w ∧ lacks w.types t = true := by
  induction l with
  | nil => simp [wildcardNODATA] at h
  | cons n rest ih =>
    simp only [wildcardNODATA] at h
    split at h
    · obtain ⟨c, hc, r⟩ := ih h; exact ⟨c, by simp [hc], r⟩
    · rename_i hcov
      split at h
      · rename_i w hw
        exact ⟨n, by simp, by simpa using hcov, w, hw, h⟩
      · obtain ⟨c, hc, r⟩ := ih h; exact ⟨c, by simp [hc], r⟩

theorem nsecOwned_some {l : List Nsec} {name : Str} {n : Nsec} (h : nsecOwned l name = some n) : n ∈ l ∧ canonicalName n.hdr.name = name := by
  unfold nsecOwned at h
  exact ⟨List.mem_of_find?_eq_some h, by simpa using List.find?_some h⟩

theorem lacks_iff {types : List Nat} {t : Nat} : lacks types t = true ↔ t ∉ types ∧ typeCNAME ∉ types := by
  simp [lacks]

end Verif.Dnssec
