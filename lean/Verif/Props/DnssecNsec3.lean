import Verif.Props.DnssecNsec
import Verif.Lemmas.Letters
/-
C50: what is accepted as proven by NSEC3 records, for every hash function, and every zone the records are true of.
-/
set_option linter.unusedVariables false
namespace Verif.Props.Dnssec
open Verif Verif.Dnssec Verif.DnssecSpec

/-- The hash of a name under the parameters of the record -/
def hashOf (L : Lib) (r : Nsec3) (n : Name) : Str := L.hashName (present n) r.hash r.iterations r.salt

/-- A record that is true of the zone: its owner is `<hash>.<apex>`, and it says the truth about the hashes of the names of the zone -/
def Nsec3True (L : Lib) (Z : Zone) (r : Nsec3) : Prop :=
  ∃ (h o : Str) (a : Name), r.hdr.name = present (h :: a) ∧ WfName (h :: a) ∧ canon a = Z.apex ∧ Spec.InCapitals o h ∧ escLabel o = o
    ∧ Z.TrueNsec3 (hashOf L r) o r.next r.types (decide (r.flags % 2 = 1))

/-- The hash function tells the names that are looked at apart from the names of the zone: `q`, its ancestors and the wildcards below them -/
def NoCollision (L : Lib) (Z : Zone) (l : List Nsec3) (q : Name) : Prop :=
  ∀ r ∈ l, ∀ n c : Name, Z.Exists n → (c <:+ q ∨ ∃ a : Name, a <:+ q ∧ c = star :: a) → hashOf L r n = hashOf L r c → n = c

/-- If `Cover` accepts the hash of the owner, then no record matches the name or a wildcard above it -/
def NoMatch (L : Lib) (l : List Nsec3) (q : Name) : Prop :=
  L.coversOwner = true → ∀ r ∈ l, nsec3Match L r (present q) = false ∧ ∀ a : Name, a <:+ q → nsec3Match L r (present (star :: a)) = false

/-! ### Reading the records -/

theorem strLt_iff {a b : Str} : strLt a b = true ↔ a < b := by
  unfold strLt
  rcases bytesCompare_cases a b with ⟨h, h'⟩ | ⟨h, h'⟩ | ⟨h, h'⟩
  · simp [h, h']
  · subst h'; simp [h, str_lt_irrefl]
  · simp [h, str_lt_asymm h']

/-- `strings.ToUpper` gives capital letters. -/
theorem capitals {o h : Str} (hc : Spec.InCapitals o h) : o = upper h := (Lemmas.capitals_iff o h).mp hc

theorem upper_escByte (b : UInt8) : upper (escByte b) = escByte (upperByte b) :=
  byte_forall (fun b => upper (escByte b) = escByte (upperByte b)) (by decide +kernel) b

theorem upper_append (a b : Str) : upper (a ++ b) = upper a ++ upper b := by simp [upper]

theorem upper_escLabel (l : Str) : upper (escLabel l) = escLabel (upper l) := by
  induction l with
  | nil => rfl
  | cons b bs ih =>
    have : escLabel (b :: bs) = escByte b ++ escLabel bs := rfl
    rw [this, upper_append, ih, upper_escByte]; rfl

theorem upper_present (n : Name) : upper (present n) = present (n.map upper) := by
  unfold present
  by_cases h : n = []
  · subst h; rfl
  · rw [if_neg h, if_neg (by simpa using h)]
    clear h
    induction n with
    | nil => rfl
    | cons l ls ih =>
      simp only [List.flatMap_cons, List.map_cons, upper_append, ih, upper_escLabel]
      rfl

theorem wf_upper {n : Name} (h : WfName n) : WfName (n.map upper) := by
  intro l hl
  obtain ⟨l', hl', rfl⟩ := List.mem_map.mp hl
  simpa [upper] using h l' hl'

/-- The owner hash that is read from the record is the first label; there is none if the zone is the root -/
theorem nsec3Owner_eq {r : Nsec3} {h : Str} {a : Name} (hn : r.hdr.name = present (h :: a)) (hw : WfName (h :: a)) (he : escLabel (upper h) = upper h)
    {o z : Str} (ho : nsec3Owner r = some (o, z)) : o = upper h ∧ a ≠ [] := by
  unfold nsec3Owner at ho
  rw [hn, upper_present, splitName_present (wf_upper hw)] at ho
  cases a with
  | nil => simp at ho
  | cons l ls =>
    simp only [List.map_cons, Option.some.injEq, Prod.mk.injEq] at ho
    exact ⟨by rw [← ho.1, he], by simp⟩

theorem match_hash {L : Lib} {Z : Zone} {r : Nsec3} (ht : Nsec3True L Z r) {n : Name} (h : nsec3Match L r (present n) = true) :
    Z.apex ≠ [] ∧ ∃ m : Name, Z.Exists m ∧ hashOf L r m = hashOf L r n ∧ ∀ t : Nat, t ∈ r.types ↔ t ∈ Z.types m := by
  obtain ⟨hl, o, a, hn, hw, hc, hcap, he, hT⟩ := ht
  obtain rfl := capitals hcap
  unfold nsec3Match at h
  split at h
  · simp at h
  · rename_i o z ho
    obtain ⟨rfl, hne⟩ := nsec3Owner_eq hn hw he ho
    simp only [Bool.and_eq_true, decide_eq_true_eq] at h
    obtain ⟨m, hm, hh, hty⟩ := hT.owner
    refine ⟨?_, m, hm, ?_, hty⟩
    · rw [← hc]; simpa [canon] using hne
    · rw [hh, h.2]; rfl

theorem cover_between {L : Lib} {Z : Zone} {r : Nsec3} (ht : Nsec3True L Z r) {n : Name} (h : nsec3Cover L r (present n) = true)
    (hm : L.coversOwner = true → nsec3Match L r (present n) = false) (hex : Z.Exists n) : r.flags % 2 = 1 ∧ Z.Omittable n := by
  obtain ⟨hl, o, a, hn, hw, hc, hcap, he, hT⟩ := ht
  obtain rfl := capitals hcap
  suffices hb : Between (upper hl) (hashOf L r n) r.next by
    have := hT.gap n hex hb
    exact ⟨by simpa using this.1, this.2⟩
  unfold nsec3Cover at h
  split at h
  · simp at h
  · rename_i o z ho
    have hmo : nsec3Owner r = some (o, z) := ho
    obtain ⟨rfl, hne⟩ := nsec3Owner_eq hn hw he ho
    simp only at h
    have hh : nsec3Hash L r (present n) = hashOf L r n := rfl
    rw [hh] at h
    generalize hH : hashOf L r n = H at *
    split at h
    · simp at h
    · rename_i hsub
      have hmatch : H = upper hl → L.coversOwner = true → False := by
        intro e1 e2
        have := hm e2
        unfold nsec3Match at this
        rw [hmo] at this
        simp only [hh, Bool.and_eq_false_iff, decide_eq_false_iff_not] at this
        rcases this with h1 | h1
        · exact hsub h1
        · exact h1 e1.symm
      split at h
      · rename_i h1; exact .inr (.inr ⟨h1.1, h1.2⟩)
      · rename_i h1
        split at h
        · rename_i h2
          simp only [Bool.or_eq_true] at h
          refine .inr (.inl ⟨strLt_iff.mp h2, ?_⟩)
          rcases h with h | h
          · exact .inl (strLt_iff.mp h)
          · exact .inr (strLt_iff.mp h)
        · rename_i h2
          split at h
          · simp at h
          · rename_i h3
            have h4 := strLt_iff.mp h
            have h5 : upper hl < H := by
              rcases bytesCompare_cases (upper hl) H with ⟨_, hx⟩ | ⟨_, hx⟩ | ⟨_, hx⟩
              · exact hx
              · exfalso
                apply h3
                refine .inr ⟨hx.symm, ?_⟩
                cases hcov : L.coversOwner with
                | false => rfl
                | true => exact absurd (hmatch hx.symm hcov) id
              · exact absurd (.inl (strLt_iff.mpr hx)) h3
            exact .inl ⟨List.lt_trans h5 h4, h5, h4⟩

theorem candidates_some {L : Lib} {l : List Nsec3} {q : Str} {k : Nat} {ce nc : Str} (h : nsec3Candidates L l q k = some (ce, nc)) :
    ∃ j, j < k ∧ ce = lastNLabels q j ∧ nc = lastNLabels q (j + 1) ∧ nsec3MatchAny L l (lastNLabels q j) = true
      ∧ ∀ i, j < i → i < k → nsec3MatchAny L l (lastNLabels q i) = false := by
  induction k with
  | zero => simp [nsec3Candidates] at h
  | succ k ih =>
    simp only [nsec3Candidates] at h
    split at h
    · rename_i hm
      simp only [Option.some.injEq, Prod.mk.injEq] at h
      exact ⟨k, by omega, h.1.symm, h.2.symm, hm, fun i h1 h2 => by omega⟩
    · rename_i hm
      obtain ⟨j, h1, h2, h3, h4, h5⟩ := ih h
      refine ⟨j, by omega, h2, h3, h4, ?_⟩
      intro i hi hk
      by_cases hik : i = k
      · subst hik; simpa using hm
      · exact h5 i hi (by omega)

/-- What the closest encloser proof says: the encloser exists, and the next closer name does not, or is left out by opt-out -/
theorem closest_true {L : Lib} {Z : Zone} {l : List Nsec3} {q : Name} (ht : ∀ r ∈ l, Nsec3True L Z r) (hq : InZone Z q) (hcol : NoCollision L Z l q)
    (hnm : L.coversOwner = true → ∀ r ∈ l, nsec3Match L r (present q) = false) {ce nc : Str} (h : nsec3ClosestEncloser L l (present q) = some (ce, nc)) (hcov : nsec3CoverAny L l nc = true) :
    ∃ c n : Name, ce = present c ∧ nc = present n ∧ c ≠ [] ∧ c <:+ n ∧ n <:+ q ∧ n.length = c.length + 1 ∧ Z.Exists c
      ∧ (Z.Exists n → (∃ r ∈ l, r.flags % 2 = 1) ∧ Z.Omittable n) ∧ (nsec3OptOutCovers L l nc = true → Z.Exists n → Z.Omittable n) := by
  unfold nsec3ClosestEncloser at h
  simp only [canonicalName_present, hq.can, countLabel_present hq.wf] at h
  obtain ⟨j, hj, hce, hnc, hm, hno⟩ := candidates_some h
  rw [lastNLabels_present hq.wf hq.can] at hce hnc hm
  have s1 : q.drop (q.length - j) <:+ q := List.drop_suffix _ _
  have s2 : q.drop (q.length - (j + 1)) <:+ q := List.drop_suffix _ _
  have l1 : (q.drop (q.length - j)).length = j := by simp; omega
  have l2 : (q.drop (q.length - (j + 1))).length = j + 1 := by simp; omega
  generalize q.drop (q.length - j) = c at *
  generalize hn : q.drop (q.length - (j + 1)) = n at *
  unfold nsec3MatchAny at hm
  obtain ⟨r, hr, hrm⟩ := List.any_eq_true.mp hm
  obtain ⟨hap, m, hme, hmh, _⟩ := match_hash (ht r hr) hrm
  have hmc : m = c := hcol r hr m c hme (.inl s1) hmh
  subst hmc
  have hcn : m ≠ [] := by
    intro e
    have := hme.1
    rw [e] at this
    exact hap (List.suffix_nil.mp this)
  have hnomatch : L.coversOwner = true → ∀ r ∈ l, nsec3Match L r (present n) = false := by
    intro hc r hr
    by_cases hjq : j + 1 < q.length
    · have := hno (j + 1) (by omega) hjq
      rw [lastNLabels_present hq.wf hq.can, hn] at this
      unfold nsec3MatchAny at this
      exact (by simpa using this : ∀ x ∈ l, nsec3Match L x (present n) = false) r hr
    · have e : n = q := by
        rw [← hn, show q.length - (j + 1) = 0 by omega]; rfl
      rw [e]; exact hnm hc r hr
  refine ⟨m, n, hce, hnc, hcn, suffix_of_le s1 s2 (by omega), s2, by omega, hme, ?_, ?_⟩
  · intro hex
    unfold nsec3CoverAny at hcov
    obtain ⟨r', hr', hc'⟩ := List.any_eq_true.mp hcov
    rw [hnc] at hc'
    have := cover_between (ht r' hr') hc' (fun hc => hnomatch hc r' hr') hex
    exact ⟨⟨r', hr', this.1⟩, this.2⟩
  · intro hopt hex
    unfold nsec3OptOutCovers at hopt
    obtain ⟨r', hr', hc'⟩ := List.any_eq_true.mp hopt
    simp only [Bool.and_eq_true, decide_eq_true_eq] at hc'
    rw [hnc] at hc'
    exact (cover_between (ht r' hr') hc'.2 (fun hc => hnomatch hc r' hr') hex).2

theorem exists_up {Z : Zone} {a b : Name} (h : a <:+ b) (ha : Z.apex <:+ a) (hb : Z.Exists b) : Z.Exists a := by
  obtain ⟨_, m, hm, hs⟩ := hb
  exact ⟨ha, m, hm, h.trans hs⟩

theorem encloser_of_closest {Z : Zone} {q c n : Name} (hc : Z.Exists c) (hcn : c <:+ n) (hn : n <:+ q) (hlen : n.length = c.length + 1) (hno : ¬ Z.Exists n) :
    Z.types q = [] ∧ Z.IsEncloser q c := by
  have hapn : Z.apex <:+ n := hc.1.trans hcn
  constructor
  · apply Decidable.byContradiction
    intro h
    exact hno ⟨hapn, q, h, hn⟩
  · refine ⟨hcn.trans hn, hc, ?_⟩
    intro a ha hex
    refine suffix_of_le ha (hcn.trans hn) ?_
    apply Decidable.byContradiction
    intro hlt
    have : n <:+ a := suffix_of_le hn ha (by omega)
    exact hno (exists_up this hapn hex)

/-! ### C50 -/

/-- C50: if all records are true of a zone, none has the opt-out flag, and they are taken as a proof that a name of the zone does not exist, then the zone
has no records of any type to answer for this name, neither at the name nor at a wildcard. -/
theorem nsec3_nxdomain_sound {L : Lib} {Z : Zone} {l : List Nsec3} {q : Name} (ht : ∀ r ∈ l, Nsec3True L Z r) (hq : InZone Z q)
    (hcol : NoCollision L Z l q) (hnm : NoMatch L l q) (hopt : ∀ r ∈ l, r.flags % 2 = 0) (h : nsec3ProvesNXDOMAIN L l (present q) = true) (t : Nat) :
    ¬ Z.HasType q t := by
  unfold nsec3ProvesNXDOMAIN at h
  split at h
  · simp at h
  · rename_i ce nc hce
    split at h
    · simp at h
    · rename_i hcov
      have hcov : nsec3CoverAny L l nc = true := by simpa using hcov
      obtain ⟨c, n, rfl, rfl, hc0, hcn, hnq, hlen, hex, hno, _⟩ := closest_true ht hq hcol (fun hc r hr => (hnm hc r hr).1) hce hcov
      have noopt : ¬ ∃ r ∈ l, r.flags % 2 = 1 := by
        rintro ⟨r, hr, hf⟩; have := hopt r hr; omega
      have hne : ¬ Z.Exists n := fun hx => noopt (hno hx).1
      obtain ⟨hq0, henc⟩ := encloser_of_closest hex hcn hnq hlen hne
      have hopt' : nsec3OptOutCovers L l (present n) = false := by
        unfold nsec3OptOutCovers
        rw [List.any_eq_false]
        intro r hr
        have := hopt r hr
        simp [this]
      rw [hopt', Bool.or_false, wildcardOf_present hc0] at h
      refine no_answer hq0 henc ?_
      unfold nsec3CoverAny at h
      obtain ⟨r, hr, hrc⟩ := List.any_eq_true.mp h
      intro hmem
      have hexw : Z.Exists (star :: c) := ⟨hex.1.trans (List.suffix_cons _ _), star :: c, by intro he; rw [he] at hmem; simp at hmem, List.suffix_refl _⟩
      have := cover_between (ht r hr) hrc (fun hc => (hnm hc r hr).2 c (hcn.trans hnq)) hexw
      exact noopt ⟨r, hr, this.1⟩

/-- C50: also with opt-out, an accepted proof that a name does not exist implies that nothing but unsigned delegations is at or below this name. -/
theorem nsec3_nxdomain_optout {L : Lib} {Z : Zone} {l : List Nsec3} {q : Name} (ht : ∀ r ∈ l, Nsec3True L Z r) (hq : InZone Z q)
    (hcol : NoCollision L Z l q) (hnm : NoMatch L l q) (h : nsec3ProvesNXDOMAIN L l (present q) = true) : Z.Omittable q := by
  unfold nsec3ProvesNXDOMAIN at h
  split at h
  · simp at h
  · rename_i ce nc hce
    split at h
    · simp at h
    · rename_i hcov
      have hcov : nsec3CoverAny L l nc = true := by simpa using hcov
      obtain ⟨c, n, rfl, rfl, hc0, hcn, hnq, hlen, hex, hno, _⟩ := closest_true ht hq hcol (fun hc r hr => (hnm hc r hr).1) hce hcov
      intro m hm hs
      have hexn : Z.Exists n := ⟨hex.1.trans hcn, m, hm, hnq.trans hs⟩
      exact (hno hexn).2 m hm (hnq.trans hs)

/-- The proof of NODATA: a record matches the name, or an opt-out record covers it and DS was asked for, or there is a closest encloser whose wildcard is
matched by a record -/
theorem nodata_cases {L : Lib} {l : List Nsec3} {q : Name} {t : Nat} (hq : canon q = q) (h : nsec3ProvesNODATA L l (present q) t = true) :
    (∃ r ∈ l, nsec3Match L r (present q) = true ∧ lacks r.types t = true)
    ∨ ((∀ r ∈ l, nsec3Match L r (present q) = false) ∧
        ((t = typeDS ∧ nsec3OptOutCovers L l (present q) = true)
        ∨ ∃ ce nc, nsec3ClosestEncloser L l (present q) = some (ce, nc) ∧ nsec3CoverAny L l nc = true
            ∧ ∃ r ∈ l, nsec3Match L r (wildcardOf ce) = true ∧ lacks r.types t = true)) := by
  unfold nsec3ProvesNODATA at h
  simp only [canonicalName_present, hq] at h
  split at h
  · rename_i r hr
    exact .inl ⟨r, List.mem_of_find?_eq_some hr, by simpa using List.find?_some hr, h⟩
  · rename_i hnone
    refine .inr ⟨by simpa using hnone, ?_⟩
    split at h
    · rename_i hd; exact .inl hd
    · right
      split at h
      · simp at h
      · rename_i ce nc hce
        split at h
        · rename_i hcov
          split at h
          · rename_i r hr
            exact ⟨ce, nc, hce, hcov, r, List.mem_of_find?_eq_some hr, by simpa using List.find?_some hr, h⟩
          · simp at h
        · simp at h

/-- C50: if all records are true of a zone, none has the opt-out flag, and they are taken as a proof that there is no record of the type, then the zone
has neither records of this type nor a CNAME record to answer with. -/
theorem nsec3_nodata_sound {L : Lib} {Z : Zone} {l : List Nsec3} {q : Name} {t : Nat} (ht : ∀ r ∈ l, Nsec3True L Z r) (hq : InZone Z q)
    (hcol : NoCollision L Z l q) (hopt : ∀ r ∈ l, r.flags % 2 = 0)
    (h : nsec3ProvesNODATA L l (present q) t = true) : ¬ Z.HasType q t ∧ ¬ Z.HasType q typeCNAME := by
  rcases nodata_cases hq.can h with ⟨r, hr, hm, hl⟩ | ⟨hno, ⟨_, hd⟩ | ⟨ce, nc, hce, hcov, r, hr, hm, hl⟩⟩
  · obtain ⟨_, m, hme, hmh, hty⟩ := match_hash (ht r hr) hm
    have e : m = q := hcol r hr m q hme (.inl (List.suffix_refl _)) hmh
    subst e
    obtain ⟨h1, h2⟩ := lacks_iff.mp hl
    constructor
    · rintro (⟨_, hh⟩ | ⟨hh, _⟩)
      · exact h1 ((hty t).mpr hh)
      · exact hh hme
    · rintro (⟨_, hh⟩ | ⟨hh, _⟩)
      · exact h2 ((hty _).mpr hh)
      · exact hh hme
  · exfalso
    unfold nsec3OptOutCovers at hd
    obtain ⟨r, hr, hc⟩ := List.any_eq_true.mp hd
    simp only [Bool.and_eq_true, decide_eq_true_eq] at hc
    have := hopt r hr
    omega
  · obtain ⟨c, n, rfl, rfl, hc0, hcn, hnq, hlen, hex, hne, _⟩ := closest_true ht hq hcol (fun _ => hno) hce hcov
    have hne : ¬ Z.Exists n := by
      intro hx
      obtain ⟨⟨r, hr, hf⟩, _⟩ := hne hx
      have := hopt r hr; omega
    obtain ⟨hq0, henc⟩ := encloser_of_closest hex hcn hnq hlen hne
    rw [wildcardOf_present hc0] at hm
    obtain ⟨_, m, hme, hmh, hty⟩ := match_hash (ht r hr) hm
    have e : m = star :: c := hcol r hr m _ hme (.inr ⟨c, hcn.trans hnq, rfl⟩) hmh
    subst e
    obtain ⟨h1, h2⟩ := lacks_iff.mp hl
    exact ⟨no_answer hq0 henc (fun hh => h1 ((hty t).mpr hh)), no_answer hq0 henc (fun hh => h2 ((hty _).mpr hh))⟩

/-- C50: with or without opt-out, an accepted proof that there are no DS records at a name implies that there are none. -/
theorem nsec3_ds_sound {L : Lib} {Z : Zone} {l : List Nsec3} {q : Name} (ht : ∀ r ∈ l, Nsec3True L Z r) (hq : InZone Z q)
    (hcol : NoCollision L Z l q) (h : nsec3ProvesNODATA L l (present q) typeDS = true) : typeDS ∉ Z.types q := by
  intro hds
  have hexq : Z.Exists q := ⟨hq.sub, q, by intro he; rw [he] at hds; simp at hds, List.suffix_refl _⟩
  have hne : Z.types q ≠ [] := by intro he; rw [he] at hds; simp at hds
  rcases nodata_cases hq.can h with ⟨r, hr, hm, hl⟩ | ⟨hno, ⟨_, hd⟩ | ⟨ce, nc, hce, hcov, r, hr, hm, hl⟩⟩
  · obtain ⟨_, m, hme, hmh, hty⟩ := match_hash (ht r hr) hm
    have e : m = q := hcol r hr m q hme (.inl (List.suffix_refl _)) hmh
    subst e
    exact (lacks_iff.mp hl).1 ((hty _).mpr hds)
  · unfold nsec3OptOutCovers at hd
    obtain ⟨r, hr, hc⟩ := List.any_eq_true.mp hd
    simp only [Bool.and_eq_true, decide_eq_true_eq] at hc
    have := (cover_between (ht r hr) hc.2 (fun _ => hno r hr) hexq).2 q hne (List.suffix_refl _)
    exact this.2.1 hds
  · obtain ⟨c, n, rfl, rfl, hc0, hcn, hnq, hlen, hex, hno', _⟩ := closest_true ht hq hcol (fun _ => hno) hce hcov
    have hexn : Z.Exists n := ⟨hex.1.trans hcn, q, hne, hnq⟩
    exact ((hno' hexn).2 q hne hnq).2.1 hds

/-- C50: as for NSEC, the response code decides which proof is needed. -/
theorem nsec3_denial_cases {L : Lib} {l : List Nsec3} {q : Str} {t rcode : Nat} (h : nsec3ProvesDenial L l q t rcode = true) :
    l ≠ [] ∧ ((rcode = rcodeNameError ∧ nsec3ProvesNXDOMAIN L l q = true) ∨ (rcode = rcodeSuccess ∧ nsec3ProvesNODATA L l q t = true)) := by
  unfold nsec3ProvesDenial at h
  split at h
  · simp at h
  · rename_i hne
    split at h
    · rename_i hr; exact ⟨hne, .inl ⟨hr, h⟩⟩
    · split at h
      · rename_i hr; exact ⟨hne, .inr ⟨hr, h⟩⟩
      · simp at h

/-- C50: a zone whose delegation is taken for an unsigned one by an NSEC3 record that is true of the parent zone has no DS records there. -/
theorem nsec3_no_ds_sound {L : Lib} {Z : Zone} {r : Nsec3} {q : Name} (ht : Nsec3True L Z r) (hq : InZone Z q)
    (hcol : NoCollision L Z [r] q) (h : nsec3DeniesDS L r (present q) = true) : typeDS ∉ Z.types q := by
  intro hds
  have hne : Z.types q ≠ [] := by intro he; rw [he] at hds; simp at hds
  have hexq : Z.Exists q := ⟨hq.sub, q, hne, List.suffix_refl _⟩
  unfold nsec3DeniesDS at h
  split at h
  · rename_i hm
    obtain ⟨_, m, hme, hmh, hty⟩ := match_hash ht hm
    have e : m = q := hcol r (by simp) m q hme (.inl (List.suffix_refl _)) hmh
    subst e
    unfold insecureBitmap at h
    simp only [Bool.and_eq_true, Bool.not_eq_true', List.contains_eq_mem, decide_eq_true_eq, decide_eq_false_iff_not] at h
    exact h.1.2 ((hty _).mpr hds)
  · rename_i hm
    simp only [Bool.and_eq_true, decide_eq_true_eq] at h
    have := (cover_between ht h.2 (fun _ => by simpa using hm) hexq).2 q hne (List.suffix_refl _)
    exact this.2.1 hds

/-- C49: a delegation that is taken for an unsigned one by an NSEC record that is true of the parent zone has no DS records, and is a delegation. -/
theorem nsec_no_ds_sound {Z : Zone} {r : Nsec} {q : Name} (ht : NsecTrue Z r) (hq : InZone Z q) (h : nsecDeniesDS r (present q) = true) :
    typeDS ∉ Z.types q ∧ typeNS ∈ Z.types q ∧ typeSOA ∉ Z.types q := by
  obtain ⟨o, x, ho, hx, hwo, hwx, htn⟩ := ht
  unfold nsecDeniesDS at h
  rw [ho, canonicalName_present] at h
  split at h
  · simp at h
  · rename_i hname
    have e : canon o = q := present_inj (wf_canon hwo) hq.wf (by simpa using hname)
    have hty := htn.types
    rw [e] at hty
    unfold insecureBitmap at h
    simp only [Bool.and_eq_true, Bool.not_eq_true', List.contains_eq_mem, decide_eq_true_eq, decide_eq_false_iff_not] at h
    exact ⟨fun hh => h.1.2 ((hty _).mpr hh), (hty _).mp h.1.1, fun hh => h.2 ((hty _).mpr hh)⟩

/-! ### Example

Zone `example.` with records at `example.` and `a.example.`. The hash of a name is its first label in upper case (no hash function worth the name, but
without collisions here), so that the order of hashes is `*`, `A`, `B`, `EXAMPLE`. -/

def toyHash (name : Str) : Str := upper (name.takeWhile (· ≠ 46))
def toy : Lib := ⟨fun n _ _ _ => toyHash n, false⟩
def toyOwner : Lib := ⟨fun n _ _ _ => toyHash n, true⟩

def ex3Types (n : Name) : List Nat := if n = [str "example"] then [6, 2] else if n = [str "a", str "example"] then [1] else []

theorem ex3_cases {n : Name} (h : ex3Types n ≠ []) : n = [str "example"] ∨ n = [str "a", str "example"] := by
  unfold ex3Types at h
  by_cases h1 : n = [str "example"]
  · exact .inl h1
  · by_cases h2 : n = [str "a", str "example"]
    · exact .inr h2
    · simp [h1, h2] at h

def ex3Zone : Zone where
  apex := [str "example"]
  types := ex3Types
  apexOk := ⟨by decide, by unfold WfName; decide⟩
  ok := by
    intro n h
    rcases ex3_cases h with rfl | rfl
    · exact ⟨by decide, by unfold WfName; decide, by decide⟩
    · exact ⟨by decide, by unfold WfName; decide, by decide⟩

theorem ex3_exists {n : Name} (h : ex3Zone.Exists n) : n = [str "example"] ∨ n = [str "a", str "example"] := by
  obtain ⟨h1, m, hm, h2⟩ := h
  rcases ex3_cases hm with rfl | rfl
  · exact .inl (suffix_antisymm h2 h1)
  · obtain ⟨t, ht⟩ := h2
    match t, n, ht with
    | [], _, rfl => exact .inr rfl
    | [_], _, ht =>
      simp only [List.cons_append, List.nil_append, List.cons.injEq] at ht
      exact .inl ht.2
    | [_, _], _, ht =>
      simp only [List.cons_append, List.nil_append, List.cons.injEq] at ht
      rw [ht.2.2] at h1
      exact absurd h1 (by decide)
    | _ :: _ :: _ :: t, _, ht => simp at ht

def ex3A : Nsec3 := { hdr := { name := str "A.example." }, next := str "EXAMPLE", types := [1] }
def ex3E : Nsec3 := { hdr := { name := str "EXAMPLE.example." }, next := str "A", types := [6, 2] }

theorem ex3_true (L : Lib) (hL : L.hashName = fun n _ _ _ => toyHash n) : Nsec3True L ex3Zone ex3A ∧ Nsec3True L ex3Zone ex3E := by
  have hh : ∀ r : Nsec3, hashOf L r = fun n => toyHash (present n) := by
    intro r; unfold hashOf; rw [hL]
  have key : ∀ n : Name, ex3Zone.Exists n → toyHash (present n) = str "EXAMPLE" ∨ toyHash (present n) = str "A" := by
    intro n hn
    rcases ex3_exists hn with rfl | rfl
    · exact .inl (by decide)
    · exact .inr (by decide)
  constructor
  · refine ⟨str "A", str "A", [str "example"], by decide, by unfold WfName; decide, by decide, by unfold Spec.InCapitals; decide, by decide, ?_, ?_⟩
    · exact ⟨[str "a", str "example"], ⟨by decide, _, by decide, List.suffix_refl _⟩, by rw [hh]; decide, fun t => Iff.rfl⟩
    · intro n hn hb
      rw [hh] at hb
      rcases key n hn with h | h <;> (exfalso; simp only [h] at hb; unfold Between at hb; revert hb; decide)
  · refine ⟨str "EXAMPLE", str "EXAMPLE", [str "example"], by decide, by unfold WfName; decide, by decide, by unfold Spec.InCapitals; decide, by decide, ?_, ?_⟩
    · exact ⟨[str "example"], ⟨by decide, _, by decide, List.suffix_refl _⟩, by rw [hh]; decide, fun t => Iff.rfl⟩
    · intro n hn hb
      rw [hh] at hb
      rcases key n hn with h | h <;> (exfalso; simp only [h] at hb; unfold Between at hb; revert hb; decide)

/-- The records prove that `b.example.` does not exist, and that `a.example.` has no MX records; the records are true of the zone and there are no
collisions: the theorems apply. -/
example : nsec3ProvesNXDOMAIN toy [ex3A, ex3E] (present [str "b", str "example"]) = true
    ∧ nsec3ProvesNODATA toy [ex3A, ex3E] (present [str "a", str "example"]) 15 = true
    ∧ (∀ r ∈ [ex3A, ex3E], Nsec3True toy ex3Zone r) ∧ NoCollision toy ex3Zone [ex3A, ex3E] [str "b", str "example"]
    ∧ NoMatch toy [ex3A, ex3E] [str "b", str "example"] := by
  refine ⟨by decide +kernel, by decide +kernel, ?_, ?_, fun h => absurd h (by decide)⟩
  · intro r hr
    simp only [List.mem_cons, List.not_mem_nil, or_false] at hr
    rcases hr with rfl | rfl
    · exact (ex3_true toy rfl).1
    · exact (ex3_true toy rfl).2
  · intro r hr n c hn hc he
    have he : toyHash (present n) = toyHash (present c) := he
    have sufs : ∀ a : Name, a <:+ [str "b", str "example"] → a ∈ [[str "b", str "example"], [str "example"], []] := by
      intro a ha
      have h1 := suffix_drop_eq ha
      have h2 := ha.length_le
      simp only [List.length_cons, List.length_nil] at h1 h2
      have h3 : a.length = 0 ∨ a.length = 1 ∨ a.length = 2 := by omega
      rcases h3 with h3 | h3 | h3 <;> (rw [h3] at h1; rw [h1]; simp)
    rcases hc with hc | ⟨a, ha, rfl⟩
    · have := sufs c hc
      simp only [List.mem_cons, List.not_mem_nil, or_false] at this
      rcases ex3_exists hn with rfl | rfl <;> rcases this with rfl | rfl | rfl <;> revert he <;> decide
    · have := sufs a ha
      simp only [List.mem_cons, List.not_mem_nil, or_false] at this
      rcases ex3_exists hn with rfl | rfl <;> rcases this with rfl | rfl | rfl <;> revert he <;> decide

/-! ### Findings -/

/-- Finding (C50): if the library's `Cover` accepts the hash of the owner of the record (as in the source known here), records that are all true of the zone
are taken as a proof that the name `a.example.` does not exist, although it does and has an A record: the record that says so is taken for one that
covers the name. An attacker only has to send the three records a server gives for other questions. -/
theorem nsec3_owner_taken_as_covered :
    (∀ r ∈ [ex3A, ex3E], Nsec3True toyOwner ex3Zone r) ∧ ex3Zone.HasType [str "a", str "example"] typeA
    ∧ nsec3ProvesNXDOMAIN toyOwner [ex3A, ex3E] (present [str "a", str "example"]) = true
    ∧ nsec3ProvesNXDOMAIN toy [ex3A, ex3E] (present [str "a", str "example"]) = false := by
  refine ⟨?_, .inl ⟨⟨by decide, _, by decide, List.suffix_refl _⟩, by decide⟩, by decide +kernel, by decide +kernel⟩
  intro r hr
  simp only [List.mem_cons, List.not_mem_nil, or_false] at hr
  rcases hr with rfl | rfl
  · exact (ex3_true toyOwner rfl).1
  · exact (ex3_true toyOwner rfl).2

/-- Finding (C50): with an opt-out record that covers the next closer name, NXDOMAIN is accepted without any proof about the wildcard, which may exist. -/
theorem nsec3_optout_wildcard {L : Lib} {l : List Nsec3} {q ce nc : Str} (hce : nsec3ClosestEncloser L l q = some (ce, nc))
    (h : nsec3OptOutCovers L l nc = true) : nsec3ProvesNXDOMAIN L l q = true := by
  unfold nsec3ProvesNXDOMAIN
  rw [hce]
  have : nsec3CoverAny L l nc = true := by
    unfold nsec3OptOutCovers at h
    unfold nsec3CoverAny
    obtain ⟨r, hr, hc⟩ := List.any_eq_true.mp h
    simp only [Bool.and_eq_true] at hc
    exact List.any_eq_true.mpr ⟨r, hr, hc.2⟩
  simp [this, h]

/-- the wildcard `*.example.` exists (third record) -/
example : nsec3ProvesNXDOMAIN toy [{ ex3A with flags := 1 }, { ex3E with next := str "*" }, { hdr := { name := str "*.example." }, next := str "A", types := [1] }]
    (str "b.example.") = true := by decide +kernel

end Verif.Props.Dnssec
