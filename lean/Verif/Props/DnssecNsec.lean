import Verif.Lemmas.DnssecDenial
/-
C49: what is accepted as proven by NSEC records.

`NsecTrue Z n` says that the record `n` is true of the zone `Z` (which is what the signature of the zone stands for). The zone is an arbitrary one: any
types at any names. `Z.HasType q t` says that it has records of type `t` to answer a query for `q` with, directly or by a wildcard.
-/
namespace Verif.Props.Dnssec
open Verif Verif.Dnssec Verif.DnssecSpec

/-- A record that is true of the zone -/
def NsecTrue (Z : Zone) (n : Nsec) : Prop :=
  ∃ o x : Name, n.hdr.name = present o ∧ n.next = present x ∧ WfName o ∧ WfName x ∧ Z.TrueNsec o x n.types

theorem no_answer {Z : Zone} {q ce : Name} {t : Nat} (hq : Z.types q = []) (hce : Z.IsEncloser q ce) (hw : t ∉ Z.types (star :: ce)) : ¬ Z.HasType q t := by
  rintro (⟨_, h⟩ | ⟨_, ce', ⟨h1, h2, h3⟩, h⟩)
  · rw [hq] at h; simp at h
  · have e : ce' = ce := suffix_antisymm (hce.2.2 ce' h1 h2) (h3 ce hce.1 hce.2.1)
    exact hw (e ▸ h)

/-- C49: if all records are true of a zone, and they are taken as a proof that a name of the zone does not exist, then the zone has no records of any
type to answer for this name, neither at the name nor at a wildcard. (The root zone is special: see `nsec_root_wildcard`.) -/
theorem nsec_nxdomain_sound {Z : Zone} {nsecs : List Nsec} {q : Name} (ht : ∀ n ∈ nsecs, NsecTrue Z n) (hq : InZone Z q)
    (hroot : Z.apex = [] → Z.types [star] = []) (h : nsecProvesNXDOMAIN nsecs (present q) = true) (t : Nat) : ¬ Z.HasType q t := by
  unfold nsecProvesNXDOMAIN at h
  simp only [canonicalName_present, hq.can] at h
  split at h
  · simp at h
  · rename_i n hfind
    obtain ⟨o, x, ho, hx, hwo, hwx, htn⟩ := ht n (List.mem_of_find?_eq_some hfind)
    have hcov : nsecCovers n (present q) = true := by simpa using List.find?_some hfind
    obtain ⟨hq0, _⟩ := covers_true ho hx hwo hwx htn hq hcov
    obtain ⟨ce, hce, hsuf, hex, hmax⟩ := encloser_true ho hx hwo hwx htn hq hcov
    refine no_answer hq0 ⟨hsuf, hex, hmax⟩ ?_
    by_cases hne : ce = []
    · subst hne
      have : Z.apex = [] := List.suffix_nil.mp hex.1
      rw [hroot this]; simp
    · rw [hce, wildcardOf_present hne, canonicalName_present] at h
      have hz := inZone_star hq hsuf hex.1
      rw [hz.can] at h
      obtain ⟨m, hm, hc⟩ := wildcardDenied_covers h
      obtain ⟨o', x', ho', hx', hwo', hwx', htm⟩ := ht m hm
      rw [(covers_true ho' hx' hwo' hwx' htm hz hc).1]
      simp

/-- C49: if all records are true of a zone, and they are taken as a proof that there is no record of the type at a name of the zone, then the zone has
neither records of this type nor a CNAME record to answer with, neither at the name nor at a wildcard. -/
theorem nsec_nodata_sound {Z : Zone} {nsecs : List Nsec} {q : Name} {t : Nat} (ht : ∀ n ∈ nsecs, NsecTrue Z n) (hq : InZone Z q)
    (h : nsecProvesNODATA nsecs (present q) t = true) : ¬ Z.HasType q t ∧ ¬ Z.HasType q typeCNAME := by
  unfold nsecProvesNODATA at h
  simp only [canonicalName_present, hq.can] at h
  split at h
  · rename_i n hown
    obtain ⟨hmem, hname⟩ := nsecOwned_some hown
    obtain ⟨o, x, ho, hx, hwo, hwx, htn⟩ := ht n hmem
    rw [ho, canonicalName_present] at hname
    have e : canon o = q := present_inj (wf_canon hwo) hq.wf hname
    have hex : Z.Exists q := ⟨hq.sub, q, e ▸ htn.owner, List.suffix_refl _⟩
    obtain ⟨h1, h2⟩ := lacks_iff.mp h
    have hty := htn.types
    rw [e] at hty
    constructor
    · rintro (⟨_, hh⟩ | ⟨hh, _⟩)
      · exact h1 ((hty t).mpr hh)
      · exact hh hex
    · rintro (⟨_, hh⟩ | ⟨hh, _⟩)
      · exact h2 ((hty _).mpr hh)
      · exact hh hex
  · obtain ⟨c, hc, hcov, w, hw, hl⟩ := wildcardNODATA_true h
    obtain ⟨o, x, ho, hx, hwo, hwx, htn⟩ := ht c hc
    obtain ⟨hq0, _⟩ := covers_true ho hx hwo hwx htn hq hcov
    obtain ⟨ce, hce, hsuf, hex, hmax⟩ := encloser_true ho hx hwo hwx htn hq hcov
    obtain ⟨hwm, hwn⟩ := nsecOwned_some hw
    obtain ⟨o', x', ho', hx', hwo', hwx', htw⟩ := ht w hwm
    rw [ho', canonicalName_present, hce] at hwn
    by_cases hne : ce = []
    · subst hne
      exact absurd hwn (wildcard_root _ (wf_canon hwo'))
    · rw [wildcardOf_present hne, canonicalName_present] at hwn
      have hz := inZone_star hq hsuf hex.1
      rw [hz.can] at hwn
      have e : canon o' = star :: ce := present_inj (wf_canon hwo') hz.wf hwn
      obtain ⟨h1, h2⟩ := lacks_iff.mp hl
      have hty := htw.types
      rw [e] at hty
      exact ⟨no_answer hq0 ⟨hsuf, hex, hmax⟩ (fun hh => h1 ((hty t).mpr hh)), no_answer hq0 ⟨hsuf, hex, hmax⟩ (fun hh => h2 ((hty _).mpr hh))⟩

/-- C49: the response code decides which proof is needed; with any other code nothing counts as proven, and no records prove nothing. -/
theorem nsec_denial_cases {nsecs : List Nsec} {q : Str} {t rcode : Nat} (h : nsecProvesDenial nsecs q t rcode = true) :
    nsecs ≠ [] ∧ ((rcode = rcodeNameError ∧ nsecProvesNXDOMAIN nsecs q = true) ∨ (rcode = rcodeSuccess ∧ nsecProvesNODATA nsecs q t = true)) := by
  unfold nsecProvesDenial at h
  split at h
  · simp at h
  · rename_i hne
    split at h
    · rename_i hr; exact ⟨hne, .inl ⟨hr, h⟩⟩
    · split at h
      · rename_i hr; exact ⟨hne, .inr ⟨hr, h⟩⟩
      · simp at h

/-! A zone `example.` with records at `example.`, `a.example.`, `c.example.` and a wildcard `*.c.example.` -/

def exTypes (n : Name) : List Nat :=
  if n = [str "example"] then [6, 2, 47]
  else if n = [str "a", str "example"] then [1, 47]
  else if n = [str "c", str "example"] then [5, 47]
  else if n = [star, str "c", str "example"] then [16, 47]
  else []

theorem exTypes_cases {n : Name} (h : exTypes n ≠ []) :
    n ∈ [[str "example"], [str "a", str "example"], [str "c", str "example"], [star, str "c", str "example"]] := by
  unfold exTypes at h
  by_cases h1 : n = [str "example"]
  · simp [h1]
  · by_cases h2 : n = [str "a", str "example"]
    · simp [h2]
    · by_cases h3 : n = [str "c", str "example"]
      · simp [h3]
      · by_cases h4 : n = [star, str "c", str "example"]
        · simp [h4]
        · simp [h1, h2, h3, h4] at h

def exZone : Zone where
  apex := [str "example"]
  types := exTypes
  apexOk := ⟨by decide, by unfold WfName; decide⟩
  ok := by
    intro n h
    have := exTypes_cases h
    revert this
    generalize hl : [[str "example"], [str "a", str "example"], [str "c", str "example"], [star, str "c", str "example"]] = l
    intro hm
    have key : ∀ n ∈ l, canon n = n ∧ WfName n ∧ [str "example"] <:+ n := by
      subst hl; unfold WfName; decide
    exact key n hm

def exNsecs : List Nsec :=
  [⟨⟨str "a.example.", 1, 0⟩, str "c.Example.", [1, 47]⟩, ⟨⟨str "Example.", 1, 0⟩, str "a.example.", [6, 2, 47]⟩]

theorem exTrue : ∀ n ∈ exNsecs, NsecTrue exZone n := by
  intro n hn
  have hgap : ∀ o x : Name, (∀ m ∈ [[str "example"], [str "a", str "example"], [str "c", str "example"], [star, str "c", str "example"]],
      ¬ (CanonLt o m ∧ CanonLt m x)) → ∀ m : Name, exZone.types m ≠ [] → ¬ (CanonLt o m ∧ CanonLt m x) :=
    fun o x h m hm => h m (exTypes_cases hm)
  simp only [exNsecs, List.mem_cons, List.not_mem_nil, or_false] at hn
  rcases hn with rfl | rfl
  · refine ⟨[str "a", str "example"], [str "c", str "Example"], by decide, by decide, by unfold WfName; decide, by unfold WfName; decide, ?_⟩
    refine ⟨by decide, by decide, fun t => Iff.rfl, .inr ⟨by unfold CanonLt; decide, hgap _ _ (by unfold CanonLt; decide)⟩⟩
  · refine ⟨[str "Example"], [str "a", str "example"], by decide, by decide, by unfold WfName; decide, by unfold WfName; decide, ?_⟩
    refine ⟨by decide, by decide, fun t => Iff.rfl, .inr ⟨by unfold CanonLt; decide, hgap _ _ (by unfold CanonLt; decide)⟩⟩

/-- The records prove that `b.example.` does not exist, and that `a.example.` has no MX records; and they are true. -/
example : nsecProvesNXDOMAIN exNsecs (present [str "b", str "example"]) = true
    ∧ nsecProvesNODATA exNsecs (present [str "a", str "example"]) 15 = true
    ∧ InZone exZone [str "b", str "example"] ∧ (∀ n ∈ exNsecs, NsecTrue exZone n) :=
  ⟨by decide +kernel, by decide +kernel, ⟨by decide, by unfold WfName; decide, ⟨[str "b"], rfl⟩⟩, exTrue⟩

/-- Wildcard NODATA: `x.c.example.` has no A records (the wildcard has TXT only), `nsec_nodata_sound` applies -/
example : nsecProvesNODATA [⟨⟨str "*.c.example.", 1, 0⟩, str "example.", [16, 47]⟩] (str "x.c.example.") 1 = true
    ∧ nsecProvesNODATA [⟨⟨str "*.c.example.", 1, 0⟩, str "example.", [16, 47]⟩] (str "x.c.example.") 16 = false := by decide +kernel

/-! ### What the proofs do not say -/

/-- Finding (C49): in the root zone the code looks for the wildcard `*..`, a name that can not exist, instead of `*.`; the record `. NSEC *.` therefore
is taken to prove that no name exists, although there is a wildcard. -/
theorem nsec_root_wildcard : nsecProvesNXDOMAIN [⟨⟨str ".", 1, 0⟩, str "*.", [2, 6, 47]⟩, ⟨⟨str "*.", 1, 0⟩, str ".", [1, 47]⟩] (str "anything.") = true := by
  decide +kernel

/-- Finding (C49): NXDOMAIN is accepted for a name that exists without having records of its own: `b.example.` where there is `a.b.example.`. (No records
are hidden by this, but the name below it is, for a resolver that believes that nothing is below a name that does not exist.) -/
theorem nsec_empty_nonterminal : nsecProvesNXDOMAIN [⟨⟨str "example.", 1, 0⟩, str "a.b.example.", [6, 2, 47]⟩] (str "b.example.") = true := by
  decide +kernel

/-- Finding (C49): the NSEC record of the parent zone at a delegation is accepted as proof that the delegated zone does not have a type (here A) at its
apex, and that names below it do not exist; but these are for the delegated zone to say (RFC 6840 section 4.1). -/
theorem nsec_parent_side {n : Nsec} {d : Name} {t : Nat} (hn : n.hdr.name = present d) (hl : t ∉ n.types) (hc : typeCNAME ∉ n.types) :
    nsecProvesNODATA [n] (present d) t = true := by
  unfold nsecProvesNODATA nsecOwned
  simp only [canonicalName_present]
  rw [List.find?_cons, hn, canonicalName_present]
  simp only [decide_true]
  exact lacks_iff.mpr ⟨hl, hc⟩

example : nsecProvesNODATA [⟨⟨str "sub.example.", 1, 0⟩, str "z.example.", [2, 43, 46, 47]⟩] (str "sub.example.") 1 = true
    ∧ nsecProvesNXDOMAIN [⟨⟨str "sub.example.", 1, 0⟩, str "z.example.", [2, 43, 46, 47]⟩] (str "www.sub.example.") = true := by decide +kernel

end Verif.Props.Dnssec
