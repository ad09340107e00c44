/-
C45: replacing a file atomically.
-/
import Verif.Spec.AtomicFile
set_option linter.unusedVariables false
set_option linter.unusedSimpArgs false
namespace Verif.Props.AtomicFile
open Verif Verif.AtomicFile Verif.Spec.AtomicFile

private def holds : Pc → Bool
  | .created | .ready | .synced | .closed => true
  | _ => false

private def M (s₀ : Sys) (T : Str) : Nat := match s₀.dir T with | some i => (s₀.files i).mode | none => tmpMode

private structure Good (s₀ : Sys) (T : Str) (s : Sys) (i : Nat) : Prop where
  lt : i < s.next
  synced : (s.files i).synced = true
  mode : (s.files i).mode = M s₀ T
  data : some (s.files i).data = contents s₀ T ∨ ∃ w, (s₀.writers w).target = T ∧ (s.files i).data = (s₀.writers w).content
  own : ∀ w, holds (s.writers w).pc = true → (s.writers w).ino ≠ i

private structure Own (s₀ : Sys) (T : Str) (s : Sys) (w : Nat) : Prop where
  lt : (s.writers w).ino < s.next
  name : s.dir (s.writers w).tmp = none ∨ s.dir (s.writers w).tmp = some (s.writers w).ino
  created : (s.writers w).pc = .created → (s.files (s.writers w).ino).data = [] ∧ (s.writers w).rest = (s.writers w).content ∧ (s.files (s.writers w).ino).mode = tmpMode
  ready : (s.writers w).pc = .ready → (s.files (s.writers w).ino).data ++ (s.writers w).rest = (s.writers w).content
  synced : (s.writers w).pc = .synced ∨ (s.writers w).pc = .closed → (s.files (s.writers w).ino).data = (s.writers w).content ∧ (s.files (s.writers w).ino).synced = true
  mode : (s.writers w).target = T → (s.writers w).pc ≠ .created → (s.files (s.writers w).ino).mode = M s₀ T

private structure Inv (s₀ : Sys) (T : Str) (s : Sys) : Prop where
  none : ∀ d, d ∈ s.dir :: s.past → d T = none → s₀.dir T = none
  some : ∀ d, d ∈ s.dir :: s.past → ∀ i, d T = some i → Good s₀ T s i
  own : ∀ w, holds (s.writers w).pc = true → Own s₀ T s w
  pre : ∀ w, (s.writers w).pc.active = true → hasPrefix tmpPrefix (s.writers w).tmp = true
  ino : ∀ v w, v ≠ w → holds (s.writers v).pc = true → holds (s.writers w).pc = true → (s.writers v).ino ≠ (s.writers w).ino
  tmp : ∀ v w, v ≠ w → (s.writers v).pc.active = true → (s.writers w).pc.active = true → (s.writers v).tmp ≠ (s.writers w).tmp
  fixed : ∀ w, (s.writers w).target = (s₀.writers w).target ∧ (s.writers w).content = (s₀.writers w).content

private theorem holds_active (p : Pc) (h : holds p = true) : p.active = true := by cases p <;> simp_all [holds, Pc.active]

private theorem inv_start (s₀ : Sys) (h : Start s₀) (T : Str) : Inv s₀ T s₀ := by
  have hp := h.past
  refine ⟨?_, ?_, ?_, ?_, ?_, ?_, ?_⟩
  · intro d hd hn; rw [hp] at hd; simp at hd; rw [← hd]; exact hn
  · intro d hd i hi
    rw [hp] at hd; simp at hd; subst hd
    have := h.disk T i hi
    refine ⟨this.1, this.2, by simp [M, hi], .inl (by simp [contents, hi]), ?_⟩
    intro w hw; rw [h.idle w] at hw; simp [holds] at hw
  · intro w hw; rw [h.idle w] at hw; simp [holds] at hw
  · intro w hw; rw [h.idle w] at hw; simp [Pc.active] at hw
  · intro v w _ hw; rw [h.idle v] at hw; simp [holds] at hw
  · intro v w _ hw; rw [h.idle v] at hw; simp [Pc.active] at hw
  · intro w; exact ⟨rfl, rfl⟩

/-- Only the state of one writer changes, and it does not get hold of anything -/
private theorem inv_pc (s₀ : Sys) (T : Str) (s : Sys) (hi : Inv s₀ T s) (w : Nat) (pc : Pc) (h : holds pc = true → holds (s.writers w).pc = true)
    (ha : pc.active = true → (s.writers w).pc.active = true)
    (hc : pc = .created → (s.writers w).pc = .created) (hr : pc = .ready → (s.writers w).pc = .ready)
    (hs : pc = .synced ∨ pc = .closed → (s.writers w).pc = .synced ∨ (s.writers w).pc = .closed) :
    Inv s₀ T { s with writers := setW s w { s.writers w with pc := pc } } := by
  have hne : holds pc = true → pc ≠ .created → (s.writers w).pc ≠ .created := by
    intro h1 h2 h3
    cases pc <;> simp_all [holds]
  refine ⟨hi.none, ?_, ?_, ?_, ?_, ?_, ?_⟩
  · intro d hd i hdi
    have g := hi.some d hd i hdi
    refine ⟨g.lt, g.synced, g.mode, g.data, ?_⟩
    intro v hv
    have g5 := g.own v
    show (setW s w _ v).ino ≠ i
    have hv : holds (setW s w _ v).pc = true := hv
    unfold setW at hv ⊢
    by_cases hvw : v = w
    · subst hvw; simp only [if_true] at hv ⊢; exact g5 (h hv)
    · simp only [if_neg hvw] at hv ⊢; exact g5 hv
  · intro v hv
    by_cases hvw : v = w
    · subst hvw
      have hv : holds (setW s v _ v).pc = true := hv
      simp only [setW, if_true] at hv
      have o := hi.own v (h hv)
      constructor <;> simp only [setW, if_true]
      · exact o.lt
      · exact o.name
      · intro hp; exact o.created (hc hp)
      · intro hp; exact o.ready (hr hp)
      · intro hp; exact o.synced (hs hp)
      · intro ht hp; exact o.mode ht (hne hv hp)
    · have hv : holds (setW s w _ v).pc = true := hv
      simp only [setW, if_neg hvw] at hv
      have o := hi.own v hv
      constructor <;> simp only [setW, if_neg hvw]
      · exact o.lt
      · exact o.name
      · exact o.created
      · exact o.ready
      · exact o.synced
      · exact o.mode
  · intro v hv
    by_cases hvw : v = w
    · subst hvw
      simp only [setW, if_true] at hv ⊢; exact hi.pre v (ha hv)
    · simp only [setW, if_neg hvw] at hv ⊢; exact hi.pre v hv
  · intro u v huv
    have := hi.ino u v huv
    simp only [setW]
    by_cases hu : u = w <;> by_cases hv : v = w
    · subst hu; subst hv; exact absurd rfl huv
    · subst hu; simp only [if_true, if_neg hv]; intro h1; exact this (h h1)
    · subst hv; simp only [if_true, if_neg hu]; intro h1 h2; exact this h1 (h h2)
    · simp only [if_neg hu, if_neg hv]; exact this
  · intro u v huv
    have := hi.tmp u v huv
    simp only [setW]
    by_cases hu : u = w <;> by_cases hv : v = w
    · subst hu; subst hv; exact absurd rfl huv
    · subst hu; simp only [if_true, if_neg hv]; intro h1; exact this (ha h1)
    · subst hv; simp only [if_true, if_neg hu]; intro h1 h2; exact this h1 (ha h2)
    · simp only [if_neg hu, if_neg hv]; exact this
  · intro v
    simp only [setW]
    by_cases hvw : v = w
    · subst hvw; simp only [if_true]; exact hi.fixed v
    · simp only [if_neg hvw]; exact hi.fixed v

/-- A name with the prefix is taken out of the directory -/
private theorem inv_unlink (s₀ : Sys) (T : Str) (hT : hasPrefix tmpPrefix T = false) (s : Sys) (hi : Inv s₀ T s) (n : Str) (hn : hasPrefix tmpPrefix n = true) :
    Inv s₀ T { s with dir := setD s.dir n none, past := s.dir :: s.past } := by
  have hne : T ≠ n := by intro h; rw [h, hn] at hT; simp at hT
  have hd : ∀ d, d ∈ setD s.dir n none :: s.dir :: s.past → ∃ d', d' ∈ s.dir :: s.past ∧ d T = d' T := by
    intro d hd
    rcases List.mem_cons.mp hd with h | h
    · exact ⟨s.dir, by simp, by rw [h]; simp [setD, hne]⟩
    · exact ⟨d, h, rfl⟩
  refine ⟨?_, ?_, ?_, hi.pre, hi.ino, hi.tmp, hi.fixed⟩
  · intro d h1 h2
    obtain ⟨d', h3, h4⟩ := hd d h1
    exact hi.none d' h3 (h4 ▸ h2)
  · intro d h1 i h2
    obtain ⟨d', h3, h4⟩ := hd d h1
    have g := hi.some d' h3 i (h4 ▸ h2)
    exact ⟨g.lt, g.synced, g.mode, g.data, g.own⟩
  · intro w hw
    have o := hi.own w hw
    refine ⟨o.lt, ?_, o.created, o.ready, o.synced, o.mode⟩
    show setD s.dir n none (s.writers w).tmp = none ∨ setD s.dir n none (s.writers w).tmp = some (s.writers w).ino
    unfold setD
    by_cases h : (s.writers w).tmp = n
    · simp [h]
    · simp only [if_neg h]; exact o.name

/-- The file of a writer changes -/
private theorem inv_file (s₀ : Sys) (T : Str) (s : Sys) (hi : Inv s₀ T s) (w : Nat) (hw : holds (s.writers w).pc = true) (f : File) (x : Writer)
    (hino : x.ino = (s.writers w).ino) (htmp : x.tmp = (s.writers w).tmp) (htgt : x.target = (s.writers w).target) (hcon : x.content = (s.writers w).content) (hh : holds x.pc = true)
    (hc : x.pc = .created → f.data = [] ∧ x.rest = x.content ∧ f.mode = tmpMode) (hr : x.pc = .ready → f.data ++ x.rest = x.content)
    (hs : x.pc = .synced ∨ x.pc = .closed → f.data = x.content ∧ f.synced = true) (hm : x.target = T → x.pc ≠ .created → f.mode = M s₀ T) :
    Inv s₀ T { s with files := setF s (s.writers w).ino f, writers := setW s w x } := by
  refine ⟨hi.none, ?_, ?_, ?_, ?_, ?_, ?_⟩
  · intro d hd i hdi
    have g := hi.some d hd i hdi
    have hne : i ≠ (s.writers w).ino := fun h => g.own w hw h.symm
    refine ⟨g.lt, ?_, ?_, ?_, ?_⟩
    · simp only [setF, if_neg hne]; exact g.synced
    · simp only [setF, if_neg hne]; exact g.mode
    · simp only [setF, if_neg hne]; exact g.data
    · intro v hv
      simp only [setW] at hv ⊢
      by_cases hvw : v = w
      · simp only [if_pos hvw, hino]; exact fun h => hne h.symm
      · simp only [if_neg hvw] at hv ⊢; exact g.own v hv
  · intro v hv
    by_cases hvw : v = w
    · subst hvw
      have o := hi.own v hw
      constructor <;> simp only [setW, setF, if_true, hino, htmp]
      · exact o.lt
      · exact o.name
      · exact hc
      · exact hr
      · exact hs
      · exact hm
    · simp only [setW, if_neg hvw] at hv
      have o := hi.own v hv
      have hne : (s.writers v).ino ≠ (s.writers w).ino := hi.ino v w hvw hv hw
      constructor <;> simp only [setW, setF, if_neg hvw, if_neg hne]
      · exact o.lt
      · exact o.name
      · exact o.created
      · exact o.ready
      · exact o.synced
      · exact o.mode
  · intro v hv
    simp only [setW] at hv ⊢
    by_cases hvw : v = w
    · simp only [if_pos hvw, htmp]; exact hi.pre w (holds_active _ hw)
    · simp only [if_neg hvw] at hv ⊢; exact hi.pre v hv
  · intro u v huv
    have := hi.ino u v huv
    simp only [setW]
    by_cases hu : u = w <;> by_cases hv : v = w
    · subst hu; subst hv; exact absurd rfl huv
    · subst hu; simp only [if_true, if_neg hv, hino]; intro _; exact this hw
    · subst hv; simp only [if_true, if_neg hu, hino]; intro h1 _; exact this h1 hw
    · simp only [if_neg hu, if_neg hv]; exact this
  · intro u v huv
    have := hi.tmp u v huv
    simp only [setW]
    by_cases hu : u = w <;> by_cases hv : v = w
    · subst hu; subst hv; exact absurd rfl huv
    · subst hu; simp only [if_true, if_neg hv, htmp]; intro _; exact this (holds_active _ hw)
    · subst hv; simp only [if_true, if_neg hu, htmp]; intro h1 _; exact this h1 (holds_active _ hw)
    · simp only [if_neg hu, if_neg hv]; exact this
  · intro v
    simp only [setW]
    by_cases hvw : v = w
    · subst hvw; simp only [if_true, htgt, hcon]; exact hi.fixed v
    · simp only [if_neg hvw]; exact hi.fixed v

private theorem inv_create (s₀ : Sys) (T : Str) (hT : hasPrefix tmpPrefix T = false) (s : Sys) (hi : Inv s₀ T s) (w : Nat) (n : Str) (hn : hasPrefix tmpPrefix n = true) (hd : s.dir n = none)
    (hpc : (s.writers w).pc = .idle) (hfresh : ∀ v, (s.writers v).pc.active = true → (s.writers v).tmp ≠ n) :
    Inv s₀ T { s with files := setF s s.next { mtime := s.now }, next := s.next + 1, dir := setD s.dir n (some s.next), past := s.dir :: s.past, writers := setW s w { s.writers w with pc := .created, tmp := n, ino := s.next, rest := (s.writers w).content } } := by
  have hne : T ≠ n := by intro h; rw [h, hn] at hT; simp at hT
  have hd : ∀ d, d ∈ setD s.dir n (some s.next) :: s.dir :: s.past → ∃ d', d' ∈ s.dir :: s.past ∧ d T = d' T := by
    intro d hd
    rcases List.mem_cons.mp hd with h | h
    · exact ⟨s.dir, by simp, by rw [h]; simp [setD, hne]⟩
    · exact ⟨d, h, rfl⟩
  refine ⟨?_, ?_, ?_, ?_, ?_, ?_, ?_⟩
  · intro d h1 h2
    obtain ⟨d', h3, h4⟩ := hd d h1
    exact hi.none d' h3 (h4 ▸ h2)
  · intro d h1 i h2
    obtain ⟨d', h3, h4⟩ := hd d h1
    have g := hi.some d' h3 i (h4 ▸ h2)
    have hlt := g.lt
    have hni : i ≠ s.next := by omega
    refine ⟨Nat.lt_succ_of_lt hlt, ?_, ?_, ?_, ?_⟩
    · simp only [setF, if_neg hni]; exact g.synced
    · simp only [setF, if_neg hni]; exact g.mode
    · simp only [setF, if_neg hni]; exact g.data
    · intro v hv
      simp only [setW] at hv ⊢
      by_cases hvw : v = w
      · simp only [if_pos hvw]; exact fun h => hni h.symm
      · simp only [if_neg hvw] at hv ⊢; exact g.own v hv
  · intro v hv
    by_cases hvw : v = w
    · subst hvw
      constructor <;> simp only [setW, setF, setD, if_true]
      · omega
      · right; trivial
      · intro _; exact ⟨trivial, trivial, trivial⟩
      · intro h; simp at h
      · intro h; simp at h
      · intro _ h; exact absurd rfl h
    · simp only [setW, if_neg hvw] at hv
      have o := hi.own v hv
      have hlt := o.lt
      have hni : (s.writers v).ino ≠ s.next := by omega
      have htn := hfresh v (holds_active _ hv)
      constructor <;> simp only [setW, setF, setD, if_neg hvw, if_neg hni, if_neg htn]
      · omega
      · exact o.name
      · exact o.created
      · exact o.ready
      · exact o.synced
      · exact o.mode
  · intro v hv
    simp only [setW] at hv ⊢
    by_cases hvw : v = w
    · simp only [if_pos hvw]; exact hn
    · simp only [if_neg hvw] at hv ⊢; exact hi.pre v hv
  · intro u v huv
    have := hi.ino u v huv
    simp only [setW]
    by_cases hu : u = w <;> by_cases hv : v = w
    · subst hu; subst hv; exact absurd rfl huv
    · subst hu; simp only [if_true, if_neg hv]; intro _ h2; have := (hi.own v h2).lt; omega
    · subst hv; simp only [if_true, if_neg hu]; intro h1 _; have := (hi.own u h1).lt; omega
    · simp only [if_neg hu, if_neg hv]; exact this
  · intro u v huv
    have := hi.tmp u v huv
    simp only [setW]
    by_cases hu : u = w <;> by_cases hv : v = w
    · subst hu; subst hv; exact absurd rfl huv
    · subst hu; simp only [if_true, if_neg hv]; intro _ h2; exact fun h => hfresh v h2 h.symm
    · subst hv; simp only [if_true, if_neg hu]; intro h1 _; exact hfresh u h1
    · simp only [if_neg hu, if_neg hv]; exact this
  · intro v
    simp only [setW]
    by_cases hvw : v = w
    · subst hvw; simp only [if_true]; exact hi.fixed v
    · simp only [if_neg hvw]; exact hi.fixed v

private theorem setD_eq (d : Dir) (n m : Str) (v : Option Nat) (h : m = n) : setD d n v m = v := by simp [setD, h]
private theorem setD_ne (d : Dir) (n m : Str) (v : Option Nat) (h : m ≠ n) : setD d n v m = d m := by simp [setD, h]

private theorem inv_rename (s₀ : Sys) (h₀ : Start s₀) (T : Str) (hT : hasPrefix tmpPrefix T = false) (s : Sys) (hi : Inv s₀ T s) (w : Nat) (hpc : (s.writers w).pc = .closed) (hd : s.dir (s.writers w).tmp = some (s.writers w).ino) :
    Inv s₀ T { s with dir := setD (setD s.dir (s.writers w).tmp none) (s.writers w).target (some (s.writers w).ino), past := s.dir :: s.past, writers := setW s w { s.writers w with pc := .cleaning true } } := by
  have hact : (s.writers w).pc.active = true := by rw [hpc]; rfl
  have hhold : holds (s.writers w).pc = true := by rw [hpc]; rfl
  have hp := hi.pre w hact
  have o := hi.own w hhold
  -- first the writer lets go
  have h1 := inv_pc s₀ T s hi w (.cleaning true) (by simp [holds]) (fun _ => hact) (by simp) (by simp) (by simp)
  have h2 := inv_unlink s₀ T hT _ h1 (s.writers w).tmp hp
  have hset : ∀ v, v ≠ w → ({ s with writers := setW s w { s.writers w with pc := .cleaning true } } : Sys).writers v = s.writers v := by
    intro v hv; simp [setW, hv]
  refine ⟨?_, ?_, ?_, h1.pre, h1.ino, h1.tmp, h1.fixed⟩
  · intro d hmem hn
    rcases List.mem_cons.mp hmem with h | h
    · subst h
      by_cases ht : T = (s.writers w).target
      · have := (setD_eq (setD s.dir (s.writers w).tmp none) _ T (some (s.writers w).ino) ht).symm.trans hn; simp at this
      · exact h2.none (setD s.dir (s.writers w).tmp none) (by simp) ((setD_ne _ _ T (some (s.writers w).ino) ht).symm.trans hn)
    · exact h1.none d h hn
  · intro d hmem i hn
    rcases List.mem_cons.mp hmem with h | h
    · subst h
      by_cases ht : T = (s.writers w).target
      · have : some (s.writers w).ino = some i := (setD_eq (setD s.dir (s.writers w).tmp none) _ T (some (s.writers w).ino) ht).symm.trans hn
        simp only [Option.some.injEq] at this
        subst this
        have os := o.synced (.inr hpc)
        refine ⟨o.lt, os.2, o.mode ht.symm (by rw [hpc]; simp), ?_, ?_⟩
        · right; exact ⟨w, by rw [← (hi.fixed w).1]; exact ht.symm, by rw [← (hi.fixed w).2]; exact os.1⟩
        · intro v hv
          by_cases hvw : v = w
          · subst hvw; simp [setW, holds] at hv
          · simp only [setW, if_neg hvw] at hv ⊢
            exact hi.ino v w hvw hv hhold
      · have : setD s.dir (s.writers w).tmp none T = some i := (setD_ne _ _ T (some (s.writers w).ino) ht).symm.trans hn
        have g := h2.some (setD s.dir (s.writers w).tmp none) (by simp) i this
        exact ⟨g.lt, g.synced, g.mode, g.data, g.own⟩
    · have g := h1.some d h i hn
      exact ⟨g.lt, g.synced, g.mode, g.data, g.own⟩
  · intro v hv
    by_cases hvw : v = w
    · subst hvw; simp [setW, holds] at hv
    · have o' := h2.own v hv
      refine ⟨o'.lt, ?_, o'.created, o'.ready, o'.synced, o'.mode⟩
      have hv' : holds (s.writers v).pc = true := by simpa [setW, hvw] using hv
      have hpv := hi.pre v (holds_active _ hv')
      have htv : (s.writers v).tmp ≠ (s.writers w).target := by
        intro h
        have := h₀.targets w
        rw [← (hi.fixed w).1, ← h, hpv] at this
        simp at this
      have := o'.name
      simp only [setW, if_neg hvw] at this ⊢
      rw [setD_ne _ _ _ _ htv]
      exact this

private theorem inv_past (s₀ : Sys) (T : Str) (s : Sys) (hi : Inv s₀ T s) : Inv s₀ T { s with past := s.dir :: s.past } := by
  have hd : ∀ d, d ∈ s.dir :: s.dir :: s.past → d ∈ s.dir :: s.past := by intro d h; simpa using h
  refine ⟨fun d h => hi.none d (hd d h), ?_, ?_, hi.pre, hi.ino, hi.tmp, hi.fixed⟩
  · intro d h i h2
    have g := hi.some d (hd d h) i h2
    exact ⟨g.lt, g.synced, g.mode, g.data, g.own⟩
  · intro w hw
    have o := hi.own w hw
    exact ⟨o.lt, o.name, o.created, o.ready, o.synced, o.mode⟩

private theorem inv_now (s₀ : Sys) (T : Str) (s : Sys) (hi : Inv s₀ T s) (t : Int) : Inv s₀ T { s with now := t } := by
  refine ⟨hi.none, ?_, ?_, hi.pre, hi.ino, hi.tmp, hi.fixed⟩
  · intro d h i h2
    have g := hi.some d h i h2
    exact ⟨g.lt, g.synced, g.mode, g.data, g.own⟩
  · intro w hw
    have o := hi.own w hw
    exact ⟨o.lt, o.name, o.created, o.ready, o.synced, o.mode⟩

private theorem inv_step (s₀ : Sys) (h₀ : Start s₀) (T : Str) (hT : hasPrefix tmpPrefix T = false) (s s' : Sys) (hi : Inv s₀ T s) (e : Ev)
    (hf : ∀ w name, e = .create w name → ∀ v, (s.writers v).pc.active = true → (s.writers v).tmp ≠ name) (hs : step s e = some s') : Inv s₀ T s' := by
  cases e with
  | create w n =>
    simp only [step] at hs
    by_cases h : (s.writers w).pc = .idle ∧ s.dir n = none ∧ hasPrefix tmpPrefix n = true
    · rw [if_pos h] at hs
      simp only [Option.some.injEq] at hs
      rw [← hs]
      exact inv_create s₀ T hT s hi w n h.2.2 h.2.1 h.1 (hf w n rfl)
    · rw [if_neg h] at hs; simp at hs
  | stat w =>
    simp only [step] at hs
    by_cases h : (s.writers w).pc = .created
    · rw [if_pos h] at hs
      have hh : holds (s.writers w).pc = true := by rw [h]; rfl
      have o := hi.own w hh
      obtain ⟨c1, c2, c3⟩ := o.created h
      cases hd : s.dir (s.writers w).target with
      | some i =>
        rw [hd] at hs
        simp only [Option.some.injEq] at hs
        rw [← hs]
        refine inv_file s₀ T s hi w hh _ _ rfl rfl rfl rfl rfl (by simp) ?_ (by simp) ?_
        · intro _; simp only [c1, c2, List.nil_append]
        · intro ht _
          have ht : (s.writers w).target = T := ht
          rw [ht] at hd
          exact (hi.some s.dir (by simp) i hd).mode
      | none =>
        rw [hd] at hs
        simp only [Option.some.injEq] at hs
        rw [← hs]
        have := inv_file s₀ T s hi w hh (s.files (s.writers w).ino) { s.writers w with pc := .ready } rfl rfl rfl rfl rfl (by simp) (by intro _; simp only [c1, c2, List.nil_append]) (by simp) (by
          intro ht _
          have ht : (s.writers w).target = T := ht
          rw [ht] at hd
          rw [c3]; unfold M; rw [hi.none s.dir (by simp) hd])
        have he : setF s (s.writers w).ino (s.files (s.writers w).ino) = s.files := by funext j; unfold setF; split <;> simp_all
        rw [he] at this
        exact this
    · rw [if_neg h] at hs; simp at hs
  | write w n =>
    simp only [step] at hs
    by_cases h : (s.writers w).pc = .ready ∧ 0 < n
    · rw [if_pos h] at hs
      simp only [Option.some.injEq] at hs
      rw [← hs]
      have hh : holds (s.writers w).pc = true := by rw [h.1]; rfl
      have o := hi.own w hh
      refine inv_file s₀ T s hi w hh _ _ rfl rfl rfl rfl hh ?_ ?_ ?_ ?_
      · intro hc; have hc : (s.writers w).pc = .created := hc; rw [h.1] at hc; simp at hc
      · intro _; have := o.ready h.1; simp only [List.append_assoc, List.take_append_drop]; exact this
      · intro hc; have hc : (s.writers w).pc = .synced ∨ (s.writers w).pc = .closed := hc; rw [h.1] at hc; simp at hc
      · intro ht hc; exact o.mode ht hc
    · rw [if_neg h] at hs; simp at hs
  | sync w =>
    simp only [step] at hs
    by_cases h : (s.writers w).pc = .ready ∧ (s.writers w).rest = []
    · rw [if_pos h] at hs
      simp only [Option.some.injEq] at hs
      rw [← hs]
      have hh : holds (s.writers w).pc = true := by rw [h.1]; rfl
      have o := hi.own w hh
      refine inv_file s₀ T s hi w hh _ _ rfl rfl rfl rfl rfl (by simp) (by simp) ?_ ?_
      · intro _; have := o.ready h.1; rw [h.2, List.append_nil] at this; exact ⟨this, rfl⟩
      · intro ht _; exact o.mode ht (by rw [h.1]; simp)
    · rw [if_neg h] at hs; simp at hs
  | close w =>
    simp only [step] at hs
    by_cases h : (s.writers w).pc = .synced
    · rw [if_pos h] at hs
      simp only [Option.some.injEq] at hs
      rw [← hs]
      exact inv_pc s₀ T s hi w .closed (by rw [h]; simp [holds]) (by rw [h]; simp [Pc.active]) (by simp) (by simp) (by rw [h]; simp)
    · rw [if_neg h] at hs; simp at hs
  | rename w =>
    simp only [step] at hs
    by_cases h : (s.writers w).pc = .closed
    · rw [if_pos h] at hs
      have hh : holds (s.writers w).pc = true := by rw [h]; rfl
      have o := hi.own w hh
      rcases o.name with hn | hn
      · rw [hn] at hs
        simp only [Option.some.injEq] at hs
        rw [← hs]
        exact inv_pc s₀ T s hi w (.cleaning false) (by simp [holds]) (by rw [h]; simp [Pc.active]) (by simp) (by simp) (by simp)
      · rw [hn] at hs
        simp only [Option.some.injEq] at hs
        rw [← hs]
        exact inv_rename s₀ h₀ T hT s hi w h hn
    · rw [if_neg h] at hs; simp at hs
  | fail w =>
    simp only [step] at hs
    by_cases h : (s.writers w).pc = .idle
    · rw [if_pos h] at hs
      simp only [Option.some.injEq] at hs
      rw [← hs]
      exact inv_pc s₀ T s hi w (.done false) (by simp [holds]) (by simp [Pc.active]) (by simp) (by simp) (by simp)
    · rw [if_neg h] at hs
      by_cases h2 : (s.writers w).pc = .created ∨ (s.writers w).pc = .ready ∨ (s.writers w).pc = .synced ∨ (s.writers w).pc = .closed
      · rw [if_pos h2] at hs
        simp only [Option.some.injEq] at hs
        rw [← hs]
        refine inv_pc s₀ T s hi w (.cleaning false) (by simp [holds]) (fun _ => ?_) (by simp) (by simp) (by simp)
        rcases h2 with h2 | h2 | h2 | h2 <;> rw [h2] <;> rfl
      · rw [if_neg h2] at hs; simp at hs
  | cleanup w removed =>
    simp only [step] at hs
    cases hp : (s.writers w).pc with
    | cleaning ok =>
      rw [hp] at hs
      simp only [Option.some.injEq] at hs
      rw [← hs]
      have hact : (s.writers w).pc.active = true := by rw [hp]; rfl
      have h1 := inv_pc s₀ T s hi w (.done ok) (by simp [holds]) (by simp [Pc.active]) (by simp) (by simp) (by simp)
      cases removed with
      | true => exact inv_unlink s₀ T hT _ h1 _ (hi.pre w hact)
      | false => exact inv_past s₀ T _ h1
    | _ => rw [hp] at hs; simp at hs
  | kill w =>
    simp only [step, Option.some.injEq] at hs
    rw [← hs]
    exact inv_pc s₀ T s hi w .dead (by simp [holds]) (by simp [Pc.active]) (by simp) (by simp) (by simp)
  | sweep n ago =>
    simp only [step] at hs
    cases hd : s.dir n with
    | none => rw [hd] at hs; simp at hs
    | some i =>
      rw [hd] at hs
      simp only [] at hs
      split at hs
      · rename_i h
        simp only [Option.some.injEq] at hs
        rw [← hs]
        exact inv_unlink s₀ T hT s hi n h.2.1
      · simp at hs
  | tick t =>
    simp only [step, Option.some.injEq] at hs
    rw [← hs]
    exact inv_now s₀ T s hi _

private theorem inv_reach (ok : Ev → Prop) (s₀ s : Sys) (h₀ : Start s₀) (T : Str) (hT : hasPrefix tmpPrefix T = false) (h : Reach ok s₀ s) : Inv s₀ T s := by
  induction h with
  | refl => exact inv_start s₀ h₀ T
  | step _ _ hf hs ih => exact inv_step s₀ h₀ T hT _ _ ih _ hf hs

/-- C45: at every moment of every run, a reader of the file finds its complete old content or the complete content of one call, whatever errors occurred and processes were killed. -/
theorem atomic_old_or_new (ok : Ev → Prop) (s₀ s : Sys) (h₀ : Start s₀) (name : Str) (hn : hasPrefix tmpPrefix name = false) (h : Reach ok s₀ s) : OldOrNew s₀ name (contents s name) := by
  have hi := inv_reach ok s₀ s h₀ name hn h
  unfold OldOrNew
  cases hd : s.dir name with
  | none => left; unfold contents; rw [hd, hi.none s.dir (by simp) hd]; rfl
  | some i =>
    have g := hi.some s.dir (by simp) i hd
    have hr : contents s name = some (s.files i).data := by simp [contents, hd]
    rw [hr]
    rcases g.data with h | ⟨w, h1, h2⟩
    · exact .inl h
    · exact .inr ⟨w, h1, by rw [h2]⟩

/-- C45: after a crash of the machine at any moment, the file has its complete old content or the complete content of one call. -/
theorem atomic_crash (ok : Ev → Prop) (s₀ s : Sys) (h₀ : Start s₀) (name : Str) (hn : hasPrefix tmpPrefix name = false) (h : Reach ok s₀ s) (d : Dir) (content : Nat → List UInt8) (hc : Crash s d content) :
    OldOrNew s₀ name ((d name).map content) := by
  have hi := inv_reach ok s₀ s h₀ name hn h
  unfold OldOrNew
  cases hd : d name with
  | none => left; unfold contents; rw [hi.none d hc.1 hd]; rfl
  | some i =>
    have g := hi.some d hc.1 i hd
    have hr := hc.2 i g.lt g.synced
    simp only [Option.map_some, hr]
    rcases g.data with h | ⟨w, h1, h2⟩
    · exact .inl h
    · exact .inr ⟨w, h1, by rw [h2]⟩

/-- C45: the file keeps its permissions; one that did not exist is only accessible to the owner. -/
theorem atomic_mode (ok : Ev → Prop) (s₀ s : Sys) (h₀ : Start s₀) (name : Str) (hn : hasPrefix tmpPrefix name = false) (h : Reach ok s₀ s) :
    (∀ m, mode s₀ name = some m → mode s name = some m) ∧ (mode s₀ name = none → mode s name = none ∨ mode s name = some 0o600) := by
  have hi := inv_reach ok s₀ s h₀ name hn h
  constructor
  · intro m hm
    obtain ⟨j, hj, hjm⟩ := Option.map_eq_some_iff.mp hm
    cases hd : s.dir name with
    | none => rw [hi.none s.dir (by simp) hd] at hj; simp at hj
    | some i =>
      have g := hi.some s.dir (by simp) i hd
      simp only [mode, hd, Option.map_some]
      rw [g.mode]; unfold M; rw [hj, ← hjm]
  · intro hm
    have hm : s₀.dir name = none := by simpa [mode] using hm
    cases hd : s.dir name with
    | none => left; simp [mode, hd]
    | some i =>
      right
      have g := hi.some s.dir (by simp) i hd
      simp only [mode, hd, Option.map_some]
      rw [g.mode]; unfold M; rw [hm]; rfl

/-- C45: what is found under the name changes only when a call for it succeeds in renaming, and then to all it was to write. So a call that fails leaves the file as it was. -/
theorem atomic_changes (ok : Ev → Prop) (s₀ s s' : Sys) (h₀ : Start s₀) (name : Str) (hn : hasPrefix tmpPrefix name = false) (h : Reach ok s₀ s) (e : Ev) (hs : step s e = some s') :
    contents s' name = contents s name ∨ ∃ w, e = .rename w ∧ (s₀.writers w).target = name ∧ (s'.writers w).pc = .cleaning true ∧ contents s' name = some (s₀.writers w).content := by
  have hi := inv_reach ok s₀ s h₀ name hn h
  have hne : ∀ n, hasPrefix tmpPrefix n = true → name ≠ n := by intro n h1 h2; rw [h2, h1] at hn; simp at hn
  have hfile : ∀ (w : Nat) (f : File) (W : Nat → Writer), holds (s.writers w).pc = true → contents { s with files := setF s (s.writers w).ino f, writers := W } name = contents s name := by
    intro w f W hw
    unfold contents
    cases hd : s.dir name with
    | none => rfl
    | some i =>
      have g := hi.some s.dir (by simp) i hd
      have hni : i ≠ (s.writers w).ino := fun h => g.own w hw h.symm
      simp only [Option.map_some, setF, if_neg hni]
  have hunlink : ∀ (n : Str) (W : Nat → Writer) (P : List Dir), hasPrefix tmpPrefix n = true → contents { s with dir := setD s.dir n none, past := P, writers := W } name = contents s name := by
    intro n W P h1
    unfold contents setD
    simp only [if_neg (hne n h1)]
  cases e with
  | create w n =>
    simp only [step] at hs
    split at hs
    · rename_i h
      simp only [Option.some.injEq] at hs
      subst hs
      left
      unfold contents setD
      simp only [if_neg (hne n h.2.2)]
      cases hd : s.dir name with
      | none => rfl
      | some i =>
        have := (hi.some s.dir (by simp) i hd).lt
        have hni : i ≠ s.next := by omega
        simp only [Option.map_some, setF, if_neg hni]
    · simp at hs
  | stat w =>
    simp only [step] at hs
    split at hs
    · rename_i h
      split at hs
      · simp only [Option.some.injEq] at hs
        subst hs
        left; exact hfile w _ _ (by rw [h]; rfl)
      · simp only [Option.some.injEq] at hs
        subst hs; left; rfl
    · simp at hs
  | write w n =>
    simp only [step] at hs
    split at hs
    · rename_i h
      simp only [Option.some.injEq] at hs
      subst hs
      left; exact hfile w _ _ (by rw [h.1]; rfl)
    · simp at hs
  | sync w =>
    simp only [step] at hs
    split at hs
    · rename_i h
      simp only [Option.some.injEq] at hs
      subst hs
      left; exact hfile w _ _ (by rw [h.1]; rfl)
    · simp at hs
  | close w =>
    simp only [step] at hs
    split at hs
    · simp only [Option.some.injEq] at hs; subst hs; left; rfl
    · simp at hs
  | rename w =>
    simp only [step] at hs
    by_cases h : (s.writers w).pc = .closed
    · rw [if_pos h] at hs
      have o := hi.own w (by rw [h]; rfl)
      rcases o.name with hd | hd
      · rw [hd] at hs
        simp only [Option.some.injEq] at hs
        subst hs; left; rfl
      · rw [hd] at hs
        simp only [Option.some.injEq] at hs
        subst hs
        by_cases ht : name = (s.writers w).target
        · right
          refine ⟨w, rfl, by rw [← (hi.fixed w).1]; exact ht.symm, by simp [setW], ?_⟩
          have := o.synced (.inr h)
          simp only [contents, setD, if_pos ht, Option.map_some]
          rw [this.1, (hi.fixed w).2]
        · left
          have := hne _ (hi.pre w (by rw [h]; rfl))
          simp only [contents, setD, if_neg ht, if_neg this]
    · rw [if_neg h] at hs; simp at hs
  | fail w =>
    simp only [step] at hs
    split at hs
    · simp only [Option.some.injEq] at hs; subst hs; left; rfl
    · split at hs
      · simp only [Option.some.injEq] at hs; subst hs; left; rfl
      · simp at hs
  | cleanup w removed =>
    simp only [step] at hs
    cases hp : (s.writers w).pc with
    | cleaning ok =>
      rw [hp] at hs
      simp only [Option.some.injEq] at hs
      subst hs
      left
      cases removed with
      | true => exact hunlink _ _ _ (hi.pre w (by rw [hp]; rfl))
      | false => rfl
    | _ => rw [hp] at hs; simp at hs
  | kill w => simp only [step, Option.some.injEq] at hs; subst hs; left; rfl
  | sweep n ago =>
    simp only [step] at hs
    split at hs
    · simp at hs
    · split at hs
      · rename_i h
        simp only [Option.some.injEq] at hs
        subst hs
        left; exact hunlink n s.writers (s.dir :: s.past) h.2.1
      · simp at hs
  | tick t => simp only [step, Option.some.injEq] at hs; subst hs; left; rfl

/-- C45: a call that reports success has replaced the file: when it leaves the rename with success, its content is there. -/
theorem atomic_success (ok : Ev → Prop) (s₀ s s' : Sys) (h₀ : Start s₀) (h : Reach ok s₀ s) (e : Ev) (hs : step s e = some s') (w : Nat) (h1 : (s.writers w).pc ≠ .cleaning true ∧ (s.writers w).pc ≠ .done true)
    (h2 : (s'.writers w).pc = .cleaning true ∨ (s'.writers w).pc = .done true) : e = .rename w ∧ contents s' (s₀.writers w).target = some (s₀.writers w).content := by
  have hi := inv_reach ok s₀ s h₀ _ (h₀.targets w) h
  have he : e = .rename w := by
    cases e <;> simp only [step] at hs <;> (repeat' split at hs) <;> simp only [Option.some.injEq, reduceCtorEq] at hs <;> subst hs <;> simp only [setW] at h2 <;>
      first
      | exact absurd (Or.elim h2 (fun h => absurd h h1.1) (fun h => absurd h h1.2)) id
      | (split at h2 <;> first
          | (rename_i hw; subst hw; simp_all)
          | (exact absurd (Or.elim h2 (fun h => absurd h h1.1) (fun h => absurd h h1.2)) id))
  subst he
  refine ⟨rfl, ?_⟩
  simp only [step] at hs
  by_cases hp : (s.writers w).pc = .closed
  · rw [if_pos hp] at hs
    have o := hi.own w (by rw [hp]; rfl)
    rcases o.name with hd | hd
    · rw [hd] at hs
      simp only [Option.some.injEq] at hs
      subst hs
      simp [setW] at h2
    · rw [hd] at hs
      simp only [Option.some.injEq] at hs
      subst hs
      have := o.synced (.inr hp)
      simp only [contents, setD, (hi.fixed w).1, if_true, Option.map_some]
      rw [this.1, (hi.fixed w).2]
  · rw [if_neg hp] at hs; simp at hs

/-- C45: if no process is killed and removing works, then no temporary file outlives the call that made it: every name in the directory was there before, is a file to be replaced, or is the
temporary file of a call in progress. -/
theorem atomic_no_leftovers (s₀ s : Sys) (h₀ : Start s₀) (h : Reach (fun e => (∀ w, e ≠ .kill w) ∧ ∀ w, e ≠ .cleanup w false) s₀ s) (name : Str) (hd : s.dir name ≠ none) :
    s₀.dir name ≠ none ∨ (∃ w, (s₀.writers w).target = name) ∨ ∃ w, (s.writers w).pc.active = true ∧ (s.writers w).tmp = name := by
  induction h with
  | refl => exact .inl hd
  | @step s s' e hr hok hf hs ih =>
    have hi := inv_reach _ s₀ s h₀ _ (h₀.targets 0) hr
    -- nothing but a change of the directory or of one writer
    have hkeep : s.dir name ≠ none → (∀ v, (s.writers v).pc.active = true → (s.writers v).tmp = name → (s'.writers v).pc.active = true ∧ (s'.writers v).tmp = name) →
        s₀.dir name ≠ none ∨ (∃ w, (s₀.writers w).target = name) ∨ ∃ w, (s'.writers w).pc.active = true ∧ (s'.writers w).tmp = name := by
      intro h1 h2
      rcases ih h1 with h | h | ⟨v, hv, hvn⟩
      · exact .inl h
      · exact .inr (.inl h)
      · exact .inr (.inr ⟨v, h2 v hv hvn⟩)
    have hset : ∀ (w : Nat) (x : Writer), s'.writers = setW s w x → ((s.writers w).pc.active = true → (s.writers w).tmp = name → x.pc.active = true ∧ x.tmp = name) →
        ∀ v, (s.writers v).pc.active = true → (s.writers v).tmp = name → (s'.writers v).pc.active = true ∧ (s'.writers v).tmp = name := by
      intro w x h1 h2 v h3 h4
      rw [h1]
      unfold setW
      by_cases hv : v = w
      · subst hv; simp only [if_true]; exact h2 h3 h4
      · simp only [if_neg hv]; exact ⟨h3, h4⟩
    cases e with
    | create w n =>
      simp only [step] at hs
      split at hs
      · rename_i hc
        simp only [Option.some.injEq] at hs
        subst hs
        by_cases hn : name = n
        · right; right; exact ⟨w, by simp [setW, Pc.active], by simp [setW, hn]⟩
        · refine hkeep (by simpa [setD, hn] using hd) (hset w _ rfl ?_)
          intro h1 _; rw [hc.1] at h1; simp [Pc.active] at h1
      · simp at hs
    | stat w =>
      simp only [step] at hs
      split at hs
      · split at hs
        · simp only [Option.some.injEq] at hs
          subst hs
          exact hkeep hd (hset w _ rfl fun _ h => ⟨rfl, h⟩)
        · simp only [Option.some.injEq] at hs
          subst hs
          exact hkeep hd (hset w _ rfl fun _ h => ⟨rfl, h⟩)
      · simp at hs
    | write w n =>
      simp only [step] at hs
      split at hs
      · simp only [Option.some.injEq] at hs
        subst hs
        exact hkeep hd (hset w _ rfl fun h1 h => ⟨h1, h⟩)
      · simp at hs
    | sync w =>
      simp only [step] at hs
      split at hs
      · simp only [Option.some.injEq] at hs
        subst hs
        exact hkeep hd (hset w _ rfl fun h1 h => ⟨rfl, h⟩)
      · simp at hs
    | close w =>
      simp only [step] at hs
      split at hs
      · simp only [Option.some.injEq] at hs
        subst hs
        exact hkeep hd (hset w _ rfl fun h1 h => ⟨rfl, h⟩)
      · simp at hs
    | rename w =>
      simp only [step] at hs
      split at hs
      · split at hs
        · simp only [Option.some.injEq] at hs
          subst hs
          exact hkeep hd (hset w _ rfl fun h1 h => ⟨rfl, h⟩)
        · simp only [Option.some.injEq] at hs
          subst hs
          by_cases hn : name = (s.writers w).target
          · right; left; exact ⟨w, by rw [← (hi.fixed w).1]; exact hn.symm⟩
          · refine hkeep ?_ (hset w _ rfl fun h1 h => ⟨rfl, h⟩)
            intro h
            apply hd
            simp only [setD, if_neg hn, h]
            split <;> rfl
      · simp at hs
    | fail w =>
      simp only [step] at hs
      split at hs
      · rename_i hc
        simp only [Option.some.injEq] at hs
        subst hs
        exact hkeep hd (hset w _ rfl fun h1 h => by rw [hc] at h1; simp [Pc.active] at h1)
      · split at hs
        · simp only [Option.some.injEq] at hs
          subst hs
          exact hkeep hd (hset w _ rfl fun h1 h => ⟨rfl, h⟩)
        · simp at hs
    | cleanup w removed =>
      cases removed with
      | false => exact absurd rfl (hok.2 w)
      | true =>
        simp only [step] at hs
        split at hs
        · simp only [Option.some.injEq] at hs
          subst hs
          have hd : setD s.dir (s.writers w).tmp none name ≠ none := hd
          have hne : name ≠ (s.writers w).tmp := by
            intro h; rw [setD_eq _ _ _ _ h] at hd; exact hd rfl
          rw [setD_ne _ _ _ _ hne] at hd
          exact hkeep hd (hset w _ rfl fun h1 h => absurd h.symm hne)
        · simp at hs
    | kill w => exact absurd rfl (hok.1 w)
    | sweep n ago =>
      simp only [step] at hs
      split at hs
      · simp at hs
      · split at hs
        · simp only [Option.some.injEq] at hs
          subst hs
          refine hkeep ?_ fun v h1 h2 => ⟨h1, h2⟩
          intro h
          apply hd
          simp only [setD, h]
          split <;> rfl
        · simp at hs
    | tick t =>
      simp only [step, Option.some.injEq] at hs
      subst hs
      exact hkeep hd fun v h1 h2 => ⟨h1, h2⟩

/-- C45: the sweep takes away exactly the regular files with the prefix that have not been changed for an hour, and nothing at all from the working directory. -/
theorem sweep_exact (dir : Str) (now : Int) (entries : List (Str × File)) (e : Str × File) :
    e ∈ removeStale dir now entries ↔ e ∈ entries ∧ ¬ (dir ≠ [] ∧ dir ≠ str "." ∧ e.2.regular = true ∧ tmpPrefix <+: e.1 ∧ e.2.mtime + 3600 ≤ now) := by
  have hp : hasPrefix tmpPrefix e.1 = true ↔ tmpPrefix <+: e.1 := by
    unfold hasPrefix
    simp only [decide_eq_true_eq]
    rw [List.prefix_iff_eq_take]
    exact eq_comm
  unfold removeStale sweeps tmpMaxAge
  by_cases hd : dir = [] ∨ dir = str "."
  · have : (!(!(decide (dir = []) || decide (dir = str ".")))) = true := by simpa using hd
    rw [if_pos this]
    constructor
    · intro h; refine ⟨h, ?_⟩; rintro ⟨h1, h2, _⟩; rcases hd with h | h <;> contradiction
    · exact fun h => h.1
  · have : ¬ ((!(!(decide (dir = []) || decide (dir = str ".")))) = true) := by simpa using hd
    rw [if_neg this]
    rw [List.mem_filter]
    have hd1 : dir ≠ [] := fun h => hd (.inl h)
    have hd2 : dir ≠ str "." := fun h => hd (.inr h)
    simp only [Bool.not_eq_true', Bool.and_eq_false_iff, Bool.not_eq_false', decide_eq_true_eq, ← hp]
    constructor
    · rintro ⟨h1, h2⟩
      refine ⟨h1, ?_⟩
      rintro ⟨_, _, h3, h4, h5⟩
      rcases h2 with (h | h) | h
      · rw [h] at h3; simp at h3
      · rw [h] at h4; simp at h4
      · omega
    · rintro ⟨h1, h2⟩
      refine ⟨h1, ?_⟩
      cases h3 : e.2.regular with
      | false => simp
      | true =>
        cases h4 : hasPrefix tmpPrefix e.1 with
        | false => simp
        | true =>
          right
          have : ¬ (e.2.mtime + 3600 ≤ now) := fun h => h2 ⟨hd1, hd2, h3, h4, h⟩
          omega

/-- C45: a sweep beside calls in progress only takes away files that have not been changed for an hour. -/
theorem sweep_spares_fresh (s s' : Sys) (name : Str) (ago : Nat) (h : step s (.sweep name ago) = some s') : ∃ i, s.dir name = some i ∧ (s.files i).mtime + 3600 ≤ s.now ∧ tmpPrefix <+: name := by
  simp only [step] at h
  split at h
  · simp at h
  · rename_i i hd
    split at h
    · rename_i hc
      refine ⟨i, hd, ?_, ?_⟩
      · have := hc.2.2; unfold tmpMaxAge at this; omega
      · have := hc.2.1
        unfold hasPrefix at this
        simp only [decide_eq_true_eq] at this
        rw [List.prefix_iff_eq_take]; exact this.symm
    · simp at h

private def ex₀ : Sys := { files := fun _ => { data := [1, 2], mode := 0o644, synced := true }, next := 1, dir := fun n => if n = str "cache" then some 0 else none, writers := fun w => ⟨str "cache", [7, 8, 9, UInt8.ofNat w], .idle, [], 0, []⟩ }
private theorem ex_start : Start ex₀ :=
  ⟨fun name i h => by unfold ex₀ at h ⊢; simp only [] at h; split at h <;> simp_all, rfl, fun _ => rfl, fun w => by show hasPrefix tmpPrefix (str "cache") = false; decide +kernel⟩
private def exRun (s : Sys) : List Ev → Option Sys
  | [] => some s
  | e :: es => (step s e).bind fun s' => exRun s' es
private def exEs : List Ev := [.create 0 (str ".routedns-tmp-1"), .create 1 (str ".routedns-tmp-2"), .stat 0, .write 0 3, .stat 1, .write 1 4, .sync 1, .close 1, .rename 1, .write 0 1, .cleanup 1 true, .kill 0, .tick 3600, .sweep (str ".routedns-tmp-1") 0]
example : (exRun ex₀ exEs).map (fun s => (contents s (str "cache"), mode s (str "cache"), s.dir (str ".routedns-tmp-1"), (s.writers 1).pc)) = some (some [7, 8, 9, 1], some 0o644, none, .done true) := by decide +kernel

/-- Finding: the directory is not synced: after a crash the old content can be back although the call reported success. -/
theorem atomic_crash_may_undo : ∃ (s₀ s : Sys) (d : Dir) (content : Nat → List UInt8), Start s₀ ∧ Reach (fun _ => True) s₀ s ∧ (s.writers 0).pc = .done true ∧ (s.writers 0).target = str "cache" ∧
    contents s (str "cache") = some (s.writers 0).content ∧ Crash s d content ∧ (d (str "cache")).map content = contents s₀ (str "cache") ∧ contents s₀ (str "cache") ≠ contents s (str "cache") := by
  have hr : ∀ (es : List Ev) (s s' : Sys), (∀ e, e ∈ es → ∀ w n, e ≠ .create w n) → exRun s es = some s' → Reach (fun _ => True) ex₀ s → Reach (fun _ => True) ex₀ s' := by
    intro es
    induction es with
    | nil => intro s s' _ h hr; simp only [exRun, Option.some.injEq] at h; rw [← h]; exact hr
    | cons e es ih =>
      intro s s' hc h hr
      simp only [exRun, Option.bind_eq_some_iff] at h
      obtain ⟨s1, h1, h2⟩ := h
      exact ih s1 s' (fun e' he => hc e' (by simp [he])) h2 (.step hr trivial (fun w n he => absurd he (hc e (by simp) w n)) h1)
  have h1 : ∃ s1, step ex₀ (.create 0 (str ".routedns-tmp-1")) = some s1 ∧ ∃ s, exRun s1 [.stat 0, .write 0 4, .sync 0, .close 0, .rename 0, .cleanup 0 true] = some s ∧
      (s.writers 0).pc = .done true ∧ (s.writers 0).target = str "cache" ∧ contents s (str "cache") = some (s.writers 0).content ∧ s.past.getLast? = some ex₀.dir ∧ s.files 0 = ex₀.files 0 ∧ contents s (str "cache") = some [7, 8, 9, 0] :=
    ⟨_, rfl, _, rfl, by decide +kernel, by decide +kernel, by decide +kernel, rfl, by decide +kernel, by decide +kernel⟩
  obtain ⟨s1, h1, s, h2, h3, h4, h5, h6, h7, h8⟩ := h1
  refine ⟨ex₀, s, ex₀.dir, fun i => (s.files i).data, ex_start, ?_, h3, h4, h5, ⟨?_, fun i _ _ => rfl⟩, ?_, ?_⟩
  · refine hr _ s1 s (by simp) h2 (.step .refl trivial ?_ h1)
    intro w n _ v hv
    rw [ex_start.idle v] at hv; simp [Pc.active] at hv
  · exact List.mem_cons_of_mem _ (List.mem_of_getLast? h6)
  · show some (s.files 0).data = contents ex₀ (str "cache")
    rw [h7]; decide +kernel
  · rw [h8]; decide +kernel

end Verif.Props.AtomicFile
