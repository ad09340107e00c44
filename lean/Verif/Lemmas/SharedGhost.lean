import Verif.Spec.Shared
import Verif.Model.Shared
/-
Who owes what to whom while the program of C93 runs. Bookkeeping for the proofs of C94 and C102; it is about goroutines, channels and requests, not about what the goroutines do.
-/
namespace Verif.Lemmas.SharedGhost
open Verif Verif.Composition Verif.Shared Verif.Spec.Shared

variable {H : Type}

theorem child_acc (t : Tree H) : Acc (fun u t => Child t u) t := by
  induction t with
  | client i => exact ⟨_, fun u h => h.elim⟩
  | drop => exact ⟨_, fun u h => h.elim⟩
  | static s => exact ⟨_, fun u h => h.elim⟩
  | template n s => exact ⟨_, fun u h => h.elim⟩
  | ttl o t ih => exact ⟨_, fun u h => by cases h; exact ih⟩
  | collapse o t ih => exact ⟨_, fun u h => by cases h; exact ih⟩
  | minimize t ih => exact ⟨_, fun u h => by cases h; exact ih⟩
  | modify o t ih => exact ⟨_, fun u h => by cases h; exact ih⟩
  | replace o t ih => exact ⟨_, fun u h => by cases h; exact ih⟩
  | syslog o t ih => exact ⟨_, fun u h => by cases h; exact ih⟩
  | queryLog t ih => exact ⟨_, fun u h => by cases h; exact ih⟩
  | dns64 o t ih => exact ⟨_, fun u h => by cases h; exact ih⟩
  | fastestTcp a b t ih => exact ⟨_, fun u h => by cases h; exact ih⟩
  | dedup t ih => exact ⟨_, fun u h => by cases h; exact ih⟩
  | cache a b c t ih => exact ⟨_, fun u h => by cases h; exact ih⟩
  | prefetch t ih => exact ⟨_, fun u h => by cases h; exact ih⟩
  | dnssec o t ih => exact ⟨_, fun u h => by cases h; exact ih⟩
  | truncateRetry t r i1 i2 => exact ⟨_, fun u h => by rcases h with rfl | rfl <;> assumption⟩
  | blocklist L t a b i1 i2 i3 => exact ⟨_, fun u h => by rcases h with rfl | rfl | rfl <;> assumption⟩
  | clientBlocklist L t b i1 i2 => exact ⟨_, fun u h => by rcases h with rfl | rfl <;> assumption⟩
  | responseIp L t b i1 i2 => exact ⟨_, fun u h => by rcases h with rfl | rfl <;> assumption⟩
  | responseName L t b i1 i2 => exact ⟨_, fun u h => by rcases h with rfl | rfl <;> assumption⟩
  | rateLimit L t b i1 i2 => exact ⟨_, fun u h => by rcases h with rfl | rfl <;> assumption⟩
  | failRotate n o member ih => exact ⟨_, fun u h => by obtain ⟨i, rfl⟩ := h; exact ih i⟩
  | failBack n o member ih => exact ⟨_, fun u h => by obtain ⟨i, rfl⟩ := h; exact ih i⟩
  | failBackEach n o member ih => exact ⟨_, fun u h => by obtain ⟨i, rfl⟩ := h; exact ih i⟩
  | roundRobin n member ih => exact ⟨_, fun u h => by obtain ⟨i, rfl⟩ := h; exact ih i⟩
  | random n o member ih => exact ⟨_, fun u h => by obtain ⟨i, rfl⟩ := h; exact ih i⟩
  | loadBalance n o member ih => exact ⟨_, fun u h => by obtain ⟨i, rfl⟩ := h; exact ih i⟩
  | fastest n member ih => exact ⟨_, fun u h => by obtain ⟨i, rfl⟩ := h; exact ih i⟩
  | router n member ih => exact ⟨_, fun u h => by obtain ⟨i, rfl⟩ := h; exact ih i⟩

/-- Something a goroutine owes to those who wait for it: a message in a channel, or the answer to a request -/
inductive Duty where
  | nothing
  | chan (c : Nat)
  | flight (f : Nat)
/-- What is known of a goroutine: the element it works for, what it owes there, what it may receive, and the same of its callers. -/
structure Ghost (H : Type) where
  node : Tree H
  duty : Duty := .nothing
  cr : Option (Nat × Nat) := none
  frames : List (Tree H × Duty) := []
  /-- when it is to be done at the latest, and its callers (C102) -/
  ends : List Nat := []

def Ghost.duties (g : Ghost H) : List (Tree H × Duty) := (g.node, g.duty) :: g.frames

def isChan (c : Nat) (x : Tree H × Duty) : Bool := match x.2 with
  | .chan c' => c' == c
  | _ => false

/-- How many messages for channel `c` a goroutine owes -/
def cnt (c : Nat) (g : Ghost H) : Nat := g.duties.countP (isChan c)

def owed (c : Nat) : List (Ghost H) → Nat
  | [] => 0
  | g :: gs => cnt c g + owed c gs

theorem owed_set {c : Nat} {g g' : Ghost H} : ∀ (gs : List (Ghost H)) (i : Nat), gs[i]? = some g → owed c (gs.set i g') + cnt c g = owed c gs + cnt c g' := by
  intro gs
  induction gs with
  | nil => intro i h; cases h
  | cons x gs ih =>
    intro i h
    cases i with
    | zero => cases h; simp only [List.set_cons_zero, owed]; omega
    | succ i =>
      have := ih i h
      simp only [List.set_cons_succ, owed]
      omega

theorem owed_append {c : Nat} {gs gs' : List (Ghost H)} : owed c (gs ++ gs') = owed c gs + owed c gs' := by
  induction gs with
  | nil => simp [owed]
  | cons x gs ih => simp only [List.cons_append, owed, ih]; omega

theorem owed_pos {c : Nat} : ∀ (gs : List (Ghost H)), 0 < owed c gs → ∃ (i : Nat) (g : Ghost H), gs[i]? = some g ∧ 0 < cnt c g := by
  intro gs
  induction gs with
  | nil => intro h; simp [owed] at h
  | cons x gs ih =>
    intro h
    simp only [owed] at h
    rcases Nat.eq_zero_or_pos (cnt c x) with h0 | h0
    · obtain ⟨i, g, h1, h2⟩ := ih (by omega)
      exact ⟨i + 1, g, h1, h2⟩
    · exact ⟨0, x, rfl, h0⟩

/-- Nobody waits for what nobody owes. `cn` has the element of each channel. -/
structure Book (s : St H) (gs : List (Ghost H)) (cn : List (Tree H)) : Prop where
  len : gs.length = s.threads.length
  clen : cn.length = s.chans.length
  credit : ∀ (i : Nat) (g : Ghost H) (c j : Nat), gs[i]? = some g → g.cr = some (c, j) → cn[c]? = some g.node ∧ ∀ l, s.chans[c]? = some l → j ≤ l.length + owed c gs
  alone : ∀ (i i' : Nat) (g g' : Ghost H) (c j j' : Nat), gs[i]? = some g → gs[i']? = some g' → g.cr = some (c, j) → g'.cr = some (c, j') → i = i'
  sends : ∀ (i : Nat) (g : Ghost H) (n : Tree H) (c : Nat), gs[i]? = some g → (n, .chan c) ∈ g.duties → cn[c]? = some n
  lands : ∀ (i : Nat) (g : Ghost H) (n : Tree H) (f : Nat), gs[i]? = some g → (n, .flight f) ∈ g.duties → ∃ o, s.flights[f]? = some (n, o)
  flown : ∀ (f : Nat) (n : Tree H), s.flights[f]? = some (n, none) → ∃ (i : Nat) (g : Ghost H), gs[i]? = some g ∧ (n, .flight f) ∈ g.duties

section
variable {g g' : Ghost H} {s s' : St H} {gs : List (Ghost H)} {cn : List (Tree H)}

theorem get_set {α : Type _} {l : List α} {i j : Nat} {x y : α} (h : (l.set i x)[j]? = some y) : (j = i ∧ y = x) ∨ (j ≠ i ∧ l[j]? = some y) := by
  rw [List.getElem?_set] at h
  split at h
  · next hij =>
    split at h
    · cases h; exact .inl ⟨hij.symm, rfl⟩
    · cases h
  · next hij => exact .inr ⟨fun hc => hij hc.symm, h⟩

theorem get_add {α : Type _} {l : List α} {j : Nat} {x y : α} (h : (l ++ [x])[j]? = some y) : (j = l.length ∧ y = x) ∨ l[j]? = some y := by
  rw [List.getElem?_append] at h
  split at h
  · exact .inr h
  · next hge =>
    cases hd : j - l.length with
    | zero => rw [hd] at h; cases h; exact .inl ⟨by omega, rfl⟩
    | succ d => rw [hd] at h; cases h

theorem set_get {α : Type _} {l : List α} {i : Nat} {x y : α} (h : l[i]? = some x) : (l.set i y)[i]? = some y := by
  rw [List.getElem?_set_self (List.getElem?_eq_some_iff.1 h).1]

theorem set_other {α : Type _} {l : List α} {i j : Nat} {x y : α} (hj : j ≠ i) (h : l[j]? = some x) : (l.set i y)[j]? = some x := by
  rw [List.getElem?_set_ne (fun hc => hj hc.symm)]; exact h

theorem add_get {α : Type _} {l l' : List α} {i : Nat} {x : α} (h : l[i]? = some x) : (l ++ l')[i]? = some x := by
  rw [List.getElem?_append_left (List.getElem?_eq_some_iff.1 h).1]; exact h

/-- A step that neither sends, receives, begins nor ends anything that others wait for -/
theorem book_plain {i : Nat} (hi : Book s gs cn) (hg : gs[i]? = some g) (hth : s'.threads.length = s.threads.length) (hch : s'.chans = s.chans)
    (hfl : s'.flights = s.flights) (hd : ∀ n d, (∀ c, d = .chan c → (n, d) ∈ g'.duties → (n, d) ∈ g.duties) ∧ (∀ f, d = .flight f → ((n, d) ∈ g'.duties ↔ (n, d) ∈ g.duties)))
    (hc : ∀ c, cnt c g' = cnt c g) (hcr : g'.cr = none ∨ (g'.cr = g.cr ∧ g'.node = g.node)) : Book s' (gs.set i g') cn := by
  have ho : ∀ c, owed c (gs.set i g') = owed c gs := by
    intro c
    have := owed_set (c := c) (g' := g') gs i hg
    rw [hc c] at this
    omega
  have hcr' : ∀ c j, g'.cr = some (c, j) → g.cr = some (c, j) ∧ g'.node = g.node := by
    intro c j h
    rcases hcr with h1 | ⟨h1, h2⟩
    · rw [h1] at h; cases h
    · exact ⟨by rw [← h1]; exact h, h2⟩
  refine ⟨by rw [hth, List.length_set]; exact hi.len, by rw [hch]; exact hi.clen, ?_, ?_, ?_, ?_, ?_⟩
  · intro j x c m h1 h2
    rw [hch, ho]
    rcases get_set h1 with ⟨rfl, rfl⟩ | ⟨hj, h1⟩
    · obtain ⟨h3, h4⟩ := hcr' c m h2
      rw [h4]
      exact hi.credit j g c m hg h3
    · exact hi.credit j x c m h1 h2
  · intro j j' x x' c m m' h1 h2 h3 h4
    have key : ∀ (j : Nat) (x : Ghost H) (m : Nat), (gs.set i g')[j]? = some x → x.cr = some (c, m) → ∃ x', gs[j]? = some x' ∧ x'.cr = some (c, m) := by
      intro j x m ha hb
      rcases get_set ha with ⟨rfl, rfl⟩ | ⟨hj, ha⟩
      · exact ⟨g, hg, (hcr' c m hb).1⟩
      · exact ⟨x, ha, hb⟩
    obtain ⟨y, h5, h6⟩ := key j x m h1 h3
    obtain ⟨y', h7, h8⟩ := key j' x' m' h2 h4
    exact hi.alone j j' y y' c m m' h5 h7 h6 h8
  · intro j x n c h1 h2
    rcases get_set h1 with ⟨rfl, rfl⟩ | ⟨hj, h1⟩
    · exact hi.sends j g n c hg ((hd n _).1 c rfl h2)
    · exact hi.sends j x n c h1 h2
  · intro j x n f h1 h2
    rw [hfl]
    rcases get_set h1 with ⟨rfl, rfl⟩ | ⟨hj, h1⟩
    · exact hi.lands j g n f hg (((hd n _).2 f rfl).1 h2)
    · exact hi.lands j x n f h1 h2
  · intro f n h
    rw [hfl] at h
    obtain ⟨j, x, h1, h2⟩ := hi.flown f n h
    by_cases hj : j = i
    · subst hj
      rw [hg] at h1; cases h1
      exact ⟨j, g', set_get hg, ((hd n _).2 f rfl).2 h2⟩
    · exact ⟨j, x, set_other hj h1, h2⟩

/-- A goroutine is started which owes a message to channel `c`. -/
theorem book_share {i : Nat} {n : Tree H} {d : Duty} {c j : Nat} {fs : List (Tree H × Duty)} {es es' es'' : List Nat} (hi : Book s gs cn) (hg : gs[i]? = some ⟨n, d, some (c, j), fs, es⟩)
    (hth : s'.threads.length = s.threads.length + 1) (hch : s'.chans = s.chans) (hfl : s'.flights = s.flights) :
    Book s' (gs.set i ⟨n, d, some (c, j + 1), fs, es'⟩ ++ [⟨n, .chan c, none, [], es''⟩]) cn := by
  obtain ⟨hcn, hle⟩ := hi.credit i _ c j hg rfl
  have hcnt : ∀ c', cnt c' (⟨n, d, some (c, j + 1), fs, es'⟩ : Ghost H) = cnt c' (⟨n, d, some (c, j), fs, es⟩ : Ghost H) := fun _ => rfl
  have ho : ∀ c', owed c' (gs.set i ⟨n, d, some (c, j + 1), fs, es'⟩ ++ [⟨n, .chan c, none, [], es''⟩]) = owed c' gs + cnt c' (⟨n, .chan c, none, [], es''⟩ : Ghost H) := by
    intro c'
    have := owed_set (c := c') (g' := ⟨n, d, some (c, j + 1), fs, es'⟩) gs i hg
    rw [hcnt] at this
    rw [owed_append]
    simp only [owed]
    omega
  refine ⟨by rw [hth]; simp [hi.len], by rw [hch]; exact hi.clen, ?_, ?_, ?_, ?_, ?_⟩
  · intro i' x c' j' hx hcr
    rcases get_add hx with ⟨_, rfl⟩ | hx
    · cases hcr
    · rcases get_set hx with ⟨rfl, rfl⟩ | ⟨hj, hx⟩
      · cases hcr
        refine ⟨hcn, fun l hl => ?_⟩
        rw [hch] at hl
        have := hle l hl
        rw [ho]
        have : cnt c (⟨n, .chan c, none, [], es''⟩ : Ghost H) = 1 := by simp [cnt, Ghost.duties, isChan]
        omega
      · obtain ⟨h4, h5⟩ := hi.credit i' x c' j' hx hcr
        refine ⟨h4, fun l hl => ?_⟩
        rw [hch] at hl
        have := h5 l hl
        rw [ho]
        omega
  · intro i1 i2 x1 x2 c' j1 j2 hx1 hx2 hc1 hc2
    have key : ∀ (i' : Nat) (x : Ghost H) (j' : Nat), (gs.set i ⟨n, d, some (c, j + 1), fs, es'⟩ ++ [⟨n, .chan c, none, [], es''⟩])[i']? = some x → x.cr = some (c', j') →
        ∃ x' j'', gs[i']? = some x' ∧ x'.cr = some (c', j'') := by
      intro i' x j' hx hcr
      rcases get_add hx with ⟨_, rfl⟩ | hx
      · cases hcr
      · rcases get_set hx with ⟨rfl, rfl⟩ | ⟨hj, hx⟩
        · cases hcr; exact ⟨_, _, hg, rfl⟩
        · exact ⟨x, j', hx, hcr⟩
    obtain ⟨y1, k1, h4, h5⟩ := key i1 x1 j1 hx1 hc1
    obtain ⟨y2, k2, h6, h7⟩ := key i2 x2 j2 hx2 hc2
    exact hi.alone i1 i2 y1 y2 c' k1 k2 h4 h6 h5 h7
  · intro i' x n' c' hx hm
    rcases get_add hx with ⟨_, rfl⟩ | hx
    · cases List.mem_singleton.1 hm; exact hcn
    · rcases get_set hx with ⟨rfl, rfl⟩ | ⟨hj, hx⟩
      · exact hi.sends i' _ n' c' hg hm
      · exact hi.sends i' x n' c' hx hm
  · intro i' x n' f hx hm
    rcases get_add hx with ⟨_, rfl⟩ | hx
    · cases List.mem_singleton.1 hm
    · rcases get_set hx with ⟨rfl, rfl⟩ | ⟨hj, hx⟩
      · rw [hfl]; exact hi.lands i' _ n' f hg hm
      · rw [hfl]; exact hi.lands i' x n' f hx hm
  · intro f n' hf
    rw [hfl] at hf
    obtain ⟨i', x, hx, hm⟩ := hi.flown f n' hf
    by_cases hj : i' = i
    · subst hj
      rw [hg] at hx; cases hx
      exact ⟨i', _, add_get (set_get hg), hm⟩
    · exact ⟨i', x, add_get (set_other hj hx), hm⟩

/-- A goroutine is started which owes nothing. -/
theorem book_start {n : Tree H} {es : List Nat} (hi : Book s gs cn) (hth : s'.threads.length = s.threads.length + 1) (hch : s'.chans = s.chans) (hfl : s'.flights = s.flights) :
    Book s' (gs ++ [⟨n, .nothing, none, [], es⟩]) cn := by
  have ho : ∀ c', owed c' (gs ++ [⟨n, .nothing, none, [], es⟩]) = owed c' gs := by
    intro c'
    rw [owed_append]
    simp [owed, cnt, Ghost.duties, isChan]
  refine ⟨by rw [hth]; simp [hi.len], by rw [hch]; exact hi.clen, ?_, ?_, ?_, ?_, ?_⟩
  · intro i' x c' j' hx hcr
    rw [ho]
    rcases get_add hx with ⟨_, rfl⟩ | hx
    · cases hcr
    · rw [hch]; exact hi.credit i' x c' j' hx hcr
  · intro i1 i2 x1 x2 c' j1 j2 hx1 hx2 hc1 hc2
    rcases get_add hx1 with ⟨_, rfl⟩ | hx1
    · cases hc1
    · rcases get_add hx2 with ⟨_, rfl⟩ | hx2
      · cases hc2
      · exact hi.alone i1 i2 x1 x2 c' j1 j2 hx1 hx2 hc1 hc2
  · intro i' x n' c' hx hm
    rcases get_add hx with ⟨_, rfl⟩ | hx
    · cases List.mem_singleton.1 hm
    · exact hi.sends i' x n' c' hx hm
  · intro i' x n' f hx hm
    rcases get_add hx with ⟨_, rfl⟩ | hx
    · cases List.mem_singleton.1 hm
    · rw [hfl]; exact hi.lands i' x n' f hx hm
  · intro f n' hf
    rw [hfl] at hf
    obtain ⟨i', x, hx, hm⟩ := hi.flown f n' hf
    exact ⟨i', x, add_get hx, hm⟩

/-- A channel is made. -/
theorem book_chan {i : Nat} {n : Tree H} {fs : List (Tree H × Duty)} {es es' : List Nat} (hi : Book s gs cn) (hg : gs[i]? = some ⟨n, .nothing, none, fs, es⟩)
    (hth : s'.threads.length = s.threads.length) (hch : s'.chans = s.chans ++ [[]]) (hfl : s'.flights = s.flights) :
    Book s' (gs.set i ⟨n, .nothing, some (s.chans.length, 0), fs, es'⟩) (cn ++ [n]) := by
  have ho : ∀ c', owed c' (gs.set i ⟨n, .nothing, some (s.chans.length, 0), fs, es'⟩) = owed c' gs := by
    intro c'
    have := owed_set (c := c') (g' := ⟨n, .nothing, some (s.chans.length, 0), fs, es'⟩) gs i hg
    have : cnt c' (⟨n, .nothing, some (s.chans.length, 0), fs, es'⟩ : Ghost H) = cnt c' (⟨n, .nothing, none, fs, es⟩ : Ghost H) := rfl
    omega
  refine ⟨by rw [hth, List.length_set]; exact hi.len, by rw [hch]; simp [hi.clen], ?_, ?_, ?_, ?_, ?_⟩
  · intro i' x c' j' hx hcr
    rw [ho]
    rcases get_set hx with ⟨rfl, rfl⟩ | ⟨hj, hx⟩
    · cases hcr
      refine ⟨?_, fun l hl => Nat.zero_le _⟩
      rw [← hi.clen]; simp
    · obtain ⟨h4, h5⟩ := hi.credit i' x c' j' hx hcr
      refine ⟨add_get h4, fun l hl => ?_⟩
      have hlt := (List.getElem?_eq_some_iff.1 h4).1
      rw [hi.clen] at hlt
      refine h5 l ?_
      rw [hch] at hl
      rwa [List.getElem?_append_left hlt] at hl
  · intro i1 i2 x1 x2 c' j1 j2 hx1 hx2 hc1 hc2
    have old : ∀ (i' : Nat) (x : Ghost H) (j' : Nat), gs[i']? = some x → x.cr = some (c', j') → c' < s.chans.length := by
      intro i' x j' hx hcr
      rw [← hi.clen]
      exact (List.getElem?_eq_some_iff.1 (hi.credit i' x c' j' hx hcr).1).1
    rcases get_set hx1 with ⟨rfl, rfl⟩ | ⟨hj1, hy1⟩
    · rcases get_set hx2 with ⟨rfl, rfl⟩ | ⟨hj2, hy2⟩
      · rfl
      · cases hc1
        exact absurd (old i2 x2 j2 hy2 hc2) (Nat.lt_irrefl _)
    · rcases get_set hx2 with ⟨rfl, rfl⟩ | ⟨hj2, hy2⟩
      · cases hc2
        exact absurd (old i1 x1 j1 hy1 hc1) (Nat.lt_irrefl _)
      · exact hi.alone i1 i2 x1 x2 c' j1 j2 hy1 hy2 hc1 hc2
  · intro i' x n' c' hx hm
    rcases get_set hx with ⟨rfl, rfl⟩ | ⟨hj, hx⟩
    · exact add_get (hi.sends i' _ n' c' hg hm)
    · exact add_get (hi.sends i' x n' c' hx hm)
  · intro i' x n' f hx hm
    rcases get_set hx with ⟨rfl, rfl⟩ | ⟨hj, hx⟩
    · rw [hfl]; exact hi.lands i' _ n' f hg hm
    · rw [hfl]; exact hi.lands i' x n' f hx hm
  · intro f n' hf
    rw [hfl] at hf
    obtain ⟨i', x, hx, hm⟩ := hi.flown f n' hf
    by_cases hj : i' = i
    · subst hj
      rw [hg] at hx; cases hx
      exact ⟨i', _, set_get hg, hm⟩
    · exact ⟨i', x, set_other hj hx, hm⟩

/-- A message is sent. -/
theorem book_send {i : Nat} {n : Tree H} {c : Nat} {cr : Option (Nat × Nat)} {fs : List (Tree H × Duty)} {es es' : List Nat} {l : List (Option Ptr)} {r : Option Ptr} (hi : Book s gs cn)
    (hg : gs[i]? = some ⟨n, .chan c, cr, fs, es⟩) (hc : s.chans[c]? = some l) (hth : s'.threads.length = s.threads.length) (hch : s'.chans = s.chans.set c (l ++ [r])) (hfl : s'.flights = s.flights) :
    Book s' (gs.set i ⟨n, .nothing, cr, fs, es'⟩) cn := by
  have ho : ∀ c', owed c' (gs.set i ⟨n, .nothing, cr, fs, es'⟩) + (if c = c' then 1 else 0) = owed c' gs := by
    intro c'
    have := owed_set (c := c') (g' := ⟨n, .nothing, cr, fs, es'⟩) gs i hg
    have h3 : cnt c' (⟨n, .chan c, cr, fs, es⟩ : Ghost H) = cnt c' (⟨n, .nothing, cr, fs, es'⟩ : Ghost H) + (if c = c' then 1 else 0) := by
      simp [cnt, Ghost.duties, isChan, List.countP_cons]
    omega
  refine ⟨by rw [hth, List.length_set]; exact hi.len, by rw [hch, List.length_set]; exact hi.clen, ?_, ?_, ?_, ?_, ?_⟩
  · intro i' x c' j' hx hcr
    have key : ∃ x', gs[i']? = some x' ∧ x'.cr = some (c', j') ∧ x'.node = x.node := by
      rcases get_set hx with ⟨rfl, rfl⟩ | ⟨hj, hx⟩
      · exact ⟨_, hg, hcr, rfl⟩
      · exact ⟨x, hx, hcr, rfl⟩
    obtain ⟨x', h4, h5, h6⟩ := key
    obtain ⟨h7, h8⟩ := hi.credit i' x' c' j' h4 h5
    refine ⟨by rw [← h6]; exact h7, fun l' hl => ?_⟩
    rw [hch] at hl
    have ho := ho c'
    rcases get_set hl with ⟨rfl, rfl⟩ | ⟨hj, hl⟩
    · have := h8 l hc
      rw [if_pos rfl] at ho
      simp only [List.length_append, List.length_cons, List.length_nil]
      omega
    · have := h8 l' hl
      rw [if_neg (fun hcc => hj hcc.symm)] at ho
      omega
  · intro i1 i2 x1 x2 c' j1 j2 hx1 hx2 hc1 hc2
    have key : ∀ (i' : Nat) (x : Ghost H), (gs.set i ⟨n, .nothing, cr, fs, es'⟩)[i']? = some x → ∃ x', gs[i']? = some x' ∧ x'.cr = x.cr := by
      intro i' x hx
      rcases get_set hx with ⟨rfl, rfl⟩ | ⟨hj, hx⟩
      · exact ⟨_, hg, rfl⟩
      · exact ⟨x, hx, rfl⟩
    obtain ⟨y1, h4, h5⟩ := key i1 x1 hx1
    obtain ⟨y2, h6, h7⟩ := key i2 x2 hx2
    exact hi.alone i1 i2 y1 y2 c' j1 j2 h4 h6 (by rw [h5]; exact hc1) (by rw [h7]; exact hc2)
  · intro i' x n' c' hx hm
    rcases get_set hx with ⟨rfl, rfl⟩ | ⟨hj, hx⟩
    · rcases List.mem_cons.1 hm with hm | hm
      · cases hm
      · exact hi.sends i' _ n' c' hg (List.mem_cons_of_mem _ hm)
    · exact hi.sends i' x n' c' hx hm
  · intro i' x n' f hx hm
    rw [hfl]
    rcases get_set hx with ⟨rfl, rfl⟩ | ⟨hj, hx⟩
    · rcases List.mem_cons.1 hm with hm | hm
      · cases hm
      · exact hi.lands i' _ n' f hg (List.mem_cons_of_mem _ hm)
    · exact hi.lands i' x n' f hx hm
  · intro f n' hf
    rw [hfl] at hf
    obtain ⟨i', x, hx, hm⟩ := hi.flown f n' hf
    by_cases hj : i' = i
    · subst hj
      rw [hg] at hx; cases hx
      refine ⟨i', _, set_get hg, ?_⟩
      rcases List.mem_cons.1 hm with hm | hm
      · cases hm
      · exact List.mem_cons_of_mem _ hm
    · exact ⟨i', x, set_other hj hx, hm⟩

/-- A message is received. -/
theorem book_recv {i : Nat} {n : Tree H} {c j : Nat} {fs : List (Tree H × Duty)} {es es' : List Nat} {l : List (Option Ptr)} {r : Option Ptr} (hi : Book s gs cn)
    (hg : gs[i]? = some ⟨n, .nothing, some (c, j + 1), fs, es⟩) (hc : s.chans[c]? = some (r :: l)) (hth : s'.threads.length = s.threads.length) (hch : s'.chans = s.chans.set c l) (hfl : s'.flights = s.flights) :
    Book s' (gs.set i ⟨n, .nothing, some (c, j), fs, es'⟩) cn := by
  have ho : ∀ c', owed c' (gs.set i ⟨n, .nothing, some (c, j), fs, es'⟩) = owed c' gs := by
    intro c'
    have := owed_set (c := c') (g' := ⟨n, .nothing, some (c, j), fs, es'⟩) gs i hg
    have : cnt c' (⟨n, .nothing, some (c, j), fs, es'⟩ : Ghost H) = cnt c' (⟨n, .nothing, some (c, j + 1), fs, es⟩ : Ghost H) := rfl
    omega
  obtain ⟨hcn, hle⟩ := hi.credit i _ c (j + 1) hg rfl
  refine ⟨by rw [hth, List.length_set]; exact hi.len, by rw [hch, List.length_set]; exact hi.clen, ?_, ?_, ?_, ?_, ?_⟩
  · intro i' x c' j' hx hcr
    rw [ho]
    rcases get_set hx with ⟨rfl, rfl⟩ | ⟨hj, hx⟩
    · cases hcr
      refine ⟨hcn, fun l' hl => ?_⟩
      rw [hch] at hl
      have := hle _ hc
      rcases get_set hl with ⟨_, rfl⟩ | ⟨hj, _⟩
      · simp only [List.length_cons] at this
        omega
      · exact absurd rfl hj
    · have hy := hx
      obtain ⟨h4, h5⟩ := hi.credit i' x c' j' hx hcr
      refine ⟨h4, fun l' hl => ?_⟩
      rw [hch] at hl
      rcases get_set hl with ⟨rfl, rfl⟩ | ⟨_, hl⟩
      · exact absurd (hi.alone i' i x _ c' j' (j + 1) hy hg hcr rfl) hj
      · exact h5 l' hl
  · intro i1 i2 x1 x2 c' j1 j2 hx1 hx2 hc1 hc2
    have key : ∀ (i' : Nat) (x : Ghost H) (j' : Nat), (gs.set i ⟨n, .nothing, some (c, j), fs, es'⟩)[i']? = some x → x.cr = some (c', j') → ∃ x' j'', gs[i']? = some x' ∧ x'.cr = some (c', j'') := by
      intro i' x j' hx hcr
      rcases get_set hx with ⟨rfl, rfl⟩ | ⟨hj, hx⟩
      · cases hcr; exact ⟨_, _, hg, rfl⟩
      · exact ⟨x, j', hx, hcr⟩
    obtain ⟨y1, k1, h4, h5⟩ := key i1 x1 j1 hx1 hc1
    obtain ⟨y2, k2, h6, h7⟩ := key i2 x2 j2 hx2 hc2
    exact hi.alone i1 i2 y1 y2 c' k1 k2 h4 h6 h5 h7
  · intro i' x n' c' hx hm
    rcases get_set hx with ⟨rfl, rfl⟩ | ⟨hj, hx⟩
    · exact hi.sends i' _ n' c' hg hm
    · exact hi.sends i' x n' c' hx hm
  · intro i' x n' f hx hm
    rw [hfl]
    rcases get_set hx with ⟨rfl, rfl⟩ | ⟨hj, hx⟩
    · exact hi.lands i' _ n' f hg hm
    · exact hi.lands i' x n' f hx hm
  · intro f n' hf
    rw [hfl] at hf
    obtain ⟨i', x, hx, hm⟩ := hi.flown f n' hf
    by_cases hj : i' = i
    · subst hj
      rw [hg] at hx; cases hx
      exact ⟨i', _, set_get hg, hm⟩
    · exact ⟨i', x, set_other hj hx, hm⟩

/-- A request is begun. -/
theorem book_lead {i : Nat} {t : Tree H} {cr : Option (Nat × Nat)} {fs : List (Tree H × Duty)} {es es' : List Nat} (hi : Book s gs cn)
    (hg : gs[i]? = some ⟨t, .nothing, cr, fs, es⟩) (hth : s'.threads.length = s.threads.length) (hch : s'.chans = s.chans) (hfl : s'.flights = s.flights ++ [(t, none)]) :
    Book s' (gs.set i ⟨t, .flight s.flights.length, cr, fs, es'⟩) cn := by
  have ho : ∀ c', owed c' (gs.set i ⟨t, .flight s.flights.length, cr, fs, es'⟩) = owed c' gs := by
    intro c'
    have := owed_set (c := c') (g' := ⟨t, .flight s.flights.length, cr, fs, es'⟩) gs i hg
    have : cnt c' (⟨t, .flight s.flights.length, cr, fs, es'⟩ : Ghost H) = cnt c' (⟨t, .nothing, cr, fs, es⟩ : Ghost H) := by simp [cnt, Ghost.duties, isChan]
    omega
  refine ⟨by rw [hth, List.length_set]; exact hi.len, by rw [hch]; exact hi.clen, ?_, ?_, ?_, ?_, ?_⟩
  · intro i' x c' j' hx hcr
    rw [ho, hch]
    rcases get_set hx with ⟨rfl, rfl⟩ | ⟨hj, hx⟩
    · have := hi.credit i' _ c' j' hg hcr
      exact this
    · exact hi.credit i' x c' j' hx hcr
  · intro i1 i2 x1 x2 c' j1 j2 hx1 hx2 hc1 hc2
    have key : ∀ (i' : Nat) (x : Ghost H), (gs.set i ⟨t, .flight s.flights.length, cr, fs, es'⟩)[i']? = some x → ∃ x', gs[i']? = some x' ∧ x'.cr = x.cr := by
      intro i' x hx
      rcases get_set hx with ⟨rfl, rfl⟩ | ⟨hj, hx⟩
      · exact ⟨_, hg, rfl⟩
      · exact ⟨x, hx, rfl⟩
    obtain ⟨y1, h4, h5⟩ := key i1 x1 hx1
    obtain ⟨y2, h6, h7⟩ := key i2 x2 hx2
    exact hi.alone i1 i2 y1 y2 c' j1 j2 h4 h6 (by rw [h5]; exact hc1) (by rw [h7]; exact hc2)
  · intro i' x n' c' hx hm
    rcases get_set hx with ⟨rfl, rfl⟩ | ⟨hj, hx⟩
    · rcases List.mem_cons.1 hm with hm | hm
      · cases hm
      · exact hi.sends i' _ n' c' hg (List.mem_cons_of_mem _ hm)
    · exact hi.sends i' x n' c' hx hm
  · intro i' x n' f hx hm
    rw [hfl]
    rcases get_set hx with ⟨rfl, rfl⟩ | ⟨hj, hx⟩
    · rcases List.mem_cons.1 hm with hm | hm
      · cases hm
        exact ⟨none, by simp⟩
      · obtain ⟨o, ho⟩ := hi.lands i' _ n' f hg (List.mem_cons_of_mem _ hm)
        exact ⟨o, add_get ho⟩
    · obtain ⟨o, ho⟩ := hi.lands i' x n' f hx hm
      exact ⟨o, add_get ho⟩
  · intro f n' hf
    rw [hfl] at hf
    rcases get_add hf with ⟨rfl, hn⟩ | hf
    · cases hn
      exact ⟨i, _, set_get hg, List.mem_cons_self ..⟩
    · obtain ⟨i', x, hx, hm⟩ := hi.flown f n' hf
      by_cases hj : i' = i
      · subst hj
        rw [hg] at hx; cases hx
        refine ⟨i', _, set_get hg, ?_⟩
        rcases List.mem_cons.1 hm with hm | hm
        · cases hm
        · exact List.mem_cons_of_mem _ hm
      · exact ⟨i', x, set_other hj hx, hm⟩

/-- Requests that elements like `n` have begun -/
def Begun (fl : List (Tree H × Option (Option Ptr))) (n : Tree H) (f : Nat) : Prop := ∃ o, fl[f]? = some (n, o)

/-- A request is answered. -/
theorem book_land {i : Nat} {n t : Tree H} {f : Nat} {cr : Option (Nat × Nat)} {fs : List (Tree H × Duty)} {es es' : List Nat} {o : Option (Option Ptr)} {r : Option Ptr} (hi : Book s gs cn)
    (hg : gs[i]? = some ⟨n, .flight f, cr, fs, es⟩) (hf : s.flights[f]? = some (t, o)) (hth : s'.threads.length = s.threads.length) (hch : s'.chans = s.chans)
    (hfl : s'.flights = s.flights.set f (t, some r)) : Book s' (gs.set i ⟨n, .nothing, cr, fs, es'⟩) cn := by
  have hm : ∀ n f', Begun s.flights n f' → Begun (s.flights.set f (t, some r)) n f' := by
    rintro n f' ⟨o', ho'⟩
    by_cases hff : f' = f
    · subst hff
      rw [hf] at ho'
      cases ho'
      exact ⟨some r, set_get hf⟩
    · exact ⟨o', set_other hff ho'⟩
  have ho : ∀ c', owed c' (gs.set i ⟨n, .nothing, cr, fs, es'⟩) = owed c' gs := by
    intro c'
    have := owed_set (c := c') (g' := ⟨n, .nothing, cr, fs, es'⟩) gs i hg
    have : cnt c' (⟨n, .flight f, cr, fs, es⟩ : Ghost H) = cnt c' (⟨n, .nothing, cr, fs, es'⟩ : Ghost H) := by simp [cnt, Ghost.duties, isChan]
    omega
  refine ⟨by rw [hth, List.length_set]; exact hi.len, by rw [hch]; exact hi.clen, ?_, ?_, ?_, ?_, ?_⟩
  · intro i' x c' j' hx hcr
    rw [ho, hch]
    rcases get_set hx with ⟨rfl, rfl⟩ | ⟨hj, hx⟩
    · have := hi.credit i' _ c' j' hg hcr
      exact this
    · exact hi.credit i' x c' j' hx hcr
  · intro i1 i2 x1 x2 c' j1 j2 hx1 hx2 hc1 hc2
    have key : ∀ (i' : Nat) (x : Ghost H), (gs.set i ⟨n, .nothing, cr, fs, es'⟩)[i']? = some x → ∃ x', gs[i']? = some x' ∧ x'.cr = x.cr := by
      intro i' x hx
      rcases get_set hx with ⟨rfl, rfl⟩ | ⟨hj, hx⟩
      · exact ⟨_, hg, rfl⟩
      · exact ⟨x, hx, rfl⟩
    obtain ⟨y1, h4, h5⟩ := key i1 x1 hx1
    obtain ⟨y2, h6, h7⟩ := key i2 x2 hx2
    exact hi.alone i1 i2 y1 y2 c' j1 j2 h4 h6 (by rw [h5]; exact hc1) (by rw [h7]; exact hc2)
  · intro i' x n' c' hx hm
    rcases get_set hx with ⟨rfl, rfl⟩ | ⟨hj, hx⟩
    · rcases List.mem_cons.1 hm with hm | hm
      · cases hm
      · exact hi.sends i' _ n' c' hg (List.mem_cons_of_mem _ hm)
    · exact hi.sends i' x n' c' hx hm
  · intro i' x n' f' hx hm'
    have : Begun s.flights n' f' := by
      rcases get_set hx with ⟨rfl, rfl⟩ | ⟨hj, hx⟩
      · rcases List.mem_cons.1 hm' with hm' | hm'
        · cases hm'
        · exact hi.lands i' _ n' f' hg (List.mem_cons_of_mem _ hm')
      · exact hi.lands i' x n' f' hx hm'
    rw [hfl]
    exact hm n' f' this
  · intro f' n' hf'
    rw [hfl] at hf'
    rcases get_set hf' with ⟨_, hn⟩ | ⟨hff, hf'⟩
    · cases hn
    · obtain ⟨i', x, hx, hm⟩ := hi.flown f' n' hf'
      by_cases hj : i' = i
      · subst hj
        rw [hg] at hx; cases hx
        refine ⟨i', _, set_get hg, ?_⟩
        rcases List.mem_cons.1 hm with hm | hm
        · cases hm; exact absurd rfl hff
        · exact List.mem_cons_of_mem _ hm
      · exact ⟨i', x, set_other hj hx, hm⟩

/-- At first nobody owes anything. -/
theorem book_init (gs : List (Ghost H)) (hth : gs.length = s.threads.length) (hch : s.chans = []) (hfl : s.flights = [])
    (hg : ∀ (i : Nat) (g : Ghost H), gs[i]? = some g → g.cr = none ∧ ∃ n, g.duties = [(n, .nothing)]) : Book s gs [] := by
  refine ⟨hth, by rw [hch]; rfl, ?_, ?_, ?_, ?_, ?_⟩
  · intro i g c j h1 h2
    rw [(hg i g h1).1] at h2; cases h2
  · intro i i' g g' c j j' h1 _ h2
    rw [(hg i g h1).1] at h2; cases h2
  · intro i g n c h1 h2
    obtain ⟨_, n, h⟩ := hg i g h1
    rw [h] at h2
    cases List.mem_singleton.1 h2
  · intro i g n c h1 h2
    obtain ⟨_, n, h⟩ := hg i g h1
    rw [h] at h2
    cases List.mem_singleton.1 h2
  · intro f n h
    rw [hfl] at h; cases h

end

theorem within_child {c m n : Tree H} (h : Within c m) (hn : Child m n) : Within c n := by
  induction h with
  | self => exact .deeper hn .self
  | deeper a _ ih => exact .deeper a (ih hn)

end Verif.Lemmas.SharedGhost
