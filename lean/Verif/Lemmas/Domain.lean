/-
The heap of the domain list (C28): what paths lead somewhere, and how insertion of a rule changes that.
-/
import Verif.Model.Domain
set_option linter.unusedVariables false
set_option linter.unusedSimpArgs false
namespace Verif.DomainL
open Verif Verif.Domain

theorem get_put (h : Heap) (n m : Nat) (k x : Str) (r : Ref) (hn : n < h.length) :
    get (put h n k r) m x = if m = n then (if x = k then some r else get h n x) else get h m x := by
  have hf : ∀ l : Map, x ≠ k → (l.filter fun e => e.1 ≠ k).lookup x = l.lookup x := by
    intro l hx
    induction l with
    | nil => rfl
    | cons e l ih =>
      by_cases he : e.1 = k
      · rw [List.filter_cons_of_neg (by simp [he]), ih, List.lookup_cons]
        have : (x == e.1) = false := by rw [he]; simp [hx]
        rw [this]
      · rw [List.filter_cons_of_pos (by simp [he]), List.lookup_cons, List.lookup_cons, ih]
  unfold Domain.get put
  simp only [List.getD_eq_getElem?_getD, List.getElem?_set]
  by_cases hm : m = n
  · subst hm
    simp only [if_true, hn, Option.getD_some, List.lookup_cons]
    by_cases hx : x = k
    · simp [hx]
    · have : (x == k) = false := by simp [hx]
      rw [this, if_neg hx]
      exact hf _ hx
  · rw [if_neg (fun e => hm e.symm), if_neg hm]

theorem get_alloc (h : Heap) (c : Map) (m : Nat) (x : Str) : get (alloc h c) m x = if m = h.length then c.lookup x else get h m x := by
  unfold Domain.get alloc
  simp only [List.getD_eq_getElem?_getD]
  rcases Nat.lt_trichotomy m h.length with hl | hl | hl
  · rw [List.getElem?_append_left hl, if_neg (by omega)]
  · subst hl; simp
  · rw [if_neg (by omega), List.getElem?_eq_none (by simp; omega), List.getElem?_eq_none (by omega)]

theorem get_none_of_ge (h : Heap) (m : Nat) (x : Str) (hm : h.length ≤ m) : get h m x = none := by
  unfold Domain.get
  rw [List.getD_eq_getElem?_getD, List.getElem?_eq_none hm]; rfl

/-- where a path leads -/
def follow (h : Heap) : Ref → List Str → Option Ref
  | r, [] => some r
  | none, _ :: _ => none
  | some a, k :: ks => match get h a k with
    | none => none
    | some r => follow h r ks

theorem follow_append (h : Heap) : ∀ (x : List Str) (r : Ref) (y : List Str), follow h r (x ++ y) = (follow h r x).bind fun s => follow h s y
  | [], r, y => by simp [follow]
  | k :: x, none, y => by simp [follow]
  | k :: x, some a, y => by
    simp only [List.cons_append, follow]
    cases get h a k with
    | none => rfl
    | some s => exact follow_append h x s y

theorem follow_congr (h h' : Heap) : ∀ (x : List Str) (r : Ref),
    (∀ y l z a, x = y ++ l :: z → follow h r y = some (some a) → get h' a l = get h a l) → follow h' r x = follow h r x
  | [], r, _ => by simp [follow]
  | k :: x, none, _ => by simp [follow]
  | k :: x, some a, hc => by
    have h0 := hc [] k x a rfl rfl
    simp only [follow, h0]
    cases hg : get h a k with
    | none => rfl
    | some s =>
      refine follow_congr h h' x s ?_
      intro y l z b hx hb
      exact hc (k :: y) l z b (by rw [hx]; rfl) (by simp only [follow, hg]; exact hb)

/-- the path exists -/
def A (h : Heap) (x : List Str) : Prop := (follow h (some root) x).isSome

def leaf (P : List Str → Prop) (x : List Str) : Prop := ∀ k, ¬ P (x ++ [k])

theorem A_prefix (h : Heap) (x y : List Str) (hx : A h (x ++ y)) : A h x := by
  unfold A at hx ⊢
  rw [follow_append] at hx
  cases hf : follow h (some root) x with
  | none => rw [hf] at hx; exact hx
  | some r => rfl

theorem A_nil (h : Heap) : A h [] := rfl

/-- the maps form a tree, apart from the two shared ones; only map `cur` may be empty -/
structure Inv (h : Heap) (cur : Nat) : Prop where
  len : 3 ≤ h.length
  dot : h[1]? = some [(emptyLabel, none)]
  star : h[2]? = some [(starLabel, none)]
  tree : ∀ p q a, follow h (some root) p = some (some a) → follow h (some root) q = some (some a) → a ≠ dotNode → a ≠ starNode → p = q
  valid : ∀ p a, follow h (some root) p = some (some a) → a < h.length
  full : ∀ p a, follow h (some root) p = some (some a) → a ≠ cur → h.getD a [] ≠ []
  key : ∀ p a v, follow h (some root) p = some (some a) → get h a exactKey = some v → v = none

theorem inv_initial : Inv initial root := by
  have hf : ∀ p a, follow initial (some root) p = some (some a) → p = [] ∧ a = 0 := by
    intro p a h
    cases p with
    | nil => simp only [follow, Option.some.injEq] at h; exact ⟨rfl, h.symm⟩
    | cons k ks => simp [follow, Domain.get, initial, root] at h
  refine ⟨by decide, rfl, rfl, ?_, ?_, ?_, ?_⟩
  · intro p q a h1 h2 _ _
    rw [(hf p a h1).1, (hf q a h2).1]
  · intro p a h1
    rw [(hf p a h1).2]; decide
  · intro p a h1 h2
    exact absurd (hf p a h1).2 h2
  · intro p a v h1 h2
    rw [(hf p a h1).2] at h2
    simp [Domain.get, initial] at h2

theorem get_dot (h : Heap) (c : Nat) (hi : Inv h c) (x : Str) : get h 1 x = if x = emptyLabel then some none else none := by
  unfold Domain.get
  rw [List.getD_eq_getElem?_getD, hi.dot]
  simp only [Option.getD_some, List.lookup_cons, List.lookup_nil]
  by_cases hx : x = emptyLabel
  · simp [hx]
  · have : (x == emptyLabel) = false := by simp [hx]
    rw [this, if_neg hx]

theorem get_star (h : Heap) (c : Nat) (hi : Inv h c) (x : Str) : get h 2 x = if x = starLabel then some none else none := by
  unfold Domain.get
  rw [List.getD_eq_getElem?_getD, hi.star]
  simp only [Option.getD_some, List.lookup_cons, List.lookup_nil]
  by_cases hx : x = starLabel
  · simp [hx]
  · have : (x == starLabel) = false := by simp [hx]
    rw [this, if_neg hx]

/-- paths that do not go through the changed entry lead where they did -/
theorem follow_put_other (h : Heap) (c n : Nat) (k : Str) (r : Ref) (p : List Str) (hi : Inv h c)
    (hp : follow h (some root) p = some (some n)) (h1 : n ≠ dotNode) (h2 : n ≠ starNode) (x : List Str) (hx : ¬ p ++ [k] <+: x) :
    follow (put h n k r) (some root) x = follow h (some root) x := by
  have hn := hi.valid p n hp
  apply follow_congr
  intro y l z a hxe hy
  rw [get_put h n a k l r hn]
  by_cases ha : a = n
  · subst ha
    rw [if_pos rfl, if_neg]
    intro hl
    subst hl
    have := hi.tree y p a hy hp h1 h2
    subst this
    exact hx ⟨z, by rw [hxe]; simp⟩
  · rw [if_neg ha]

theorem follow_put_through (h : Heap) (c n : Nat) (k : Str) (r : Ref) (p : List Str) (hi : Inv h c)
    (hp : follow h (some root) p = some (some n)) (h1 : n ≠ dotNode) (h2 : n ≠ starNode) (y : List Str) :
    follow (put h n k r) (some root) (p ++ k :: y) = follow (put h n k r) r y := by
  rw [follow_append, follow_put_other h c n k r p hi hp h1 h2 p (by
    intro hx; have := hx.length_le; simp at this; omega), hp]
  simp only [Option.bind_some, follow]
  rw [get_put h n n k k r (hi.valid p n hp)]
  simp

/-- a new map changes no path -/
theorem follow_alloc (h : Heap) (c : Nat) (m : Map) (hi : Inv h c) (x : List Str) :
    follow (alloc h m) (some root) x = follow h (some root) x := by
  apply follow_congr
  intro y l z a _ hy
  rw [get_alloc, if_neg (Nat.ne_of_lt (hi.valid y a hy))]

theorem inv_alloc (h : Heap) (c : Nat) (m : Map) (hi : Inv h c) : Inv (alloc h m) c := by
  have hf := follow_alloc h c m hi
  have hg : ∀ a, a < h.length → (alloc h m)[a]? = h[a]? := fun a ha => by unfold alloc; rw [List.getElem?_append_left ha]
  have hl := hi.len
  refine ⟨by unfold alloc; simp; omega, by rw [hg 1 (by omega)]; exact hi.dot, by rw [hg 2 (by omega)]; exact hi.star, ?_, ?_, ?_, ?_⟩
  · intro p q a h1 h2; rw [hf] at h1 h2; exact hi.tree p q a h1 h2
  · intro p a h1; rw [hf] at h1; have := hi.valid p a h1; unfold alloc; simp; omega
  · intro p a h1 h2
    rw [hf] at h1
    have hv := hi.valid p a h1
    have := hi.full p a h1 h2
    rw [List.getD_eq_getElem?_getD] at this ⊢
    rw [hg a hv]; exact this
  · intro p a v h1 h2
    rw [hf] at h1
    rw [get_alloc, if_neg (Nat.ne_of_lt (hi.valid p a h1))] at h2
    exact hi.key p a v h1 h2

/-- `r` is a map without maps below that are not shared: what the code ever stores -/
structure Fresh (h : Heap) (r : Ref) : Prop where
  below : ∀ y a, follow h r y = some (some a) → y = [] ∨ False
  self : ∀ a, r = some a → a = dotNode ∨ a = starNode ∨ (a < h.length ∧ ∀ p, follow h (some root) p ≠ some (some a))

/-- storing a reference under a key -/
theorem put_inv (h : Heap) (c c' n : Nat) (k : Str) (r : Ref) (p : List Str) (hi : Inv h c)
    (hp : follow h (some root) p = some (some n)) (h1 : n ≠ dotNode) (h2 : n ≠ starNode) (hr : Fresh h r)
    (hc : c = n ∨ c = c') (hk : k = exactKey → r = none)
    (hne : ∀ a, r = some a → a ≠ c' → h.getD a [] ≠ []) :
    Inv (put h n k r) c' ∧
    ∀ x, follow (put h n k r) (some root) x = if p ++ [k] <+: x then follow h r (x.drop (p.length + 1)) else follow h (some root) x := by
  have hn := hi.valid p n hp
  have hrn : ∀ a, r = some a → a ≠ n := by
    rintro a ra rfl
    rcases hr.self a ra with e | e | ⟨_, e⟩
    · exact h1 e
    · exact h2 e
    · exact e p hp
  have hrf : ∀ y, follow (put h n k r) r y = follow h r y := by
    intro y
    apply follow_congr
    intro z l w a _ hz
    rw [get_put h n a k l r hn, if_neg]
    rcases hr.below z a hz with e | e
    · subst e
      simp only [follow, Option.some.injEq] at hz
      exact hrn a hz
    · exact absurd e id
  have hfol : ∀ x, follow (put h n k r) (some root) x = if p ++ [k] <+: x then follow h r (x.drop (p.length + 1)) else follow h (some root) x := by
    intro x
    split
    · rename_i hx
      obtain ⟨y, rfl⟩ := hx
      rw [List.append_assoc, List.singleton_append, follow_put_through h c n k r p hi hp h1 h2, hrf]
      congr 1
      rw [List.drop_append]
      simp
    · rename_i hx
      exact follow_put_other h c n k r p hi hp h1 h2 x hx
  have hlen : (put h n k r).length = h.length := by unfold put; simp
  have hget : ∀ a, a ≠ n → (put h n k r)[a]? = h[a]? := by
    intro a ha; unfold put; rw [List.getElem?_set_ne (fun e => ha e.symm)]
  -- a new path to a map goes through the entry or is an old one
  have hcase : ∀ x a, follow (put h n k r) (some root) x = some (some a) → (x = p ++ [k] ∧ r = some a) ∨ (¬ p ++ [k] <+: x ∧ follow h (some root) x = some (some a)) := by
    intro x a hx
    rw [hfol] at hx
    split at hx
    · rename_i hpx
      rcases hr.below _ a hx with e | e
      · left
        obtain ⟨y, rfl⟩ := hpx
        rw [e] at hx
        simp only [follow, Option.some.injEq] at hx
        rw [List.drop_append] at e
        simp at e
        exact ⟨by simp [e], hx⟩
      · exact absurd e id
    · rename_i hpx; exact .inr ⟨hpx, hx⟩
  refine ⟨⟨by rw [hlen]; exact hi.len, by rw [hget 1 (fun e => h1 e.symm)]; exact hi.dot, by rw [hget 2 (fun e => h2 e.symm)]; exact hi.star, ?_, ?_, ?_, ?_⟩, hfol⟩
  · intro x y a hx hy d1 d2
    rcases hcase x a hx with ⟨ex, ra⟩ | ⟨nx, ox⟩ <;> rcases hcase y a hy with ⟨ey, rb⟩ | ⟨ny, oy⟩
    · rw [ex, ey]
    · rcases hr.self a ra with e | e | ⟨_, e⟩
      · exact absurd e d1
      · exact absurd e d2
      · exact absurd oy (e y)
    · rcases hr.self a rb with e | e | ⟨_, e⟩
      · exact absurd e d1
      · exact absurd e d2
      · exact absurd ox (e x)
    · exact hi.tree x y a ox oy d1 d2
  · intro x a hx
    rw [hlen]
    rcases hcase x a hx with ⟨ex, ra⟩ | ⟨nx, ox⟩
    · have := hi.len
      rcases hr.self a ra with e | e | ⟨e, _⟩
      · rw [e]; show 1 < _; omega
      · rw [e]; show 2 < _; omega
      · exact e
    · exact hi.valid x a ox
  · intro x a hx ha
    by_cases han : a = n
    · subst han
      unfold put
      rw [List.getD_eq_getElem?_getD, List.getElem?_set_self hn]
      simp
    · rw [List.getD_eq_getElem?_getD, hget a han, ← List.getD_eq_getElem?_getD]
      rcases hcase x a hx with ⟨ex, ra⟩ | ⟨nx, ox⟩
      · exact hne a ra ha
      · rcases hc with e | e
        · exact hi.full x a ox (by rw [e]; exact han)
        · exact hi.full x a ox (by rw [e]; exact ha)
  · intro x a v hx hv
    rw [get_put h n a k exactKey r hn] at hv
    by_cases han : a = n
    · subst han
      rw [if_pos rfl] at hv
      by_cases hke : exactKey = k
      · rw [if_pos hke] at hv
        rw [← Option.some.inj hv]
        exact hk hke.symm
      · rw [if_neg hke] at hv
        exact hi.key p a v hp hv
    · rw [if_neg han] at hv
      rcases hcase x a hx with ⟨ex, ra⟩ | ⟨nx, ox⟩
      · cases v with
        | none => rfl
        | some b =>
          have := hr.below [exactKey] b (by rw [ra]; simp [follow, hv])
          rcases this with e | e
          · exact absurd e (by simp)
          · exact absurd e id
      · exact hi.key x a v ox hv

/-! ### Insertion -/

/-- the paths that inserting `parts` below path `p` adds -/
def Added (P : List Str → Prop) (p : List Str) : List Str → List Str → Prop
  | [], _ => False
  | part :: rest, x =>
    x = p ++ [part] ∨
    (rest = [] ∧ x = p ++ [part, exactKey] ∧ P (p ++ [part]) ∧ ¬ leaf P (p ++ [part]) ∧ ¬ P (p ++ [part, emptyLabel])) ∨
    (rest ≠ [] ∧ x = p ++ [part, exactKey] ∧ P (p ++ [part]) ∧ leaf P (p ++ [part])) ∨
    Added P (p ++ [part]) rest x

theorem added_congr (P Q : List Str → Prop) : ∀ (parts p x : List Str), exactKey ∉ parts →
    (∀ y, p <+: y → y ≠ p → y ≠ p ++ [exactKey] → (P y ↔ Q y)) → (Added P p parts x ↔ Added Q p parts x)
  | [], p, x, _, _ => Iff.rfl
  | part :: rest, p, x, hk, h => by
    have hk1 : part ≠ exactKey := fun e => hk (by simp [e])
    have hk2 : exactKey ∉ rest := fun e => hk (by simp [e])
    have e1 : P (p ++ [part]) ↔ Q (p ++ [part]) := h _ ⟨[part], rfl⟩ (by simp) (by simp [hk1])
    have e2 : ∀ k, P (p ++ [part] ++ [k]) ↔ Q (p ++ [part] ++ [k]) := fun k => h _ ⟨[part, k], by simp⟩ (by simp) (by simp)
    have e3 : P (p ++ [part, emptyLabel]) ↔ Q (p ++ [part, emptyLabel]) := by simpa using e2 emptyLabel
    have e4 : leaf P (p ++ [part]) ↔ leaf Q (p ++ [part]) := by
      unfold leaf
      constructor
      · intro hl k hq; exact hl k ((e2 k).mpr hq)
      · intro hl k hq; exact hl k ((e2 k).mp hq)
    have ih := added_congr P Q rest (p ++ [part]) x hk2 (by
      intro y hy hne _
      obtain ⟨z, rfl⟩ := hy
      cases z with
      | nil => simp at hne
      | cons z zs => exact h _ ⟨part :: z :: zs, by simp⟩ (by simp) (by simp))
    simp only [Added, e1, e3, e4, ih]

theorem size_zero (h : Heap) (r : Ref) : size h r = 0 ↔ ∀ a, r = some a → ∀ k, get h a k = none := by
  cases r with
  | none => simp [size]
  | some a =>
    simp only [size, Option.some.injEq, forall_eq', Domain.get]
    constructor
    · intro hs k
      rw [List.length_eq_zero_iff.mp hs]; rfl
    · intro hk
      cases hl : h.getD a [] with
      | nil => rfl
      | cons e l =>
        have := hk e.1
        rw [hl, List.lookup_cons] at this
        simp at this

theorem leaf_iff (h : Heap) (x : List Str) (r : Ref) (hx : follow h (some root) x = some r) : leaf (A h) x ↔ size h r = 0 := by
  rw [size_zero]
  unfold leaf A
  constructor
  · intro hl a ra k
    have := hl k
    rw [follow_append, hx] at this
    subst ra
    simp only [Option.bind_some, follow] at this
    cases hg : get h a k with
    | none => rfl
    | some s => rw [hg] at this; simp at this
  · intro hz k
    rw [follow_append, hx]
    cases r with
    | none => simp [follow]
    | some a => simp [follow, hz a rfl k]

theorem A_snoc (h : Heap) (x : List Str) (a : Nat) (k : Str) (hx : follow h (some root) x = some (some a)) : A h (x ++ [k]) ↔ (get h a k).isSome := by
  unfold A
  rw [follow_append, hx]
  simp only [Option.bind_some, follow]
  cases get h a k with
  | none => simp
  | some s => simp [follow]

theorem follow_snoc (h : Heap) (x : List Str) (a : Nat) (k : Str) (r : Ref) (hx : follow h (some root) x = some (some a)) (hg : get h a k = some r) :
    follow h (some root) (x ++ [k]) = some r := by
  rw [follow_append, hx]
  simp [follow, hg]

/-- a map of the shape of a shared one has one key and nothing below -/
theorem shared_shape (h : Heap) (a : Nat) (hs : isSharedShape h (some a) = true) :
    ∃ k, h.getD a [] = [(k, none)] ∧ (k = emptyLabel ∨ k = starLabel) := by
  simp only [isSharedShape] at hs
  split at hs
  · rename_i hl
    obtain ⟨e, he⟩ := List.length_eq_one_iff.mp hl
    obtain ⟨k, v⟩ := e
    refine ⟨k, ?_⟩
    unfold Domain.get at hs
    rw [he] at hs ⊢
    simp only [List.lookup_cons, List.lookup_nil] at hs
    by_cases h1 : emptyLabel = k
    · subst h1
      simp at hs
      exact ⟨by rw [hs], .inl rfl⟩
    · have : (emptyLabel == k) = false := by simp [h1]
      rw [this] at hs
      by_cases h2 : starLabel = k
      · subst h2
        simp at hs
        exact ⟨by rw [hs], .inr rfl⟩
      · have : (starLabel == k) = false := by simp [h2]
        rw [this] at hs
        simp at hs
  · exact absurd hs (by simp)

theorem shared_dot (h : Heap) (c : Nat) (hi : Inv h c) : isSharedShape h (some dotNode) = true := by
  have : h.getD 1 [] = [(emptyLabel, none)] := by rw [List.getD_eq_getElem?_getD, hi.dot]; rfl
  simp only [isSharedShape, dotNode, Domain.get, this]
  rfl

theorem shared_star (h : Heap) (c : Nat) (hi : Inv h c) : isSharedShape h (some starNode) = true := by
  have : h.getD 2 [] = [(starLabel, none)] := by rw [List.getD_eq_getElem?_getD, hi.star]; rfl
  simp only [isSharedShape, starNode, Domain.get, this]
  rfl

/-- a map whose entries are all empty references -/
theorem fresh_of (h : Heap) (a : Nat) (hn : ∀ k v, get h a k = some v → v = none)
    (hself : a = dotNode ∨ a = starNode ∨ (a < h.length ∧ ∀ p, follow h (some root) p ≠ some (some a))) : Fresh h (some a) := by
  refine ⟨?_, ?_⟩
  · intro y b hy
    cases y with
    | nil => exact .inl rfl
    | cons k ks =>
      right
      simp only [follow] at hy
      cases hg : get h a k with
      | none => rw [hg] at hy; exact absurd hy (by simp)
      | some s =>
        rw [hg, hn k s hg] at hy
        cases ks with
        | nil => simp [follow] at hy
        | cons => simp [follow] at hy
  · intro b hb
    cases hb
    exact hself

theorem fresh_none (h : Heap) : Fresh h none := by
  refine ⟨?_, by simp⟩
  intro y b hy
  cases y with
  | nil => simp [follow] at hy
  | cons => simp [follow] at hy

/-- a prefix relation with one more label -/
theorem prefix_snoc (p x : List Str) (k : Str) : p ++ [k] <+: x ↔ x = p ++ [k] ∨ ∃ z zs, x = p ++ k :: z :: zs := by
  constructor
  · rintro ⟨y, rfl⟩
    cases y with
    | nil => left; simp
    | cons z zs => right; exact ⟨z, zs, by simp⟩
  · rintro (rfl | ⟨z, zs, rfl⟩)
    · exact ⟨[], by simp⟩
    · exact ⟨z :: zs, by simp⟩

/-- replacing entry `part` of the map at `p` by reference `r`, as a change of the set of paths -/
theorem put_paths (h : Heap) (c c' n : Nat) (k : Str) (r : Ref) (p : List Str) (hi : Inv h c)
    (hp : follow h (some root) p = some (some n)) (h1 : n ≠ dotNode) (h2 : n ≠ starNode) (hr : Fresh h r)
    (hc : c = n ∨ c = c') (hk : k = exactKey → r = none) (hne : ∀ a, r = some a → a ≠ c' → h.getD a [] ≠ []) :
    Inv (put h n k r) c' ∧ follow (put h n k r) (some root) (p ++ [k]) = some r ∧
    (∀ x, ¬ p ++ [k] <+: x → follow (put h n k r) (some root) x = follow h (some root) x) ∧
    (∀ y, A (put h n k r) (p ++ k :: y) ↔ (follow h r y).isSome) := by
  obtain ⟨hI, hF⟩ := put_inv h c c' n k r p hi hp h1 h2 hr hc hk hne
  refine ⟨hI, ?_, ?_, ?_⟩
  · rw [hF, if_pos List.prefix_rfl]
    have : (p ++ [k]).drop (p.length + 1) = [] := by simp
    rw [this]; rfl
  · intro x hx
    rw [hF, if_neg hx]
  · intro y
    unfold A
    rw [hF, if_pos ⟨y, by simp⟩]
    have : (p ++ k :: y).drop (p.length + 1) = y := by rw [List.drop_append]; simp
    rw [this]

theorem insert_dot (h : Heap) (c : Nat) (hi : Inv h c) : insert h dotNode [emptyLabel] = h := by
  simp only [Domain.insert, dotNode]
  rw [get_dot h c hi, if_pos rfl]
  simp [size]

theorem insert_star (h : Heap) (c : Nat) (hi : Inv h c) : insert h starNode [starLabel] = h := by
  simp only [Domain.insert, starNode]
  rw [get_star h c hi, if_pos rfl]
  simp [size]

theorem A_of (h : Heap) (x : List Str) (r : Ref) (hx : follow h (some root) x = some r) : A h x := by unfold A; rw [hx]; rfl

/-- the set of paths after one entry was set to `r` -/
theorem paths_cases (h h' : Heap) (p : List Str) (k : Str) (r : Ref)
    (ho : ∀ x, ¬ p ++ [k] <+: x → follow h' (some root) x = follow h (some root) x)
    (ht : ∀ y, A h' (p ++ k :: y) ↔ (follow h r y).isSome) (x : List Str) :
    (∃ y, x = p ++ k :: y ∧ (A h' x ↔ (follow h r y).isSome)) ∨ (¬ p ++ [k] <+: x ∧ (A h' x ↔ A h x)) := by
  by_cases hx : p ++ [k] <+: x
  · left
    obtain ⟨y, rfl⟩ := hx
    refine ⟨y, by simp, ?_⟩
    rw [← ht]; simp
  · right
    refine ⟨hx, ?_⟩
    unfold A; rw [ho x hx]

theorem paths_cases' (h h' : Heap) (p : List Str) (k : Str) (g : List Str → Bool)
    (ho : ∀ x, ¬ p ++ [k] <+: x → follow h' (some root) x = follow h (some root) x)
    (ht : ∀ y, A h' (p ++ k :: y) ↔ g y) (x : List Str) :
    (∃ y, x = p ++ k :: y ∧ (A h' x ↔ g y)) ∨ (¬ p ++ [k] <+: x ∧ (A h' x ↔ A h x)) := by
  by_cases hx : p ++ [k] <+: x
  · left
    obtain ⟨y, rfl⟩ := hx
    refine ⟨y, by simp, ?_⟩
    rw [← ht]; simp
  · right
    refine ⟨hx, ?_⟩
    unfold A; rw [ho x hx]

/-- Adding one path below a map that has no such entry. -/
theorem new_paths (h h' : Heap) (p : List Str) (n : Nat) (k : Str) (r : Ref) (hp : follow h (some root) p = some (some n)) (hg : get h n k = none)
    (ho : ∀ x, ¬ p ++ [k] <+: x → follow h' (some root) x = follow h (some root) x)
    (ht : ∀ y, A h' (p ++ k :: y) ↔ (follow h r y).isSome) (x : List Str) :
    A h' x ↔ A h x ∨ ∃ y, x = p ++ k :: y ∧ (follow h r y).isSome := by
  have hno : ∀ y, ¬ A h (p ++ k :: y) := by
    intro y hy
    have : A h (p ++ [k]) := A_prefix h (p ++ [k]) y (by simpa using hy)
    rw [A_snoc h p n k hp, hg] at this
    exact absurd this (by simp)
  rcases paths_cases h h' p k r ho ht x with ⟨y, rfl, e⟩ | ⟨hx, e⟩
  · rw [e]
    constructor
    · intro hy; exact .inr ⟨y, rfl, hy⟩
    · rintro (hy | ⟨z, hz, hy⟩)
      · exact absurd hy (hno y)
      · have := List.append_cancel_left hz
        simp only [List.cons.injEq, true_and] at this
        rw [this]; exact hy
  · rw [e]
    constructor
    · exact .inl
    · rintro (hy | ⟨z, rfl, hy⟩)
      · exact hy
      · exact absurd ⟨z, by simp⟩ hx

theorem follow_none (h : Heap) (y : List Str) : (follow h none y).isSome ↔ y = [] := by
  cases y <;> simp [follow]

theorem follow_single (h : Heap) (a : Nat) (k : Str) (hs : h.getD a [] = [(k, none)]) (y : List Str) : (follow h (some a) y).isSome ↔ y = [] ∨ y = [k] := by
  cases y with
  | nil => simp [follow]
  | cons z zs =>
    simp only [follow, Domain.get, hs, List.lookup_cons, List.lookup_nil]
    by_cases hz : z = k
    · subst hz
      simp only [BEq.rfl]
      rw [follow_none]; simp
    · have : (z == k) = false := by simp [hz]
      rw [this]; simp [hz]

theorem follow_empty (h : Heap) (a : Nat) (hs : h.getD a [] = []) (y : List Str) : (follow h (some a) y).isSome ↔ y = [] := by
  cases y with
  | nil => simp [follow]
  | cons z zs => simp only [follow, Domain.get, hs, List.lookup_nil]; simp

theorem getD_alloc (h : Heap) (m : Map) : (alloc h m).getD h.length [] = m := by
  unfold alloc; rw [List.getD_eq_getElem?_getD]; simp

theorem single_none (h : Heap) (a : Nat) (l : Map) (hs : h.getD a [] = l) (hl : ∀ k v, (k, v) ∈ l → v = none) : ∀ k v, get h a k = some v → v = none := by
  intro k v hg
  unfold Domain.get at hg
  rw [hs] at hg
  clear hs
  induction l with
  | nil => simp at hg
  | cons e l ih =>
    rw [List.lookup_cons] at hg
    split at hg
    · have := Option.some.inj hg
      exact hl e.1 v (by rw [← this]; simp)
    · exact ih (fun k v hm => hl k v (by simp [hm])) hg

theorem fresh_alloc (h : Heap) (c : Nat) (hi : Inv h c) (m : Map) (hm : ∀ k v, (k, v) ∈ m → v = none) : Fresh (alloc h m) (some h.length) := by
  refine fresh_of _ _ (single_none _ _ m (getD_alloc h m) hm) (.inr (.inr ⟨by unfold alloc; simp, ?_⟩))
  intro p hp
  rw [follow_alloc h c m hi] at hp
  exact absurd (hi.valid p _ hp) (Nat.lt_irrefl _)

theorem inv_change (h : Heap) (c c' : Nat) (k : Str) (r : Ref) (hi : Inv h c) (hg : get h c k = some r) : Inv h c' := by
  refine ⟨hi.len, hi.dot, hi.star, hi.tree, hi.valid, ?_, hi.key⟩
  intro p a hp _
  by_cases hac : a = c
  · subst hac
    intro he
    unfold Domain.get at hg
    rw [he] at hg
    simp at hg
  · exact hi.full p a hp hac

theorem A_through (h : Heap) (p : List Str) (n : Nat) (k : Str) (r : Ref) (hp : follow h (some root) p = some (some n)) (hg : get h n k = some r) (y : List Str) :
    A h (p ++ k :: y) ↔ (follow h r y).isSome := by
  unfold A
  rw [follow_append, hp]
  simp [follow, hg]

/-- A new map in place of what was at `part`: from now on the path leads there. -/
theorem replace_paths (h : Heap) (n : Nat) (p : List Str) (part : Str) (m : Map) (hi : Inv h n) (hp : follow h (some root) p = some (some n))
    (h1 : n ≠ dotNode) (h2 : n ≠ starNode) (hk : part ≠ exactKey) (hm : ∀ k v, (k, v) ∈ m → v = none) :
    Inv (put (alloc h m) n part (some h.length)) h.length ∧
    follow (put (alloc h m) n part (some h.length)) (some root) (p ++ [part]) = some (some h.length) ∧
    (∀ k, get (put (alloc h m) n part (some h.length)) h.length k = m.lookup k) ∧
    (∀ x, ¬ p ++ [part] <+: x → follow (put (alloc h m) n part (some h.length)) (some root) x = follow h (some root) x) ∧
    (∀ y, A (put (alloc h m) n part (some h.length)) (p ++ part :: y) ↔ (follow (alloc h m) (some h.length) y).isSome) := by
  have hp' : follow (alloc h m) (some root) p = some (some n) := by rw [follow_alloc h n m hi]; exact hp
  have hv := hi.valid p n hp
  obtain ⟨a, b, c, d⟩ := put_paths (alloc h m) n h.length n part (some h.length) p (inv_alloc h n m hi) hp' h1 h2 (fresh_alloc h n hi m hm) (.inl rfl)
    (fun e => absurd e hk) (by intro a ha hne; cases ha; exact absurd rfl hne)
  refine ⟨a, b, ?_, ?_, d⟩
  · intro k
    rw [get_put _ n _ part k _ (by unfold alloc; simp; omega), if_neg (by omega), get_alloc, if_pos rfl]
  · intro x hx
    rw [c x hx, follow_alloc h n m hi]

theorem insert_two (h : Heap) (n : Nat) (part p0 : Str) (hg : get h n part = none) : insert h n [part, p0] =
    if p0 = emptyLabel then insert (put h n part (some dotNode)) dotNode [p0]
    else if p0 = starLabel then insert (put h n part (some starNode)) starNode [p0]
    else insert (put (alloc h []) n part (some h.length)) h.length [p0] := by
  conv => lhs; rw [Domain.insert, hg]

theorem insert_more (h : Heap) (n : Nat) (part p1 : Str) (ps : List Str) (sub : Ref) (hg : get h n part = some sub) : insert h n (part :: p1 :: ps) =
    if isSharedShape h sub then match sub with
      | none => insert (put (alloc h [(exactKey, none)]) n part (some h.length)) h.length (p1 :: ps)
      | some a => insert (put (alloc h (h.getD a [])) n part (some h.length)) h.length (p1 :: ps)
    else match sub with
      | none => h
      | some a => insert h a (p1 :: ps) := by
  cases ps with
  | nil =>
    conv => lhs; rw [Domain.insert, hg]
    cases sub <;> rfl
  | cons =>
    conv => lhs; rw [Domain.insert, hg]
    cases sub <;> rfl

theorem insert_paths : ∀ (parts : List Str) (h : Heap) (n : Nat) (p : List Str), Inv h n → follow h (some root) p = some (some n) →
    n ≠ dotNode → n ≠ starNode → parts ≠ [] → exactKey ∉ parts →
    Inv (insert h n parts) root ∧ ∀ x, A (insert h n parts) x ↔ A h x ∨ Added (A h) p parts x
  | [], _, _, _, _, _, _, _, hne, _ => absurd rfl hne
  | part :: rest, h, n, p, hi, hp, h1, h2, _, hk => by
    have hk1 : part ≠ exactKey := fun e => hk (by simp [e])
    have hk2 : exactKey ∉ rest := fun e => hk (by simp [e])
    have hn3 : h.length ≠ dotNode ∧ h.length ≠ starNode := by
      have := hi.len; exact ⟨by show _ ≠ 1; omega, by show _ ≠ 2; omega⟩
    cases hg : get h n part with
    | none =>
      have hnoA : ∀ y, ¬ A h (p ++ part :: y) := by
        intro y hy
        have : A h (p ++ [part]) := A_prefix h (p ++ [part]) y (by simpa using hy)
        rw [A_snoc h p n part hp, hg] at this
        exact absurd this (by simp)
      have hnoA1 : ¬ A h (p ++ [part]) := hnoA []
      -- a new map, and the rest goes there
      have hnew : rest ≠ [] → Inv (insert (put (alloc h []) n part (some h.length)) h.length rest) root ∧
          ∀ x, A (insert (put (alloc h []) n part (some h.length)) h.length rest) x ↔ A h x ∨ Added (A h) p (part :: rest) x := by
        intro hr
        obtain ⟨a, b, c, d, e⟩ := replace_paths h n p part [] hi hp h1 h2 hk1 (by simp)
        obtain ⟨ihI, ihA⟩ := insert_paths rest _ h.length (p ++ [part]) a b hn3.1 hn3.2 hr hk2
        refine ⟨ihI, fun x => ?_⟩
        have hA1 : ∀ x, A (put (alloc h []) n part (some h.length)) x ↔ A h x ∨ x = p ++ [part] := by
          intro x
          rcases paths_cases' h _ p part _ d e x with ⟨y, rfl, hy⟩ | ⟨hx, hy⟩
          · rw [hy, follow_empty _ _ (getD_alloc h [])]
            constructor
            · rintro rfl; exact .inr rfl
            · rintro (ha | ha)
              · exact absurd ha (hnoA y)
              · have := List.append_cancel_left ha
                simpa using this
          · rw [hy]
            constructor
            · exact .inl
            · rintro (ha | ha)
              · exact ha
              · exact absurd ⟨[], by simp [ha]⟩ hx
        rw [ihA, hA1, added_congr (A (put (alloc h []) n part (some h.length))) (A h) rest (p ++ [part]) x hk2 (by
          intro y hy hne _
          rw [hA1]
          constructor
          · rintro (ha | ha)
            · exact ha
            · exact absurd ha hne
          · exact .inl)]
        simp only [Added, hnoA1, false_and, and_false, false_or]
        rw [or_assoc]
      cases rest with
      | nil =>
        have he : insert h n [part] = put h n part none := by simp only [Domain.insert, hg]
        rw [he]
        obtain ⟨a, b, c, d⟩ := put_paths h n root n part none p hi hp h1 h2 (fresh_none h) (.inl rfl) (fun _ => rfl) (by simp)
        refine ⟨a, fun x => ?_⟩
        rw [new_paths h _ p n part none hp hg c d]
        simp only [Added, hnoA1, false_and, and_false, or_false, follow_none]
        constructor
        · rintro (ha | ⟨y, rfl, rfl⟩)
          · exact .inl ha
          · exact .inr rfl
        · rintro (ha | rfl)
          · exact .inl ha
          · exact .inr ⟨[], rfl, rfl⟩
      | cons p0 ps =>
        cases ps with
        | cons p2 ps =>
          have he : insert h n (part :: p0 :: p2 :: ps) = insert (put (alloc h []) n part (some h.length)) h.length (p0 :: p2 :: ps) := by
            rw [Domain.insert, hg]
          rw [he]
          exact hnew (by simp)
        | nil =>
          have hshared : ∀ (b : Nat) (l : Str), b = dotNode ∨ b = starNode → h.getD b [] = [(l, none)] → 
              Inv (put h n part (some b)) root ∧ ∀ x, A (put h n part (some b)) x ↔ A h x ∨ Added (A h) p [part, l] x := by
            intro b l hb hl
            obtain ⟨a, _, c, d⟩ := put_paths h n root n part (some b) p hi hp h1 h2
              (fresh_of h b (single_none h b _ hl (by simp)) (hb.elim .inl (fun e => .inr (.inl e)))) (.inl rfl) (fun e => absurd e hk1)
              (by intro a ha _; cases ha; rw [hl]; simp)
            refine ⟨a, fun x => ?_⟩
            have hno2 : ¬ A h (p ++ [part] ++ [l]) := by have := hnoA [l]; simpa using this
            rw [new_paths h _ p n part _ hp hg c d]
            simp only [Added, hnoA1, hno2, false_and, and_false, or_false, false_or]
            constructor
            · rintro (ha | ⟨y, rfl, hy⟩)
              · exact .inl ha
              · rw [follow_single h b l hl] at hy
                rcases hy with rfl | rfl
                · exact .inr (.inl rfl)
                · exact .inr (.inr (by simp))
            · rintro (ha | rfl | rfl)
              · exact .inl ha
              · exact .inr ⟨[], rfl, by simp [follow]⟩
              · exact .inr ⟨[l], by simp, by rw [follow_single h b l hl]; exact .inr rfl⟩
          by_cases hp0 : p0 = emptyLabel
          · subst hp0
            obtain ⟨a, b⟩ := hshared dotNode emptyLabel (.inl rfl) (by show h.getD 1 [] = _; rw [List.getD_eq_getElem?_getD, hi.dot]; rfl)
            have he : insert h n [part, emptyLabel] = insert (put h n part (some dotNode)) dotNode [emptyLabel] := by
              rw [insert_two h n part _ hg, if_pos rfl]
            rw [he, insert_dot _ root a]
            exact ⟨a, b⟩
          · by_cases hp1 : p0 = starLabel
            · subst hp1
              obtain ⟨a, b⟩ := hshared starNode starLabel (.inr rfl) (by show h.getD 2 [] = _; rw [List.getD_eq_getElem?_getD, hi.star]; rfl)
              have he : insert h n [part, starLabel] = insert (put h n part (some starNode)) starNode [starLabel] := by
                rw [insert_two h n part _ hg, if_neg hp0, if_pos rfl]
              rw [he, insert_star _ root a]
              exact ⟨a, b⟩
            · have he : insert h n [part, p0] = insert (put (alloc h []) n part (some h.length)) h.length [p0] := by
                rw [insert_two h n part _ hg, if_neg hp0, if_neg hp1]
              rw [he]
              exact hnew (by simp)
    | some sub =>
      have hps := follow_snoc h p n part sub hp hg
      have hAps := A_of h _ _ hps
      have hlf := leaf_iff h _ _ hps
      have hthru := A_through h p n part sub hp hg
      -- a copy of a map of the shape of a shared one
      have hclone : ∀ a, sub = some a → isSharedShape h sub = true →
          ∃ k, h.getD a [] = [(k, none)] ∧ (k = emptyLabel ∨ k = starLabel) ∧
          Inv (put (alloc h (h.getD a [])) n part (some h.length)) h.length ∧
          follow (put (alloc h (h.getD a [])) n part (some h.length)) (some root) (p ++ [part]) = some (some h.length) ∧
          (∀ l, get (put (alloc h (h.getD a [])) n part (some h.length)) h.length l = [(k, (none : Ref))].lookup l) ∧
          ∀ x, A (put (alloc h (h.getD a [])) n part (some h.length)) x ↔ A h x := by
        intro a ha hs
        subst ha
        obtain ⟨k, hk', hkk⟩ := shared_shape h a hs
        refine ⟨k, hk', hkk, ?_⟩
        obtain ⟨i1, i2, i3, i4, i5⟩ := replace_paths h n p part (h.getD a []) hi hp h1 h2 hk1 (by rw [hk']; simp)
        rw [hk'] at i1 i2 i3 i4 i5 ⊢
        refine ⟨i1, i2, i3, fun x => ?_⟩
        rcases paths_cases' h _ p part _ i4 i5 x with ⟨y, rfl, hy⟩ | ⟨hx, hy⟩
        · rw [hy, hthru, follow_single _ _ k (getD_alloc h _), follow_single _ _ k hk']
        · exact hy
      cases rest with
      | nil =>
        by_cases hz : size h sub = 0
        · have he : insert h n [part] = h := by rw [Domain.insert, hg]; simp only [if_pos hz]
          rw [he]
          refine ⟨inv_change h n root part sub hi hg, fun x => ?_⟩
          simp only [Added, hlf.mpr hz, not_true, false_and, and_false, or_false, ne_eq]
          constructor
          · exact .inl
          · rintro (ha | rfl)
            · exact ha
            · exact hAps
        · have hnl : ¬ leaf (A h) (p ++ [part]) := fun e => hz (hlf.mp e)
          cases sub with
          | none => exact absurd rfl hz
          | some a =>
            have he : insert h n [part] = if (get h a emptyLabel).isSome then h
                else if isSharedShape h (some a) then put (put (alloc h (h.getD a [])) n part (some h.length)) h.length exactKey none
                else put h a exactKey none := by rw [Domain.insert, hg]; simp only [if_neg hz]
            rw [he]
            have hemp : A h (p ++ [part, emptyLabel]) ↔ (get h a emptyLabel).isSome := by
              have := A_snoc h (p ++ [part]) a emptyLabel hps
              simpa using this
            by_cases hge : (get h a emptyLabel).isSome
            · rw [if_pos hge]
              refine ⟨inv_change h n root part _ hi hg, fun x => ?_⟩
              simp only [Added, hemp.mpr hge, not_true, false_and, and_false, or_false, ne_eq]
              constructor
              · exact .inl
              · rintro (ha | rfl)
                · exact ha
                · exact hAps
            · rw [if_neg hge]
              have hadd : ∀ x, (A h x ∨ Added (A h) p [part] x) ↔ (A h x ∨ x = p ++ [part] ++ [exactKey]) := by
                intro x
                have : ¬ A h (p ++ [part, emptyLabel]) := fun e => hge (hemp.mp e)
                simp only [Added, this, hnl, hAps, not_true, not_false_eq_true, false_and, and_false, or_false, ne_eq, and_true, true_and]
                constructor
                · rintro (ha | rfl | rfl)
                  · exact .inl ha
                  · exact .inl hAps
                  · exact .inr (by simp)
                · rintro (ha | rfl)
                  · exact .inl ha
                  · exact .inr (.inr (by simp))
              by_cases hs : isSharedShape h (some a) = true
              · rw [if_pos hs]
                obtain ⟨k, hk', hkk, i1, i2, i3, i4⟩ := hclone a rfl hs
                have hgk : get (put (alloc h (h.getD a [])) n part (some h.length)) h.length exactKey = none := by
                  rw [i3]
                  rcases hkk with rfl | rfl <;> rfl
                obtain ⟨q1, q2, q3, q4⟩ := put_paths _ h.length root h.length exactKey none (p ++ [part]) i1 i2 hn3.1 hn3.2 (fresh_none _) (.inl rfl) (fun _ => rfl) (by simp)
                refine ⟨q1, fun x => ?_⟩
                rw [hadd, new_paths _ _ (p ++ [part]) h.length exactKey none i2 hgk q3 q4, i4]
                simp only [follow_none]
                constructor
                · rintro (ha | ⟨y, rfl, rfl⟩)
                  · exact .inl ha
                  · exact .inr (by simp)
                · rintro (ha | rfl)
                  · exact .inl ha
                  · exact .inr ⟨[], by simp, rfl⟩
              · rw [if_neg hs]
                have ha1 : a ≠ dotNode := by rintro rfl; exact hs (shared_dot h n hi)
                have ha2 : a ≠ starNode := by rintro rfl; exact hs (shared_star h n hi)
                obtain ⟨q1, q2, q3, q4⟩ := put_paths h a root a exactKey none (p ++ [part]) (inv_change h n a part _ hi hg) hps ha1 ha2 (fresh_none _) (.inl rfl) (fun _ => rfl) (by simp)
                refine ⟨q1, fun x => ?_⟩
                rw [hadd]
                rcases paths_cases h _ (p ++ [part]) exactKey none q3 q4 x with ⟨y, rfl, hy⟩ | ⟨hx, hy⟩
                · rw [hy, follow_none]
                  constructor
                  · rintro rfl; exact .inr (by simp)
                  · rintro (ha | ha)
                    · cases hge2 : get h a exactKey with
                      | none =>
                        have : A h ((p ++ [part]) ++ [exactKey]) := A_prefix h _ y (by simpa using ha)
                        rw [A_snoc h (p ++ [part]) a exactKey hps, hge2] at this
                        exact absurd this (by simp)
                      | some v =>
                        have hv := hi.key _ a v hps hge2
                        subst hv
                        rw [A_through h (p ++ [part]) a exactKey none hps hge2, follow_none] at ha
                        exact ha
                    · have := List.append_cancel_left ha
                      simpa using this
                · rw [hy]
                  constructor
                  · exact .inl
                  · rintro (ha | ha)
                    · exact ha
                    · exact absurd ⟨[], by simp [ha]⟩ hx
      | cons p1 ps =>
        -- the rest goes to a heap with the same paths but for a mark
        have hrec : ∀ (h1' : Heap) (b : Nat), Inv h1' b → follow h1' (some root) (p ++ [part]) = some (some b) → b ≠ dotNode → b ≠ starNode →
            (∀ x, A h1' x ↔ A h x ∨ (x = p ++ [part, exactKey] ∧ leaf (A h) (p ++ [part]))) →
            Inv (insert h1' b (p1 :: ps)) root ∧ ∀ x, A (insert h1' b (p1 :: ps)) x ↔ A h x ∨ Added (A h) p (part :: p1 :: ps) x := by
          intro h1' b j1 j2 j3 j4 j5
          obtain ⟨ihI, ihA⟩ := insert_paths (p1 :: ps) h1' b (p ++ [part]) j1 j2 j3 j4 (by simp) hk2
          refine ⟨ihI, fun x => ?_⟩
          rw [ihA, j5, added_congr (A h1') (A h) (p1 :: ps) (p ++ [part]) x hk2 (by
            intro y hy hne hne2
            rw [j5]
            constructor
            · rintro (ha | ⟨ha, _⟩)
              · exact ha
              · exact absurd (by rw [ha]; simp) hne2
            · exact .inl)]
          rw [show Added (A h) p (part :: p1 :: ps) x = (x = p ++ [part] ∨
            (p1 :: ps = [] ∧ x = p ++ [part, exactKey] ∧ A h (p ++ [part]) ∧ ¬ leaf (A h) (p ++ [part]) ∧ ¬ A h (p ++ [part, emptyLabel])) ∨
            (p1 :: ps ≠ [] ∧ x = p ++ [part, exactKey] ∧ A h (p ++ [part]) ∧ leaf (A h) (p ++ [part])) ∨
            Added (A h) (p ++ [part]) (p1 :: ps) x) from rfl]
          simp only [hAps, reduceCtorEq, false_and, false_or, ne_eq, not_false_eq_true, true_and]
          constructor
          · rintro ((ha | ha) | ha)
            · exact .inl ha
            · exact .inr (.inr (.inl ha))
            · exact .inr (.inr (.inr ha))
          · rintro (ha | rfl | ha | ha)
            · exact .inl (.inl ha)
            · exact .inl (.inl hAps)
            · exact .inl (.inr ha)
            · exact .inr ha
        by_cases hs : isSharedShape h sub = true
        · cases sub with
          | none =>
            have he : insert h n (part :: p1 :: ps) = insert (put (alloc h [(exactKey, none)]) n part (some h.length)) h.length (p1 :: ps) := by
              rw [insert_more h n part p1 ps _ hg]; simp only [if_pos hs]
            rw [he]
            obtain ⟨i1, i2, i3, i4, i5⟩ := replace_paths h n p part [(exactKey, none)] hi hp h1 h2 hk1 (by simp)
            refine hrec _ h.length i1 i2 hn3.1 hn3.2 (fun x => ?_)
            have hl : leaf (A h) (p ++ [part]) := hlf.mpr rfl
            rcases paths_cases' h _ p part _ i4 i5 x with ⟨y, rfl, hy⟩ | ⟨hx, hy⟩
            · rw [hy, hthru, follow_single _ _ exactKey (getD_alloc h _), follow_none]
              simp [hl]
            · rw [hy]
              constructor
              · exact .inl
              · rintro (ha | ⟨ha, _⟩)
                · exact ha
                · exact absurd ⟨[exactKey], by simp [ha]⟩ hx
          | some a =>
            have he : insert h n (part :: p1 :: ps) = insert (put (alloc h (h.getD a [])) n part (some h.length)) h.length (p1 :: ps) := by
              rw [insert_more h n part p1 ps _ hg]; simp only [if_pos hs]
            rw [he]
            obtain ⟨k, hk', hkk, i1, i2, i3, i4⟩ := hclone a rfl hs
            refine hrec _ h.length i1 i2 hn3.1 hn3.2 (fun x => ?_)
            rw [i4]
            have hnl : ¬ leaf (A h) (p ++ [part]) := by
              rw [hlf]; simp only [size, hk']; simp
            simp [hnl]
        · cases sub with
          | none => exact absurd rfl hs
          | some a =>
            have he : insert h n (part :: p1 :: ps) = insert h a (p1 :: ps) := by
              rw [insert_more h n part p1 ps _ hg]; simp only [if_neg hs]
            rw [he]
            have ha1 : a ≠ dotNode := by rintro rfl; exact hs (shared_dot h n hi)
            have ha2 : a ≠ starNode := by rintro rfl; exact hs (shared_star h n hi)
            refine hrec h a (inv_change h n a part _ hi hg) hps ha1 ha2 (fun x => ?_)
            have hnl : ¬ leaf (A h) (p ++ [part]) := by
              rw [hlf]
              have := hi.full _ a hps (by
                rintro rfl
                have := hi.tree _ _ a hps hp ha1 ha2
                have := congrArg List.length this
                simp at this)
              simp only [size]
              intro e
              exact this (List.length_eq_zero_iff.mp e)
            simp [hnl]

end Verif.DomainL
