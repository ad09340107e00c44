import Verif.Model.Lru
import Verif.Spec.Lru
set_option linter.unusedSimpArgs false
set_option linter.unusedSectionVars false
namespace Verif.Lru
variable {H K B : Type} [DecidableEq H]

/-! ### Views of the heap -/
def nextOf (hp : Heap H B) (r : Ref) : Option Ref := (hp r).bind (·.next)
def prevOf (hp : Heap H B) (r : Ref) : Option Ref := (hp r).bind (·.prev)
def payOf (hp : Heap H B) (r : Ref) : Option (H × B) := (hp r).bind (·.payload)
def updF (f : Ref → Option Ref) (r : Ref) (v : Option Ref) : Ref → Option Ref := fun x => if x = r then v else f x

/-- Relation between heaps: same allocation, links given by functions, same payloads. -/
structure Like (hp hp' : Heap H B) (nx pv : Ref → Option Ref) : Prop where
  nx : ∀ x, nextOf hp' x = nx x
  pv : ∀ x, prevOf hp' x = pv x
  pay : ∀ x, payOf hp' x = payOf hp x
  alc : ∀ x, (hp' x).isSome = (hp x).isSome

theorem setNext_spec {hp : Heap H B} {r : Ref} (h : (hp r).isSome = true) (v : Option Ref) :
    ∃ hp', setNext hp (some r) v = some hp' ∧ Like hp hp' (updF (nextOf hp) r v) (prevOf hp) := by
  obtain ⟨n, hn⟩ := Option.isSome_iff_exists.mp h
  refine ⟨_, by simp [setNext, hn]; rfl, ⟨?_, ?_, ?_, ?_⟩⟩ <;> intro x <;>
    by_cases hx : x = r <;> simp [nextOf, prevOf, payOf, upd, updF, hx, hn]

theorem setPrev_spec {hp : Heap H B} {r : Ref} (h : (hp r).isSome = true) (v : Option Ref) :
    ∃ hp', setPrev hp (some r) v = some hp' ∧ Like hp hp' (nextOf hp) (updF (prevOf hp) r v) := by
  obtain ⟨n, hn⟩ := Option.isSome_iff_exists.mp h
  refine ⟨_, by simp [setPrev, hn]; rfl, ⟨?_, ?_, ?_, ?_⟩⟩ <;> intro x <;>
    by_cases hx : x = r <;> simp [nextOf, prevOf, payOf, upd, updF, hx, hn]

theorem getNext_spec {hp : Heap H B} {r : Ref} (h : (hp r).isSome = true) :
    getNext hp (some r) = some (nextOf hp r) := by
  obtain ⟨n, hn⟩ := Option.isSome_iff_exists.mp h
  simp [getNext, nextOf, hn]

theorem getPrev_spec {hp : Heap H B} {r : Ref} (h : (hp r).isSome = true) :
    getPrev hp (some r) = some (prevOf hp r) := by
  obtain ⟨n, hn⟩ := Option.isSome_iff_exists.mp h
  simp [getPrev, prevOf, hn]

theorem getPayload_spec (hp : Heap H B) (r : Ref) : getPayload hp r = payOf hp r := by
  unfold getPayload payOf
  cases hp r <;> rfl

/-! ### Doubly linked segments -/
def Seg (nx pv : Ref → Option Ref) : Ref → List Ref → Ref → Prop
  | p, [], q => nx p = some q ∧ pv q = some p
  | p, x :: xs, q => nx p = some x ∧ pv x = some p ∧ Seg nx pv x xs q

theorem Seg.congr {nx pv nx' pv' : Ref → Option Ref} {p q : Ref} {xs : List Ref}
    (h : Seg nx pv p xs q) (h1 : ∀ x ∈ p :: xs, nx' x = nx x) (h2 : ∀ x ∈ q :: xs, pv' x = pv x) :
    Seg nx' pv' p xs q := by
  induction xs generalizing p with
  | nil => exact ⟨by rw [h1 p (by simp)]; exact h.1, by rw [h2 q (by simp)]; exact h.2⟩
  | cons x xs ih =>
    refine ⟨by rw [h1 p (by simp)]; exact h.1, by rw [h2 x (by simp)]; exact h.2.1, ?_⟩
    apply ih h.2.2
    · intro y hy; exact h1 y (by simp at hy ⊢; grind)
    · intro y hy; exact h2 y (by simp at hy ⊢; grind)

theorem Seg.append {nx pv : Ref → Option Ref} {p q r : Ref} {l1 l2 : List Ref} :
    Seg nx pv p (l1 ++ r :: l2) q ↔ Seg nx pv p l1 r ∧ Seg nx pv r l2 q := by
  induction l1 generalizing p with
  | nil => simp [Seg, and_assoc]
  | cons x xs ih => simp [Seg, ih, and_assoc]

theorem Seg.last {nx pv : Ref → Option Ref} {p q : Ref} {l : List Ref} (h : Seg nx pv p l q) :
    ∃ a, pv q = some a ∧ nx a = some q ∧ a ∈ p :: l := by
  induction l generalizing p with
  | nil => exact ⟨p, h.2, h.1, by simp⟩
  | cons x xs ih =>
    obtain ⟨a, h1, h2, h3⟩ := ih h.2.2
    exact ⟨a, h1, h2, by simp at h3 ⊢; grind⟩

theorem Seg.last_snoc {nx pv : Ref → Option Ref} {p q r : Ref} {l : List Ref}
    (h : Seg nx pv p (l ++ [r]) q) : pv q = some r := by
  rw [Seg.append] at h; exact h.2.2

theorem Seg.first {nx pv : Ref → Option Ref} {p q : Ref} {l : List Ref} (h : Seg nx pv p l q) :
    ∃ b, nx p = some b ∧ pv b = some p ∧ b ∈ q :: l := by
  cases l with
  | nil => exact ⟨q, h.1, h.2, by simp⟩
  | cons x xs => exact ⟨x, h.1, h.2.1, by simp⟩

theorem Seg.remove {nx pv : Ref → Option Ref} {p q r a b : Ref} {l1 l2 : List Ref}
    (h : Seg nx pv p (l1 ++ r :: l2) q) (hd : (p :: q :: (l1 ++ r :: l2)).Nodup)
    (ha : pv r = some a) (hb : nx r = some b) :
    Seg (updF nx a (some b)) (updF pv b (some a)) p (l1 ++ l2) q := by
  induction l1 generalizing p with
  | nil =>
    obtain ⟨h1, h2, h3⟩ := h
    have : a = p := by rw [h2] at ha; exact (Option.some.inj ha).symm
    subst this
    simp only [List.nil_append, List.nodup_cons, List.mem_cons, not_or] at hd
    cases l2 with
    | nil =>
      have : b = q := by rw [h3.1] at hb; exact (Option.some.inj hb).symm
      subst this
      exact ⟨by simp [updF], by simp [updF]⟩
    | cons x xs =>
      have : b = x := by rw [h3.1] at hb; exact (Option.some.inj hb).symm
      subst this
      refine ⟨by simp [updF], by simp [updF], ?_⟩
      simp only [List.nodup_cons, List.mem_cons, not_or] at hd
      apply h3.2.2.congr
      · intro y hy
        have : y ≠ a := by rintro rfl; simp at hy; grind
        simp [updF, this]
      · intro y hy
        have : y ≠ b := by rintro rfl; simp at hy; grind
        simp [updF, this]
  | cons y ys ih =>
    obtain ⟨h1, h2, h3⟩ := h
    have h3' := h3
    rw [List.append_eq, Seg.append] at h3'
    obtain ⟨a', ea, _, ma⟩ := h3'.1.last
    have : a' = a := by rw [ha] at ea; exact (Option.some.inj ea).symm
    subst this
    obtain ⟨b', eb, _, mb⟩ := h3'.2.first
    have : b' = b := by rw [hb] at eb; exact (Option.some.inj eb).symm
    subst this
    simp only [List.cons_append, List.nodup_cons, List.mem_cons, List.mem_append, not_or] at hd
    have hap : ¬ p = a' := by rintro rfl; simp at ma; grind
    have hby : ¬ y = b' := by rintro rfl; simp at mb; grind
    refine ⟨by simp [updF, hap, h1], by simp [updF, hby, h2], ?_⟩
    apply ih h3
    simp only [List.cons_append, List.nodup_cons, List.mem_cons, List.mem_append, not_or]
    grind

theorem Seg.pushFront {nx pv : Ref → Option Ref} {p q x b : Ref} {l : List Ref}
    (h : Seg nx pv p l q) (hd : (p :: q :: l).Nodup) (hx : x ∉ p :: q :: l) (hb : nx p = some b) :
    Seg (updF (updF nx x (some b)) p (some x)) (updF (updF pv x (some p)) b (some x)) p (x :: l) q := by
  obtain ⟨b', e1, e2, e3⟩ := h.first
  have : b' = b := by rw [hb] at e1; exact (Option.some.inj e1).symm
  subst this
  have hxb : x ≠ b' := by rintro rfl; simp at hx e3; grind
  have hxp : x ≠ p := by rintro rfl; simp at hx
  refine ⟨by simp [updF], by simp [updF, hxb], ?_⟩
  cases l with
  | nil =>
    have : b' = q := by simpa using e3
    subst this
    exact ⟨by simp [updF, hxp], by simp [updF]⟩
  | cons y ys =>
    have hy : b' = y := by rw [h.1] at hb; exact (Option.some.inj hb).symm
    subst hy
    refine ⟨by simp [updF, hxp], by simp [updF], ?_⟩
    simp only [List.nodup_cons, List.mem_cons, not_or] at hd hx
    apply h.2.2.congr
    · intro z hz
      have h1 : z ≠ p := by rintro rfl; simp at hz; grind
      have h2 : z ≠ x := by rintro rfl; simp at hz; grind
      simp [updF, h1, h2]
    · intro z hz
      have h1 : z ≠ b' := by rintro rfl; simp at hz; grind
      have h2 : z ≠ x := by rintro rfl; simp at hz; grind
      simp [updF, h1, h2]

end Verif.Lru

namespace Verif.Lru
open Verif.Spec.Lru (without lookup trim)
variable {H K B : Type} [DecidableEq H]

/-! ### The index map -/
theorem mapGet_iff {m : List (H × Ref)} (hd : (m.map (·.1)).Nodup) (h : H) (r : Ref) :
    mapGet m h = some r ↔ (h, r) ∈ m := by
  induction m with
  | nil => simp [mapGet]
  | cons e m ih =>
    obtain ⟨h', r'⟩ := e
    simp only [List.map_cons, List.nodup_cons] at hd
    have ih := ih hd.2
    unfold mapGet at ih ⊢
    simp only [List.find?_cons]
    by_cases hh : h' = h
    · subst hh
      simp only [decide_true, Option.map_some, Option.some.injEq, List.mem_cons, Prod.mk.injEq, true_and]
      constructor
      · intro h1; exact Or.inl h1.symm
      · rintro (h1 | h1)
        · exact h1.symm
        · exfalso; apply hd.1; exact List.mem_map.mpr ⟨(h', r), h1, rfl⟩
    · simp only [hh, decide_false, List.mem_cons, Prod.mk.injEq]
      rw [ih]
      constructor
      · intro h1; exact Or.inr h1
      · rintro (h1 | h1)
        · exact absurd h1.1.symm hh
        · exact h1

theorem mapGet_none_iff {m : List (H × Ref)} (h : H) : mapGet m h = none ↔ h ∉ m.map (·.1) := by
  unfold mapGet
  simp only [Option.map_eq_none_iff, List.find?_eq_none, decide_eq_true_eq, List.mem_map]
  grind

theorem mapDel_perm {m m' : List (H × Ref)} (h : H) (hp : m.Perm m') :
    (mapDel m h).Perm (mapDel m' h) := hp.filter _

/-! ### Representation -/
structure Rep (c : Cache H B) (refs : List Ref) (es : List (H × B)) : Prop where
  seg : Seg (nextOf c.heap) (prevOf c.heap) c.head refs c.tail
  nodup : (c.head :: c.tail :: refs).Nodup
  bound : ∀ r ∈ c.head :: c.tail :: refs, r < c.alloc
  pay : refs.map (payOf c.heap) = es.map some
  hnodup : (es.map (·.1)).Nodup
  idx : c.items.Perm ((es.map (·.1)).zip refs)

theorem Seg.alc {hp : Heap H B} {p q : Ref} {l : List Ref} (h : Seg (nextOf hp) (prevOf hp) p l q) :
    ∀ r ∈ p :: q :: l, (hp r).isSome = true := by
  have hn : ∀ r x, nextOf hp r = some x → (hp r).isSome = true := by
    intro r x h; unfold nextOf at h; cases e : hp r <;> simp_all
  have hp' : ∀ r x, prevOf hp r = some x → (hp r).isSome = true := by
    intro r x h; unfold prevOf at h; cases e : hp r <;> simp_all
  induction l generalizing p with
  | nil =>
    intro r hr
    simp at hr
    rcases hr with rfl | rfl
    · exact hn _ _ h.1
    · exact hp' _ _ h.2
  | cons x xs ih =>
    intro r hr
    simp at hr
    rcases hr with rfl | hr
    · exact hn _ _ h.1
    · exact ih h.2.2 r (by simp; grind)

theorem Rep.alc {c : Cache H B} {refs es} (h : Rep c refs es) :
    ∀ r ∈ c.head :: c.tail :: refs, (c.heap r).isSome = true := h.seg.alc

theorem Rep.len {c : Cache H B} {refs es} (h : Rep c refs es) : refs.length = es.length := by
  have := congrArg List.length h.pay; simpa using this

theorem Rep.items_len {c : Cache H B} {refs es} (h : Rep c refs es) : c.items.length = es.length := by
  rw [h.idx.length_eq]; simp [h.len]

theorem Rep.keys_nodup {c : Cache H B} {refs es} (h : Rep c refs es) : (c.items.map (·.1)).Nodup := by
  have e : ((es.map (·.1)).zip refs).map (·.1) = es.map (·.1) := by
    rw [← List.unzip_fst, List.unzip_zip]; simp [h.len]
  have := h.idx.map (·.1)
  rw [e] at this
  exact this.nodup_iff.mpr h.hnodup

theorem Rep.mapGet_some {c : Cache H B} {refs es} (h : Rep c refs es) {hh : H} {r : Ref}
    (hg : mapGet c.items hh = some r) : ∃ l1 l2 e1 e2 b, refs = l1 ++ r :: l2 ∧ es = e1 ++ (hh, b) :: e2
      ∧ l1.length = e1.length ∧ payOf c.heap r = some (hh, b) := by
  rw [mapGet_iff h.keys_nodup, h.idx.mem_iff] at hg
  obtain ⟨i, hi, he⟩ := List.mem_iff_getElem.mp hg
  simp only [List.getElem_zip, Prod.mk.injEq, List.getElem_map] at he
  simp only [List.length_zip, List.length_map] at hi
  have hi1 : i < es.length := by omega
  have hi2 : i < refs.length := by omega
  have hpay : payOf c.heap refs[i] = some es[i] := by
    have := congrArg (·[i]?) h.pay
    simp [hi1, hi2] at this
    exact this
  refine ⟨refs.take i, refs.drop (i+1), es.take i, es.drop (i+1), es[i].2, ?_, ?_, ?_, ?_⟩
  · rw [← he.2]; simp
  · have : (hh, es[i].2) = es[i] := by rw [← he.1]
    rw [this]; simp
  · simp; omega
  · rw [← he.2, hpay, ← he.1]

theorem Rep.mapGet_none {c : Cache H B} {refs es} (h : Rep c refs es) {hh : H}
    (hg : mapGet c.items hh = none) : ∀ e ∈ es, e.1 ≠ hh := by
  rw [mapGet_none_iff] at hg
  intro e he heq
  apply hg
  have e' : ((es.map (·.1)).zip refs).map (·.1) = es.map (·.1) := by
    rw [← List.unzip_fst, List.unzip_zip]; simp [h.len]
  rw [(h.idx.map (·.1)).mem_iff, e']
  exact List.mem_map.mpr ⟨e, he, heq⟩

theorem without_split {e1 e2 : List (H × B)} {hh : H} {b : B}
    (hd : ((e1 ++ (hh, b) :: e2).map (·.1)).Nodup) :
    without (e1 ++ (hh, b) :: e2) hh = e1 ++ e2 := by
  unfold without
  simp only [List.map_append, List.map_cons, List.nodup_append, List.nodup_cons, List.mem_map, List.mem_cons] at hd
  rw [List.filter_append, List.filter_cons]
  simp only [not_true_eq_false, decide_false, Bool.false_eq_true, if_false]
  congr 1
  · rw [List.filter_eq_self]
    intro e he
    have := hd.2.2 e.1 ⟨e, he, rfl⟩ hh (Or.inl rfl)
    simpa using this
  · rw [List.filter_eq_self]
    intro e he
    have := hd.2.1.1
    simp only [decide_eq_true_eq]
    intro h; exact this ⟨e, he, h⟩

theorem without_absent {es : List (H × B)} {hh : H} (h : ∀ e ∈ es, e.1 ≠ hh) : without es hh = es := by
  unfold without
  rw [List.filter_eq_self]
  intro e he; simpa using h e he

/-- Result of the two link assignments common to `unlink` and `touch`. -/
theorem unlinkHeap {c : Cache H B} {l1 l2 es} {r : Ref} (h : Rep c (l1 ++ r :: l2) es) :
    ∃ a b hp1 hp2, prevOf c.heap r = some a ∧ nextOf c.heap r = some b
      ∧ setNext c.heap (some a) (some b) = some hp1 ∧ (hp1 r).isSome = true
      ∧ prevOf hp1 r = some a ∧ nextOf hp1 r = some b
      ∧ setPrev hp1 (some b) (some a) = some hp2
      ∧ Like c.heap hp2 (updF (nextOf c.heap) a (some b)) (updF (prevOf c.heap) b (some a))
      ∧ Seg (nextOf hp2) (prevOf hp2) c.head (l1 ++ l2) c.tail := by
  have hs := h.seg
  have hs' := hs
  rw [Seg.append] at hs'
  obtain ⟨a, ea, ea', ma⟩ := hs'.1.last
  obtain ⟨b, eb, eb', mb⟩ := hs'.2.first
  have hr : r ≠ a := by
    rintro rfl
    have := h.nodup
    simp only [List.nodup_cons, List.mem_cons, List.mem_append, not_or, List.nodup_append] at this ma
    grind
  have hA : (c.heap a).isSome = true := h.alc a (by simp at ma ⊢; grind)
  have hR : (c.heap r).isSome = true := h.alc r (by simp)
  have hB : (c.heap b).isSome = true := h.alc b (by simp at mb ⊢; grind)
  obtain ⟨hp1, e1, k1⟩ := setNext_spec hA (some b)
  obtain ⟨hp2, e2, k2⟩ := setPrev_spec (hp := hp1) (r := b) (by rw [k1.alc]; exact hB) (some a)
  have hL : Like c.heap hp2 (updF (nextOf c.heap) a (some b)) (updF (prevOf c.heap) b (some a)) := by
    refine ⟨?_, ?_, ?_, ?_⟩
    · intro x; rw [k2.nx, k1.nx]
    · intro x; rw [k2.pv]; unfold updF; split
      · rfl
      · rw [k1.pv]
    · intro x; rw [k2.pay, k1.pay]
    · intro x; rw [k2.alc, k1.alc]
  refine ⟨a, b, hp1, hp2, ea, eb, e1, by rw [k1.alc]; exact hR, by rw [k1.pv]; exact ea,
    by rw [k1.nx]; simp [updF, hr, eb], e2, hL, ?_⟩
  have hrem := hs.remove h.nodup ea eb
  exact hrem.congr (fun x _ => hL.nx x) (fun x _ => hL.pv x)

theorem Rep.unlink_ok {c : Cache H B} {l1 l2 e1 e2} {r : Ref} {hh : H} {b : B}
    (h : Rep c (l1 ++ r :: l2) (e1 ++ (hh, b) :: e2)) (hl : l1.length = e1.length) :
    ∃ c', unlink c r = some c' ∧ Rep c' (l1 ++ l2) (e1 ++ e2) ∧ c'.maxItems = c.maxItems
      ∧ c'.alloc = c.alloc ∧ c'.head = c.head ∧ c'.tail = c.tail ∧ (∀ x, payOf c'.heap x = payOf c.heap x)
      ∧ c'.items = mapDel c.items hh ∧ (∀ x, x ∉ c.head :: c.tail :: (l1 ++ r :: l2) →
          nextOf c'.heap x = nextOf c.heap x ∧ prevOf c'.heap x = prevOf c.heap x)
      ∧ (∀ x, (c'.heap x).isSome = (c.heap x).isSome) := by
  obtain ⟨a, bb, hp1, hp2, ea, eb, s1, a1, pa, na, s2, hL, hseg⟩ := unlinkHeap h
  have hR : (c.heap r).isSome = true := h.alc r (by simp)
  have hpay : payOf c.heap r = some (hh, b) := by
    have hp := h.pay
    simp only [List.map_append, List.map_cons] at hp
    have := (List.append_inj hp (by simp [hl])).2
    exact (List.cons.inj this).1
  have hsimp : unlink c r = some { c with heap := hp2, items := mapDel c.items hh } := by
    simp only [Lru.unlink, getPrev_spec hR, getNext_spec hR, ea, eb, Option.bind_eq_bind, Option.bind_some, s1,
      getPrev_spec a1, getNext_spec a1, pa, na, s2, getPayload_spec, hL.pay, hpay]
    rfl
  refine ⟨_, hsimp, ?_, rfl, rfl, rfl, rfl, hL.pay, rfl, ?_, hL.alc⟩
  · refine ⟨hseg, ?_, ?_, ?_, ?_, ?_⟩
    · have := h.nodup
      simp only [List.nodup_cons, List.mem_cons, List.mem_append, not_or, List.nodup_append] at this ⊢
      grind
    · intro x hx; apply h.bound; simp at hx ⊢; grind
    · have hp := h.pay
      simp only [List.map_append, List.map_cons] at hp ⊢
      obtain ⟨p1, p2⟩ := List.append_inj hp (by simp [hl])
      have p3 := (List.cons.inj p2).2
      have : (payOf hp2) = payOf c.heap := funext hL.pay
      rw [this, p1, p3]
    · have := h.hnodup
      simp only [List.map_append, List.map_cons, List.nodup_append, List.nodup_cons] at this ⊢
      grind
    · have hp := mapDel_perm hh h.idx
      have e : mapDel (((e1 ++ (hh, b) :: e2).map (·.1)).zip (l1 ++ r :: l2)) hh
          = ((e1 ++ e2).map (·.1)).zip (l1 ++ l2) := by
        simp only [List.map_append, List.map_cons]
        rw [List.zip_append (by simp [hl]), List.zip_append (by simp [hl]), List.zip_cons_cons]
        unfold mapDel
        rw [List.filter_append, List.filter_cons]
        simp only [not_true_eq_false, decide_false, Bool.false_eq_true, if_false]
        have hd := h.hnodup
        simp only [List.map_append, List.map_cons, List.nodup_append, List.nodup_cons] at hd
        congr 1
        · rw [List.filter_eq_self]
          intro p hp
          have hm : p.1 ∈ e1.map (·.1) := (List.of_mem_zip hp).1
          have := hd.2.2 p.1 hm hh (by simp)
          simpa using this
        · rw [List.filter_eq_self]
          intro p hp
          have hm : p.1 ∈ e2.map (·.1) := (List.of_mem_zip hp).1
          simp only [decide_eq_true_eq]
          intro hx; exact hd.2.1.1 (hx ▸ hm)
      rw [e] at hp; exact hp
  · intro x hx
    have hs' := h.seg
    rw [Seg.append] at hs'
    obtain ⟨a', ea', _, ma⟩ := hs'.1.last
    obtain ⟨b', eb', _, mb⟩ := hs'.2.first
    rw [ea] at ea'; rw [eb] at eb'
    cases ea'; cases eb'
    have h1 : x ≠ a := by rintro rfl; simp at ma hx; grind
    have h2 : x ≠ bb := by rintro rfl; simp at mb hx; grind
    constructor
    · show nextOf hp2 x = _; rw [hL.nx]; simp [updF, h1]
    · show prevOf hp2 x = _; rw [hL.pv]; simp [updF, h2]

end Verif.Lru

namespace Verif.Lru
open Verif.Spec.Lru (without lookup trim)
variable {H K B : Type} [DecidableEq H]

theorem linkFront_ok {c : Cache H B} {hp : Heap H B} {refs : List Ref} {x : Ref}
    (hs : Seg (nextOf hp) (prevOf hp) c.head refs c.tail) (hd : (c.head :: c.tail :: refs).Nodup)
    (hx : x ∉ c.head :: c.tail :: refs) (hxa : (hp x).isSome = true) :
    ∃ hp', linkFront c hp x = some hp' ∧ Seg (nextOf hp') (prevOf hp') c.head (x :: refs) c.tail
      ∧ (∀ y, payOf hp' y = payOf hp y) := by
  have hH : (hp c.head).isSome = true := hs.alc _ (by simp)
  obtain ⟨b, eb, eb', mb⟩ := hs.first
  have hB : (hp b).isSome = true := hs.alc b (by simp at mb ⊢; grind)
  have hxh : ¬ c.head = x := by intro h; simp [h] at hx
  obtain ⟨h1, s1, k1⟩ := setNext_spec hxa (some b)
  obtain ⟨h2, s2, k2⟩ := setPrev_spec (hp := h1) (r := x) (by rw [k1.alc]; exact hxa) (some c.head)
  obtain ⟨h3, s3, k3⟩ := setPrev_spec (hp := h2) (r := b) (by rw [k2.alc, k1.alc]; exact hB) (some x)
  obtain ⟨h4, s4, k4⟩ := setNext_spec (hp := h3) (r := c.head) (by rw [k3.alc, k2.alc, k1.alc]; exact hH) (some x)
  have n2 : nextOf h2 c.head = some b := by rw [k2.nx, k1.nx]; simp [updF, hxh, eb]
  have g2 : getNext h2 (some c.head) = some (some b) := by
    rw [getNext_spec (by rw [k2.alc, k1.alc]; exact hH), n2]
  refine ⟨h4, ?_, ?_, ?_⟩
  · simp only [linkFront, getNext_spec hH, eb, Option.bind_eq_bind, Option.bind_some, s1, s2, g2, s3, s4]
  · apply (hs.pushFront hd hx eb).congr
    · intro y _; rw [k4.nx]; unfold updF; split
      · rfl
      · rw [k3.nx, k2.nx, k1.nx]; rfl
    · intro y _; rw [k4.pv, k3.pv]; unfold updF; split
      · rfl
      · rw [k2.pv]; unfold updF; split
        · rfl
        · rw [k1.pv]
  · intro y; rw [k4.pay, k3.pay, k2.pay, k1.pay]

theorem Rep.find_ok {c : Cache H B} {refs es} (h : Rep c refs es) (matchKey : B → K → Bool) (hh : H) (k : K) :
    (∃ r l1 l2 e1 e2 b, refs = l1 ++ r :: l2 ∧ es = e1 ++ (hh, b) :: e2 ∧ l1.length = e1.length
      ∧ matchKey b k = true ∧ find matchKey c hh k = some (some r)
      ∧ lookup matchKey es hh k = some (hh, b))
    ∨ (find matchKey c hh k = some none ∧ lookup matchKey es hh k = none) := by
  unfold find
  cases hg : mapGet c.items hh with
  | none =>
    right
    refine ⟨rfl, ?_⟩
    unfold lookup
    rw [List.find?_eq_none]
    intro e he
    have := h.mapGet_none hg e he
    simp [this]
  | some r =>
    obtain ⟨l1, l2, e1, e2, b, hr, he, hl, hp⟩ := h.mapGet_some hg
    simp only [getPayload_spec, hp, Option.bind_eq_bind, Option.bind_some]
    have hd := h.hnodup
    rw [he] at hd
    simp only [List.map_append, List.map_cons, List.nodup_append, List.nodup_cons, List.mem_map, List.mem_cons] at hd
    have hne : e1.find? (fun e => decide (e.1 = hh ∧ matchKey e.2 k = true)) = none := by
      rw [List.find?_eq_none]
      intro e hm
      have := hd.2.2 e.1 ⟨e, hm, rfl⟩ hh (Or.inl rfl)
      simp [this]
    by_cases hm : matchKey b k = true
    · left
      refine ⟨r, l1, l2, e1, e2, b, hr, he, hl, hm, by simp [hm], ?_⟩
      unfold lookup
      rw [he, List.find?_append, hne]
      simp [hm]
    · right
      refine ⟨by simp [hm], ?_⟩
      unfold lookup
      rw [he, List.find?_append, hne]
      rw [Option.none_or, List.find?_cons_of_neg (by simp [hm]), List.find?_eq_none]
      intro e hme
      simp only [decide_eq_true_eq, not_and]
      intro hx
      exact absurd ⟨e, hme, hx⟩ hd.2.1.1

theorem Rep.touch_ok {c : Cache H B} {refs es} (h : Rep c refs es) (matchKey : B → K → Bool) (hh : H) (k : K) :
    (∃ c' r refs' b, touch matchKey c hh k = some (c', some r) ∧ lookup matchKey es hh k = some (hh, b)
      ∧ Rep c' (r :: refs') ((hh, b) :: without es hh) ∧ c'.maxItems = c.maxItems ∧ c'.items = c.items)
    ∨ (touch matchKey c hh k = some (c, none) ∧ lookup matchKey es hh k = none) := by
  rcases h.find_ok matchKey hh k with ⟨r, l1, l2, e1, e2, b, hr, he, hl, hm, hf, hlk⟩ | ⟨hf, hlk⟩
  · left
    subst hr
    obtain ⟨a, bb, hp1, hp2, ea, eb, s1, a1, pa, na, s2, hL, hseg⟩ := unlinkHeap h
    have hR : (c.heap r).isSome = true := h.alc r (by simp)
    have hnd := h.nodup
    have hx : r ∉ c.head :: c.tail :: (l1 ++ l2) := by
      simp only [List.nodup_cons, List.mem_cons, List.mem_append, not_or, List.nodup_append] at hnd ⊢
      grind
    have hd2 : (c.head :: c.tail :: (l1 ++ l2)).Nodup := by
      simp only [List.nodup_cons, List.mem_cons, List.mem_append, not_or, List.nodup_append] at hnd ⊢
      grind
    obtain ⟨hp3, s3, seg3, pay3⟩ := linkFront_ok hseg hd2 hx (by rw [hL.alc]; exact hR)
    have hpf : payOf hp3 = payOf c.heap := funext (fun y => by rw [pay3, hL.pay])
    have hp := h.pay
    rw [he] at hp
    simp only [List.map_append, List.map_cons] at hp
    obtain ⟨p1, p2⟩ := List.append_inj hp (by simp [hl])
    obtain ⟨p2, p3⟩ := List.cons.inj p2
    have hdn := h.hnodup
    have hw : without es hh = e1 ++ e2 := by rw [he] at hdn ⊢; exact without_split hdn
    refine ⟨{ c with heap := hp3 }, r, l1 ++ l2, b, ?_, hlk, ?_, rfl, rfl⟩
    · simp only [touch, hf, getPrev_spec hR, getNext_spec hR, ea, eb, Option.bind_eq_bind, Option.bind_some, s1,
        getPrev_spec a1, getNext_spec a1, pa, na, s2, s3]
      rfl
    · rw [hw]
      refine ⟨seg3, ?_, ?_, ?_, ?_, ?_⟩
      · simp only [List.nodup_cons, List.mem_cons, List.mem_append, not_or, List.nodup_append] at hnd ⊢
        grind
      · intro y hy; apply h.bound; simp at hy ⊢; grind
      · simp only [List.map_cons, List.map_append, hpf, p1, p2, p3]
      · rw [he] at hdn
        simp only [List.map_append, List.map_cons, List.nodup_append, List.nodup_cons, List.mem_append] at hdn ⊢
        grind
      · refine h.idx.trans ?_
        rw [he]
        simp only [List.map_append, List.map_cons]
        rw [List.zip_append (by simp [hl]), List.zip_cons_cons, List.zip_cons_cons, List.zip_append (by simp [hl])]
        exact List.perm_middle
  · right
    exact ⟨by simp [touch, hf], hlk⟩

theorem Rep.resizeLoop_ok {c : Cache H B} {refs es} (h : Rep c refs es) (fuel : Nat)
    (hf : es.length < fuel) (hm : 0 < c.maxItems) :
    ∃ c' refs', resizeLoop fuel c = some c' ∧ Rep c' refs' (es.take c.maxItems.toNat)
      ∧ c'.maxItems = c.maxItems := by
  induction fuel generalizing c refs es with
  | zero => omega
  | succ fuel ih =>
    unfold resizeLoop
    rw [h.items_len]
    by_cases hgt : (es.length : Int) > c.maxItems
    · rw [if_pos hgt]
      have hne : refs ≠ [] := by
        intro h0; have := h.len; rw [h0] at this; simp at this; omega
      have hne' : es ≠ [] := by intro h0; rw [h0] at hgt; simp at hgt; omega
      obtain ⟨l, r, hr⟩ : ∃ l r, refs = l ++ [r] := ⟨refs.dropLast, refs.getLast hne, (List.dropLast_concat_getLast hne).symm⟩
      obtain ⟨e1, e, he⟩ : ∃ l r, es = l ++ [r] := ⟨es.dropLast, es.getLast hne', (List.dropLast_concat_getLast hne').symm⟩
      obtain ⟨hh, b⟩ := e
      subst hr he
      have hl : l.length = e1.length := by have := h.len; simpa using this
      obtain ⟨c1, hu, hrep, hmx, -⟩ := h.unlink_ok hl
      have htail : getPrev c.heap (some c.tail) = some (some r) := by
        rw [getPrev_spec (h.alc _ (by simp)), h.seg.last_snoc]
      simp only [htail, Option.bind_eq_bind, Option.bind_some, hu]
      simp only [List.append_nil] at hrep
      obtain ⟨c2, refs2, hres, hrep2, hmx2⟩ := ih hrep (by simp at hf; omega) (by omega)
      refine ⟨c2, refs2, hres, ?_, by omega⟩
      rw [hmx] at hrep2
      have : (e1 ++ [(hh, b)]).take c.maxItems.toNat = e1.take c.maxItems.toNat := by
        rw [List.take_append_of_le_length]
        simp at hgt; omega
      rw [this]; exact hrep2
    · rw [if_neg hgt]
      refine ⟨c, refs, rfl, ?_, rfl⟩
      rw [List.take_of_length_le (by omega)]; exact h

theorem Rep.resize_ok {c : Cache H B} {refs es} (h : Rep c refs es) :
    ∃ c' refs', resize c = some c' ∧ Rep c' refs' (trim c.maxItems es) ∧ c'.maxItems = c.maxItems := by
  unfold resize trim
  by_cases hm : c.maxItems ≤ 0
  · rw [if_pos hm, if_pos hm]; exact ⟨c, refs, rfl, h, rfl⟩
  · rw [if_neg hm, if_neg hm]
    exact h.resizeLoop_ok _ (by rw [h.items_len]; omega) (by omega)

/-- Heap change at an address outside the structure. -/
theorem Rep.frame {c : Cache H B} {refs es} (h : Rep c refs es) (n : Node H B) :
    Rep { c with alloc := c.alloc + 1, heap := upd c.heap c.alloc n } refs es := by
  have hne : ∀ r ∈ c.head :: c.tail :: refs, r ≠ c.alloc := by
    intro r hr h0; exact absurd (h0 ▸ h.bound r hr) (Nat.lt_irrefl _)
  refine ⟨?_, h.nodup, ?_, ?_, h.hnodup, h.idx⟩
  · apply h.seg.congr
    · intro x hx; simp [nextOf, upd, hne x (by simp at hx ⊢; grind)]
    · intro x hx; simp [prevOf, upd, hne x (by simp at hx ⊢; grind)]
  · intro r hr; exact Nat.lt_succ_of_lt (h.bound r hr)
  · rw [← h.pay]
    apply List.map_congr_left
    intro x hx; simp [payOf, upd, hne x (by simp [hx])]

theorem Rep.insert_ok {c : Cache H B} {refs es} (h : Rep c refs es) (hh : H) (b : B) :
    ∃ c' refs', insert c hh b = some c' ∧ Rep c' refs' (trim c.maxItems ((hh, b) :: without es hh))
      ∧ c'.maxItems = c.maxItems := by
  have hfr := h.frame ⟨none, none, some (hh, b)⟩
  -- state after the optional unlink of a displaced entry
  have step : ∃ c1 refs1, (match mapGet c.items hh with
      | some existing => unlink { c with alloc := c.alloc + 1, heap := upd c.heap c.alloc ⟨none, none, some (hh, b)⟩ } existing
      | none => some { c with alloc := c.alloc + 1, heap := upd c.heap c.alloc ⟨none, none, some (hh, b)⟩ }) = some c1
      ∧ Rep c1 refs1 (without es hh) ∧ c1.maxItems = c.maxItems ∧ c1.alloc = c.alloc + 1
      ∧ (∀ r ∈ c1.head :: c1.tail :: refs1, r < c.alloc)
      ∧ payOf c1.heap c.alloc = some (hh, b) ∧ (c1.heap c.alloc).isSome = true
      ∧ mapDel c1.items hh = c1.items := by
    cases hg : mapGet c.items hh with
    | none =>
      have habs := h.mapGet_none hg
      refine ⟨_, refs, rfl, ?_, rfl, rfl, h.bound, by simp [payOf, upd], by simp [upd], ?_⟩
      · rw [without_absent habs]; exact hfr
      · show mapDel c.items hh = c.items
        unfold mapDel
        rw [List.filter_eq_self]
        intro p hp
        rw [mapGet_none_iff] at hg
        simp only [decide_eq_true_eq]
        intro h0; exact hg (List.mem_map.mpr ⟨p, hp, h0⟩)
    | some r =>
      obtain ⟨l1, l2, e1, e2, b', hr, he, hl, hp⟩ := h.mapGet_some hg
      subst hr he
      obtain ⟨c1, hu, hrep, hmx, hal, hhd, htl, hpay, hit, hout, halc⟩ := hfr.unlink_ok hl
      refine ⟨c1, l1 ++ l2, hu, ?_, hmx, hal, ?_, ?_, ?_, ?_⟩
      · rw [without_split h.hnodup]; exact hrep
      · rw [hhd, htl]; intro x hx; apply h.bound; simp at hx ⊢; grind
      · rw [hpay]; simp [payOf, upd]
      · rw [halc]; simp [upd]
      · rw [hit]; unfold mapDel; rw [List.filter_filter]; simp
  obtain ⟨c1, refs1, e1, hrep1, hmx1, hal1, hb1, hp1, ha1, hd1⟩ := step
  have hx : c.alloc ∉ c1.head :: c1.tail :: refs1 := by
    intro h0; exact absurd (hb1 _ h0) (Nat.lt_irrefl _)
  obtain ⟨hp2, s2, seg2, pay2⟩ := linkFront_ok (c := { c1 with items := mapSet c1.items hh c.alloc })
    (x := c.alloc) hrep1.seg hrep1.nodup hx ha1
  have habs : ∀ e ∈ without es hh, e.1 ≠ hh := by
    intro e he; unfold without at he; simp at he; exact he.2
  have hrep2 : Rep { c1 with items := mapSet c1.items hh c.alloc, heap := hp2 } (c.alloc :: refs1)
      ((hh, b) :: without es hh) := by
    refine ⟨seg2, ?_, ?_, ?_, ?_, ?_⟩
    · have := hrep1.nodup
      simp only [List.nodup_cons, List.mem_cons, not_or] at this hx ⊢
      grind
    · intro r hr
      show r < c1.alloc
      rw [hal1]
      simp only [List.mem_cons] at hr
      rcases hr with hr | hr | hr | hr
      · exact Nat.lt_succ_of_lt (hb1 r (by simp [hr]))
      · exact Nat.lt_succ_of_lt (hb1 r (by simp [hr]))
      · rw [hr]; exact Nat.lt_succ_self _
      · exact Nat.lt_succ_of_lt (hb1 r (by simp [hr]))
    · simp only [List.map_cons]
      rw [pay2, hp1]
      congr 1
      rw [← hrep1.pay]
      exact List.map_congr_left (fun x _ => pay2 x)
    · simp only [List.map_cons, List.nodup_cons]
      refine ⟨?_, hrep1.hnodup⟩
      intro hm
      obtain ⟨e, he, h0⟩ := List.mem_map.mp hm
      exact habs e he h0
    · show (mapSet c1.items hh c.alloc).Perm _
      unfold mapSet
      rw [hd1]
      simp only [List.map_cons, List.zip_cons_cons]
      exact List.Perm.cons _ hrep1.idx
  obtain ⟨c3, refs3, hrs, hrep3, hmx3⟩ := hrep2.resize_ok
  refine ⟨c3, refs3, ?_, ?_, ?_⟩
  · unfold insert
    cases hg : mapGet c.items hh with
    | none =>
      simp only [hg] at e1
      simp only [Option.bind_eq_bind, hg, e1, Option.bind_some, s2]; exact hrs
    | some r =>
      simp only [hg] at e1
      simp only [Option.bind_eq_bind, hg, e1, Option.bind_some, s2]; exact hrs
  · have : ({ c1 with items := mapSet c1.items hh c.alloc, heap := hp2 } : Cache H B).maxItems = c.maxItems := hmx1
    rw [this] at hrep3; exact hrep3
  · rw [hmx3]; exact hmx1


/-- The capacity bound. -/
def CapOk (cap : Int) (es : List (H × B)) : Prop := 0 < cap → (es.length : Int) ≤ cap

theorem trim_of_capOk {cap : Int} {es : List (H × B)} (h : CapOk cap es) : trim cap es = es := by
  unfold trim; split
  · rfl
  · rw [List.take_of_length_le]; have := h (by omega); omega

theorem capOk_trim (cap : Int) (es : List (H × B)) : CapOk cap (trim cap es) := by
  intro h; unfold trim; rw [if_neg (by omega), List.length_take]; omega

theorem without_length_lt {es : List (H × B)} {hh : H} (h : ∃ e ∈ es, e.1 = hh) :
    (without es hh).length < es.length := by
  obtain ⟨e, he, h0⟩ := h
  unfold without
  refine Nat.lt_of_le_of_ne (List.length_filter_le _ _) ?_
  intro h1
  rw [List.length_filter_eq_length_iff] at h1
  have := h1 e he
  simp [h0] at this

theorem lookup_mem {matchKey : B → K → Bool} {es : List (H × B)} {hh : H} {k : K} {e : H × B}
    (h : lookup matchKey es hh k = some e) : e ∈ es ∧ e.1 = hh ∧ matchKey e.2 k = true := by
  unfold lookup at h
  have h1 := List.mem_of_find?_eq_some h
  have h2 := List.find?_some h
  simp at h2
  exact ⟨h1, h2⟩

theorem new_rep (cap : Int) : Rep (new cap : Cache H B) [] [] := by
  refine ⟨?_, by simp [new], by simp [new], by simp, by simp, by simp [new]⟩
  simp [new, Seg, nextOf, prevOf]

theorem setBlob_rep {c : Cache H B} {r : Ref} {refs : List Ref} {hh : H} {b b' : B} {es : List (H × B)}
    (h : Rep c (r :: refs) ((hh, b) :: es)) :
    ∃ hp, setBlob c.heap r b' = some hp ∧ Rep { c with heap := hp } (r :: refs) ((hh, b') :: es) := by
  have hp := h.pay
  simp only [List.map_cons] at hp
  obtain ⟨p1, p2⟩ := List.cons.inj hp
  unfold payOf at p1
  cases hn : c.heap r with
  | none => rw [hn] at p1; simp at p1
  | some n =>
    rw [hn] at p1
    have p1' : n.payload = some (hh, b) := by simpa using p1
    refine ⟨upd c.heap r { n with payload := some (hh, b') }, by simp [setBlob, hn, p1'], ?_⟩
    have hnd := h.nodup
    refine ⟨?_, h.nodup, h.bound, ?_, ?_, ?_⟩
    · apply h.seg.congr
      · intro x _; simp only [nextOf, upd]; split <;> simp_all
      · intro x _; simp only [prevOf, upd]; split <;> simp_all
    · simp only [List.map_cons]
      congr 1
      · simp [payOf, upd]
      · rw [← p2]
        apply List.map_congr_left
        intro x hx
        have : x ≠ r := by
          intro h0; subst h0
          simp only [List.nodup_cons, List.mem_cons, not_or] at hnd
          exact hnd.2.2.1 hx
        simp [payOf, upd, this]
    · simpa using h.hnodup
    · simpa using h.idx

theorem Rep.addKey_ok {c : Cache H B} {refs es} (h : Rep c refs es) (hc : CapOk c.maxItems es)
    (hash : K → H) (matchKey : B → K → Bool) (k : K) (b : B) :
    ∃ c' refs', addKey hash matchKey c k b = some c'
      ∧ Rep c' refs' (Spec.Lru.add c.maxItems es (hash k) b) ∧ c'.maxItems = c.maxItems := by
  unfold addKey Spec.Lru.add
  rcases h.touch_ok matchKey (hash k) k with ⟨c1, r, refs1, b1, ht, hl, hrep, hmx, -⟩ | ⟨ht, hl⟩
  · obtain ⟨hp, hs, hrep2⟩ := setBlob_rep (b' := b) hrep
    refine ⟨{ c1 with heap := hp }, r :: refs1, ?_, ?_, hmx⟩
    · simp only [ht, Option.bind_eq_bind, Option.bind_some, hs]; rfl
    · rw [trim_of_capOk]
      · exact hrep2
      · intro h0
        obtain ⟨hm, h1, -⟩ := lookup_mem hl
        have := without_length_lt ⟨_, hm, h1⟩
        have := hc h0
        simp only [List.length_cons]; omega
  · obtain ⟨c', refs', hi, hrep, hmx⟩ := h.insert_ok (hash k) b
    exact ⟨c', refs', by simp only [ht, Option.bind_eq_bind, Option.bind_some, hi], hrep, hmx⟩

theorem Rep.get_ok {c : Cache H B} {refs es} (h : Rep c refs es)
    (hash : K → H) (matchKey : B → K → Bool) (k : K) :
    ∃ c' refs', Lru.get hash matchKey c k = some (c', (Spec.Lru.get matchKey es (hash k) k).2)
      ∧ Rep c' refs' (Spec.Lru.get matchKey es (hash k) k).1 ∧ c'.maxItems = c.maxItems := by
  unfold Lru.get Spec.Lru.get
  rcases h.touch_ok matchKey (hash k) k with ⟨c1, r, refs1, b1, ht, hl, hrep, hmx, -⟩ | ⟨ht, hl⟩
  · have hp := hrep.pay
    simp only [List.map_cons] at hp
    obtain ⟨p1, -⟩ := List.cons.inj hp
    refine ⟨c1, r :: refs1, ?_, ?_, hmx⟩
    · simp only [ht, Option.bind_eq_bind, Option.bind_some, getPayload_spec, p1, hl]; rfl
    · simp only [hl]; exact hrep
  · refine ⟨c, refs, ?_, ?_, rfl⟩
    · simp only [ht, Option.bind_eq_bind, Option.bind_some, hl]; rfl
    · simp only [hl]; exact h

theorem Rep.delete_ok {c : Cache H B} {refs es} (h : Rep c refs es)
    (hash : K → H) (matchKey : B → K → Bool) (k : K) :
    ∃ c' refs', Lru.delete hash matchKey c k = some c'
      ∧ Rep c' refs' (Spec.Lru.delete matchKey es (hash k) k) ∧ c'.maxItems = c.maxItems := by
  unfold Lru.delete Spec.Lru.delete
  rcases h.find_ok matchKey (hash k) k with ⟨r, l1, l2, e1, e2, b, hr, he, hl, hm, hf, hlk⟩ | ⟨hf, hlk⟩
  · subst hr
    have hw : without es (hash k) = e1 ++ e2 := by
      have := h.hnodup; rw [he] at this ⊢; exact without_split this
    have h' : Rep c (l1 ++ r :: l2) (e1 ++ (hash k, b) :: e2) := he ▸ h
    obtain ⟨c1, hu, hrep, hmx, -⟩ := h'.unlink_ok hl
    refine ⟨c1, l1 ++ l2, ?_, ?_, hmx⟩
    · simp only [hf, Option.bind_eq_bind, Option.bind_some, hu]
    · simp only [hlk, hw]; exact hrep
  · refine ⟨c, refs, ?_, ?_, rfl⟩
    · simp only [hf, Option.bind_eq_bind, Option.bind_some]; rfl
    · simp only [hlk]; exact h

theorem Rep.reset_ok {c : Cache H B} {refs es} (_ : Rep c refs es) : Rep (reset c) [] [] := by
  refine ⟨?_, by simp [reset], by simp [reset], by simp, by simp, by simp [reset]⟩
  simp [reset, Seg, nextOf, prevOf, upd]

theorem Seg.mid {nx pv : Ref → Option Ref} {a b : Ref} {l1 l2 : List Ref} {r : Ref}
    (h : Seg nx pv a (l1 ++ r :: l2) b) :
    nx r = some ((l2 ++ [b]).head (by simp)) := by
  obtain ⟨h1, h2⟩ := Seg.append.mp h
  obtain ⟨q, e, -, -⟩ := h2.first
  cases l2 with
  | nil => simp [Seg] at h2; simp [h2.1]
  | cons y ys => simp [Seg] at h2; simp [h2.1]

theorem Rep.deleteLoop_ok (f : H × B → Bool) (fuel : Nat) {c : Cache H B} {l1 l2 : List Ref} {e1 e2 : List (H × B)}
    (h : Rep c (l1 ++ l2) (e1 ++ e2)) (hl : l1.length = e1.length) (hf : l2.length < fuel) :
    ∃ c' refs', deleteLoop f fuel c ((l2 ++ [c.tail]).head (by simp)) = some c'
      ∧ Rep c' refs' (e1 ++ Spec.Lru.deleteIf f e2) ∧ c'.maxItems = c.maxItems := by
  induction fuel generalizing c l1 l2 e1 e2 with
  | zero => omega
  | succ fuel ih =>
    have hlen := h.len
    cases l2 with
    | nil =>
      have : e2 = [] := by
        have := hlen; simp only [List.length_append, List.length_nil] at this
        exact List.eq_nil_of_length_eq_zero (by omega)
      subst this
      refine ⟨c, l1, ?_, ?_, rfl⟩
      · simp [deleteLoop]
      · simpa [Spec.Lru.deleteIf] using h
    | cons r l2 =>
      cases e2 with
      | nil => simp only [List.length_append, List.length_cons, List.length_nil] at hlen; omega
      | cons e e2 =>
        have hrt : r ≠ c.tail := by
          intro h0; have := h.nodup; subst h0; simp at this
        have hR : (c.heap r).isSome = true := h.alc r (by simp)
        have hp := h.pay
        simp only [List.map_append, List.map_cons] at hp
        obtain ⟨-, hp⟩ := List.append_inj hp (by simp [hl])
        obtain ⟨hp, -⟩ := List.cons.inj hp
        have hnx : nextOf c.heap r = some ((l2 ++ [c.tail]).head (by simp)) := h.seg.mid
        simp only [List.cons_append, List.head_cons]
        unfold deleteLoop
        rw [if_neg hrt]
        simp only [getNext_spec hR, hnx, getPayload_spec, hp, Option.bind_eq_bind, Option.bind_some]
        by_cases hfe : f e = true
        · obtain ⟨hh, b⟩ := e
          obtain ⟨c1, hu, hrep, hmx, -, -, htl, -⟩ := h.unlink_ok hl
          rw [if_pos hfe, hu]
          simp only [Option.bind_some]
          obtain ⟨c', refs', hd, hrep', hmx'⟩ := ih hrep hl (by simp at hf; omega)
          refine ⟨c', refs', ?_, ?_, by omega⟩
          · rw [← hd]; simp [htl]
          · simpa [Spec.Lru.deleteIf, hfe] using hrep'
        · rw [if_neg hfe]
          have h2 : Rep c ((l1 ++ [r]) ++ l2) ((e1 ++ [e]) ++ e2) := by simpa using h
          obtain ⟨c', refs', hd, hrep', hmx'⟩ := ih h2 (by simp [hl]) (by simp at hf; omega)
          refine ⟨c', refs', hd, ?_, hmx'⟩
          simpa [Spec.Lru.deleteIf, hfe] using hrep'

theorem Rep.deleteFunc_ok {c : Cache H B} {refs es} (h : Rep c refs es) (f : H × B → Bool) :
    ∃ c' refs', deleteFunc f c = some c' ∧ Rep c' refs' (Spec.Lru.deleteIf f es)
      ∧ c'.maxItems = c.maxItems := by
  have h0 : Rep c ([] ++ refs) ([] ++ es) := h
  obtain ⟨c', refs', hd, hrep, hmx⟩ := h0.deleteLoop_ok f (c.items.length + 1) rfl
    (by rw [h.items_len]; have := h.len; omega)
  refine ⟨c', refs', ?_, by simpa using hrep, hmx⟩
  unfold deleteFunc
  have : nextOf c.heap c.head = some ((refs ++ [c.tail]).head (by simp)) := by
    have hs := h.seg
    cases refs with
    | nil => simp [Seg] at hs; simp [hs.1]
    | cons y ys => simp [Seg] at hs; simp [hs.1]
  simp only [getNext_spec (h.alc c.head (by simp)), this, Option.bind_eq_bind, Option.bind_some]
  exact hd

theorem Seg.midPrev {nx pv : Ref → Option Ref} {a b : Ref} {l1 l2 : List Ref} {r : Ref}
    (h : Seg nx pv a (l1 ++ r :: l2) b) :
    pv r = some ((a :: l1).getLast (by simp)) := by
  obtain ⟨h1, h2⟩ := Seg.append.mp h
  rcases List.eq_nil_or_concat l1 with h0 | ⟨l, x, h0⟩
  · subst h0; simp [Seg] at h1; simp [h1.2]
  · subst h0
    simp only [List.concat_eq_append] at h1 ⊢
    have := h1.last_snoc
    rw [this]
    rw [List.getLast_cons (by simp)]
    simp

theorem Rep.serializeLoop_ok (fuel : Nat) {c : Cache H B} {l1 l2 : List Ref} {e1 e2 : List (H × B)}
    (h : Rep c (l1 ++ l2) (e1 ++ e2)) (hl : l1.length = e1.length) (hf : l1.length < fuel) :
    serializeLoop fuel c ((c.head :: l1).getLast (by simp)) = some (e1.reverse.map (·.2)) := by
  induction fuel generalizing l1 l2 e1 e2 with
  | zero => omega
  | succ fuel ih =>
    rcases List.eq_nil_or_concat l1 with h0 | ⟨l, r, h0⟩
    · subst h0
      have : e1 = [] := List.eq_nil_of_length_eq_zero (by simpa using hl.symm)
      subst this
      simp [serializeLoop]
    · rcases List.eq_nil_or_concat e1 with h1 | ⟨e', e, h1⟩
      · subst h1 h0; simp at hl
      · subst h0 h1
        simp only [List.concat_eq_append] at *
        have h2 : Rep c (l ++ r :: l2) (e' ++ e :: e2) := by simpa using h
        have hl2 : l.length = e'.length := by simpa using hl
        have hrt : r ≠ c.head := by
          intro h0; have := h2.nodup; subst h0; simp at this
        have hR : (c.heap r).isSome = true := h2.alc r (by simp)
        have hp := h2.pay
        simp only [List.map_append, List.map_cons] at hp
        obtain ⟨-, hp⟩ := List.append_inj hp (by simp [hl2])
        obtain ⟨hp, -⟩ := List.cons.inj hp
        have hpv := h2.seg.midPrev
        have hlast : (c.head :: (l ++ [r])).getLast (by simp) = r := by
          rw [List.getLast_cons (by simp)]; simp
        rw [hlast]
        unfold serializeLoop
        rw [if_neg hrt]
        simp only [getPrev_spec hR, hpv, getPayload_spec, hp, Option.bind_eq_bind, Option.bind_some]
        rw [ih h2 hl2 (by simp at hf; omega)]
        simp

theorem Rep.serialize_ok {c : Cache H B} {refs es} (h : Rep c refs es) :
    serialize c = some (es.reverse.map (·.2)) := by
  have h0 : Rep c (refs ++ []) (es ++ []) := by simpa using h
  have := h0.serializeLoop_ok (c.items.length + 1) h.len (by rw [h.items_len]; have := h.len; omega)
  unfold serialize
  have hpv : prevOf c.heap c.tail = some ((c.head :: refs).getLast (by simp)) := by
    have hs := h.seg
    rcases List.eq_nil_or_concat refs with h0 | ⟨l, x, h0⟩
    · subst h0; simp [Seg] at hs; simp [hs.2]
    · subst h0
      simp only [List.concat_eq_append] at hs ⊢
      rw [hs.last_snoc, List.getLast_cons (by simp)]; simp
  simp only [getPrev_spec (h.alc c.tail (by simp)), hpv, Option.bind_eq_bind, Option.bind_some]
  exact this

end Verif.Lru
