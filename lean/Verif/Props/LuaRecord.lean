import Verif.Props.LuaBind

/-!
C80, continued: new records, asking resolvers, and the globals a script sees.
-/

namespace Verif.Props.LuaRecord
open Verif.LuaBind Verif.Spec.LuaBind Verif.Props.LuaBind

set_option linter.unusedVariables false
set_option linter.unusedSimpArgs false

theorem recEntry_string {E : Env} {n : Nat} {r : Rec} {bad : Bool} {k : Str} {v : LVal} (hk : k ≠ str "rtype") :
    recEntry E n (r, bad) (.string k, v) = ((recSet E r k v).getD r, bad || (recSet E r k v).isNone) := by
  unfold recEntry
  dsimp only
  rw [if_neg hk]
  cases recSet E r k v <;> simp

theorem recEntry_rtype {E : Env} {n : Nat} {r : Rec} {bad : Bool} {v : LVal} :
    recEntry E n (r, bad) (.string (str "rtype"), v) = ({ r with rtype := n }, bad) := by
  unfold recEntry
  dsimp only
  rw [if_pos rfl]

theorem recEntry_other {E : Env} {n : Nat} {r : Rec} {bad : Bool} {k v : LVal} (hk : ∀ f, k ≠ .string f) :
    recEntry E n (r, bad) (k, v) = (r, true) := by
  cases k <;> first | rfl | exact absurd rfl (hk _)

theorem not_settable_rtype {E : Env} (P : Plain E) {n : Nat} {t : Typ} : (str "rtype", t) ∉ settable E (.rr n) := by
  intro h
  rcases settable_rr.1 h with ⟨h1, _⟩ | ⟨h1, _⟩ | ⟨h1, _⟩ | ⟨l, i, ty, hl, hm, _⟩
  · exact absurd h1 (by decide)
  · exact absurd h1 (by decide)
  · exact absurd h1 (by decide)
  · exact (data_not_header P hl hm).1 (by simp only [headerNames]; decide)

/-- Entries that are refused are remembered. -/
theorem fold_bad {E : Env} (P : Plain E) {n : Nat} (t : List (LVal × LVal)) : ∀ (r : Rec) (bad : Bool), r.gotype = n →
    ((t.foldl (recEntry E n) (r, bad)).2 = false ↔ bad = false ∧ ∀ e ∈ t, e.1 ≠ .string (str "rtype") → Fills E n e) := by
  induction t with
  | nil => intro r bad _; simp
  | cons e t ih =>
    intro r bad hr
    rw [List.foldl_cons]
    obtain ⟨k, v⟩ := e
    by_cases hs : ∃ f, k = .string f
    · obtain ⟨f, rfl⟩ := hs
      by_cases hf : f = str "rtype"
      · subst hf
        rw [recEntry_rtype, ih { r with rtype := n } bad hr]
        simp
      · rw [recEntry_string hf, ih]
        · have hok := recSet_ok P (r := r) (f := f) (v := v)
          rw [hr] at hok
          have hne : LVal.string f ≠ .string (str "rtype") := fun h => hf (by injection h)
          have hfill : Fills E n (.string f, v) ↔ ∃ r', recSet E r f v = some r' := by
            rw [hok]
            constructor
            · rintro ⟨f', t', he, h⟩
              cases he
              exact ⟨t', h⟩
            · rintro ⟨t', h⟩
              exact ⟨f, t', rfl, h⟩
          rw [List.forall_mem_cons]
          simp only [hne, ne_eq, not_false_eq_true, true_implies, hfill]
          cases recSet E r f v <;> simp
        · cases hs : recSet E r f v with
          | none => exact hr
          | some r' => exact (recSet_gotype hs).trans hr
    · have hs' : ∀ f, k ≠ .string f := fun f h => hs ⟨f, h⟩
      rw [recEntry_other hs', ih _ _ hr]
      constructor
      · rintro ⟨h, _⟩; cases h
      · rintro ⟨_, h⟩
        obtain ⟨f, _, he, _⟩ := h (k, v) (by simp) (hs' _)
        exact absurd he (hs' _)

theorem isKey_iff {k : LVal} {f : Str} : isKey k f = true ↔ k = .string f := by
  cases k <;> simp [isKey]

theorem entry_some {t : List (LVal × LVal)} (K : Keyed t) {f : Str} {v : LVal} (hv : v ≠ .nil) :
    entry t f = v ↔ (.string f, v) ∈ t := by
  unfold entry
  induction t with
  | nil => simp [Ne.symm hv]
  | cons e t ih =>
    rw [Keyed, List.pairwise_cons] at K
    obtain ⟨k, w⟩ := e
    by_cases hk : k = .string f
    · have hkey : (fun e : LVal × LVal => isKey e.1 f) (k, w) = true := isKey_iff.2 hk
      rw [List.find?_cons_of_pos (p := fun e : LVal × LVal => isKey e.1 f) hkey]
      subst hk
      simp only [Option.map_some, Option.getD_some, List.mem_cons, Prod.mk.injEq, true_and]
      constructor
      · rintro rfl; exact Or.inl rfl
      · rintro (h | h)
        · exact h.symm
        · exact absurd rfl (K.1 (.string f, v) h)
    · have hkey : ¬ (fun e : LVal × LVal => isKey e.1 f) (k, w) = true := fun h => hk (isKey_iff.1 h)
      rw [List.find?_cons_of_neg (p := fun e : LVal × LVal => isKey e.1 f) hkey, ih K.2, List.mem_cons]
      constructor
      · exact Or.inr
      · rintro (h | h)
        · cases h; exact absurd rfl hk
        · exact h

theorem newRR_some {E : Env} {m : Mem} {t : List (LVal × LVal)} {p : Mem × LVal} : newRR E m t = some p ↔
    ∃ x l, entry t (str "rtype") = .num x ∧ E.types (E.uint 16 x) = some l ∧
      (t.foldl (recEntry E (E.uint 16 x)) (blank (E.uint 16 x) l, false)).2 = false ∧
      p = allocRec m .rr (t.foldl (recEntry E (E.uint 16 x)) (blank (E.uint 16 x) l, false)).1 := by
  unfold newRR recNew
  cases he : entry t (str "rtype") with
  | num x =>
    dsimp only
    cases hl : E.types (E.uint 16 x) with
    | none => simp [hl]
    | some l =>
      simp only [Option.bind_some, LVal.num.injEq]
      constructor
      · intro h
        obtain ⟨r, hr, hp⟩ := Option.map_eq_some_iff.1 h
        by_cases hb : (t.foldl (recEntry E (E.uint 16 x)) (blank (E.uint 16 x) l, false)).2 = true
        · rw [if_pos hb] at hr; cases hr
        · rw [if_neg hb] at hr
          cases hr
          exact ⟨x, l, rfl, hl, by simpa using hb, hp.symm⟩
      · rintro ⟨x', l', rfl, hl', hb, rfl⟩
        rw [hl] at hl'
        cases hl'
        rw [hb, if_neg (by decide)]
        rfl
  | _ => simp

/-- **When `RR.new` succeeds**: the table says the type, a number; there is such a type; and everything else in
the table is a field of that type with a value it takes. -/
theorem rr_new_ok {E : Env} (P : Plain E) {m : Mem} {t : List (LVal × LVal)} (K : Keyed t) :
    (∃ r, newRR E m t = some r) ↔ ∃ x, (.string (str "rtype"), .num x) ∈ t ∧ (E.types (E.uint 16 x)).isSome ∧
      ∀ e ∈ t, e.1 ≠ .string (str "rtype") → Fills E (E.uint 16 x) e := by
  constructor
  · rintro ⟨p, h⟩
    obtain ⟨x, l, he, hl, hb, _⟩ := newRR_some.1 h
    exact ⟨x, (entry_some K (by simp)).1 he, by rw [hl]; rfl, ((fold_bad P t (blank (E.uint 16 x) l) false rfl).1 hb).2⟩
  · rintro ⟨x, he, hl, hf⟩
    obtain ⟨l, hl⟩ := Option.isSome_iff_exists.1 hl
    exact ⟨_, newRR_some.2 ⟨x, l, (entry_some K (by simp)).2 he, hl, (fold_bad P t (blank (E.uint 16 x) l) false rfl).2 ⟨rfl, hf⟩, rfl⟩⟩

theorem fold_reads {E : Env} (C : Contract E) (P : Plain E) {m m' : Mem} {n : Nat} (t : List (LVal × LVal)) :
    ∀ (r : Rec), Keyed t → r.gotype = n → (t.foldl (recEntry E n) (r, false)).2 = false →
      (t.foldl (recEntry E n) (r, false)).1.gotype = n ∧
      (∀ f v ty, (.string f, v) ∈ t → (f, ty) ∈ settable E (.rr n) →
        ∃ x, recGet E m' (t.foldl (recEntry E n) (r, false)).1 f = some x ∧ Shows E m m' ty v x) ∧
      (∀ v, (.string (str "rtype"), v) ∈ t → (t.foldl (recEntry E n) (r, false)).1.rtype = n) ∧
      ((∀ v, (.string (str "rtype"), v) ∉ t) → (t.foldl (recEntry E n) (r, false)).1.rtype = r.rtype) ∧
      (∀ g, (∀ v, (.string g, v) ∉ t) → recGet E m' (t.foldl (recEntry E n) (r, false)).1 g = recGet E m' r g) := by
  induction t with
  | nil =>
    intro r _ hr _
    exact ⟨hr, fun f v ty h => (by cases h), fun v h => (by cases h), fun _ => rfl, fun _ _ => rfl⟩
  | cons e t ih =>
    intro r K hr hb
    rw [Keyed, List.pairwise_cons] at K
    rw [List.foldl_cons] at hb ⊢
    obtain ⟨k, v⟩ := e
    by_cases hs : ∃ f, k = .string f
    · obtain ⟨f, rfl⟩ := hs
      have hnot : ∀ w, (LVal.string f, w) ∉ t := fun w hw => K.1 _ hw rfl
      by_cases hf : f = str "rtype"
      · subst hf
        rw [recEntry_rtype] at hb ⊢
        obtain ⟨h1, h2, h3, h5, h4⟩ := ih { r with rtype := n } K.2 hr hb
        refine ⟨h1, ?_, fun _ _ => h5 hnot, fun h => absurd (by simp) (h v), ?_⟩
        · intro f w ty hm hset
          rcases List.mem_cons.1 hm with h | h
          · cases h; exact absurd hset (not_settable_rtype P)
          · exact h2 f w ty h hset
        · intro g hg
          rw [h4 g (fun w hw => hg w (List.mem_cons_of_mem _ hw))]
          have hgr : g ≠ str "rtype" := by rintro rfl; exact hg v (by simp)
          simp [recGet, hgr]
      · rw [recEntry_string hf] at hb ⊢
        cases hset : recSet E r f v with
        | none =>
          rw [hset] at hb
          have := ((fold_bad P t _ _ (by exact hr)).1 hb).1
          cases this
        | some r' =>
          rw [hset] at hb
          have hr' : r'.gotype = n := (recSet_gotype hset).trans hr
          obtain ⟨h1, h2, h3, h5, h4⟩ := ih r' K.2 hr' hb
          refine ⟨h1, ?_, ?_, fun h => (h5 fun w hw => h w (List.mem_cons_of_mem _ hw)).trans (recSet_rtype hset), ?_⟩
          · intro f' w ty hm hse
            rcases List.mem_cons.1 hm with h | h
            · cases h
              show ∃ x, recGet E m' (t.foldl (recEntry E n) (r', false)).1 f = some x ∧ _
              rw [h4 f hnot]
              exact recSet_get C P hset (by rw [hr]; exact hse)
            · exact h2 f' w ty h hse
          · intro w hm
            rcases List.mem_cons.1 hm with h | h
            · cases h; exact absurd rfl hf
            · exact h3 w h
          · intro g hg
            show recGet E m' (t.foldl (recEntry E n) (r', false)).1 g = _
            rw [h4 g (fun w hw => hg w (List.mem_cons_of_mem _ hw))]
            exact recSet_frame P hset (by rintro rfl; exact hg v (by simp))
    · have hs' : ∀ f, k ≠ .string f := fun f h => hs ⟨f, h⟩
      rw [recEntry_other hs'] at hb
      have := ((fold_bad P t _ _ hr).1 hb).1
      cases this

private theorem fieldsFrom_at (ix : List Nat) : ∀ (l pre : List (Str × FType)) (f : Str) (i : List Nat) (t : FType),
    (f, i, t) ∈ fieldsFrom ix pre.length l ↔ ∃ n k, (pre ++ l)[k]? = some (n, t) ∧ pre.length ≤ k ∧ t ≠ .hdr ∧ f = lower n ∧ i = ix ++ [k] := by
  intro l
  induction l with
  | nil =>
    intro pre f i t
    simp only [fieldsFrom, List.not_mem_nil, false_iff]
    rintro ⟨n, k, h1, h2, -⟩
    rw [List.append_nil, List.getElem?_eq_none h2] at h1
    cases h1
  | cons e l ih =>
    intro pre f i t
    obtain ⟨n, ty⟩ := e
    have ih' := ih (pre ++ [(n, ty)]) f i t
    rw [List.length_append, List.length_singleton, List.append_assoc, List.singleton_append] at ih'
    have hat : (pre ++ (n, ty) :: l)[pre.length]? = some (n, ty) := by simp
    unfold fieldsFrom
    by_cases ht : ty = .hdr
    · rw [if_pos ht, ih']
      constructor
      · rintro ⟨n', k, h1, h2, h3⟩
        exact ⟨n', k, h1, by omega, h3⟩
      · rintro ⟨n', k, h1, h2, h3, h4⟩
        rcases Nat.eq_or_lt_of_le h2 with rfl | h2
        · rw [hat] at h1
          cases h1
          exact absurd ht h3
        · exact ⟨n', k, h1, h2, h3, h4⟩
    · rw [if_neg ht, List.mem_cons, ih']
      constructor
      · rintro (h | ⟨n', k, h1, h2, h3⟩)
        · cases h
          exact ⟨n, pre.length, hat, Nat.le_refl _, ht, rfl, rfl⟩
        · exact ⟨n', k, h1, by omega, h3⟩
      · rintro ⟨n', k, h1, h2, h3, h4, h5⟩
        rcases Nat.eq_or_lt_of_le h2 with rfl | h2
        · rw [hat] at h1
          cases h1
          exact .inl (by rw [h4, h5])
        · exact .inr ⟨n', k, h1, h2, h3, h4, h5⟩

/-- A name of a field stands for the field of this name of the struct, in whatever case, and for no other place in memory; the header is not among the fields. -/
theorem field_place (l : Layout) (f : Str) (i : List Nat) (t : FType) : (f, i, t) ∈ fieldsOf l ↔ ∃ n, FieldAt l i n t ∧ t ≠ .hdr ∧ f = lower n := by
  cases l with
  | plain fields =>
    rw [show fieldsOf (.plain fields) = fieldsFrom [] ([] : List (Str × FType)).length fields from rfl, fieldsFrom_at]
    constructor
    · rintro ⟨n, k, h1, -, h3, h4, rfl⟩
      exact ⟨n, .plain h1, h3, h4⟩
    · rintro ⟨n, h, h3, h4⟩
      cases h with
      | plain h1 => exact ⟨n, _, h1, Nat.zero_le _, h3, h4, rfl⟩
  | composed before inner =>
    rw [show fieldsOf (.composed before inner) = fieldsFrom [before.length] ([] : List (Str × FType)).length inner from rfl, fieldsFrom_at]
    constructor
    · rintro ⟨n, k, h1, -, h3, h4, rfl⟩
      exact ⟨n, .composed h1, h3, h4⟩
    · rintro ⟨n, h, h3, h4⟩
      cases h with
      | composed h1 => exact ⟨n, _, h1, Nat.zero_le _, h3, h4, rfl⟩

theorem zeroData_get {l : Layout} {f : Str} {i : List Nat} {ty : FType} (h : (f, i, ty) ∈ fieldsOf l) :
    zeroData l i = zeroField ty := by
  unfold zeroData
  cases hf : (fieldsOf l).find? fun e => e.2.1 = i with
  | none =>
    rw [List.find?_eq_none] at hf
    exact absurd (hf _ h) (by simp)
  | some e =>
    have h1 := List.mem_of_find?_eq_some hf
    have h2 := List.find?_some hf
    have := pairwise_index (fieldsOf_distinct l) h1 h (by simpa using h2)
    subst this
    rfl

theorem blank_get {E : Env} (P : Plain E) {m : Mem} {n : Nat} {l : Layout} (hl : E.types n = some l) {f : Str} {t : Typ}
    (h : (f, t) ∈ settable E (.rr n)) : recGet E m (blank n l) f = some (initial E t) := by
  rcases settable_rr.1 h with ⟨rfl, rfl⟩ | ⟨rfl, rfl⟩ | ⟨rfl, rfl⟩ | ⟨l', i, ty, hl', hm, hs⟩
  · rfl
  · rfl
  · rfl
  · rw [hl] at hl'
    cases hl'
    rw [recGet_data (data_not_header P hl hm).1]
    show (E.types n).bind _ = _
    rw [hl]
    show (find (fieldsOf l) f).bind _ = _
    rw [find_mem (fieldsOf_unique P hl) hm]
    show fieldLua E m ty (zeroData l i) = _
    rw [zeroData_get hm]
    cases ty <;> cases hs <;> rfl

/-- **What a new record reads**: the type it was given, every field as it was given, and the others empty - also
the class. -/
theorem rr_new_read {E : Env} (C : Contract E) (P : Plain E) {m m' : Mem} {obj : LVal} {t : List (LVal × LVal)} (K : Keyed t)
    (h : newRR E m t = some (m', obj)) : ∃ x, (.string (str "rtype"), .num x) ∈ t ∧ Is m' obj (.rr (E.uint 16 x)) ∧
      (∃ r, get E m' obj (str "rtype") = some r ∧ ShowsNumber E 16 x r) ∧
      (∀ f v ty, (.string f, v) ∈ t → (f, ty) ∈ settable E (.rr (E.uint 16 x)) →
        ∃ r, get E m' obj f = some r ∧ Shows E m m' ty v r) ∧
      (∀ f ty, (∀ v, (.string f, v) ∉ t) → (f, ty) ∈ settable E (.rr (E.uint 16 x)) →
        get E m' obj f = some (initial E ty)) := by
  obtain ⟨x, l, he, hl, hb, hp⟩ := newRR_some.1 h
  have hx := (entry_some K (by simp)).1 he
  obtain ⟨h1, h2, h3, _, h4⟩ := fold_reads C P (m := m) (m' := m') (n := E.uint 16 x) t (blank (E.uint 16 x) l) K rfl hb
  have hg : ∀ g, get E m' obj g = recGet E m' (t.foldl (recEntry E (E.uint 16 x)) (blank (E.uint 16 x) l, false)).1 g := by
    intro g
    cases hp
    rw [show get E _ _ g = _ from getRR]
    congr 1
    exact upd_same _ _ _
  refine ⟨x, hx, ?_, ?_, ?_, ?_⟩
  · have : (m'.recs m.next).gotype = E.uint 16 x ∧ obj = .user (some .rr) (.record m.next) ∧ m.next < m'.next := by
      cases hp
      refine ⟨?_, rfl, Nat.lt_succ_self _⟩
      show (upd m.recs m.next _ m.next).gotype = _
      rw [upd_same]
      exact h1
    obtain ⟨hgt, rfl, hlt⟩ := this
    rw [← hgt]
    exact .rr hlt
  · refine ⟨_, ?_, shows_number C 16 x⟩
    rw [hg]
    unfold recGet
    rw [if_neg (by decide), if_pos rfl]
    exact congrArg (fun k => some (LVal.num (E.ofNat k))) (h3 _ hx)
  · intro f v ty hm hs
    rw [hg]
    exact h2 f v ty hm hs
  · intro f ty hm hs
    rw [hg, h4 f hm]
    exact blank_get P hl hs

/-- What setting a field changes. -/
inductive Change where
  | name (s : Str)
  | cls (n : Nat)
  | ttl (t : BitVec 32)
  | data (i : List Nat) (x : Val)

def Change.apply : Change → Rec → Rec
  | .name s, r => { r with name := s }
  | .cls n, r => { r with cls := n }
  | .ttl t, r => { r with ttl := t }
  | .data i x, r => r.set i x

/-- Where. -/
def Change.place : Change → Nat × List Nat
  | .name _ => (0, []) | .cls _ => (1, []) | .ttl _ => (2, []) | .data i _ => (3, i)

theorem Change.comm {c d : Change} (h : c.place ≠ d.place) (r : Rec) : c.apply (d.apply r) = d.apply (c.apply r) := by
  cases c <;> cases d <;> try rfl
  all_goals first | exact absurd rfl h | skip
  rename_i i x j y
  have hij : i ≠ j := fun hij => h (by rw [hij]; rfl)
  simp only [Change.apply, Rec.set, Rec.mk.injEq, true_and]
  funext k
  by_cases h1 : k = i
  · rw [if_pos h1]
    subst h1
    simp [hij]
  · simp [h1]

theorem recSet_change {E : Env} {n : Nat} {f : Str} {v : LVal} :
    (∀ r, r.gotype = n → recSet E r f v = none) ∨
    ∃ c : Change, (∀ r, r.gotype = n → recSet E r f v = some (c.apply r)) ∧
      ((f = str "name" ∧ c.place = (0, [])) ∨ (f = str "class" ∧ c.place = (1, [])) ∨ (f = str "ttl" ∧ c.place = (2, [])) ∨
        ∃ l i t, E.types n = some l ∧ find (fieldsOf l) f = some (i, t) ∧ c.place = (3, i)) := by
  by_cases h0 : ∃ r, r.gotype = n ∧ ∃ r', recSet E r f v = some r'
  · obtain ⟨r, hr, r', h⟩ := h0
    right
    rcases recSet_some h with ⟨rfl, s, rfl, rfl⟩ | ⟨rfl, x, rfl, rfl⟩ | ⟨rfl, x, rfl, rfl⟩ | ⟨hn, l, i, ty, x, hl, hfi, hx, rfl⟩
    · exact ⟨.name s, fun r _ => rfl, Or.inl ⟨rfl, rfl⟩⟩
    · exact ⟨.cls _, fun r _ => rfl, Or.inr (Or.inl ⟨rfl, rfl⟩)⟩
    · exact ⟨.ttl _, fun r _ => rfl, Or.inr (Or.inr (Or.inl ⟨rfl, rfl⟩))⟩
    · rw [hr] at hl
      refine ⟨.data i x, fun r hr => ?_, Or.inr (Or.inr (Or.inr ⟨l, i, ty, hl, hfi, rfl⟩))⟩
      rw [recSet_data hn, hr, hl]
      show (find (fieldsOf l) f).bind _ = _
      rw [hfi]
      show (fieldVal E ty v).map _ = _
      rw [hx]
      rfl
  · left
    intro r hr
    cases h : recSet E r f v with
    | none => rfl
    | some r' => exact absurd ⟨r, hr, r', h⟩ h0

/-- The two entries can be visited in either order. -/
theorem recEntry_comm {E : Env} {n : Nat} {a b : LVal × LVal} (hne : a.1 ≠ b.1) (r : Rec) (bad : Bool) (hr : r.gotype = n) :
    recEntry E n (recEntry E n (r, bad) a) b = recEntry E n (recEntry E n (r, bad) b) a := by
  have strings : ∀ f g v w, f ≠ str "rtype" → g ≠ str "rtype" → f ≠ g →
      recEntry E n (recEntry E n (r, bad) (.string f, v)) (.string g, w) =
        recEntry E n (recEntry E n (r, bad) (.string g, w)) (.string f, v) := by
    intro f g v w hf hg hfg
    simp only [recEntry_string hf, recEntry_string hg]
    rcases recSet_change (E := E) (n := n) (f := f) (v := v) with h1 | ⟨c, h1, p1⟩ <;>
    rcases recSet_change (E := E) (n := n) (f := g) (v := w) with h2 | ⟨d, h2, p2⟩
    · simp [h1 r hr, h2 r hr]
    · have hd : (d.apply r).gotype = n := by cases d <;> exact hr
      simp [h1 r hr, h2 r hr, h1 _ hd]
    · have hc : (c.apply r).gotype = n := by cases c <;> exact hr
      simp [h1 r hr, h2 r hr, h2 _ hc]
    · have hc : (c.apply r).gotype = n := by cases c <;> exact hr
      have hd : (d.apply r).gotype = n := by cases d <;> exact hr
      simp only [h1 r hr, h2 r hr, h2 _ hc, h1 _ hd, Option.getD_some, Option.isNone_some, Bool.or_false, Prod.mk.injEq, and_true]
      refine (Change.comm ?_ r).symm
      intro hp
      rcases p1 with ⟨rfl, q1⟩ | ⟨rfl, q1⟩ | ⟨rfl, q1⟩ | ⟨l, i, t, hl, hi, q1⟩ <;>
      rcases p2 with ⟨rfl, q2⟩ | ⟨rfl, q2⟩ | ⟨rfl, q2⟩ | ⟨l', i', t', hl', hi', q2⟩ <;>
      rw [q1, q2] at hp
      all_goals first
        | exact hfg rfl
        | (cases hp; done)
        | skip
      rw [hl] at hl'
      cases hl'
      exact hfg (congrArg Prod.fst (pairwise_index (fieldsOf_distinct l) (find_some hi) (find_some hi') (by injection hp)))
  have typed : ∀ g v w, g ≠ str "rtype" →
      recEntry E n (recEntry E n (r, bad) (.string (str "rtype"), v)) (.string g, w) =
        recEntry E n (recEntry E n (r, bad) (.string g, w)) (.string (str "rtype"), v) := by
    intro g v w hg
    simp only [recEntry_string hg, recEntry_rtype]
    rcases recSet_change (E := E) (n := n) (f := g) (v := w) with h2 | ⟨d, h2, p2⟩
    · rw [h2 r hr, h2 { r with rtype := n } hr]
      rfl
    · rw [h2 r hr, h2 { r with rtype := n } hr]
      cases d <;> rfl
  obtain ⟨k, v⟩ := a
  obtain ⟨k', w⟩ := b
  by_cases hk : ∃ f, k = .string f
  · obtain ⟨f, rfl⟩ := hk
    by_cases hk' : ∃ f, k' = .string f
    · obtain ⟨g, rfl⟩ := hk'
      have hfg : f ≠ g := fun h => hne (by rw [h])
      by_cases hf : f = str "rtype"
      · subst hf
        exact typed g v w (Ne.symm hfg)
      · by_cases hg : g = str "rtype"
        · subst hg
          exact (typed f w v hf).symm
        · exact strings f g v w hf hg hfg
    · have hs : ∀ f, k' ≠ .string f := fun f h => hk' ⟨f, h⟩
      rw [recEntry_other hs]
      by_cases hf : f = str "rtype"
      · subst hf
        rw [recEntry_rtype, recEntry_rtype, recEntry_other hs]
      · rw [recEntry_string hf, recEntry_string hf, recEntry_other hs]
        simp
  · have hs : ∀ f, k ≠ .string f := fun f h => hk ⟨f, h⟩
    rw [recEntry_other hs]
    by_cases hk' : ∃ f, k' = .string f
    · obtain ⟨f, rfl⟩ := hk'
      by_cases hf : f = str "rtype"
      · subst hf
        rw [recEntry_rtype, recEntry_rtype, recEntry_other hs]
      · rw [recEntry_string hf, recEntry_string hf, recEntry_other hs]
        simp
    · have hs' : ∀ f, k' ≠ .string f := fun f h => hk' ⟨f, h⟩
      rw [recEntry_other hs', recEntry_other hs', recEntry_other hs]

theorem recEntry_gotype {E : Env} {n : Nat} {p : Rec × Bool} {e : LVal × LVal} (h : p.1.gotype = n) :
    (recEntry E n p e).1.gotype = n := by
  obtain ⟨r, bad⟩ := p
  obtain ⟨k, v⟩ := e
  by_cases hk : ∃ f, k = .string f
  · obtain ⟨f, rfl⟩ := hk
    by_cases hf : f = str "rtype"
    · subst hf; rw [recEntry_rtype]; exact h
    · rw [recEntry_string hf]
      cases hs : recSet E r f v with
      | none => exact h
      | some r' => exact (recSet_gotype hs).trans h
  · rw [recEntry_other fun f h => hk ⟨f, h⟩]; exact h

theorem fold_perm {E : Env} {n : Nat} {t t' : List (LVal × LVal)} (p : t.Perm t') :
    Keyed t → ∀ q : Rec × Bool, q.1.gotype = n → t.foldl (recEntry E n) q = t'.foldl (recEntry E n) q := by
  induction p with
  | nil => intro _ q _; rfl
  | cons x p ih =>
    intro K q hq
    rw [Keyed, List.pairwise_cons] at K
    rw [List.foldl_cons, List.foldl_cons]
    exact ih K.2 _ (recEntry_gotype hq)
  | swap x y l =>
    intro K q hq
    rw [Keyed, List.pairwise_cons] at K
    simp only [List.foldl_cons]
    rw [recEntry_comm (K.1 x (by simp)) q.1 q.2 hq]
  | trans p p' ih ih' =>
    intro K q hq
    rw [ih K q hq]
    refine ih' ?_ q hq
    exact p.pairwise K (fun h => Ne.symm h)

/-- **The order of the table does not matter**: Lua does not say in which order the entries of a table are
visited. -/
theorem rr_new_order {E : Env} {m : Mem} {t t' : List (LVal × LVal)} (K : Keyed t) (p : t.Perm t') :
    newRR E m t = newRR E m t' := by
  have K' : Keyed t' := p.pairwise K (fun h => Ne.symm h)
  have key : ∀ r, newRR E m t = some r ↔ newRR E m t' = some r := by
    intro r
    rw [newRR_some, newRR_some]
    have he : ∀ x, entry t (str "rtype") = .num x ↔ entry t' (str "rtype") = .num x := by
      intro x
      rw [entry_some K (by simp), entry_some K' (by simp), p.mem_iff]
    constructor
    · rintro ⟨x, l, h1, h2, h3, h4⟩
      rw [fold_perm (n := E.uint 16 x) p K (blank (E.uint 16 x) l, false) rfl] at h3 h4
      exact ⟨x, l, (he x).1 h1, h2, h3, h4⟩
    · rintro ⟨x, l, h1, h2, h3, h4⟩
      rw [← fold_perm (n := E.uint 16 x) p K (blank (E.uint 16 x) l, false) rfl] at h3 h4
      exact ⟨x, l, (he x).2 h1, h2, h3, h4⟩
  cases h : newRR E m t with
  | none =>
    cases h' : newRR E m t' with
    | none => rfl
    | some r => rw [(key r).2 h'] at h; cases h
  | some r => exact ((key r).1 h).symm

/-- **Asking a resolver** takes a resolver, a message and the information about the client; anything else raises
an error, and no resolver is asked. The resolver gets that message and that client, and the script gets its
answer and its error. -/
theorem resolve_call (ask : Nat → Nat → Client → Option Nat × Option Str) (args : List LVal) :
    ((∃ out, resolveCall ask args = some out) ↔
      ∃ x y z i a ci, args = [.user x (.resolver i), .user y (.msg a), .user z (.client ci)]) ∧
    ∀ x y z i a ci out, resolveCall ask [.user x (.resolver i), .user y (.msg a), .user z (.client ci)] = some out →
      Gets (ask i a ci).1 (ask i a ci).2 out := by
  constructor
  · constructor
    · rintro ⟨out, h⟩
      unfold resolveCall at h
      split at h
      · exact ⟨_, _, _, _, _, _, rfl⟩
      · cases h
    · rintro ⟨x, y, z, i, a, ci, rfl⟩
      exact ⟨_, rfl⟩
  · intro x y z i a ci out h
    cases h
    cases h1 : (ask i a ci).1 <;> cases h2 : (ask i a ci).2 <;> simp [Gets]

/-- **The client** reads as it is, and cannot be changed. -/
theorem client_read {E : Env} {m : Mem} (ci : Client) :
    get E m (.user (some .client) (.client ci)) (str "source_ip") =
      some (match ci.sourceIP with | none => .nil | some a => .string (E.ipString a)) ∧
    get E m (.user (some .client) (.client ci)) (str "doh_path") = some (.string ci.dohPath) ∧
    get E m (.user (some .client) (.client ci)) (str "tls_server_name") = some (.string ci.tlsServerName) ∧
    get E m (.user (some .client) (.client ci)) (str "listener") = some (.string ci.listener) ∧
    get E m (.user (some .client) (.client ci)) (str "protocol") = some (.string ci.protocol) ∧
    get E m (.user (some .client) (.client ci)) (str "listener_addr") = some (.string ci.listenerAddr) ∧
    ∀ f v, assign E m (.user (some .client) (.client ci)) f v = (m, false) := by
  refine ⟨?_, rfl, rfl, rfl, rfl, rfl, fun f v => rfl⟩
  show some ((ci.sourceIP.map fun a => LVal.string (E.ipString a)).getD LVal.nil) = _
  cases ci.sourceIP <;> rfl

theorem putAll_not {g : Globals} {l : List (Str × Option Global)} {n : Str} (h : ∀ v, (n, v) ∉ l) : g.putAll l n = g n := by
  unfold Globals.putAll
  induction l generalizing g with
  | nil => rfl
  | cons e l ih =>
    rw [List.foldl_cons, ih fun v hv => h v (List.mem_cons_of_mem _ hv)]
    unfold Globals.put
    rw [if_neg]
    rintro rfl
    exact h e.2 (by simp)

theorem putAll_mem {g : Globals} {l : List (Str × Option Global)} {n : Str} (h : ∃ v, (n, v) ∈ l) :
    ∃ v, (n, v) ∈ l ∧ g.putAll l n = v := by
  unfold Globals.putAll
  induction l generalizing g with
  | nil => obtain ⟨v, h⟩ := h; cases h
  | cons e l ih =>
    rw [List.foldl_cons]
    by_cases hl : ∃ v, (n, v) ∈ l
    · obtain ⟨v, hv, h'⟩ := ih (g := g.put e.1 e.2) hl
      exact ⟨v, List.mem_cons_of_mem _ hv, h'⟩
    · obtain ⟨v, hv⟩ := h
      rcases List.mem_cons.1 hv with rfl | hv
      · refine ⟨v, by simp, ?_⟩
        have := putAll_not (g := g.put n v) (l := l) (n := n) (fun w hw => hl ⟨w, hw⟩)
        unfold Globals.putAll at this
        rw [this]
        simp [Globals.put]
      · exact absurd ⟨v, hv⟩ hl

theorem loaders_removed {L : Libs} {n : Str} (h : n ∈ loaders) : sandboxed L n = none := by
  obtain ⟨v, hv, h'⟩ := putAll_mem (g := Globals.putAll (Globals.putAll (fun _ => none) (L.base.map fun e => (e.1, some (.fn e.2))))
    [(str "table", some (.lib L.table)), (str "string", some (.lib L.string)),
    (str "math", some (.lib L.math)), (str "coroutine", some (.lib L.coroutine))]) (l := removed.map fun n => (n, none)) (n := n)
    ⟨none, List.mem_map.2 ⟨n, h, rfl⟩⟩
  obtain ⟨k, _, he⟩ := List.mem_map.1 hv
  cases he
  exact h'

/-- **The sandbox**: before it starts, a script finds the functions of the base library except those that load
code or files, the libraries that cannot reach outside, and nothing else - no files, no processes, no
environment, no debugger. -/
theorem sandbox {L : Libs} (R : Regular L) (n : Str) (x : Global) : sandboxed L n = some x ↔
    (∃ f, x = .fn f ∧ (n, f) ∈ L.base ∧ n ∉ loaders) ∨ ∃ fns, x = .lib fns ∧ (n, fns) ∈ harmless L := by
  by_cases hr : n ∈ loaders
  · rw [loaders_removed hr]
    constructor
    · intro h; cases h
    · rintro (⟨f, _, _, h⟩ | ⟨fns, rfl, h⟩)
      · exact absurd hr h
      · exfalso
        have : ∀ e ∈ harmless L, e.1 ∉ loaders := by
          simp only [harmless, List.forall_mem_cons, List.not_mem_nil, false_implies, implies_true, and_true]
          decide
        exact this _ h hr
  · have h1 : sandboxed L n = Globals.putAll (Globals.putAll (fun _ => none) (L.base.map fun e => (e.1, some (.fn e.2))))
        ((harmless L).map fun e => (e.1, some (.lib e.2))) n := by
      refine putAll_not ?_
      intro v hv
      obtain ⟨k, hk, he⟩ := List.mem_map.1 hv
      cases he
      exact hr hk
    rw [h1]
    by_cases hh : ∃ fns, (n, fns) ∈ harmless L
    · obtain ⟨fns, hh⟩ := hh
      obtain ⟨v, hv, h2⟩ := putAll_mem (g := Globals.putAll (fun _ => none) (L.base.map fun e => (e.1, some (.fn e.2))))
        (l := (harmless L).map fun e => (e.1, some (.lib e.2))) (n := n) ⟨some (.lib fns), List.mem_map.2 ⟨_, hh, rfl⟩⟩
      rw [h2]
      obtain ⟨e, he, hev⟩ := List.mem_map.1 hv
      have hbase : ∀ f, (n, f) ∉ L.base := by
        intro f hf
        have h3 := R.2 _ hf
        have : n ∈ [str "table", str "string", str "math", str "coroutine"] := by
          have := List.mem_map.2 ⟨_, hh, (rfl : (n, fns).1 = n)⟩
          simpa [harmless] using this
        refine h3 ?_
        simp only [List.mem_cons, List.not_mem_nil, or_false] at this ⊢
        rcases this with h | h | h | h <;> simp [h]
      have huniq : ∀ a ∈ harmless L, ∀ b ∈ harmless L, a.1 = b.1 → a = b := by
        have hp : (harmless L).Pairwise fun a b => a.1 ≠ b.1 := by
          simp only [harmless, List.pairwise_cons, List.forall_mem_cons, List.not_mem_nil, false_implies, implies_true,
            and_true, List.Pairwise.nil]
          decide
        intro a ha b hb hab
        obtain ⟨i, hi, rfl⟩ := List.mem_iff_getElem.1 ha
        obtain ⟨j, hj, rfl⟩ := List.mem_iff_getElem.1 hb
        have : i = j := pairwise_place hp (List.getElem?_eq_getElem hi) (List.getElem?_eq_getElem hj) (fun h => h hab) (fun h => h hab.symm)
        subst this
        rfl
      have hen : e = (n, fns) := huniq e he (n, fns) hh (by injection hev)
      subst hen
      cases hev
      constructor
      · intro h; cases h; exact Or.inr ⟨fns, rfl, hh⟩
      · rintro (⟨f, rfl, hf, _⟩ | ⟨fns', rfl, hf⟩)
        · exact absurd hf (hbase f)
        · have := huniq _ hf _ hh rfl
          cases this; rfl
    · rw [putAll_not]
      · by_cases hb : ∃ f, (n, f) ∈ L.base
        · obtain ⟨f, hf⟩ := hb
          obtain ⟨v, hv, h2⟩ := putAll_mem (g := fun _ => none) (l := L.base.map fun e => (e.1, some (Global.fn e.2))) (n := n)
            ⟨some (.fn f), List.mem_map.2 ⟨_, hf, rfl⟩⟩
          rw [h2]
          obtain ⟨e, he, hev⟩ := List.mem_map.1 hv
          have huniq : ∀ g, (n, g) ∈ L.base → g = f := by
            intro g hg
            obtain ⟨i, hi, h3⟩ := List.mem_iff_getElem.1 hf
            obtain ⟨j, hj, h4⟩ := List.mem_iff_getElem.1 hg
            have : i = j := pairwise_place R.1 (List.getElem?_eq_getElem hi) (List.getElem?_eq_getElem hj)
              (fun h => h (by rw [h3, h4])) (fun h => h (by rw [h3, h4]))
            subst this
            rw [h3] at h4
            cases h4; rfl
          obtain ⟨k, g⟩ := e
          cases hev
          rw [huniq g he]
          constructor
          · intro h; cases h; exact Or.inl ⟨f, rfl, hf, hr⟩
          · rintro (⟨f', rfl, hf', _⟩ | ⟨fns, rfl, h⟩)
            · rw [huniq f' hf']
            · exact absurd ⟨fns, h⟩ hh
        · rw [putAll_not]
          · constructor
            · intro h; cases h
            · rintro (⟨f, rfl, hf, _⟩ | ⟨fns, rfl, h⟩)
              · exact absurd ⟨f, hf⟩ hb
              · exact absurd ⟨fns, h⟩ hh
          · intro v hv
            obtain ⟨e, he, hev⟩ := List.mem_map.1 hv
            cases hev
            exact hb ⟨_, he⟩
      · intro v hv
        obtain ⟨e, he, hev⟩ := List.mem_map.1 hv
        cases hev
        exact hh ⟨_, he⟩

theorem resolve_not_api (N : Names) : str "Resolve" ∉ apiNames N := by
  have hpre : ∀ (p x : Str), (p ++ x).take p.length = p := fun p x => List.take_left
  have h : ∀ (p : Str), p ≠ (str "Resolve").take p.length → ∀ (l : List (Nat × Str)), str "Resolve" ∉ l.map (fun e => p ++ e.2) := by
    intro p hp l hm
    obtain ⟨e, _, he⟩ := List.mem_map.1 hm
    apply hp
    rw [← he, hpre]
  simp only [apiNames, List.mem_append, not_or]
  refine ⟨⟨⟨⟨⟨by decide, h _ (by decide) _⟩, h _ (by decide) _⟩, h _ (by decide) _⟩, by decide⟩, by decide⟩

/-- **When a script loads, and the globals it then has**: the top level of the script runs with the libraries
only. Afterwards the types and constants are defined, whatever the script had under these names; everything
else is what the script left. A script without a function `Resolve` is refused. -/
theorem script_globals (L : Libs) (N : Names) (sandbox : Bool) (body : Globals → Option Globals) (isFunction : Nat → Bool)
    (g : Globals) : newScript L N sandbox body isFunction = some g ↔
      ∃ g₀, body (if sandbox then sandboxed L else unsandboxed L) = some g₀ ∧
        ((∃ f, g₀ (str "Resolve") = some (.fn f)) ∨ ∃ x, g₀ (str "Resolve") = some (.script x) ∧ isFunction x = true) ∧
        (∀ n ∈ apiNames N, g n = some (.api n)) ∧ ∀ n, n ∉ apiNames N → g n = g₀ n := by
  have hin : ∀ (g₀ : Globals), ∀ n ∈ apiNames N, register N g₀ n = some (.api n) := by
    intro g₀ n hn
    obtain ⟨v, hv, h⟩ := putAll_mem (g := g₀) (l := (apiNames N).map fun n => (n, some (.api n))) (n := n)
      ⟨some (.api n), List.mem_map.2 ⟨n, hn, rfl⟩⟩
    obtain ⟨k, _, he⟩ := List.mem_map.1 hv
    cases he
    exact h
  have hout : ∀ (g₀ : Globals) n, n ∉ apiNames N → register N g₀ n = g₀ n := by
    intro g₀ n hn
    refine putAll_not ?_
    intro v hv
    obtain ⟨k, hk, he⟩ := List.mem_map.1 hv
    cases he
    exact hn hk
  have huniq : ∀ g₀, (∀ n ∈ apiNames N, g n = some (.api n)) → (∀ n, n ∉ apiNames N → g n = g₀ n) → register N g₀ = g := by
    intro g₀ h1 h2
    funext n
    by_cases hn : n ∈ apiNames N
    · rw [hin g₀ n hn, h1 n hn]
    · rw [hout g₀ n hn, h2 n hn]
  unfold newScript
  constructor
  · intro h
    obtain ⟨g₀, hb, h⟩ := Option.bind_eq_some_iff.1 h
    dsimp only at h
    have hres := hout g₀ _ (resolve_not_api N)
    have fin : register N g₀ = g → ((∃ f, g₀ (str "Resolve") = some (.fn f)) ∨ ∃ x, g₀ (str "Resolve") = some (.script x) ∧ isFunction x = true) →
        ∃ g₀, body (if sandbox then sandboxed L else unsandboxed L) = some g₀ ∧
          ((∃ f, g₀ (str "Resolve") = some (.fn f)) ∨ ∃ x, g₀ (str "Resolve") = some (.script x) ∧ isFunction x = true) ∧
          (∀ n ∈ apiNames N, g n = some (.api n)) ∧ ∀ n, n ∉ apiNames N → g n = g₀ n := by
      rintro rfl hr
      exact ⟨g₀, hb, hr, hin g₀, hout g₀⟩
    split at h
    · rename_i f hf
      exact fin (by injection h) (Or.inl ⟨f, by rw [← hres]; exact hf⟩)
    · rename_i x hx
      split at h
      · rename_i hfun
        exact fin (by injection h) (Or.inr ⟨x, by rw [← hres]; exact hx, hfun⟩)
      · cases h
    · cases h
  · rintro ⟨g₀, hb, hr, h1, h2⟩
    rw [hb]
    show (match register N g₀ (str "Resolve") with | some (.fn _) => some (register N g₀) | some (.script x) => if isFunction x then some (register N g₀) else none | _ => none) = some g
    rw [huniq g₀ h1 h2]
    have hres := h2 _ (resolve_not_api N)
    rcases hr with ⟨f, hf⟩ | ⟨x, hx, hfun⟩
    · rw [hres, hf]
    · rw [hres, hx]
      simp [hfun]

/-! ## A case -/

/-- Conversions that cut the fraction off, and a few record types: A, MX, TXT, OPT. -/
def caseEnv : Env where
  uint w x := match x with | .fin x => x.floor.toNat % 2 ^ w | .special _ => 0
  int x := match x with | .fin x => if 0 ≤ x then x.floor else - (-x).floor | .special _ => 0
  ofNat n := .fin n
  ofInt i := .fin i
  number _ := none
  text _ := none
  parseIP s := if s = str "192.0.2.1" then some [192, 0, 2, 1] else none
  ipString a := if a = [192, 0, 2, 1] then str "192.0.2.1" else str "?"
  types n := if n = 1 then some (.plain [(str "Hdr", .hdr), (str "A", .ip)])
    else if n = 15 then some (.plain [(str "Hdr", .hdr), (str "Preference", .uint 16), (str "Mx", .string)])
    else if n = 16 then some (.plain [(str "Hdr", .hdr), (str "Txt", .strings)])
    else if n = 41 then some (.plain [(str "Hdr", .hdr), (str "Option", .options)])
    else none

theorem floor_unique {x : Rat} {i : Int} (h1 : (i : Rat) ≤ x) (h2 : x < (i : Rat) + 1) : x.floor = i := by
  have a1 : i ≤ x.floor := Rat.le_floor_iff.2 h1
  have a2 : x.floor < i + 1 := Rat.floor_lt_iff.2 (by simpa using h2)
  omega

theorem caseContract : Contract caseEnv where
  uint_lt w x := by
    cases x with
    | fin x => exact Nat.mod_lt _ (Nat.pow_pos (by decide))
    | special k => exact Nat.pow_pos (by decide)
  uint_whole w x n h hn := by
    have : x.floor = (n : Int) := floor_unique (by rw [Rat.intCast_natCast]; exact h.1) (by rw [Rat.intCast_natCast]; exact h.2)
    show x.floor.toNat % 2 ^ w = n
    rw [this]
    exact Nat.mod_eq_of_lt hn
  int_trunc x i h _ _ := by
    show (if 0 ≤ x then x.floor else - (-x).floor) = i
    rcases h with ⟨h0, h1, h2⟩ | ⟨h0, h1, h2⟩
    · have : (0 : Rat) ≤ (i : Rat) := by simpa using (Rat.intCast_le_intCast (a := 0) (b := i)).2 h0
      rw [if_pos (Rat.le_trans this h1)]
      exact floor_unique h1 h2
    · have hf : (-x).floor = -i := by
        refine floor_unique ?_ ?_
        · rw [Rat.intCast_neg]; exact Rat.neg_le_neg h2
        · grind
      by_cases hx : 0 ≤ x
      · have hi0 : i = 0 := by
          have : (0 : Rat) ≤ (i : Rat) := Rat.le_trans hx h2
          have : (0 : Int) ≤ i := Rat.intCast_le_intCast.1 (by simpa using this)
          omega
        subst hi0
        rw [if_pos hx]
        have : x = 0 := Rat.le_antisymm (by simpa using h2) hx
        subst this
        decide +kernel
      · rw [if_neg hx, hf, Int.neg_neg]
  ofNat_exact n _ := rfl
  ofInt_exact i _ _ := rfl
  opt_layout := rfl

theorem casePlain : Plain caseEnv := by
  intro g l h
  change (if g = 1 then _ else if g = 15 then _ else if g = 16 then _ else if g = 41 then _ else none) = some l at h
  split at h
  · cases h; decide
  split at h
  · cases h; decide
  split at h
  · cases h; decide
  split at h
  · cases h; decide
  · cases h

/-- Nothing has been made yet. -/
def emptyMem : Mem := ⟨1, fun _ => blankMsg 0, fun _ => [], fun _ => ⟨0, [], 0, 0, 0, 0, fun _ => .num 0⟩, fun _ => ⟨.unregistered, zeroSlot⟩⟩

theorem emptyOrdered : Ordered emptyMem where
  question _ := Nat.zero_lt_one
  records _ r h := by cases h
  options _ _ _ h := by cases h
  opt _ h := by cases h

/-- `RR.new({name="example.org.", rtype=15, preference=10, mx="mail.example.org.", ttl=300})`. -/
def mxTable : List (LVal × LVal) :=
  [(.string (str "name"), .string (str "example.org.")), (.string (str "rtype"), .num (.fin 15)),
   (.string (str "preference"), .num (.fin 10)), (.string (str "mx"), .string (str "mail.example.org.")),
   (.string (str "ttl"), .num (.fin 300))]

theorem mxKeyed : Keyed mxTable := by
  simp only [Keyed, mxTable, List.pairwise_cons, List.forall_mem_cons, List.not_mem_nil, false_implies, implies_true, and_true,
    List.Pairwise.nil, ne_eq, LVal.string.injEq]
  decide

theorem uint15 : caseEnv.uint 16 (.fin 15) = 15 := caseContract.uint_whole 16 15 15 (by constructor <;> decide +kernel) (by decide)

theorem mxNew : ∃ r, newRR caseEnv emptyMem mxTable = some r := by
  refine (rr_new_ok casePlain mxKeyed).2 ⟨.fin 15, by simp [mxTable], ?_, ?_⟩
  · rw [uint15]; rfl
  · rw [uint15]
    intro e he hne
    simp only [mxTable, List.mem_cons, List.not_mem_nil, or_false] at he
    rcases he with rfl | rfl | rfl | rfl | rfl
    · exact ⟨str "name", .strict, rfl, by decide, _, rfl⟩
    · exact absurd rfl hne
    · exact ⟨str "preference", .cut 16, rfl, by decide, _, rfl⟩
    · exact ⟨str "mx", .strict, rfl, by decide, _, rfl⟩
    · exact ⟨str "ttl", .field 32, rfl, by decide, _, rfl⟩

/-- The new record is an MX record with class 0; it takes the assignment of a class but not of a type, nor of an
address, and the class reads back. -/
example : ∃ m obj, newRR caseEnv emptyMem mxTable = some (m, obj) ∧ Is m obj (.rr 15) ∧ Ordered m ∧
    get caseEnv m obj (str "mx") = some (.string (str "mail.example.org.")) ∧
    get caseEnv m obj (str "class") = some (.num (.fin 0)) ∧
    (assign caseEnv m obj (str "class") (.num (.fin 1))).2 = true ∧
    get caseEnv (assign caseEnv m obj (str "class") (.num (.fin 1))).1 obj (str "class") = some (.num (.fin 1)) ∧
    get caseEnv (assign caseEnv m obj (str "class") (.num (.fin 1))).1 obj (str "mx") = some (.string (str "mail.example.org.")) ∧
    (assign caseEnv m obj (str "rtype") (.num (.fin 1))).2 = false ∧
    (assign caseEnv m obj (str "a") (.string (str "192.0.2.1"))).2 = false := by
  obtain ⟨⟨m, obj⟩, h⟩ := mxNew
  obtain ⟨x, hx, hIs, _, hgiven, hblank⟩ := rr_new_read caseContract casePlain mxKeyed h
  have hx15 : x = .fin 15 := by
    simp only [mxTable, List.mem_cons, List.not_mem_nil, or_false, Prod.mk.injEq, LVal.string.injEq, LVal.num.injEq] at hx
    rcases hx with ⟨h, _⟩ | ⟨_, h⟩ | ⟨h, _⟩ | ⟨h, _⟩ | ⟨h, _⟩
    · exact absurd h (by decide)
    · exact h
    · exact absurd h (by decide)
    · exact absurd h (by decide)
    · exact absurd h (by decide)
  subst hx15
  rw [uint15] at hIs hgiven hblank
  have O : Ordered m := does_ordered emptyOrdered (.rr (E := caseEnv) mxTable _ (by
    intro e he
    simp only [mxTable, List.mem_cons, List.not_mem_nil, or_false] at he
    rcases he with rfl | rfl | rfl | rfl | rfl <;> trivial) h)
  have hcls : (assign caseEnv m obj (str "class") (.num (.fin 1))).2 = true :=
    (assignable casePlain hIs _ _).2 (Or.inl ⟨.field 16, by decide, _, rfl⟩)
  have hmx : get caseEnv m obj (str "mx") = some (.string (str "mail.example.org.")) := by
    obtain ⟨r, hr, hs⟩ := hgiven (str "mx") (.string (str "mail.example.org.")) .strict (by simp [mxTable]) (by decide)
    rw [hr, show r = _ from hs]
  refine ⟨m, obj, h, hIs, O, hmx, ?_, hcls, ?_, ?_, ?_, ?_⟩
  · refine hblank (str "class") (.field 16) ?_ (by decide)
    intro v hv
    simp only [mxTable, List.mem_cons, List.not_mem_nil, or_false, Prod.mk.injEq, LVal.string.injEq] at hv
    rcases hv with ⟨h, _⟩ | ⟨h, _⟩ | ⟨h, _⟩ | ⟨h, _⟩ | ⟨h, _⟩ <;> exact absurd h (by decide)
  · obtain ⟨r, hr, x, hx, _, hs⟩ := assigned_read caseContract casePlain hIs (f := str "class") (t := .field 16) (by decide) hcls
    cases hx
    rw [hr, hs 1 1 rfl (by constructor <;> decide +kernel) (by decide) (by decide)]
    rfl
  · rw [others_unchanged caseContract casePlain O hIs hIs, hmx]
    rintro ⟨_, h | h⟩
    · exact absurd h (by decide)
    · cases h
  · rw [← Bool.not_eq_true, assignable casePlain hIs]
    rintro (⟨t, ht, _⟩ | ⟨h, _⟩)
    · exact not_settable_rtype casePlain ht
    · exact absurd h (by decide)
  · rw [← Bool.not_eq_true, assignable casePlain hIs]
    rintro (⟨t, ht, _⟩ | ⟨h, _⟩)
    · have : ∀ e ∈ settable caseEnv (.rr 15), e.1 ≠ str "a" := by decide
      exact this _ ht rfl
    · exact absurd h (by decide)

/-- The entries of the table in another order give the same record. -/
example : newRR caseEnv emptyMem mxTable = newRR caseEnv emptyMem mxTable.reverse :=
  rr_new_order mxKeyed (List.reverse_perm _).symm

/-- A message, then `set_question`, then `set_edns0` twice: two OPT records, of which `is_edns0` gives the second. -/
example : ∃ m₁ m₂ m₃, setQuestionTo caseEnv 77777 (newMessage emptyMem).1 2 (.string (str "example.org.")) (.num (.fin 1)) = some m₁ ∧
    setEdns0 caseEnv m₁ 2 (.num (.fin 1232)) (.bool true) = some m₂ ∧ setEdns0 caseEnv m₂ 2 (.num (.fin 512)) (.bool false) = some m₃ ∧
    Runs caseEnv emptyMem m₃ ∧ Is m₃ (newMessage emptyMem).2 .message ∧ isEdns0 m₃ 2 = .user (some .opt) (.record 5) ∧
    get caseEnv m₃ (.user (some .opt) (.record 4)) (str "do_bit") = some (.bool true) ∧
    get caseEnv m₃ (newMessage emptyMem).2 (str "questions") = some (.table [.user (some .question) (.question 3 0)]) := by
  refine ⟨_, _, _, rfl, rfl, rfl, ?_, ?_, rfl, rfl, rfl⟩
  · have s₁ : Runs caseEnv emptyMem (newMessage emptyMem).1 := .step .refl .message
    have s₂ := s₁.step (.ask 77777 2 (.string (str "example.org.")) (.num (.fin 1)) _ (by decide) rfl)
    have s₃ := s₂.step (.edns0 2 (.num (.fin 1232)) (.bool true) _ (by decide) rfl)
    exact s₃.step (.edns0 2 (.num (.fin 512)) (.bool false) _ (by decide) rfl)
  · exact .message (by decide)

/-- Functions `print`, `load` and `tostring`, and one function in each library. -/
def caseLibs : Libs where
  base := [(str "print", 1), (str "load", 2), (str "tostring", 3)]
  table := [(str "concat", 4)]
  string := [(str "format", 5)]
  math := [(str "floor", 6)]
  coroutine := [(str "yield", 7)]
  package := [(str "loadlib", 8)]
  io := [(str "open", 9)]
  os := [(str "execute", 10)]
  debug := [(str "getinfo", 11)]
  channel := [(str "make", 12)]

theorem caseRegular : Regular caseLibs := by unfold Regular; decide

example : sandboxed caseLibs (str "print") = some (.fn 1) ∧ sandboxed caseLibs (str "load") = none ∧
    sandboxed caseLibs (str "os") = none ∧ sandboxed caseLibs (str "string") = some (.lib [(str "format", 5)]) ∧
    unsandboxed caseLibs (str "os") = some (.lib [(str "execute", 10)]) := by decide

/-- Without a sandbox a script can keep what it likes, but not under the name of a type: this script defines
`Resolve`, `helper` and `RR`. -/
example : ∃ g, newScript caseLibs ⟨[(1, str "A")], [(1, str "INET")], [(0, str "NOERROR")]⟩ true
      (fun g => some (((g.put (str "Resolve") (some (.script 1))).put (str "helper") (some (.script 2))).put (str "RR") (some (.script 3))))
      (fun x => x = 1) = some g ∧ g (str "Resolve") = some (.script 1) ∧ g (str "helper") = some (.script 2) ∧
    g (str "RR") = some (.api (str "RR")) ∧ g (str "TypeA") = some (.api (str "TypeA")) := by
  refine ⟨_, rfl, ?_, ?_, ?_, ?_⟩ <;> decide

end Verif.Props.LuaRecord
