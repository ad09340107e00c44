import Verif.Spec.Config
/-
C60: building the elements of a configuration.
-/
set_option linter.unusedVariables false
set_option linter.unusedSimpArgs false
namespace Verif.Props.Config
open Verif.Config Verif.Spec.Config

/-! Reachability -/

private inductive Star (es : Edges) : Str → Str → Prop where
  | refl (x : Str) : Star es x x
  | step {x y z : Str} : (x, y) ∈ es → Star es y z → Star es x z

private theorem Star.trans {es : Edges} {x y z : Str} (h : Star es x y) (h' : Star es y z) : Star es x z := by
  induction h with
  | refl => exact h'
  | step he _ ih => exact .step he (ih h')

private theorem Star.mono {es es' : Edges} (hs : ∀ x, x ∈ es → x ∈ es') {x y : Str} (h : Star es x y) : Star es' x y := by
  induction h with
  | refl => exact .refl _
  | step he _ ih => exact .step (hs _ he) ih

private theorem reach_refl (es : Edges) (x : Str) : reach es x x = true := by
  induction es with
  | nil => simp [reach]
  | cons e es ih => simp [reach, ih]

private theorem reach_trans (es : Edges) : ∀ {x y z : Str}, reach es x y = true → reach es y z = true → reach es x z = true := by
  induction es with
  | nil => intro x y z h1 h2; simp only [reach, beq_iff_eq] at *; rw [h1, h2]
  | cons e es ih =>
    intro x y z h1 h2
    simp only [reach, Bool.or_eq_true, Bool.and_eq_true] at *
    rcases h1 with h1 | ⟨h1, h1'⟩ <;> rcases h2 with h2 | ⟨h2, h2'⟩
    · exact Or.inl (ih h1 h2)
    · exact Or.inr ⟨ih h1 h2, h2'⟩
    · exact Or.inr ⟨h1, ih h1' h2⟩
    · exact Or.inr ⟨h1, h2'⟩

private theorem reach_edge {es : Edges} : ∀ {x y : Str}, (x, y) ∈ es → reach es x y = true := by
  induction es with
  | nil => intro x y h; cases h
  | cons e es ih =>
    intro x y h
    simp only [reach, Bool.or_eq_true, Bool.and_eq_true]
    cases h with
    | head => exact Or.inr ⟨reach_refl _ _, reach_refl _ _⟩
    | tail _ h => exact Or.inl (ih h)

private theorem reach_iff (es : Edges) : ∀ {x y : Str}, reach es x y = true ↔ Star es x y := by
  intro x y
  constructor
  · induction es generalizing x y with
    | nil => intro h; simp only [reach, beq_iff_eq] at h; subst h; exact .refl _
    | cons e es ih =>
      intro h
      simp only [reach, Bool.or_eq_true, Bool.and_eq_true] at h
      have mono : ∀ {u v : Str}, Star es u v → Star (e :: es) u v := fun h => h.mono fun x hx => List.mem_cons_of_mem _ hx
      rcases h with h | ⟨h, h'⟩
      · exact mono (ih h)
      · exact (mono (ih h)).trans (.step List.mem_cons_self (mono (ih h')))
  · intro h
    induction h with
    | refl => exact reach_refl _ _
    | step he _ ih => exact reach_trans es (reach_edge he) ih

private def Acyc (es : Edges) : Prop := ∀ a b, (a, b) ∈ es → ¬ Star es b a

private theorem Acyc.mono {es es' : Edges} (hs : ∀ x, x ∈ es → x ∈ es') (h : Acyc es') : Acyc es :=
  fun a b he hst => h a b (hs _ he) (hst.mono hs)

private theorem acyc_cons {es : Edges} {x : Str × Str} (h : Acyc es) : Acyc (x :: es) ↔ ¬ Star es x.2 x.1 := by
  constructor
  · intro h' hst
    exact h' x.1 x.2 List.mem_cons_self (hst.mono fun _ hx => List.mem_cons_of_mem _ hx)
  · intro hn a b he hst
    have hst := (reach_iff _).2 hst
    obtain ⟨c, d⟩ := x
    simp only [reach, Bool.or_eq_true, Bool.and_eq_true] at hst
    simp only [reach_iff] at hst
    cases he with
    | head =>
      rcases hst with hst | hst
      · exact hn hst
      · exact hn hst.1
    | tail _ he =>
      rcases hst with hst | hst
      · exact h a b he hst
      · exact hn (hst.2.trans (.step he hst.1))

private def Sane (ids : List Str) (x : Str × Str) : Prop := x.1 ≠ [] ∧ x.2 ≠ [] ∧ x.1 ∈ ids ∧ x.2 ∈ ids

private theorem addEdge_iff (ids : List Str) {es es' : Edges} {x : Str × Str} (h : Acyc es) :
    addEdge ids es x = some es' ↔ es' = x :: es ∧ Sane ids x ∧ x ∉ es ∧ Acyc (x :: es) := by
  rw [acyc_cons h]
  unfold addEdge
  by_cases h1 : x.1 = [] ∨ x.2 = [] ∨ x.1 ∉ ids ∨ x.2 ∉ ids
  · rw [if_pos h1]
    constructor
    · intro h; cases h
    · rintro ⟨_, ⟨a, b, c, d⟩, _⟩
      rcases h1 with h1 | h1 | h1 | h1 <;> contradiction
  · rw [if_neg h1]
    have hs : Sane ids x := by
      refine ⟨?_, ?_, ?_, ?_⟩
      · exact fun h => h1 (Or.inl h)
      · exact fun h => h1 (Or.inr (Or.inl h))
      · exact Classical.byContradiction fun h => h1 (Or.inr (Or.inr (Or.inl h)))
      · exact Classical.byContradiction fun h => h1 (Or.inr (Or.inr (Or.inr h)))
    by_cases h2 : x.1 = x.2
    · rw [if_pos h2]
      constructor
      · intro h; cases h
      · rintro ⟨_, _, _, hn⟩
        exact absurd (h2 ▸ Star.refl x.1) hn
    · rw [if_neg h2]
      by_cases h3 : x ∈ es
      · rw [if_pos h3]
        constructor
        · intro h; cases h
        · rintro ⟨_, _, hn, _⟩; exact absurd h3 hn
      · rw [if_neg h3]
        by_cases h4 : reach es x.2 x.1 = true
        · rw [if_pos h4]
          constructor
          · intro h; cases h
          · rintro ⟨_, _, _, hn⟩; exact absurd ((reach_iff _).1 h4) hn
        · rw [if_neg h4]
          constructor
          · intro h
            exact ⟨(Option.some.inj h).symm, hs, h3, fun h => h4 ((reach_iff _).2 h)⟩
          · rintro ⟨rfl, _⟩
            rfl

private theorem addEdges_iff (ids : List Str) : ∀ (xs : Edges) {es es' : Edges}, Acyc es →
    (addEdges ids xs es = some es' ↔ es' = xs.reverse ++ es ∧ (∀ x, x ∈ xs → Sane ids x ∧ x ∉ es) ∧ xs.Nodup ∧ Acyc (xs.reverse ++ es)) := by
  intro xs
  induction xs with
  | nil =>
    intro es es' h
    simp only [addEdges, List.reverse_nil, List.nil_append]
    constructor
    · intro h'; exact ⟨(Option.some.inj h').symm, by simp, List.nodup_nil, h⟩
    · rintro ⟨rfl, _⟩; rfl
  | cons x xs ih =>
    intro es es' h
    have hr : (x :: xs).reverse ++ es = xs.reverse ++ (x :: es) := by simp
    rw [hr]
    simp only [addEdges]
    cases ha : addEdge ids es x with
    | none =>
      constructor
      · intro h; cases h
      · rintro ⟨_, h1, h2, h3⟩
        have : addEdge ids es x = some (x :: es) := (addEdge_iff ids h).2 ⟨rfl, (h1 x List.mem_cons_self).1, (h1 x List.mem_cons_self).2,
          h3.mono fun y hy => List.mem_append.2 (Or.inr hy)⟩
        rw [ha] at this
        cases this
    | some es1 =>
      obtain ⟨rfl, hs, hn, hac⟩ := (addEdge_iff ids h).1 ha
      show addEdges ids xs (x :: es) = some es' ↔ _
      rw [ih hac]
      constructor
      · rintro ⟨h1, h2, h3, h4⟩
        refine ⟨h1, ?_, ?_, h4⟩
        · intro y hy
          cases hy with
          | head => exact ⟨hs, hn⟩
          | tail _ hy => exact ⟨(h2 y hy).1, fun h => (h2 y hy).2 (List.mem_cons_of_mem _ h)⟩
        · exact List.nodup_cons.2 ⟨fun hx => (h2 x hx).2 List.mem_cons_self, h3⟩
      · rintro ⟨h1, h2, h3, h4⟩
        have h3 := List.nodup_cons.1 h3
        refine ⟨h1, ?_, h3.2, h4⟩
        intro y hy
        refine ⟨(h2 y (List.mem_cons_of_mem _ hy)).1, ?_⟩
        intro hm
        cases hm with
        | head => exact h3.1 hy
        | tail _ hm => exact (h2 y (List.mem_cons_of_mem _ hy)).2 hm

private theorem addVertices_iff : ∀ (els : List Elem) (ids ids' : List Str), ids.Nodup →
    (addVertices els ids = some ids' ↔ ids' = ids ++ els.map (·.id) ∧ (ids ++ els.map (·.id)).Nodup) := by
  intro els
  induction els with
  | nil =>
    intro ids ids' h
    simp only [addVertices, List.map_nil, List.append_nil]
    constructor
    · intro h'; exact ⟨(Option.some.inj h').symm, h⟩
    · rintro ⟨rfl, _⟩; rfl
  | cons e els ih =>
    intro ids ids' h
    simp only [addVertices, List.map_cons]
    have hr : ids ++ e.id :: els.map (·.id) = (ids ++ [e.id]) ++ els.map (·.id) := by simp
    by_cases he : e.id ∈ ids
    · rw [if_pos he]
      constructor
      · intro h; cases h
      · rintro ⟨_, hn⟩
        have := (List.nodup_append.1 hn).2.2 e.id he e.id List.mem_cons_self
        exact absurd rfl this
    · rw [if_neg he, ih _ _ (by
        rw [List.nodup_append]
        refine ⟨h, by simp, ?_⟩
        intro a ha b hb
        rw [List.mem_singleton.1 hb]
        rintro rfl
        exact he ha), hr]

/-! Leaves -/

private theorem leaf_exists {es : Edges} (h : Acyc es) (vs : List Str) (hv : ∀ a b, (a, b) ∈ es → a ∈ vs → b ∈ vs) : ∀ (k : Nat) (v : Str), v ∈ vs → vs.countP (reach es v) = k →
    ∃ w, w ∈ vs ∧ ∀ b, (w, b) ∉ es := by
  intro k
  induction k using Nat.strongRecOn with
  | ind k ih =>
    intro v hvs hk
    by_cases hl : ∃ b, (v, b) ∈ es
    · obtain ⟨b, hb⟩ := hl
      have hbs := hv v b hb hvs
      refine ih (vs.countP (reach es b)) ?_ b hbs rfl
      rw [← hk]
      have hsub : ∀ x, reach es b x = true → reach es v x = true := fun x hx => reach_trans es (reach_edge hb) hx
      have hnv : reach es b v = false := by
        cases hr : reach es b v with
        | false => rfl
        | true => exact absurd ((reach_iff es).1 hr) (h v b hb)
      have key : ∀ l : List Str, l.countP (reach es b) + (if v ∈ l then 1 else 0) ≤ l.countP (reach es v) := by
        intro l
        induction l with
        | nil => simp
        | cons x l ihl =>
          simp only [List.countP_cons]
          by_cases hx : v = x
          · subst hx
            rw [hnv, reach_refl]
            simp only [List.mem_cons, true_or, if_true]
            have : l.countP (reach es b) ≤ l.countP (reach es v) := by
              refine Nat.le_trans (Nat.le_add_right _ _) ihl
            simp
            omega
          · have hm : (v ∈ x :: l) ↔ v ∈ l := by
              constructor
              · intro h
                cases h with
                | head => exact absurd rfl hx
                | tail _ h => exact h
              · exact List.mem_cons_of_mem _
            simp only [hm]
            cases hb : reach es b x with
            | false => simp; omega
            | true => rw [hsub x hb]; simp; omega
      have := key vs
      rw [if_pos hvs] at this
      omega
    · exact ⟨v, hvs, fun b hb => hl ⟨b, hb⟩⟩

/-! The graph while elements are built -/

/-- The id has not been built yet -/
private def Rem (g : Graph) (id : Str) : Prop := ∃ e, e ∈ g.verts ∧ e.id = id

private structure GInv (els : List Elem) (es : Edges) (g : Graph) : Prop where
  sub : ∀ e, e ∈ g.verts → e ∈ els
  nodup : (g.verts.map (·.id)).Nodup
  edges : ∀ x, x ∈ g.edges ↔ x ∈ es ∧ Rem g x.1 ∧ Rem g x.2

private theorem rem_del {g g' : Graph} {id : Str} (h : delVertex g id = some g') (x : Str) : Rem g' x ↔ Rem g x ∧ x ≠ id := by
  unfold delVertex at h
  split at h
  · cases h
  · cases h
    constructor
    · rintro ⟨e, he, rfl⟩
      have := List.mem_filter.1 he
      exact ⟨⟨e, this.1, rfl⟩, by simpa using this.2⟩
    · rintro ⟨⟨e, he, rfl⟩, hne⟩
      exact ⟨e, List.mem_filter.2 ⟨he, by simpa using hne⟩, rfl⟩

private theorem ginv_del {els : List Elem} {es : Edges} {g g' : Graph} {id : Str} (hg : GInv els es g) (h : delVertex g id = some g') : GInv els es g' := by
  have hr := rem_del h
  refine ⟨?_, ?_, ?_⟩
  · intro e he
    apply hg.sub
    unfold delVertex at h
    split at h
    · cases h
    · cases h
      exact (List.mem_filter.1 he).1
  · unfold delVertex at h
    split at h
    · cases h
    · cases h
      exact List.Nodup.sublist (List.Sublist.map _ List.filter_sublist) hg.nodup
  · intro x
    rw [hr, hr]
    have : x ∈ g'.edges ↔ x ∈ g.edges ∧ x.1 ≠ id ∧ x.2 ≠ id := by
      unfold delVertex at h
      split at h
      · cases h
      · cases h
        simp [List.mem_filter]
    rw [this, hg.edges]
    constructor
    · rintro ⟨⟨a, b, c⟩, d, e⟩; exact ⟨a, ⟨b, d⟩, c, e⟩
    · rintro ⟨a, ⟨b, d⟩, c, e⟩; exact ⟨⟨a, b, c⟩, d, e⟩

/-- What the edges are -/
private structure EInv (els : List Elem) (es : Edges) : Prop where
  edge : ∀ e, e ∈ els → ∀ r, r ∈ e.refs ++ e.opts → r ≠ [] → (e.id, r) ∈ es
  target : ∀ x, x ∈ es → ∃ f, f ∈ els ∧ f.id = x.2

private theorem leaf_refs {els : List Elem} {es : Edges} {g : Graph} (he : EInv els es) (hg : GInv els es g) {e : Elem} (hl : e ∈ leaves g) :
    e ∈ g.verts ∧ ∀ r, r ∈ e.refs ++ e.opts → r ≠ [] → ¬ Rem g r := by
  have hl := List.mem_filter.1 hl
  refine ⟨hl.1, ?_⟩
  intro r hr hne hrem
  have h1 := he.edge e (hg.sub e hl.1) r hr hne
  have h2 := (hg.edges (e.id, r)).2 ⟨h1, ⟨e, hl.1, rfl⟩, hrem⟩
  have := List.all_eq_true.1 hl.2 _ h2
  simp at this

private theorem lookups_some {m : Map} : ∀ {l : List Str} {rs : List El}, lookups m l = some rs ↔ l.map m = rs.map some := by
  intro l
  induction l with
  | nil =>
    intro rs
    simp only [lookups, List.map_nil]
    constructor
    · intro h; cases h; rfl
    · intro h
      cases rs with
      | nil => rfl
      | cons => cases h
  | cons r l ih =>
    intro rs
    simp only [lookups, List.map_cons]
    cases hm : m r with
    | none =>
      constructor
      · intro h; cases h
      · intro h
        cases rs with
        | nil => cases h
        | cons a rs => simp at h
    | some v =>
      constructor
      · intro h
        cases hl : lookups m l with
        | none => rw [hl] at h; cases h
        | some rs' =>
          rw [hl] at h
          cases h
          rw [ih.1 hl]
          rfl
      · intro h
        cases rs with
        | nil => cases h
        | cons a rs =>
          simp only [List.map_cons, List.cons.injEq, Option.some.injEq] at h
          rw [ih.2 h.2, h.1]
          rfl

private def WiredAt (ok : Ctor) (m : Map) (e : Elem) : Prop :=
  ∃ rs : List El, e.refs.map m = rs.map some ∧ m e.id = some (.mk e.id rs (e.opts.map m)) ∧ ok e rs (e.opts.map m) = true

private theorem instantiate_some {ok : Ctor} {m m' : Map} {e : Elem} : instantiate ok m e = some m' ↔
    ∃ rs : List El, e.refs.map m = rs.map some ∧ ok e rs (e.opts.map m) = true ∧ m' = upd m e.id (.mk e.id rs (e.opts.map m)) := by
  unfold instantiate
  cases hl : lookups m e.refs with
  | none =>
    constructor
    · intro h; cases h
    · rintro ⟨rs, h, _⟩
      rw [lookups_some.2 h] at hl
      cases hl
  | some rs =>
    show (if _ then _ else _) = _ ↔ _
    by_cases hok : ok e rs (e.opts.map m) = true
    · rw [if_pos hok]
      constructor
      · intro h
        exact ⟨rs, lookups_some.1 hl, hok, (Option.some.inj h).symm⟩
      · rintro ⟨rs', h, _, rfl⟩
        rw [lookups_some.2 h] at hl
        cases hl
        rfl
    · rw [if_neg hok]
      constructor
      · intro h; cases h
      · rintro ⟨rs', h, hok', _⟩
        rw [lookups_some.2 h] at hl
        cases hl
        exact absurd hok' hok

private theorem map_upd {m : Map} {id : Str} {v : El} {l : List Str} (h : id ∉ l) : l.map (upd m id v) = l.map m := by
  apply List.map_congr_left
  intro a ha
  have : a ≠ id := by rintro rfl; exact h ha
  simp [upd, this]

private theorem nodup_inj {els : List Elem} (hn : (els.map (·.id)).Nodup) {e f : Elem} (he : e ∈ els) (hf : f ∈ els) (h : e.id = f.id) : e = f := by
  induction els with
  | nil => cases he
  | cons x els ih =>
    have hn := List.nodup_cons.1 hn
    cases he with
    | head =>
      cases hf with
      | head => rfl
      | tail _ hf => exact absurd (List.mem_map.2 ⟨f, hf, h.symm⟩) hn.1
    | tail _ he =>
      cases hf with
      | head => exact absurd (List.mem_map.2 ⟨e, he, h⟩) hn.1
      | tail _ hf => exact ih hn.2 he hf

/-- Soundness -/
private structure SInv (ok : Ctor) (boot : Map) (els : List Elem) (es : Edges) (m : Map) (g : Graph) : Prop where
  ginv : GInv els es g
  wired : ∀ e, e ∈ els → ¬ Rem g e.id → WiredAt ok m e ∧ ∀ r, r ∈ e.refs ++ e.opts → r ≠ [] → ¬ Rem g r
  rest : ∀ id, (Rem g id ∨ ∀ e, e ∈ els → e.id ≠ id) → m id = boot id
  named : ∀ e, e ∈ els → e.id = [] → Rem g []

private theorem sinv_step {ok : Ctor} {boot : Map} {els : List Elem} {es : Edges} (hn : (els.map (·.id)).Nodup) {m m' : Map} {g g' : Graph} {e : Elem} (h : SInv ok boot els es m g)
    (he : e ∈ g.verts) (hl : ∀ r, r ∈ e.refs ++ e.opts → r ≠ [] → ¬ Rem g r) (hi : instantiate ok m e = some m') (hd : delVertex g e.id = some g') : SInv ok boot els es m' g' := by
  have hr := rem_del hd
  have hne : e.id ≠ [] := by
    intro h
    unfold delVertex at hd
    rw [if_pos h] at hd
    cases hd
  obtain ⟨rs, h1, h2, rfl⟩ := instantiate_some.1 hi
  have hrem : Rem g e.id := ⟨e, he, rfl⟩
  have hkeep : ∀ l : List Str, (∀ r, r ∈ l → r ≠ [] → ¬ Rem g r) → l.map (upd m e.id (.mk e.id rs (e.opts.map m))) = l.map m := by
    intro l hl
    apply map_upd
    intro hm
    exact hl e.id hm hne hrem
  refine ⟨ginv_del h.ginv hd, ?_, ?_, ?_⟩
  · intro f hf hnr
    by_cases hfe : f.id = e.id
    · have hfeq : f = e := by
        exact nodup_inj hn hf (h.ginv.sub e he) hfe
      subst hfeq
      refine ⟨⟨rs, ?_, ?_, ?_⟩, ?_⟩
      · rw [hkeep f.refs fun r hr => hl r (List.mem_append.2 (Or.inl hr))]
        exact h1
      · rw [hkeep f.opts fun r hr => hl r (List.mem_append.2 (Or.inr hr))]
        simp [upd]
      · rw [hkeep f.opts fun r hr => hl r (List.mem_append.2 (Or.inr hr))]
        exact h2
      · intro r hr' hr0 hrr
        exact hl r hr' hr0 ((hr r).1 hrr).1
    · have hfr : ¬ Rem g f.id := fun hh => hnr ((hr f.id).2 ⟨hh, hfe⟩)
      obtain ⟨⟨rs', a, b, c⟩, d⟩ := h.wired f hf hfr
      refine ⟨⟨rs', ?_, ?_, ?_⟩, ?_⟩
      · rw [hkeep f.refs fun r hr => d r (List.mem_append.2 (Or.inl hr))]
        exact a
      · rw [hkeep f.opts fun r hr => d r (List.mem_append.2 (Or.inr hr))]
        simp only [upd, if_neg hfe]
        exact b
      · rw [hkeep f.opts fun r hr => d r (List.mem_append.2 (Or.inr hr))]
        exact c
      · intro r hr' hr0 hrr
        exact d r hr' hr0 ((hr r).1 hrr).1
  · intro id hid
    have hide : id ≠ e.id := by
      rcases hid with hid | hid
      · exact ((hr id).1 hid).2
      · intro hh
        exact hid e (h.ginv.sub e he) hh.symm
    simp only [upd, if_neg hide]
    apply h.rest
    rcases hid with hid | hid
    · exact Or.inl ((hr id).1 hid).1
    · exact Or.inr hid
  · intro f hf hf0
    exact (hr []).2 ⟨h.named f hf hf0, Ne.symm hne⟩

private theorem sinv_round {ok : Ctor} {boot : Map} {els : List Elem} {es : Edges} (hn : (els.map (·.id)).Nodup) : ∀ (ls : List Elem) {m m' : Map} {g g' : Graph}, SInv ok boot els es m g →
    (ls.map (·.id)).Nodup → (∀ e, e ∈ ls → e ∈ g.verts ∧ ∀ r, r ∈ e.refs ++ e.opts → r ≠ [] → ¬ Rem g r) → round ok ls m g = some (m', g') → SInv ok boot els es m' g' := by
  intro ls
  induction ls with
  | nil =>
    intro m m' g g' h _ _ hr
    cases hr
    exact h
  | cons e ls ih =>
    intro m m' g g' h hnd hls hr
    simp only [round] at hr
    cases hi : instantiate ok m e with
    | none => rw [hi] at hr; cases hr
    | some m1 =>
      rw [hi] at hr
      simp only [] at hr
      cases hd : delVertex g e.id with
      | none => rw [hd] at hr; cases hr
      | some g1 =>
        rw [hd] at hr
        have hrem := rem_del hd
        have hnd' := List.nodup_cons.1 hnd
        refine ih (sinv_step hn h (hls e List.mem_cons_self).1 (hls e List.mem_cons_self).2 hi hd) hnd'.2 ?_ hr
        intro f hf
        obtain ⟨a, b⟩ := hls f (List.mem_cons_of_mem _ hf)
        refine ⟨?_, ?_⟩
        · have hfe : f.id ≠ e.id := fun hh => hnd'.1 (List.mem_map.2 ⟨f, hf, hh⟩)
          unfold delVertex at hd
          split at hd
          · cases hd
          · cases hd
            exact List.mem_filter.2 ⟨a, by simpa using hfe⟩
        · intro r hr hr0 hrr
          exact b r hr hr0 ((hrem r).1 hrr).1

private theorem leaves_nodup {els : List Elem} {es : Edges} {g : Graph} (hg : GInv els es g) {o : Orders} (ho : AnyOrder o) (n : Nat) : ((o.leaves n (leaves g)).map (·.id)).Nodup := by
  have h1 : ((leaves g).map (·.id)).Nodup := List.Nodup.sublist (List.Sublist.map _ List.filter_sublist) hg.nodup
  exact ((ho.leaves n (leaves g)).map _).nodup_iff.2 h1

private theorem sinv_loop {ok : Ctor} {boot : Map} {els : List Elem} {es : Edges} {o : Orders} (ho : AnyOrder o) (hn : (els.map (·.id)).Nodup) (he : EInv els es) : ∀ (n : Nat) {m m' : Map} {g : Graph},
    SInv ok boot els es m g → loop ok o n m g = some m' → ∃ g', SInv ok boot els es m' g' ∧ g'.verts = [] := by
  intro n
  induction n with
  | zero =>
    intro m m' g h hl
    simp only [loop] at hl
    split at hl
    · cases hl
      exact ⟨g, h, by assumption⟩
    · cases hl
  | succ n ih =>
    intro m m' g h hl
    simp only [loop] at hl
    split at hl
    · cases hl
      exact ⟨g, h, by assumption⟩
    · cases hr : round ok (o.leaves n (leaves g)) m g with
      | none => rw [hr] at hl; cases hl
      | some p =>
        obtain ⟨m1, g1⟩ := p
        rw [hr] at hl
        refine ih (sinv_round hn _ h (leaves_nodup h.ginv ho n) ?_ hr) hl
        intro e hel
        exact leaf_refs he h.ginv ((ho.leaves n (leaves g)).mem_iff.1 hel)

/-- Completeness: the elements built so far are as they should be -/
private structure CInv (boot want : Map) (els : List Elem) (es : Edges) (m : Map) (g : Graph) : Prop where
  ginv : GInv els es g
  todo : ∀ id, Rem g id → m id = boot id
  built : ∀ id, ¬ Rem g id → m id = want id

private theorem cinv_step {ok : Ctor} {boot want : Map} {els : List Elem} {es : Edges} (hne : ∀ e, e ∈ els → e.id ≠ []) (hw : ∀ e, e ∈ els → WiredAt ok want e) (hrefs : ∀ e, e ∈ els → [] ∉ e.refs)
    {m : Map} {g : Graph} {e : Elem} (h : CInv boot want els es m g) (he : e ∈ g.verts) (hl : ∀ r, r ∈ e.refs ++ e.opts → r ≠ [] → ¬ Rem g r) :
    ∃ m' g', instantiate ok m e = some m' ∧ delVertex g e.id = some g' ∧ CInv boot want els es m' g' := by
  have hels := h.ginv.sub e he
  obtain ⟨rs, a, b, c⟩ := hw e hels
  have h0 : ¬ Rem g [] := by
    rintro ⟨f, hf, hf0⟩
    exact hne f (h.ginv.sub f hf) hf0
  have hsame : ∀ l : List Str, (∀ r, r ∈ l → r ∈ e.refs ++ e.opts) → l.map m = l.map want := by
    intro l hll
    apply List.map_congr_left
    intro r hr
    apply h.built
    by_cases hr0 : r = []
    · rw [hr0]; exact h0
    · exact hl r (hll r hr) hr0
  have h1 := hsame e.refs fun r hr => List.mem_append.2 (Or.inl hr)
  have h2 := hsame e.opts fun r hr => List.mem_append.2 (Or.inr hr)
  have hd : ∃ g', delVertex g e.id = some g' := by
    unfold delVertex
    rw [if_neg (hne e hels)]
    exact ⟨_, rfl⟩
  obtain ⟨g', hd⟩ := hd
  have hr := rem_del hd
  refine ⟨_, g', instantiate_some.2 ⟨rs, h1.trans a, by rw [h2]; exact c, rfl⟩, hd, ginv_del h.ginv hd, ?_, ?_⟩
  · intro id hid
    have := (hr id).1 hid
    simp only [upd, if_neg this.2]
    exact h.todo id this.1
  · intro id hid
    by_cases hide : id = e.id
    · subst hide
      simp only [upd, if_true]
      rw [b, h2]
    · simp only [upd, if_neg hide]
      exact h.built id fun hh => hid ((hr id).2 ⟨hh, hide⟩)

private theorem cinv_round {ok : Ctor} {boot want : Map} {els : List Elem} {es : Edges} (hne : ∀ e, e ∈ els → e.id ≠ []) (hw : ∀ e, e ∈ els → WiredAt ok want e) (hrefs : ∀ e, e ∈ els → [] ∉ e.refs) :
    ∀ (ls : List Elem) {m : Map} {g : Graph}, CInv boot want els es m g → (ls.map (·.id)).Nodup → (∀ e, e ∈ ls → e ∈ g.verts ∧ ∀ r, r ∈ e.refs ++ e.opts → r ≠ [] → ¬ Rem g r) →
    ∃ m' g', round ok ls m g = some (m', g') ∧ CInv boot want els es m' g' ∧ g'.verts.length ≤ g.verts.length ∧ (ls ≠ [] → g'.verts.length < g.verts.length) := by
  intro ls
  induction ls with
  | nil => intro m g h _ _; exact ⟨m, g, rfl, h, Nat.le_refl _, by simp⟩
  | cons e ls ih =>
    intro m g h hnd hls
    obtain ⟨m1, g1, hi, hd, h'⟩ := cinv_step hne hw hrefs h (hls e List.mem_cons_self).1 (hls e List.mem_cons_self).2
    have hrem := rem_del hd
    have hnd' := List.nodup_cons.1 hnd
    have hv1 : g1.verts = g.verts.filter (·.id ≠ e.id) := by
      unfold delVertex at hd
      split at hd
      · cases hd
      · cases hd; rfl
    obtain ⟨m', g', hr, h'', hle, _⟩ := ih h' hnd'.2 (by
      intro f hf
      obtain ⟨a, b⟩ := hls f (List.mem_cons_of_mem _ hf)
      refine ⟨?_, ?_⟩
      · have hfe : f.id ≠ e.id := fun hh => hnd'.1 (List.mem_map.2 ⟨f, hf, hh⟩)
        rw [hv1]
        exact List.mem_filter.2 ⟨a, by simpa using hfe⟩
      · intro r hr hr0 hrr
        exact b r hr hr0 ((hrem r).1 hrr).1)
    have hlt : g1.verts.length < g.verts.length := by
      rw [hv1]
      apply List.length_filter_lt_length_iff_exists.2
      exact ⟨e, (hls e List.mem_cons_self).1, by simp⟩
    refine ⟨m', g', ?_, h'', by omega, fun _ => by omega⟩
    simp only [round, hi, hd]
    exact hr

private theorem cinv_loop {ok : Ctor} {boot want : Map} {els : List Elem} {es : Edges} {o : Orders} (ho : AnyOrder o) (hac : Acyc es) (he : EInv els es) (hne : ∀ e, e ∈ els → e.id ≠ [])
    (hw : ∀ e, e ∈ els → WiredAt ok want e) (hrefs : ∀ e, e ∈ els → [] ∉ e.refs) : ∀ (n : Nat) {m : Map} {g : Graph}, CInv boot want els es m g → g.verts.length ≤ n →
    loop ok o n m g = some want := by
  have hdone : ∀ {m : Map} {g : Graph}, CInv boot want els es m g → g.verts = [] → m = want := by
    intro m g h hv
    funext id
    apply h.built
    rintro ⟨e, he, _⟩
    rw [hv] at he
    cases he
  intro n
  induction n with
  | zero =>
    intro m g h hlen
    have hv : g.verts = [] := List.length_eq_zero_iff.1 (by omega)
    simp only [loop]
    rw [if_pos hv, hdone h hv]
  | succ n ih =>
    intro m g h hlen
    simp only [loop]
    by_cases hv : g.verts = []
    · rw [if_pos hv, hdone h hv]
    · rw [if_neg hv]
      obtain ⟨m', g', hr, h', _, hlt⟩ := cinv_round hne hw hrefs (o.leaves n (leaves g)) h (leaves_nodup h.ginv ho n) (by
        intro e hel
        exact leaf_refs he h.ginv ((ho.leaves n (leaves g)).mem_iff.1 hel))
      rw [hr]
      apply ih h'
      have hnl : o.leaves n (leaves g) ≠ [] := by
        intro hnil
        have hl : leaves g = [] := by
          have := (ho.leaves n (leaves g)).length_eq
          rw [hnil] at this
          exact List.length_eq_zero_iff.1 this.symm
        have hace : Acyc g.edges := hac.mono fun x hx => ((h.ginv.edges x).1 hx).1
        cases hvv : g.verts with
        | nil => exact hv hvv
        | cons v vs =>
          obtain ⟨w, hw, hwl⟩ := leaf_exists hace (g.verts.map (·.id)) (by
            intro a b hab _
            obtain ⟨f, hf, hfb⟩ := ((h.ginv.edges (a, b)).1 hab).2.2
            exact List.mem_map.2 ⟨f, hf, hfb⟩) _ v.id (by rw [hvv]; exact List.mem_cons_self) rfl
          obtain ⟨f, hf, rfl⟩ := List.mem_map.1 hw
          have : f ∈ leaves g := by
            refine List.mem_filter.2 ⟨hf, List.all_eq_true.2 ?_⟩
            intro x hx
            simp only [decide_eq_true_eq, ne_eq]
            intro hxf
            exact hwl x.2 (by rw [← hxf]; exact hx)
          rw [hl] at this
          cases this
      have := hlt hnl
      omega

/-! The edges of a configuration -/

private theorem elems_router {c : Cfg} {e : Elem} (he : e ∈ elems c) (hr : e.isRouter = true) : e.opts = [] := by
  unfold elems at he
  rcases List.mem_append.1 he with he | he
  · rcases List.mem_append.1 he with he | he
    · obtain ⟨_, _, rfl⟩ := List.mem_map.1 he; rfl
    · obtain ⟨_, _, rfl⟩ := List.mem_map.1 he; cases hr
  · obtain ⟨_, _, rfl⟩ := List.mem_map.1 he; rfl

private def linked (c : Cfg) : List Elem := c.groups.map groupElem ++ c.routers.map routerElem

private theorem elems_linked (c : Cfg) : elems c = c.resolvers.map resolverElem ++ linked c := by
  unfold elems linked
  rw [List.append_assoc]

private theorem mem_edgesOf {o : Orders} (ho : AnyOrder o) {e : Elem} (hr : e.isRouter = true → e.opts = []) (x : Str × Str) :
    x ∈ edgesOf o e ↔ x.1 = e.id ∧ x.2 ∈ e.refs ++ e.opts ∧ x.2 ≠ [] := by
  have h1 : ∀ b, b ∈ (if e.isRouter then o.deps e.refs else e.refs ++ e.opts) ↔ b ∈ e.refs ++ e.opts := by
    intro b
    cases h : e.isRouter with
    | false => simp
    | true =>
      simp only [if_true]
      rw [(ho.deps e.refs).2 b, hr h]
      simp
  unfold edgesOf
  rw [List.mem_map]
  constructor
  · rintro ⟨b, hb, rfl⟩
    have := List.mem_filter.1 hb
    exact ⟨rfl, (h1 b).1 this.1, by simpa using this.2⟩
  · rintro ⟨h2, h3, h4⟩
    exact ⟨x.2, List.mem_filter.2 ⟨(h1 x.2).2 h3, by simpa using h4⟩, by rw [← h2]⟩

private def allEdges (o : Orders) (c : Cfg) : Edges := (o.edges (linked c)).flatMap (edgesOf o)

private theorem mem_allEdges {o : Orders} (ho : AnyOrder o) (c : Cfg) (x : Str × Str) : x ∈ allEdges o c ↔ ∃ e, e ∈ elems c ∧ x.1 = e.id ∧ x.2 ∈ e.refs ++ e.opts ∧ x.2 ≠ [] := by
  unfold allEdges
  rw [List.mem_flatMap]
  constructor
  · rintro ⟨e, he, hx⟩
    have he := (ho.edges (linked c)).mem_iff.1 he
    have hel : e ∈ elems c := by rw [elems_linked]; exact List.mem_append.2 (Or.inr he)
    exact ⟨e, hel, (mem_edgesOf ho (elems_router hel) x).1 hx⟩
  · rintro ⟨e, he, hx⟩
    refine ⟨e, (ho.edges (linked c)).mem_iff.2 ?_, (mem_edgesOf ho (elems_router he) x).2 hx⟩
    rw [elems_linked] at he
    rcases List.mem_append.1 he with he | he
    · obtain ⟨_, _, rfl⟩ := List.mem_map.1 he
      cases hx.2.1
    · exact he

private theorem nodup_edges (o : Orders) : ∀ (l : List Elem), (l.map (·.id)).Nodup → ((l.flatMap (edgesOf o)).Nodup ↔ ∀ e, e ∈ l → (edgesOf o e).Nodup) := by
  intro l
  induction l with
  | nil => intro _; simp
  | cons e l ih =>
    intro hn
    have hn := List.nodup_cons.1 hn
    rw [List.flatMap_cons, List.nodup_append, ih hn.2]
    constructor
    · rintro ⟨h1, h2, _⟩ f hf
      cases hf with
      | head => exact h1
      | tail _ hf => exact h2 f hf
    · intro h
      refine ⟨h e List.mem_cons_self, fun f hf => h f (List.mem_cons_of_mem _ hf), ?_⟩
      intro a ha b hb
      rintro rfl
      obtain ⟨f, hf, hb⟩ := List.mem_flatMap.1 hb
      unfold edgesOf at ha hb
      obtain ⟨_, _, h1⟩ := List.mem_map.1 ha
      obtain ⟨_, _, h2⟩ := List.mem_map.1 hb
      apply hn.1
      refine List.mem_map.2 ⟨f, hf, ?_⟩
      have := congrArg Prod.fst (h1.trans h2.symm)
      exact this.symm

private theorem nodup_map_pair (id : Str) (l : List Str) : (l.map fun r => (id, r)).Nodup ↔ l.Nodup := by
  induction l with
  | nil => simp
  | cons a l ih =>
    rw [List.map_cons, List.nodup_cons, List.nodup_cons, ih]
    simp

private theorem edgesOf_nodup {o : Orders} (ho : AnyOrder o) (e : Elem) : (edgesOf o e).Nodup ↔ (e.isRouter = false → ((e.refs ++ e.opts).filter (· ≠ [])).Nodup) := by
  unfold edgesOf
  rw [nodup_map_pair]
  cases h : e.isRouter with
  | false => simp
  | true =>
    simp only [if_true]
    constructor
    · intro _ h; cases h
    · intro _
      exact List.Nodup.sublist List.filter_sublist (ho.deps e.refs).1

private theorem allEdges_nodup {o : Orders} (ho : AnyOrder o) (c : Cfg) (hn : ((elems c).map (·.id)).Nodup) :
    (allEdges o c).Nodup ↔ ∀ e, e ∈ elems c → e.isRouter = false → ((e.refs ++ e.opts).filter (· ≠ [])).Nodup := by
  have h1 : ((o.edges (linked c)).map (·.id)).Nodup := by
    refine ((ho.edges (linked c)).map _).nodup_iff.2 ?_
    rw [elems_linked, List.map_append] at hn
    exact (List.nodup_append.1 hn).2.1
  unfold allEdges
  rw [nodup_edges o _ h1]
  constructor
  · intro h e he
    rw [elems_linked] at he
    rcases List.mem_append.1 he with he | he
    · obtain ⟨_, _, rfl⟩ := List.mem_map.1 he
      intro _
      exact List.nodup_nil
    · exact (edgesOf_nodup ho e).1 (h e ((ho.edges (linked c)).mem_iff.2 he))
  · intro h e he
    have he := (ho.edges (linked c)).mem_iff.1 he
    exact (edgesOf_nodup ho e).2 (h e (by rw [elems_linked]; exact List.mem_append.2 (Or.inr he)))

private theorem uses_iff {o : Orders} (ho : AnyOrder o) (c : Cfg) {es : Edges} (hes : ∀ x, x ∈ es ↔ x ∈ allEdges o c) (a b : Str) : Uses (elems c) a b ↔ ∃ d, (a, d) ∈ es ∧ Star es d b := by
  constructor
  · intro h
    induction h with
    | one he hr h0 => exact ⟨_, (hes _).2 ((mem_allEdges ho c _).2 ⟨_, he, rfl, hr, h0⟩), .refl _⟩
    | more he hr h0 _ ih =>
      obtain ⟨d, hd, hst⟩ := ih
      exact ⟨_, (hes _).2 ((mem_allEdges ho c _).2 ⟨_, he, rfl, hr, h0⟩), .step hd hst⟩
  · rintro ⟨d, hd, hst⟩
    induction hst generalizing a with
    | refl y =>
      obtain ⟨e, he, h1, h2, h3⟩ := (mem_allEdges ho c _).1 ((hes _).1 hd)
      have h1 : a = e.id := h1
      subst h1
      exact .one he h2 h3
    | step hxy _ ih =>
      obtain ⟨e, he, h1, h2, h3⟩ := (mem_allEdges ho c _).1 ((hes _).1 hd)
      have h1 : a = e.id := h1
      subst h1
      exact .more he h2 h3 (ih _ hxy)

private theorem acyc_iff {o : Orders} (ho : AnyOrder o) (c : Cfg) {es : Edges} (hes : ∀ x, x ∈ es ↔ x ∈ allEdges o c) : Acyc es ↔ ∀ id, ¬ Uses (elems c) id id := by
  constructor
  · intro h id hu
    obtain ⟨d, hd, hst⟩ := (uses_iff ho c hes id id).1 hu
    exact h id d hd hst
  · intro h a b hab hst
    exact h a ((uses_iff ho c hes a a).2 ⟨b, hab, hst⟩)

/-! Listeners -/

private theorem listeners_iff {m : Map} : ∀ {ls : List ListenerCfg} {ws : List (Option El)}, listeners m ls = some ws ↔ Listeners ls m ws := by
  intro ls
  induction ls with
  | nil =>
    intro ws
    simp only [listeners, Listeners, List.map_nil]
    constructor
    · intro h; cases h; exact ⟨rfl, by simp⟩
    · rintro ⟨rfl, _⟩; rfl
  | cons l ls ih =>
    intro ws
    have h1 : ∀ r, listenerResolver m l = some r ↔ r = m l.resolver ∧ l.ok = true ∧ (m l.resolver ≠ none ∨ l.admin = true) := by
      intro r
      unfold listenerResolver
      cases m l.resolver <;> cases l.ok <;> cases l.admin <;> simp [eq_comm]
    simp only [listeners]
    cases hl : listenerResolver m l with
    | none =>
      constructor
      · intro h; cases h
      · rintro ⟨_, h⟩
        have := (h1 (m l.resolver)).2 ⟨rfl, h l List.mem_cons_self⟩
        rw [hl] at this
        cases this
    | some r =>
      obtain ⟨rfl, h2, h3⟩ := (h1 r).1 hl
      constructor
      · intro h
        cases hls : listeners m ls with
        | none => rw [hls] at h; cases h
        | some ws' =>
          rw [hls] at h
          cases h
          obtain ⟨a, b⟩ := ih.1 hls
          refine ⟨by rw [a]; rfl, ?_⟩
          intro l' hl'
          cases hl' with
          | head => exact ⟨h2, h3⟩
          | tail _ hl' => exact b l' hl'
      · rintro ⟨a, b⟩
        have : listeners m ls = some (ls.map fun l => m l.resolver) := ih.2 ⟨rfl, fun l' hl' => b l' (List.mem_cons_of_mem _ hl')⟩
        show Option.map _ (listeners m ls) = _
        rw [this, a]
        rfl

private theorem bootMap_eq (c : Cfg) (id : Str) : bootMap c id = if c.bootstrap = true ∧ id = str "bootstrap-resolver" then some (.mk id [] []) else none := by
  unfold bootMap
  cases c.bootstrap with
  | false => simp
  | true =>
    simp only [if_true, upd, bootId, true_and]
    by_cases h : id = str "bootstrap-resolver"
    · rw [if_pos h, if_pos h, h]
    · rw [if_neg h, if_neg h]

/-- A configuration is accepted if and only if it makes sense and the constructors are content; then every element has been built from exactly the elements it refers to, and every
listener has its element. The order in which the runtime iterates over maps does not matter. -/
theorem config_start (ok : Ctor) (o : Orders) (ho : AnyOrder o) (c : Cfg) (m : Map) (ws : List (Option El)) : start ok o c = some (m, ws) ↔
    (c.bootstrap = true → ok (resolverElem (str "bootstrap-resolver")) [] [] = true) ∧ Good (elems c) ∧ Wired ok (elems c) m ∧ NothingElse c m ∧ Listeners c.listeners m ws := by
  have hb0 : bootMap c [] = none := by
    rw [bootMap_eq, if_neg]
    rintro ⟨_, h⟩
    cases h
  have hacn : Acyc [] := fun a b h => by cases h
  constructor
  · intro hs
    unfold start at hs
    split at hs
    · cases hs
    · rename_i hb
      have hb : c.bootstrap = true → ok (resolverElem (str "bootstrap-resolver")) [] [] = true := by
        intro h
        rw [h] at hb
        simpa [bootId] using hb
      cases hv : addVertices (elems c) [] with
      | none => rw [hv] at hs; cases hs
      | some ids =>
        rw [hv] at hs
        simp only [] at hs
        obtain ⟨hids, hn⟩ := (addVertices_iff (elems c) [] ids List.nodup_nil).1 hv
        rw [List.nil_append] at hids hn
        cases hes : addEdges ids ((o.edges (c.groups.map groupElem ++ c.routers.map routerElem)).flatMap (edgesOf o)) [] with
        | none => rw [hes] at hs; cases hs
        | some es =>
          rw [hes] at hs
          simp only [] at hs
          obtain ⟨h1, h2, h3, h4⟩ := (addEdges_iff ids _ hacn).1 hes
          rw [List.append_nil] at h1 h4
          have hmem : ∀ x, x ∈ es ↔ x ∈ allEdges o c := by
            intro x
            rw [h1, List.mem_reverse]
            rfl
          rw [← h1] at h4
          have hsane : ∀ x, x ∈ allEdges o c → Sane ids x := fun x hx => (h2 x hx).1
          have he : EInv (elems c) es := by
            constructor
            · intro e he r hr h0
              exact (hmem _).2 ((mem_allEdges ho c _).2 ⟨e, he, rfl, hr, h0⟩)
            · intro x hx
              have := (hsane x ((hmem x).1 hx)).2.2.2
              rw [hids] at this
              obtain ⟨f, hf, hf'⟩ := List.mem_map.1 this
              exact ⟨f, hf, hf'⟩
          cases hl : loop ok o (elems c).length (bootMap c) { verts := elems c, edges := es } with
          | none => rw [hl] at hs; cases hs
          | some m1 =>
            rw [hl] at hs
            simp only [] at hs
            cases hw : listeners m1 c.listeners with
            | none => rw [hw] at hs; cases hs
            | some ws1 =>
              rw [hw] at hs
              cases hs
              have hrem : ∀ e, e ∈ elems c → Rem { verts := elems c, edges := es } e.id := fun e he => ⟨e, he, rfl⟩
              have init : SInv ok (bootMap c) (elems c) es (bootMap c) { verts := elems c, edges := es } := by
                refine ⟨⟨fun e he => he, hn, ?_⟩, fun e he hnr => absurd (hrem e he) hnr, fun _ _ => rfl, ?_⟩
                · intro x
                  constructor
                  · intro hx
                    refine ⟨hx, ?_, ?_⟩
                    · obtain ⟨e, he', h, _⟩ := (mem_allEdges ho c x).1 ((hmem x).1 hx)
                      exact ⟨e, he', h.symm⟩
                    · obtain ⟨f, hf, hf'⟩ := he.target x hx
                      exact ⟨f, hf, hf'⟩
                  · exact fun h => h.1
                · intro e he h0
                  exact ⟨e, he, h0⟩
              obtain ⟨g', hfin, hvs⟩ := sinv_loop ho hn he _ init hl
              have hnone : ∀ id, ¬ Rem g' id := by
                rintro id ⟨e, he, _⟩
                rw [hvs] at he
                cases he
              have hne : ∀ e, e ∈ elems c → e.id ≠ [] := fun e he h0 => hnone _ (hfin.named e he h0)
              have hm0 : m [] = none := by
                rw [hfin.rest [] (Or.inr hne)]
                exact hb0
              have hexists : ∀ e, e ∈ elems c → ∀ r, r ∈ e.refs ++ e.opts → r ≠ [] → ∃ f, f ∈ elems c ∧ f.id = r := by
                intro e he' r hr h0
                exact he.target _ (he.edge e he' r hr h0)
              refine ⟨hb, ⟨hn, hne, ?_, ?_, ?_, ?_⟩, ?_, ?_, listeners_iff.1 hw⟩
              · intro e he' r hr
                refine hexists e he' r (List.mem_append.2 (Or.inl hr)) ?_
                rintro rfl
                obtain ⟨⟨rs, ha, _⟩, _⟩ := hfin.wired e he' (hnone _)
                have : m [] ∈ e.refs.map m := List.mem_map.2 ⟨[], hr, rfl⟩
                rw [ha, hm0] at this
                obtain ⟨_, _, h⟩ := List.mem_map.1 this
                cases h
              · intro e he' r hr h0
                exact hexists e he' r (List.mem_append.2 (Or.inr hr)) h0
              · exact (allEdges_nodup ho c hn).1 h3
              · exact (acyc_iff ho c hmem).1 h4
              · intro e he'
                exact (hfin.wired e he' (hnone _)).1
              · intro id hid
                rw [hfin.rest id (Or.inr hid), bootMap_eq]
  · rintro ⟨hb, hgood, hwired, helse, hlis⟩
    unfold start
    have hb' : ¬ ((c.bootstrap && !ok (resolverElem bootId) [] []) = true) := by
      intro h
      simp only [Bool.and_eq_true, Bool.not_eq_true'] at h
      have := hb h.1
      rw [show (str "bootstrap-resolver") = bootId from rfl, h.2] at this
      cases this
    rw [if_neg hb']
    have hv : addVertices (elems c) [] = some ((elems c).map (·.id)) := (addVertices_iff (elems c) [] _ List.nodup_nil).2 ⟨by simp, by simpa using hgood.nodup⟩
    rw [hv]
    simp only []
    have hmem : ∀ x, x ∈ (allEdges o c).reverse ↔ x ∈ allEdges o c := fun x => List.mem_reverse
    have hac : Acyc (allEdges o c).reverse := (acyc_iff ho c hmem).2 hgood.acyclic
    have hexists : ∀ e, e ∈ elems c → ∀ r, r ∈ e.refs ++ e.opts → r ≠ [] → ∃ f, f ∈ elems c ∧ f.id = r := by
      intro e he r hr h0
      rcases List.mem_append.1 hr with hr | hr
      · exact hgood.refs e he r hr
      · exact hgood.opts e he r hr h0
    have hes : addEdges ((elems c).map (·.id)) ((o.edges (c.groups.map groupElem ++ c.routers.map routerElem)).flatMap (edgesOf o)) [] = some (allEdges o c).reverse := by
      refine (addEdges_iff _ _ hacn).2 ⟨by rw [List.append_nil]; rfl, ?_, (allEdges_nodup ho c hgood.nodup).2 hgood.once, by rw [List.append_nil]; exact hac⟩
      intro x hx
      refine ⟨?_, by simp⟩
      obtain ⟨e, he, h1, h2, h3⟩ := (mem_allEdges ho c x).1 hx
      refine ⟨?_, h3, ?_, ?_⟩
      · rw [h1]; exact hgood.nonempty e he
      · rw [h1]; exact List.mem_map.2 ⟨e, he, rfl⟩
      · obtain ⟨f, hf, hf'⟩ := hexists e he x.2 h2 h3
        exact List.mem_map.2 ⟨f, hf, hf'⟩
    rw [hes]
    simp only []
    have he : EInv (elems c) (allEdges o c).reverse := by
      constructor
      · intro e he r hr h0
        exact (hmem _).2 ((mem_allEdges ho c _).2 ⟨e, he, rfl, hr, h0⟩)
      · intro x hx
        obtain ⟨e, he, h1, h2, h3⟩ := (mem_allEdges ho c x).1 ((hmem x).1 hx)
        exact hexists e he x.2 h2 h3
    have init : CInv (bootMap c) m (elems c) (allEdges o c).reverse (bootMap c) { verts := elems c, edges := (allEdges o c).reverse } := by
      refine ⟨⟨fun e he => he, hgood.nodup, ?_⟩, fun _ _ => rfl, ?_⟩
      · intro x
        constructor
        · intro hx
          refine ⟨hx, ?_, ?_⟩
          · obtain ⟨e, he', h, _⟩ := (mem_allEdges ho c x).1 ((hmem x).1 hx)
            exact ⟨e, he', h.symm⟩
          · obtain ⟨f, hf, hf'⟩ := he.target x hx
            exact ⟨f, hf, hf'⟩
        · exact fun h => h.1
      · intro id hid
        rw [bootMap_eq]
        refine (helse id ?_).symm
        intro e he' h
        exact hid ⟨e, he', h⟩
    have hrefs : ∀ e, e ∈ elems c → [] ∉ e.refs := by
      intro e he' hr
      obtain ⟨f, hf, hf'⟩ := hgood.refs e he' [] hr
      exact hgood.nonempty f hf hf'
    rw [cinv_loop ho hac he hgood.nonempty hwired hrefs (elems c).length init (Nat.le_refl _)]
    show (listeners m c.listeners).map _ = _
    rw [listeners_iff.2 hlis]
    rfl

/-! Acceptance -/

private theorem verts_del {g g' : Graph} {id : Str} (hd : delVertex g id = some g') : g'.verts = g.verts.filter (·.id ≠ id) := by
  unfold delVertex at hd
  split at hd
  · cases hd
  · cases hd; rfl

private theorem lookups_total {m : Map} : ∀ (l : List Str), (∀ r, r ∈ l → ∃ v, m r = some v) → ∃ rs, lookups m l = some rs := by
  intro l
  induction l with
  | nil => intro _; exact ⟨[], rfl⟩
  | cons r l ih =>
    intro h
    obtain ⟨v, hv⟩ := h r List.mem_cons_self
    obtain ⟨rs, hrs⟩ := ih fun x hx => h x (List.mem_cons_of_mem _ hx)
    exact ⟨v :: rs, by simp only [lookups, hv, hrs]; rfl⟩

private theorem progress_round {ok : Ctor} {boot : Map} {els : List Elem} {es : Edges} (hgood : Good els) (hok : ∀ e, e ∈ els → ∀ rs os, ok e rs os = true) : ∀ (ls : List Elem) {m : Map} {g : Graph},
    SInv ok boot els es m g → (ls.map (·.id)).Nodup → (∀ e, e ∈ ls → e ∈ g.verts ∧ ∀ r, r ∈ e.refs ++ e.opts → r ≠ [] → ¬ Rem g r) →
    ∃ m' g', round ok ls m g = some (m', g') ∧ g'.verts.length ≤ g.verts.length ∧ (ls ≠ [] → g'.verts.length < g.verts.length) := by
  intro ls
  induction ls with
  | nil => intro m g h _ _; exact ⟨m, g, rfl, Nat.le_refl _, by simp⟩
  | cons e ls ih =>
    intro m g h hnd hls
    obtain ⟨hev, her⟩ := hls e List.mem_cons_self
    have hee := h.ginv.sub e hev
    have hlook : ∃ rs, lookups m e.refs = some rs := by
      apply lookups_total
      intro r hr
      obtain ⟨f, hf, rfl⟩ := hgood.refs e hee r hr
      obtain ⟨⟨rs, _, hv, _⟩, _⟩ := h.wired f hf (her f.id (List.mem_append.2 (Or.inl hr)) (hgood.nonempty f hf))
      exact ⟨_, hv⟩
    obtain ⟨rs, hrs⟩ := hlook
    have hi : instantiate ok m e = some (upd m e.id (.mk e.id rs (e.opts.map m))) := instantiate_some.2 ⟨rs, lookups_some.1 hrs, hok e hee _ _, rfl⟩
    have hd : ∃ g', delVertex g e.id = some g' := by
      unfold delVertex
      rw [if_neg (hgood.nonempty e hee)]
      exact ⟨_, rfl⟩
    obtain ⟨g1, hd⟩ := hd
    have hrem := rem_del hd
    have hnd' := List.nodup_cons.1 hnd
    obtain ⟨m', g', hr, hle, _⟩ := ih (sinv_step hgood.nodup h hev her hi hd) hnd'.2 (by
      intro f hf
      obtain ⟨a, b⟩ := hls f (List.mem_cons_of_mem _ hf)
      refine ⟨?_, ?_⟩
      · have hfe : f.id ≠ e.id := fun hh => hnd'.1 (List.mem_map.2 ⟨f, hf, hh⟩)
        rw [verts_del hd]
        exact List.mem_filter.2 ⟨a, by simpa using hfe⟩
      · intro r hr hr0 hrr
        exact b r hr hr0 ((hrem r).1 hrr).1)
    have hlt : g1.verts.length < g.verts.length := by
      rw [verts_del hd]
      apply List.length_filter_lt_length_iff_exists.2
      exact ⟨e, hev, by simp⟩
    refine ⟨m', g', ?_, by omega, fun _ => by omega⟩
    simp only [round, hi, hd]
    exact hr

private theorem leaves_ne {els : List Elem} {es : Edges} {g : Graph} (hac : Acyc es) (hg : GInv els es g) (hv : g.verts ≠ []) : leaves g ≠ [] := by
  intro hl
  have hace : Acyc g.edges := hac.mono fun x hx => ((hg.edges x).1 hx).1
  cases hvv : g.verts with
  | nil => exact hv hvv
  | cons v vs =>
    obtain ⟨w, hw, hwl⟩ := leaf_exists hace (g.verts.map (·.id)) (by
      intro a b hab _
      obtain ⟨f, hf, hfb⟩ := ((hg.edges (a, b)).1 hab).2.2
      exact List.mem_map.2 ⟨f, hf, hfb⟩) _ v.id (by rw [hvv]; exact List.mem_cons_self) rfl
    obtain ⟨f, hf, rfl⟩ := List.mem_map.1 hw
    have : f ∈ leaves g := by
      refine List.mem_filter.2 ⟨hf, List.all_eq_true.2 ?_⟩
      intro x hx
      simp only [decide_eq_true_eq, ne_eq]
      intro hxf
      exact hwl x.2 (by rw [← hxf]; exact hx)
    rw [hl] at this
    cases this

private theorem progress_loop {ok : Ctor} {boot : Map} {els : List Elem} {es : Edges} {o : Orders} (ho : AnyOrder o) (hac : Acyc es) (he : EInv els es) (hgood : Good els)
    (hok : ∀ e, e ∈ els → ∀ rs os, ok e rs os = true) : ∀ (n : Nat) {m : Map} {g : Graph}, SInv ok boot els es m g → g.verts.length ≤ n → ∃ m', loop ok o n m g = some m' := by
  intro n
  induction n with
  | zero =>
    intro m g h hlen
    have hv : g.verts = [] := List.length_eq_zero_iff.1 (by omega)
    exact ⟨m, by simp only [loop]; rw [if_pos hv]⟩
  | succ n ih =>
    intro m g h hlen
    simp only [loop]
    by_cases hv : g.verts = []
    · exact ⟨m, by rw [if_pos hv]⟩
    · rw [if_neg hv]
      have hlr : ∀ e, e ∈ o.leaves n (leaves g) → e ∈ g.verts ∧ ∀ r, r ∈ e.refs ++ e.opts → r ≠ [] → ¬ Rem g r :=
        fun e hel => leaf_refs he h.ginv ((ho.leaves n (leaves g)).mem_iff.1 hel)
      obtain ⟨m', g', hr, _, hlt⟩ := progress_round hgood hok (o.leaves n (leaves g)) h (leaves_nodup h.ginv ho n) hlr
      rw [hr]
      have hnl : o.leaves n (leaves g) ≠ [] := by
        intro hnil
        apply leaves_ne hac h.ginv hv
        have := (ho.leaves n (leaves g)).length_eq
        rw [hnil] at this
        exact List.length_eq_zero_iff.1 this.symm
      have := hlt hnl
      exact ih (sinv_round hgood.nodup _ h (leaves_nodup h.ginv ho n) hlr hr) (by omega)

/-- A configuration that makes sense is accepted if its constructors are content: in particular there are no loops without end. -/
theorem config_accepted (ok : Ctor) (o : Orders) (ho : AnyOrder o) (c : Cfg) (hgood : Good (elems c)) (hok : ∀ e rs os, ok e rs os = true)
    (hl : ∀ l, l ∈ c.listeners → l.ok = true ∧ (l.admin = true ∨ ∃ e, e ∈ elems c ∧ e.id = l.resolver)) : ∃ m ws, start ok o c = some (m, ws) := by
  have hacn : Acyc [] := fun a b h => by cases h
  have hmem : ∀ x, x ∈ (allEdges o c).reverse ↔ x ∈ allEdges o c := fun x => List.mem_reverse
  have hac : Acyc (allEdges o c).reverse := (acyc_iff ho c hmem).2 hgood.acyclic
  have hexists : ∀ e, e ∈ elems c → ∀ r, r ∈ e.refs ++ e.opts → r ≠ [] → ∃ f, f ∈ elems c ∧ f.id = r := by
    intro e he r hr h0
    rcases List.mem_append.1 hr with hr | hr
    · exact hgood.refs e he r hr
    · exact hgood.opts e he r hr h0
  have he : EInv (elems c) (allEdges o c).reverse := by
    constructor
    · intro e he r hr h0
      exact (hmem _).2 ((mem_allEdges ho c _).2 ⟨e, he, rfl, hr, h0⟩)
    · intro x hx
      obtain ⟨e, he, h1, h2, h3⟩ := (mem_allEdges ho c x).1 ((hmem x).1 hx)
      exact hexists e he x.2 h2 h3
  have hrem : ∀ e, e ∈ elems c → Rem { verts := elems c, edges := (allEdges o c).reverse } e.id := fun e he => ⟨e, he, rfl⟩
  have init : SInv ok (bootMap c) (elems c) (allEdges o c).reverse (bootMap c) { verts := elems c, edges := (allEdges o c).reverse } := by
    refine ⟨⟨fun e he => he, hgood.nodup, ?_⟩, fun e he hnr => absurd (hrem e he) hnr, fun _ _ => rfl, ?_⟩
    · intro x
      constructor
      · intro hx
        refine ⟨hx, ?_, ?_⟩
        · obtain ⟨e, he', h, _⟩ := (mem_allEdges ho c x).1 ((hmem x).1 hx)
          exact ⟨e, he', h.symm⟩
        · obtain ⟨f, hf, hf'⟩ := he.target x hx
          exact ⟨f, hf, hf'⟩
      · exact fun h => h.1
    · intro e he h0
      exact ⟨e, he, h0⟩
  obtain ⟨m, hm⟩ := progress_loop ho hac he hgood (fun e _ => hok e) (elems c).length init (Nat.le_refl _)
  obtain ⟨g', hfin, hvs⟩ := sinv_loop ho hgood.nodup he _ init hm
  have hnone : ∀ id, ¬ Rem g' id := by
    rintro id ⟨e, he, _⟩
    rw [hvs] at he
    cases he
  refine ⟨m, c.listeners.map (fun l => m l.resolver), (config_start ok o ho c m _).2 ⟨fun _ => hok _ _ _, hgood, fun e he' => (hfin.wired e he' (hnone _)).1, ?_, rfl, ?_⟩⟩
  · intro id hid
    rw [hfin.rest id (Or.inr hid), bootMap_eq]
  · intro l hll
    obtain ⟨h1, h2⟩ := hl l hll
    refine ⟨h1, ?_⟩
    rcases h2 with h2 | ⟨e, he', h2⟩
    · exact Or.inr h2
    · left
      obtain ⟨⟨rs, _, hv, _⟩, _⟩ := hfin.wired e he' (hnone _)
      rw [← h2, hv]
      intro h; cases h

private theorem good_perm {a b : List Elem} (h : a.Perm b) (hg : Good a) : Good b := by
  have hu : ∀ x y, Uses b x y → Uses a x y := by
    intro x y hxy
    induction hxy with
    | one he hr h0 => exact .one (h.mem_iff.2 he) hr h0
    | more he hr h0 _ ih => exact .more (h.mem_iff.2 he) hr h0 ih
  refine ⟨(h.map _).nodup_iff.1 hg.nodup, fun e he => hg.nonempty e (h.mem_iff.2 he), ?_, ?_, fun e he => hg.once e (h.mem_iff.2 he), fun id hid => hg.acyclic id (hu _ _ hid)⟩
  · intro e he r hr
    obtain ⟨f, hf, hf'⟩ := hg.refs e (h.mem_iff.2 he) r hr
    exact ⟨f, h.mem_iff.1 hf, hf'⟩
  · intro e he r hr h0
    obtain ⟨f, hf, hf'⟩ := hg.opts e (h.mem_iff.2 he) r hr h0
    exact ⟨f, h.mem_iff.1 hf, hf'⟩

/-- The same configuration always has the same result, whatever the order in which the runtime iterates over the sections and all other maps. -/
theorem config_order (ok : Ctor) (o o' : Orders) (ho : AnyOrder o) (ho' : AnyOrder o') (c c' : Cfg) (hb : c.bootstrap = c'.bootstrap) (hr : c.resolvers.Perm c'.resolvers) (hg : c.groups.Perm c'.groups)
    (hro : c.routers.Perm c'.routers) (hl : c.listeners.Perm c'.listeners) (m : Map) (ws : List (Option El)) (h : start ok o c = some (m, ws)) :
    ∃ ws', start ok o' c' = some (m, ws') ∧ ws'.Perm ws := by
  have hp : (elems c).Perm (elems c') := by
    unfold elems
    exact ((hr.map _).append (hg.map _)).append (hro.map _)
  obtain ⟨h1, h2, h3, h4, h5⟩ := (config_start ok o ho c m ws).1 h
  refine ⟨c'.listeners.map fun l => m l.resolver, (config_start ok o' ho' c' m _).2 ⟨by rw [← hb]; exact h1, good_perm hp h2, fun e he => h3 e (hp.mem_iff.2 he), ?_, rfl, ?_⟩, ?_⟩
  · intro id hid
    rw [← hb]
    exact h4 id fun e he => hid e (hp.mem_iff.1 he)
  · intro l hll
    exact h5.2 l (hl.mem_iff.2 hll)
  · rw [h5.1]
    exact (hl.map _).symm

/-- Nothing is built from a configuration with a loop, a missing reference or an id that is used twice. -/
theorem config_rejected (ok : Ctor) (o : Orders) (ho : AnyOrder o) (c : Cfg) (h : ¬ Good (elems c)) : start ok o c = none := by
  cases hs : start ok o c with
  | none => rfl
  | some p =>
    obtain ⟨m, ws⟩ := p
    exact absurd ((config_start ok o ho c m ws).1 hs).2.1 h

/-! Cases -/

private def dedup : List Str → List Str
  | [] => []
  | a :: l => if a ∈ l then dedup l else a :: dedup l

private theorem dedup_spec (l : List Str) : (dedup l).Nodup ∧ ∀ x, x ∈ dedup l ↔ x ∈ l := by
  induction l with
  | nil => simp [dedup]
  | cons a l ih =>
    unfold dedup
    by_cases h : a ∈ l
    · rw [if_pos h]
      refine ⟨ih.1, fun x => ?_⟩
      rw [ih.2, List.mem_cons]
      constructor
      · exact Or.inr
      · rintro (rfl | h')
        · exact h
        · exact h'
    · rw [if_neg h]
      refine ⟨List.nodup_cons.2 ⟨fun h' => h ((ih.2 a).1 h'), ih.1⟩, fun x => ?_⟩
      rw [List.mem_cons, List.mem_cons, ih.2]

/-- Some order -/
private def order : Orders := { deps := dedup, edges := List.reverse, leaves := fun n l => if n % 2 = 0 then l else l.reverse }

private theorem order_any : AnyOrder order := by
  refine ⟨dedup_spec, fun l => List.reverse_perm l, ?_⟩
  intro n l
  unfold order
  dsimp only
  split
  · exact List.Perm.refl _
  · exact List.reverse_perm l

/-- A cache before a router that sends to two upstreams, one of them twice, and a listener on the cache -/
private def sample : Cfg :=
  { bootstrap := true
    resolvers := [str "a", str "b"]
    groups := [{ id := str "cache", resolvers := [str "router"] }, { id := str "retry", resolvers := [str "a"], retryResolver := str "b" }]
    routers := [{ id := str "router", routes := [str "a", str "retry", str "a"] }]
    listeners := [{ id := str "l", resolver := str "cache" }, { id := str "m", resolver := [], admin := true }] }

private def upA : El := .mk (str "a") [] []
private def upB : El := .mk (str "b") [] []
private def retry : El := .mk (str "retry") [upA] [none, none, none, some upB]
private def cache : El := .mk (str "cache") [.mk (str "router") [upA, retry, upA] []] [none, none, none, none]

example : (start (fun _ _ _ => true) order sample).map (·.2) = some [some cache, none] := by rfl

example : ∃ m ws, start (fun _ _ _ => true) order sample = some (m, ws) ∧ m (str "cache") = some cache ∧ ws = [some cache, none] := ⟨_, _, rfl, rfl, rfl⟩

/-- A loop is rejected. -/
example (ok : Ctor) (o : Orders) (ho : AnyOrder o) :
    start ok o { groups := [{ id := str "x", resolvers := [str "y"] }, { id := str "y", resolvers := [], blockListResolver := str "x" }] } = none := by
  apply config_rejected ok o ho
  intro h
  apply h.acyclic (str "x")
  refine Uses.more (e := groupElem { id := str "x", resolvers := [str "y"] }) (r := str "y") ?_ ?_ ?_ ?_
  · simp [elems]
  · simp [groupElem]
  · decide
  · refine Uses.one (e := groupElem { id := str "y", resolvers := [], blockListResolver := str "x" }) ?_ ?_ ?_
    · simp [elems]
    · simp [groupElem]
    · decide

/-- A group cannot list an element twice, say to give it more weight, nor use its only upstream for blocked queries as well: the graph refuses the second edge. Routers may. -/
theorem config_no_repeats (ok : Ctor) (o : Orders) (ho : AnyOrder o) (c : Cfg) (g : GroupCfg) (hg : g ∈ c.groups) (r : Str) (hr : r ≠ []) (h : g.resolvers = [r, r] ∨ g.resolvers = [r] ∧ g.blockListResolver = r) :
    start ok o c = none := by
  apply config_rejected ok o ho
  intro hgood
  have := hgood.once (groupElem g) (by
    unfold elems
    exact List.mem_append.2 (Or.inl (List.mem_append.2 (Or.inr (List.mem_map.2 ⟨g, hg, rfl⟩))))) rfl
  rcases h with h | ⟨h, h'⟩
  · simp [groupElem, h, hr] at this
  · by_cases ha : g.allowListResolver = []
    · simp [groupElem, h, h', ha, hr] at this
    · simp [groupElem, h, h', ha, hr] at this

/-- The bootstrap resolver can be used by listeners, but not by other elements. -/
theorem config_bootstrap_only_listeners (ok : Ctor) (o : Orders) (ho : AnyOrder o) (c : Cfg) (g : GroupCfg) (hg : g ∈ c.groups) (h : str "bootstrap-resolver" ∈ g.resolvers)
    (hno : ∀ e, e ∈ elems c → e.id ≠ str "bootstrap-resolver") : start ok o c = none := by
  apply config_rejected ok o ho
  intro hgood
  obtain ⟨f, hf, hf'⟩ := hgood.refs (groupElem g) (by
    unfold elems
    exact List.mem_append.2 (Or.inl (List.mem_append.2 (Or.inr (List.mem_map.2 ⟨g, hg, rfl⟩))))) _ h
  exact hno f hf hf'

/-- The trees that stand for the sections of the configuration: a resolver has no parts, a group the resolvers it lists and the four optional ones in their places, a router the resolvers of its
routes; each part is the very element that carries the id. -/
theorem config_sections (ok : Ctor) (o : Orders) (ho : AnyOrder o) (c : Cfg) (m : Map) (ws : List (Option El)) (h : start ok o c = some (m, ws)) :
    (∀ id ∈ c.resolvers, m id = some (.mk id [] [])) ∧
    (∀ g ∈ c.groups, ∃ rs : List El, g.resolvers.map m = rs.map some ∧
      m g.id = some (.mk g.id rs [m g.allowListResolver, m g.blockListResolver, m g.limitResolver, m g.retryResolver]) ∧
      ∀ r, r = g.allowListResolver ∨ r = g.blockListResolver ∨ r = g.limitResolver ∨ r = g.retryResolver → (m r = none ↔ r = [])) ∧
    (∀ r ∈ c.routers, ∃ rs : List El, r.routes.map m = rs.map some ∧ m r.id = some (.mk r.id rs [])) := by
  obtain ⟨_, hgood, hw, hne, _⟩ := (config_start ok o ho c m ws).1 h
  refine ⟨fun id hid => ?_, fun g hg => ?_, fun r hr => ?_⟩
  · obtain ⟨rs, h1, h2, _⟩ := hw (resolverElem id) (by
      unfold elems
      exact List.mem_append.2 (Or.inl (List.mem_append.2 (Or.inl (List.mem_map.2 ⟨id, hid, rfl⟩)))))
    cases rs with
    | nil => exact h2
    | cons a l => cases h1
  · have hge : groupElem g ∈ elems c := by
      unfold elems
      exact List.mem_append.2 (Or.inl (List.mem_append.2 (Or.inr (List.mem_map.2 ⟨g, hg, rfl⟩))))
    obtain ⟨rs, h1, h2, _⟩ := hw (groupElem g) hge
    refine ⟨rs, h1, h2, fun r hr => ⟨fun hm => ?_, fun hr0 => ?_⟩⟩
    · by_cases hr0 : r = []
      · exact hr0
      · exfalso
        obtain ⟨f, hf, hfr⟩ := hgood.opts _ hge r (by simp [groupElem]; exact hr) hr0
        obtain ⟨rs', _, h3, _⟩ := hw f hf
        rw [hfr, hm] at h3
        cases h3
    · subst hr0
      rw [hne [] hgood.nonempty, if_neg]
      rintro ⟨_, hx⟩
      cases hx
  · obtain ⟨rs, h1, h2, _⟩ := hw (routerElem r) (by
      unfold elems
      exact List.mem_append.2 (Or.inr (List.mem_map.2 ⟨r, hr, rfl⟩)))
    exact ⟨rs, h1, h2⟩

end Verif.Props.Config
