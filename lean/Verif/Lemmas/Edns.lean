import Verif.Spec.Edns
set_option linter.unusedSimpArgs false
/-
Facts about the OPT record of a message.
-/
namespace Verif

namespace Edns0

theorem findSome_rev (l : List RR) : (l.reverse.findSome? RR.edns? = none ∧ ∀ r, r ∈ l → r.edns? = none) ∨
    ∃ pre r post e, l = pre ++ r :: post ∧ r.edns? = some e ∧ (∀ x, x ∈ post → x.edns? = none) ∧ l.reverse.findSome? RR.edns? = some e := by
  suffices h : ∀ k : List RR, (k.findSome? RR.edns? = none ∧ ∀ r, r ∈ k → r.edns? = none) ∨
      ∃ pre r post e, k = pre ++ r :: post ∧ r.edns? = some e ∧ (∀ x, x ∈ pre → x.edns? = none) ∧ k.findSome? RR.edns? = some e by
    rcases h l.reverse with ⟨h1, h2⟩ | ⟨pre, r, post, e, h1, h2, h3, h4⟩
    · exact .inl ⟨h1, fun r hr => h2 r (by simpa using hr)⟩
    · refine .inr ⟨post.reverse, r, pre.reverse, e, ?_, h2, fun x hx => h3 x (by simpa using hx), h4⟩
      have := congrArg List.reverse h1
      simpa using this
  intro k
  induction k with
  | nil => left; simp
  | cons x xs ih =>
    cases hx : x.edns? with
    | some e => right; exact ⟨[], x, xs, e, rfl, hx, by simp, by simp [List.findSome?_cons, hx]⟩
    | none =>
      rcases ih with ⟨h1, h2⟩ | ⟨pre, r, post, e, h1, h2, h3, h4⟩
      · left; refine ⟨by simp [List.findSome?_cons, hx, h1], ?_⟩
        intro r hr
        rcases List.mem_cons.mp hr with rfl | hr
        · exact hx
        · exact h2 r hr
      · right; refine ⟨x :: pre, r, post, e, by rw [h1]; rfl, h2, ?_, by simp only [List.findSome?_cons, hx]; exact h4⟩
        intro y hy
        rcases List.mem_cons.mp hy with rfl | hy
        · exact hx
        · exact h3 y hy

theorem go_append (f : Edns → Edns) : ∀ (l : List RR) (r : RR) (post : List RR) (e : Edns), (∀ x, x ∈ l → x.edns? = none) → r.edns? = some e →
    setLastOpt.go f (l ++ r :: post) = l ++ { r with data := .opt (f e).udpSize (f e).dnssecOk (f e).options } :: post
  | [], r, post, e, _, hr => by simp [setLastOpt.go, hr]
  | x :: xs, r, post, e, hl, hr => by
    simp only [List.cons_append, setLastOpt.go, hl x (by simp)]
    rw [go_append f xs r post e (fun y hy => hl y (by simp [hy])) hr]

theorem go_none (f : Edns → Edns) : ∀ (l : List RR), (∀ x, x ∈ l → x.edns? = none) → setLastOpt.go f l = l
  | [], _ => rfl
  | x :: xs, hl => by
    simp only [setLastOpt.go, hl x (by simp)]
    rw [go_none f xs (fun y hy => hl y (by simp [hy]))]

theorem setLast_append (f : Edns → Edns) (pre : List RR) (r : RR) (post : List RR) (e : Edns) (hp : ∀ x, x ∈ post → x.edns? = none) (hr : r.edns? = some e) :
    setLastOpt f (pre ++ r :: post) = pre ++ { r with data := .opt (f e).udpSize (f e).dnssecOk (f e).options } :: post := by
  unfold setLastOpt
  have h : (pre ++ r :: post).reverse = post.reverse ++ r :: pre.reverse := by simp
  simp only [h]
  rw [go_append f post.reverse r pre.reverse e (fun x hx => hp x (by simpa using hx)) hr]
  simp

theorem setLast_none (f : Edns → Edns) (l : List RR) (h : ∀ x, x ∈ l → x.edns? = none) : setLastOpt f l = l := by
  unfold setLastOpt
  rw [go_none f l.reverse (fun x hx => h x (by simpa using hx))]
  simp

theorem edns_append (m : Msg) (pre : List RR) (r : RR) (post : List RR) (e : Edns) (hm : m.extra = pre ++ r :: post) (hr : r.edns? = some e) (hp : ∀ x, x ∈ post → x.edns? = none) :
    m.edns? = some e := by
  unfold Msg.edns?
  rw [hm]
  have : (pre ++ r :: post).reverse = post.reverse ++ r :: pre.reverse := by simp
  rw [this, List.findSome?_append, List.findSome?_eq_none_iff.mpr (fun x hx => hp x (by simpa using hx))]
  simp [List.findSome?_cons, hr]

/-- Changing the EDNS data of a message with EDNS -/
theorem mapEdns_some (m : Msg) (f : Edns → Edns) (e : Edns) (h : m.edns? = some e) : Replaced m (m.mapEdns f) e (f e) := by
  unfold Msg.edns? at h
  rcases findSome_rev m.extra with ⟨h1, _⟩ | ⟨pre, r, post, e', h1, h2, h3, h4⟩
  · rw [h1] at h; simp at h
  · rw [h4] at h
    simp only [Option.some.injEq] at h
    subst h
    refine ⟨pre, r, post, h1, h2, h3, ?_⟩
    unfold Msg.mapEdns
    rw [h1, setLast_append f pre r post e' h3 h2]

theorem mapEdns_none (m : Msg) (f : Edns → Edns) (h : m.edns? = none) : m.mapEdns f = m := by
  unfold Msg.edns? at h
  rcases findSome_rev m.extra with ⟨_, h2⟩ | ⟨pre, r, post, e', h1, h2, h3, h4⟩
  · unfold Msg.mapEdns; rw [setLast_none f _ h2]
  · rw [h4] at h; simp at h

theorem replaced_edns {m m' : Msg} {e e' : Edns} (h : Replaced m m' e e') : m.edns? = some e ∧ m'.edns? = some e' := by
  obtain ⟨pre, r, post, h1, h2, h3, rfl⟩ := h
  exact ⟨edns_append m pre r post e h1 h2 h3, edns_append _ pre _ post e' rfl rfl h3⟩

theorem edns_mapEdns (m : Msg) (f : Edns → Edns) : (m.mapEdns f).edns? = m.edns?.map f := by
  cases h : m.edns? with
  | none => rw [mapEdns_none m f h, h]; rfl
  | some e => rw [(replaced_edns (mapEdns_some m f e h)).2]; rfl

theorem edns_setEdns0 (m : Msg) (s : Nat) (d : Bool) : (m.setEdns0 s d).edns? = some ⟨s, d, []⟩ :=
  edns_append _ m.extra _ [] ⟨s, d, []⟩ rfl rfl (by simp)

private theorem split_unique {l pre pre' post post' : List RR} {r r' : RR} {e e' : Edns} (h : l = pre ++ r :: post) (h' : l = pre' ++ r' :: post') (hr : r.edns? = some e)
    (hr' : r'.edns? = some e') (hp : ∀ x, x ∈ post → x.edns? = none) (hp' : ∀ x, x ∈ post' → x.edns? = none) : pre = pre' ∧ r = r' ∧ post = post' := by
  rw [h] at h'
  rcases List.append_eq_append_iff.mp h' with ⟨x, h1, h2⟩ | ⟨x, h1, h2⟩
  · cases x with
    | nil => simp at h1 h2; exact ⟨h1.symm, h2.1, h2.2⟩
    | cons y ys =>
      simp only [List.cons_append, List.cons.injEq] at h2
      have := hp r' (by rw [h2.2]; simp)
      rw [hr'] at this; simp at this
  · cases x with
    | nil => simp at h1 h2; exact ⟨h1, h2.1.symm, h2.2.symm⟩
    | cons y ys =>
      simp only [List.cons_append, List.cons.injEq] at h2
      have := hp' r (by rw [h2.2]; simp)
      rw [hr] at this; simp at this

/-- Two changes in a row -/
theorem replaced_trans {m m' m'' : Msg} {e e' e'' : Edns} (h : Replaced m m' e e') (h' : Replaced m' m'' e' e'') : Replaced m m'' e e'' := by
  obtain ⟨pre, r, post, h1, h2, h3, rfl⟩ := h
  obtain ⟨pre', r', post', h1', h2', h3', rfl⟩ := h'
  obtain ⟨rfl, rfl, rfl⟩ := split_unique (rfl : _ = pre ++ { r with data := RData.opt e'.udpSize e'.dnssecOk e'.options } :: post) h1' rfl h2' h3 h3'
  exact ⟨pre, r, post, h1, h2, h3, rfl⟩

end Edns0
end Verif
