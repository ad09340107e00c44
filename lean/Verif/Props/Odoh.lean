import Verif.Spec.Odoh
import Verif.Lemmas.Str
import Verif.Props.Listeners
import Verif.Props.Clients
/-
C62: the listener for oblivious DNS.
-/
set_option linter.unusedVariables false
set_option linter.unusedSimpArgs false
set_option maxRecDepth 100000
namespace Verif.Props.Odoh
open Verif Verif.Listeners Verif.Odoh Verif.Regex Verif.Spec.Odoh
open Verif.Clients (odohType)

/-! ### Regular expressions -/

private theorem nullable_iff (r : Re) : r.nullable = true ↔ Lang r [] := by
  induction r with
  | none => constructor <;> intro h <;> cases h
  | eps => exact ⟨fun _ => .eps, fun _ => rfl⟩
  | cls p => constructor <;> intro h <;> cases h
  | alt a b iha ihb =>
    simp only [Re.nullable, Bool.or_eq_true, iha, ihb]
    constructor
    · rintro (h | h)
      · exact .altL h
      · exact .altR h
    · intro h
      cases h with
      | altL h => exact Or.inl h
      | altR h => exact Or.inr h
  | seq a b iha ihb =>
    simp only [Re.nullable, Bool.and_eq_true, iha, ihb]
    constructor
    · rintro ⟨h1, h2⟩; exact .seq h1 h2
    · intro h
      have aux : ∀ x, Lang (.seq a b) x → x = [] → Lang a [] ∧ Lang b [] := by
        intro x h hx
        cases h with
        | seq h1 h2 =>
          have := List.append_eq_nil_iff.mp hx
          rw [this.1] at h1; rw [this.2] at h2
          exact ⟨h1, h2⟩
      exact aux [] h rfl
  | star a ih => exact ⟨fun _ => .starNil, fun _ => rfl⟩

private theorem star_cons {a : Re} {x : Str} (h : Lang (.star a) x) : ∀ c s, x = c :: s → ∃ s1 s2, s = s1 ++ s2 ∧ Lang a (c :: s1) ∧ Lang (.star a) s2 := by
  generalize hr : Re.star a = r at h
  induction h with
  | starNil => intro c s hs; cases hs
  | @starCons b u v h1 h2 ih1 ih2 =>
    cases hr
    intro c s hs
    cases u with
    | nil => exact ih2 rfl c s hs
    | cons d u =>
      simp only [List.cons_append, List.cons.injEq] at hs
      obtain ⟨rfl, rfl⟩ := hs
      exact ⟨u, v, rfl, h1, h2⟩
  | _ => cases hr

private theorem deriv_iff (c : UInt8) (r : Re) : ∀ s, Lang (r.deriv c) s ↔ Lang r (c :: s) := by
  induction r with
  | none => intro s; constructor <;> intro h <;> cases h
  | eps => intro s; constructor <;> intro h <;> cases h
  | cls p =>
    intro s
    simp only [Re.deriv]
    by_cases hp : p c = true
    · rw [if_pos hp]
      constructor
      · intro h; cases h; exact .cls hp
      · intro h
        cases h; exact .eps
    · rw [if_neg hp]
      constructor
      · intro h; cases h
      · intro h
        cases h with
        | cls h => exact absurd h hp
  | alt a b iha ihb =>
    intro s
    simp only [Re.deriv]
    constructor
    · intro h
      cases h with
      | altL h => exact .altL ((iha s).mp h)
      | altR h => exact .altR ((ihb s).mp h)
    · intro h
      cases h with
      | altL h => exact .altL ((iha s).mpr h)
      | altR h => exact .altR ((ihb s).mpr h)
  | seq a b iha ihb =>
    intro s
    simp only [Re.deriv]
    have key : Lang (.seq a b) (c :: s) ↔ Lang (.seq (a.deriv c) b) s ∨ (a.nullable = true ∧ Lang (b.deriv c) s) := by
      constructor
      · intro h
        generalize hx : c :: s = x at h
        cases h with
        | @seq _ _ u v h1 h2 =>
          cases u with
          | nil => exact Or.inr ⟨(nullable_iff a).mpr h1, (ihb s).mpr (by rw [hx]; exact h2)⟩
          | cons d u =>
            simp only [List.cons_append, List.cons.injEq] at hx
            obtain ⟨rfl, rfl⟩ := hx
            exact Or.inl (.seq ((iha u).mpr h1) h2)
      · rintro (h | ⟨hn, h⟩)
        · cases h with
          | @seq _ _ u v h1 h2 => exact Lang.seq (s := c :: u) ((iha u).mp h1) h2
        · exact Lang.seq (s := []) ((nullable_iff a).mp hn) ((ihb s).mp h)
    rw [key]
    by_cases hn : a.nullable = true
    · rw [if_pos hn]
      constructor
      · intro h
        cases h with
        | altL h => exact Or.inl h
        | altR h => exact Or.inr ⟨hn, h⟩
      · rintro (h | ⟨_, h⟩)
        · exact .altL h
        · exact .altR h
    · rw [if_neg hn]
      exact ⟨Or.inl, fun h => h.resolve_right (fun h' => hn h'.1)⟩
  | star a ih =>
    intro s
    simp only [Re.deriv]
    constructor
    · intro h
      cases h with
      | @seq _ _ u v h1 h2 => exact Lang.starCons (s := c :: u) ((ih u).mp h1) h2
    · intro h
      obtain ⟨s1, s2, rfl, h1, h2⟩ := star_cons h c s rfl
      exact .seq ((ih s1).mpr h1) h2

/-- The matcher finds exactly the strings that the expression describes. -/
theorem regex_matches (r : Re) (s : Str) : r.matches s = true ↔ Lang r s := by
  induction s generalizing r with
  | nil => exact nullable_iff r
  | cons c s ih =>
    simp only [Re.matches]
    rw [ih, deriv_iff]

private theorem letter_iff (c : UInt8) : isLetter c = true ↔ Letter c := by
  unfold isLetter Letter
  simp only [Bool.or_eq_true, Bool.and_eq_true, decide_eq_true_eq, UInt8.le_iff_toNat_le]
  have e1 : (97 : UInt8).toNat = 97 := rfl
  have e2 : (122 : UInt8).toNat = 122 := rfl
  have e3 : (65 : UInt8).toNat = 65 := rfl
  have e4 : (90 : UInt8).toNat = 90 := rfl
  rw [e1, e2, e3, e4]
  omega

private theorem digit_iff (c : UInt8) : Verif.Odoh.isDigit c = true ↔ Digit c := by
  unfold Verif.Odoh.isDigit Digit
  simp only [Bool.and_eq_true, decide_eq_true_eq, UInt8.le_iff_toNat_le]
  exact Iff.rfl

private theorem cls_iff {p : UInt8 → Bool} {s : Str} : Lang (.cls p) s ↔ ∃ c, p c = true ∧ s = [c] := by
  constructor
  · intro h
    cases h with
    | @cls _ c h => exact ⟨c, h, rfl⟩
  · rintro ⟨c, h, rfl⟩; exact .cls h

private theorem seq_iff {a b : Re} {s : Str} : Lang (.seq a b) s ↔ ∃ u v, s = u ++ v ∧ Lang a u ∧ Lang b v := by
  constructor
  · intro h
    cases h with
    | @seq _ _ u v h1 h2 => exact ⟨u, v, rfl, h1, h2⟩
  · rintro ⟨u, v, rfl, h1, h2⟩; exact .seq h1 h2

private theorem star_cls {p : UInt8 → Bool} {s : Str} : Lang (.star (.cls p)) s ↔ ∀ c, c ∈ s → p c = true := by
  constructor
  · intro h
    generalize hr : Re.star (.cls p) = r at h
    induction h with
    | starNil => simp
    | starCons h1 h2 ih1 ih2 =>
      cases hr
      obtain ⟨c, hc, rfl⟩ := cls_iff.mp h1
      intro d hd
      rcases List.mem_cons.mp hd with rfl | hd
      · exact hc
      · exact ih2 rfl d hd
    | _ => cases hr
  · intro h
    induction s with
    | nil => exact .starNil
    | cons c s ih => exact Lang.starCons (s := [c]) (.cls (h c (by simp))) (ih fun d hd => h d (by simp [hd]))

private theorem plus_cls {p : UInt8 → Bool} {s : Str} : Lang (Re.plus (.cls p)) s ↔ s ≠ [] ∧ ∀ c, c ∈ s → p c = true := by
  unfold Re.plus
  rw [seq_iff]
  constructor
  · rintro ⟨u, v, rfl, h1, h2⟩
    obtain ⟨c, hc, rfl⟩ := cls_iff.mp h1
    refine ⟨by simp, ?_⟩
    intro d hd
    rcases List.mem_cons.mp hd with rfl | hd
    · exact hc
    · exact star_cls.mp h2 d hd
  · rintro ⟨hne, h⟩
    cases s with
    | nil => exact absurd rfl hne
    | cons c s => exact ⟨[c], s, rfl, .cls (h c (by simp)), star_cls.mpr fun d hd => h d (by simp [hd])⟩

/-- repeated pieces -/
private theorem star_pieces {a : Re} {s : Str} : Lang (.star a) s ↔ ∃ ps : List Str, s = ps.flatten ∧ ∀ p, p ∈ ps → Lang a p := by
  constructor
  · intro h
    generalize hr : Re.star a = r at h
    induction h with
    | starNil => exact ⟨[], rfl, by simp⟩
    | @starCons _ u v h1 h2 ih1 ih2 =>
      cases hr
      obtain ⟨ps, rfl, hps⟩ := ih2 rfl
      refine ⟨u :: ps, rfl, ?_⟩
      intro p hp
      rcases List.mem_cons.mp hp with rfl | hp
      · exact h1
      · exact hps p hp
    | _ => cases hr
  · rintro ⟨ps, rfl, h⟩
    induction ps with
    | nil => exact .starNil
    | cons p ps ih => exact .starCons (h p (by simp)) (ih fun x hx => h x (by simp [hx]))

private theorem plus_pieces {a : Re} {s : Str} : Lang (Re.plus a) s ↔ ∃ ps : List Str, ps ≠ [] ∧ s = ps.flatten ∧ ∀ p, p ∈ ps → Lang a p := by
  unfold Re.plus
  rw [seq_iff]
  constructor
  · rintro ⟨u, v, rfl, h1, h2⟩
    obtain ⟨ps, rfl, hps⟩ := star_pieces.mp h2
    refine ⟨u :: ps, by simp, rfl, ?_⟩
    intro p hp
    rcases List.mem_cons.mp hp with rfl | hp
    · exact h1
    · exact hps p hp
  · rintro ⟨ps, hne, rfl, h⟩
    cases ps with
    | nil => exact absurd rfl hne
    | cons p ps => exact ⟨p, ps.flatten, rfl, h p (by simp), star_pieces.mpr ⟨ps, rfl, fun x hx => h x (by simp [hx])⟩⟩

private theorem join_pieces (ls : List Str) (t : Str) : joinWith 46 (ls ++ [t]) = (ls.map (· ++ [46])).flatten ++ t := by
  induction ls with
  | nil => rfl
  | cons l ls ih =>
    rw [List.cons_append, joinWith_cons _ (by simp), ih]
    simp

private theorem host_lang (h : Str) : Lang hostRe h ↔ ∃ (ls : List Str) (tld : Str), ls ≠ [] ∧ h = joinWith 46 (ls ++ [tld]) ∧
    (∀ l, l ∈ ls → l ≠ [] ∧ ∀ c, c ∈ l → Letter c ∨ Digit c ∨ c = 45) ∧ 2 ≤ tld.length ∧ ∀ c, c ∈ tld → Letter c := by
  have piece : ∀ p, Lang (.seq (Re.plus (.cls fun c => isLetter c || Verif.Odoh.isDigit c || c = 45)) (.cls fun c => c = 46)) p ↔
      ∃ l : Str, p = l ++ [46] ∧ l ≠ [] ∧ ∀ c, c ∈ l → Letter c ∨ Digit c ∨ c = 45 := by
    intro p
    rw [seq_iff]
    constructor
    · rintro ⟨u, v, rfl, h1, h2⟩
      obtain ⟨c, hc, rfl⟩ := cls_iff.mp h2
      simp only [decide_eq_true_eq] at hc
      subst hc
      obtain ⟨g1, g2⟩ := plus_cls.mp h1
      refine ⟨u, rfl, g1, fun c hc => ?_⟩
      have := g2 c hc
      simp only [Bool.or_eq_true, decide_eq_true_eq, letter_iff, digit_iff] at this
      exact or_assoc.mp this
    · rintro ⟨l, rfl, g1, g2⟩
      refine ⟨l, [46], rfl, plus_cls.mpr ⟨g1, fun c hc => ?_⟩, .cls (by simp)⟩
      simp only [Bool.or_eq_true, decide_eq_true_eq, letter_iff, digit_iff]
      exact or_assoc.mpr (g2 c hc)
  have tldl : ∀ t, Lang (.seq (.cls isLetter) (.seq (.cls isLetter) (.star (.cls isLetter)))) t ↔ 2 ≤ t.length ∧ ∀ c, c ∈ t → Letter c := by
    intro t
    rw [seq_iff]
    constructor
    · rintro ⟨u, v, rfl, h1, h2⟩
      obtain ⟨c, hc, rfl⟩ := cls_iff.mp h1
      obtain ⟨u', v', rfl, h3, h4⟩ := seq_iff.mp h2
      obtain ⟨d, hd, rfl⟩ := cls_iff.mp h3
      refine ⟨by simp, fun x hx => ?_⟩
      simp only [List.cons_append, List.nil_append, List.mem_cons] at hx
      rcases hx with rfl | rfl | hx
      · exact (letter_iff _).mp hc
      · exact (letter_iff _).mp hd
      · exact (letter_iff _).mp (star_cls.mp h4 x hx)
    · rintro ⟨h1, h2⟩
      match t, h1, h2 with
      | c :: d :: t, h1, h2 =>
        refine ⟨[c], d :: t, rfl, .cls ((letter_iff c).mpr (h2 c (by simp))), ?_⟩
        exact Lang.seq (s := [d]) (.cls ((letter_iff d).mpr (h2 d (by simp)))) (star_cls.mpr fun x hx => (letter_iff x).mpr (h2 x (by simp [hx])))
      | [], h1, _ => simp at h1
      | [_], h1, _ => simp at h1
  unfold hostRe
  rw [seq_iff]
  constructor
  · rintro ⟨u, t, rfl, h1, h2⟩
    obtain ⟨ps, hne, rfl, hps⟩ := plus_pieces.mp h1
    have : ∀ ps : List Str, (∀ p, p ∈ ps → ∃ l : Str, p = l ++ [46] ∧ l ≠ [] ∧ ∀ c, c ∈ l → Letter c ∨ Digit c ∨ c = 45) →
        ∃ ls : List Str, ps = ls.map (· ++ [46]) ∧ ∀ l, l ∈ ls → l ≠ [] ∧ ∀ c, c ∈ l → Letter c ∨ Digit c ∨ c = 45 := by
      intro ps
      induction ps with
      | nil => intro _; exact ⟨[], rfl, by simp⟩
      | cons p ps ih =>
        intro hp
        obtain ⟨l, rfl, hl⟩ := hp p (by simp)
        obtain ⟨ls, rfl, hls⟩ := ih fun x hx => hp x (by simp [hx])
        refine ⟨l :: ls, rfl, ?_⟩
        intro x hx
        rcases List.mem_cons.mp hx with rfl | hx
        · exact hl
        · exact hls x hx
    obtain ⟨ls, rfl, hls⟩ := this ps fun p hp => (piece p).mp (hps p hp)
    refine ⟨ls, t, fun h0 => hne (by rw [h0]; rfl), (join_pieces ls t).symm, hls, (tldl t).mp h2⟩
  · rintro ⟨ls, t, hne, rfl, hls, ht⟩
    refine ⟨(ls.map (· ++ [46])).flatten, t, join_pieces ls t, plus_pieces.mpr ⟨ls.map (· ++ [46]), by simpa using hne, rfl, ?_⟩, (tldl t).mpr ht⟩
    intro p hp
    obtain ⟨l, hl, rfl⟩ := List.mem_map.mp hp
    exact (piece _).mpr ⟨l, rfl, hls l hl⟩

/-- The check of the host in a proxy request -/
theorem host_checked (h : Str) : (h ≠ [] ∧ h.length ≤ 253 ∧ hostRe.matches h = true) ↔ PublicName h := by
  unfold PublicName
  rw [regex_matches, host_lang]
  constructor
  · rintro ⟨_, h1, h2⟩; exact ⟨h1, h2⟩
  · rintro ⟨h1, h2⟩
    refine ⟨?_, h1, h2⟩
    rintro rfl
    obtain ⟨ls, t, hne, he, hls, ht, _⟩ := h2
    rw [join_pieces] at he
    have := congrArg List.length he
    simp only [List.length_append, List.length_nil] at this
    omega

private theorem dotdot_iff (p : Str) : hasDotDot p = true ↔ ∃ a b, p = a ++ [46, 46] ++ b := by
  induction p with
  | nil =>
    simp only [hasDotDot, Bool.false_eq_true, false_iff]
    rintro ⟨a, b, h⟩
    have := congrArg List.length h
    simp at this
  | cons x p ih =>
    cases p with
    | nil =>
      simp only [hasDotDot, Bool.false_eq_true, false_iff]
      rintro ⟨a, b, h⟩
      have := congrArg List.length h
      simp at this
      omega
    | cons y p =>
      simp only [hasDotDot, Bool.or_eq_true, Bool.and_eq_true, decide_eq_true_eq, ih]
      constructor
      · rintro (⟨rfl, rfl⟩ | ⟨a, b, h⟩)
        · exact ⟨[], p, rfl⟩
        · exact ⟨x :: a, b, by rw [h]; rfl⟩
      · rintro ⟨a, b, h⟩
        cases a with
        | nil =>
          simp only [List.nil_append, List.cons_append, List.cons.injEq] at h
          exact Or.inl ⟨h.1, h.2.1⟩
        | cons z a =>
          simp only [List.cons_append, List.cons.injEq] at h
          exact Or.inr ⟨a, b, by rw [h.2]⟩

private theorem path_iff (p : Str) : ¬ (p = [] ∨ p.length > 1024 ∨ p.head? ≠ some 47 ∨ hasDotDot p = true) ↔ SafePath p := by
  unfold SafePath
  rw [← dotdot_iff]
  constructor
  · intro h
    simp only [not_or, Decidable.not_not] at h
    obtain ⟨h1, h2, h3, h4⟩ := h
    refine ⟨?_, by omega, h4⟩
    cases p with
    | nil => exact absurd rfl h1
    | cons x p =>
      simp only [List.head?_cons, Option.some.injEq] at h3
      subst h3; exact ⟨p, rfl⟩
  · rintro ⟨⟨rest, rfl⟩, h2, h3⟩ (h | h | h | h)
    · simp at h
    · omega
    · simp at h
    · exact h3 h

/-- C62: the proxy sends a request on exactly if it is a POST of oblivious DNS whose target is a public host name and a safe path; then it is one request, over HTTPS to that
host and path, with the (first 4096 bytes of the) body. All other requests are refused with 400 or 405 and nothing is sent. -/
theorem odoh_proxy (net : Forward → Option TargetResponse) (r : Request) :
    (∀ b, Forwardable r → r.base.body = some b → (proxyHandler net r).sent = [{ host := r.targetHost, path := r.targetPath, body := b.take 4096, contentType := odohType }]) ∧
    (¬ (Forwardable r ∧ r.base.body ≠ none) → (proxyHandler net r).sent = [] ∧ ((proxyHandler net r).out = .status 400 ∨ (proxyHandler net r).out = .status 405)) := by
  unfold Forwardable
  rw [← host_checked, ← path_iff]
  unfold proxyHandler
  by_cases h1 : r.base.method = str "POST"
  · rw [if_neg (by simp [h1])]
    by_cases h2 : r.contentType = [] ∨ r.contentType ≠ odohType
    · rw [if_pos h2]
      have : r.contentType ≠ str "application/oblivious-dns-message" := by
        rcases h2 with h2 | h2
        · rw [h2]; decide
        · exact h2
      exact ⟨fun b h => absurd h.2.1 this, fun _ => ⟨rfl, Or.inl rfl⟩⟩
    · rw [if_neg h2]
      by_cases h3 : r.targetHost = []
      · rw [if_pos h3]
        exact ⟨fun b h => absurd h3 h.2.2.1.1, fun _ => ⟨rfl, Or.inl rfl⟩⟩
      · rw [if_neg h3]
        by_cases h4 : r.targetHost.length > 253 ∨ hostRe.matches r.targetHost = false
        · rw [if_pos h4]
          refine ⟨fun b h => ?_, fun _ => ⟨rfl, Or.inl rfl⟩⟩
          obtain ⟨_, _, ⟨_, g1, g2⟩, _⟩ := h
          rcases h4 with h4 | h4
          · omega
          · rw [h4] at g2; simp at g2
        · rw [if_neg h4]
          by_cases h5 : r.targetPath = [] ∨ r.targetPath.length > 1024 ∨ r.targetPath.head? ≠ some 47 ∨ hasDotDot r.targetPath = true
          · rw [if_pos h5]
            exact ⟨fun b h => absurd h5 h.2.2.2, fun _ => ⟨rfl, Or.inl rfl⟩⟩
          · rw [if_neg h5]
            have ht : r.contentType = odohType := by
              simp only [not_or, Decidable.not_not] at h2; exact h2.2
            cases hb : r.base.body with
            | none => exact ⟨fun b _ h => by simp at h, fun _ => ⟨rfl, Or.inl rfl⟩⟩
            | some b =>
              refine ⟨fun b' _ h => ?_, fun h => absurd ⟨⟨h1, ht, ⟨h3, ?_, ?_⟩, h5⟩, by simp⟩ h⟩
              · simp only [Option.some.injEq] at h
                subst h
                unfold forwardOn
                rw [ht]
              · simp only [not_or] at h4; omega
              · simp only [not_or, Bool.not_eq_false] at h4; exact h4.2
  · rw [if_pos h1]
    exact ⟨fun b h => absurd h.1 h1, fun _ => ⟨rfl, Or.inr rfl⟩⟩

/-- C62: what the client of the proxy gets after the request was sent on: the target's content, unchanged, if the target answered with 200, the right type and a complete body;
otherwise no content of the target unless the body broke off half-way. -/
theorem odoh_proxy_response (net : Forward → Option TargetResponse) (r : Request) (f : Forward) (h : (proxyHandler net r).sent = [f]) :
    (net f = none → (proxyHandler net r).out = .status 500) ∧
    ∀ t, net f = some t →
      (t.status ≠ 200 → (proxyHandler net r).out = .status t.status) ∧
      (t.status = 200 → t.contentType ≠ odohType → (proxyHandler net r).out = .status 502) ∧
      (t.status = 200 → t.contentType = odohType → t.complete = true → (proxyHandler net r).out = .ok t.body) := by
  have hf : ∀ g, (forwardOn net g).sent = [f] → (net f = none → (forwardOn net g).out = .status 500) ∧ ∀ t, net f = some t →
      (t.status ≠ 200 → (forwardOn net g).out = .status t.status) ∧
      (t.status = 200 → t.contentType ≠ odohType → (forwardOn net g).out = .status 502) ∧
      (t.status = 200 → t.contentType = odohType → t.complete = true → (forwardOn net g).out = .ok t.body) := by
    intro g hg
    unfold forwardOn at hg ⊢
    simp only [List.cons.injEq, and_true] at hg
    subst hg
    refine ⟨fun h => by simp only [h], fun t ht => ?_⟩
    simp only [ht]
    unfold handOn
    refine ⟨fun h => if_pos h, fun h1 h2 => ?_, fun h1 h2 h3 => ?_⟩
    · rw [if_neg (by simp [h1]), if_pos h2]
    · rw [if_neg (by simp [h1]), if_neg (by simp [h2]), if_pos h3]
  unfold proxyHandler at h ⊢
  split at h
  · simp at h
  · rename_i h1
    rw [if_neg h1]
    split at h
    · simp at h
    · rename_i h2
      rw [if_neg h2]
      split at h
      · simp at h
      · rename_i h3
        rw [if_neg h3]
        split at h
        · simp at h
        · rename_i h4
          rw [if_neg h4]
          split at h
          · simp at h
          · rename_i h5
            rw [if_neg h5]
            cases hb : r.base.body with
            | none => rw [hb] at h; simp at h
            | some b =>
              rw [hb] at h
              exact hf _ h

/-- C62: the host of a forwarded request consists of letters, digits, hyphens and dots (no port, no user information, no brackets of an IPv6 address), and its last label is
not a number (no IPv4 address). -/
theorem odoh_proxy_host (net : Forward → Option TargetResponse) (r : Request) (f : Forward) (h : f ∈ (proxyHandler net r).sent) :
    f.host = r.targetHost ∧ (∀ c, c ∈ f.host → Letter c ∨ Digit c ∨ c = 45 ∨ c = 46) ∧ ∃ c, f.host.getLast? = some c ∧ Letter c := by
  by_cases hf : Forwardable r ∧ r.base.body ≠ none
  · cases hb : r.base.body with
    | none => exact absurd hb hf.2
    | some b =>
      rw [(odoh_proxy net r).1 b hf.1 hb] at h
      simp only [List.mem_singleton] at h
      subst h
      obtain ⟨_, ls, t, hne, he, hls, ht1, ht2⟩ := hf.1.2.2.1
      rw [join_pieces] at he
      refine ⟨rfl, ?_, ?_⟩
      · intro c hc
        simp only [he, List.mem_append, List.mem_flatten, List.mem_map] at hc
        rcases hc with ⟨p, ⟨l, hl, rfl⟩, hp⟩ | hc
        · rcases List.mem_append.mp hp with hp | hp
          · rcases (hls l hl).2 c hp with h | h | h
            · exact Or.inl h
            · exact Or.inr (Or.inl h)
            · exact Or.inr (Or.inr (Or.inl h))
          · simp only [List.mem_singleton] at hp
            exact Or.inr (Or.inr (Or.inr hp))
        · exact Or.inl (ht2 c hc)
      · cases hg : t.getLast? with
        | none =>
          rw [List.getLast?_eq_none_iff] at hg
          subst hg; simp at ht1
        | some c =>
          refine ⟨c, ?_, ht2 c (List.mem_of_getLast? hg)⟩
          show r.targetHost.getLast? = some c
          rw [he, List.getLast?_append, hg]; rfl
  · rw [((odoh_proxy net r).2 hf).1] at h
    simp at h

/-! ### The target -/

/-- C62: an oblivious query (a POST of that type) reaches the pipeline exactly if it can be decrypted and unpacked and has a question; then it reaches it once, without the
client's address, and the client gets the encrypted answer, an encrypted SERVFAIL if the pipeline fails, or status 403 if the query is dropped. -/
theorem odoh_target (lib : Lib) (t : Target) (opt : Opts) (r : Pipeline) (req : Request) (hm : req.base.method = str "POST") (ht : req.contentType = odohType) :
    (∀ b p c q, req.base.body = some b → b.length ≤ 4096 → t.decrypt b = some (p, c) → lib.unpack p = some q → q.question ≠ [] →
      ∃ ci : ClientInfo, ci.sourceIP = [] ∧ ci.listener = opt.id ∧ (queryHandler lib t opt r req).calls = [(q, ci)] ∧
        ((r q ci).err = none → (r q ci).msg = none → (queryHandler lib t opt r req).out = .status 403) ∧
        (∀ a pk e, (r q ci).err = none → (r q ci).msg = some a → lib.pack a = some pk → t.encrypt c pk = some e → (queryHandler lib t opt r req).out = .ok e) ∧
        (∀ pk e, (r q ci).err ≠ none → lib.pack (setRcode q rcodeServerFailure) = some pk → t.encrypt c pk = some e → (queryHandler lib t opt r req).out = .ok e)) ∧
    ((∀ b p c q, req.base.body = some b → t.decrypt (b.take 4096) = some (p, c) → lib.unpack p = some q → q.question = []) →
      (queryHandler lib t opt r req).calls = [] ∧ (queryHandler lib t opt r req).out = .status 400) := by
  have e0 : queryHandler lib t opt r req = match req.base.body with
      | none => { calls := [], out := .status 400 }
      | some b => answerQuery lib t opt r ((req.base.tls.map (·.2)).getD []) (b.take 4096) := by
    unfold queryHandler
    have hn : ¬ (req.base.method ≠ str "POST" ∨ req.contentType = str "application/dns-message") := by
      rintro (h | h)
      · exact h hm
      · rw [ht] at h; exact absurd h (by decide)
    rw [if_neg hn, if_neg (by simp [ht])]
    cases req.base.body <;> rfl
  refine ⟨?_, ?_⟩
  · intro b p c q hb hl hd hu hq
    have hq0 : q.question.length ≠ 0 := fun h => hq (List.eq_nil_of_length_eq_zero h)
    have e1 : queryHandler lib t opt r req = { calls := [(q, { sourceIP := [], tlsServerName := (req.base.tls.map (·.2)).getD [], listener := opt.id })], out := sealAnswer lib t c (answerOr (setRcode q rcodeServerFailure) (r q { sourceIP := [], tlsServerName := (req.base.tls.map (·.2)).getD [], listener := opt.id })) } := by
      rw [e0, hb]
      simp only []
      rw [List.take_of_length_le hl]
      unfold answerQuery
      rw [hd]
      simp only [hu]
      rw [if_neg hq0]
    refine ⟨{ sourceIP := [], tlsServerName := (req.base.tls.map (·.2)).getD [], listener := opt.id }, rfl, rfl, by rw [e1], ?_, ?_, ?_⟩
    all_goals rw [e1]
    · intro h1 h2
      simp only [answerOr, h1, h2, sealAnswer]
    · intro a pk e h1 h2 h3 h4
      simp only [answerOr, h1, h2, sealAnswer, h3, h4]
    · intro pk e h1 h3 h4
      cases he : (r q { sourceIP := [], tlsServerName := (req.base.tls.map (·.2)).getD [], listener := opt.id }).err with
      | none => exact absurd he h1
      | some x => simp only [answerOr, he, sealAnswer, h3, h4]
  · intro h
    rw [e0]
    cases hb : req.base.body with
    | none => exact ⟨rfl, rfl⟩
    | some b =>
      simp only []
      unfold answerQuery
      cases hd : t.decrypt (b.take 4096) with
      | none => exact ⟨rfl, rfl⟩
      | some pc =>
        obtain ⟨p, c⟩ := pc
        simp only []
        cases hu : lib.unpack p with
        | none => exact ⟨rfl, rfl⟩
        | some q =>
          simp only []
          rw [if_pos (by rw [h b p c q hb hd hu]; rfl)]
          exact ⟨rfl, rfl⟩

/-- C62: unless plain DoH is allowed, only an oblivious query that can be decrypted reaches the pipeline; with DoH allowed, all other GETs and POSTs are treated as by the DoH
listener (properties C53, C54). -/
theorem odoh_only (lib : Lib) (t : Target) (opt : Opts) (r : Pipeline) (req : Request) (ho : ¬ (req.base.method = str "POST" ∧ req.contentType = odohType)) :
    (opt.allowDoH = false → (queryHandler lib t opt r req).calls = [] ∧ (queryHandler lib t opt r req).out = .status 405) ∧
    (opt.allowDoH = true → (req.base.method ≠ str "POST" ∨ req.contentType = str "application/dns-message") →
      queryHandler lib t opt r req = dohHandler lib { id := opt.id, allowed := opt.allowed, proxyNet := none } r req.base) := by
  refine ⟨fun hd => ?_, fun hd hx => ?_⟩
  · unfold queryHandler
    by_cases h1 : req.base.method ≠ str "POST" ∨ req.contentType = str "application/dns-message"
    · rw [if_pos h1, if_neg (by simp [hd])]; exact ⟨rfl, rfl⟩
    · rw [if_neg h1]
      simp only [not_or, Decidable.not_not] at h1
      rw [if_pos fun h => ho ⟨h1.1, h⟩]
      exact ⟨rfl, rfl⟩
  · unfold queryHandler
    rw [if_pos hx, if_pos hd]; rfl

/-- C62: a listener in proxy mode never resolves anything, a target never sends anything on, and other modes than the documented ones do nothing. -/
theorem odoh_modes (lib : Lib) (t : Target) (opt : Opts) (config : Str) (net : Forward → Option TargetResponse) (r : Pipeline) (req : Request) :
    ((serve lib t opt config net r req).sent ≠ [] → (opt.mode = str "proxy" ∨ opt.mode = str "dual") ∧ req.base.path = str "/proxy" ∧ (serve lib t opt config net r req).calls = [] ∧
      Forwardable req) ∧
    ((serve lib t opt config net r req).calls ≠ [] → (opt.mode = str "target" ∨ opt.mode = [] ∨ opt.mode = str "dual") ∧ req.base.path = str "/dns-query" ∧
      (serve lib t opt config net r req).sent = []) ∧
    (opt.mode ∉ [str "proxy", str "dual", str "target", []] → (serve lib t opt config net r req).out = .status 404) := by
  unfold serve
  simp only []
  by_cases h1 : req.base.path = str "/proxy" ∧ (opt.mode = str "dual" ∨ opt.mode = str "proxy")
  · rw [if_pos h1]
    refine ⟨fun h => ⟨Or.symm h1.2, h1.1, rfl, ?_⟩, fun h => absurd rfl h, fun h => ?_⟩
    · by_cases hf : Forwardable req ∧ req.base.body ≠ none
      · exact hf.1
      · exact absurd ((odoh_proxy net req).2 hf).1 h
    · simp only [List.mem_cons, List.not_mem_nil, or_false, not_or] at h
      rcases h1.2 with h2 | h2
      · exact absurd h2 h.2.1
      · exact absurd h2 h.1
  · rw [if_neg h1]
    by_cases h2 : req.base.path = str "/dns-query" ∧ (opt.mode = str "dual" ∨ opt.mode = str "target" ∨ opt.mode = [])
    · rw [if_pos h2]
      refine ⟨fun h => absurd rfl h, fun h => ⟨?_, h2.1, rfl⟩, fun h => ?_⟩
      · rcases h2.2 with h | h | h
        · exact Or.inr (Or.inr h)
        · exact Or.inl h
        · exact Or.inr (Or.inl h)
      · simp only [List.mem_cons, List.not_mem_nil, or_false, not_or] at h
        rcases h2.2 with h2 | h2 | h2
        · exact absurd h2 h.2.1
        · exact absurd h2 h.2.2.1
        · exact absurd h2 h.2.2.2
    · rw [if_neg h2]
      by_cases h3 : req.base.path = str "/.well-known/odohconfigs" ∧ (opt.mode = str "dual" ∨ opt.mode = str "target" ∨ opt.mode = [])
      · rw [if_pos h3]
        refine ⟨fun h => absurd rfl h, fun h => absurd rfl h, fun h => ?_⟩
        simp only [List.mem_cons, List.not_mem_nil, or_false, not_or] at h
        rcases h3.2 with h2 | h2 | h2
        · exact absurd h2 h.2.1
        · exact absurd h2 h.2.2.1
        · exact absurd h2 h.2.2.2
      · rw [if_neg h3]
        exact ⟨fun h => absurd rfl h, fun h => absurd rfl h, fun _ => rfl⟩

/-! ### Findings -/

/-- Finding: the networks that may use the listener (`allowed-net`) and the client's address make no difference for oblivious queries, nor for the proxy. -/
theorem odoh_allowed_net_ignored (lib : Lib) (t : Target) (opt : Opts) (config : Str) (net : Forward → Option TargetResponse) (r : Pipeline) (req : Request)
    (ho : req.base.method = str "POST" ∧ req.contentType = odohType) (nets : List Cidr.IPNet) (remote : Str) :
    serve lib t { opt with allowed := nets } config net r { req with base := { req.base with remoteHost := remote } } = serve lib t opt config net r req := by
  have hq : queryHandler lib t { opt with allowed := nets } r { req with base := { req.base with remoteHost := remote } } = queryHandler lib t opt r req := by
    have e : ¬ (req.base.method ≠ str "POST" ∨ req.contentType = str "application/dns-message") := by
      rintro (h | h)
      · exact h ho.1
      · rw [ho.2] at h; exact absurd h (by decide)
    unfold queryHandler
    simp only []
    rw [if_neg e, if_neg e]
    rfl
  unfold serve
  simp only [hq]
  rfl

/-- Finding: a longer body is not refused but cut off. -/
theorem odoh_proxy_cuts (net : Forward → Option TargetResponse) (r : Request) (b : Str) (hf : Forwardable r) (hb : r.base.body = some b) (hl : 4096 < b.length) :
    ∃ f, (proxyHandler net r).sent = [f] ∧ f.body.length = 4096 ∧ f.body ≠ b := by
  refine ⟨_, (odoh_proxy net r).1 b hf hb, by simp; omega, fun h => ?_⟩
  have := congrArg List.length h
  simp at this
  omega

/-- Finding: if the target's response breaks off half-way, the client gets status 200 and what has come, with an error text behind it. -/
theorem odoh_proxy_broken (net : Forward → Option TargetResponse) (r : Request) (f : Forward) (t : TargetResponse) (h : Forwardable r) (b : Str) (hb : r.base.body = some b)
    (hf : (proxyHandler net r).sent = [f]) (hn : net f = some t) (h1 : t.status = 200) (h2 : t.contentType = odohType) (h3 : t.complete = false) (h4 : t.body ≠ []) :
    (proxyHandler net r).out = .ok (t.body ++ str "Internal Server Error\n") := by
  have hs := (odoh_proxy net r).1 b h hb
  obtain ⟨g1, g2, g3, g4⟩ := h
  rw [← path_iff] at g4
  obtain ⟨k1, k2, k3⟩ := (host_checked r.targetHost).mpr g3
  have e : proxyHandler net r = forwardOn net { host := r.targetHost, path := r.targetPath, body := b.take 4096, contentType := r.contentType } := by
    unfold proxyHandler
    rw [if_neg (by simp [g1]), if_neg, if_neg k1, if_neg, if_neg g4, hb]
    · rintro (h | h)
      · omega
      · rw [k3] at h; simp at h
    · rintro (h | h)
      · rw [g2] at h; exact absurd h (by decide)
      · exact h g2
  rw [e] at hf ⊢
  unfold forwardOn at hf ⊢
  simp only [List.cons.injEq, and_true] at hf
  rw [hf]
  simp only [hn]
  unfold handOn
  rw [if_neg (by simp [h1]), if_neg (by simp [h2]), if_neg (by simp [h3]), if_neg h4]

/-! ### From end to end -/

/-- The HTTP response a client sees -/
def seen : Http → Option Clients.HttpResp
  | .ok b => some { status := 200, contentType := odohType, body := some b }
  | .status c => some { status := c, body := some [] }
  | .crash => none

/-- The target behind the proxy: a request forwarded to it, and its response -/
def behind (lib : Lib) (t : Target) (opt : Opts) (config : Str) (r : Pipeline) (f : Forward) : Option TargetResponse :=
  match (serve lib t opt config (fun _ => none) r
      { base := { method := str "POST", path := f.path, dns := none, body := some f.body, remoteHost := [], xff := [], tls := some (true, f.host) }, contentType := f.contentType }).out with
  | .ok b => some { status := 200, contentType := odohType, body := b }
  | .status c => some { status := c, body := [] }
  | .crash => none

/-- The proxy as the client sees it -/
def throughProxy (net : Forward → Option TargetResponse) (host path remote : Str) (req : Clients.HttpReq) : Option Clients.HttpResp :=
  seen (proxyHandler net { base := { method := if req.method = .post then str "POST" else str "GET", path := str "/proxy", dns := none, body := some req.body, remoteHost := remote, xff := [], tls := some (true, []) }, contentType := req.contentType, targetHost := host, targetPath := path }).out

/-- C62: a client of this program that asks a target of this program through a proxy of this program gets the answer of the target's pipeline, if the
encryption keeps its promise and the messages are not too long. The target's pipeline is asked the client's query without the client's address. -/
theorem odoh_end_to_end (lib : Lib) (o : Clients.OdohLib) (t : Target) (opt : Opts) (config : Str) (r : Pipeline) (b64 : Str → Str) (tm : Clients.Template) (copt : Clients.DoHOpt)
    (target : Str → Str) (host remote : Str) (key : o.Key) (q a : Msg) (p e pa ea : Str) (c : o.Ctx) (c' : t.Ctx) (url : Str)
    (hmode : opt.mode = str "target" ∨ opt.mode = [] ∨ opt.mode = str "dual") (hhost : PublicName host) (hpost : copt.method = str "POST") (hurl : tm.expand none = some url)
    (hp : lib.pack q = some p) (hu : lib.unpack p = some q) (hq : q.question ≠ []) (he : o.encrypt key p = some (e, c)) (hlen : e.length ≤ 4096)
    (hd : t.decrypt e = some (p, c'))
    (hr : r q { sourceIP := [], tlsServerName := host, listener := opt.id } = { msg := some a, err := none })
    (hpa : lib.pack a = some pa) (hua : lib.unpack pa = some a) (hqa : Spec.Pipeline.ForQuestion q a)
    (hea : t.encrypt c' pa = some ea) (hoa : o.openAnswer c ea = some pa) (hla : ea.length ≤ 65535 + 512) :
    (Clients.odohResolve lib o b64 tm copt target (throughProxy (behind lib t opt config r) host (str "/dns-query") remote) key q).2 = .answer a := by
  have hfw : ∀ rq : Request, rq.base.method = str "POST" → rq.contentType = odohType → rq.targetHost = host → rq.targetPath = str "/dns-query" → Forwardable rq := by
    intro rq h1 h2 h3 h4
    refine ⟨h1, h2, by rw [h3]; exact hhost, ?_⟩
    rw [h4, ← path_iff]; decide
  refine ((Clients.odoh_client lib o b64 tm copt target _ key q).2.2 a).mpr ?_
  -- the client's request
  have hreq : (Clients.odohResolve lib o b64 tm copt target (throughProxy (behind lib t opt config r) host (str "/dns-query") remote) key q).1 =
      some { method := .post, url := target url, body := e, contentType := odohType } := by
    unfold Clients.odohResolve
    simp only [hp, he]
    unfold Clients.buildRequest
    rw [if_pos hpost, hurl]
    rfl
  -- the target's answer
  have htarget : behind lib t opt config r { host := host, path := str "/dns-query", body := e, contentType := odohType } = some { status := 200, contentType := odohType, body := ea } := by
    unfold behind
    have : (serve lib t opt config (fun _ => none) r
      { base := { method := str "POST", path := str "/dns-query", dns := none, body := some e, remoteHost := [], xff := [], tls := some (true, host) }, contentType := odohType }).out = .ok ea := by
      unfold serve
      simp only []
      rw [if_neg (by intro h; exact absurd h.1 (by decide)), if_pos ⟨trivial, by
        rcases hmode with h | h | h
        · exact Or.inr (Or.inl h)
        · exact Or.inr (Or.inr h)
        · exact Or.inl h⟩]
      show (queryHandler lib t opt r _).out = _
      unfold queryHandler
      simp only []
      rw [if_neg (by decide), if_neg (by simp), List.take_of_length_le hlen]
      unfold answerQuery
      rw [hd]
      simp only [hu]
      rw [if_neg (fun h => hq (List.eq_nil_of_length_eq_zero h))]
      simp only [Option.map_some, Option.getD_some, hr, answerOr, sealAnswer, hpa, hea]
    simp only [this]
  refine ⟨p, e, c, _, { status := 200, contentType := odohType, body := some ea }, ea, pa, hp, he, hreq, ?_, rfl, ⟨by show 200 ≤ 200; omega, by show 200 < 300; omega, rfl, hla⟩, hoa, hua, hqa⟩
  unfold throughProxy
  simp only [if_pos]
  generalize hrq : ({ base := { method := str "POST", path := str "/proxy", dns := none, body := some e, remoteHost := remote, xff := [], tls := some (true, []) }, contentType := odohType, targetHost := host, targetPath := str "/dns-query" } : Request) = rq
  have hF : Forwardable rq := by subst hrq; exact hfw _ rfl rfl rfl rfl
  have hB : rq.base.body = some e := by subst hrq; rfl
  have hs := (odoh_proxy (behind lib t opt config r) rq).1 e hF hB
  have hh : rq.targetHost = host := by subst hrq; rfl
  have hpth : rq.targetPath = str "/dns-query" := by subst hrq; rfl
  rw [hh, hpth, List.take_of_length_le hlen] at hs
  have := ((odoh_proxy_response _ rq _ hs).2 _ htarget).2.2 rfl rfl rfl
  rw [this]
  rfl

/-! ### Examples -/

example : hostRe.matches (str "dns.example.com") = true ∧ hostRe.matches (str "1.2.3.4") = false ∧ hostRe.matches (str "localhost") = false ∧ hostRe.matches (str "a.b.c") = false ∧
    hostRe.matches (str "example.com:8443") = false ∧ hostRe.matches (str "u@example.com") = false ∧ hostRe.matches (str "a..com") = false ∧ hostRe.matches (str "-.com") = true := by
  decide +kernel
private def exReq : Request :=
  { base := { method := str "POST", path := str "/proxy", dns := none, body := some [1, 2, 3], remoteHost := [], xff := [], tls := some (true, []) }, contentType := odohType, targetHost := str "dns.example.com", targetPath := str "/dns-query" }
example : Forwardable exReq := by
  refine ⟨by decide, by decide, (host_checked _).mp (by decide +kernel), (path_iff _).mp (by decide +kernel)⟩
example : (proxyHandler (fun _ => some { status := 200, contentType := odohType, body := [9] }) exReq).out = .ok [9] ∧
    (proxyHandler (fun _ => some { status := 302, body := [9] }) exReq).out = .status 302 ∧
    (proxyHandler (fun _ => some { status := 200, contentType := odohType, body := [9] }) { exReq with targetHost := str "10.0.0.1" }).sent = [] ∧
    (proxyHandler (fun _ => some { status := 200, contentType := odohType, body := [9] }) { exReq with targetPath := str "/a/../b" }).sent = [] := by decide +kernel

end Verif.Props.Odoh
