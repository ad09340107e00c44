import Verif.Model.Logging
/-! C108: log lines say of a query what they are to say. -/
namespace Verif.Props.Logging
open Verif.Logging
open Verif.Spec.Logging (Arg Attr Level Client Asked Happens Line context Spells Spelled SpelledAll World Shown)

variable {V : Type}

theorem toAttrs_spells {args : List (Arg V)} {as : List (Attr V)} (h : Spells args as) : toAttrs args = as := by
  induction h with
  | nil => rfl
  | @pair k v rest as _ ih => simp only [toAttrs, ih]
  | ready _ ih => simp only [toAttrs, ih]

theorem spells_append {a b : List (Arg V)} {x y : List (Attr V)} (h : Spells a x) (h' : Spells b y) : Spells (a ++ b) (x ++ y) := by
  induction h with
  | nil => exact h'
  | pair _ ih => exact .pair ih
  | ready _ ih => exact .ready ih

/-- An array with the cells of the slice in it stays readable when arrays are added. -/
theorem read_grow {s : St V} {sl : Slice} {extra : List (List (Option (Arg V)))} (h : sl.arr < s.arrs.length ∨ sl.len = 0) :
    ((((s.arrs ++ extra)[sl.arr]?).getD []).take sl.len) = s.read sl := by
  rcases h with h | h
  · rw [List.getElem?_append_left h]; rfl
  · simp only [St.read, h, List.take_zero]

/-- A logger of the program and one of the specification. -/
structure Same (s : St V) (x : Logger V) (y : Verif.Spec.Logging.Logger V) : Prop where
  dst : x.dst = y.dst
  id : x.id = y.id
  query : x.query = y.query
  client : x.client = y.client
  place : x.extra.arr < s.arrs.length ∨ x.extra.len = 0
  extra : ∃ args, s.read x.extra = args.map some ∧ args.length = x.extra.len ∧ Spells args y.more

structure Rel (s : St V) (w : World V) : Prop where
  count : s.loggers.length = w.loggers.length
  same : ∀ (i : Nat) x y, s.loggers[i]? = some x → w.loggers[i]? = some y → Same s x y
  queries : s.queries = w.queries
  current : s.current = w.current
  shows : s.shows = w.shows
  lines : s.lines = w.lines

theorem same_grow {s s' : St V} {x : Logger V} {y : Verif.Spec.Logging.Logger V} {ex : List (List (Option (Arg V)))} (ha : s'.arrs = s.arrs ++ ex) (h : Same s x y) :
    Same s' x y := by
  refine ⟨h.dst, h.id, h.query, h.client, ?_, ?_⟩
  · rw [ha, List.length_append]
    exact h.place.elim (fun h => .inl (by omega)) .inr
  · obtain ⟨args, h₁, h₂, h₃⟩ := h.extra
    refine ⟨args, ?_, h₂, h₃⟩
    rw [← h₁, ← read_grow (extra := ex) h.place, ← ha]
    rfl

theorem same_push {s s' : St V} {w : World V} {x : Logger V} {y : Verif.Spec.Logging.Logger V} {ex : List (List (Option (Arg V)))} (h : Rel s w)
    (ha : s'.arrs = s.arrs ++ ex) (hs : Same s' x y) (i : Nat) (x' : Logger V) (y' : Verif.Spec.Logging.Logger V)
    (hx : (s.loggers ++ [x])[i]? = some x') (hy : (w.loggers ++ [y])[i]? = some y') : Same s' x' y' := by
  by_cases hi : i < s.loggers.length
  · rw [List.getElem?_append_left hi] at hx
    rw [List.getElem?_append_left (h.count ▸ hi)] at hy
    exact same_grow ha (h.same i x' y' hx hy)
  · have h1 : i = s.loggers.length := by
      have := (List.getElem?_eq_some_iff.1 hx).1
      simp only [List.length_append, List.length_cons, List.length_nil] at this
      omega
    subst h1
    rw [List.getElem?_append_right (Nat.le_refl _)] at hx
    rw [h.count, List.getElem?_append_right (Nat.le_refl _)] at hy
    simp only [Nat.sub_self, List.getElem?_cons_zero, Option.some.injEq] at hx hy
    subst hx; subst hy
    exact hs

theorem some_iff {s : St V} {w : World V} (h : Rel s w) (l : Nat) :
    (∃ x y, s.loggers[l]? = some x ∧ w.loggers[l]? = some y) ∨ (s.loggers[l]? = none ∧ w.loggers[l]? = none) := by
  by_cases hl : l < s.loggers.length
  · exact .inl ⟨_, _, List.getElem?_eq_getElem hl, List.getElem?_eq_getElem (h.count ▸ hl)⟩
  · exact .inr ⟨List.getElem?_eq_none (by omega), List.getElem?_eq_none (by have := h.count; omega)⟩

/-- `With` with arguments always makes a new array. -/
theorem append_clip (s : St V) (sl : Slice) (xs : List (Arg V)) (spare : Nat) (hx : xs.length ≠ 0) :
    append s (clip sl) xs spare = ({ s with arrs := s.arrs ++ [s.read sl ++ xs.map some ++ List.replicate spare none] },
      ⟨s.arrs.length, sl.len + xs.length, sl.len + xs.length + spare⟩) := by
  unfold append
  rw [if_neg (by simp only [clip]; omega)]
  rfl

theorem filterMap_some {α : Type} (l : List α) : (l.map some).filterMap (fun c => c) = l := by
  induction l with
  | nil => rfl
  | cons a l ih => simp only [List.map_cons, List.filterMap_cons_some (f := fun c : Option α => c) rfl, ih]

theorem context_eq (id : Str) (q : Option Nat) (f : Nat → List Asked) (c : Client V) :
    (let r : List (Attr V) := [(str "id", .text id), (str "client", .other c.source)]
     let r := match q with
       | none => r
       | some q => r ++ [(str "qtype", .text (qTypeName (f q))), (str "qname", .text (qName (f q)))]
     let r := if c.protocol ≠ [] then r ++ [(str "protocol", .text c.protocol)] else r
     let r := if c.listener ≠ [] then r ++ [(str "addr", .text c.listener)] else r
     if c.path ≠ [] then r ++ [(str "path", .text c.path)] else r) = context id (q.map f) c := by
  unfold context
  rcases q with _ | q
  · by_cases h₁ : c.protocol = [] <;> by_cases h₂ : c.listener = [] <;> by_cases h₃ : c.path = [] <;> simp [*]
  · rcases hf : f q with _ | ⟨q', qs⟩ <;> by_cases h₁ : c.protocol = [] <;> by_cases h₂ : c.listener = [] <;> by_cases h₃ : c.path = [] <;>
      simp [*, qTypeName, qName]

theorem rel_step {s : St V} {w : World V} (h : Rel s w) {x : Happens V (List (Arg V) × Nat)} {y : Happens V (List (Attr V))} (hxy : Spelled x y) :
    Rel (s.after x) (w.after y) := by
  cases hxy with
  | @make id q c =>
    refine ⟨by simp [St.after, Verif.Logging.make, World.after, h.count], ?_, h.queries, h.current, h.shows, h.lines⟩
    refine same_push (ex := []) h (by simp [St.after, Verif.Logging.make]) ⟨h.current, rfl, rfl, rfl, .inr rfl, [], ?_, rfl, .nil⟩
    simp [St.read]
  | @more l args spare as hsp =>
    rcases some_iff h l with ⟨x, y, hx, hy⟩ | ⟨hx, hy⟩
    · have hs := h.same l x y hx hy
      obtain ⟨old, ho₁, ho₂, ho₃⟩ := hs.extra
      simp only [St.after, World.after, hx, hy, more]
      by_cases hn : args.length = 0
      · rw [if_pos hn]
        have ha : args = [] := List.eq_nil_of_length_eq_zero hn
        subst ha
        cases hsp
        refine ⟨by simp [h.count], ?_, h.queries, h.current, h.shows, h.lines⟩
        refine same_push (ex := []) h (by simp) ?_
        rw [List.append_nil]
        exact same_grow (ex := []) (by simp) hs
      · rw [if_neg hn, append_clip _ _ _ _ hn]
        refine ⟨by simp [h.count], ?_, h.queries, h.current, h.shows, h.lines⟩
        refine same_push (s := s) (ex := [_]) h rfl ⟨hs.dst, hs.id, hs.query, hs.client, .inl (by simp), old ++ args, ?_, by simp [ho₂], spells_append ho₃ hsp⟩
        simp only [St.read, List.getElem?_append_right (Nat.le_refl _), Nat.sub_self, List.getElem?_cons_zero, Option.getD_some, List.map_append]
        have : s.read x.extra = old.map some := ho₁
        simp only [St.read] at this
        rw [this, List.take_append_of_le_length (by simp [ho₂]), List.take_of_length_le (by simp [ho₂])]
    · simp only [St.after, World.after, hx, hy]
      exact h
  | @log l level text args spare as hsp =>
    rcases some_iff h l with ⟨x, y, hx, hy⟩ | ⟨hx, hy⟩
    · have hs := h.same l x y hx hy
      obtain ⟨old, ho₁, ho₂, ho₃⟩ := hs.extra
      simp only [St.after, World.after, hx, hy, Verif.Logging.log, hs.dst, h.shows]
      by_cases hsh : w.shows y.dst level = true
      · rw [if_pos hsh, if_neg (by simp [hsh])]
        refine ⟨h.count, fun i x' y' hx' hy' => same_grow (ex := []) (by simp) (h.same i x' y' hx' hy'), h.queries, h.current, rfl, ?_⟩
        have hc := context_eq y.id y.query w.queries y.client
        simp only [hs.id, hs.query, hs.client, h.queries, h.lines, ho₁, filterMap_some, toAttrs_spells ho₃, toAttrs_spells hsp]
        rw [← hc]
        rfl
      · rw [if_neg hsh, if_pos (by simp [hsh])]
        exact h
    · simp only [St.after, World.after, hx, hy]
      exact h
  | change => exact ⟨h.count, fun i x y hx hy => same_grow (ex := []) (by simp [St.after]) (h.same i x y hx hy), by simp [St.after, World.after, h.queries], h.current, h.shows, h.lines⟩
  | replace => exact ⟨h.count, fun i x y hx hy => same_grow (ex := []) (by simp [St.after]) (h.same i x y hx hy), h.queries, rfl, h.shows, h.lines⟩
  | levels => exact ⟨h.count, fun i x y hx hy => same_grow (ex := []) (by simp [St.after]) (h.same i x y hx hy), h.queries, h.current, rfl, h.lines⟩

/-- The beginning of the program: `arrs` are arrays that exist already. -/
def startState (arrs : List (List (Option (Arg V)))) (w : World V) : St V := ⟨arrs, [], w.queries, w.current, w.shows, w.lines⟩

/-- **Log lines.** Whatever loggers are made, copied with more attributes and used, in any order and by any goroutines, and whatever the
runtime does with the arrays: the lines written are those of the specification, where every logger has attributes of its own. -/
theorem log_lines (w : World V) (hw : w.loggers = []) (arrs : List (List (Option (Arg V)))) {xs : List (Happens V (List (Arg V) × Nat))}
    {ys : List (Happens V (List (Attr V)))} (h : SpelledAll xs ys) :
    (xs.foldl St.after (startState arrs w)).lines = (ys.foldl World.after w).lines := by
  have key : ∀ {xs : List (Happens V (List (Arg V) × Nat))} {ys : List (Happens V (List (Attr V)))}, SpelledAll xs ys →
      ∀ (s : St V) (w : World V), Rel s w → Rel (xs.foldl St.after s) (ys.foldl World.after w) := by
    intro xs ys h
    induction h with
    | nil => exact fun _ _ h => h
    | cons hxy _ ih => exact fun s w h => ih _ _ (rel_step h hxy)
  refine (key h _ _ ⟨by simp [startState, hw], ?_, rfl, rfl, rfl, rfl⟩).lines
  intro i x y hx
  simp [startState] at hx

/-- **Nothing is shared.** No step writes into an array that existed before: arrays in use by other goroutines stay as they are. -/
theorem log_writes_nothing (s : St V) (x : Happens V (List (Arg V) × Nat)) : s.arrs <+: (s.after x).arrs := by
  cases x with
  | more l args =>
    simp only [St.after]
    split
    · exact List.prefix_refl _
    · unfold more
      split
      · exact List.prefix_refl _
      · next hn =>
        rw [append_clip _ _ _ _ hn]
        exact List.prefix_append _ _
  | log l level text args =>
    simp only [St.after]
    split
    · exact List.prefix_refl _
    · unfold Verif.Logging.log
      split <;> exact List.prefix_refl _
  | _ => exact List.prefix_refl _

/-- **Levels.** 0 to 6 are accepted, and show what the manual says. -/
theorem log_levels (n : Nat) : ((slogLevel n).isSome = true ↔ n ≤ 6) ∧ ∀ m, slogLevel n = some m → ∀ l, shows m l = true ↔ Shown n l := by
  by_cases hn : n ≤ 6
  · have : n = 0 ∨ n = 1 ∨ n = 2 ∨ n = 3 ∨ n = 4 ∨ n = 5 ∨ n = 6 := by omega
    refine ⟨?_, ?_⟩
    · rcases this with rfl | rfl | rfl | rfl | rfl | rfl | rfl <;> decide
    · intro m hm l
      rcases this with rfl | rfl | rfl | rfl | rfl | rfl | rfl <;> (simp only [slogLevel] at hm; cases hm; cases l <;> simp [shows, number, Shown])
  · have : slogLevel n = none := by
      unfold slogLevel
      rw [if_neg (by omega), if_neg (by omega), if_neg (by omega), if_neg (by omega), if_neg (by omega)]
    exact ⟨by simp [this, hn], fun m hm => by simp [this] at hm⟩

section Examples

private def client : Client Nat := ⟨7, str "udp", str ":53", []⟩

/-- Two copies of one logger, the second made after the first; both say only their own attribute, though the runtime gave room for more. -/
private def steps : List (Happens Nat (List (Arg Nat) × Nat)) :=
  [.change 4 [⟨str "a.test.", str "A"⟩], .make (str "router") (some 4) client, .more 0 ([.text (str "port"), .other 53], 5),
   .more 1 ([.text (str "ip"), .other 1], 5), .more 1 ([.attr (str "ip") (.other 2)], 5), .log 2 .info (str "probe") ([], 0),
   .change 4 [⟨str "b.test.", str "A"⟩], .log 1 .warn (str "done") ([.text (str "n"), .other 2], 0), .log 3 .debug (str "hidden") ([], 0)]

private def spelled : List (Happens Nat (List (Attr Nat))) :=
  [.change 4 [⟨str "a.test.", str "A"⟩], .make (str "router") (some 4) client, .more 0 [(str "port", .other 53)], .more 1 [(str "ip", .other 1)],
   .more 1 [(str "ip", .other 2)], .log 2 .info (str "probe") [], .change 4 [⟨str "b.test.", str "A"⟩], .log 1 .warn (str "done") [(str "n", .other 2)],
   .log 3 .debug (str "hidden") []]

example : SpelledAll steps spelled :=
  .cons .change <| .cons .make <| .cons (.more (.pair .nil)) <| .cons (.more (.pair .nil)) <| .cons (.more (.ready .nil)) <| .cons (.log .nil) <|
  .cons .change <| .cons (.log (.pair .nil)) <| .cons (.log .nil) .nil

private def world : World Nat := ⟨[], fun _ => [], 1, fun _ l => l != .debug, []⟩

example : (spelled.foldl World.after world).lines =
    [⟨1, .info, str "probe", [(str "id", .text (str "router")), (str "client", .other 7), (str "qtype", .text (str "A")), (str "qname", .text (str "a.test.")),
        (str "protocol", .text (str "udp")), (str "addr", .text (str ":53")), (str "port", .other 53), (str "ip", .other 1)]⟩,
     ⟨1, .warn, str "done", [(str "id", .text (str "router")), (str "client", .other 7), (str "qtype", .text (str "A")), (str "qname", .text (str "b.test.")),
        (str "protocol", .text (str "udp")), (str "addr", .text (str ":53")), (str "port", .other 53), (str "n", .other 2)]⟩] := by rfl

example : slogLevel 4 = some 0 ∧ shows 0 .info = true ∧ shows 0 .debug = false := by decide

end Examples
end Verif.Props.Logging
