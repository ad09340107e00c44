import Verif.Model.LuaError
import Verif.Props.LuaBind
/-
C80, continued: methods, and errors a script makes or gets.
-/
namespace Verif.Props.LuaMethods
open Verif.LuaBind Verif.Spec.LuaBind Verif.Props.LuaBind

private theorem ite_func {p : Prop} [Decidable p] {x y : Option LVal} {g : Str} (hx : x ≠ some (.func g)) : (if p then x else y) = some (.func g) ↔ ¬ p ∧ y = some (.func g) := by
  by_cases h : p <;> simp [h, hx]

private theorem pushed_no (E : Env) (v : Val) (g : Str) : pushed E v ≠ .func g := by
  unfold pushed
  split <;> simp [numberTable]

private theorem field_no (E : Env) (m : Mem) (t : FType) (v : Val) (g : Str) : fieldLua E m t v ≠ some (.func g) := by
  unfold fieldLua
  split <;> simp [pushed_no]

/-- C80: **The methods** of messages are these four, other objects a script can change have none. -/
theorem methods {E : Env} {m : Mem} {obj : LVal} {view : View} (H : Is m obj view) (f g : Str) : get E m obj f = some (.func g) ↔
    view = .message ∧ g = f ∧ f ∈ [str "set_reply", str "set_question", str "is_edns0", str "set_edns0"] := by
  cases H with
  | message ha =>
    rw [getMessage]
    unfold msgGet
    constructor
    · intro h
      iterate 11 rw [ite_func (by simp [questionTable, recTable])] at h
      have h := h.2.2.2.2.2.2.2.2.2.2.2
      by_cases hf : f ∈ [str "set_reply", str "set_question", str "is_edns0", str "set_edns0"]
      · rw [if_pos hf] at h
        cases h
        exact ⟨rfl, rfl, hf⟩
      · rw [if_neg hf] at h
        cases h
    · rintro ⟨-, rfl, hf⟩
      simp only [List.mem_cons, List.not_mem_nil, or_false] at hf
      rcases hf with rfl | rfl | rfl | rfl <;> rfl
  | question ha hi =>
    rw [getQuestion]
    unfold questionGet
    refine ⟨fun h => ?_, fun h => by cases h.1⟩
    repeat rw [ite_func (by simp)] at h
    exact absurd h.2.2.2 (by simp)
  | opt ha hg =>
    rw [getOPT_at rfl hg]
    unfold optGet
    refine ⟨fun h => ?_, fun h => by cases h.1⟩
    repeat rw [ite_func (by simp)] at h
    exact absurd h.2.2.2.2.2.2.2 (by simp)
  | option ha hk hu =>
    rw [getOption_at rfl hk]
    refine ⟨fun h => ?_, fun h => by cases h.1⟩
    revert h
    unfold optionGet
    split
    · simp
    · cases find (readable _) f with
      | none => simp
      | some s => simp [pushed_no]
  | client =>
    refine ⟨fun h => ?_, fun h => by cases h.1⟩
    change clientGet E _ f = _ at h
    unfold clientGet at h
    rw [ite_func (by cases (_ : Client).sourceIP <;> simp)] at h
    iterate 5 rw [ite_func (by simp)] at h
    exact absurd h.2.2.2.2.2.2 (by simp)
  | rr ha =>
    rw [getRR]
    refine ⟨fun h => ?_, fun h => by cases h.1⟩
    unfold recGet at h
    iterate 5 rw [ite_func (by simp)] at h
    obtain ⟨l, _, h⟩ := Option.bind_eq_some_iff.1 h.2.2.2.2.2
    obtain ⟨⟨i, t⟩, _, h⟩ := Option.bind_eq_some_iff.1 h
    exact absurd h (field_no _ _ _ _ _)

/-- C80: errors have the method `error` and resolvers the method `resolve`; anything else about them reads nil. -/
theorem methods_error {E : Env} {m : Mem} (p : Ptr) (f : Str) (v : LVal) : get E m (.user (some .error) p) f = some v ↔ f = str "error" ∧ v = .func f ∨ f ≠ str "error" ∧ v = .nil := by
  simp only [LuaBind.get, index]
  by_cases h : f = str "error" <;> simp [h, eq_comm]

theorem methods_resolver {E : Env} {m : Mem} (p : Ptr) (f : Str) (v : LVal) : get E m (.user (some .resolver) p) f = some v ↔ f = str "resolve" ∧ v = .func f ∨ f ≠ str "resolve" ∧ v = .nil := by
  simp only [LuaBind.get, index]
  by_cases h : f = str "resolve" <;> simp [h, eq_comm]

/-- C80: **An error** a script makes from a text, or gets from a resolver, has that text; only errors have one. -/
theorem error_text (args : List LVal) (v : LVal) : errorText args = some v ↔ ∃ mt e rest, args = .user mt (.error e) :: rest ∧ v = .string e := by
  unfold errorText
  constructor
  · intro h
    split at h
    · cases h
      exact ⟨_, _, _, rfl, rfl⟩
    · cases h
  · rintro ⟨mt, e, rest, rfl, rfl⟩
    rfl

theorem error_new {E : Env} (s : Str) (rest : List LVal) : (errorNew E (.string s :: rest)).bind (fun e => errorText [e]) = some (.string s) := rfl

/-- What is no text (or number) makes no error: an error is raised instead. -/
theorem error_new_refused {E : Env} (args : List LVal) : (∃ e, errorNew E args = some e) ↔ ∃ v rest, args = v :: rest ∧ ((∃ s, v = .string s) ∨ ∃ x s, v = .num x ∧ E.text x = some s) := by
  unfold errorNew
  cases args with
  | nil => simp [checkString]
  | cons v rest =>
    cases v <;> simp [checkString]
    exact ⟨fun ⟨_, s, h, _⟩ => ⟨s, h⟩, fun ⟨s, h⟩ => ⟨_, s, h, rfl⟩⟩

/-- A script reads `set_reply` of a message, and nothing of that name of an error; it makes an error and reads its text. -/
example (E : Env) (m : Mem) (h : 0 < m.next) : get E m (.user (some .message) (.msg 0)) (str "set_reply") = some (.func (str "set_reply")) ∧
    get E m (.user (some .error) (.error (str "no"))) (str "set_reply") = some .nil ∧ errorNew E [.string (str "no")] = some (.user (some .error) (.error (str "no"))) ∧
    errorText [.user (some .error) (.error (str "no"))] = some (.string (str "no")) :=
  ⟨(methods (.message h) _ _).2 ⟨rfl, rfl, by decide⟩, (methods_error _ _ _).2 (.inr ⟨by decide, rfl⟩), rfl, (error_text _ _).2 ⟨_, _, _, rfl, rfl⟩⟩

end Verif.Props.LuaMethods
