/-
C46: loading lists.
-/
import Verif.Spec.Loader
set_option linter.unusedVariables false
set_option linter.unusedSimpArgs false
namespace Verif.Props.Loader
open Verif Verif.Loader Verif.Spec.Loader

/-! ### The lines of a file -/

private theorem raw_spec : ∀ (data acc : Str), LF ∉ acc → (∀ l, l ∈ (rawLines acc data).1 → LF ∉ l) ∧ LF ∉ (rawLines acc data).2 ∧ acc ++ data = fileContent (rawLines acc data).1 ++ (rawLines acc data).2
  | [], acc, h => by simp [rawLines, fileContent, h]
  | c :: cs, acc, h => by
    unfold rawLines
    by_cases hc : c = LF
    · rw [if_pos hc]
      obtain ⟨h1, h2, h3⟩ := raw_spec cs [] (by simp)
      refine ⟨?_, h2, ?_⟩
      · intro l hl
        simp only [List.mem_cons] at hl
        rcases hl with rfl | hl
        · exact h
        · exact h1 l hl
      · simp only [List.nil_append] at h3
        simp only [fileContent, List.flatMap_cons, List.append_assoc, List.cons_append, List.nil_append]
        rw [hc]
        congr 2
    · rw [if_neg hc]
      obtain ⟨h1, h2, h3⟩ := raw_spec cs (acc ++ [c]) (by simp [h]; exact fun h => hc h.symm)
      exact ⟨h1, h2, by rw [← h3]; simp⟩

private theorem scanRaw_ok : ∀ (ls : List Str), (scanRaw ls).2 = false → (scanRaw ls).1 = ls.map dropCR
  | [], _ => rfl
  | l :: ls, h => by
    unfold scanRaw at h ⊢
    split at h
    · simp at h
    · rename_i hl
      rw [if_neg hl]
      simp only [List.map_cons]
      rw [scanRaw_ok ls h]

private theorem scanRaw_err : ∀ (ls : List Str), (scanRaw ls).2 = true ↔ ∃ l, l ∈ ls ∧ maxToken ≤ l.length
  | [] => by simp [scanRaw]
  | l :: ls => by
    unfold scanRaw
    split
    · rename_i h; simp [h]
    · rename_i h
      simp only [scanRaw_err ls, List.mem_cons]
      constructor
      · rintro ⟨x, h1, h2⟩; exact ⟨x, .inr h1, h2⟩
      · rintro ⟨x, h1 | h1, h2⟩
        · subst h1; exact absurd h2 h
        · exact ⟨x, h1, h2⟩

private theorem dropCR_cases (l : Str) : ((∀ m, l ≠ m ++ [13]) ∧ dropCR l = l) ∨ l = dropCR l ++ [13] := by
  unfold dropCR
  by_cases h : l.getLast? = some CR
  · rw [if_pos h]
    refine .inr ?_
    obtain ⟨m, hm⟩ := List.getLast?_eq_some_iff.mp h
    rw [hm]
    simp [CR]
  · rw [if_neg h]
    refine .inl ⟨fun m hm => h ?_, rfl⟩
    rw [hm]
    simp [CR]

private theorem line_of {l rest : Str} {ls : List Str} (hl : LF ∉ l) (h : Lines rest ls) : Lines (l ++ LF :: rest) (dropCR l :: ls) := by
  rcases dropCR_cases l with ⟨h1, h2⟩ | h1
  · rw [h2]; exact .line hl h1 h
  · have h2 : (10 : UInt8) ∉ dropCR l := fun h' => hl (by rw [h1]; exact List.mem_append_left _ h')
    have := Lines.lineCR h2 h
    have h3 : l ++ LF :: rest = dropCR l ++ 13 :: 10 :: rest := by
      conv => lhs; rw [h1]
      simp [LF]
    rw [h3]
    exact this

private theorem last_of {l : Str} (h0 : l ≠ []) (hl : LF ∉ l) : Lines l [dropCR l] := by
  rcases dropCR_cases l with ⟨h1, h2⟩ | h1
  · rw [h2]; exact .last h0 hl h1
  · have h2 : (10 : UInt8) ∉ dropCR l := fun h' => hl (by rw [h1]; exact List.mem_append_left _ h')
    have := Lines.lastCR h2
    rw [← h1] at this
    exact this

private theorem lines_content : ∀ (ls : List Str) (rest : Str) (tail : List Str), (∀ l, l ∈ ls → LF ∉ l) → Lines rest tail → Lines (fileContent ls ++ rest) (ls.map dropCR ++ tail)
  | [], rest, tail, _, h => h
  | l :: ls, rest, tail, hl, h => by
    have ih := lines_content ls rest tail (fun x hx => hl x (by simp [hx])) h
    have := line_of (l := l) (hl l (by simp)) ih
    simpa [fileContent] using this

/-- C46: the rules are the lines of the data, in order. -/
theorem scan_lines (data : Str) (h : (scan data).2 = false) : Lines data (scan data).1 := by
  obtain ⟨h1, h2, h3⟩ := raw_spec data [] (by simp)
  unfold scan at h ⊢
  simp only at h ⊢
  rw [scanRaw_ok _ h]
  simp only [List.nil_append] at h3
  conv => lhs; rw [h3]
  rw [List.map_append]
  apply lines_content _ _ _ h1
  by_cases he : (rawLines [] data).2 = []
  · rw [if_pos he, he]; exact .nil
  · rw [if_neg he]; exact last_of he h2

/-- C46: the data is refused exactly if a line has 64 KB or more. -/
theorem scan_too_long (data : Str) : (scan data).2 = true ↔ ¬ Short data := by
  obtain ⟨h1, h2, h3⟩ := raw_spec data [] (by simp)
  simp only [List.nil_append] at h3
  unfold scan
  simp only
  rw [scanRaw_err]
  have hpart : ∀ (ls : List Str) (tail : Str), (∀ l, l ∈ ls → LF ∉ l) → ∀ x, LF ∉ x → x <:+: fileContent ls ++ tail → LF ∉ tail → x = [] ∨ (∃ l, l ∈ ls ∧ x <:+: l) ∨ x <:+: tail := by
    intro ls
    induction ls with
    | nil => intro tail _ x _ hx _; right; right; simpa [fileContent] using hx
    | cons l ls ih =>
      intro tail hl x hx hin ht
      have hin : x <:+: l ++ (LF :: (fileContent ls ++ tail)) := by simpa [fileContent] using hin
      obtain ⟨a, b, hab⟩ := hin
      rw [List.append_assoc] at hab
      rcases List.append_eq_append_iff.mp hab with ⟨c, hc1, hc2⟩ | ⟨c, hc1, hc2⟩
      · -- x begins inside l (or right after)
        rcases List.append_eq_append_iff.mp hc2 with ⟨d, hd1, hd2⟩ | ⟨d, hd1, hd2⟩
        · right; left; exact ⟨l, by simp, ⟨a, d, by rw [hc1, hd1]; simp⟩⟩
        · -- x reaches beyond l
          cases d with
          | nil => right; left; exact ⟨l, by simp, ⟨a, [], by rw [hc1, hd1]; simp⟩⟩
          | cons y ys =>
            simp only [List.cons_append, List.cons.injEq] at hd2
            exact absurd (by rw [hd1, ← hd2.1]; simp) hx
      · cases c with
        | nil =>
          simp only [List.nil_append] at hc2
          cases x with
          | nil => exact .inl rfl
          | cons y ys =>
            simp only [List.cons_append, List.cons.injEq] at hc2
            exact absurd (by rw [hc2.1]; simp) hx
        | cons y ys =>
          simp only [List.cons_append, List.cons.injEq] at hc2
          have := ih tail (fun z hz => hl z (by simp [hz])) x hx ⟨ys, b, by rw [List.append_assoc]; exact hc2.2.symm⟩ ht
          rcases this with h | ⟨z, hz, h⟩ | h
          · exact .inl h
          · exact .inr (.inl ⟨z, by simp [hz], h⟩)
          · exact .inr (.inr h)
  constructor
  · rintro ⟨l, hl, hlen⟩ hs
    have hin : l <:+: data ∧ LF ∉ l := by
      simp only [List.mem_append] at hl
      rcases hl with hl | hl
      · refine ⟨?_, h1 l hl⟩
        obtain ⟨a, b, hab⟩ := List.append_of_mem hl
        rw [h3, hab]
        exact ⟨fileContent a, LF :: (fileContent b ++ (rawLines [] data).2), by simp [fileContent]⟩
      · split at hl
        · simp at hl
        · simp only [List.mem_singleton] at hl
          subst hl
          refine ⟨?_, h2⟩
          conv => rhs; rw [h3]
          exact ⟨fileContent (rawLines [] data).1, [], by simp⟩
    have := hs l hin.2 hin.1
    unfold maxToken at hlen
    omega
  · intro hs
    apply Classical.byContradiction
    intro hno
    apply hs
    intro x hx hin
    rw [h3] at hin
    have hlt : ∀ l, l ∈ ((rawLines [] data).1 ++ if (rawLines [] data).2 = [] then [] else [(rawLines [] data).2]) → l.length < 65536 := by
      intro l hl
      apply Classical.byContradiction
      intro h
      exact hno ⟨l, hl, by unfold maxToken; omega⟩
    rcases hpart _ _ h1 x hx hin h2 with h | ⟨l, hl, h⟩ | h
    · rw [h]; simp
    · have := hlt l (by simp [hl]); have := h.length_le; omega
    · by_cases he : (rawLines [] data).2 = []
      · rw [he] at h; have := h.length_le; simp at this; simp [this]
      · have := hlt (rawLines [] data).2 (by rw [if_neg he]; simp); have := h.length_le; omega

/-! ### Loading -/

private theorem fetch_some (l : HttpLoader) (io : Io) (r : List Str) (h : fetched io.http = some r) :
    fetch l io = (if l.cacheDir = true ∧ io.writeOk = true then { l with disk := some (fileContent r) } else l, r, false) := by
  unfold fetch
  unfold fetched at h
  cases hh : io.http with
  | failed => rw [hh] at h; simp at h
  | response code body readErr =>
    rw [hh] at h
    simp only [Option.ite_none_right_eq_some, Option.some.injEq] at h
    obtain ⟨⟨h1, h2, h3, h4⟩, h5⟩ := h
    simp only
    rw [if_neg (by omega), h3, h4, h5]
    simp

private theorem fetch_none (l : HttpLoader) (io : Io) (h : fetched io.http = none) : ∃ x, fetch l io = (l, x, true) := by
  unfold fetch
  unfold fetched at h
  cases hh : io.http with
  | failed => exact ⟨_, rfl⟩
  | response code body readErr =>
    rw [hh] at h
    simp only [Option.ite_none_right_eq_some, ite_eq_right_iff, reduceCtorEq, imp_false] at h
    simp only
    by_cases hc : code < 200 ∨ code > 299
    · rw [if_pos hc]; exact ⟨_, rfl⟩
    · rw [if_neg hc]
      have hb : (readErr || (scan body).2) = true := by
        cases hr : readErr <;> cases hs : (scan body).2 <;> simp
        exact h ⟨by omega, by omega, hr, hs⟩
      rw [hb]
      exact ⟨_, rfl⟩

/-- what the first load finds -/
private def first (l : HttpLoader) (io : Io) : Option (List Str) :=
  match l.fromDisk, l.disk with
  | true, some data => if io.diskReadErr = false ∧ (scan data).2 = false then some (scan data).1 else fetched io.http
  | _, _ => fetched io.http

private theorem cached_eq (l : HttpLoader) (io : Io) : (if l.fromDisk = true then loadFromDisk l io else none) = (match l.fromDisk, l.disk with
      | true, some data => if io.diskReadErr = false ∧ (scan data).2 = false then some (scan data).1 else none
      | _, _ => none) := by
  unfold loadFromDisk
  cases l.fromDisk with
  | false => simp
  | true =>
    cases l.disk with
    | none => simp
    | some data =>
      simp only [if_true]
      cases io.diskReadErr <;> cases (scan data).2 <;> simp

private theorem body_some (l : HttpLoader) (io : Io) (r : List Str) (h : first l io = some r) :
    ∃ d, loadBody l io = ({ l with fromDisk := false, disk := d }, r, false) ∧
      d = if l.fromDisk = true ∧ (∃ data, l.disk = some data ∧ io.diskReadErr = false ∧ (scan data).2 = false) then l.disk else if l.cacheDir = true ∧ io.writeOk = true then some (fileContent r) else l.disk := by
  unfold loadBody
  rw [cached_eq]
  unfold first at h
  have hf : fetched io.http = some r → ¬ (l.fromDisk = true ∧ (∃ data, l.disk = some data ∧ io.diskReadErr = false ∧ (scan data).2 = false)) →
      ∃ d, fetch { l with fromDisk := false } io = ({ l with fromDisk := false, disk := d }, r, false) ∧
      d = if l.fromDisk = true ∧ (∃ data, l.disk = some data ∧ io.diskReadErr = false ∧ (scan data).2 = false) then l.disk else if l.cacheDir = true ∧ io.writeOk = true then some (fileContent r) else l.disk := by
    intro h1 h2
    rw [fetch_some _ _ _ h1]
    refine ⟨_, ?_, rfl⟩
    rw [if_neg h2]
    split <;> rename_i h3 <;> simp at h3 <;> simp [h3]
  cases h1 : l.fromDisk with
  | false => rw [h1] at h hf; exact hf h (by simp)
  | true =>
    cases h2 : l.disk with
    | none => rw [h1, h2] at h hf; exact hf h (by simp)
    | some data =>
      rw [h1, h2] at h hf
      simp only at h ⊢
      by_cases hc : io.diskReadErr = false ∧ (scan data).2 = false
      · rw [if_pos hc] at h ⊢
        simp only [Option.some.injEq] at h
        refine ⟨_, by rw [h], ?_⟩
        rw [if_pos ⟨trivial, data, rfl, hc⟩]
      · rw [if_neg hc] at h ⊢
        have := hf h (by rintro ⟨_, d, h3, h4⟩; simp at h3; subst h3; exact hc h4)
        simpa using this

private theorem body_none (l : HttpLoader) (io : Io) (h : first l io = none) : ∃ x, loadBody l io = ({ l with fromDisk := false }, x, true) := by
  unfold loadBody
  rw [cached_eq]
  unfold first at h
  cases h1 : l.fromDisk with
  | false => rw [h1] at h; exact fetch_none _ _ h
  | true =>
    cases h2 : l.disk with
    | none => rw [h1, h2] at h; exact fetch_none _ _ h
    | some data =>
      rw [h1, h2] at h
      simp only at h ⊢
      by_cases hc : io.diskReadErr = false ∧ (scan data).2 = false
      · rw [if_pos hc] at h; simp at h
      · rw [if_neg hc] at h ⊢; exact fetch_none _ _ h

private theorem attempts_cons (l : HttpLoader) (io : Io) (ios : List Io) : attempts l (io :: ios) = first l io :: ios.map fun io => fetched io.http := rfl

private theorem attempts_late (l : HttpLoader) (h : l.fromDisk = false) (ios : List Io) : attempts l ios = ios.map fun io => fetched io.http := by
  cases ios with
  | nil => rfl
  | cons io ios => simp [attempts, h]

/-- C46: without the option to allow failures, every load gives the rules it finds, or an error. -/
theorem load_strict (l : HttpLoader) (h : l.allowFailure = false) (ios : List Io) : (loads l ios).1 = attempts l ios := by
  induction ios generalizing l with
  | nil => rfl
  | cons io ios ih =>
    rw [attempts_cons]
    show ((load l io).2 :: (loads (load l io).1 ios).1) = _
    have hl : (load l io).1.allowFailure = false ∧ (load l io).1.fromDisk = false ∧ (load l io).2 = first l io := by
      unfold load
      cases hf : first l io with
      | some r => obtain ⟨d, h1, _⟩ := body_some l io r hf; rw [h1]; simp [h]
      | none => obtain ⟨x, h1⟩ := body_none l io hf; rw [h1]; simp [h]
    rw [ih _ hl.1, attempts_late _ hl.2.1, hl.2.2]

private theorem lastGood_cons (x : Option (List Str)) (xs : List (Option (List Str))) (prev : List Str) :
    ((x :: xs).filterMap id).getLast?.getD prev = (xs.filterMap id).getLast?.getD (x.getD prev) := by
  cases x with
  | none => simp
  | some r =>
    simp only [List.filterMap_cons, id_eq]
    cases h : xs.filterMap id with
    | nil => rfl
    | cons y ys => rw [List.getLast?_cons_cons, List.getLast?_eq_some_getLast (by simp : y :: ys ≠ [])]; rfl

private theorem loads_allow (l : HttpLoader) (h : l.allowFailure = true) (ios : List Io) (i : Nat) (hi : i < ios.length) :
    (loads l ios).1[i]? = some (some ((((attempts l ios).take (i + 1)).filterMap id).getLast?.getD l.lastSuccess)) := by
  induction ios generalizing l i with
  | nil => simp at hi
  | cons io ios ih =>
    rw [attempts_cons]
    show ((load l io).2 :: (loads (load l io).1 ios).1)[i]? = _
    have hl : (load l io).1.allowFailure = true ∧ (load l io).1.fromDisk = false ∧ (load l io).1.lastSuccess = (first l io).getD l.lastSuccess ∧ (load l io).2 = some ((first l io).getD l.lastSuccess) := by
      unfold load
      cases hf : first l io with
      | some r => obtain ⟨d, h1, _⟩ := body_some l io r hf; rw [h1]; simp [h]
      | none => obtain ⟨x, h1⟩ := body_none l io hf; rw [h1]; simp [h]
    cases i with
    | zero =>
      simp only [List.getElem?_cons_zero, hl.2.2.2, List.take_succ_cons, List.take_zero]
      rw [lastGood_cons]; rfl
    | succ i =>
      simp only [List.getElem?_cons_succ, List.take_succ_cons]
      rw [ih _ hl.1 i (by simpa using hi), attempts_late _ hl.2.1, lastGood_cons, hl.2.2.1]

/-- C46: with the option, no load ever fails: each gives the rules of the last good attempt so far (none before the first). -/
theorem load_keeps_last_good (allow cache : Bool) (disk : Option Str) (ios : List Io) (h : allow = true) (i : Nat) (hi : i < ios.length) :
    (loads (newHttp allow cache disk) ios).1[i]? = some (some (lastGood ((attempts (newHttp allow cache disk) ios).take (i + 1)))) := by
  rw [loads_allow _ (by simp [newHttp, h]) ios i hi]
  rfl

/-- C46: the same for local files. -/
theorem local_keeps_last_good (fs : List Local) (i : Nat) (f : Local) (hi : fs[i]? = some f) :
    (loadsLocal { allowFailure := true } fs)[i]? = some (some (lastGood ((fs.map localRules).take (i + 1)))) ∧ (loadsLocal { allowFailure := false } fs)[i]? = some (localRules f) := by
  have hone : ∀ (l : FileLoader) (f : Local), (loadLocal l f) = (if l.allowFailure = true then ({ l with lastSuccess := (localRules f).getD l.lastSuccess }, some ((localRules f).getD l.lastSuccess)) else ((loadLocal l f).1, localRules f)) ∧ (loadLocal l f).1.allowFailure = l.allowFailure := by
    intro l f
    unfold loadLocal localRules
    cases f with
    | missing => cases h : l.allowFailure <;> simp [h]; cases l; simp_all
    | content data readErr =>
      obtain ⟨allow, last⟩ := l
      cases hsc : (scan data).2 <;> cases allow <;> cases readErr <;> simp [hsc]
  constructor
  · have : ∀ (fs : List Local) (l : FileLoader), l.allowFailure = true → ∀ i, i < fs.length → (loadsLocal l fs)[i]? = some (some ((((fs.map localRules).take (i + 1)).filterMap id).getLast?.getD l.lastSuccess)) := by
      intro fs
      induction fs with
      | nil => intro l _ i hi; simp at hi
      | cons f fs ih =>
        intro l hl i hi
        have h1 := (hone l f).1
        rw [if_pos hl] at h1
        show ((loadLocal l f).2 :: loadsLocal (loadLocal l f).1 fs)[i]? = _
        rw [List.map_cons, h1]
        cases i with
        | zero => simp only [List.getElem?_cons_zero, List.take_succ_cons, List.take_zero]; rw [lastGood_cons]; rfl
        | succ i =>
          simp only [List.getElem?_cons_succ, List.take_succ_cons]
          rw [ih { allowFailure := l.allowFailure, lastSuccess := (localRules f).getD l.lastSuccess } hl i (by simpa using hi), lastGood_cons]
    exact this fs _ rfl i (List.getElem?_eq_some_iff.mp hi).1
  · have : ∀ (fs : List Local) (l : FileLoader), l.allowFailure = false → ∀ (i : Nat) (f : Local), fs[i]? = some f → (loadsLocal l fs)[i]? = some (localRules f) := by
      intro fs
      induction fs with
      | nil => intro l _ i f hi; simp at hi
      | cons f fs ih =>
        intro l hl i g hi
        have h1 := (hone l f).1
        rw [if_neg (by simp [hl])] at h1
        have h2 := (hone l f).2
        show ((loadLocal l f).2 :: loadsLocal (loadLocal l f).1 fs)[i]? = _
        cases i with
        | zero => simp only [List.getElem?_cons_zero, Option.some.injEq] at hi ⊢; rw [h1, hi]
        | succ i => simp only [List.getElem?_cons_succ] at hi ⊢; exact ih _ (by rw [h2, hl]) i g hi
    exact this fs _ rfl i f hi

/-! ### The cache file -/

private theorem raw_content : ∀ (ls : List Str), (∀ l, l ∈ ls → LF ∉ l) → rawLines [] (fileContent ls) = (ls, [])
  | [], _ => rfl
  | l :: ls, h => by
    have hline : ∀ (l acc rest : Str), LF ∉ l → rawLines acc (l ++ LF :: rest) = ((acc ++ l) :: (rawLines [] rest).1, (rawLines [] rest).2) := by
      intro l
      induction l with
      | nil => intro acc rest _; simp [rawLines]
      | cons c cs ih =>
        intro acc rest hl
        have hc : c ≠ LF := fun h => hl (by simp [h])
        simp only [List.cons_append, rawLines, if_neg hc]
        rw [ih _ _ (fun h => hl (by simp [h]))]
        simp
    have : fileContent (l :: ls) = l ++ LF :: fileContent ls := by simp [fileContent]
    rw [this, hline l [] _ (h l (by simp)), raw_content ls (fun x hx => h x (by simp [hx]))]
    simp

private theorem dropCR_sub (l : Str) : (∀ c, c ∈ dropCR l → c ∈ l) ∧ (dropCR l).length ≤ l.length := by
  unfold dropCR
  split
  · exact ⟨fun c hc => List.dropLast_subset l hc, by simp⟩
  · exact ⟨fun c hc => hc, Nat.le_refl _⟩

/-- C46: what was written to the cache file is read back the same, if no rule ends with a carriage return. -/
theorem cache_roundtrip (data : Str) (h : (scan data).2 = false) (hcr : ∀ r, r ∈ (scan data).1 → r.getLast? ≠ some CR) : scan (fileContent (scan data).1) = ((scan data).1, false) := by
  obtain ⟨h1, h2, h3⟩ := raw_spec data [] (by simp)
  have hshort : ∀ l, l ∈ (rawLines [] data).1 ++ (if (rawLines [] data).2 = [] then [] else [(rawLines [] data).2]) → l.length < maxToken ∧ LF ∉ l := by
    intro l hl
    constructor
    · apply Classical.byContradiction
      intro hn
      have := (scanRaw_err ((rawLines [] data).1 ++ (if (rawLines [] data).2 = [] then [] else [(rawLines [] data).2]))).mpr ⟨l, hl, by omega⟩
      unfold scan at h
      simp only at h
      rw [this] at h; simp at h
    · simp only [List.mem_append] at hl
      rcases hl with hl | hl
      · exact h1 l hl
      · split at hl
        · simp at hl
        · simp only [List.mem_singleton] at hl; subst hl; exact h2
  have hrules : (scan data).1 = ((rawLines [] data).1 ++ (if (rawLines [] data).2 = [] then [] else [(rawLines [] data).2])).map dropCR := by
    unfold scan at h ⊢
    exact scanRaw_ok _ h
  have hr : ∀ r, r ∈ (scan data).1 → r.length < maxToken ∧ LF ∉ r := by
    intro r hr
    rw [hrules] at hr
    obtain ⟨l, hl, rfl⟩ := List.mem_map.mp hr
    have := hshort l hl
    have hd := dropCR_sub l
    exact ⟨by omega, fun hm => this.2 (hd.1 _ hm)⟩
  generalize (scan data).1 = rules at hr hcr
  have : scan (fileContent rules) = scanRaw rules := by
    unfold scan
    rw [raw_content rules (fun l hl => (hr l hl).2)]
    simp
  rw [this]
  have hok : (scanRaw rules).2 = false := by
    cases hb : (scanRaw rules).2 with
    | false => rfl
    | true =>
      obtain ⟨l, hl, hlen⟩ := (scanRaw_err rules).mp hb
      have := (hr l hl).1
      omega
  have := scanRaw_ok rules hok
  have hid : rules.map dropCR = rules := by
    conv => rhs; rw [← List.map_id rules]
    apply List.map_congr_left
    intro r hr
    unfold dropCR
    rw [if_neg (hcr r hr)]; rfl
  rw [← hok]
  rw [hid] at this
  rw [Prod.ext_iff]
  exact ⟨this, rfl⟩

/-- Finding: a line that ends with two carriage returns loses one of them each time it goes through the cache file, so the rules after a restart differ. -/
theorem cache_loses_cr : ∃ data, (scan data).2 = false ∧ scan (fileContent (scan data).1) ≠ scan data :=
  ⟨str "a\r\r\n", by decide +kernel, by decide +kernel⟩

/-- C46: after good loads from the server, a new loader (a restart) starts with the rules of the last of them that could be written, whatever happened in between. -/
theorem cache_restart (allow : Bool) (disk : Option Str) (ios : List Io) (io : Io) (rest : List Io) (body : Str) (code : Int) (hne : ios ≠ [] ∨ disk = none)
    (hio : io = { http := .response code body false, writeOk := true }) (hcode : 200 ≤ code ∧ code ≤ 299) (hs : (scan body).2 = false) (hcr : ∀ r, r ∈ (scan body).1 → r.getLast? ≠ some CR)
    (hrest : ∀ x, x ∈ rest → fetched x.http = none ∨ x.writeOk = false) (next : Io) (hnext : next.diskReadErr = false) (allow' : Bool) :
    (load (newHttp allow' true (loads (newHttp allow true disk) (ios ++ io :: rest)).2.disk) next).2 = some (scan body).1 := by
  have happ : ∀ (xs ys : List Io) (l : HttpLoader), (loads l (xs ++ ys)).2 = (loads (loads l xs).2 ys).2 := by
    intro xs
    induction xs with
    | nil => intro ys l; rfl
    | cons x xs ih => intro ys l; show (loads (load l x).1 (xs ++ ys)).2 = _; rw [ih]; rfl
  have hkeep : ∀ (l : HttpLoader) (x : Io), l.cacheDir = true → (load l x).1.cacheDir = true ∧ (load l x).1.fromDisk = false := by
    intro l x hl
    unfold load
    cases hf : first l x with
    | some r => obtain ⟨d, h1, _⟩ := body_some l x r hf; rw [h1]; simp [hl]
    | none => obtain ⟨y, h1⟩ := body_none l x hf; rw [h1]; cases l.allowFailure <;> simp [hl]
  have hl1 : ∀ (xs : List Io) (l : HttpLoader), l.cacheDir = true → (loads l xs).2.cacheDir = true ∧ (xs ≠ [] → (loads l xs).2.fromDisk = false) := by
    intro xs
    induction xs with
    | nil => intro l h; exact ⟨h, fun h => absurd rfl h⟩
    | cons x xs ih =>
      intro l h
      have hk := hkeep l x h
      have := ih (load l x).1 hk.1
      refine ⟨this.1, fun _ => ?_⟩
      show (loads (load l x).1 xs).2.fromDisk = false
      by_cases hx : xs = []
      · subst hx; exact hk.2
      · exact this.2 hx
  have hdisk : ∀ (l : HttpLoader) (x : Io), l.fromDisk = false ∨ l.disk = none → (load l x).1.disk = match fetched x.http with | some r => if l.cacheDir = true ∧ x.writeOk = true then some (fileContent r) else l.disk | none => l.disk := by
    intro l x hl
    have hfx : first l x = fetched x.http := by
      unfold first
      rcases hl with hl | hl
      · rw [hl]
      · rw [hl]; cases l.fromDisk <;> rfl
    unfold load
    cases hf : first l x with
    | some r =>
      obtain ⟨d, h1, h2⟩ := body_some l x r hf
      rw [h1, ← hfx, hf]
      rw [if_neg (by rcases hl with hl | hl <;> simp [hl])] at h2
      simp [h2]
    | none =>
      obtain ⟨y, h1⟩ := body_none l x hf
      rw [h1, ← hfx, hf]
      cases l.allowFailure <;> simp
  have hrestd : ∀ (xs : List Io) (l : HttpLoader), l.fromDisk = false → l.cacheDir = true → (∀ x, x ∈ xs → fetched x.http = none ∨ x.writeOk = false) → (loads l xs).2.disk = l.disk := by
    intro xs
    induction xs with
    | nil => intro l _ _ _; rfl
    | cons x xs ih =>
      intro l h1 h2 h3
      show (loads (load l x).1 xs).2.disk = l.disk
      have hk := hkeep l x h2
      rw [ih _ hk.2 hk.1 (fun y hy => h3 y (by simp [hy])), hdisk l x (.inl h1)]
      rcases h3 x (by simp) with h | h
      · rw [h]
      · split <;> simp [h]
  rw [happ ios (io :: rest)]
  obtain ⟨ha, hb⟩ := hl1 ios (newHttp allow true disk) rfl
  have hfl : (loads (newHttp allow true disk) ios).2.fromDisk = false ∨ (loads (newHttp allow true disk) ios).2.disk = none := by
    by_cases h : ios = []
    · subst h
      rcases hne with h | h
      · exact absurd rfl h
      · exact .inr h
    · exact .inl (hb h)
  generalize (loads (newHttp allow true disk) ios).2 = l at ha hb hfl
  show (load (newHttp allow' true (loads (load l io).1 rest).2.disk) next).2 = _
  have hk := hkeep l io ha
  rw [hrestd rest _ hk.2 hk.1 hrest, hdisk l io hfl]
  have hfe : fetched io.http = some (scan body).1 := by
    rw [hio]; unfold fetched; simp only; rw [if_pos ⟨hcode.1, hcode.2, trivial, hs⟩]
  rw [hfe]
  simp only
  rw [if_pos ⟨ha, by rw [hio]⟩]
  have hrt := cache_roundtrip body hs hcr
  have hff : first (newHttp allow' true (some (fileContent (scan body).1))) next = some (scan body).1 := by
    unfold first newHttp
    simp only
    rw [hrt]
    rw [if_pos ⟨hnext, rfl⟩]
  obtain ⟨d, h1, _⟩ := body_some _ next _ hff
  unfold load
  rw [h1]
  rfl

private def exBody : Str := str "ads.example\r\n\n# comment\ntracker.example"
example : (scan exBody) = ([str "ads.example", [], str "# comment", str "tracker.example"], false) ∧
    (loads (newHttp true true none) [{ http := .response 200 exBody false }, { http := .response 200 (str "x") true }, { http := .failed }, { http := .response 404 (str "y") false }]).1 =
      List.replicate 4 (some [str "ads.example", [], str "# comment", str "tracker.example"]) ∧
    (loads (newHttp false true (some (str "old\n"))) [{ http := .failed }, { http := .failed }, { http := .response 299 (str "new\n") false }]).1 = [some [str "old"], none, some [str "new"]] := by decide +kernel

end Verif.Props.Loader
