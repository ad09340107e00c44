import Verif.Props.Stopping
import Verif.Props.CacheLives
/-
C128 with C91: stopping the program and starting it again keeps what caches with a file have.
-/
set_option linter.unusedSectionVars false
namespace Verif.Props.Restart
open Verif Verif.Stopping Verif.CacheM
open Verif.Props.CacheLives (OkEv TellsApart)
open Verif.Props.Stopping (Started stop_saves)

variable {H : Type} [DecidableEq H]

/-- The cache came about by queries: well-formed ones, at sane times, for names that are not empty, which the hash of the next run tells apart. -/
structure Used (env : Env H) (hash hash' : LruKey → H) (c : State H) : Prop where
  by_queries : ∃ o cap hist sys, o.negativeTTL ≤ 4294967295 ∧ (∀ e ∈ hist, OkEv env.ipStr e) ∧ (∀ q m t, CacheLives.Ev.store q m t ∈ hist → ∀ a ∈ q.question, a.name ≠ []) ∧
    TellsApart env hash' hist ∧ CacheLives.run env (CacheLives.first hash o cap) hist = some sys ∧ sys.cache = c ∧ sys.hash = hash

/-- C128: after a stop with a signal, the next start with the same size reads, for every cache whose file could be written and is its own, a cache that answers every look-up, at any time, as the old
one would have done at some moment after the signal. (Of the codec: what `Pack` produces is not empty, and `Unpack` accepts it.) -/
theorem restart_keeps (env : Env H) (hcodec : ∀ m w, env.encode m = some w → w ≠ [] ∧ ∃ m', env.decode w = some m') (hash hash' : LruKey → H)
    (names : List Str) (start : Prog H) (hs : Started start) (i : Nat) (name : Str) (hi : names[i]? = some name) (hn : name ≠ [])
    (hu : ∀ j, names[j]? = some name → j = i) (es : List (Ev H)) (s : Prog H) (h : run names start es = some s) (hend : s.phase = .ended) (hf : Ev.fails i ∉ es)
    (hused : ∀ es1 es2 t, es = es1 ++ es2 → run names start es1 = some t → Used env hash hash' (t.mem i)) :
    ∃ es1 es2 t recs c, es = es1 ++ es2 ∧ run names start es1 = some t ∧ Ev.signal ∈ es1 ∧ s.files name = some recs ∧
      loadFile { env with hash := hash' } (Lru.new (t.mem i).maxItems) recs = some c ∧
      ∀ q now, (CacheM.lookup { env with hash := hash' } c q now).map (·.2) = (CacheM.lookup { env with hash := hash } (t.mem i) q now).map (·.2) := by
  obtain ⟨recs, h1, es1, es2, t, g1, g2, g3, g4⟩ := stop_saves names start hs i name hi hn hu es s h hend hf
  obtain ⟨o, cap, hist, sys, k1, k2, k3, k4, k5, k6, k7⟩ := (hused es1 es2 t g1 g2).by_queries
  obtain ⟨s1, m1, m2⟩ := Props.CacheLives.nothing_lost env hcodec hash o k1 cap hist k2 k3 sys k5 hash' k4 o
  simp only [CacheLives.step, Option.bind_eq_bind, Option.bind_eq_some_iff, Option.pure_def, Option.some.injEq] at m1
  obtain ⟨recs', r1, rfl⟩ := m1
  rw [k6, g4] at r1
  cases r1
  obtain ⟨s2, m3, m4⟩ := m2 recs.length (Nat.le_refl _)
  simp only [CacheLives.step, Option.bind_eq_bind, Option.bind_eq_some_iff, Option.pure_def, Option.some.injEq, List.take_length] at m3
  obtain ⟨c, r2, rfl⟩ := m3
  rw [k6] at r2
  refine ⟨es1, es2, t, recs, c, g1, g2, g3, h1, r2, fun q now => ?_⟩
  have := m4 q now
  simp only [CacheLives.Sys.env, k6, k7] at this
  exact this

section Examples

private def exEnv : Env Nat where
  ipStr a := 49 :: a
  hash k := k.name.length
  encode m := some [m.rcode.toUInt8, (m.answer.map (fun r => r.ttl.toUInt8)).headD 0]
  decode w := match w with
    | [r, t] => some { rcode := r.toNat, response := true,
                       answer := if t = 0 then [] else [{ name := [97], rtype := 1, cls := 1, ttl := t.toNat, data := .a [1, 2, 3, 4] }] }
    | _ => none

private def exHash (seed : Nat) (k : LruKey) : Nat := seed + k.name.length
private def exT : Int := 1700000000000000000
private def exQ (name : String) : Msg := { id := 5, question := [{ name := str name, qtype := 1, qclass := 1 }] }
private def exA (ttl : Nat) : Msg := { response := true, answer := [{ name := [97], rtype := 1, cls := 1, ttl := ttl, data := .a [1, 2, 3, 4] }] }
private def hist : List (CacheLives.Ev Nat) := [.store (exQ "a.") (exA 100) exT]
private def one : State Nat := ((CacheLives.run exEnv (CacheLives.first (exHash 3) {} 10) hist).map (·.cache)).getD (Lru.new 10)

example : ∀ m w, exEnv.encode m = some w → w ≠ [] ∧ ∃ m', exEnv.decode w = some m' := by
  intro m w h
  simp only [exEnv, Option.some.injEq] at h ⊢
  subst h
  simp

example : Used exEnv (exHash 3) (exHash 9) one := by
  refine ⟨{}, 10, hist, _, by decide, ?_, ?_, ?_, rfl, rfl, rfl⟩
  · intro e he
    simp only [hist, List.mem_cons, List.not_mem_nil, or_false] at he
    subst he
    exact ⟨fun _ _ _ h => by cases h; exact ⟨⟨by simp [exQ], by simp [exQ], by intro x hx; simp [Spec.Cache.subnet, exQ, Msg.edns?] at hx⟩, by unfold Props.Cache.SaneTime exT; omega⟩,
      by simp, by simp, by simp⟩
  · intro q m t h a ha
    simp only [hist, List.mem_cons, List.not_mem_nil, or_false, CacheLives.Ev.store.injEq] at h
    obtain ⟨rfl, _⟩ := h
    simp only [exQ, List.mem_singleton] at ha
    subst ha
    decide
  · intro q m t q' m' t' h h' k k' hk hk' _
    simp only [hist, List.mem_cons, List.not_mem_nil, or_false, CacheLives.Ev.store.injEq] at h h'
    obtain ⟨rfl, _⟩ := h
    obtain ⟨rfl, _⟩ := h'
    exact Option.some.inj (hk.symm.trans hk')

private def exStart : Prog Nat := { mem := fun _ => one, files := fun _ => none }
private def ttl (hash : LruKey → Nat) (c : State Nat) : Option (List Nat) := ((CacheM.lookup { exEnv with hash := hash } c (exQ "A.") (exT + 40000000000)).bind (·.2)).map fun r => r.1.answer.map (·.ttl)

/-- Stopped and started again: served with what is left of its TTL. -/
example : ((run [str "a.json"] exStart [.signal, .begins 0 .stop, .reads 0, .lands 0, .ends]).bind fun s => (s.files (str "a.json")).bind fun recs =>
    (loadFile { exEnv with hash := exHash 9 } (Lru.new 10) recs).bind (ttl (exHash 9))) = some [60] ∧ ttl (exHash 3) one = some [60] := by decide

end Examples

end Verif.Props.Restart
