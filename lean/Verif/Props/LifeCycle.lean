import Verif.Spec.LifeCycle
/-
C86: the sockets of listeners are closed when they have been stopped, `Stop` ends `Start`, and which listeners come back after a failure.
-/
namespace Verif.Props.LifeCycle
open Verif.LifeCycle Verif.Spec.LifeCycle
set_option linter.unusedVariables false
set_option linter.unusedSimpArgs false

private theorem inv_run {k : Kind} {P : Sys → Prop} {Q : Ev → Prop} (hs : ∀ s e s', P s → Q e → step k s e = some s' → P s') :
    ∀ (es : List Ev) (s s' : Sys), P s → (∀ e ∈ es, Q e) → run k s es = some s' → P s' := by
  intro es
  induction es with
  | nil => intro s s' hp _ h; simp only [run, Option.some.injEq] at h; exact h ▸ hp
  | cons e es ih =>
    intro s s' hp hq h
    simp only [run, Option.bind_eq_some_iff] at h
    obtain ⟨t, h1, h2⟩ := h
    exact ih t s' (hs s e t hp (hq e List.mem_cons_self) h1) (fun x hx => hq x (List.mem_cons_of_mem _ hx)) h2

/-- All definitions of steps. -/
local macro "steps" h:ident : tactic =>
  `(tactic| simp only [step, startStep, http, h3, doq, dns, own, xs, begin, listen, listenEarly, look, lookHandles, lookDns, shutServer, closeRest, endShutdown, closeRet, ret, close, setStop, closePub] at $h:ident)

/-- All cases of a step. -/
local macro "splits" h:ident : tactic => `(tactic| (repeat' split at $h:ident) <;> cases $h:ident)

/-! ### Sockets -/

/-- HTTP: an open socket belongs to the `Start` that runs. -/
private def HttpInv (s : Sys) : Prop := ∀ g ∈ s.opened, g = s.gen ∧ (s.phase = .bound ∨ s.phase = .serving)

private theorem http_step (s : Sys) (e : Ev) (s' : Sys) (h : HttpInv s) (hs : step .http s e = some s') : HttpInv s' := by
  unfold HttpInv at *
  cases e <;> steps hs <;> splits hs <;> (try dsimp only at *) <;> grind

private def DnsInv (s : Sys) : Prop := ∀ g ∈ s.opened, g = s.gen ∧ s.phase = .serving

private theorem dns_step (u : Bool) (s : Sys) (e : Ev) (s' : Sys) (h : DnsInv s) (hs : step (.dns u) s e = some s') : DnsInv s' := by
  unfold DnsInv at *
  cases e <;> steps hs <;> splits hs <;> (try dsimp only at *) <;> grind

private theorem xs_step (s : Sys) (e : Ev) (s' : Sys) (h : HttpInv s) (he : e ≠ .fail) (hs : step .xs s e = some s') : HttpInv s' := by
  unfold HttpInv at *
  cases e <;> steps hs <;> splits hs <;> (try dsimp only at *) <;> grind

private def OwnInv (s : Sys) : Prop :=
  (∀ g ∈ s.opened, g = s.gen ∧ (s.phase = .bound ∨ s.phase = .ready ∨ s.phase = .serving)) ∧ (s.started = true → s.phase = .serving)

private theorem own_step (u : Bool) (s : Sys) (e : Ev) (s' : Sys) (h : OwnInv s) (he : e ≠ .fail ∧ (u = true → e ≠ .activate false)) (hs : step (.own u) s e = some s') : OwnInv s' := by
  unfold OwnInv at *
  cases e <;> steps hs <;> splits hs <;> (try dsimp only at *) <;> grind

private def OwnInv1 (s : Sys) : Prop := (s.gen = 0 → s.phase = .idle ∧ s.started = false ∧ ∀ g, ¬ g ∈ s.opened) ∧
  (s.gen ≤ 1 → (∀ g ∈ s.opened, g = s.gen ∧ (s.phase = .bound ∨ s.phase = .ready ∨ s.phase = .serving)) ∧ (s.started = true → s.phase = .serving ∨ s.phase = .idle))

private theorem own_step1 (u : Bool) (s : Sys) (e : Ev) (s' : Sys) (h : OwnInv1 s) (he : u = true → e ≠ .activate false) (hs : step (.own u) s e = some s') : OwnInv1 s' := by
  unfold OwnInv1 at *
  cases e <;> steps hs <;> splits hs <;> (try dsimp only at *) <;> grind

/-- QUIC: an open socket belongs to the `Start` that runs, or a `Stop` is about to close it. -/
private structure QuicInv (s : Sys) : Prop where
  open_ : ∀ g ∈ s.opened, (g = s.gen ∧ (s.phase = .bound ∨ s.phase = .early ∨ s.phase = .ready ∨ s.phase = .serving)) ∨ ∃ i, s.stops i = .closing g
  shut_ : ∀ g ∈ s.shut, g ∈ s.opened → ∃ i, s.stops i = .closing g
  young : (s.phase = .entered ∨ s.phase = .bound ∨ s.phase = .early) → s.pub ≠ some s.gen ∧ ¬ s.gen ∈ s.shut ∧ ∀ i, s.stops i ≠ .holding s.gen ∧ s.stops i ≠ .closing s.gen
  pub_le : ∀ g, s.pub = some g → g ≤ s.gen
  shut_le : ∀ g ∈ s.shut, g ≤ s.gen
  hold_le : ∀ i g, s.stops i = .holding g → g ≤ s.gen
  closing_le : ∀ i g, s.stops i = .closing g → g ≤ s.gen
  open_le : ∀ g ∈ s.opened, g ≤ s.gen

private theorem quic_step (k : Kind) (hk : k = .h3 ∨ k = .doq) (s : Sys) (e : Ev) (s' : Sys) (h : QuicInv s) (he : k = .h3 → e ≠ .fail) (hs : step k s e = some s') : QuicInv s' := by
  obtain ⟨h1, h2, h3', h4, h5, h6, h7, h8⟩ := h
  rcases hk with rfl | rfl <;> cases e <;> steps hs <;> splits hs <;> constructor <;> (try dsimp only at *) <;> grind

private theorem empty_of {l : List Nat} (h : ∀ g ∈ l, False) : l = [] := by
  cases l with
  | nil => rfl
  | cons a l => exact (h a List.mem_cons_self).elim

/-- When `Start` has returned and the calls of `Stop` have, no socket is open, provided that (for some kinds of listeners) serving has not ended by itself. -/
theorem closed_when_stopped {k : Kind} {es : List Ev} {s : Sys} (h : run k {} es = some s) (hr : Returned s) (hs : StopsReturned s) (hc : Calm k es s) : s.opened = [] := by
  unfold Returned at hr
  apply empty_of
  intro g hg
  cases k with
  | http =>
    have := inv_run (P := HttpInv) (Q := fun _ => True) (fun s e s' h _ hs => http_step s e s' h hs) es {} s (by intro g hg; cases hg) (fun _ _ => trivial) h
    grind [HttpInv]
  | dns u =>
    have := inv_run (P := DnsInv) (Q := fun _ => True) (fun s e s' h _ hs => dns_step u s e s' h hs) es {} s (by intro g hg; cases hg) (fun _ _ => trivial) h
    grind [DnsInv]
  | xs =>
    have := inv_run (P := HttpInv) (Q := fun e => e ≠ .fail) (fun s e s' h he hs => xs_step s e s' h he hs) es {} s (by intro g hg; cases hg) (fun e he hf => hc (hf ▸ he)) h
    grind [HttpInv]
  | own u =>
    obtain ⟨hc1, hc2⟩ := hc
    cases hc2 with
    | inl hf =>
      have := inv_run (P := OwnInv) (Q := fun e => e ≠ .fail ∧ (u = true → e ≠ .activate false)) (fun s e s' h he hs => own_step u s e s' h he hs) es {} s
        ⟨(by intro g hg; cases hg), (by intro h; cases h)⟩ (fun e he => ⟨fun hx => hf (hx ▸ he), fun hu hx => hc1 hu (hx ▸ he)⟩) h
      grind [OwnInv]
    | inr hf =>
      have := inv_run (P := OwnInv1) (Q := fun e => u = true → e ≠ .activate false) (fun s e s' h he hs => own_step1 u s e s' h he hs) es {} s
        ⟨fun _ => ⟨rfl, rfl, (by intro g hg; cases hg)⟩, fun _ => ⟨(by intro g hg; cases hg), (by intro h; cases h)⟩⟩ (fun e he hu hx => hc1 hu (hx ▸ he)) h
      grind [OwnInv1]
  | h3 =>
    have := inv_run (P := QuicInv) (Q := fun e => e ≠ .fail) (fun s e s' h he hs => quic_step .h3 (.inl rfl) s e s' h (fun _ => he) hs) es {} s
      (by constructor <;> simp) (fun e he hf => hc (hf ▸ he)) h
    obtain ⟨h1, -, -, -, -, -, -, -⟩ := this
    have := hs
    unfold StopsReturned at this
    grind
  | doq =>
    have := inv_run (P := QuicInv) (Q := fun _ => True) (fun s e s' h _ hs => quic_step .doq (.inr rfl) s e s' h (fun hx => by cases hx) hs) es {} s
      (by constructor <;> simp) (fun _ _ => trivial) h
    obtain ⟨h1, -, -, -, -, -, -, -⟩ := this
    have := hs
    unfold StopsReturned at this
    grind

/-- Where a server made for the call of `Start`, or the library, closes the socket, it is closed as soon as `Start` has returned, with or without a `Stop`. -/
theorem closed_when_returned {k : Kind} {es : List Ev} {s : Sys} (h : run k {} es = some s) (hk : k = .http ∨ ∃ udp, k = .dns udp) (hr : Returned s) : s.opened = [] := by
  unfold Returned at hr
  apply empty_of
  intro g hg
  rcases hk with rfl | ⟨u, rfl⟩
  · have := inv_run (P := HttpInv) (Q := fun _ => True) (fun s e s' h _ hs => http_step s e s' h hs) es {} s (by intro g hg; cases hg) (fun _ _ => trivial) h
    grind [HttpInv]
  · have := inv_run (P := DnsInv) (Q := fun _ => True) (fun s e s' h _ hs => dns_step u s e s' h hs) es {} s (by intro g hg; cases hg) (fun _ _ => trivial) h
    grind [DnsInv]

/-! ### `Stop` ends `Start` -/

/-- While serving, the handles in the object are those of the `Start` that serves. -/
private def PubInv (k : Kind) (s : Sys) : Prop := (s.phase = .serving → s.pub = some s.gen) ∧
  ((∃ u, k = .own u) → s.phase = .ready → s.pub = some s.gen) ∧ (k = .http → s.phase = .bound → s.pub = some s.gen) ∧ ((k = .http ∨ k = .h3) → s.phase = .ready → s.pub = some s.gen)

private theorem pub_step (k : Kind) (s : Sys) (e : Ev) (s' : Sys) (h : PubInv k s) (hs : step k s e = some s') : PubInv k s' := by
  unfold PubInv at *
  cases k <;> cases e <;> steps hs <;> splits hs <;> (try dsimp only at *) <;> grind

/-- What holds from the moment call `i` of `Stop` has looked at the handles of call `g` of `Start`. -/
private def After (k : Kind) (g i : Nat) (s : Sys) : Prop := g ≤ s.gen ∧ match k with
  | .dns _ => s.gen = g → s.started = false ∧ (s.phase = .serving ∨ s.phase = .idle)
  | .own _ => s.gen = g → s.started = false ∧ (s.phase = .serving ∨ s.phase = .idle)
  | .xs => s.closed = true ∧ (s.gen = g → s.phase = .serving → ¬ g ∈ s.opened)
  | _ => (s.stops i = .holding g ∨ g ∈ s.shut) ∧ s.stops i ≠ .called ∧ s.stops i ≠ .none

private theorem after_step (k : Kind) (g i : Nat) (s : Sys) (e : Ev) (s' : Sys) (h : After k g i s) (hs : step k s e = some s') : After k g i s' := by
  unfold After at *
  cases k <;> dsimp only at h ⊢ <;> cases e <;> steps hs <;> splits hs <;> (try dsimp only at *) <;> grind

/-- A `Stop` that looks while `Start` can be stopped ends it: once it has closed the server, `Start` does not serve, or returns whatever it does next. -/
theorem stop_ends {k : Kind} {es fs : List Ev} {s t : Sys} {i : Nat} (h : run k {} es = some s) (hu : Stoppable k s) (h2 : run k s (.look i :: fs) = some t) (hg : t.gen = s.gen)
    (hc : Closed t i) (ht : Up t) : MustReturn k t := by
  have hp := inv_run (P := PubInv k) (Q := fun _ => True) (fun s e s' h _ hs => pub_step k s e s' h hs) es {} s (by simp [PubInv]) (fun _ _ => trivial) h
  simp only [run, Option.bind_eq_some_iff] at h2
  obtain ⟨s1, hl, h2⟩ := h2
  have ha : After k s.gen i s1 := by
    unfold PubInv at hp
    unfold Stoppable Up at hu
    unfold After
    cases k <;> dsimp only <;> steps hl <;> splits hl <;> (try dsimp only at *) <;> grind
  have ha := inv_run (P := After k s.gen i) (Q := fun _ => True) (fun s e s' h _ hs => after_step k _ i s e s' h hs) fs s1 t ha (fun _ _ => trivial) h2
  unfold After at ha
  unfold Closed at hc
  unfold Up at ht
  unfold MustReturn Returned OfStart
  constructor
  · refine ⟨.ended, ?_⟩
    cases k <;> dsimp only at ha <;> simp only [step, startStep, http, h3, doq, dns, own, xs, ht, true_and] <;> grind
  · intro e s' he hs
    cases k <;> dsimp only at ha <;> cases e <;> steps hs <;> splits hs <;> (try dsimp only at *) <;> grind

/-- A `Stop` that looks before there is anything to stop (the first `Start` has not stored its handles) returns at once, and has no effect. The socket server alone remembers it. -/
theorem early_stop {k : Kind} {es : List Ev} {s : Sys} {i : Nat} (h : run k {} es = some s) (hk : k ≠ .xs) (hp : s.pub = none) (hi : s.stops i = .called) :
    step k s (.look i) = some (setStop s i (.returned none)) := by
  have hd := inv_run (P := fun s => s.pub = none → s.started = false ∧ s.phase ≠ .ready) (Q := fun _ => True)
    (fun s e s' h _ hs => by
      cases k <;> cases e <;> steps hs <;> splits hs <;> (try dsimp only at *) <;> grind) es {} s (by simp) (fun _ _ => trivial) h
  cases k <;> simp only [step, look, lookHandles, lookDns, hp, hi] <;> grind

/-- The socket server told to stop before it serves does not serve. -/
theorem xs_early_stop {es : List Ev} {s t : Sys} (hc : s.closed = true) (hu : ¬ Up s) (h : run .xs s es = some t) : ¬ Up t := by
  unfold Up at *
  have := inv_run (k := .xs) (P := fun s => s.closed = true ∧ s.phase ≠ .serving) (Q := fun _ => True)
    (fun s e s' h _ hs => by cases e <;> steps hs <;> splits hs <;> (try dsimp only at *) <;> grind) es s t ⟨hc, hu⟩ (fun _ _ => trivial) h
  exact this.2

/-! ### After a failure -/

private theorem run_append {k : Kind} (es fs : List Ev) : ∀ (s t : Sys), run k s (es ++ fs) = some t → ∃ m, run k s es = some m ∧ run k m fs = some t := by
  induction es with
  | nil => intro s t h; exact ⟨s, rfl, h⟩
  | cons e es ih =>
    intro s t h
    simp only [List.cons_append, run, Option.bind_eq_some_iff] at h ⊢
    obtain ⟨a, h1, h2⟩ := h
    obtain ⟨m, h3, h4⟩ := ih a t h2
    exact ⟨m, ⟨a, h1, h3⟩, h4⟩

private theorem no_stops {k : Kind} {es : List Ev} {s t : Sys} (hn : NoStop es) (h0 : ∀ i, s.stops i = .none) (h : run k s es = some t) : ∀ i, t.stops i = .none := by
  refine inv_run (k := k) (P := fun s => ∀ i, s.stops i = .none) (Q := fun e => ∀ i, e ≠ .stop i) ?_ es s t h0 hn h
  intro s e s' h he hs
  cases k <;> cases e <;> steps hs <;> splits hs <;> (try dsimp only at *) <;> grind

/-- Without a `Stop` (cmd/routedns/main.go:448-458) a DNS, DoT or DTLS listener whose serving ended with an error never serves again, however often `Start` is called: the library takes it
for started. -/
theorem dns_stays_down {k : Kind} {es fs : List Ev} {t : Sys} (hk : ∃ udp, k = .dns udp ∨ k = .own udp) (h : run k {} (es ++ .fail :: fs) = some t) (h1 : NoStop es) (h2 : NoStop fs) :
    ¬ Up t := by
  obtain ⟨s, hs, ht⟩ := run_append es _ {} t h
  have hz := no_stops h1 (fun _ => rfl) hs
  have hp := inv_run (k := k) (P := fun s => (∀ i, s.stops i = .none) ∧ (s.phase = .serving → s.started = true)) (Q := fun e => ∀ i, e ≠ .stop i)
    (fun s e s' h he hs => by
      rcases hk with ⟨u, rfl | rfl⟩ <;> cases e <;> steps hs <;> splits hs <;> (try dsimp only at *) <;> grind) es {} s ⟨fun _ => rfl, by intro h; cases h⟩ h1 hs
  simp only [run, Option.bind_eq_some_iff] at ht
  obtain ⟨m, hm, ht⟩ := ht
  have hq : (∀ i, m.stops i = .none) ∧ m.started = true ∧ m.phase ≠ .serving := by
    rcases hk with ⟨u, rfl | rfl⟩ <;> steps hm <;> splits hm <;> (try dsimp only at *) <;> grind
  have := inv_run (k := k) (P := fun s => (∀ i, s.stops i = .none) ∧ s.started = true ∧ s.phase ≠ .serving) (Q := fun e => ∀ i, e ≠ .stop i)
    (fun s e s' h he hs => by
      rcases hk with ⟨u, rfl | rfl⟩ <;> cases e <;> steps hs <;> splits hs <;> (try dsimp only at *) <;> grind) fs m t hq h2 ht
  exact this.2.2

private theorem exclusive_append {k : Kind} (es fs : List Ev) : ∀ (s m : Sys), Exclusive k s (es ++ fs) → run k s es = some m → Exclusive k m fs := by
  induction es with
  | nil => intro s m h hr; simp only [run, Option.some.injEq] at hr; exact hr ▸ h
  | cons e es ih =>
    intro s m h hr
    simp only [run, Option.bind_eq_some_iff] at hr
    obtain ⟨a, h1, h2⟩ := hr
    exact ih a m (h.2 a h1) h2

/-- Without a `Stop`, a DoH or admin listener over QUIC whose serving ended with an error never serves again: its socket stays open, and its address is taken. -/
theorem h3_stays_down {es fs : List Ev} {t : Sys} (h : run .h3 {} (es ++ .fail :: fs) = some t) (h1 : NoStop es) (h2 : NoStop fs) (hx : Exclusive .h3 {} (es ++ .fail :: fs)) :
    ¬ Up t ∧ t.opened ≠ [] := by
  obtain ⟨s, hs, ht⟩ := run_append es _ {} t h
  replace hx := exclusive_append es _ _ _ hx hs
  have hp := inv_run (k := .h3) (P := fun s => (∀ i, s.stops i = .none) ∧ ((s.phase = .bound ∨ s.phase = .early ∨ s.phase = .ready ∨ s.phase = .serving) → s.gen ∈ s.opened)) (Q := fun e => ∀ i, e ≠ .stop i)
    (fun s e s' h he hs => by cases e <;> steps hs <;> splits hs <;> (try dsimp only at *) <;> grind) es {} s ⟨fun _ => rfl, by simp⟩ h1 hs
  simp only [run, Option.bind_eq_some_iff] at ht
  obtain ⟨m, hm, ht⟩ := ht
  replace hx := hx.2 m hm
  have hq : (∀ i, m.stops i = .none) ∧ m.opened ≠ [] ∧ (m.phase = .idle ∨ m.phase = .entered) := by
    steps hm
    splits hm
    dsimp only at *
    grind
  clear hm hp h hs
  induction fs generalizing m with
  | nil => simp only [run, Option.some.injEq] at ht; unfold Up; grind
  | cons e fs ih =>
    simp only [run, Option.bind_eq_some_iff] at ht
    obtain ⟨a, h3, h4⟩ := ht
    refine ih (fun x hx => h2 x (List.mem_cons_of_mem _ hx)) a h4 (hx.2 a h3) ?_
    have he := h2 e List.mem_cons_self
    have hl := hx.1
    cases e <;> steps h3 <;> splits h3 <;> (try dsimp only at *) <;> grind

/-- Without a `Stop`, a DoQ listener that serves never returns, whatever errors accepting has: nobody starts it again. -/
theorem doq_never_returns {es fs : List Ev} {s t : Sys} (h : run .doq {} es = some s) (h1 : NoStop es) (hu : Up s) (h2 : run .doq s fs = some t) (h3 : NoStop fs) : Up t := by
  unfold Up at *
  have hz := no_stops h1 (fun _ => rfl) h
  have hp := inv_run (k := .doq) (P := fun s => (∀ i, s.stops i = .none) ∧ s.shut = []) (Q := fun e => ∀ i, e ≠ .stop i)
    (fun s e s' h he hs => by cases e <;> steps hs <;> splits hs <;> (try dsimp only at *) <;> grind) es {} s ⟨fun _ => rfl, rfl⟩ h1 h
  have := inv_run (k := .doq) (P := fun s => (∀ i, s.stops i = .none) ∧ s.shut = [] ∧ s.phase = .serving) (Q := fun e => ∀ i, e ≠ .stop i)
    (fun s e s' h he hs => by cases e <;> steps hs <;> splits hs <;> (try dsimp only at *) <;> grind) fs s t ⟨hp.1, hp.2, hu⟩ h3 h2
  exact this.2.2

/-- A listener that serves goes on serving, with the same socket, until somebody calls `Stop` or serving fails. -/
theorem stays_up {k : Kind} {es fs : List Ev} {s t : Sys} (h : run k {} es = some s) (h1 : NoStop es) (hu : Up s) (h2 : run k s fs = some t) (h3 : NoStop fs) (hf : ¬ Ev.fail ∈ fs) :
    Up t ∧ t.gen = s.gen ∧ t.gen ∈ t.opened := by
  unfold Up at *
  have hp := inv_run (k := k) (P := fun s => (∀ i, s.stops i = .none) ∧ s.shut = [] ∧ ((∃ udp, k = .dns udp ∨ k = .own udp) → s.phase = .serving → s.started = true) ∧
      ((s.phase = .bound ∨ s.phase = .early ∨ s.phase = .serving ∨ (s.phase = .ready ∧ k ≠ .http)) → s.gen ∈ s.opened)) (Q := fun e => ∀ i, e ≠ .stop i)
    (fun s e s' h he hs => by cases k <;> cases e <;> steps hs <;> splits hs <;> (try dsimp only at *) <;> grind) es {} s ⟨fun _ => rfl, rfl, by simp, by simp⟩ h1 h
  have := inv_run (k := k) (P := fun x => (∀ i, x.stops i = .none) ∧ x.shut = [] ∧ ((∃ udp, k = .dns udp ∨ k = .own udp) → x.started = true) ∧ x.gen ∈ x.opened ∧ x.phase = .serving ∧ x.gen = s.gen)
    (Q := fun e => (∀ i, e ≠ .stop i) ∧ e ≠ .fail)
    (fun s e s' h he hs => by cases k <;> cases e <;> steps hs <;> splits hs <;> (try dsimp only at *) <;> grind) fs s t
    ⟨hp.1, hp.2.1, fun hk => hp.2.2.1 hk hu, hp.2.2.2 (.inr (.inr (.inl hu))), hu, rfl⟩ (fun e he => ⟨h3 e he, fun hx => hf (hx ▸ he)⟩) h2
  exact ⟨this.2.2.2.2.1, this.2.2.2.2.2, this.2.2.2.1⟩

/-- A listener over HTTP and TCP can be started again after whatever happened. -/
theorem http_comes_back {es : List Ev} {s : Sys} (h : run .http {} es = some s) (hr : Returned s) :
    ∃ t, run .http s [.start, .publish, .listen true, .serve] = some t ∧ Up t := by
  have hq := inv_run (k := .http) (P := fun s => (∀ g ∈ s.shut, g ≤ s.gen) ∧ (∀ g, s.pub = some g → g ≤ s.gen) ∧ ∀ i g, s.stops i = .holding g → g ≤ s.gen) (Q := fun _ => True)
    (fun s e s' h he hs => by cases e <;> steps hs <;> splits hs <;> (try dsimp only at *) <;> grind) es {} s (by simp) (fun _ _ => trivial) h
  have hn : ¬ s.gen + 1 ∈ s.shut := fun hx => by have := hq.1 _ hx; omega
  unfold Returned at hr
  exact ⟨{ s with phase := .serving, gen := s.gen + 1, pub := some (s.gen + 1), opened := (s.gen + 1) :: s.opened }, by
    simp [run, step, startStep, http, begin, listen, hr, hn], rfl⟩

/-- When `Start` has returned, the library does not take the server for started, and the socket server has not been told to stop, the listener can be started (again), whatever happened
before: if the socket can be opened it serves, with the socket of this call. -/
theorem can_start {k : Kind} {es : List Ev} {s : Sys} (h : run k {} es = some s) (hr : Returned s) (hd : ∀ udp, k = .dns udp ∨ k = .own udp → s.started = false)
    (hx : k = .xs → s.closed = false) : ∃ fs t, (∀ e ∈ fs, OfStart e ∧ e ≠ .fail) ∧ run k s fs = some t ∧ Up t ∧ t.gen = s.gen + 1 ∧ s.gen + 1 ∈ t.opened := by
  have hn : k = .http ∨ k = .h3 → ¬ s.gen + 1 ∈ s.shut := by
    intro hk hx
    have hq : (∀ g ∈ s.shut, g ≤ s.gen) ∧ (∀ g, s.pub = some g → g ≤ s.gen) ∧ ∀ i g, s.stops i = .holding g → g ≤ s.gen := by
      rcases hk with rfl | rfl
      · exact inv_run (k := .http) (P := fun s => (∀ g ∈ s.shut, g ≤ s.gen) ∧ (∀ g, s.pub = some g → g ≤ s.gen) ∧ ∀ i g, s.stops i = .holding g → g ≤ s.gen) (Q := fun _ => True)
          (fun s e s' h he hs => by cases e <;> steps hs <;> splits hs <;> (try dsimp only at *) <;> grind) es {} s (by simp) (fun _ _ => trivial) h
      · exact inv_run (k := .h3) (P := fun s => (∀ g ∈ s.shut, g ≤ s.gen) ∧ (∀ g, s.pub = some g → g ≤ s.gen) ∧ ∀ i g, s.stops i = .holding g → g ≤ s.gen) (Q := fun _ => True)
          (fun s e s' h he hs => by cases e <;> steps hs <;> splits hs <;> (try dsimp only at *) <;> grind) es {} s (by simp) (fun _ _ => trivial) h
    have := hq.1 _ hx
    omega
  unfold Returned at hr
  cases k with
  | http => exact ⟨[.start, .publish, .listen true, .serve], { s with phase := .serving, gen := s.gen + 1, pub := some (s.gen + 1), opened := (s.gen + 1) :: s.opened }, by simp [OfStart],
      by simp [run, step, startStep, http, begin, listen, hr, hn (Or.inl rfl)], rfl, rfl, by simp⟩
  | h3 => exact ⟨[.start, .listen true, .early true, .publish, .serve], { s with phase := .serving, gen := s.gen + 1, pub := some (s.gen + 1), opened := (s.gen + 1) :: s.opened }, by simp [OfStart],
      by simp [run, step, startStep, h3, begin, listen, listenEarly, hr, hn (Or.inr rfl)], rfl, rfl, by simp⟩
  | doq => exact ⟨[.start, .listen true, .early true, .publish], { s with phase := .serving, gen := s.gen + 1, pub := some (s.gen + 1), opened := (s.gen + 1) :: s.opened }, by simp [OfStart],
      by simp [run, step, startStep, doq, begin, listen, listenEarly, hr], rfl, rfl, by simp⟩
  | dns udp => exact ⟨[.start, .listen true], { s with phase := .serving, gen := s.gen + 1, pub := some (s.gen + 1), opened := (s.gen + 1) :: s.opened, started := true }, by simp [OfStart],
      by simp [run, step, startStep, dns, begin, hr, hd udp (Or.inl rfl)], rfl, rfl, by simp⟩
  | own udp => exact ⟨[.start, .listen true, .publish, .activate true], { s with phase := .serving, gen := s.gen + 1, pub := some (s.gen + 1), opened := (s.gen + 1) :: s.opened, started := true }, by simp [OfStart],
      by simp [run, step, startStep, own, begin, listen, hr, hd udp (Or.inr rfl)], rfl, rfl, by simp⟩
  | xs => exact ⟨[.start, .listen true, .publish], { s with phase := .serving, gen := s.gen + 1, pub := some (s.gen + 1), opened := (s.gen + 1) :: s.opened }, by simp [OfStart],
      by simp [run, step, startStep, xs, begin, listen, hr, hx rfl], rfl, rfl, by simp⟩

section Examples

/-- The hypotheses of `can_start` are met after a `Stop`, for a DNS listener over UDP. -/
example : (run (.dns true) {} [.start, .listen true, .stop 0, .look 0, .ended, .finish 0]).map (fun s => (s.phase, s.started, s.gen)) = some (.idle, false, 1) := by decide

/-- What can be seen after a run from the beginning: `Start`, its number, open sockets, the first `Stop`. -/
private def runs (k : Kind) (es : List Ev) : Option (Phase × Nat × List Nat × Stop) := (run k {} es).map fun s => (s.phase, s.gen, s.opened, s.stops 0)

/-- DoQ: a `Stop` too early, and one while serving. -/
example : runs .doq [.start, .stop 0, .look 0, .listen true, .early true, .publish, .stop 1, .look 1, .shut 1, .ended, .finish 1] = some (.idle, 1, [], .returned none) := by decide +kernel
example : ∃ s, run .doq {} [.start, .stop 0, .look 0, .listen true, .early true, .publish, .stop 1, .look 1, .shut 1, .ended, .finish 1] = some s ∧ Returned s ∧ StopsReturned s := by
  refine ⟨_, rfl, rfl, ?_⟩
  intro i
  match i with
  | 0 => exact .inr ⟨none, rfl⟩
  | 1 => exact .inr ⟨some 1, rfl⟩
  | n + 2 => exact .inl rfl

/-- HTTP: a `Stop` between the making of the server and serving; `Start` returns without serving, the socket is closed. -/
example : runs .http [.start, .publish, .stop 0, .look 0, .shut 0, .listen true, .serve, .finish 0] = some (.idle, 1, [], .returned (some 1)) := by decide +kernel

/-- The hypotheses of `stop_ends` are met, for a DNS listener over TCP. -/
example : ∃ s t, run (.dns false) {} [.start, .listen true, .stop 0] = some s ∧ Stoppable (.dns false) s ∧ run (.dns false) s [.look 0] = some t ∧ t.gen = s.gen ∧ Closed t 0 ∧ Up t := by
  refine ⟨_, _, rfl, .inl rfl, rfl, rfl, ?_, rfl⟩
  exact ⟨by decide +kernel, by decide +kernel, fun g h => by cases h⟩

/-- The hypotheses of `stays_up` are met, for DoQ with a `Start` that failed before. -/
example : ∃ s, run .doq {} [.start, .listen false, .start, .listen true, .early true, .publish] = some s ∧ Up s ∧ s.gen = 2 := ⟨_, rfl, rfl, rfl⟩

/-- QUIC without DoQ: serving ended by itself, and the socket is open; the next `Start` finds the address taken, and so on. -/
example : runs .h3 [.start, .listen true, .early true, .publish, .serve, .fail, .start, .listen false] = some (.idle, 2, [1], .none) := by decide +kernel

/-- DNS: the next `Start` fails. -/
example : runs (.dns true) [.start, .listen true, .fail, .start, .listen true] = some (.idle, 2, [], .none) := by decide +kernel

/-- The same with a socket opened by `Start`: it stays open. -/
example : runs (.own false) [.start, .listen true, .publish, .activate true, .fail, .start, .listen true, .publish, .activate true] = some (.idle, 2, [2], .none) := by decide +kernel

/-- The options of a UDP socket cannot be set: it stays open. -/
example : runs (.own true) [.start, .listen true, .publish, .activate false] = some (.idle, 1, [1], .none) := by decide +kernel

/-- A `Stop` that is slow to return closes, over UDP, the socket of the next `Start`, but not over TCP. -/
example : runs (.own true) [.start, .listen true, .publish, .activate true, .stop 0, .look 0, .ended, .start, .listen true, .publish, .finish 0] = some (.ready, 2, [], .returned (some 1)) := by decide +kernel
example : runs (.own false) [.start, .listen true, .publish, .activate true, .stop 0, .look 0, .ended, .start, .listen true, .publish, .finish 0] = some (.ready, 2, [2], .returned (some 1)) := by decide +kernel

end Examples

end Verif.Props.LifeCycle
