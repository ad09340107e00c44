import Verif.Model.Composition
import Verif.Props.Composition
import Verif.Props.Asks
/-
What elements do to records: a property of records (in responses with codes of a kind) that the replies of upstreams have is one of the replies of the element, provided it holds of what the
element makes up. Used for C111, C112 and C114.
-/
namespace Verif.Props.Records
open Verif Verif.Net Verif.Composition Verif.Props.Composition

/-- In responses with a code in question, all records have the property, which may depend on whether they are in the answer section. -/
def HoldsMsg (codes : Nat → Prop) (P : Bool → RR → Prop) (a : Msg) : Prop := codes a.rcode → (∀ r, r ∈ a.answer → P true r) ∧ ∀ r, r ∈ a.ns ++ a.extra → P false r

/-- The reply is an error, or no message at all, or one with the property. -/
def Holds (codes : Nat → Prop) (P : Bool → RR → Prop) (r : Res) : Prop := r.err = none → ∀ a, r.msg = some a → HoldsMsg codes P a

/-- OPT records have the property. -/
def Opts (P : Bool → RR → Prop) : Prop := ∀ b r, r.isOpt = true → P b r

/-- The same code, and no other records than before -/
structure Keeps (m m' : Msg) : Prop where
  code : m'.rcode = m.rcode
  answer : ∀ r, r ∈ m'.answer → r ∈ m.answer
  rest : ∀ r, r ∈ m'.ns ++ m'.extra → r ∈ m.ns ++ m.extra

variable {codes : Nat → Prop} {P : Bool → RR → Prop}

/-- A property that does not depend on the section, for all records -/
theorem holds_all {P : RR → Prop} {a : Msg} : HoldsMsg codes (fun _ => P) a ↔ (codes a.rcode → ∀ r, r ∈ a.answer ++ a.ns ++ a.extra → P r) := by
  unfold HoldsMsg
  constructor
  · intro h hc r hr
    obtain ⟨h1, h2⟩ := h hc
    simp only [List.mem_append] at hr h2
    rcases hr with (hr | hr) | hr
    · exact h1 r hr
    · exact h2 r (.inl hr)
    · exact h2 r (.inr hr)
  · intro h hc
    refine ⟨fun r hr => h hc r (by simp [hr]), fun r hr => h hc r ?_⟩
    rcases List.mem_append.mp hr with hr | hr <;> simp [hr]

theorem hold_err {r : Res} (h : r.err ≠ none) : Holds codes P r := fun e => absurd e h

theorem hold_none {r : Res} (h : r.msg = none) : Holds codes P r := by
  intro _ a ha
  rw [h] at ha
  cases ha

theorem hold_ok {a : Msg} (h : HoldsMsg codes P a) : Holds codes P (.ok a) := by
  intro _ b hb
  cases hb
  exact h

theorem hold_get {r : Res} {a : Msg} (h : Holds codes P r) (he : r.err = none) (ha : r.msg = some a) : HoldsMsg codes P a := h he a ha

/-- Records of the same, and the code -/
theorem hold_from {m m' : Msg} (h : HoldsMsg codes P m) (hk : Keeps m m') : HoldsMsg codes P m' := by
  intro hc
  rw [hk.code] at hc
  exact ⟨fun r hr => (h hc).1 r (hk.answer r hr), fun r hr => (h hc).2 r (hk.rest r hr)⟩

/-- Records of which each is OPT or one of `m`, and the code -/
theorem hold_from' (ho : Opts P) {m m' : Msg} (h : HoldsMsg codes P m) (hc : m'.rcode = m.rcode) (ha : m'.answer = m.answer)
    (hk : ∀ r, r ∈ m'.ns ++ m'.extra → r.isOpt = true ∨ r ∈ m.ns ++ m.extra) : HoldsMsg codes P m' := by
  intro hc'
  rw [hc] at hc'
  refine ⟨fun r hr => (h hc').1 r (ha ▸ hr), fun r hr => ?_⟩
  rcases hk r hr with h1 | h0
  · exact ho _ _ h1
  · exact (h hc').2 r h0

theorem hold_empty {m : Msg} (h1 : m.answer = []) (h2 : m.ns = []) (h3 : m.extra = []) : HoldsMsg codes P m := by
  intro _
  simp [h1, h2, h3]

theorem setLast_mem {f : Edns → Edns} {l : List RR} {r : RR} (h : r ∈ setLastOpt f l) : r.isOpt = true ∨ r ∈ l := by
  have go : ∀ (l : List RR) (r : RR), r ∈ setLastOpt.go f l → r.isOpt = true ∨ r ∈ l := by
    intro l
    induction l with
    | nil => intro r h; simp [setLastOpt.go] at h
    | cons x l ih =>
      intro r h
      simp only [setLastOpt.go] at h
      split at h
      · rcases List.mem_cons.mp h with rfl | h
        · left; rfl
        · right; exact List.mem_cons_of_mem _ h
      · rcases List.mem_cons.mp h with rfl | h
        · right; simp
        · rcases ih r h with h | h
          · left; exact h
          · right; exact List.mem_cons_of_mem _ h
  unfold setLastOpt at h
  rcases go _ _ (List.mem_reverse.mp h) with h | h
  · exact .inl h
  · exact .inr (List.mem_reverse.mp h)

theorem mapEdns_hold (ho : Opts P) {m : Msg} (f : Edns → Edns) (h : HoldsMsg codes P m) : HoldsMsg codes P (m.mapEdns f) := by
  refine hold_from' ho h rfl rfl fun r hr => ?_
  unfold Msg.mapEdns at hr
  simp only [List.mem_append] at hr
  rcases hr with hr | hr
  · exact .inr (by simp [hr])
  · rcases setLast_mem hr with hr | hr
    · exact .inl hr
    · exact .inr (by simp [hr])

theorem setEdns_hold (ho : Opts P) {m : Msg} (n : Nat) (d : Bool) (h : HoldsMsg codes P m) : HoldsMsg codes P (m.setEdns0 n d) := by
  refine hold_from' ho h rfl rfl fun r hr => ?_
  unfold Msg.setEdns0 at hr
  simp only [List.mem_append, List.mem_singleton] at hr
  rcases hr with hr | hr | rfl
  · exact .inr (by simp [hr])
  · exact .inr (by simp [hr])
  · exact .inl rfl

theorem ede_hold (ho : Opts P) {e : Option Blocklist.Ede} {m q : Msg} {x : Option Lists.Match} (h : HoldsMsg codes P m) :
    HoldsMsg codes P (Blocklist.applyEde e m q x) := by
  unfold Blocklist.applyEde
  split
  · exact h
  · simp only
    split
    · exact h
    · exact mapEdns_hold ho _ (setEdns_hold ho _ _ h)

/-! ### The elements -/

private theorem map_hold {f : Nat → Nat} {m : Msg} (hf : ∀ b r, r ∈ m.records → r.isOpt = false → P b r → P b { r with ttl := f r.ttl }) (h : HoldsMsg codes P m) : HoldsMsg codes P (Elements.mapTTL f m) := by
  intro hc
  have go : ∀ (b : Bool) (x : RR), x ∈ m.records → P b x → P b (if x.isOpt = true then x else { x with ttl := f x.ttl }) := by
    intro b x hx hp
    split
    · exact hp
    · rename_i ho
      exact hf b x hx (by simpa using ho) hp
  obtain ⟨h1, h2⟩ := h hc
  refine ⟨fun r hr => ?_, fun r hr => ?_⟩
  · simp only [Elements.mapTTL, List.mem_map] at hr
    obtain ⟨x, hx, rfl⟩ := hr
    exact go _ x (by simp [Msg.records, hx]) (h1 x hx)
  · simp only [Elements.mapTTL, List.mem_append, List.mem_map] at hr
    rcases hr with ⟨x, hx, rfl⟩ | ⟨x, hx, rfl⟩
    all_goals exact go _ x (by simp [Msg.records, hx]) (h2 x (by simp [hx]))

private theorem foldl_min : ∀ (l : List Nat) (a : Nat), l.foldl (fun lo t => if t < lo then t else lo) a ≤ a ∧ ∀ t, t ∈ l → l.foldl (fun lo t => if t < lo then t else lo) a ≤ t := by
  intro l
  induction l with
  | nil => intro a; simp
  | cons x l ih =>
    intro a
    simp only [List.foldl_cons, List.mem_cons]
    have h := ih (if x < a then x else a)
    refine ⟨Nat.le_trans h.1 (by split <;> omega), fun t ht => ?_⟩
    rcases ht with rfl | ht
    · exact Nat.le_trans h.1 (by split <;> omega)
    · exact h.2 t ht

/-- For properties of the data only, or such that are kept by lower TTLs with options that only lower them -/
theorem ttl_hold {o : Elements.TTLOptions} (hP : (∀ b (r : RR) t, P b r → P b { r with ttl := t }) ∨ ((∀ b (r : RR) t, P b r → t ≤ r.ttl → P b { r with ttl := t }) ∧ o.minTTL = 0 ∧ (o.select = .none ∨ o.select = .lowest)))
    {r : Res} (h : Holds codes P r) : Holds codes P (Elements.ttlResolve o r) := by
  unfold Elements.ttlResolve
  split
  · rename_i a he ha
    have ha := h he a ha
    rcases hP with hP | ⟨hP, hmin, hsel⟩
    · refine hold_ok (map_hold (fun b r _ _ hp => hP b r _ hp) ?_)
      split
      · exact ha
      · exact map_hold (fun b r _ _ hp => hP b r _ hp) ha
    · refine hold_ok (map_hold (fun b r _ _ hp => hP b r _ hp ?_) ?_)
      · simp only [Elements.limit, hmin]
        split <;> split <;> omega
      · split
        · exact ha
        · rename_i v hv
          refine map_hold (fun b r hr ho hp => hP b r _ hp ?_) ha
          rcases hsel with hsel | hsel
          · simp [Elements.selected, hsel] at hv
          · simp only [Elements.selected, hsel, Option.some.injEq] at hv
            subst hv
            refine (foldl_min _ _).2 _ ?_
            simp only [Elements.ttls, List.mem_map, List.mem_filter]
            exact ⟨r, ⟨hr, by simp [ho]⟩, rfl⟩
  · exact h

theorem collapse_hold (hn : ∀ b (r : RR) n, P b r → P b { r with name := n }) {n : Nat} {q : Msg} {r x : Res} (h : Holds codes P r) (hx : Elements.collapse n q r = some x) : Holds codes P x := by
  unfold Elements.collapse at hx
  split at hx
  · rename_i a he ha
    split at hx
    · cases hx; exact h
    · split at hx
      · cases hx
      · simp only at hx
        split at hx
        · cases hx; exact hold_ok (hold_empty rfl rfl rfl)
        · cases hx
          refine hold_ok fun hc => ⟨fun r hr => ?_, ((h he a ha) hc).2⟩
          simp only [List.mem_filterMap] at hr
          obtain ⟨x, hx, h1⟩ := hr
          split at h1
          · cases h1; exact hn _ _ _ (((h he a ha) hc).1 x hx)
          · cases h1
  · cases hx; exact h

theorem minimize_hold {r : Res} (h : Holds codes P r) : Holds codes P (Elements.minimize r) := by
  unfold Elements.minimize
  split
  · rename_i a he ha
    exact hold_ok (hold_from (h he a ha) ⟨rfl, fun r hr => hr, fun r hr => by simp at hr⟩)
  · exact h

theorem truncate_hold {r r2 : Res} (h : Holds codes P r) (h2 : (Elements.truncateRetry r r2).2 = true → Holds codes P r2) : Holds codes P (Elements.truncateRetry r r2).1 := by
  unfold Elements.truncateRetry at h2 ⊢
  split
  · rename_i he ha
    simp only [he, ha] at h2
    split
    · rename_i htc
      exact h2 (by simp [htc])
    · exact h
  · exact h

theorem blocklist_hold (ho : Opts P) {o : Blocklist.Options} {q : Msg} {r : Res}
    (hl : ∀ q h, o.blockDB q = some h → (∀ ip, ip ∈ h.ips → ∀ r : RR, r.data = .a ip ∨ r.data = .aaaa ip → r.ttl = 3600 → P true r) ∧
      ∀ n, n ∈ h.names → ∀ r : RR, r.data = .ptr (Blocklist.fqdn n) → r.ttl = 3600 → P true r)
    (h : Blocklist.resolve o q = some (.done r)) : Holds codes P r := by
  unfold Blocklist.resolve at h
  split at h
  · cases h
  · rename_i qu _ _
    split at h
    · cases h
    · split at h
      · cases h
      · rename_i hit hh
        have hl' := hl q hit hh
        split at h
        · cases h
          refine hold_ok fun _ => ⟨fun r hr => ?_, by simp [Blocklist.ptrAnswer, setReply]⟩
          simp only [Blocklist.ptrAnswer, List.mem_map] at hr
          obtain ⟨n, hn, rfl⟩ := hr
          refine hl'.2 n ?_ _ rfl rfl
          split at hn
          · exact List.mem_of_mem_take hn
          · exact hn
        · split at h
          · cases h
          · split at h
            · cases h
              refine hold_ok fun _ => ⟨fun r hr => ?_, by simp [setReply]⟩
              simp only [Blocklist.spoof, List.mem_filterMap] at hr
              obtain ⟨ip, hip, h1⟩ := hr
              split at h1
              · cases h1; exact hl'.1 ip hip _ (.inl rfl) rfl
              · split at h1
                · cases h1; exact hl'.1 ip hip _ (.inr rfl) rfl
                · cases h1
            · cases h
              refine hold_ok ?_
              have : ∀ (c : Nat → Prop) (m : Msg) (n : Nat), (∀ c : Nat → Prop, HoldsMsg c P m) → HoldsMsg c P { m with rcode := n } :=
                fun c m n hm hc => hm (fun _ => True) trivial
              exact this _ _ _ fun c => ede_hold ho (hold_empty rfl rfl rfl)

theorem client_hold {e hb : Bool} {db : Str → Option Lists.Match} {q : Msg} {ci : ClientInfo} {r : Res}
    (h : Blocklist.resolveClient e hb db q ci = .done r) : Holds codes P r := by
  simp only [Blocklist.resolveClient] at h
  repeat' split at h
  all_goals first
    | (cases h; done)
    | (injection h with h; subst h; exact hold_ok (hold_empty rfl rfl rfl))

theorem block_hold (ho : Opts P) {κ : Type} {key : RR → Option κ} {db : κ → Option Lists.Match} {inv hb : Bool} {e : Option Blocklist.Ede} {q a : Msg} {x : Res}
    (h : HoldsMsg codes P a) (hx : Blocklist.blockIfMatch key db inv hb e q a = .done x) : Holds codes P x := by
  unfold Blocklist.blockIfMatch at hx
  split at hx
  · cases hx; exact hold_ok h
  · split at hx
    · cases hx
    · cases hx; exact hold_ok (ede_hold ho (hold_empty rfl rfl rfl))

theorem filterRR_mem {o : Blocklist.IpOptions} {l : List RR} {r : RR} (h : r ∈ Blocklist.filterRR o l) : r ∈ l := by
  induction l with
  | nil => simp [Blocklist.filterRR] at h
  | cons x l ih =>
    simp only [Blocklist.filterRR] at h
    split at h
    · rcases List.mem_cons.mp h with rfl | h
      · simp
      · exact List.mem_cons_of_mem _ (ih h)
    · split at h
      · exact List.mem_cons_of_mem _ (ih h)
      · rcases List.mem_cons.mp h with rfl | h
        · simp
        · exact List.mem_cons_of_mem _ (ih h)

theorem ip_hold (ho : Opts P) {o : Blocklist.IpOptions} {r x : Res} {q : Msg} (h : Holds codes P r) (hx : Blocklist.resolveIp o r q = .done x) : Holds codes P x := by
  unfold Blocklist.resolveIp at hx
  split at hx
  · rename_i a ha he
    split at hx
    · cases hx; exact h
    · split at hx
      · unfold Blocklist.filterMatch at hx
        split at hx
        · split at hx
          · cases hx
          · cases hx; exact hold_ok (hold_empty rfl rfl rfl)
        · cases hx
          refine hold_ok (hold_from (h he a ha) ⟨rfl, fun r hr => filterRR_mem hr, fun r hr => ?_⟩)
          simp only [List.mem_append] at hr
          rcases hr with hr | hr
          all_goals simp [filterRR_mem hr]
      · exact block_hold ho (h he a ha) hx
  · cases hx; exact h

theorem name_hold (ho : Opts P) {o : Blocklist.NameOptions} {r x : Res} {q : Msg} (h : Holds codes P r) (hx : Blocklist.resolveName o r q = .done x) : Holds codes P x := by
  unfold Blocklist.resolveName at hx
  split at hx
  · rename_i a ha he
    exact block_hold ho (h he a ha) hx
  · cases hx; exact h

theorem copy_mem : ∀ (l : List (Option RR)) (l' : List RR), Static.copyRRs l = some l' → ∀ r, r ∈ l' → some r ∈ l := by
  intro l
  induction l with
  | nil => intro l' h r hr; simp only [Static.copyRRs, Option.some.injEq] at h; subst h; simp at hr
  | cons x l ih =>
    intro l' h r hr
    cases x with
    | none => simp [Static.copyRRs] at h
    | some x =>
      simp only [Static.copyRRs, Option.map_eq_some_iff] at h
      obtain ⟨l2, h1, rfl⟩ := h
      rcases List.mem_cons.mp hr with rfl | hr
      · simp
      · exact List.mem_cons_of_mem _ (ih l2 h1 r hr)

theorem static_hold (ho : Opts P) {s : Static.Static} {q : Msg} {x : Res} (hs : ∀ rr, some rr ∈ s.answer ++ s.ns ++ s.extra → ∀ b (r : RR), r.data = rr.data → r.ttl = rr.ttl → P b r)
    (h : Static.resolve s q = some x) : Holds codes P x := by
  simp only [Static.resolve, Option.bind_eq_bind, Option.pure_def, Option.bind_eq_some_iff, Option.some.injEq] at h
  obtain ⟨a, h1, n, h2, e, h3, rfl⟩ := h
  refine hold_ok (ede_hold ho fun _ => ⟨fun r hr => ?_, fun r hr => ?_⟩)
  · simp only [List.mem_map] at hr
    obtain ⟨y, hy, rfl⟩ := hr
    exact hs y (by simp [copy_mem _ _ h1 y hy]) _ _ rfl rfl
  · simp only [List.mem_append] at hr
    rcases hr with hr | hr
    · exact hs r (by simp [copy_mem _ _ h2 r hr]) _ _ rfl rfl
    · exact hs r (by simp [copy_mem _ _ h3 r hr]) _ _ rfl rfl

theorem template_hold (ho : Opts P) {newRR : Str → Option (Option RR)} {s : Static.Template} {q : Msg} {x : Res}
    (hs : ∀ f, f ∈ s.answer ++ s.ns ++ s.extra → ∀ i text rr, f i = some text → newRR text = some (some rr) → ∀ b, P b rr)
    (h : Static.resolveTemplate newRR s q = some x) : Holds codes P x := by
  have go : ∀ (ts : List (Blocklist.TemplateInput → Option Str)) (l : List RR), Static.copyRRs (Static.process newRR q ts) = some l → ∀ r, r ∈ l →
      ∃ f, f ∈ ts ∧ ∃ i text, f i = some text ∧ newRR text = some (some r) := by
    intro ts l hl r hr
    have := copy_mem _ _ hl r hr
    simp only [Static.process, List.mem_filterMap, Option.bind_eq_some_iff] at this
    obtain ⟨f, hf, text, h1, h2⟩ := this
    exact ⟨f, hf, _, text, h1, h2⟩
  simp only [Static.resolveTemplate, Option.bind_eq_bind, Option.pure_def, Option.bind_eq_some_iff, Option.some.injEq] at h
  obtain ⟨a, h1, n, h2, e, h3, rfl⟩ := h
  refine hold_ok (ede_hold ho fun _ => ⟨fun r hr => ?_, fun r hr => ?_⟩)
  · obtain ⟨f, hf, i, text, e1, e2⟩ := go _ _ h1 r hr
    exact hs f (by simp [hf]) i text r e1 e2 _
  · simp only [List.mem_append] at hr
    rcases hr with hr | hr
    · obtain ⟨f, hf, i, text, e1, e2⟩ := go _ _ h2 r hr
      exact hs f (by simp [hf]) i text r e1 e2 _
    · obtain ⟨f, hf, i, text, e1, e2⟩ := go _ _ h3 r hr
      exact hs f (by simp [hf]) i text r e1 e2 _

theorem replace_hold (hn : ∀ b (r : RR) n, P b r → P b { r with name := n }) {exps : List (Str → Str)} {q : Msg} {r x : Res} (h : Holds codes P r) (hx : Static.resolveReplace exps (fun _ => r) q = some x) : Holds codes P x := by
  unfold Static.resolveReplace at hx
  split at hx
  · cases hx
  · simp only at hx
    split at hx
    · cases hx; exact h
    · split at hx
      · cases hx; exact hold_err (by simp [Res.fail])
      · cases hx; exact hold_none rfl
      · rename_i a he ha
        cases hx
        refine hold_ok fun hc => ⟨fun r hr => ?_, ((h he a ha) hc).2⟩
        simp only [List.mem_map] at hr
        obtain ⟨y, hy, rfl⟩ := hr
        have hy := ((h he a ha) hc).1 y hy
        split
        · exact hn _ _ _ hy
        · exact hy

theorem syslog_same {o : Static.SyslogOptions} {c : Bool} {q : Msg} {r x : Res} (hx : (Static.resolveSyslog o c (fun _ => r) q).map (·.1) = some x) : x = r := by
  unfold Static.resolveSyslog at hx
  split at hx
  · cases hx; rfl
  · simp only at hx
    split at hx
    · split at hx
      · cases hx; rfl
      · split at hx
        · simp only [Option.map_map, Option.map_eq_some_iff] at hx
          obtain ⟨_, _, rfl⟩ := hx
          rfl
        · cases hx; rfl
    · cases hx; rfl

theorem queryLog_same {q : Msg} {r x : Res} (hx : (Static.resolveQueryLog (fun _ => r) q).map (·.1) = some x) : x = r := by
  unfold Static.resolveQueryLog at hx
  split at hx
  · cases hx
  · cases hx; rfl

theorem dns64_hold {ps : List Dns64.Pfx} {q : Msg} {up : Msg → Res} {x : Res}
    (hp : ∀ p, p ∈ ps → ∀ ip ip4 ip6, to4 ip = some ip4 → Dns64.synthesize p ip4 = some ip6 → ∀ r r' : RR, P true r → r.data = .a ip → r'.data = .aaaa ip6 → r'.ttl = r.ttl → P true r')
    (h1 : Holds codes P (up q)) (h2 : Holds codes P (up (Dns64.aQuery q))) (hx : Dns64.resolve ps up q = some x) : Holds codes P x := by
  by_cases hs : x = up q
  · rw [hs]; exact h1
  · unfold Dns64.resolve at hx
    split at hx
    · cases hx
    · rename_i qu _ _
      repeat' split at hx
      all_goals first
        | (injection hx with hx; exact absurd hx.symm hs)
        | skip
      simp only at hx
      repeat' split at hx
      all_goals first
        | (injection hx with hx; exact absurd hx.symm hs)
        | skip
      rename_i aA ham hac hsyn
      cases hx
      have he : (up (Dns64.aQuery q)).err = none := by
        cases h : (up (Dns64.aQuery q)).err with
        | none => rfl
        | some e => simp_all
      have hA := h2 he aA ham
      have hcode : aA.rcode = 0 := by simpa using hac
      refine hold_ok fun hc => ?_
      have hA := hA (by rw [hcode]; exact hc)
      refine ⟨fun r hr => ?_, hA.2⟩
      · unfold Dns64.synthesizeAAAA at hr
        simp only at hr
        split at hr
        · simp at hr
        · rcases List.mem_append.mp hr with hr | hr
          · exact hA.1 r (List.mem_filter.mp hr).1
          · obtain ⟨y, hy, hr⟩ := List.mem_flatMap.mp hr
            split at hr
            · rename_i ip hd
              split at hr
              · rename_i ip4 h4
                simp only [Dns64.synthesizeAll, List.mem_filterMap, Option.map_eq_some_iff] at hr
                obtain ⟨p, hpp, ip6, h6, rfl⟩ := hr
                exact hp p hpp ip ip4 ip6 h4 h6 y _ (hA.1 y hy) hd rfl rfl
              · simp at hr
            · simp at hr

theorem two_hold {q p : Msg} {r1 r2 : Res} (h1 : Holds codes P r1) (h2 : Holds codes P r2) : Holds codes P (two q r1 r2 p) := by
  unfold two
  split
  · exact h1
  · exact h2

theorem merge_mem {n : Nat} : ∀ (l s : List RR) (r : RR), r ∈ Balance.Tcp.merge n l s → r ∈ l ∨ r ∈ s := by
  intro l
  induction l with
  | nil => intro s r h; simp [Balance.Tcp.merge] at h
  | cons x l ih =>
    intro s r h
    cases s with
    | nil => left; simpa [Balance.Tcp.merge] using h
    | cons y s =>
      simp only [Balance.Tcp.merge] at h
      split at h
      · rcases List.mem_cons.mp h with rfl | h
        · right; simp
        · rcases ih s r h with h | h
          · left; exact List.mem_cons_of_mem _ h
          · right; exact List.mem_cons_of_mem _ h
      · rcases List.mem_cons.mp h with rfl | h
        · left; simp
        · rcases ih (y :: s) r h with h | h
          · left; exact List.mem_cons_of_mem _ h
          · right; exact h

theorem probeAll_mem {rrs : List RR} : ∀ (left : Nat) (ps : List Balance.Tcp.Probe) (l : List RR), Balance.Tcp.probeAll rrs left ps = some l → ∀ r, r ∈ l → r ∈ rrs := by
  intro left
  induction left with
  | zero => intro ps l h r hr; simp only [Balance.Tcp.probeAll, Option.some.injEq] at h; subst h; simp at hr
  | succ left ih =>
    intro ps l h r hr
    cases ps with
    | nil => simp [Balance.Tcp.probeAll] at h
    | cons p ps =>
      simp only [Balance.Tcp.probeAll] at h
      split at h
      · split at h
        · rename_i x rest hx hrest
          cases h
          rcases List.mem_cons.mp hr with rfl | hr
          · exact List.mem_of_getElem? hx
          · exact ih ps rest hrest r hr
        · cases h
      · cases h

theorem tcp_hold {n : Nat} (hP : (∀ b (r : RR) t, P b r → P b { r with ttl := t }) ∨ n = 0) {w : Bool} {q : Msg} {r x : Res} {probes : List Balance.Tcp.Probe} (h : Holds codes P r) (hx : Balance.Tcp.resolve w n q r probes = some x) : Holds codes P x := by
  unfold Balance.Tcp.resolve at hx
  split at hx
  · rename_i a he ha
    have hk : HoldsMsg codes P a := h he a ha
    split at hx
    · cases hx
    · rename_i qu _ _
      split at hx
      · cases hx; exact hold_ok hk
      · simp only at hx
        split at hx
        · cases hx; exact hold_ok hk
        · split at hx
          · cases hx; exact hold_ok hk
          · rename_i sorted hsort
            cases hx
            refine hold_ok fun hc => ⟨fun r hr => ?_, (hk hc).2⟩
            · rcases merge_mem _ _ _ hr with hr | hr
              · exact (hk hc).1 r hr
              · obtain ⟨y, hy, rfl⟩ := List.mem_map.mp hr
                have hy' : y ∈ (a.answer.filter fun r => r.rtype = qu.qtype).take Balance.Tcp.maxProbes := by
                  split at hsort
                  · exact probeAll_mem _ _ _ hsort y hy
                  · unfold Balance.Tcp.probeFastest at hsort
                    split at hsort
                    · cases hsort
                      obtain ⟨i, -, hi⟩ := List.mem_filterMap.mp hy
                      exact List.mem_of_getElem? hi
                    · cases hsort
                    · cases hsort
                have := (hk hc).1 y (List.mem_filter.mp (List.mem_of_mem_take hy')).1
                unfold Balance.Tcp.setTTL
                split
                · rename_i hlt
                  rcases hP with hP | rfl
                  · exact hP _ _ _ this
                  · omega
                · exact this
  · cases hx; exact h

theorem strip_hold (ho : Opts P) {a : Msg} {d e : Bool} {n : Nat} (h : HoldsMsg codes P a) : HoldsMsg codes P (DnssecResolver.stripDNSSEC a d e n) := by
  unfold DnssecResolver.stripDNSSEC
  split
  · exact h
  · have h2 : HoldsMsg codes P { a with answer := DnssecResolver.filterDNSSECRR a.answer n, ns := DnssecResolver.filterDNSSECRR a.ns n, extra := DnssecResolver.filterDNSSECRR a.extra n } := by
      refine hold_from h ⟨rfl, fun r hr => (List.mem_filter.mp hr).1, fun r hr => ?_⟩
      simp only [DnssecResolver.filterDNSSECRR, List.mem_append, List.mem_filter] at hr ⊢
      rcases hr with hr | hr
      · exact .inl hr.1
      · exact .inr hr.1
    simp only
    split
    · refine hold_from h2 ⟨rfl, fun r hr => hr, fun r hr => ?_⟩
      simp only [List.mem_append] at hr ⊢
      rcases hr with hr | hr
      · exact .inl hr
      · exact .inr (List.mem_filter.mp hr).1
    · exact mapEdns_hold ho _ h2

theorem dnssec_hold (ho : Opts P) {l : Bool} {v : Msg → DnssecResolver.Verdict} {r x : Res} {q : Msg} {ci : ClientInfo} (h : Holds codes P r)
    (hx : DnssecResolver.resolve l v (fun _ _ => r) q ci = some x) : Holds codes P x := by
  unfold DnssecResolver.resolve at hx
  simp only at hx
  split at hx
  · cases hx
  · split at hx
    · cases hx; exact h
    · cases hx; exact h
    · rename_i a he ha
      have hk : HoldsMsg codes P a := h he a ha
      split at hx
      · cases hx; exact hold_ok (strip_hold ho hk)
      · split at hx
        · cases hx; exact hold_ok (strip_hold ho hk)
        · split at hx
          · cases hx; exact hold_ok (hold_empty rfl rfl rfl)
          · cases hx; exact hold_ok (strip_hold ho hk)
        · cases hx; exact hold_ok (strip_hold ho (hold_from hk ⟨rfl, fun r hr => hr, fun r hr => hr⟩))

/-! ### De-duplication and cache -/

theorem dedup_from {Q : Res → Prop} : ∀ (evs : List Dedup.Ev) (s s' : Dedup.Sys), Dedup.run s evs = some s' → (∀ l y, .reply l y ∈ evs → Q y) →
    (∀ (c : Nat) (x : Dedup.Caller), s.callers[c]? = some x → (∀ y, x.answer = some y → Q y) ∧ ∀ res, x.ph = .returned res → ∃ r, res = Dedup.restore x.q r ∧ Q r) →
    ∀ (c : Nat) (x : Dedup.Caller), s'.callers[c]? = some x → (∀ y, x.answer = some y → Q y) ∧ ∀ res, x.ph = .returned res → ∃ r, res = Dedup.restore x.q r ∧ Q r := by
  intro evs
  induction evs with
  | nil => intro s s' h _ hi; simp only [Dedup.run, Option.some.injEq] at h; subst h; exact hi
  | cons e evs ih =>
    intro s s' h hQ hi
    simp only [Dedup.run] at h
    split at h
    · cases h
    · rename_i s1 hs
      refine ih s1 s' h (fun l y hy => hQ l y (List.mem_cons_of_mem _ hy)) fun c x hc => ?_
      cases e with
      | arrive q =>
        simp only [Dedup.step] at hs
        split at hs
        · cases hs
        · split at hs
          all_goals
            simp only [Option.some.injEq] at hs; subst hs
            rcases get_snoc_or hc with rfl | hc
            · exact ⟨fun y hy => by simp at hy, fun res hr => by simp at hr⟩
            · exact hi c x hc
      | reply j r =>
        simp only [Dedup.step] at hs
        split at hs
        · split at hs
          · simp only [Option.some.injEq, Dedup.Sys.setCaller] at hs; subst hs
            rcases get_set_or hc with ⟨rfl, rfl⟩ | hc
            · exact ⟨fun y hy => by simp only [Option.some.injEq] at hy; subst hy; exact hQ _ _ (List.mem_cons_self ..), fun res hr => by simp at hr⟩
            · exact hi c x hc
          · cases hs
        · cases hs
      | finish j =>
        simp only [Dedup.step] at hs
        split at hs
        · rename_i x0 hx0
          split at hs
          · rename_i k r _ _ hans
            simp only [Option.some.injEq] at hs; subst hs
            rcases get_set_or hc with ⟨rfl, rfl⟩ | hc
            · refine ⟨(hi _ x0 hx0).1, fun res hr => ?_⟩
              simp only [Dedup.Phase.returned.injEq] at hr
              exact ⟨r, hr.symm, (hi _ x0 hx0).1 r hans⟩
            · exact hi c x hc
          · cases hs
        · cases hs
      | wake j =>
        simp only [Dedup.step] at hs
        split at hs
        · rename_i x0 hx0
          split at hs
          · rename_i l _
            split at hs
            · rename_i r hans
              simp only [Option.some.injEq, Dedup.Sys.setCaller] at hs; subst hs
              rcases get_set_or hc with ⟨rfl, rfl⟩ | hc
              · refine ⟨(hi _ x0 hx0).1, fun res hr => ?_⟩
                simp only [Dedup.Phase.returned.injEq] at hr
                obtain ⟨y, hy, hya⟩ := Option.bind_eq_some_iff.mp hans
                exact ⟨r, hr.symm, (hi _ y hy).1 r hya⟩
              · exact hi c x hc
            · cases hs
          · cases hs
        · cases hs

theorem restore_hold {q : Msg} {r : Res} (h : Holds codes P r) : Holds codes P (Dedup.restore q r) := by
  unfold Dedup.restore
  split
  · rename_i a ha
    intro he b hb
    cases hb
    exact hold_from (h he a ha) ⟨rfl, fun r hr => hr, fun r hr => hr⟩
  · exact h

theorem aged_from {k : Nat} {q m a : Msg} (h : Spec.Cache.AgedCopy k q m a) :
    a.rcode = m.rcode ∧ (∀ r, r ∈ a.answer → ∃ r0, r0 ∈ m.answer ∧ Spec.Cache.Lowered k r0 r) ∧ ∀ r, r ∈ a.ns ++ a.extra → ∃ r0, r0 ∈ m.ns ++ m.extra ∧ Spec.Cache.Lowered k r0 r := by
  have go : ∀ (l l' : List RR), Spec.Cache.Pointwise (Spec.Cache.Lowered k) l l' → ∀ r, r ∈ l' → ∃ r0, r0 ∈ l ∧ Spec.Cache.Lowered k r0 r := by
    intro l
    induction l with
    | nil =>
      intro l' h r hr
      cases l' with
      | nil => simp at hr
      | cons => exact h.elim
    | cons x l ih =>
      intro l' h r hr
      cases l' with
      | nil => exact h.elim
      | cons y l' =>
        rcases List.mem_cons.mp hr with rfl | hr
        · exact ⟨x, by simp, h.1⟩
        · obtain ⟨r0, h0, h1⟩ := ih l' h.2 r hr
          exact ⟨r0, List.mem_cons_of_mem _ h0, h1⟩
  refine ⟨?_, fun r hr => go _ _ h.answer r hr, fun r hr => ?_⟩
  · rw [← h.header]
  · simp only [List.mem_append] at hr ⊢
    rcases hr with hr | hr
    · obtain ⟨r0, h0, h1⟩ := go _ _ h.ns r hr
      exact ⟨r0, .inl h0, h1⟩
    · obtain ⟨r0, h0, h1⟩ := go _ _ h.extra r hr
      exact ⟨r0, .inr h0, h1⟩

theorem aged_all {k : Nat} {q m a : Msg} (h : Spec.Cache.AgedCopy k q m a) : a.rcode = m.rcode ∧ ∀ r, r ∈ a.records → ∃ r0, r0 ∈ m.records ∧ Spec.Cache.Lowered k r0 r := by
  obtain ⟨h1, h2, h3⟩ := aged_from h
  refine ⟨h1, fun r hr => ?_⟩
  simp only [Msg.records, List.append_assoc] at hr ⊢
  rcases List.mem_append.mp hr with hr | hr
  · obtain ⟨r0, g1, g2⟩ := h2 r hr
    exact ⟨r0, List.mem_append_left _ g1, g2⟩
  · obtain ⟨r0, g1, g2⟩ := h3 r hr
    exact ⟨r0, List.mem_append_right _ g1, g2⟩

theorem cache_hold {H : Type} [DecidableEq H] {env : CacheM.Env H} {o : CacheM.Opts} {cap : Int} {hist : List Cache.Ev} {c : CacheM.State H} {q : Msg}
    {up : Res} {clock : Nat → Int} {ts : Int} {x : Res} (h1 : ∀ e ∈ hist, Cache.OkEv env.ipStr e) (h2 : Cache.runEv env o (Lru.new cap) hist = some c)
    (h3 : Cache.WellFormed env.ipStr q) (hneg : o.negativeTTL ≤ 4294967295) (hip : ∀ a, env.ipStr a ≠ [])
    (hsh : ∀ f, o.shuffle = some f → ∀ m, HoldsMsg codes P m → HoldsMsg codes P (f m))
    (hst : ∀ q' m ts' w m' a, .store q' m ts' ∈ hist → env.encode m = some w → env.decode w = some m' → Spec.Cache.AgedCopy (Spec.Cache.wholeSeconds ts' (clock 0)) q m' a → HoldsMsg codes P a)
    (hup : ∀ x, CacheM.resolve env o c q up clock ts = some x → x.asked = true → Holds codes P up)
    (hx : (CacheM.resolve env o c q up clock ts).map (·.res) = some x) : Holds codes P x := by
  obtain ⟨out, hout, rfl⟩ := Option.map_eq_some_iff.mp hx
  obtain ⟨qu, qs, hqq⟩ := List.exists_cons_of_ne_nil h3.question
  have hqu : q.question.head? = some qu := by rw [hqq]; rfl
  rcases Cache.cache_resolve_sound env hip o hneg cap hist h1 c h2 q qu hqu up clock ts out hout with ⟨ha, hr⟩ | ⟨-, -, a, hr, hk⟩
  · have hf := hup out hout ha
    rcases hr with hr | ⟨hr1, hr2⟩
    · rw [hr]; exact hf
    · rw [hr2]; exact hold_none rfl
  · rw [hr]
    refine hold_ok ?_
    rcases hk with ⟨-, -, rfl⟩ | ⟨a0, hj, rfl⟩ | ⟨-, rfl, -⟩
    · exact hold_empty rfl rfl rfl
    · have h0 : HoldsMsg codes P a0 := by
        obtain ⟨q0, m, t, m', ex, pf, b, aft, hh, -, -, -, -, ⟨w, hw1, hw2⟩, hc⟩ := hj
        exact hst q0 m t w m' a0 (by rw [hh]; simp) hw1 hw2 hc
      split
      · rename_i f hf
        exact hsh f hf a0 h0
      · exact h0
    · exact hold_empty rfl rfl rfl

end Verif.Props.Records
