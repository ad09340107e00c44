import Verif.Spec.DialSock
import Verif.Props.Dialing
set_option linter.unusedVariables false
set_option linter.unusedSimpArgs false
/-
C125: the sockets towards servers are made in the configured namespace, with the configured options.
-/
namespace Verif.Props.DialSock
open Verif Verif.DialSock Verif.Spec.DialSock
open Verif.Dialing (NetLib Locals)
open Verif.ListenSock (Place buildNetNS active)
open Verif.Validate (splitHostPort joinHostPort)
open Verif.Props.Dialing (Contract)

variable {lib : NetLib}

/-- A socket made there with these options -/
private def At (p : Place) (o : Xsocket.SocketOptions) (u : Use) : Prop := u.fd = ⟨p, o.mark, o.device⟩

private theorem apply_fd {e : Env lib} {o : Xsocket.SocketOptions} {p : Place} {fd : Fd} (h : applyToFd e o { place := p } = some fd) :
    fd = ⟨p, o.mark, o.device⟩ := by
  unfold applyToFd at h
  by_cases h1 : o.mark > 0 <;> by_cases h2 : o.device = [] <;> simp [h1, h2] at h <;> grind

private theorem control_fd {e : Env lib} {o : Xsocket.SocketOptions} {p : Place} {fd : Fd} (h : DialSock.control e o { place := p } = some fd) :
    fd = ⟨p, o.mark, o.device⟩ := by
  unfold DialSock.control at h
  split at h
  · exact apply_fd h
  · next ha =>
    obtain rfl := Option.some.inj h
    have : o.mark = 0 ∧ o.device = [] := by simpa [active] using ha
    rw [this.1, this.2]

private theorem attempt_at {e : Env lib} {th : Place} {o : Xsocket.SocketOptions} {b : Option lib.IP} {to : Str} {ip : lib.IP} {u : Use}
    (h : u ∈ (attempt e th o b to ip).1) : At th o u ∧ (u.to = none ∨ u.to = some to) := by
  unfold attempt at h
  split at h
  · split at h
    · exact absurd h (by simp)
    · next fd hfd =>
      have := control_fd hfd
      unfold At
      cases b with
      | none => simp at h; subst h; exact ⟨this, Or.inr rfl⟩
      | some b =>
        simp only [] at h
        split at h
        · simp at h
          rcases h with rfl | rfl
          · exact ⟨this, Or.inl rfl⟩
          · exact ⟨this, Or.inr rfl⟩
        · simp at h; subst h; exact ⟨this, Or.inl rfl⟩
  · exact absurd h (by simp)

private theorem serial_at {e : Env lib} {th : Place} {o : Xsocket.SocketOptions} {b : Option lib.IP} {to : Str} {ips : List lib.IP} {u : Use}
    (h : u ∈ (serial e th o b to ips).1) : At th o u ∧ (u.to = none ∨ u.to = some to) := by
  induction ips with
  | nil => exact absurd h (by simp [serial])
  | cons ip ips ih =>
    simp only [serial] at h
    split at h
    · exact attempt_at h
    · simp at h
      rcases h with h | h
      · exact attempt_at h
      · exact ih h

private theorem other_family {ips : List lib.IP} (h : (families ips).2 ≠ []) : (∃ a ∈ ips, lib.is4 a = true) ∧ (∃ b ∈ ips, lib.is4 b = false) := by
  cases ips with
  | nil => exact absurd rfl h
  | cons ip ips =>
    simp only [families] at h
    obtain ⟨x, hx⟩ := List.exists_mem_of_ne_nil _ h
    obtain ⟨hm, hd⟩ := List.mem_filter.mp hx
    cases h1 : lib.is4 ip <;> cases h2 : lib.is4 x <;> simp [h1, h2] at hd
    · exact ⟨⟨x, hm, h2⟩, ⟨ip, List.mem_cons_self, h1⟩⟩
    · exact ⟨⟨ip, List.mem_cons_self, h1⟩, ⟨x, hm, h2⟩⟩

private theorem addrs_both {e : Env lib} {b : Option lib.IP} {a : Str} (h : (families (addrs e b a)).2 ≠ []) :
    ∃ host port, splitHostPort a = some (host, port) ∧ lib.parseIP host = none ∧ BothFamilies lib.is4 e.look host := by
  obtain ⟨⟨x, hx, hx4⟩, ⟨y, hy, hy4⟩⟩ := other_family h
  unfold addrs at hx hy
  cases hs : splitHostPort a with
  | none => rw [hs] at hx; exact absurd hx (by simp)
  | some hp =>
    obtain ⟨host, port⟩ := hp
    rw [hs] at hx hy
    simp only [] at hx hy
    have sub : ∀ z, (z ∈ (match b with
        | none => (match lib.parseIP host with | some ip => [ip] | none => (e.look host).getD [])
        | some b => if e.unspecified b then (match lib.parseIP host with | some ip => [ip] | none => (e.look host).getD [])
          else (match lib.parseIP host with | some ip => [ip] | none => (e.look host).getD []).filter fun ip => lib.is4 ip == lib.is4 b)) →
        z ∈ (match lib.parseIP host with | some ip => [ip] | none => (e.look host).getD []) := by
      intro z hz
      cases b with
      | none => exact hz
      | some b =>
        simp only [] at hz
        split at hz
        · exact hz
        · exact (List.mem_filter.mp hz).1
    have hx := sub x hx
    have hy := sub y hy
    refine ⟨host, port, rfl, ?_⟩
    cases hp : lib.parseIP host with
    | some ip =>
      rw [hp] at hx hy
      simp at hx hy
      subst hx; subst hy
      rw [hx4] at hy4; exact absurd hy4 (by simp)
    | none =>
      rw [hp] at hx hy
      refine ⟨rfl, ?_⟩
      cases hl : e.look host with
      | none => rw [hl] at hx; simp at hx
      | some ips =>
        rw [hl] at hx hy
        exact ⟨ips, hl, ⟨x, hx, hx4⟩, ⟨y, hy, hy4⟩⟩

/-- The library itself looks up a name with addresses of both families -/
private def Mixed (e : Env lib) (a : Str) : Prop := ∃ host port, splitHostPort a = some (host, port) ∧ lib.parseIP host = none ∧ BothFamilies lib.is4 e.look host

private theorem go_at {e : Env lib} {th : Place} {o : Xsocket.SocketOptions} {net : Str} {b : Option lib.IP} {a : Str} {u : Use}
    (h : u ∈ (goDial e th o net b a).1) : (At th o u ∨ (At .here o u ∧ net = str "tcp" ∧ Mixed e a)) ∧ (u.to = none ∨ u.to = some a) := by
  unfold goDial at h
  simp only [] at h
  split at h
  · next hc =>
    have hm : Mixed e a := addrs_both hc.2
    split at h
    · simp at h
      rcases h with h | h
      · exact ⟨Or.inr ⟨(serial_at h).1, hc.1, hm⟩, (serial_at h).2⟩
      · exact ⟨Or.inr ⟨(serial_at h).1, hc.1, hm⟩, (serial_at h).2⟩
    · exact ⟨Or.inr ⟨(serial_at h).1, hc.1, hm⟩, (serial_at h).2⟩
  · exact ⟨Or.inl (serial_at h).1, (serial_at h).2⟩

private theorem one_at {e : Env lib} {th : Place} {b : Option lib.IP} {a : Str} {u : Use} (h : u ∈ (dialOne e th b a).1) :
    At th {} u ∧ (u.to = none ∨ u.to = some a) := by
  unfold dialOne at h
  split at h
  · exact absurd h (by simp)
  · exact attempt_at h

private theorem x_at {e : Env lib} {path : Str} {o : Xsocket.SocketOptions} {net : Str} {b : Option lib.IP} {a : Str} {u : Use}
    (h : u ∈ (dialX e path o net b a).1) : At (.server path) o u ∧ (u.to = none ∨ u.to = some a) := by
  unfold dialX at h
  split at h
  · exact absurd h (by simp)
  · split at h
    · exact absurd h (by simp)
    · split at h
      · split at h
        · exact absurd h (by simp)
        · next fd hfd =>
          have := apply_fd hfd
          unfold At
          cases b with
          | none => simp at h; subst h; exact ⟨this, Or.inr rfl⟩
          | some b =>
            simp only [] at h
            split at h
            · simp at h; subst h; exact ⟨this, Or.inr rfl⟩
            · split at h
              · simp at h
                rcases h with rfl | rfl
                · exact ⟨this, Or.inl rfl⟩
                · exact ⟨this, Or.inr rfl⟩
              · simp at h; subst h; exact ⟨this, Or.inl rfl⟩
      · exact absurd h (by simp)

private theorem run_at {e : Env lib} {p : Place} {f : Place → List Use × Bool} {u : Use} (h : u ∈ (runIn e p f).1) :
    (∀ path, p ≠ .server path) ∧ u ∈ (f p).1 := by
  unfold runIn at h
  cases p with
  | server _ => exact absurd h (by simp)
  | here => exact ⟨fun _ => by simp, h⟩
  | named n =>
    simp only [] at h
    split at h
    · exact ⟨fun _ => by simp, h⟩
    · exact absurd h (by simp)

private theorem listen_at {e : Env lib} {p : Place} {o : Xsocket.SocketOptions} {ip : lib.IP} {u : Use} (h : u ∈ (listenUDP e p o ip).1) :
    At p o u ∧ u.to = none := by
  unfold listenUDP at h
  split at h
  · split at h
    · split at h
      · exact absurd h (by simp)
      · next fd hfd => simp at h; subst h; exact ⟨apply_fd hfd, rfl⟩
    · exact absurd h (by simp)
  · obtain ⟨-, h⟩ := run_at h
    split at h
    · split at h
      · exact absurd h (by simp)
      · next fd hfd => simp at h; subst h; exact ⟨control_fd hfd, rfl⟩
    · exact absurd h (by simp)

private theorem hook_at {e : Env lib} {p th : Place} {o : Xsocket.SocketOptions} {net : Str} {b : Option lib.IP} {a : Str} {u : Use}
    (hth : th = p ∨ ∃ path, p = .server path) (h : u ∈ (hook e p th o net b a).1) :
    (At p o u ∨ (At .here o u ∧ (∀ path, p ≠ .server path) ∧ net = str "tcp" ∧ Mixed e a ∧ active o = true)) ∧ (u.to = none ∨ u.to = some a) := by
  unfold hook at h
  split at h
  · exact ⟨Or.inl (x_at h).1, (x_at h).2⟩
  · next hn =>
    have hn : ∀ path, p ≠ .server path := fun path hp => hn path hp
    obtain rfl : th = p := by
      rcases hth with h | ⟨path, h⟩
      · exact h
      · exact absurd h (hn path)
    split at h
    · next ha =>
      rcases go_at h with ⟨h1 | ⟨h1, h2, h3⟩, h4⟩
      · exact ⟨Or.inl h1, h4⟩
      · exact ⟨Or.inr ⟨h1, hn, h2, h3, ha⟩, h4⟩
    · next ha =>
      have : o.mark = 0 ∧ o.device = [] := by simpa [active] using ha
      obtain ⟨h1, h2⟩ := one_at h
      exact ⟨Or.inl (by unfold At at *; rw [h1, this.1, this.2]), h2⟩

private theorem socks_at {e : Env lib} {s : Sec lib} {p th : Place} {net : Str} {u : Use} (hth : th = p ∨ ∃ path, p = .server path)
    (h : u ∈ (socksDial e s p th net).1) :
    (At p s.opts u ∨ (At .here s.opts u ∧ (∀ path, p ≠ .server path) ∧ Mixed e s.socks5 ∧ active s.opts = true)) ∧
      (u.to = none ∨ u.to = some s.socks5 ∨ (net = str "udp" ∧ u.to = e.relay)) := by
  unfold socksDial at h
  simp only [] at h
  have tcp : u ∈ (hook e p th s.opts (str "tcp") (Dialing.selectLocalAddr lib e.kept s.locals) s.socks5).1 →
      (At p s.opts u ∨ (At .here s.opts u ∧ (∀ path, p ≠ .server path) ∧ Mixed e s.socks5 ∧ active s.opts = true)) ∧
      (u.to = none ∨ u.to = some s.socks5 ∨ (net = str "udp" ∧ u.to = e.relay)) := by
    intro h
    obtain ⟨h1 | ⟨h1, h2, -, h3, h4⟩, h5⟩ := hook_at hth h
    · exact ⟨Or.inl h1, h5.elim Or.inl (fun h => Or.inr (Or.inl h))⟩
    · exact ⟨Or.inr ⟨h1, h2, h3, h4⟩, h5.elim Or.inl (fun h => Or.inr (Or.inl h))⟩
  split at h
  · next hc =>
    split at h
    · exact tcp h
    · next a ha =>
      simp at h
      rcases h with h | h
      · exact tcp h
      · obtain ⟨h1 | ⟨h1, h2, h6, h3, h4⟩, h5⟩ := hook_at hth h
        · refine ⟨Or.inl h1, ?_⟩
          rcases h5 with h5 | h5
          · exact Or.inl h5
          · exact Or.inr (Or.inr ⟨hc.1, by rw [h5, ha]⟩)
        · exact absurd h6 (by decide)
  · exact tcp h

private theorem rejoin {a h p : Str} (hs : splitHostPort a = some (h, p)) (h' : Str) (hb : (91 : UInt8) ∉ h' ∧ (93 : UInt8) ∉ h') :
    splitHostPort (joinHostPort h' p) = some (h', p) := by
  obtain ⟨h1, h2, -⟩ := (Validate.split_host_port a h p).mp hs
  apply Validate.join_split _ _ h1
  rintro c (rfl | rfl)
  · exact ⟨hb.1, (h2 91 (Or.inl rfl)).2⟩
  · exact ⟨hb.2, (h2 93 (Or.inr rfl)).2⟩

/-- After the look-up an address remains a name only if that look-up gave nothing. -/
private theorem resolve_mixed (hc : Contract lib) {e : Env lib} {a : Str} (h : Mixed e (Dialing.resolveEndpointAddr { lib with lookup := e.first } a)) :
    ∃ host port, splitHostPort a = some (host, port) ∧ lib.parseIP host = none ∧ BothFamilies lib.is4 e.look host ∧
      (e.first host = none ∨ e.first host = some []) := by
  obtain ⟨host, port, hs, hp, hb⟩ := h
  unfold Dialing.resolveEndpointAddr at hs
  cases ha : splitHostPort a with
  | none => simp only [ha] at hs; exact absurd hs (by simp)
  | some hp' =>
    obtain ⟨h0, p0⟩ := hp'
    simp only [ha] at hs
    by_cases hi : (lib.parseIP h0).isSome
    · simp only [hi, if_true] at hs
      rw [ha] at hs
      obtain ⟨rfl, rfl⟩ := Prod.mk.inj (Option.some.inj hs)
      rw [hp] at hi; simp at hi
    · simp only [hi, Bool.false_eq_true, if_false] at hs
      cases hl : e.first h0 with
      | none =>
        simp only [hl] at hs
        rw [ha] at hs
        obtain ⟨rfl, rfl⟩ := Prod.mk.inj (Option.some.inj hs)
        exact ⟨h0, p0, rfl, hp, hb, Or.inl hl⟩
      | some ips => cases ips with
        | nil =>
          simp only [hl] at hs
          rw [ha] at hs
          obtain ⟨rfl, rfl⟩ := Prod.mk.inj (Option.some.inj hs)
          exact ⟨h0, p0, rfl, hp, hb, Or.inr hl⟩
        | cons ip more =>
          simp only [hl] at hs
          rw [rejoin ha _ (hc.text_plain ip)] at hs
          obtain ⟨rfl, rfl⟩ := Prod.mk.inj (Option.some.inj hs)
          obtain ⟨ip', h1, -⟩ := hc.text_parse ip
          rw [h1] at hp; exact absurd hp (by simp)

/-- The condition of the finding, for an address that is reached directly. -/
private def Late (e : Env lib) (a : Str) : Prop := ∃ host port, splitHostPort a = some (host, port) ∧ lib.parseIP host = none ∧ BothFamilies lib.is4 e.look host ∧
      (e.first host = none ∨ e.first host = some [])

private theorem generic_at (hc : Contract lib) {e : Env lib} {s : Sec lib} {p : Place} {net a : Str} {u : Use} (h : u ∈ (genericDial e s p net a).1) :
    At p s.opts u ∨ (At .here s.opts u ∧ (∀ path, p ≠ .server path) ∧
      ((s.socks5 ≠ [] ∧ Mixed e s.socks5 ∧ active s.opts = true) ∨ (s.socks5 = [] ∧ net = str "tcp" ∧ Late e a))) := by
  unfold genericDial at h
  split at h
  · next hs =>
    have key : ∀ {th}, (th = p ∨ ∃ path, p = .server path) → u ∈ (socksDial e s p th net).1 → _ := fun {th} hth h => (socks_at hth h).1
    have fin : (At p s.opts u ∨ (At .here s.opts u ∧ (∀ path, p ≠ .server path) ∧ Mixed e s.socks5 ∧ active s.opts = true)) → At p s.opts u ∨ (At .here s.opts u ∧ (∀ path, p ≠ .server path) ∧
      ((s.socks5 ≠ [] ∧ Mixed e s.socks5 ∧ active s.opts = true) ∨ (s.socks5 = [] ∧ net = str "tcp" ∧ Late e a))) := by
      rintro (h | ⟨h1, h2, h3, h4⟩)
      · exact Or.inl h
      · exact Or.inr ⟨h1, h2, Or.inl ⟨hs, h3, h4⟩⟩
    cases p with
    | here => exact fin (key (Or.inl rfl) h)
    | server path => exact fin (key (Or.inr ⟨path, rfl⟩) h)
    | named n => exact fin (key (Or.inl rfl) (run_at h).2)
  · next hs =>
    have hs : s.socks5 = [] := by simpa using hs
    simp only [] at h
    cases p with
    | here =>
      rcases (go_at h).1 with h1 | ⟨h1, -, -⟩
      · exact Or.inl h1
      · exact Or.inl h1
    | server path => exact Or.inl (x_at h).1
    | named n =>
      rcases (go_at (run_at h).2).1 with h1 | ⟨h1, h2, h3⟩
      · exact Or.inl h1
      · exact Or.inr ⟨h1, fun _ => by simp, Or.inr ⟨hs, h2, resolve_mixed hc h3⟩⟩

private theorem doh_at (hc : Contract lib) {e : Env lib} {s : Sec lib} {p : Place} {a : Str} {u : Use} (h : u ∈ (dohTcp e s p a).1) :
    At p s.opts u ∨ (At .here s.opts u ∧ (∀ path, p ≠ .server path) ∧
      ((s.socks5 ≠ [] ∧ Mixed e s.socks5 ∧ active s.opts = true) ∨ (s.socks5 = [] ∧ ∃ a', Dialing.dohTarget s.bootstrap a = some a' ∧ Late e a'))) := by
  unfold dohTcp at h
  split at h
  · split at h
    · exact absurd h (by simp)
    · next a' ha' =>
      split at h
      · next hs =>
        have fin : (At p s.opts u ∨ (At .here s.opts u ∧ (∀ path, p ≠ .server path) ∧ Mixed e s.socks5 ∧ active s.opts = true)) → At p s.opts u ∨ (At .here s.opts u ∧ (∀ path, p ≠ .server path) ∧
          ((s.socks5 ≠ [] ∧ Mixed e s.socks5 ∧ active s.opts = true) ∨ (s.socks5 = [] ∧ ∃ a', Dialing.dohTarget s.bootstrap a = some a' ∧ Late e a'))) := by
          rintro (h | ⟨h1, h2, h3, h4⟩)
          · exact Or.inl h
          · exact Or.inr ⟨h1, h2, Or.inl ⟨hs, h3, h4⟩⟩
        cases p with
        | here => exact fin (socks_at (Or.inl rfl) (run_at h).2).1
        | server path => exact fin (socks_at (Or.inr ⟨path, rfl⟩) h).1
        | named n => exact fin (socks_at (Or.inl rfl) (run_at h).2).1
      · next hs =>
        have hs : s.socks5 = [] := by simpa using hs
        simp only [] at h
        cases p with
        | here =>
          rcases (go_at (run_at h).2).1 with h1 | ⟨h1, -, -⟩
          · exact Or.inl h1
          · exact Or.inl h1
        | server path => exact Or.inl (x_at h).1
        | named n =>
          rcases (go_at (run_at h).2).1 with h1 | ⟨h1, h2, h3⟩
          · exact Or.inl h1
          · exact Or.inr ⟨h1, fun _ => by simp, Or.inr ⟨hs, a', ha', resolve_mixed hc h3⟩⟩
  · next hn =>
    have hp : p = .here := by
      cases p with
      | here => rfl
      | server _ => exact absurd (by simp [Place.isSet]) hn
      | named _ => exact absurd (by simp [Place.isSet]) hn
    have ha : ¬ active s.opts = true := fun h => hn (by simp [h])
    have : s.opts.mark = 0 ∧ s.opts.device = [] := by simpa [active] using ha
    subst hp
    have : At .here {} u := by
      rcases (go_at h).1 with h1 | ⟨h1, -, -⟩
      · exact h1
      · exact h1
    exact Or.inl (by unfold At at *; simp_all)

private theorem quic_at {e : Env lib} {s : Sec lib} {p : Place} {u : Use} (h : u ∈ quicStart e s p) : At p s.opts u ∧ u.to = none := by
  unfold quicStart at h
  split at h
  · simp only [] at h
    split at h
    · simp at h
      rcases h with h | h
      · exact listen_at h
      · exact listen_at h
    · exact listen_at h
  · exact listen_at h

private theorem place_asked {s : Sec lib} {p : Place} (h : buildNetNS s.netns s.xsocket = some p) : p = placeAsked s := by
  unfold buildNetNS at h
  unfold placeAsked
  by_cases h1 : s.netns = [] <;> by_cases h2 : s.xsocket = [] <;> simp [h1, h2] at h ⊢ <;> exact h.symm

private theorem active_iff {o : Xsocket.SocketOptions} : active o = true ↔ (o.mark > 0 ∨ o.device ≠ []) := by simp [active]

/-- **C125.** Every socket a resolver opens towards its server or its SOCKS5 proxy carries the configured mark and is bound to the configured interface before it is used, and was
made in the configured namespace, with one exception: connections over TCP when the library itself looks up a name and gets addresses of
both families. -/
theorem as_configured (hc : Contract lib) (s : Sec lib) (start : Env lib) (ds : List (Dial lib)) (u : Use) (h : u ∈ opens s start ds) :
    OptionsSet s u ∧ (u.fd.place = placeAsked s ∨ (s.netns ≠ [] ∧ u.fd.place = .here ∧ ∃ d ∈ ds, Raced s d)) := by
  have done : ∀ {p}, buildNetNS s.netns s.xsocket = some p → At p s.opts u →
      OptionsSet s u ∧ (u.fd.place = placeAsked s ∨ (s.netns ≠ [] ∧ u.fd.place = .here ∧ ∃ d ∈ ds, Raced s d)) := by
    intro p hp h
    unfold At at h
    exact ⟨⟨by rw [h], by rw [h]⟩, Or.inl (by rw [h]; exact place_asked hp)⟩
  have away : ∀ {p d}, buildNetNS s.netns s.xsocket = some p → (∀ path, p ≠ .server path) → At .here s.opts u → d ∈ ds → Raced s d →
      OptionsSet s u ∧ (u.fd.place = placeAsked s ∨ (s.netns ≠ [] ∧ u.fd.place = .here ∧ ∃ d ∈ ds, Raced s d)) := by
    intro p d hp hn h hd hr
    by_cases hns : s.netns = []
    · have : p = .here := by
        have hpa := place_asked hp
        unfold placeAsked at hpa
        rw [if_neg (by simp [hns])] at hpa
        split at hpa
        · exact absurd hpa (hn _)
        · exact hpa
      subst this
      exact done hp h
    · unfold At at h
      exact ⟨⟨by rw [h], by rw [h]⟩, Or.inr ⟨hns, by rw [h], d, hd, hr⟩⟩
  have prox : ∀ {d : Dial lib}, CanProxy s → s.socks5 ≠ [] → Mixed d.env s.socks5 → active s.opts = true → Raced s d := by
    rintro d hcp hs ⟨host, port, h1, h2, h3⟩ ha
    exact ⟨_, host, port, .proxy hcp hs, h1, h2, h3, Or.inl ⟨⟨hcp, hs⟩, active_iff.mp ha⟩⟩
  have direct : ∀ {d : Dial lib} {a : Str}, (s.socks5 = [] ∨ ¬ CanProxy s) → Reaches s d a → Late d.env a → Raced s d := by
    rintro d a hs hr ⟨host, port, h1, h2, h3, h4⟩
    exact ⟨a, host, port, hr, h1, h2, h3, Or.inr ⟨fun hx => hs.elim hx.2 (fun h => h hx.1), h4⟩⟩
  unfold opens at h
  split at h
  · exact absurd h (by simp)
  · next p hp =>
    split at h
    · exact done hp (quic_at h).1
    · split at h
      · next hpr =>
        split at h
        · exact absurd h (by simp)
        · next a ha =>
          obtain ⟨d, hd, hu⟩ := List.mem_flatMap.mp h
          rcases generic_at hc hu with h1 | ⟨h1, h2, ⟨h3, h4, h5⟩ | ⟨h3, h4, h5⟩⟩
          · exact done hp h1
          · exact away hp h2 h1 hd (prox (Or.inr (Or.inr (Or.inl hpr))) h3 h4 h5)
          · refine away hp h2 h1 hd (direct (Or.inl h3) ?_ h5)
            unfold dotAddress at ha
            split at ha
            · next hb =>
              cases hsp : splitHostPort s.address with
              | none => rw [hsp] at ha; exact absurd ha (by simp)
              | some hp0 =>
                rw [hsp] at ha
                obtain rfl := Option.some.inj ha
                exact .dotBoot hp0.1 hp0.2 hpr h3 hb hsp
            · next hb =>
              obtain rfl := Option.some.inj ha
              exact .dot hpr h3 (by simpa using hb)
      · split at h
        · obtain ⟨d, hd, hu⟩ := List.mem_flatMap.mp h
          exact done hp (listen_at hu).1
        · split at h
          · next hpr =>
            split at h
            · next htr =>
              obtain ⟨d, hd, hu⟩ := List.mem_flatMap.mp h
              rcases doh_at hc hu with h1 | ⟨h1, h2, ⟨h3, h4, h5⟩ | ⟨h3, a, h4, h5⟩⟩
              · exact done hp h1
              · exact away hp h2 h1 hd (prox (Or.inr (Or.inr (Or.inr ⟨hpr, htr⟩))) h3 h4 h5)
              · refine away hp h2 h1 hd (direct (Or.inl h3) ?_ h5)
                unfold Dialing.dohTarget at h4
                split at h4
                · next hb =>
                  cases hsp : splitHostPort d.addr with
                  | none => rw [hsp] at h4; exact absurd h4 (by simp)
                  | some hp0 =>
                    rw [hsp] at h4
                    obtain rfl := Option.some.inj h4
                    exact .dohBoot hp0.1 hp0.2 (Or.inl ⟨hpr, h3⟩) hb hsp
                · next hb =>
                  obtain rfl := Option.some.inj h4
                  exact .doh (Or.inl ⟨hpr, h3⟩) (by simpa using hb)
            · split at h
              · exact done hp (quic_at h).1
              · exact absurd h (by simp)
          · split at h
            · next hpr =>
              split at h
              · next htr =>
                obtain ⟨d, hd, hu⟩ := List.mem_flatMap.mp h
                have hnp : ¬ CanProxy s := by
                  rintro (h | h | h | ⟨h, -⟩) <;> exact absurd (h.symm.trans hpr) (by decide)
                rcases doh_at hc hu with h1 | ⟨h1, h2, ⟨h3, h4, h5⟩ | ⟨h3, a, h4, h5⟩⟩
                · exact done hp h1
                · exact absurd rfl h3
                · refine away hp h2 h1 hd (direct (Or.inr hnp) ?_ h5)
                  unfold Dialing.dohTarget at h4
                  split at h4
                  · next hb =>
                    cases hsp : splitHostPort d.addr with
                    | none => rw [hsp] at h4; exact absurd h4 (by simp)
                    | some hp0 =>
                      rw [hsp] at h4
                      obtain rfl := Option.some.inj h4
                      exact .dohBoot hp0.1 hp0.2 (Or.inr hpr) hb hsp
                  · next hb =>
                    obtain rfl := Option.some.inj h4
                    exact .doh (Or.inr hpr) (by simpa using hb)
              · split at h
                · exact done hp (quic_at h).1
                · exact absurd h (by simp)
            · split at h
              · next hpr =>
                obtain ⟨d, hd, hu⟩ := List.mem_flatMap.mp h
                have hcp : CanProxy s := hpr.elim Or.inl (fun h => Or.inr (Or.inl h))
                rcases generic_at hc hu with h1 | ⟨h1, h2, ⟨h3, h4, h5⟩ | ⟨h3, h4, h5⟩⟩
                · exact done hp h1
                · exact away hp h2 h1 hd (prox hcp h3 h4 h5)
                · exact away hp h2 h1 hd (direct (Or.inl h3) (.tcp h4 h3) h5)
              · exact absurd h (by simp)

/-- A section outside named namespaces has no exception. -/
theorem as_configured_unnamed (hc : Contract lib) (s : Sec lib) (hn : s.netns = []) (start : Env lib) (ds : List (Dial lib)) (u : Use) (h : u ∈ opens s start ds) :
    OptionsSet s u ∧ u.fd.place = placeAsked s := by
  obtain ⟨h1, h2 | ⟨h2, -⟩⟩ := as_configured hc s start ds u h
  · exact ⟨h1, h2⟩
  · exact absurd hn h2

/-- **C125.** Without the look-up of a name during dials, all sockets are as configured: the server is given by an address or a bootstrap address, or its name is found by the
first look-up; the proxy, if there is one, by an address. -/
theorem as_configured_address (hc : Contract lib) (s : Sec lib) (start : Env lib) (ds : List (Dial lib))
    (hd : ∀ d ∈ ds, ∀ a host port, Reaches s d a → splitHostPort a = some (host, port) →
      lib.parseIP host ≠ none ∨ (¬ (CanProxy s ∧ s.socks5 ≠ []) ∧ ∃ ip ips, d.env.first host = some (ip :: ips)))
    (u : Use) (h : u ∈ opens s start ds) : OptionsSet s u ∧ u.fd.place = placeAsked s := by
  obtain ⟨h1, h2 | ⟨-, -, d, hm, a, host, port, hr, hs, hp, hb, hf⟩⟩ := as_configured hc s start ds u h
  · exact ⟨h1, h2⟩
  · rcases hd d hm a host port hr hs with h3 | ⟨h3, ip, ips, h4⟩
    · exact absurd hp h3
    · rcases hf with ⟨hx, -⟩ | ⟨-, hx | hx⟩
      · exact absurd hx h3
      · rw [h4] at hx; exact absurd hx (by simp)
      · rw [h4] at hx; exact absurd hx (by simp)

private theorem both_split {ips : List lib.IP} (h1 : ∃ a ∈ ips, lib.is4 a = true) (h2 : ∃ b ∈ ips, lib.is4 b = false) : (families ips).2 ≠ [] := by
  cases ips with
  | nil => obtain ⟨a, ha, -⟩ := h1; exact absurd ha (by simp)
  | cons ip ips =>
    obtain ⟨a, ha, ha4⟩ := h1
    obtain ⟨b, hb, hb4⟩ := h2
    simp only [families]
    intro hx
    cases hi : lib.is4 ip with
    | true =>
      have : b ∈ (ip :: ips).filter fun x => !(lib.is4 x == lib.is4 ip) := List.mem_filter.mpr ⟨hb, by simp [hb4, hi]⟩
      rw [hx] at this; exact absurd this (by simp)
    | false =>
      have : a ∈ (ip :: ips).filter fun x => !(lib.is4 x == lib.is4 ip) := List.mem_filter.mpr ⟨ha, by simp [ha4, hi]⟩
      rw [hx] at this; exact absurd this (by simp)

private theorem go_home {e : Env lib} {th : Place} {o : Xsocket.SocketOptions} {a : Str} {u : Use} (hm : Mixed e a)
    (h : u ∈ (goDial e th o (str "tcp") none a).1) : u.fd.place = .here := by
  obtain ⟨host, port, hs, hp, ips, hl, h1, h2⟩ := hm
  have hi : addrs e none a = ips := by simp [addrs, hs, hp, hl]
  unfold goDial at h
  rw [if_pos ⟨rfl, by rw [hi]; exact both_split h1 h2⟩] at h
  have key : ∀ l, u ∈ (serial e .here o none a l).1 → u.fd.place = .here := fun l h => by rw [(serial_at h).1]
  simp only [] at h
  split at h
  · simp at h
    rcases h with h | h
    · exact key _ h
    · exact key _ h
  · exact key _ h

private theorem resolve_same {e : Env lib} {a : Str} (h : Late e a) : Dialing.resolveEndpointAddr { lib with lookup := e.first } a = a ∧ Mixed e a := by
  obtain ⟨host, port, hs, hp, hb, hf⟩ := h
  refine ⟨?_, host, port, hs, hp, hb⟩
  unfold Dialing.resolveEndpointAddr
  rcases hf with hf | hf <;> simp [hs, hp, hf]

private theorem no_local (a : Str) {l : Locals lib} (h : l = ⟨none, none, none⟩) : Dialing.selectLocalAddr lib a l = none := by
  subst h
  unfold Dialing.selectLocalAddr
  split
  · rfl
  · split
    · rfl
    · simp [Dialing.localFor]

private theorem socks_home {e : Env lib} {s : Sec lib} {p th : Place} {u : Use} (hp : ∀ path, p ≠ .server path) (hl : s.locals = ⟨none, none, none⟩)
    (ha : active s.opts = true) (hm : Mixed e s.socks5) (h : u ∈ (socksDial e s p th (str "tcp")).1) : u.fd.place = .here := by
  unfold socksDial at h
  simp only [] at h
  rw [if_neg (fun hx => absurd hx.1 (by decide)), no_local _ hl] at h
  unfold hook at h
  split at h
  · exact absurd rfl (hp _)
  · rw [if_pos ha] at h
    exact go_home hm h

/-- **C125, finding.** With a named namespace, a dial over TCP in which the library itself gets addresses of both families opens all of its sockets in the
namespace the program was started in, not in the configured one. -/
theorem raced_from_home (s : Sec lib) (hn : s.netns ≠ []) (ht : OverTCP s) (hl : s.locals = ⟨none, none, none⟩) (start : Env lib) (d : Dial lib)
    (hr : Raced s d) (u : Use) (h : u ∈ opens s start [d]) : u.fd.place = .here := by
  obtain ⟨a, host, port, hre, hs, hp, hb, hf⟩ := hr
  unfold opens at h
  split at h
  · exact absurd h (by simp)
  · next p hpb =>
    have hnp : p = .named s.netns := by rw [place_asked hpb]; unfold placeAsked; rw [if_pos hn]
    subst hnp
    have gen : ∀ (a0 : Str), (s.socks5 ≠ [] → CanProxy s) → (s.socks5 = [] → a = a0) → u ∈ (genericDial d.env s (.named s.netns) (str "tcp") a0).1 → u.fd.place = .here := by
      intro a0 hcp heq h
      unfold genericDial at h
      split at h
      · next hs5 =>
        rcases hf with ⟨⟨hcp, -⟩, ho⟩ | ⟨hx, -⟩
        · have hm : Mixed d.env s.socks5 := by
            cases hre with
            | proxy => exact ⟨host, port, hs, hp, hb⟩
            | tcp _ h5 => exact absurd h5 hs5
            | dot _ h5 => exact absurd h5 hs5
            | dotBoot _ _ _ h5 => exact absurd h5 hs5
            | doh h5 => rcases h5 with ⟨-, h5⟩ | h5
                        · exact absurd h5 hs5
                        · rcases hcp with h | h | h | ⟨h, -⟩ <;> exact absurd (h.symm.trans h5) (by decide)
            | dohBoot _ _ h5 => rcases h5 with ⟨-, h5⟩ | h5
                                · exact absurd h5 hs5
                                · rcases hcp with h | h | h | ⟨h, -⟩ <;> exact absurd (h.symm.trans h5) (by decide)
          exact socks_home (fun _ => by simp) hl (active_iff.mpr ho) hm (run_at h).2
        · exact absurd ⟨hcp hs5, hs5⟩ hx
      · next hs5 =>
        have hs5 : s.socks5 = [] := by simpa using hs5
        obtain rfl := heq hs5
        rcases hf with ⟨⟨-, hx⟩, -⟩ | ⟨-, hf⟩
        · exact absurd hs5 hx
        · obtain ⟨h1, h2⟩ := resolve_same (e := d.env) (a := a) ⟨host, port, hs, hp, hb, hf⟩
          simp only [h1, no_local _ hl] at h
          exact go_home h2 (run_at h).2
    have doh : ∀ (s' : Sec lib) (a0 : Str), s'.locals = s.locals → s'.opts = s.opts → (s'.socks5 ≠ [] → s' = s ∧ CanProxy s) →
        (s'.socks5 = [] → Dialing.dohTarget s'.bootstrap a0 = some a ∧ ¬ (CanProxy s ∧ s.socks5 ≠ [])) →
        u ∈ (dohTcp d.env s' (.named s.netns) a0).1 → u.fd.place = .here := by
      intro s' a0 hl' ho' hpx hdir h
      unfold dohTcp at h
      rw [if_pos (by simp [Place.isSet])] at h
      split at h
      · exact absurd h (by simp)
      · next a' ha' =>
        split at h
        · next hs5 =>
          obtain ⟨rfl, hcp⟩ := hpx hs5
          rcases hf with ⟨-, ho⟩ | ⟨hx, -⟩
          · have hm : Mixed d.env s'.socks5 := by
              cases hre with
              | proxy => exact ⟨host, port, hs, hp, hb⟩
              | tcp _ h5 => exact absurd h5 hs5
              | dot _ h5 => exact absurd h5 hs5
              | dotBoot _ _ _ h5 => exact absurd h5 hs5
              | doh h5 => rcases h5 with ⟨-, h5⟩ | h5
                          · exact absurd h5 hs5
                          · rcases hcp with h | h | h | ⟨h, -⟩ <;> exact absurd (h.symm.trans h5) (by decide)
              | dohBoot _ _ h5 => rcases h5 with ⟨-, h5⟩ | h5
                                  · exact absurd h5 hs5
                                  · rcases hcp with h | h | h | ⟨h, -⟩ <;> exact absurd (h.symm.trans h5) (by decide)
            exact socks_home (fun _ => by simp) hl (active_iff.mpr ho) hm (run_at h).2
          · exact absurd ⟨hcp, hs5⟩ hx
        · next hs5 =>
          have hs5 : s'.socks5 = [] := by simpa using hs5
          obtain ⟨hd, hnp⟩ := hdir hs5
          obtain rfl := Option.some.inj (ha'.symm.trans hd)
          rcases hf with ⟨hx, -⟩ | ⟨-, hf⟩
          · exact absurd hx hnp
          · obtain ⟨h1, h2⟩ := resolve_same (e := d.env) (a := a') ⟨host, port, hs, hp, hb, hf⟩
            simp only [h1, no_local _ (hl'.trans hl)] at h
            exact go_home h2 (run_at h).2
    simp only [List.flatMap_cons, List.flatMap_nil, List.append_nil] at h
    rcases ht with ht | ht | ⟨ht, htr⟩
    · rw [if_neg (by rw [ht]; decide), if_neg (by rw [ht]; decide), if_neg (by rw [ht]; decide), if_neg (by rw [ht]; decide), if_neg (by rw [ht]; decide),
        if_pos (Or.inl ht), ht] at h
      refine gen s.address (fun _ => Or.inl ht) (fun h5 => ?_) h
      cases hre with
      | proxy _ h6 => exact absurd h5 h6
      | tcp => rfl
      | dot h6 => exact absurd (h6.symm.trans ht) (by decide)
      | dotBoot _ _ h6 => exact absurd (h6.symm.trans ht) (by decide)
      | doh h6 => rcases h6 with ⟨h6, -⟩ | h6 <;> exact absurd (h6.symm.trans ht) (by decide)
      | dohBoot _ _ h6 => rcases h6 with ⟨h6, -⟩ | h6 <;> exact absurd (h6.symm.trans ht) (by decide)
    · rw [if_neg (by rw [ht]; decide), if_pos ht] at h
      split at h
      · exact absurd h (by simp)
      · next a0 ha0 =>
        refine gen a0 (fun _ => Or.inr (Or.inr (Or.inl ht))) (fun h5 => ?_) h
        unfold dotAddress at ha0
        cases hre with
        | proxy _ h6 => exact absurd h5 h6
        | tcp h6 => exact absurd (h6.symm.trans ht) (by decide)
        | dot _ _ h6 => simpa [h6] using ha0
        | dotBoot _ _ _ _ h6 h7 => simpa [h6, h7] using ha0
        | doh h6 => rcases h6 with ⟨h6, -⟩ | h6 <;> exact absurd (h6.symm.trans ht) (by decide)
        | dohBoot _ _ h6 => rcases h6 with ⟨h6, -⟩ | h6 <;> exact absurd (h6.symm.trans ht) (by decide)
    · have htr : s.transport = str "tcp" ∨ s.transport = [] := htr
      rcases ht with ht | ht
      · rw [if_neg (by rw [ht]; decide), if_neg (by rw [ht]; decide), if_neg (by rw [ht]; decide), if_pos ht, if_pos htr] at h
        refine doh s d.addr rfl rfl (fun _ => ⟨rfl, Or.inr (Or.inr (Or.inr ⟨ht, htr⟩))⟩) (fun h5 => ⟨?_, fun hx => hx.2 h5⟩) h
        unfold Dialing.dohTarget
        cases hre with
        | proxy _ h6 => exact absurd h5 h6
        | tcp h6 => exact absurd (h6.symm.trans ht) (by decide)
        | dot h6 => exact absurd (h6.symm.trans ht) (by decide)
        | dotBoot _ _ h6 => exact absurd (h6.symm.trans ht) (by decide)
        | doh _ h6 => simp [h6]
        | dohBoot _ _ _ h6 h7 => simp [h6, h7]
      · rw [if_neg (by rw [ht]; decide), if_neg (by rw [ht]; decide), if_neg (by rw [ht]; decide), if_neg (by rw [ht]; decide), if_pos ht, if_pos htr] at h
        have hnc : ¬ CanProxy s := by rintro (h | h | h | ⟨h, -⟩) <;> exact absurd (h.symm.trans ht) (by decide)
        refine doh { s with socks5 := [] } d.addr rfl rfl (fun h5 => absurd rfl h5) (fun h5 => ⟨?_, fun hx => hnc hx.1⟩) h
        unfold Dialing.dohTarget
        cases hre with
        | proxy h6 => exact absurd h6 hnc
        | tcp h6 => exact absurd (h6.symm.trans ht) (by decide)
        | dot h6 => exact absurd (h6.symm.trans ht) (by decide)
        | dotBoot _ _ h6 => exact absurd (h6.symm.trans ht) (by decide)
        | doh _ h6 => simp [h6]
        | dohBoot _ _ _ h6 h7 => simp [h6, h7]

/-- **C125.** With a SOCKS5 proxy, the kinds of resolvers that support one connect to nothing but the proxy, and for UDP to where the proxy takes datagrams. -/
theorem proxied_only (s : Sec lib) (hcp : CanProxy s) (h5 : s.socks5 ≠ []) (start : Env lib) (ds : List (Dial lib)) (u : Use) (h : u ∈ opens s start ds) :
    u.to = none ∨ u.to = some s.socks5 ∨ (s.protocol = str "udp" ∧ ∃ d ∈ ds, u.to = d.env.relay) := by
  unfold opens at h
  split at h
  · exact absurd h (by simp)
  · next p hp =>
    have gen : ∀ (net a : Str) (d : Dial lib), u ∈ (genericDial d.env s p net a).1 → u.to = none ∨ u.to = some s.socks5 ∨ (net = str "udp" ∧ u.to = d.env.relay) := by
      intro net a d h
      unfold genericDial at h
      rw [if_pos h5] at h
      cases p with
      | here => exact (socks_at (Or.inl rfl) h).2
      | server path => exact (socks_at (Or.inr ⟨path, rfl⟩) h).2
      | named n => exact (socks_at (Or.inl rfl) (run_at h).2).2
    have doh : ∀ d : Dial lib, u ∈ (dohTcp d.env s p d.addr).1 → u.to = none ∨ u.to = some s.socks5 ∨ (str "tcp" = str "udp" ∧ u.to = d.env.relay) := by
      intro d h
      unfold dohTcp at h
      rw [if_pos (by simp [h5])] at h
      split at h
      · exact absurd h (by simp)
      · rw [if_pos h5] at h
        cases p with
        | here => exact (socks_at (Or.inl rfl) (run_at h).2).2
        | server path => exact (socks_at (Or.inr ⟨path, rfl⟩) h).2
        | named n => exact (socks_at (Or.inl rfl) (run_at h).2).2
    have tcpOnly : ∀ d : Dial lib, (u.to = none ∨ u.to = some s.socks5 ∨ (str "tcp" = str "udp" ∧ u.to = d.env.relay)) →
        u.to = none ∨ u.to = some s.socks5 ∨ (s.protocol = str "udp" ∧ ∃ d ∈ ds, u.to = d.env.relay) := by
      rintro d (h | h | ⟨h, -⟩)
      · exact Or.inl h
      · exact Or.inr (Or.inl h)
      · exact absurd h (by decide)
    rcases hcp with ht | ht | ht | ⟨ht, htr⟩
    · rw [if_neg (by rw [ht]; decide), if_neg (by rw [ht]; decide), if_neg (by rw [ht]; decide), if_neg (by rw [ht]; decide), if_neg (by rw [ht]; decide),
        if_pos (Or.inl ht)] at h
      obtain ⟨d, hd, hu⟩ := List.mem_flatMap.mp h
      rcases gen _ _ d hu with h | h | ⟨h, -⟩
      · exact Or.inl h
      · exact Or.inr (Or.inl h)
      · exact absurd (ht.symm.trans h) (by decide)
    · rw [if_neg (by rw [ht]; decide), if_neg (by rw [ht]; decide), if_neg (by rw [ht]; decide), if_neg (by rw [ht]; decide), if_neg (by rw [ht]; decide),
        if_pos (Or.inr ht)] at h
      obtain ⟨d, hd, hu⟩ := List.mem_flatMap.mp h
      rcases gen _ _ d hu with h | h | ⟨h, h'⟩
      · exact Or.inl h
      · exact Or.inr (Or.inl h)
      · exact Or.inr (Or.inr ⟨h, d, hd, h'⟩)
    · rw [if_neg (by rw [ht]; decide), if_pos ht] at h
      split at h
      · exact absurd h (by simp)
      · obtain ⟨d, hd, hu⟩ := List.mem_flatMap.mp h
        exact tcpOnly d (gen _ _ d hu)
    · have htr : s.transport = str "tcp" ∨ s.transport = [] := htr
      rw [if_neg (by rw [ht]; decide), if_neg (by rw [ht]; decide), if_neg (by rw [ht]; decide), if_pos ht, if_pos htr] at h
      obtain ⟨d, hd, hu⟩ := List.mem_flatMap.mp h
      exact tcpOnly d (doh d hu)

/-- **C125, finding.** For the other kinds (DoQ, DTLS, ODoH, and DoH over QUIC) the proxy is ignored without an error: the sockets are those of the section
without it. -/
theorem proxy_ignored (s : Sec lib) (hcp : ¬ CanProxy s) (start : Env lib) (ds : List (Dial lib)) : opens s start ds = opens { s with socks5 := [] } start ds := by
  unfold opens
  simp only []
  split
  · rfl
  · next p hp =>
    by_cases h1 : s.protocol = str "doq"
    · rw [if_pos h1, if_pos h1]; rfl
    · rw [if_neg h1, if_neg h1]
      by_cases h2 : s.protocol = str "dot"
      · exact absurd (Or.inr (Or.inr (Or.inl h2))) hcp
      · rw [if_neg h2, if_neg h2]
        by_cases h3 : s.protocol = str "dtls"
        · rw [if_pos h3, if_pos h3]; rfl
        · rw [if_neg h3, if_neg h3]
          by_cases h4 : s.protocol = str "doh"
          · rw [if_pos h4, if_pos h4]
            by_cases h5 : s.transport = str "tcp" ∨ s.transport = []
            · exact absurd (Or.inr (Or.inr (Or.inr ⟨h4, h5⟩))) hcp
            · rw [if_neg h5, if_neg h5]; rfl
          · rw [if_neg h4, if_neg h4]
            by_cases h5 : s.protocol = str "odoh"
            · rw [if_pos h5, if_pos h5]; rfl
            · rw [if_neg h5, if_neg h5]
              by_cases h6 : s.protocol = str "tcp" ∨ s.protocol = str "udp"
              · exact absurd (h6.elim Or.inl (fun h => Or.inr (Or.inl h))) hcp
              · rw [if_neg h6, if_neg h6]

/-- An option is configured and cannot be set. -/
private def NoOption (e : Env lib) (o : Xsocket.SocketOptions) : Prop := (o.mark > 0 ∧ ∀ fd, e.setMark fd = false) ∨ (o.device ≠ [] ∧ ∀ fd, e.setDevice fd = false)

private theorem no_apply {e : Env lib} {o : Xsocket.SocketOptions} (h : NoOption e o) (fd : Fd) : applyToFd e o fd = none ∧ active o = true := by
  unfold applyToFd
  rcases h with ⟨h1, h2⟩ | ⟨h1, h2⟩
  · simp [h1, h2, active]
  · refine ⟨?_, by simp [h1, active]⟩
    simp only [h1, h2]
    split
    · rfl
    · simp [h1]

private theorem no_attempt {e : Env lib} {o : Xsocket.SocketOptions} (h : NoOption e o) (th : Place) (b : Option lib.IP) (to : Str) (ip : lib.IP) :
    attempt e th o b to ip = ([], false) := by
  unfold attempt DialSock.control
  simp only [(no_apply h _).1, (no_apply h ⟨th, 0, []⟩).2, if_true]
  split <;> rfl

private theorem no_serial {e : Env lib} {o : Xsocket.SocketOptions} (h : NoOption e o) (th : Place) (b : Option lib.IP) (to : Str) (ips : List lib.IP) :
    serial e th o b to ips = ([], false) := by
  induction ips with
  | nil => rfl
  | cons ip ips ih => simp [serial, no_attempt h, ih]

private theorem no_go {e : Env lib} {o : Xsocket.SocketOptions} (h : NoOption e o) (th : Place) (net : Str) (b : Option lib.IP) (a : Str) :
    goDial e th o net b a = ([], false) := by
  unfold goDial
  simp only [no_serial h]
  split
  · split <;> rfl
  · rfl

private theorem no_x {e : Env lib} {o : Xsocket.SocketOptions} {path : Str} (h : NoOption e o ∨ e.handsOut path = false) (net : Str) (b : Option lib.IP) (a : Str) :
    dialX e path o net b a = ([], false) := by
  unfold dialX
  split
  · rfl
  · split
    · rfl
    · rcases h with h | h
      · simp only [(no_apply h _).1]
        split <;> rfl
      · simp [h]

/-- What the section asks for cannot be had: sockets in `p` with these options. -/
private def Shut (e : Env lib) (p : Place) (o : Xsocket.SocketOptions) : Prop :=
  (∃ n, p = .named n ∧ e.enter n = false) ∨ (∃ path, p = .server path ∧ e.handsOut path = false) ∨ NoOption e o

private theorem no_run {e : Env lib} {p : Place} {f : Place → List Use × Bool} (h : ∀ th, f th = ([], false)) : runIn e p f = ([], false) := by
  unfold runIn
  split
  · rfl
  · exact h _
  · split
    · exact h _
    · rfl

private theorem no_listen {e : Env lib} {p : Place} {o : Xsocket.SocketOptions} (h : Shut e p o) (ip : lib.IP) : listenUDP e p o ip = ([], false) := by
  unfold listenUDP
  rcases h with ⟨n, rfl, hn⟩ | ⟨path, rfl, hn⟩ | h
  · simp [runIn, hn]
  · simp [hn]
  · split
    · simp only [(no_apply h _).1]
      split <;> rfl
    · unfold DialSock.control
      simp only [(no_apply h _).1, (no_apply h ⟨.here, 0, []⟩).2, if_true]
      refine no_run fun th => ?_
      split <;> rfl

private theorem no_hook {e : Env lib} {p th : Place} {o : Xsocket.SocketOptions} (h : (∃ path, p = .server path ∧ e.handsOut path = false) ∨ NoOption e o)
    (net : Str) (b : Option lib.IP) (a : Str) : hook e p th o net b a = ([], false) := by
  unfold hook
  rcases h with ⟨path, rfl, hn⟩ | h
  · exact no_x (Or.inr hn) _ _ _
  · split
    · exact no_x (Or.inl h) _ _ _
    · rw [if_pos (no_apply h ⟨.here, 0, []⟩).2, no_go h]

private theorem no_socks {e : Env lib} {s : Sec lib} {p th : Place} (h : (∃ path, p = .server path ∧ e.handsOut path = false) ∨ NoOption e s.opts)
    (net : Str) : socksDial e s p th net = ([], false) := by
  unfold socksDial
  simp [no_hook h]

private theorem no_generic {e : Env lib} {s : Sec lib} {p : Place} (h : Shut e p s.opts) (net a : Str) : genericDial e s p net a = ([], false) := by
  unfold genericDial
  rcases h with ⟨n, rfl, hn⟩ | ⟨path, rfl, hn⟩ | h
  · simp [runIn, hn]
  · simp [no_socks (Or.inl ⟨path, rfl, hn⟩), no_x (Or.inr hn)]
  · simp only [no_socks (Or.inr h), no_x (Or.inl h), no_go h]
    split
    · split
      · rfl
      · rfl
      · exact no_run fun _ => rfl
    · split
      · rfl
      · rfl
      · exact no_run fun _ => rfl

private theorem no_doh {e : Env lib} {s : Sec lib} {p : Place} (h : Shut e p s.opts) (a : Str) : dohTcp e s p a = ([], false) := by
  unfold dohTcp
  have hcond : p.isSet = true ∨ active s.opts = true := by
    rcases h with ⟨n, rfl, hn⟩ | ⟨path, rfl, hn⟩ | h
    · exact Or.inl rfl
    · exact Or.inl rfl
    · exact Or.inr (no_apply h ⟨.here, 0, []⟩).2
  rw [if_pos (by rcases hcond with h | h <;> simp [h])]
  split
  · rfl
  · rcases h with ⟨n, rfl, hn⟩ | ⟨path, rfl, hn⟩ | h
    · simp [runIn, hn]
    · simp [no_socks (Or.inl ⟨path, rfl, hn⟩), no_x (Or.inr hn)]
    · simp only [no_socks (Or.inr h), no_x (Or.inl h), no_go h]
      split
      · split
        · rfl
        · exact no_run fun _ => rfl
      · split
        · rfl
        · exact no_run fun _ => rfl

private theorem no_quic {e : Env lib} {s : Sec lib} {p : Place} (h : Shut e p s.opts) : quicStart e s p = [] := by
  unfold quicStart
  split <;> simp [no_listen h]

/-- **C125.** If what the section asks for is refused, nothing is sent without it: no socket is used. -/
theorem refused_opens_nothing (s : Sec lib) (start : Env lib) (ds : List (Dial lib)) (h0 : Refuses s start) (hd : ∀ d ∈ ds, Refuses s d.env) :
    opens s start ds = [] := by
  unfold opens
  split
  · rfl
  · next p hp =>
    have shut : ∀ e : Env lib, Refuses s e → Shut e p s.opts := by
      intro e h
      have hpa := place_asked hp
      rcases h with ⟨h1, h2⟩ | ⟨h1, h2⟩ | h | h
      · exact Or.inl ⟨s.netns, by rw [hpa]; unfold placeAsked; rw [if_pos h1], h2⟩
      · refine Or.inr (Or.inl ⟨s.xsocket, ?_, h2⟩)
        have : s.netns = [] := by
          unfold buildNetNS at hp
          by_cases hn : s.netns = []
          · exact hn
          · rw [if_pos ⟨hn, h1⟩] at hp; exact absurd hp (by simp)
        rw [hpa]; unfold placeAsked; rw [if_neg (by simp [this]), if_pos h1]
      · exact Or.inr (Or.inr (Or.inl h))
      · exact Or.inr (Or.inr (Or.inr h))
    have all : ∀ f : Dial lib → List Use, (∀ d, Shut d.env p s.opts → f d = []) → ds.flatMap f = [] := by
      intro f hf
      rw [List.flatMap_eq_nil_iff]
      exact fun d hm => hf d (shut _ (hd d hm))
    have hq := no_quic (shut _ h0)
    split
    · exact hq
    · split
      · split
        · rfl
        · exact all _ fun d h => by rw [no_generic h]
      · split
        · exact all _ fun d h => by unfold dtlsDial; rw [no_listen h]
        · split
          · split
            · exact all _ fun d h => by rw [no_doh h]
            · split
              · exact hq
              · rfl
          · split
            · split
              · exact all _ fun d h => by rw [no_doh (s := { s with socks5 := [] }) h]
              · split
                · exact hq
                · rfl
            · split
              · exact all _ fun d h => by rw [no_generic h]
              · rfl

/-- **C125.** On other systems than Linux, a section with a namespace, a socket server or socket options opens no sockets at all. -/
theorem other_systems (s : Sec lib) (start : Env lib) (ds : List (Dial lib)) (h0 : OtherSystem start) (hd : ∀ d ∈ ds, OtherSystem d.env)
    (hs : s.netns ≠ [] ∨ s.xsocket ≠ [] ∨ s.opts.mark > 0 ∨ s.opts.device ≠ []) : opens s start ds = [] := by
  have key : ∀ e : Env lib, OtherSystem e → Refuses s e := by
    intro e h
    rcases hs with hs | hs | hs | hs
    · exact .inl ⟨hs, h.enter _⟩
    · exact .inr (.inl ⟨hs, h.handsOut _⟩)
    · exact .inr (.inr (.inl ⟨hs, h.setMark⟩))
    · exact .inr (.inr (.inr ⟨hs, h.setDevice⟩))
  exact refused_opens_nothing s start ds (key _ h0) fun d h => key _ (hd d h)

/-! ### Examples -/

open _root_.Verif.Props.Dialing (toy toy_contract)

/-- An environment in which everything works; "dual" stands for an address of each family, but only at the second look-up. -/
abbrev fine : Env toy where
  enter _ := true
  handsOut _ := true
  socket _ := true
  setMark _ := true
  setDevice _ := true
  canBind _ _ := true
  connects _ _ := true
  first s := if s = str "a" then some [(1 : Fin 10)] else none
  look s := if s = str "a" then some [(1 : Fin 10)] else if s = str "dual" then some [(1 : Fin 10), (2 : Fin 10)] else none
  pick ips := ips.head?
  unspecified _ := false
  second := true
  relay := some (str "10.0.0.1:9")
  kept := str "a:853"

/-- DoT in a namespace with a mark: one socket, as configured. -/
abbrev office : Sec toy := { protocol := str "dot", address := str "a:853", netns := str "vpn", opts := { mark := 11, device := str "eth2" } }

example : opens office fine [⟨fine, [], none⟩] = [⟨⟨.named (str "vpn"), 11, str "eth2"⟩, some (str "10.0.0.1:853")⟩] := by decide
example : ∀ u ∈ opens office fine [⟨fine, [], none⟩], OptionsSet office u ∧ u.fd.place = placeAsked office := by
  apply as_configured_address toy_contract
  intro d hd a host port hr hs
  simp at hd
  subst hd
  right
  refine ⟨fun h => absurd rfl h.2, ?_⟩
  cases hr with
  | proxy _ h => exact absurd rfl h
  | tcp h => exact absurd h (by decide)
  | dot =>
    have : (host, port) = (str "a", str "853") := Option.some.inj (hs.symm.trans (by decide))
    obtain ⟨rfl, rfl⟩ := Prod.mk.inj this
    exact ⟨(1 : Fin 10), [], by decide⟩
  | dotBoot _ _ _ _ h => exact absurd rfl h
  | doh h => rcases h with ⟨h, -⟩ | h <;> exact absurd h (by decide)
  | dohBoot _ _ h => rcases h with ⟨h, -⟩ | h <;> exact absurd h (by decide)

/-- The finding: a proxy given by a name with addresses of both families, a mark, and a namespace. -/
abbrev leaky : Sec toy := { protocol := str "dot", address := str "a:853", netns := str "vpn", opts := { mark := 11 }, socks5 := str "dual:1080" }

example : opens leaky fine [⟨fine, [], none⟩] = [⟨⟨.here, 11, []⟩, some (str "dual:1080")⟩, ⟨⟨.here, 11, []⟩, some (str "dual:1080")⟩] := by decide
example : Raced leaky ⟨fine, [], none⟩ := by
  refine ⟨str "dual:1080", str "dual", str "1080", .proxy (Or.inr (Or.inr (Or.inl rfl))) (by decide), by decide, by decide, ?_, Or.inl ⟨⟨Or.inr (Or.inr (Or.inl rfl)), by decide⟩, Or.inl (by decide)⟩⟩
  exact ⟨[(1 : Fin 10), (2 : Fin 10)], by decide, ⟨(1 : Fin 10), by decide, by decide⟩, ⟨(2 : Fin 10), by decide, by decide⟩⟩
example : opens { leaky with netns := [], xsocket := str "/x" } fine [⟨fine, [], none⟩] = [⟨⟨.server (str "/x"), 11, []⟩, some (str "dual:1080")⟩] := by decide
example : opens { leaky with protocol := str "udp", socks5 := str "a:1080" } fine [⟨fine, [], none⟩] =
    [⟨⟨.named (str "vpn"), 11, []⟩, some (str "a:1080")⟩, ⟨⟨.named (str "vpn"), 11, []⟩, some (str "10.0.0.1:9")⟩] := by decide
example : opens { leaky with protocol := str "doq" } fine [] = [⟨⟨.named (str "vpn"), 11, []⟩, none⟩] := by decide
example : ¬ CanProxy { leaky with protocol := str "doq" } := by
  rintro (h | h | h | ⟨h, -⟩) <;> exact absurd h (by decide)
example : opens office fine [⟨{ fine with setMark := fun _ => false }, [], none⟩] = [] := by decide
example : Refuses office { fine with setMark := fun _ => false } := Or.inr (Or.inr (Or.inl ⟨by decide, fun _ => rfl⟩))
example : opens office { fine with enter := fun _ => false, handsOut := fun _ => false, setMark := fun _ => false, setDevice := fun _ => false }
    [⟨{ fine with enter := fun _ => false, handsOut := fun _ => false, setMark := fun _ => false, setDevice := fun _ => false }, [], none⟩] = [] :=
  other_systems _ _ _ ⟨fun _ => rfl, fun _ => rfl, fun _ => rfl, fun _ => rfl⟩ (by intro d h; cases List.mem_singleton.1 h; exact ⟨fun _ => rfl, fun _ => rfl, fun _ => rfl, fun _ => rfl⟩) (by decide)

end Verif.Props.DialSock
