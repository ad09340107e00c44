import Verif.Model.Dialing
import Verif.Spec.Dialing
import Verif.Props.Validate
set_option linter.unusedVariables false
set_option linter.unusedSimpArgs false
/-
C71: the name a server's certificate is checked for. C72: where connections go and from which local address. C73: TLS options.
-/
namespace Verif.Props.Dialing
open Verif Verif.Dialing Verif.Spec.Dialing
open Verif.Validate (splitHostPort joinHostPort)

/-- What is assumed of Go's `net`: the text of an address is read back as an address of the same family, and has no brackets. -/
structure Contract (lib : NetLib) : Prop where
  text_parse : ∀ ip, ∃ ip', lib.parseIP (lib.text ip) = some ip' ∧ lib.is4 ip' = lib.is4 ip
  text_plain : ∀ ip, (91 : UInt8) ∉ lib.text ip ∧ (93 : UInt8) ∉ lib.text ip

variable {lib : NetLib}

private theorem rejoin {a h p : Str} (hs : splitHostPort a = some (h, p)) (h' : Str) (hb : (91 : UInt8) ∉ h' ∧ (93 : UInt8) ∉ h') :
    splitHostPort (joinHostPort h' p) = some (h', p) := by
  obtain ⟨h1, h2, -⟩ := (Validate.split_host_port a h p).mp hs
  apply Validate.join_split _ _ h1
  rintro c (rfl | rfl)
  · exact ⟨hb.1, (h2 91 (Or.inl rfl)).2⟩
  · exact ⟨hb.2, (h2 93 (Or.inr rfl)).2⟩

private theorem local_source (l : Locals lib) (ip : lib.IP) : localFor lib l ip = Source l.any l.v4 l.v6 (lib.is4 ip) := by
  unfold localFor Source
  cases lib.is4 ip <;> cases l.v4 <;> cases l.v6 <;> simp

private theorem select_source {a h p : Str} (hs : splitHostPort a = some (h, p)) (l : Locals lib) :
    (∀ ip, lib.parseIP h = some ip → selectLocalAddr lib a l = Source l.any l.v4 l.v6 (lib.is4 ip)) ∧
    (lib.parseIP h = none → selectLocalAddr lib a l = l.any) := by
  unfold selectLocalAddr
  rw [hs]
  refine ⟨fun ip hp => ?_, fun hp => ?_⟩
  · simp only [hp]; exact local_source l ip
  · simp only [hp]

private theorem resolve_reached (hc : Contract lib) {a h p : Str} (hs : splitHostPort a = some (h, p)) :
    ∃ h', splitHostPort (resolveEndpointAddr lib a) = some (h', p) ∧ Reached lib.parseIP lib.text lib.lookup h h' := by
  unfold resolveEndpointAddr
  rw [hs]
  simp only []
  cases hp : lib.parseIP h with
  | some ip => exact ⟨h, by simpa using hs, .literal ip hp⟩
  | none =>
    simp only [Option.isSome_none, Bool.false_eq_true, if_false]
    cases hl : lib.lookup h with
    | none => exact ⟨h, hs, .unknown hp (Or.inl hl)⟩
    | some ips => cases ips with
      | nil => exact ⟨h, hs, .unknown hp (Or.inr hl)⟩
      | cons ip more => exact ⟨lib.text ip, rejoin hs _ (hc.text_plain ip), .found ip more hp hl⟩

/-- A direct connection `c` to `host` at `port`: it goes to what `host` stands for, from the local address for that. -/
def Direct (lib : NetLib) (host port : Str) (l : Locals lib) (c : Conn lib) : Prop :=
  c.viaProxy = false ∧ ∃ h, splitHostPort c.to = some (h, port) ∧ Reached lib.parseIP lib.text lib.lookup host h ∧
    (∀ ip, lib.parseIP h = some ip → c.bind = Source l.any l.v4 l.v6 (lib.is4 ip)) ∧ (lib.parseIP h = none → c.bind = l.any)

private theorem generic_direct (hc : Contract lib) (tls : Bool) (name : Str) (l : Locals lib) {a h p : Str}
    (hs : splitHostPort a = some (h, p)) :
    ∃ c h', genericDial lib tls name false l a = some c ∧ Direct lib h p l c ∧ splitHostPort c.to = some (h', p) ∧
      Reached lib.parseIP lib.text lib.lookup h h' ∧ c.name = if tls then some (if name = [] then h' else name) else none := by
  obtain ⟨h', h1, h2⟩ := resolve_reached hc hs
  obtain ⟨s1, s2⟩ := select_source h1 l
  cases tls with
  | true => exact ⟨_, h', by simp [genericDial, h1]; rfl, ⟨rfl, h', h1, h2, s1, s2⟩, h1, h2, by simp⟩
  | false => exact ⟨_, h', by simp [genericDial]; rfl, ⟨rfl, h', h1, h2, s1, s2⟩, h1, h2, by simp⟩

/-- **C72.** Plain DNS (UDP and TCP) without a proxy. -/
theorem plain_dials (hc : Contract lib) (u : Upstream lib) (host port : Str) (ha : splitHostPort u.address = some (host, port))
    (hp : u.proxy = false) : ∃ c, plainDial lib u = some c ∧ Direct lib host port u.locals c ∧ c.name = none := by
  obtain ⟨c, h', h1, h2, -, -, h5⟩ := generic_direct hc false [] u.locals ha
  exact ⟨c, by rw [plainDial, hp]; exact h1, h2, by simpa using h5⟩

/-- **C72.** Plain DNS through a proxy: the proxy is asked for the host as configured; the connection itself is bound to nothing, that to the proxy is `socks_dials`. -/
theorem plain_dials_proxy (u : Upstream lib) (hp : u.proxy = true) : ∃ c, plainDial lib u = some c ∧ c.viaProxy = true ∧ c.bind = none ∧ c.to = u.address ∧ c.name = none := by
  simp [plainDial, genericDial, hp]

/-- The host a connection is made to: the bootstrap address if there is one, else the host in the server's address. -/
def contact (bootstrap host : Str) : Str := if bootstrap = [] then host else bootstrap

/-- **C72, C71.** DNS over TLS without a proxy, exactly: with a bootstrap address the certificate is checked for the host in the
server's address (also if another server name is configured), else for the configured server name, else for the *address connected to*. -/
theorem dot_dials (hc : Contract lib) (u : Upstream lib) (host port : Str) (ha : splitHostPort u.address = some (host, port))
    (hp : u.proxy = false) (hh : host ≠ []) (hb : (91 : UInt8) ∉ u.bootstrap ∧ (93 : UInt8) ∉ u.bootstrap) :
    ∃ c h, dotDial lib u = some c ∧ Direct lib (contact u.bootstrap host) port u.locals c ∧ splitHostPort c.to = some (h, port) ∧
      c.name = some (if u.bootstrap ≠ [] then host else if u.serverName ≠ [] then u.serverName else h) := by
  unfold dotDial contact
  by_cases h0 : u.bootstrap = []
  · obtain ⟨c, h', h1, h2, h3, -, h5⟩ := generic_direct hc true u.serverName u.locals ha
    refine ⟨c, h', by simpa [h0, hp] using h1, by rw [if_pos h0]; exact h2, h3, ?_⟩
    rw [h5]
    by_cases hn : u.serverName = [] <;> simp [h0, hn]
  · obtain ⟨c, h', h1, h2, h3, -, h5⟩ := generic_direct hc true host u.locals (rejoin ha u.bootstrap hb)
    refine ⟨c, h', by simp only [ne_eq, h0, not_false_eq_true, if_true, ha, hp]; exact h1, by rw [if_neg h0]; exact h2, h3, ?_⟩
    rw [h5]
    simp [h0, hh]

/-- **C71.** DNS over TLS through a proxy: the proxy is asked for the host (or the bootstrap address), nothing is looked up, and the
certificate is checked for the expected name; with a bootstrap address for the host whatever server name is configured. -/
theorem dot_dials_proxy (u : Upstream lib) (host port : Str) (ha : splitHostPort u.address = some (host, port)) (hp : u.proxy = true)
    (hh : host ≠ []) (hb : (91 : UInt8) ∉ u.bootstrap ∧ (93 : UInt8) ∉ u.bootstrap) :
    ∃ c, dotDial lib u = some c ∧ c.viaProxy = true ∧ c.bind = none ∧ splitHostPort c.to = some (contact u.bootstrap host, port) ∧
      c.name = some (if u.bootstrap ≠ [] then host else Expected u.serverName host) := by
  unfold dotDial contact Expected
  by_cases h0 : u.bootstrap = []
  · simp [h0, hp, genericDial, ha]
  · simp [h0, hp, genericDial, ha, rejoin ha u.bootstrap hb, hh]

/-- **C71.** The certificate of a DNS-over-TLS server is checked for the expected name if a server name or a bootstrap address is
configured but not both, or a proxy, or the server is given by its address. -/
theorem dot_identity (hc : Contract lib) (u : Upstream lib) (host port : Str) (ha : splitHostPort u.address = some (host, port))
    (hh : host ≠ []) (hb : (91 : UInt8) ∉ u.bootstrap ∧ (93 : UInt8) ∉ u.bootstrap)
    (h1 : u.bootstrap = [] ∨ u.serverName = [] ∨ u.serverName = host)
    (h2 : u.bootstrap ≠ [] ∨ u.serverName ≠ [] ∨ u.proxy = true ∨ (lib.parseIP host).isSome = true) :
    ∃ c, dotDial lib u = some c ∧ c.name = some (Expected u.serverName host) := by
  cases hp : u.proxy with
  | true =>
    obtain ⟨c, g1, -, -, -, g2⟩ := dot_dials_proxy u host port ha hp hh hb
    refine ⟨c, g1, ?_⟩
    rw [g2]
    by_cases h0 : u.bootstrap = []
    · simp [h0]
    · rcases h1 with h | h | h <;> simp_all [Expected]
  | false =>
    obtain ⟨c, h, g1, ⟨-, h', e1, e2, -⟩, g3, g4⟩ := dot_dials hc u host port ha hp hh hb
    refine ⟨c, g1, ?_⟩
    rw [g4]
    by_cases h0 : u.bootstrap = []
    · by_cases hn : u.serverName = []
      · have hl : (lib.parseIP host).isSome = true := by simpa [h0, hn, hp] using h2
        rw [g3] at e1
        simp only [Option.some.injEq, Prod.mk.injEq, and_true] at e1
        subst e1
        have : h = host := by
          rw [contact, if_pos h0] at e2
          cases e2 with
          | literal => rfl
          | found ip m hn' => simp [hn'] at hl
          | unknown => rfl
        simp [h0, hn, this, Expected]
      · simp [h0, hn, Expected]
    · rcases h1 with h | h | h
      · exact absurd h h0
      · simp [h0, h, Expected]
      · simp [h0, h, Expected]

/-- **C71, finding.** A DNS-over-TLS server given by name, without server name, bootstrap address and proxy: the connection goes to
whatever address the look-up of the name gives, *and the certificate is checked for that address*. Whoever controls the look-up
chooses both. -/
theorem dot_name_from_lookup (hc : Contract lib) (u : Upstream lib) (host port : Str)
    (ha : splitHostPort u.address = some (host, port)) (hp : u.proxy = false) (hn : u.serverName = []) (h0 : u.bootstrap = [])
    (hi : lib.parseIP host = none) (ip : lib.IP) (more : List lib.IP) (hl : lib.lookup host = some (ip :: more)) :
    ∃ c, dotDial lib u = some c ∧ splitHostPort c.to = some (lib.text ip, port) ∧ c.name = some (lib.text ip) := by
  obtain ⟨c, h', h1, -, h3, h4, h5⟩ := generic_direct hc true u.serverName u.locals ha
  refine ⟨c, by simpa [dotDial, h0, hp] using h1, ?_⟩
  have : h' = lib.text ip := by
    cases h4 with
    | literal i h => simp [hi] at h
    | found i m _ h => simp [hl] at h; rw [h.1]
    | unknown _ h => simp [hl] at h
  subst this
  exact ⟨h3, by simpa [hn] using h5⟩

private theorem join_port (h p : Str) (hb : ∀ c, c = 91 ∨ c = 93 → c ∉ h ∧ c ∉ p) (hp : (58 : UInt8) ∉ p) :
    splitHostPort (joinHostPort h p) = some (h, p) := Validate.join_split h p hp hb

/-- **C71, C72.** DNS over HTTPS on TCP, for a request to any host (that of the configured URL, or one the server redirects to): the
certificate is checked for the expected name; a bootstrap address replaces the host connected to. -/
theorem doh_dials (hc : Contract lib) (u : Upstream lib) (host port : Str) (hcolon : (58 : UInt8) ∉ port)
    (hbr : ∀ c, c = 91 ∨ c = 93 → c ∉ host ∧ c ∉ port) (hb : (91 : UInt8) ∉ u.bootstrap ∧ (93 : UInt8) ∉ u.bootstrap) :
    ∃ c, dohTcpDial lib u host port = some c ∧ c.name = some (Expected u.serverName host) ∧
      (u.proxy = false → Direct lib (contact u.bootstrap host) port u.locals c) ∧
      (u.proxy = true → c.viaProxy = true ∧ c.bind = none ∧ splitHostPort c.to = some (contact u.bootstrap host, port)) := by
  have hj := join_port host port hbr hcolon
  have ht : dohTarget u.bootstrap (joinHostPort host port) = some (joinHostPort (contact u.bootstrap host) port) := by
    unfold dohTarget contact
    by_cases h0 : u.bootstrap = [] <;> simp [h0, hj]
  have hs : splitHostPort (joinHostPort (contact u.bootstrap host) port) = some (contact u.bootstrap host, port) := by
    unfold contact
    by_cases h0 : u.bootstrap = []
    · simpa [h0] using hj
    · simpa [h0] using rejoin hj u.bootstrap hb
  unfold dohTcpDial
  rw [ht]
  refine ⟨_, rfl, rfl, fun hp => ?_, fun hp => ?_⟩
  · obtain ⟨h', h1, h2⟩ := resolve_reached hc hs
    obtain ⟨s1, s2⟩ := select_source h1 u.locals
    refine ⟨hp, h', ?_, h2, ?_, ?_⟩ <;> simp only [hp, Bool.false_eq_true, if_false] <;> assumption
  · exact ⟨hp, by simp [hp], by simpa [hp] using hs⟩

/-- The address a QUIC connection to `host` goes to: `host` itself if it is an address, else one of those found for it. -/
def Chosen (lib : NetLib) (host : Str) (ip : lib.IP) : Prop :=
  lib.parseIP host = some ip ∨ (lib.parseIP host = none ∧ ∃ ips, lib.lookup host = some ips ∧ ip ∈ ips)

/-- The local address of QUIC connections. With local addresses of both families, or none of the specific ones, it is the expected one
(`0.0.0.0` if none is configured); with one specific address that one is used towards servers of both families. -/
def QuicSource (lib : NetLib) (l : Locals lib) (remoteIs4 : Bool) (b : Option lib.IP) : Prop := match l.v4, l.v6 with
  | some a4, some a6 => b = some (if remoteIs4 then a4 else a6)
  | some a4, none => b = some a4
  | none, some a6 => b = some a6
  | none, none => match l.any with
    | some a => b = some a
    | none => b = some lib.zero4

private theorem quic_source (l : Locals lib) (ip : lib.IP) : QuicSource lib l (lib.is4 ip) (quicBind lib l ip) := by
  unfold QuicSource quicBind
  cases l.v4 <;> cases l.v6 <;> cases l.any <;> cases lib.is4 ip <;> simp

/-- **C72.** Where the local addresses of both families or neither are configured, QUIC connections use the same as others (apart
from `0.0.0.0` for none). -/
theorem quic_source_expected (l : Locals lib) (four : Bool) (b : Option lib.IP) (h : QuicSource lib l four b)
    (hl : (l.v4.isSome = l.v6.isSome)) : b = Source l.any l.v4 l.v6 four ∨ (Source l.any l.v4 l.v6 four = none ∧ b = some lib.zero4) := by
  unfold QuicSource at h
  unfold Source
  cases h4 : l.v4 <;> cases h6 : l.v6 <;> cases ha : l.any <;> cases four <;> simp_all

private theorem resolve_chosen (pick : List lib.IP → Option lib.IP) (hpick : ∀ ips ip, pick ips = some ip → ip ∈ ips) {a h p : Str}
    (hs : splitHostPort a = some (h, p)) {ip : lib.IP} {p' : Str} (hr : resolveUDP lib pick a = some (ip, p')) :
    p' = p ∧ Chosen lib h ip := by
  unfold resolveUDP at hr
  rw [hs] at hr
  simp only [] at hr
  cases hp : lib.parseIP h with
  | some i =>
    simp only [hp, Option.some.injEq, Prod.mk.injEq] at hr
    exact ⟨hr.2.symm, Or.inl (by rw [hp, hr.1])⟩
  | none =>
    simp only [hp] at hr
    cases hl : lib.lookup h with
    | none => simp [hl] at hr
    | some ips =>
      simp only [hl, Option.map_eq_some_iff, Prod.mk.injEq] at hr
      obtain ⟨i, h1, rfl, rfl⟩ := hr
      exact ⟨rfl, Or.inr ⟨hp, ips, hl, hpick _ _ h1⟩⟩

/-- **C71, C72.** DNS over QUIC: the certificate is checked for the host in the server's address, whatever server name is configured. -/
theorem doq_dials (hc : Contract lib) (pick : List lib.IP → Option lib.IP) (hpick : ∀ ips ip, pick ips = some ip → ip ∈ ips)
    (u : Upstream lib) (host port : Str) (ha : splitHostPort u.address = some (host, port))
    (hb : (91 : UInt8) ∉ u.bootstrap ∧ (93 : UInt8) ∉ u.bootstrap) (c : Conn lib) (hd : doqDial lib pick u = some c) :
    c.name = some host ∧ c.viaProxy = false ∧
    ∃ ip, splitHostPort c.to = some (lib.text ip, port) ∧ Chosen lib (contact u.bootstrap host) ip ∧
      QuicSource lib u.locals (lib.is4 ip) c.bind := by
  unfold doqDial at hd
  rw [ha] at hd
  simp only [] at hd
  have hs : splitHostPort (if u.bootstrap ≠ [] then joinHostPort u.bootstrap port else u.address) = some (contact u.bootstrap host, port) := by
    unfold contact
    by_cases h0 : u.bootstrap = []
    · simpa [h0] using ha
    · simpa [h0] using rejoin ha u.bootstrap hb
  cases hr : resolveUDP lib pick (if u.bootstrap ≠ [] then joinHostPort u.bootstrap port else u.address) with
  | none => rw [hr] at hd; simp at hd
  | some x =>
    obtain ⟨ip, p'⟩ := x
    rw [hr] at hd
    simp only [Option.some.injEq] at hd
    obtain ⟨rfl, hch⟩ := resolve_chosen pick hpick hs hr
    subst hd
    exact ⟨rfl, rfl, ip, rejoin ha _ (hc.text_plain ip), hch, quic_source u.locals ip⟩

/-- **C71, C72.** DNS over HTTPS on QUIC: the certificate is checked for the host of the configured URL, whatever server name is
configured and wherever a redirect leads. -/
theorem doh_quic_dials (hc : Contract lib) (pick : List lib.IP → Option lib.IP) (hpick : ∀ ips ip, pick ips = some ip → ip ∈ ips)
    (u : Upstream lib) (urlHost host port : Str) (hcolon : (58 : UInt8) ∉ port) (hbr : ∀ c, c = 91 ∨ c = 93 → c ∉ host ∧ c ∉ port)
    (hb : (91 : UInt8) ∉ u.bootstrap ∧ (93 : UInt8) ∉ u.bootstrap) (c : Conn lib) (hd : dohQuicDial lib pick u urlHost host port = some c) :
    c.name = some urlHost ∧ c.viaProxy = false ∧
    ∃ ip, splitHostPort c.to = some (lib.text ip, port) ∧ Chosen lib (contact u.bootstrap host) ip ∧
      QuicSource lib u.locals (lib.is4 ip) c.bind := by
  have hj := join_port host port hbr hcolon
  have ht : dohTarget u.bootstrap (joinHostPort host port) = some (joinHostPort (contact u.bootstrap host) port) := by
    unfold dohTarget contact
    by_cases h0 : u.bootstrap = [] <;> simp [h0, hj]
  have hs : splitHostPort (joinHostPort (contact u.bootstrap host) port) = some (contact u.bootstrap host, port) := by
    unfold contact
    by_cases h0 : u.bootstrap = []
    · simpa [h0] using hj
    · simpa [h0] using rejoin hj u.bootstrap hb
  unfold dohQuicDial at hd
  rw [ht] at hd
  simp only [] at hd
  cases hr : resolveUDP lib pick (joinHostPort (contact u.bootstrap host) port) with
  | none => rw [hr] at hd; simp at hd
  | some x =>
    obtain ⟨ip, p'⟩ := x
    rw [hr] at hd
    simp only [Option.some.injEq] at hd
    obtain ⟨rfl, hch⟩ := resolve_chosen pick hpick hs hr
    subst hd
    exact ⟨rfl, rfl, ip, rejoin hs _ (hc.text_plain ip), hch, quic_source u.locals ip⟩

/-- **C71, C72.** DTLS: the expected local address. With a bootstrap address the host in the server's address is the name the
certificate is checked for; without (finding) no name is given to the DTLS library at all, not even a configured server name. -/
theorem dtls_dials (hc : Contract lib) (u : Upstream lib) (host port : Str) (ha : splitHostPort u.address = some (host, port))
    (c : Conn lib) (hd : dtlsDial lib u = some c) :
    c.viaProxy = false ∧ c.name = some (if u.bootstrap = [] then [] else host) ∧
    ∃ ip, splitHostPort c.to = some (lib.text ip, port) ∧ c.bind = Source u.locals.any u.locals.v4 u.locals.v6 (lib.is4 ip) ∧
      (if u.bootstrap = [] then ∃ more, lib.lookup host = some (ip :: more) else lib.parseIP u.bootstrap = some ip) := by
  unfold dtlsDial dtlsTarget at hd
  rw [ha] at hd
  simp only [] at hd
  by_cases h0 : u.bootstrap = []
  · simp only [h0, ne_eq, not_true_eq_false, if_false] at hd
    cases hl : lib.lookup host with
    | none => simp [hl] at hd
    | some ips => cases ips with
      | nil => simp [hl] at hd
      | cons ip more =>
        simp only [hl, Option.some.injEq] at hd
        subst hd
        exact ⟨rfl, by simp [h0], ip, rejoin ha _ (hc.text_plain ip), local_source _ _, by simp [h0]⟩
  · simp only [h0, ne_eq, not_false_eq_true, if_true] at hd
    cases hp : lib.parseIP u.bootstrap with
    | none => simp [hp] at hd
    | some ip =>
      simp only [hp, Option.map_some, Option.some.injEq] at hd
      subst hd
      exact ⟨rfl, by simp [h0], ip, rejoin ha _ (hc.text_plain ip), local_source _ _, by simp [h0]⟩

private theorem socks_run_kept (rl : Bool) (l : Locals lib) (k : Str) (as : List ((Str → Option (List lib.IP)) × Str)) :
    socksRun lib rl l (some k) as = as.map fun _ => ⟨k, selectLocalAddr lib k l⟩ := by
  induction as with
  | nil => rfl
  | cons a as ih => simp only [socksRun, socksDial, List.map_cons]; rw [ih]

/-- **C72.** SOCKS5: all connections of a dialer ask the proxy for one destination, that of the first: the host is passed on as it is;
if names are to be looked up locally it is replaced by the first IPv4 address the first look-up gives (`look`), unless it gives none (then the
name goes to the proxy). What later look-ups give does not matter. The proxy is reached from the local address fitting the *destination*. -/
theorem socks_dials (hc : Contract lib) (look : Str → Option (List lib.IP))
    (rl : Bool) (l : Locals lib) (first : Str) (rest : List ((Str → Option (List lib.IP)) × Str)) (host port : Str)
    (ha : splitHostPort first = some (host, port)) :
    ∃ to h, socksRun lib rl l none ((look, first) :: rest) = ((look, first) :: rest).map (fun _ => ⟨to, selectLocalAddr lib to l⟩) ∧
      splitHostPort to = some (h, port) ∧
      (rl = false → to = first) ∧
      (rl = true → Reached lib.parseIP lib.text look host h) ∧
      (∀ ip, lib.parseIP h = some ip → selectLocalAddr lib to l = Source l.any l.v4 l.v6 (lib.is4 ip)) ∧
      (lib.parseIP h = none → selectLocalAddr lib to l = l.any) := by
  have key : ∃ h, splitHostPort (socksAddr lib rl look first) = some (h, port) ∧ (rl = false → socksAddr lib rl look first = first) ∧
      (rl = true → Reached lib.parseIP lib.text look host h) := by
    unfold socksAddr
    cases rl with
    | false => exact ⟨host, by simpa using ha, by simp, by simp⟩
    | true =>
      simp only [if_true, ha]
      cases hp : lib.parseIP host with
      | some ip => exact ⟨host, by simpa using ha, by simp, fun _ => .literal ip hp⟩
      | none =>
        simp only [Option.isSome_none, Bool.false_eq_true, if_false]
        cases hl : look host with
        | none => exact ⟨host, ha, by simp, fun _ => .unknown hp (Or.inl hl)⟩
        | some ips => cases ips with
          | nil => exact ⟨host, ha, by simp, fun _ => .unknown hp (Or.inr hl)⟩
          | cons ip more => exact ⟨lib.text ip, rejoin ha _ (hc.text_plain ip), by simp, fun _ => .found ip more hp hl⟩
  obtain ⟨h, h1, h2, h3⟩ := key
  obtain ⟨s1, s2⟩ := select_source h1 l
  refine ⟨socksAddr lib rl look first, h, ?_, h1, h2, h3, s1, s2⟩
  simp only [socksRun, socksDial, List.map_cons]
  rw [socks_run_kept]

/-- **C72, finding.** Looking up locally is tried once. If the first look-up fails (say, the network was not up yet) the server's name is sent to
the proxy in every connection of this dialer, although names are to be looked up locally and later look-ups would work. -/
theorem socks_failed_lookup_kept (look : Str → Option (List lib.IP)) (l : Locals lib) (first : Str)
    (rest : List ((Str → Option (List lib.IP)) × Str)) (host port : Str) (ha : splitHostPort first = some (host, port))
    (hn : lib.parseIP host = none) (hf : look host = none) :
    ∀ r ∈ socksRun lib true l none ((look, first) :: rest), r.to = first := by
  have h : socksAddr lib true look first = first := by simp [socksAddr, ha, hn, hf]
  intro r hr
  simp only [socksRun, socksDial, h, socks_run_kept, List.mem_cons, List.mem_map] at hr
  rcases hr with rfl | ⟨-, -, rfl⟩ <;> rfl

/-- **C72.** From the texts in a section: towards a server of one family, the text for this family is used if it is an address, else the general one. -/
theorem configured_source (hc : Contract lib) (any v4 v6 : Str) (u : Upstream lib) (hl : u.locals = localsOf lib any v4 v6) (host port : Str)
    (ha : splitHostPort u.address = some (host, port)) (hp : u.proxy = false) : ∃ c h, plainDial lib u = some c ∧ splitHostPort c.to = some (h, port) ∧
      ∀ ip, lib.parseIP h = some ip → c.bind = Source (lib.parseIP any) (lib.parseIP v4) (lib.parseIP v6) (lib.is4 ip) := by
  obtain ⟨c, h1, ⟨-, h, h2, -, h3, -⟩, -⟩ := plain_dials hc u host port ha hp
  refine ⟨c, h, h1, h2, fun ip hip => ?_⟩
  rw [h3 ip hip, hl]
  rfl

/-- **C72, finding.** A local address in the configuration that is none (a typing error) counts as not configured: nothing is reported. -/
theorem bad_local_ignored (lib : NetLib) (bad v4 v6 : Str) (h : lib.parseIP bad = none) (he : lib.parseIP [] = none) :
    localsOf lib bad v4 v6 = localsOf lib [] v4 v6 ∧ localsOf lib v4 bad v6 = localsOf lib v4 [] v6 ∧
    localsOf lib v4 v6 bad = localsOf lib v4 v6 [] := by
  simp [localsOf, h, he]

/-- A toy network: "10.0.0.1" (as 1) and "::1" (as 2) are addresses, "a" stands for the second and the first, "evil" for the first. -/
abbrev toy : NetLib where
  IP := Fin 10
  parseIP s := if s = str "10.0.0.1" then some 1 else if s = str "::1" then some 2 else none
  is4 n := n ≠ 2
  text n := if n = 2 then str "::1" else str "10.0.0.1"
  lookup s := if s = str "a" then some [2, 1] else if s = str "evil" then some [1] else none
  zero4 := 1


theorem toy_contract : Contract toy := by
  constructor
  · have h : ∀ ip : Fin 10, ∃ ip' : Fin 10, toy.parseIP (toy.text ip) = some ip' ∧ toy.is4 ip' = toy.is4 ip := by decide
    exact h
  · have h : ∀ ip : Fin 10, (91 : UInt8) ∉ toy.text ip ∧ (93 : UInt8) ∉ toy.text ip := by decide
    exact h

example : ((dotDial toy ⟨str "a:853", [], [], false, ⟨some (7 : Fin 10), some (8 : Fin 10), some (9 : Fin 10)⟩⟩).map fun c => (c.to, c.name)) =
    some (str "[::1]:853", some (str "::1")) := by decide
example : ((dotDial toy ⟨str "a:853", str "10.0.0.1", [], false, ⟨some (7 : Fin 10), some (8 : Fin 10), some (9 : Fin 10)⟩⟩).map fun c => (c.to, c.name)) =
    some (str "10.0.0.1:853", some (str "a")) := by decide
example : ((dotDial toy ⟨str "a:853", [], str "b", false, ⟨some (7 : Fin 10), some (8 : Fin 10), some (9 : Fin 10)⟩⟩).bind fun c => c.bind) =
    some (9 : Fin 10) := by decide
example : ((doqDial toy List.head? ⟨str "a:853", [], str "b", false, ⟨some (7 : Fin 10), some (8 : Fin 10), none⟩⟩).map fun c => (c.to, c.name)) =
    some (str "[::1]:853", some (str "a")) ∧
    ((doqDial toy List.head? ⟨str "a:853", [], str "b", false, ⟨some (7 : Fin 10), some (8 : Fin 10), none⟩⟩).bind fun c => c.bind) = some (8 : Fin 10) := by decide
example : ((dtlsDial toy ⟨str "a:853", [], str "b", false, ⟨some (7 : Fin 10), some (8 : Fin 10), none⟩⟩).map fun c => (c.to, c.name)) =
    some (str "[::1]:853", some []) ∧
    ((dtlsDial toy ⟨str "a:853", [], str "b", false, ⟨some (7 : Fin 10), some (8 : Fin 10), none⟩⟩).bind fun c => c.bind) = some (7 : Fin 10) := by decide
/-- Look-ups once the toy network is up. -/
abbrev up : Str → Option (List (Fin 10)) := fun s => if s = str "a" then some [1] else none

example : ((socksRun toy true ⟨none, some (8 : Fin 10), some (9 : Fin 10)⟩ none [(up, str "a:53"), (up, str "evil:443")]).map fun r => r.to) =
    [str "10.0.0.1:53", str "10.0.0.1:53"] := by decide
example : ((socksRun toy true ⟨none, some (8 : Fin 10), some (9 : Fin 10)⟩ none
    [((fun _ => none : Str → Option (List (Fin 10))), str "a:53"), (up, str "a:53")]).map fun r => r.to) = [str "a:53", str "a:53"] := by decide

end Verif.Props.Dialing

namespace Verif.Props.TlsConfig
open Verif Verif.TlsConfig

variable {fs : Files}

/-- **C73.** A TLS or DTLS server configuration exactly: with mutual TLS client certificates are required, and always checked against the
CA file; without the CA file, or with one that holds no certificate or cannot be read, there is no configuration (the listener does not start). -/
theorem server_config (tls : Bool) (ca crt key : Str) (mtls : Bool) (cfg : Server fs) :
    serverConfig fs tls ca crt key mtls = some cfg ↔
      (mtls = true → ca ≠ []) ∧ cfg.requireClientCert = mtls ∧ cfg.tls12 = tls ∧
      (if ca = [] then cfg.clientCAs = none else ∃ p, fs.pool ca = some p ∧ cfg.clientCAs = some p) ∧
      (if crt = [] ∨ key = [] then cfg.certs = [] else ∃ c, fs.pair crt key = some c ∧ cfg.certs = [c]) := by
  unfold serverConfig loadPool loadCerts
  obtain ⟨r, p, cs, t⟩ := cfg
  by_cases hm : mtls = true ∧ ca = []
  · simp [hm]
  · rw [if_neg hm]
    by_cases hca : ca = [] <;> by_cases hck : crt = [] ∨ key = [] <;> cases hpo : fs.pool ca <;> cases hpa : fs.pair crt key <;>
      simp_all [not_or, and_assoc] <;> grind

/-- **C73.** A server with mutual TLS always requires client certificates signed by one of the configured CAs. -/
theorem mutual_tls (tls : Bool) (ca crt key : Str) (cfg : Server fs) (h : serverConfig fs tls ca crt key true = some cfg) :
    cfg.requireClientCert = true ∧ ∃ p, fs.pool ca = some p ∧ cfg.clientCAs = some p := by
  obtain ⟨h1, h2, -, h4, -⟩ := (server_config tls ca crt key true cfg).mp h
  refine ⟨h2, ?_⟩
  rw [if_neg (h1 rfl)] at h4
  exact h4

/-- **C73.** A client configuration exactly: a configured CA file replaces the system's CAs or the client is not made; it never falls back
to them. -/
theorem client_config (tls : Bool) (ca crt key name : Str) (cfg : Client fs) :
    clientConfig fs tls ca crt key name = some cfg ↔
      cfg.serverName = (if tls then name else []) ∧ cfg.tls12 = tls ∧
      (if ca = [] then cfg.rootCAs = none else ∃ p, fs.pool ca = some p ∧ cfg.rootCAs = some p) ∧
      (if crt = [] ∨ key = [] then cfg.certs = [] else ∃ c, fs.pair crt key = some c ∧ cfg.certs = [c]) := by
  unfold clientConfig loadPool loadCerts
  obtain ⟨r, p, cs, t⟩ := cfg
  by_cases hca : ca = [] <;> by_cases hck : crt = [] ∨ key = [] <;> cases hpo : fs.pool ca <;> cases hpa : fs.pair crt key <;>
    simp_all [not_or, and_assoc] <;> grind

/-- **C73, finding.** A certificate without a key file (or the other way round) is silently left out. -/
theorem half_pair_ignored (tls : Bool) (ca crt key name : Str) (h : crt = [] ∨ key = []) :
    clientConfig fs tls ca crt key name = clientConfig fs tls ca [] [] name ∧
    ∀ m, serverConfig fs tls ca crt key m = serverConfig fs tls ca [] [] m := by
  have : loadCerts fs crt key = loadCerts fs [] [] := by
    unfold loadCerts
    rcases h with h | h <;> simp [h]
  simp [clientConfig, serverConfig, this]

/-- Files: "ca" and "crt"/"key" can be loaded. -/
def someFiles : Files where
  Pool := Nat
  Cert := Nat
  pool s := if s = str "ca" then some (1 : Nat) else none
  pair c k := if c = str "crt" ∧ k = str "key" then some (2 : Nat) else none

example : ((serverConfig someFiles true (str "ca") (str "crt") (str "key") true).map fun c => (c.requireClientCert, c.tls12)) = some (true, true) := by decide
example : (serverConfig someFiles true [] (str "crt") (str "key") true).isNone ∧ (serverConfig someFiles true (str "other") [] [] false).isNone ∧
    (clientConfig someFiles true (str "ca") [] [] (str "n")).isSome ∧ (clientConfig someFiles false (str "empty") [] [] []).isNone := by decide

end Verif.Props.TlsConfig
