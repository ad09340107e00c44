import Verif.Spec.ListenSock
/-
C84: the socket of a listener.
-/
namespace Verif.Props.ListenSock
open Verif Verif.ListenSock Verif.Spec.ListenSock
set_option linter.unusedSimpArgs false
set_option linter.unusedVariables false

private theorem place_eq {l : Lis} (h : l.netns = [] ∨ l.xsocket = []) : buildNetNS l.netns l.xsocket = some (placeAsked l) := by
  unfold buildNetNS placeAsked
  rcases h with h | h <;> by_cases h2 : l.netns = [] <;> by_cases h3 : l.xsocket = [] <;> simp_all

private theorem special_iff (l : Lis) (h : l.netns = [] ∨ l.xsocket = []) : ((placeAsked l).isSet || active l.opts) = true ↔ Special l := by
  unfold placeAsked Special active
  by_cases h2 : l.netns = [] <;> by_cases h3 : l.xsocket = [] <;> simp_all [Place.isSet]

private theorem not_special {l : Lis} (h : ¬ Special l) : placeAsked l = .here ∧ l.opts.mark = 0 ∧ l.opts.device = [] := by
  unfold Special at h
  unfold placeAsked
  by_cases h2 : l.netns = [] <;> by_cases h3 : l.xsocket = [] <;> simp_all

private theorem versions {l : Lis} (h : l.ipVersion = 0 ∨ l.ipVersion = 4 ∨ l.ipVersion = 6) :
    ¬ (l.ipVersion ≠ 4 ∧ l.ipVersion ≠ 6 ∧ l.ipVersion ≠ 0) := by omega

private theorem as_asked {l : Lis} (h : l.netns = [] ∨ l.xsocket = []) (network : Str) (s : Sock)
    (hs : s = listenIn (placeAsked l) network l.address l.opts ∨
      (¬ Special l ∧ s = { network := network, bound := .text l.address, place := .here, mark := 0, device := [] })) :
    s.network = network ∧ s.bound = .text l.address ∧ s.place = placeAsked l ∧ s.mark = l.opts.mark ∧ s.device = l.opts.device := by
  rcases hs with rfl | ⟨h1, rfl⟩
  · exact ⟨rfl, rfl, rfl, rfl, rfl⟩
  · obtain ⟨h2, h3, h4⟩ := not_special h1
    exact ⟨rfl, rfl, h2.symm, h3.symm, h4.symm⟩

/-- The protocols and cases in which `ip-version` is heeded. -/
def HeedsVersion (l : Lis) : Prop := l.protocol = str "tcp" ∨ l.protocol = str "udp" ∨ (l.protocol = str "dot" ∧ ¬ Special l)

private theorem dns_net (base : Str) (hb : base = str "tcp" ∨ base = str "udp") (l : Lis)
    (hv : l.ipVersion = 0 ∨ l.ipVersion = 4 ∨ l.ipVersion = 6) (hn : l.netns = [] ∨ l.xsocket = []) :
    ∃ s, startDNS (Listeners.networkForIPVersion base l.ipVersion) l.address (placeAsked l) l.opts = some s ∧
      s.network = Listeners.networkForIPVersion base l.ipVersion ∧ s.bound = .text l.address ∧ s.place = placeAsked l ∧
      s.mark = l.opts.mark ∧ s.device = l.opts.device := by
  unfold startDNS
  by_cases hs : Special l
  · rw [if_pos ((special_iff l hn).mpr hs)]
    have : hasPrefix (Listeners.networkForIPVersion base l.ipVersion) (str "tcp") = true ∨
        hasPrefix (Listeners.networkForIPVersion base l.ipVersion) (str "udp") = true := by
      rcases hb with rfl | rfl <;> rcases hv with hv | hv | hv <;> rw [hv] <;> decide
    by_cases h1 : hasPrefix (Listeners.networkForIPVersion base l.ipVersion) (str "tcp") = true
    · rw [if_pos h1]; exact ⟨_, rfl, rfl, rfl, rfl, rfl, rfl⟩
    · rw [if_neg h1, if_pos (this.resolve_left h1)]; exact ⟨_, rfl, rfl, rfl, rfl, rfl, rfl⟩
  · rw [if_neg (fun h => hs ((special_iff l hn).mp h))]
    unfold listenAndServe
    rw [if_pos (by rcases hb with rfl | rfl <;> rcases hv with hv | hv | hv <;> rw [hv] <;> decide)]
    obtain ⟨h1, h2, h3⟩ := not_special hs
    exact ⟨_, rfl, rfl, rfl, h1.symm, h2.symm, h3.symm⟩

/-- **C84.** A listener that is not for DTLS opens one socket: of the protocol its clients use, at the address given, in the namespace given, with the
mark and the interface given. -/
theorem socket_as_configured (lib : Xsocket.NetLib) (l : Lis) (hs : Sound l) (hd : l.protocol ≠ str "dtls") :
    ∃ s, opens lib l = some s ∧ s.bound = .text l.address ∧ s.place = placeAsked l ∧ s.mark = l.opts.mark ∧ s.device = l.opts.device ∧
      (overTCP l → forTCP s.network) ∧ (overUDP l → forUDP s.network) ∧
      (HeedsVersion l → onlyVersion s.network = versionAsked l) ∧ (¬ HeedsVersion l → onlyVersion s.network = none) := by
  obtain ⟨h1, hv, hn⟩ := hs
  unfold opens
  rw [if_neg (versions hv), place_eq hn]
  simp only
  have ht : ∀ v, v = 0 ∨ v = 4 ∨ v = 6 → forTCP (Listeners.networkForIPVersion (str "tcp") v) := by
    rintro v (rfl | rfl | rfl) <;> (unfold forTCP; decide)
  have hu : ∀ v, v = 0 ∨ v = 4 ∨ v = 6 → forUDP (Listeners.networkForIPVersion (str "udp") v) := by
    rintro v (rfl | rfl | rfl) <;> (unfold forUDP; decide)
  have hver : ∀ base, base = str "tcp" ∨ base = str "udp" →
      onlyVersion (Listeners.networkForIPVersion base l.ipVersion) = versionAsked l := by
    intro base hb
    unfold versionAsked
    rcases hb with rfl | rfl <;> rcases hv with hv | hv | hv <;> rw [hv] <;> decide
  by_cases p1 : l.protocol = str "tcp"
  · rw [if_pos p1]
    obtain ⟨s, g1, g2, g3, g4, g5, g6⟩ := dns_net (str "tcp") (.inl rfl) l hv hn
    refine ⟨s, g1, g3, g4, g5, g6, fun _ => by rw [g2]; exact ht _ hv, ?_, fun _ => by rw [g2]; exact hver _ (.inl rfl), fun h => absurd (.inl p1) h⟩
    intro h; exfalso; revert h; unfold overUDP; rw [p1]; simp only [show ¬ str "tcp" = str "udp" by decide, show ¬ str "tcp" = str "dtls" by decide, show ¬ str "tcp" = str "doq" by decide, show ¬ str "tcp" = str "doh" by decide, show ¬ str "tcp" = str "admin" by decide, false_or, or_false, false_and]; exact id
  rw [if_neg p1]
  by_cases p2 : l.protocol = str "udp"
  · rw [if_pos p2]
    obtain ⟨s, g1, g2, g3, g4, g5, g6⟩ := dns_net (str "udp") (.inr rfl) l hv hn
    refine ⟨s, g1, g3, g4, g5, g6, ?_, fun _ => by rw [g2]; exact hu _ hv, fun _ => by rw [g2]; exact hver _ (.inr rfl), fun h => absurd (.inr (.inl p2)) h⟩
    intro h; exfalso; revert h; unfold overTCP; rw [p2]; simp only [show ¬ str "udp" = str "tcp" by decide, show ¬ str "udp" = str "dot" by decide, show ¬ str "udp" = str "odoh" by decide, show ¬ str "udp" = str "doh" by decide, show ¬ str "udp" = str "admin" by decide, false_or, or_false, false_and]; exact id
  rw [if_neg p2]
  have hno : l.protocol ≠ str "dot" → ¬ HeedsVersion l := by rintro h (h' | h' | ⟨h', -⟩) <;> contradiction
  by_cases p3 : l.protocol = str "admin" ∨ l.protocol = str "doh"
  · have hdot : l.protocol ≠ str "dot" := by rcases p3 with h | h <;> rw [h] <;> decide
    have htr : l.transport = str "tcp" ∨ l.transport = [] ∨ l.transport = str "quic" := by
      have e1 : l.protocol ≠ str "odoh" ∧ l.protocol ≠ str "doq" := by rcases p3 with h | h <;> rw [h] <;> decide
      rcases h1 with (h | h | h | ⟨-, h | h⟩) | (h | h | h | ⟨-, h⟩)
      · exact absurd h p1
      · exact absurd h hdot
      · exact absurd h e1.1
      · exact .inr (.inl h)
      · exact .inl h
      · exact absurd h p2
      · exact absurd h hd
      · exact absurd h e1.2
      · exact .inr (.inr h)
    have e1 : l.protocol ≠ str "odoh" ∧ l.protocol ≠ str "doq" := by rcases p3 with h | h <;> rw [h] <;> decide
    rw [if_pos p3, if_pos htr]
    refine ⟨_, rfl, ?_⟩
    unfold startHTTP
    by_cases hq : l.transport = str "quic"
    · rw [if_pos hq]
      refine ⟨rfl, rfl, rfl, rfl, ?_, fun _ => .inl rfl, fun h => absurd h (hno hdot), fun _ => (by show onlyVersion (str "udp") = none; decide)⟩
      rintro (h | h | h | ⟨-, h | h⟩)
      · exact absurd h p1
      · exact absurd h hdot
      · exact absurd h e1.1
      · rw [hq] at h; exact absurd h (by decide)
      · rw [hq] at h; exact absurd h (by decide)
    · rw [if_neg hq]
      refine ⟨rfl, rfl, rfl, rfl, fun _ => .inl rfl, ?_, fun h => absurd h (hno hdot), fun _ => (by show onlyVersion (str "tcp") = none; decide)⟩
      rintro (h | h | h | ⟨-, h⟩)
      · exact absurd h p2
      · exact absurd h hd
      · exact absurd h e1.2
      · exact absurd h hq
  rw [if_neg p3]
  have p3' : ¬ (l.protocol = str "doh" ∨ l.protocol = str "admin") := fun h => p3 h.symm
  by_cases p4 : l.protocol = str "dot"
  · have hud : ¬ overUDP l := by
      rintro (h | h | h | ⟨h, -⟩)
      · exact p2 h
      · exact hd h
      · rw [p4] at h; exact absurd h (by decide)
      · exact p3' h
    rw [if_pos p4]
    unfold startDoT
    by_cases hsp : Special l
    · rw [if_pos ((special_iff l hn).mpr hsp)]
      refine ⟨_, rfl, rfl, rfl, rfl, rfl, fun _ => .inl rfl, fun h => absurd h hud, ?_, fun _ => (by show onlyVersion (str "tcp") = none; decide)⟩
      rintro (h | h | ⟨-, h⟩)
      · exact absurd h p1
      · exact absurd h p2
      · exact absurd hsp h
    · rw [if_neg (fun h => hsp ((special_iff l hn).mp h))]
      obtain ⟨k1, k2, k3⟩ := not_special hsp
      have hl : listenAndServe (dotNet (Listeners.networkForIPVersion (str "tcp") l.ipVersion)) l.address =
          some { network := Listeners.networkForIPVersion (str "tcp") l.ipVersion, bound := .text l.address, place := .here, mark := 0, device := [] } := by
        unfold listenAndServe
        rcases hv with hv | hv | hv <;> rw [hv]
        · rw [if_neg (by decide), if_pos (by decide)]; rfl
        · rw [if_neg (by decide), if_pos (by decide)]; rfl
        · rw [if_neg (by decide), if_pos (by decide)]; rfl
      refine ⟨_, hl, rfl, k1.symm, k2.symm, k3.symm, fun _ => ht _ hv, fun h => absurd h hud, fun _ => hver _ (.inl rfl),
        fun h => absurd (.inr (.inr ⟨p4, hsp⟩)) h⟩
  rw [if_neg p4, if_neg hd]
  by_cases p5 : l.protocol = str "doq"
  · rw [if_pos p5]
    refine ⟨_, rfl, rfl, rfl, rfl, rfl, ?_, fun _ => .inl rfl, fun h => absurd h (hno p4), fun _ => (by show onlyVersion (str "udp") = none; decide)⟩
    rintro (h | h | h | ⟨h, -⟩)
    · exact absurd h p1
    · exact absurd h p4
    · rw [p5] at h; exact absurd h (by decide)
    · exact absurd h p3'
  rw [if_neg p5]
  have p6 : l.protocol = str "odoh" := by
    rcases h1 with (h | h | h | ⟨h, -⟩) | (h | h | h | ⟨h, -⟩)
    · exact absurd h p1
    · exact absurd h p4
    · exact h
    · exact absurd h p3'
    · exact absurd h p2
    · exact absurd h hd
    · exact absurd h p5
    · exact absurd h p3'
  rw [if_pos p6]
  refine ⟨_, rfl, ?_⟩
  unfold startHTTP
  rw [if_neg (by decide)]
  refine ⟨rfl, rfl, rfl, rfl, fun _ => .inl rfl, ?_, fun h => absurd h (hno p4), fun _ => (by show onlyVersion (str "tcp") = none; decide)⟩
  rintro (h | h | h | ⟨h, -⟩)
  · exact absurd h p2
  · exact absurd h hd
  · exact absurd h p5
  · exact absurd h p3'

/-- **C84 (finding).** `ip-version` is heeded exactly for plain DNS, and for DoT without a namespace and socket options; otherwise the socket takes both versions,
whatever the section says. -/
theorem version_heeded_iff (lib : Xsocket.NetLib) (l : Lis) (hs : Sound l) (hd : l.protocol ≠ str "dtls") (s : Sock) (ho : opens lib l = some s) :
    onlyVersion s.network = versionAsked l ↔ (l.ipVersion = 0 ∨ HeedsVersion l) := by
  obtain ⟨s', h1, -, -, -, -, -, -, h2, h3⟩ := socket_as_configured lib l hs hd
  rw [ho] at h1
  obtain rfl := Option.some.inj h1
  by_cases hh : HeedsVersion l
  · exact ⟨fun _ => .inr hh, fun _ => h2 hh⟩
  · rw [h3 hh]
    unfold versionAsked
    by_cases hz : l.ipVersion = 0
    · simp [hz]
    · simp [hz, hh]

/-- **C84.** A DTLS listener opens a UDP socket in the namespace named, or fails if it is to use a socket server; it fails too if the port is not a number. It is never
restricted to a version of IP, and never has a mark or an interface. The address is the one given if that is an IP address. -/
theorem dtls_socket (lib : Xsocket.NetLib) (l : Lis) (hs : Sound l) (hd : l.protocol = str "dtls") :
    (l.xsocket ≠ [] → opens lib l = none) ∧
    ∀ s, opens lib l = some s → l.xsocket = [] ∧ s.network = str "udp" ∧ s.place = placeAsked l ∧ s.mark = 0 ∧ s.device = [] ∧
      ∃ host port n, Validate.splitHostPort l.address = some (host, port) ∧ lib.atoi port = some n ∧ s.bound = .at (lib.parseIP host) n := by
  obtain ⟨h1, hv, hn⟩ := hs
  have he : opens lib l = startDTLS lib l.address (placeAsked l) := by
    unfold opens
    rw [if_neg (versions hv), place_eq hn]
    simp only
    rw [hd, if_neg (by decide), if_neg (by decide), if_neg (by decide), if_neg (by decide), if_pos rfl]
  rw [he]
  constructor
  · intro hx
    have : placeAsked l = .server l.xsocket := by unfold placeAsked; rw [if_neg (by simp [hn.resolve_right hx]), if_pos hx]
    rw [this]; rfl
  · intro s hs
    have hx : l.xsocket = [] := by
      refine Classical.byContradiction fun hx => ?_
      have : placeAsked l = .server l.xsocket := by unfold placeAsked; rw [if_neg (by simp [hn.resolve_right hx]), if_pos hx]
      rw [this] at hs; cases hs
    refine ⟨hx, ?_⟩
    unfold startDTLS at hs
    cases hp : placeAsked l with
    | server p => rw [hp] at hs; cases hs
    | here =>
      simp only [hp] at hs
      cases hsp : Validate.splitHostPort l.address with
      | none => simp only [hsp] at hs; cases hs
      | some hpair =>
        obtain ⟨host, port⟩ := hpair
        simp only [hsp] at hs
        cases ha : lib.atoi port with
        | none => simp only [ha] at hs; cases hs
        | some n =>
          simp only [ha, Option.some.injEq] at hs
          subst hs
          exact ⟨rfl, rfl, rfl, rfl, host, port, n, rfl, ha, rfl⟩
    | named name =>
      simp only [hp] at hs
      cases hsp : Validate.splitHostPort l.address with
      | none => simp only [hsp] at hs; cases hs
      | some hpair =>
        obtain ⟨host, port⟩ := hpair
        simp only [hsp] at hs
        cases ha : lib.atoi port with
        | none => simp only [ha] at hs; cases hs
        | some n =>
          simp only [ha, Option.some.injEq] at hs
          subst hs
          exact ⟨rfl, rfl, rfl, rfl, host, port, n, rfl, ha, rfl⟩

/-- **C84 (finding).** If the address of a DTLS listener has a name (such as `localhost`) or an address with a zone, the listener takes
queries on every address of the machine. -/
theorem dtls_name_means_everywhere (lib : Xsocket.NetLib) (l : Lis) (hs : Sound l) (hd : l.protocol = str "dtls") (hx : l.xsocket = [])
    (host port : Str) (n : Int) (hsp : Validate.splitHostPort l.address = some (host, port)) (hn : lib.atoi port = some n)
    (hname : lib.parseIP host = none) : ∃ s, opens lib l = some s ∧ s.bound = .at none n := by
  obtain ⟨h1, hv, hns⟩ := hs
  have he : opens lib l = startDTLS lib l.address (placeAsked l) := by
    unfold opens
    rw [if_neg (versions hv), place_eq hns]
    simp only
    rw [hd, if_neg (by decide), if_neg (by decide), if_neg (by decide), if_neg (by decide), if_pos rfl]
  rw [he]
  have : placeAsked l = .here ∨ placeAsked l = .named l.netns := by
    unfold placeAsked; by_cases h : l.netns = [] <;> simp [h, hx]
  unfold startDTLS
  rcases this with h | h <;> rw [h] <;> simp only [hsp, hn, hname] <;> exact ⟨_, rfl, rfl⟩

/-- **C84.** Sections that make no sense open nothing. -/
theorem unsound_opens_nothing (lib : Xsocket.NetLib) (l : Lis) (hs : ¬ Sound l) : opens lib l = none := by
  refine Classical.byContradiction fun hc => hs ?_
  obtain ⟨s, ho⟩ := Option.ne_none_iff_exists'.mp hc
  unfold opens at ho
  split at ho
  · cases ho
  rename_i hv
  split at ho
  · cases ho
  rename_i p hp
  refine ⟨?_, by omega, ?_⟩
  · split at ho
    · exact .inl (.inl ‹_›)
    split at ho
    · exact .inr (.inl ‹_›)
    split at ho
    · rename_i hh
      split at ho
      · rename_i ht
        rcases ht with ht | ht | ht
        · exact .inl (.inr (.inr (.inr ⟨hh.symm, .inr ht⟩)))
        · exact .inl (.inr (.inr (.inr ⟨hh.symm, .inl ht⟩)))
        · exact .inr (.inr (.inr (.inr ⟨hh.symm, ht⟩)))
      · cases ho
    split at ho
    · exact .inl (.inr (.inl ‹_›))
    split at ho
    · exact .inr (.inr (.inl ‹_›))
    split at ho
    · exact .inr (.inr (.inr (.inl ‹_›)))
    split at ho
    · exact .inl (.inr (.inr (.inl ‹_›)))
    · cases ho
  · unfold buildNetNS at hp
    by_cases h1 : l.netns = []
    · exact .inl h1
    · by_cases h2 : l.xsocket = []
      · exact .inr h2
      · rw [if_pos ⟨h1, h2⟩] at hp; cases hp

/-! ### Concrete cases -/
section Examples
private def lib0 : Xsocket.NetLib where
  atoi s := if s = str "853" then some 853 else none
  parseIP s := if s = str "127.0.0.1" then some [127, 0, 0, 1] else none
  lookup _ _ := none

private def dot6 : Lis := { protocol := str "dot", address := str "[::1]:853", ipVersion := 6 }

example : Sound dot6 := by unfold Sound overTCP overUDP dot6; decide
example : opens lib0 dot6 = some ⟨str "tcp6", .text (str "[::1]:853"), .here, 0, []⟩ := by decide
/-- with a mark, the version is forgotten -/
example : opens lib0 { dot6 with opts := { mark := 7 } } = some ⟨str "tcp", .text (str "[::1]:853"), .here, 7, []⟩ := by decide
/-- a DTLS listener for `localhost` listens everywhere -/
example : opens lib0 { protocol := str "dtls", address := str "localhost:853" } = some ⟨str "udp", .at none 853, .here, 0, []⟩ := by decide
example : opens lib0 { protocol := str "dtls", address := str "127.0.0.1:853", netns := str "ns1" } =
    some ⟨str "udp", .at (some [127, 0, 0, 1]) 853, .named (str "ns1"), 0, []⟩ := by decide
example : opens lib0 { protocol := str "doh", address := str ":443", transport := str "quic", xsocket := str "/s", opts := { device := str "eth0" } } =
    some ⟨str "udp", .text (str ":443"), .server (str "/s"), 0, str "eth0"⟩ := by decide

end Examples

end Verif.Props.ListenSock
