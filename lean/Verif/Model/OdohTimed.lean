import Verif.Model.Clients
import Verif.Model.Dialing
/-! odohclient.go with a clock: how long calls take, when keys are fetched, and where from. -/
namespace Verif.OdohTimed
open Verif Verif.Dialing

/-- A day in nanoseconds, odohclient.go:207. -/
def day : Nat := 24 * 3600 * 1000000000

/-- Where a call of odohclient.go:68-96 `Resolve` is. -/
inductive Phase (K : Type) where
  /-- in front of the lock, odohclient.go:171 -/
  | waiting
  /-- has the lock and fetches the key, odohclient.go:186; since when -/
  | fetching (since : Nat)
  /-- sends the query and waits for the reply, odohclient.go:75-95; with which key and since when -/
  | asking (k : K) (since : Nat)
  /-- over, at this time -/
  | over (t : Nat)
deriving DecidableEq

/-- A call: when it was made, and how many others were fetching a key then or began to while it waited. odohclient.go:68-96. -/
structure Call (K : Type) where
  arrived : Nat
  before : Nat
  ph : Phase K

/-- The client: clock, the key and its expiry (odohclient.go:31-38; the zero time is 0), who has the lock, the calls, and for the statements when keys were
fetched (latest first), when fetching began, and when it failed. -/
structure St (K : Type) where
  now : Nat := 0
  config : Option K := none
  expiry : Nat := 0
  lock : Option Nat := none
  calls : Nat → Option (Call K) := fun _ => none
  fetched : List (Nat × K) := []
  begun : List Nat := []
  failures : List Nat := []

/-- a call changed, the others as they are (helper for the steps of odohclient.go:68-215) -/
def St.put {K : Type} (s : St K) (i : Nat) (c : Call K) : Nat → Option (Call K) := fun j => if j = i then some c else s.calls j

/-- A call in front of the lock sees another one begin to fetch (helper for the statements about odohclient.go:171). -/
def passed {K : Type} (c : Call K) : Call K := match c.ph with
  | .waiting => { c with before := c.before + 1 }
  | _ => c

/-- The preset key: none; or one that can be read or not. odohclient.go:174-183. -/
inductive Preset (K : Type) where
  | none
  | bad
  | key (k : K)

/-- What can happen, odohclient.go:68-96 and 170-216. Simplified: what the program does itself takes no time; a call ends in some way, it does not matter how. The panic at an empty
list of keys is in Verif/Props/Clients.lean (`odoh_no_key_crashes`). `T` is the query timeout. -/
inductive Step {K : Type} (T : Nat) (p : Preset K) : St K → St K → Prop where
  /-- odohclient.go:68: a call is made -/
  | call (s : St K) (i : Nat) : s.calls i = none →
    Step T p s { s with calls := s.put i ⟨s.now, if s.lock = none then 0 else 1, .waiting⟩ }
  /-- odohclient.go:174-183: the preset key is used, and the lock given back -/
  | preset (s : St K) (i : Nat) (c : Call K) (k : K) : s.calls i = some c → c.ph = .waiting → s.lock = none → p = .key k →
    Step T p s { s with config := some k, calls := s.put i { c with ph := .asking k s.now } }
  /-- odohclient.go:176-182: the preset key cannot be read -/
  | unreadable (s : St K) (i : Nat) (c : Call K) : s.calls i = some c → c.ph = .waiting → s.lock = none → p = .bad →
    Step T p s { s with calls := s.put i { c with ph := .over s.now } }
  /-- odohclient.go:185, 188: there is a key that has not expired -/
  | cached (s : St K) (i : Nat) (c : Call K) (k : K) : s.calls i = some c → c.ph = .waiting → s.lock = none → p = .none → s.config = some k →
    ¬ s.now > s.expiry → Step T p s { s with calls := s.put i { c with ph := .asking k s.now } }
  /-- odohclient.go:185-186: fetching begins, with the lock held -/
  | fetch (s : St K) (i : Nat) (c : Call K) : s.calls i = some c → c.ph = .waiting → s.lock = none → p = .none →
    (s.config = none ∨ s.now > s.expiry) →
    Step T p s { s with lock := some i, begun := s.now :: s.begun,
                        calls := fun j => if j = i then some { c with ph := .fetching s.now } else (s.calls j).map passed }
  /-- odohclient.go:186-188, 207-214: the key is there; it expires a day later -/
  | got (s : St K) (i : Nat) (c : Call K) (t : Nat) (k : K) : s.calls i = some c → c.ph = .fetching t →
    Step T p s { s with lock := none, config := some k, expiry := s.now + day, fetched := (s.now, k) :: s.fetched,
                        calls := s.put i { c with ph := .asking k s.now } }
  /-- odohclient.go:186-188, 193-212: there is no key; the old one is dropped -/
  | failed (s : St K) (i : Nat) (c : Call K) (t : Nat) : s.calls i = some c → c.ph = .fetching t →
    Step T p s { s with lock := none, config := none, expiry := 0, failures := s.now :: s.failures, calls := s.put i { c with ph := .over s.now } }
  /-- odohclient.go:80-95: the call ends -/
  | done (s : St K) (i : Nat) (c : Call K) (k : K) (t : Nat) : s.calls i = some c → c.ph = .asking k t →
    Step T p s { s with calls := s.put i { c with ph := .over s.now } }
  /-- Time passes: nobody is waiting for a free lock, and no call is past its time limit for sending and receiving (odohclient.go:75). Fetching has none. -/
  | pass (s : St K) : (s.lock = none → ∀ i c, s.calls i = some c → c.ph ≠ .waiting) →
    (∀ i c k t, s.calls i = some c → c.ph = .asking k t → s.now < t + T) → Step T p s { s with now := s.now + 1 }

/-- What can be reached from a new client, odohclient.go:41-65. `F`: fetching takes at most this long (`none`: no limit). -/
inductive Reach {K : Type} (T : Nat) (p : Preset K) (F : Option Nat) : St K → Prop where
  | new : Reach T p F {}
  | step (s s' : St K) : Reach T p F s → Step T p s s' → (∀ f, F = some f → ∀ i c t, s'.calls i = some c → c.ph = .fetching t → s'.now ≤ t + f) → Reach T p F s'

/-- The connection for queries: odohclient.go:46 hands the options to the DoH client of the proxy; `proxyHost` and `proxyPort` are those of the proxy's URL. -/
def queryConn (lib : NetLib) (pick : List lib.IP → Option lib.IP) (quic : Bool) (u : Upstream lib) (proxyHost proxyPort : Str) : Option (Conn lib) :=
  if quic then dohQuicDial lib pick u proxyHost proxyHost proxyPort else dohTcpDial lib u proxyHost proxyPort

/-- The connection for fetching the key: odohclient.go:192-198 requests `https://target:port/.well-known/odohconfigs` with the HTTP client of the proxy
(an empty port is 443, Go's net/http). -/
def keyConn (lib : NetLib) (pick : List lib.IP → Option lib.IP) (quic : Bool) (u : Upstream lib) (proxyHost targetName targetPort : Str) : Option (Conn lib) :=
  let port := if targetPort = [] then str "443" else targetPort
  if quic then dohQuicDial lib pick u proxyHost targetName port else dohTcpDial lib u targetName port

/-- What the configuration of an ODoH server makes of the options: cmd/routedns/resolver.go:119-141 sets no dialer, unlike lines 63, 110 and 150. -/
def odohUpstream (lib : NetLib) (u : Upstream lib) : Upstream lib := { u with proxy := false }

end Verif.OdohTimed
