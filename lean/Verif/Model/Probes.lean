import Verif.Model.Balance
import Verif.Model.Validate
/-
fastest-tcp.go:136-224, the probes themselves: one goroutine for each record, the channel they report on, and the caller that
reads it. Verif/Model/Balance.lean has what is done with the order in which the results come.
-/
namespace Verif.Balance.Probes
open Verif Verif.Balance.Tcp
open Verif.Validate (joinHostPort)

/-- fastest-tcp.go:197-208: network and address to connect to, `none` for a record that is neither an `*dns.A` nor an `*dns.AAAA`.
`text` is `net.IP.String`. -/
def target (text : Str → Str) (port : Str) (r : RR) : Option (Str × Str) :=
  match r.data with
  | .a ip => some (str "tcp4", joinHostPort (text ip) port)
  | .aaaa ip => some (str "tcp6", joinHostPort (text ip) port)
  | _ => none

/-- Where the goroutine of one record stands. fastest-tcp.go:197-221: before the switch, in `DialContext`, in front of the channel
send with its result, in front of the deferred `Close`, returned. -/
inductive Phase where
  | fresh
  | dialing
  | sending (p : Probe)
  | closing
  | ended
deriving DecidableEq, Repr

/-- Whether the goroutine holds an open connection: from the moment it is made (fastest-tcp.go:211) until the deferred `Close` (217) -/
def Phase.holds : Phase → Bool
  | .sending (.ok _) => true
  | .closing => true
  | _ => false

/-- One call of `probeFastest` or `probeAll` (fastest-tcp.go:142-186) with its goroutines (194-223). `got` is what its `select`
has given so far, `over` says whether the context is done, `dials` are the connections tried, with the record number. -/
structure St where
  procs : List Phase
  queue : List Probe := []
  got : List Probe := []
  returned : Bool := false
  over : Bool := false
  dials : List (Nat × Str × Str) := []
  /-- milliseconds since the call -/
  now : Nat := 0
deriving DecidableEq, Repr

/-- fastest-tcp.go:195-196, 220: as many goroutines as records -/
def init (rrs : List RR) : St := { procs := rrs.map fun _ => .fresh }

/-- fastest-tcp.go:143, 169: `context.WithTimeout(…, 2*time.Second)` -/
abbrev limit : Nat := 2000

/-- fastest-tcp.go:146-157 and 172-180: whether the call returns after the latest of these receives. `n` is the number of records. -/
def finished (waitAll : Bool) (n : Nat) (got : List Probe) : Bool :=
  if waitAll then got.getLast? == some .failed || got.length == n else true

section
variable (text : Str → Str) (port : Str) (waitAll : Bool) (rrs : List RR)

/-- What can happen next, other than the passing of time. `start…`: a goroutine reads its record (fastest-tcp.go:197-206); `connect` and `refuse`: the dial ends (207-212), at
any moment; `send…`: the result goes into the channel, which has room for as many as there are records (195, 209, 218); `close`: the deferred
`Close` (217); `take`: the caller's select reads the channel (147, 174), which ends the context if the call returns (`defer cancel()`, 144, 170); `giveUp`: the caller's
select sees the context done (158, 179); `expire`: the two seconds are over. -/
inductive Act : St → St → Prop
  | start (s : St) (i : Nat) (r : RR) (t : Str × Str) : s.procs[i]? = some .fresh → rrs[i]? = some r → target text port r = some t →
      Act s { s with procs := s.procs.set i .dialing, dials := s.dials ++ [(i, t)] }
  | startOther (s : St) (i : Nat) (r : RR) : s.procs[i]? = some .fresh → rrs[i]? = some r → target text port r = none →
      Act s { s with procs := s.procs.set i (.sending .failed) }
  | connect (s : St) (i : Nat) : s.procs[i]? = some .dialing → Act s { s with procs := s.procs.set i (.sending (.ok i)) }
  | refuse (s : St) (i : Nat) : s.procs[i]? = some .dialing → Act s { s with procs := s.procs.set i (.sending .failed) }
  | sendOk (s : St) (i j : Nat) : s.procs[i]? = some (.sending (.ok j)) → s.queue.length < rrs.length →
      Act s { s with procs := s.procs.set i .closing, queue := s.queue ++ [.ok j] }
  | sendFailed (s : St) (i : Nat) : s.procs[i]? = some (.sending .failed) → s.queue.length < rrs.length →
      Act s { s with procs := s.procs.set i .ended, queue := s.queue ++ [.failed] }
  | close (s : St) (i : Nat) : s.procs[i]? = some .closing → Act s { s with procs := s.procs.set i .ended }
  | take (s : St) (p : Probe) (ps : List Probe) : s.returned = false → s.queue = p :: ps →
      Act s { s with queue := ps, got := s.got ++ [p], returned := finished waitAll rrs.length (s.got ++ [p]),
                     over := s.over || finished waitAll rrs.length (s.got ++ [p]) }
  | giveUp (s : St) : s.returned = false → s.over = true → Act s { s with got := s.got ++ [.timeout], returned := true }
  | expire (s : St) : s.over = false → s.now = limit → Act s { s with over := true }

/-- An execution of `k` such steps. Time passes freely after the call returned; before, it passes only while the caller's select (fastest-tcp.go:146-160, 173-181) has nothing to take and
the context is not done, that is, the caller is taken to be scheduled at once. -/
inductive Runs : Nat → St → St → Prop
  | refl (s : St) : Runs 0 s s
  | act (k : Nat) (a b c : St) : Runs k a b → Act text port waitAll rrs b c → Runs (k + 1) a c
  | tick (k d : Nat) (a b : St) : Runs k a b → (b.returned = true ∨ (b.queue = [] ∧ b.over = false ∧ b.now + d ≤ limit)) →
      Runs k a { b with now := b.now + d }

end
end Verif.Balance.Probes
