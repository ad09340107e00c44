import Verif.Model.Listeners
/-
net-resolver.go: name look-ups of the Go library that are answered by an element of the configuration (the bootstrap resolver, cmd/routedns/main.go:202-209), with
the part of the Go library that uses the connection (Go's net/dnsclient_unix.go, functions `dnsPacketRoundTrip`, `checkResponse` and `exchange`).
-/
namespace Verif.NetResolver
open Verif Verif.Listeners

/-- What the Go library reads of a message: header and questions. For the messages that net-resolver.go:51-92 passes on. -/
structure Head where
  id : Nat
  response : Bool
  tc : Bool
  question : List Question
deriving DecidableEq, Repr

/-- net-resolver.go:36-49: the messages in the channel of the connection; reading waits for ever on an empty channel. The deadlines set by the Go library are
ignored (net-resolver.go:106-116). -/
structure Conn where
  queue : List Msg := []

/-- How a call ends. net-resolver.go:74-92 `Write`. -/
inductive Written where
  | ok (c : Conn)
  | failed
  /-- the channel is full (net-resolver.go:47: its capacity is 1) -/
  | blocked

/-- net-resolver.go:74-92 `Write` -/
def write (lib : Lib) (r : Pipeline) (c : Conn) (p : Str) : Written := match lib.unpack p with
  | none => .failed
  | some q =>
    let res := r q { sourceIP := [127, 0, 0, 1] }
    match res.err, res.msg with
    | some _, _ => .failed
    | none, none => .failed
    | none, some a => if c.queue.length < 1 then .ok { queue := c.queue ++ [a] } else .blocked

/-- What net-resolver.go:51-64 `Read` gives -/
inductive Reading where
  | bytes (b : Str) (c : Conn)
  | failed (c : Conn)
  | blocked

/-- net-resolver.go:51-62 `Read` with a buffer of `size` bytes -/
def readConn (lib : Lib) (c : Conn) (size : Nat) : Reading := match c.queue with
  | [] => .blocked
  | a :: rest => match lib.pack a with
    | none => .failed { queue := rest }
    | some b => if size < b.length then .failed { queue := rest } else .bytes b { queue := rest }

/-- Go's `maxDNSPacketSize`. The size of the buffer that Go gives to net-resolver.go:51-64. -/
def maxPacket : Nat := 1232

/-- Go's `checkResponse`. Go library; reads from net-resolver.go:51-64. -/
def checkResponse (id : Nat) (q : Question) (h : Head) : Bool :=
  h.response && h.id == id && match h.question with
    | [] => false
    | x :: _ => x.qtype == q.qtype && x.qclass == q.qclass && equalFold x.name q.name

/-- What Go's resolver makes of net-resolver.go:51-92 -/
inductive Outcome where
  /-- the message with these bytes is used -/
  | answer (b : Str)
  | failed
  /-- waits for ever -/
  | hangs
deriving DecidableEq, Repr

/-- The loop of Go's `dnsPacketRoundTrip`: messages that do not check out are passed over. `n` bounds the messages to be read; one more than there are in the channel is enough, as nobody
else writes to the connection. It reads from net-resolver.go:51-64. -/
def await (lib : Lib) (parse : Str → Option Head) (id : Nat) (q : Question) : Nat → Conn → Outcome
  | 0, _ => .hangs
  | n + 1, c => match readConn lib c maxPacket with
    | .blocked => .hangs
    | .failed _ => .failed
    | .bytes b c' => match parse b with
      | none => await lib parse id q n c'
      | some h => if checkResponse id q h then .answer b else await lib parse id q n c'

/-- Go's `dnsPacketRoundTrip` on a new connection (net-resolver.go:23-25, 42-49) -/
def roundTrip (lib : Lib) (parse : Str → Option Head) (r : Pipeline) (id : Nat) (q : Question) (p : Str) : Outcome := match write lib r {} p with
  | .failed => .failed
  | .blocked => .hangs
  | .ok c => await lib parse id q (c.queue.length + 1) c

/-- Go's `exchange` on the result of a round trip: a message with other than one question is an error; a truncated one is asked for again in `tcp` mode, which for
this connection (a `net.PacketConn`) is the same again. It uses net-resolver.go:51-92. -/
def exchange (lib : Lib) (parse : Str → Option Head) (r1 r2 : Pipeline) (id : Nat) (q : Question) (p : Str) : Outcome :=
  match roundTrip lib parse r1 id q p with
  | .answer b => match parse b with
    | none => .failed
    | some h => if h.question.length ≠ 1 then .failed
      else if h.tc then match roundTrip lib parse r2 id q p with
        | .answer b2 => match parse b2 with
          | none => .failed
          | some h2 => if h2.question.length ≠ 1 then .failed else .answer b2
        | o => o
      else .answer b
  | o => o

end Verif.NetResolver
