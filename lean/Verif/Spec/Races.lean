/-
What it means for goroutines to have a data race or a deadlock on locks, after the Go memory model (go.dev/ref/mem), independent of
any program: an execution is a list of events, one after the other, each done by one goroutine.
-/
namespace Verif.Spec.Races

/-- how a lock is held: `RLock` or `Lock` (a plain `sync.Mutex` is only held in the second way) -/
inductive Mode where
  | shared
  | exclusive
deriving DecidableEq, Repr

/-- What goroutines do to shared things: locks `L`, variables `X`, channels that are closed as a signal `C`, and goroutines they
start `G`. -/
inductive Act (L X C G : Type) where
  | acquire (m : L) (md : Mode)
  | release (m : L) (md : Mode)
  | read (x : X)
  | write (x : X)
  /-- set the variable if it was never set, otherwise only look at it -/
  | ensure (x : X)
  /-- an operation of package `sync/atomic` or on an `expvar` variable -/
  | atomic (x : X)
  | close (c : C)
  /-- a receive that returned because the channel was closed -/
  | recv (c : C)
  /-- a `go` statement -/
  | spawn (g : G)
  /-- the first thing a goroutine does -/
  | start (g : G)
deriving DecidableEq, Repr

variable {L X C G : Type} [DecidableEq L] [DecidableEq X] [DecidableEq C] [DecidableEq G]

/-- goroutines are numbered -/
abbrev Tid := Nat

/-- The events of an execution up to some moment, and for the start of a goroutine the event that started it. -/
structure Exec (L X C G : Type) where
  events : List (Tid × Act L X C G)
  starter : Nat → Nat

/-- what goroutine `t` did among the events -/
def proj (t : Tid) (es : List (Tid × Act L X C G)) : List (Act L X C G) :=
  (es.filter (fun e => e.1 == t)).map (·.2)

/-- the locks a goroutine holds after what it did -/
def heldAfter : List (L × Mode) → List (Act L X C G) → List (L × Mode)
  | h, [] => h
  | h, .acquire m md :: as => heldAfter ((m, md) :: h) as
  | h, .release m md :: as => heldAfter (h.erase (m, md)) as
  | h, _ :: as => heldAfter h as

/-- goroutine `t` holds lock `m` when event number `i` happens -/
def Holds (es : List (Tid × Act L X C G)) (t : Tid) (m : L) (md : Mode) (i : Nat) : Prop :=
  (m, md) ∈ heldAfter [] (proj t (es.take i))

/-- What locks, channels and `go` guarantee: a lock is only given when nobody holds it in a conflicting way, a receive returns after
the channel was closed, a goroutine starts after the `go` statement. -/
structure Exec.Possible (e : Exec L X C G) : Prop where
  locks : ∀ (k : Nat) (t : Tid) (m : L) (md : Mode), e.events[k]? = some (t, Act.acquire m md) →
    ∀ (t' : Tid) (md' : Mode), Holds e.events t' m md' k → md = .shared ∧ md' = .shared
  recvs : ∀ (k : Nat) (t : Tid) (c : C), e.events[k]? = some (t, Act.recv c) →
    ∃ (i : Nat) (t' : Tid), i < k ∧ e.events[i]? = some (t', Act.close c)
  starts : ∀ (k : Nat) (t : Tid) (g : G), e.events[k]? = some (t, Act.start g) →
    e.starter k < k ∧ ∃ t' : Tid, e.events[e.starter k]? = some (t', Act.spawn g)

/-- Happens-before: the order within a goroutine, from a release of a lock to later acquisitions that exclude each other, from closing a
channel to a receive, from a `go` statement to the start of its goroutine, and what follows from these. -/
inductive HB (e : Exec L X C G) : Nat → Nat → Prop
  | po {i j : Nat} {t : Tid} {a b : Act L X C G} : i < j → e.events[i]? = some (t, a) → e.events[j]? = some (t, b) → HB e i j
  | lock {i j : Nat} {t t' : Tid} {m : L} {md md' : Mode} : i < j → e.events[i]? = some (t, Act.release m md) →
      e.events[j]? = some (t', Act.acquire m md') → ¬(md = .shared ∧ md' = .shared) → HB e i j
  | chan {i j : Nat} {t t' : Tid} {c : C} : i < j → e.events[i]? = some (t, Act.close c) → e.events[j]? = some (t', Act.recv c) → HB e i j
  | go {j : Nat} {t t' : Tid} {g : G} : e.events[e.starter j]? = some (t, Act.spawn g) → e.events[j]? = some (t', Act.start g) →
      HB e (e.starter j) j
  | trans {i j k : Nat} : HB e i j → HB e j k → HB e i k

/-- event `i` reads or writes `x` (in any way) -/
def Accesses (e : Exec L X C G) (i : Nat) (x : X) : Prop :=
  ∃ t : Tid, e.events[i]? = some (t, Act.read x) ∨ e.events[i]? = some (t, Act.write x) ∨ e.events[i]? = some (t, Act.ensure x) ∨
    e.events[i]? = some (t, Act.atomic x)

/-- event `i` writes `x`: a write, the first `ensure`, or an atomic operation -/
def Writes (e : Exec L X C G) (i : Nat) (x : X) : Prop :=
  ∃ t : Tid, e.events[i]? = some (t, Act.write x) ∨ e.events[i]? = some (t, Act.atomic x) ∨
    (e.events[i]? = some (t, Act.ensure x) ∧ ∀ (k : Nat) (t' : Tid), e.events[k]? = some (t', Act.ensure x) → i ≤ k)

/-- event `i` is an atomic operation on `x` -/
def AtomicAt (e : Exec L X C G) (i : Nat) (x : X) : Prop := ∃ t : Tid, e.events[i]? = some (t, Act.atomic x)

/-- A data race: two accesses to one variable, at least one of them a write, not both atomic, neither happening before the other. -/
def Race (e : Exec L X C G) : Prop :=
  ∃ (i j : Nat) (x : X), i < j ∧ Accesses e i x ∧ Accesses e j x ∧ (Writes e i x ∨ Writes e j x) ∧
    ¬(AtomicAt e i x ∧ AtomicAt e j x) ∧ ¬ HB e i j

/-- Goroutines that wait for each other for ever: each of them is about to acquire a lock that another (or itself) in the set holds.
(`next t` is what `t` is about to do.) -/
def Deadlock (e : Exec L X C G) (next : Tid → Option (Act L X C G)) (S : Tid → Prop) : Prop :=
  (∃ t, S t) ∧ ∀ t, S t → ∃ (m : L) (md : Mode), next t = some (Act.acquire m md) ∧
    ∃ (t' : Tid) (md' : Mode), S t' ∧ Holds e.events t' m md' e.events.length

end Verif.Spec.Races
