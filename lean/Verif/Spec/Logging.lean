import Verif.Model.Dns
/-! What the log is to say (C108). A logger belongs to a query, or to a connection; it can be asked for a copy with more attributes. Here
loggers are values: a list of attributes that nobody else can change. -/
namespace Verif.Spec.Logging

/-- What is given to a log call: a string, a ready attribute, or some other value. -/
inductive Arg (V : Type) where
  | text (s : Str)
  | attr (key : Str) (value : Arg V)
  | other (v : V)

/-- A key with its value. -/
abbrev Attr (V : Type) := Str × Arg V

/-- A list of arguments spells a list of attributes: keys alternate with values, ready attributes stand for themselves. -/
inductive Spells {V : Type} : List (Arg V) → List (Attr V) → Prop where
  | nil : Spells [] []
  | pair {k : Str} {v : Arg V} {rest : List (Arg V)} {as : List (Attr V)} : Spells rest as → Spells (.text k :: v :: rest) ((k, v) :: as)
  | ready {k : Str} {v : Arg V} {rest : List (Arg V)} {as : List (Attr V)} : Spells rest as → Spells (.attr k v :: rest) ((k, v) :: as)

/-- The four kinds of lines, from the least to the most urgent. -/
inductive Level where
  | debug | info | warn | error
deriving DecidableEq, Repr

/-- What is known of the client and the listener. An empty text: not known. -/
structure Client (V : Type) where
  source : V
  protocol : Str
  listener : Str
  path : Str

/-- A question of a query: the name, and the text of its type. -/
structure Asked where
  name : Str
  type : Str
deriving DecidableEq, Repr

/-- A logger: where it writes to, the element, the query (by its address, if there is one), the client, and the further attributes. -/
structure Logger (V : Type) where
  dst : Nat
  id : Str
  query : Option Nat
  client : Client V
  more : List (Attr V)

/-- A line of the log. -/
structure Line (V : Type) where
  dst : Nat
  level : Level
  text : Str
  attrs : List (Attr V)

/-- The attributes a line begins with: the element and the client; type and name of the (first) question if there is a query; and what is known of
the listener. -/
def context {V : Type} (id : Str) (query : Option (List Asked)) (c : Client V) : List (Attr V) :=
  [(str "id", .text id), (str "client", .other c.source)] ++
  (match query with
    | none => []
    | some [] => [(str "qtype", .text []), (str "qname", .text [])]
    | some (q :: _) => [(str "qtype", .text q.type), (str "qname", .text q.name)]) ++
  (if c.protocol = [] then [] else [(str "protocol", .text c.protocol)]) ++
  (if c.listener = [] then [] else [(str "addr", .text c.listener)]) ++
  (if c.path = [] then [] else [(str "path", .text c.path)])

/-- What happens in the program, in any order and by any number of goroutines. Loggers are named by the order of their creation. -/
inductive Happens (V : Type) (A : Type) where
  /-- an element makes a logger for a query -/
  | make (id : Str) (query : Option Nat) (c : Client V)
  /-- a copy of a logger with more attributes -/
  | more (l : Nat) (args : A)
  /-- a line is logged -/
  | log (l : Nat) (level : Level) (text : Str) (args : A)
  /-- the questions of a message are changed -/
  | change (query : Nat) (qs : List Asked)
  /-- the logger of the program is replaced, or the levels that loggers show are changed -/
  | replace (dst : Nat)
  | levels (shows : Nat → Level → Bool)

/-- The world as the specification sees it. -/
structure World (V : Type) where
  loggers : List (Logger V)
  queries : Nat → List Asked
  current : Nat
  shows : Nat → Level → Bool
  lines : List (Line V)

/-- One thing happens. -/
def World.after {V : Type} (w : World V) : Happens V (List (Attr V)) → World V
  | .make id q c => { w with loggers := w.loggers ++ [⟨w.current, id, q, c, []⟩] }
  | .more l as => match w.loggers[l]? with
    | none => w
    | some x => { w with loggers := w.loggers ++ [{ x with more := x.more ++ as }] }
  | .log l level text as => match w.loggers[l]? with
    | none => w
    | some x =>
      if w.shows x.dst level then
        { w with lines := w.lines ++ [⟨x.dst, level, text, context x.id (x.query.map w.queries) x.client ++ x.more ++ as⟩] }
      else w
  | .change q qs => { w with queries := fun a => if a = q then qs else w.queries a }
  | .replace d => { w with current := d }
  | .levels f => { w with shows := f }

/-- The same happens in the program, where attributes are spelled by arguments. -/
inductive Spelled {V B : Type} : Happens V (List (Arg V) × B) → Happens V (List (Attr V)) → Prop where
  | make {id : Str} {q : Option Nat} {c : Client V} : Spelled (.make id q c) (.make id q c)
  | more {l : Nat} {args : List (Arg V)} {b : B} {as : List (Attr V)} : Spells args as → Spelled (.more l (args, b)) (.more l as)
  | log {l : Nat} {level : Level} {text : Str} {args : List (Arg V)} {b : B} {as : List (Attr V)} : Spells args as →
      Spelled (.log l level text (args, b)) (.log l level text as)
  | change {q : Nat} {qs : List Asked} : Spelled (.change q qs) (.change q qs)
  | replace {d : Nat} : Spelled (.replace d) (.replace d)
  | levels {f : Nat → Level → Bool} : Spelled (.levels f) (.levels f)

/-- A history, step by step. -/
inductive SpelledAll {V B : Type} : List (Happens V (List (Arg V) × B)) → List (Happens V (List (Attr V))) → Prop where
  | nil : SpelledAll [] []
  | cons {x : Happens V (List (Arg V) × B)} {y : Happens V (List (Attr V))} {xs : List (Happens V (List (Arg V) × B))}
      {ys : List (Happens V (List (Attr V)))} : Spelled x y → SpelledAll xs ys → SpelledAll (x :: xs) (y :: ys)

/-- What the command line's level shows: 2 errors, 3 warnings too, 4 information too, 5 and 6 everything; 0 and 1 nothing. -/
def Shown (n : Nat) : Level → Prop
  | .error => 2 ≤ n
  | .warn => 3 ≤ n
  | .info => 4 ≤ n
  | .debug => 5 ≤ n

end Verif.Spec.Logging
