import Verif.Model.LuaBind

/-!
What scripts can rely on when they read and write the fields of messages, questions, records and options.

The fields are described as the manual describes them: by type of object, with the sort of values each field
takes. Nothing here refers to how the fields are stored.
-/

namespace Verif.Spec.LuaBind
open Verif.LuaBind

/-- `n` is the whole part of `x ≥ 0`. -/
def Whole (x : Rat) (n : Nat) : Prop := (n : Rat) ≤ x ∧ x < (n : Rat) + 1

/-- `i` is `x` without its fraction. -/
def Trunc (x : Rat) (i : Int) : Prop :=
  (0 ≤ i ∧ (i : Rat) ≤ x ∧ x < (i : Rat) + 1) ∨ (i ≤ 0 ∧ (i : Rat) - 1 < x ∧ x ≤ (i : Rat))

/-- The conversions of the language: a float in the range of the integer type loses its fraction (what happens
outside the range depends on the machine), and integers up to 2^53 are floats. The struct of OPT records is a
header and the options. -/
structure Contract (E : Env) : Prop where
  uint_lt : ∀ (w : Nat) (x : Num), E.uint w x < 2 ^ w
  uint_whole : ∀ (w : Nat) (x : Rat) (n : Nat), Whole x n → n < 2 ^ w → E.uint w (.fin x) = n
  int_trunc : ∀ (x : Rat) (i : Int), Trunc x i → -2 ^ 63 ≤ i → i < 2 ^ 63 → E.int (.fin x) = i
  ofNat_exact : ∀ n : Nat, n ≤ 2 ^ 53 → E.ofNat n = .fin (n : Rat)
  ofInt_exact : ∀ i : Int, -2 ^ 53 ≤ i → i ≤ 2 ^ 53 → E.ofInt i = .fin (i : Rat)
  opt_layout : E.types typeOPT = some (.plain [(str "Hdr", .hdr), (str "Option", .options)])

/-- Two lists agree element by element. -/
inductive Each {α β : Type} (R : α → β → Prop) : List α → List β → Prop where
  | nil : Each R [] []
  | cons {a : α} {b : β} {l : List α} {l' : List β} : R a b → Each R l l' → Each R (a :: l) (b :: l')

/-- How a script sees an object: a message, a question, a record of some type, an OPT record, an option, a
client. -/
inductive View where
  | message | question | rr (gotype : Nat) | opt | option (k : Kind) | client

/-- The sorts of fields.
* `number w`: a number of `w` bits; strings that read as numbers are taken too. `field w`: only numbers.
* `cut w`: a number; only the lower `w` bits are kept.
* `id`: a number; its lower 16 bits are kept, also when it is negative.
* `int`: a number, kept as it is.
* `flag`: true or false.
* `text`: a string; numbers are taken too. `strict`: a string.
* `address`: the text of an IP address; `address?`: that, or nil.
* `bytes`: a list of numbers of 8 bits; `numbers`: of 16 bits. `texts`: a list of strings.
* `records`, `options`, `questions`: lists of these.
* `extended`: the extended response code. -/
inductive Typ where
  | number (w : Nat) | field (w : Nat) | cut (w : Nat) | id | int | flag | text | strict | address | address? | bytes | numbers
  | texts | records | options | questions | extended
  deriving DecidableEq

/-- The sort of a field of a record, by its Go type. -/
def sortOf : FType → Option Typ
  | .hdr => none
  | .ip => some .address?
  | .string => some .strict
  | .uint w => some (.cut w)
  | .u16s => some .numbers
  | .strings => some .texts
  | .apl => none
  | .svcb => none
  | .options => some .options

/-- The data fields of a record type as scripts name them: the lower-case names of the fields of the struct,
or of the struct that is embedded in it. -/
def dataFields : Layout → List (Str × FType)
  | .plain l => (l.filter (·.2 ≠ .hdr)).map fun e => (lower e.1, e.2)
  | .composed _ l => (l.filter (·.2 ≠ .hdr)).map fun e => (lower e.1, e.2)

/-- Those of them that can be set. -/
def dataSettable (l : Layout) : List (Str × Typ) := (dataFields l).filterMap fun e => (sortOf e.2).map fun s => (e.1, s)

/-- The names of the header fields of records. -/
def headerNames : List Str := [str "name", str "rtype", str "class", str "ttl", str "rdlength"]

/-- The record types are as in the library: names of fields differ, also from those of the header, and none is
empty. -/
def Plain (E : Env) : Prop := ∀ (g : Nat) (l : Layout), E.types g = some l →
  (dataFields l).Pairwise (fun e e' => e.1 ≠ e'.1) ∧ ∀ e ∈ dataFields l, e.1 ∉ headerNames ∧ e.1 ≠ []

/-- The fields that can be read and set. -/
def settable (E : Env) : View → List (Str × Typ)
  | .message => [(str "questions", .questions), (str "id", .id), (str "response", .flag), (str "rcode", .int),
      (str "recursion_desired", .flag), (str "recursion_available", .flag), (str "authoritative", .flag),
      (str "authenticated_data", .flag), (str "answer", .records), (str "ns", .records), (str "extra", .records)]
  | .question => [(str "name", .text), (str "qtype", .number 16), (str "qclass", .number 16)]
  | .rr g => [(str "name", .strict), (str "class", .field 16), (str "ttl", .field 32)] ++
      ((E.types g).map dataSettable).getD []
  | .opt => [(str "udp_size", .number 16), (str "do_bit", .flag), (str "version", .number 8),
      (str "extended_rcode", .extended), (str "option", .options)]
  | .option .cookie => [(str "cookie", .text)]
  | .option .dau => [(str "algcode", .bytes)]
  | .option .dhu => [(str "algcode", .bytes)]
  | .option .n3u => [(str "algcode", .bytes)]
  | .option .ede => [(str "infocode", .number 16), (str "extratext", .text)]
  | .option .esu => [(str "uri", .text)]
  | .option .expire => [(str "expire", .number 32)]
  | .option .llq => [(str "version", .number 16), (str "opcode", .number 16), (str "error", .number 16),
      (str "id", .number 64), (str "leaselife", .number 32)]
  | .option .loc => [(str "code", .number 16), (str "data", .text)]
  | .option .nsid => [(str "nsid", .text)]
  | .option .padding => [(str "padding", .text)]
  | .option .subnet => [(str "family", .number 16), (str "sourcenetmask", .number 8), (str "sourcescope", .number 8),
      (str "address", .address)]
  | .option .keepalive => [(str "timeout", .number 16)]
  | .option .ul => [(str "lease", .number 32), (str "keylease", .number 32)]
  | .option .unregistered => []
  | .client => []

/-- The fields that can only be read. -/
def readOnly : View → List Str
  | .message => [str "set_reply", str "set_question", str "is_edns0", str "set_edns0"]
  | .question => []
  | .rr _ => [str "rtype", str "rdlength"]
  | .opt => [str "name", str "rtype"]
  | .option .unregistered => []
  | .option _ => [str "option"]
  | .client => [str "source_ip", str "doh_path", str "tls_server_name", str "listener", str "protocol",
      str "listener_addr"]

/-- The number that a value stands for, where strings are taken as numbers too. -/
def Denotes (E : Env) : LVal → Num → Prop
  | .num y, x => x = y
  | .string s, x => E.number s = some x
  | _, _ => False

/-- The text that a value stands for, where numbers are taken as text too. -/
def Spells (E : Env) : LVal → Str → Prop
  | .string t, s => s = t
  | .num x, s => E.text x = some s
  | _, _ => False

/-- The values that a field takes. Others are refused. -/
def Takes (E : Env) : Typ → LVal → Prop
  | .number _, v => ∃ x, Denotes E v x
  | .extended, v => ∃ x, Denotes E v x
  | .field _, v => ∃ x, v = .num x
  | .cut _, v => ∃ x, v = .num x
  | .id, v => ∃ x, v = .num x
  | .int, v => ∃ x, v = .num x
  | .flag, v => ∃ b, v = .bool b
  | .text, v => ∃ s, Spells E v s
  | .strict, v => ∃ s, v = .string s
  | .address, v => ∃ s, Spells E v s ∧ E.parseIP s ≠ none
  | .address?, v => v = .nil ∨ ∃ s, v = .string s ∧ E.parseIP s ≠ none
  | .bytes, v => ∃ l, v = .table l ∧ ∀ x ∈ l, ∃ n, x = .num n
  | .numbers, v => ∃ l, v = .table l ∧ ∀ x ∈ l, ∃ n, x = .num n
  | .texts, v => ∃ l, v = .table l ∧ ∀ x ∈ l, ∃ s, x = .string s
  | .records, v => ∃ l, v = .table l ∧ ∀ x ∈ l, ∃ m a, x = .user m (.record a)
  | .options, v => ∃ l, v = .table l ∧ ∀ x ∈ l, ∃ m a, x = .user m (.option a)
  | .questions, v => ∃ l, v = .table l ∧ ∀ x ∈ l, ∃ m a i, x = .user m (.question a i)

/-- `r` shows the number `x` kept in `w` bits: a number that fits is shown as its whole part (beyond 2^53 as
the nearest float), any other as some number of that width. -/
def ShowsNumber (E : Env) (w : Nat) (x : Num) (r : LVal) : Prop :=
  (∃ n, n < 2 ^ w ∧ r = .num (E.ofNat n)) ∧
  ∀ (y : Rat) (n : Nat), x = .fin y → Whole y n → n < 2 ^ w → n ≤ 2 ^ 53 → r = .num (.fin (n : Rat))

/-- Two userdata hold the same object. -/
def SameObject : LVal → LVal → Prop
  | .user _ p, .user _ p' => p = p'
  | _, _ => False

/-- The three fields of a question, as a script reads them. -/
def questionFields (E : Env) (m : Mem) (q : LVal) : List (Option LVal) :=
  [index E m .question q (.string (str "name")), index E m .question q (.string (str "qtype")),
   index E m .question q (.string (str "qclass"))]

/-- `r`, read after `v` was assigned, shows what was assigned. `m` and `m'` are the memory before and after. -/
def Shows (E : Env) (m m' : Mem) : Typ → LVal → LVal → Prop
  | .number w, v, r => ∃ x, Denotes E v x ∧ ShowsNumber E w x r
  | .field w, v, r => ∃ x, v = .num x ∧ ShowsNumber E w x r
  | .cut w, v, r => ∃ x, v = .num x ∧ (∃ n, n < 2 ^ w ∧ r = .num (E.ofNat n)) ∧
      ∀ (y : Rat) (n : Nat), x = .fin y → Whole y n → n < 2 ^ 64 → n % 2 ^ w ≤ 2 ^ 53 →
        r = .num (.fin ((n % 2 ^ w : Nat) : Rat))
  | .id, v, r => ∃ x, v = .num x ∧ ∀ (y : Rat) (i : Int), x = .fin y → Trunc y i → -2 ^ 63 ≤ i → i < 2 ^ 63 →
      r = .num (.fin (((i % 2 ^ 16).toNat : Nat) : Rat))
  | .int, v, r => ∃ x, v = .num x ∧ ∀ (y : Rat) (i : Int), x = .fin y → Trunc y i → -2 ^ 53 ≤ i → i ≤ 2 ^ 53 →
      r = .num (.fin (i : Rat))
  | .flag, v, r => r = v
  | .text, v, r => ∃ s, Spells E v s ∧ r = .string s
  | .strict, v, r => r = v
  | .address, v, r => ∃ s a, Spells E v s ∧ E.parseIP s = some a ∧ r = .string (E.ipString a)
  | .address?, v, r => (v = .nil ∧ r = .nil) ∨
      ∃ s a, v = .string s ∧ E.parseIP s = some a ∧ r = .string (E.ipString a)
  | .bytes, v, r => ∃ l l', v = .table l ∧ r = .table l' ∧ Each (fun y z => ∃ x, y = .num x ∧ ShowsNumber E 8 x z) l l'
  | .numbers, v, r => ∃ l l', v = .table l ∧ r = .table l' ∧
      Each (fun y z => ∃ x, y = .num x ∧ ShowsNumber E 16 x z) l l'
  | .texts, v, r => r = v
  | .records, v, r => ∃ l l', v = .table l ∧ r = .table l' ∧ Each SameObject l l'
  | .options, v, r => ∃ l l', v = .table l ∧ r = .table l' ∧ Each SameObject l l'
  | .questions, v, r => ∃ l l', v = .table l ∧ r = .table l' ∧
      Each (fun q q' => questionFields E m' q' = questionFields E m q ∧ ∃ i, q' = .user (some .question) (.question m.next i)) l l'
  | .extended, v, r => ∃ x, Denotes E v x ∧ ∀ (y : Rat) (n : Nat), x = .fin y → Whole y n → n < 2 ^ 16 →
      r = .num (.fin ((n / 16 % 16 * 16 : Nat) : Rat))

/-- The userdata `obj` is an object of this kind, made before. -/
inductive Is (m : Mem) : LVal → View → Prop where
  | message {a : Nat} : a < m.next → Is m (.user (some .message) (.msg a)) .message
  | question {a i : Nat} : a < m.next → i < (m.arrs a).length → Is m (.user (some .question) (.question a i)) .question
  | rr {a : Nat} : a < m.next → Is m (.user (some .rr) (.record a)) (.rr (m.recs a).gotype)
  | opt {a : Nat} : a < m.next → (m.recs a).gotype = typeOPT → Is m (.user (some .opt) (.record a)) .opt
  | option {a : Nat} {k : Kind} : a < m.next → (m.opts a).kind = k → k ≠ .unregistered →
      Is m (.user (some (.option k)) (.option a)) (.option k)
  | client {ci : Client} : Is m (.user (some .client) (.client ci)) .client

/-- Fields of the same object that are stored in one place: the fields of an OPT record seen as a record, and
the code of a local option. -/
def linked : View → Str → View → Str → Bool
  | .opt, f, .rr _, g => (f = str "udp_size" ∧ g = str "class") ∨
      (f ∈ [str "do_bit", str "version", str "extended_rcode"] ∧ g = str "ttl")
  | .rr _, g, .opt, f => (f = str "udp_size" ∧ g = str "class") ∨
      (f ∈ [str "do_bit", str "version", str "extended_rcode"] ∧ g = str "ttl")
  | .option .loc, f, .option .loc, g => f = str "code" ∧ g = str "option"
  | _, _, _, _ => false

/-- An assignment to field `f` of one object can be seen in field `g` of another. -/
def Touches (obj : LVal) (view : View) (f : Str) (obj' : LVal) (view' : View) (g : Str) : Prop :=
  SameObject obj obj' ∧ (f = g ∨ linked view f view' g = true)

/-- The memory is in order: messages keep their questions in arrays that exist, the records of messages and the
options of records exist, and records that say they are OPT records are. (The DNS library crashes on records
that only say so.) -/
structure Ordered (m : Mem) : Prop where
  question : ∀ a, (m.msgs a).question < m.next
  records : ∀ a, ∀ r ∈ (m.msgs a).answer ++ (m.msgs a).ns ++ (m.msgs a).extra, r < m.next
  options : ∀ (a : Nat) (i : List Nat) (l : List Nat), (m.recs a).data i = .refs l → ∀ o ∈ l, o < m.next
  opt : ∀ a, (m.recs a).rtype = typeOPT → (m.recs a).gotype = typeOPT

/-- The object of a userdata exists. Scripts have no other userdata. -/
def There (m : Mem) : LVal → Prop
  | .user _ (.msg a) => a < m.next
  | .user _ (.question a _) => a < m.next
  | .user _ (.record a) => a < m.next
  | .user _ (.option a) => a < m.next
  | _ => True

/-- The same for the elements of a table. -/
def Held (m : Mem) : LVal → Prop
  | .table l => ∀ x ∈ l, There m x
  | v => There m v

/-- `m'` is `m` with more objects. This is what a resolver does that is asked by a script: it makes a reply. -/
structure Extends (m m' : Mem) : Prop where
  next : m.next ≤ m'.next
  msgs : ∀ a, a < m.next → m'.msgs a = m.msgs a
  arrs : ∀ a, a < m.next → m'.arrs a = m.arrs a
  recs : ∀ a, a < m.next → m'.recs a = m.recs a
  opts : ∀ a, a < m.next → m'.opts a = m.opts a

/-- What a script can do to the memory in one operation. -/
inductive Does (E : Env) : Mem → Mem → Prop where
  | assign {m : Mem} (obj : LVal) (f : Str) (v : LVal) : There m obj → Held m v → Does E m (assign E m obj f v).1
  | message {m : Mem} : Does E m (newMessage m).1
  | question {m : Mem} (args : List LVal) (r : Mem × LVal) : newQuestion E m args = some r → Does E m r.1
  | rr {m : Mem} (t : List (LVal × LVal)) (r : Mem × LVal) : (∀ e ∈ t, Held m e.2) → newRR E m t = some r → Does E m r.1
  | opt {m : Mem} (args : List LVal) (r : Mem × LVal) : newOPT E m args = some r → Does E m r.1
  | option {m : Mem} (k : Kind) (args : List LVal) (r : Mem × LVal) : newOption E m k args = some r → Does E m r.1
  | reply {m : Mem} (a b : Nat) : a < m.next → b < m.next → Does E m (setReplyTo m a b)
  | ask {m : Mem} (random a : Nat) (name type : LVal) (m' : Mem) : a < m.next → setQuestionTo E random m a name type = some m' → Does E m m'
  | edns0 {m : Mem} (a : Nat) (size d : LVal) (m' : Mem) : a < m.next → setEdns0 E m a size d = some m' → Does E m m'
  | resolve {m : Mem} (m' : Mem) : Extends m m' → Ordered m' → Does E m m'

/-- Any number of operations. -/
inductive Runs (E : Env) : Mem → Mem → Prop where
  | refl {m : Mem} : Runs E m m
  | step {m m' m'' : Mem} : Runs E m m' → Does E m' m'' → Runs E m m''

/-- All fields of all objects other than `obj` read as before. -/
def Keeps (E : Env) (m m' : Mem) (obj : LVal) : Prop :=
  ∀ (obj' : LVal) (view : View) (g : Str), Is m obj' view → ¬ SameObject obj obj' → get E m' obj' g = get E m obj' g

/-- `obj` is a new object: none of those that there were. -/
def Fresh (m : Mem) (obj : LVal) : Prop := ∀ (obj' : LVal) (view : View), Is m obj' view → ¬ SameObject obj obj'

/-- The record behind a userdata says that it is of type `n`. -/
def Says (m : Mem) (n : Nat) : LVal → Prop
  | .user _ (.record a) => (m.recs a).rtype = n
  | _ => False

/-- What new options and records read before anything is set, by sort of field. -/
def initial (E : Env) : Typ → LVal
  | .text => .string []
  | .strict => .string []
  | .address => .string (str "<nil>")
  | .address? => .nil
  | .bytes => .table []
  | .numbers => .table []
  | .texts => .table []
  | .options => .table []
  | _ => .num (E.ofNat 0)

/-- The option codes (IANA). Local options have a code of their own. -/
def codeOf : Kind → Option Nat
  | .llq => some 1 | .ul => some 2 | .nsid => some 3 | .esu => some 4 | .dau => some 5 | .dhu => some 6 | .n3u => some 7
  | .subnet => some 8 | .expire => some 9 | .cookie => some 10 | .keepalive => some 11 | .padding => some 12
  | .ede => some 15 | .loc => none | .unregistered => none

/-- The arguments of `new`, in order: the fields they set. -/
def parameters (E : Env) : View → List (Str × Typ)
  | .opt => [(str "udp_size", .number 16), (str "do_bit", .flag)]
  | view => settable E view

/-- The entries of a Lua table have different keys. -/
def Keyed (t : List (LVal × LVal)) : Prop := t.Pairwise fun e e' => e.1 ≠ e'.1

/-- The entries of a table from which a record of type `n` can be made: its fields, with values they take. -/
def Fills (E : Env) (n : Nat) (e : LVal × LVal) : Prop :=
  ∃ (f : Str) (t : Typ), e.1 = .string f ∧ (f, t) ∈ settable E (.rr n) ∧ Takes E t e.2

/-- What a script gets from a resolver it asked: nil or the answer, nil or the error. -/
def Gets : Option Nat → Option Str → LVal × LVal → Prop
  | resp, err, (r, e) => ((resp = none ∧ r = .nil) ∨ ∃ b, resp = some b ∧ r = .user (some .message) (.msg b)) ∧
      ((err = none ∧ e = .nil) ∨ ∃ t, err = some t ∧ e = .user (some .error) (.error t))

/-- The libraries that cannot reach outside the script. -/
def harmless (L : Libs) : List (Str × List (Str × Nat)) :=
  [(str "table", L.table), (str "string", L.string), (str "math", L.math), (str "coroutine", L.coroutine)]

/-- The functions of the base library that load code or files. -/
def loaders : List Str := [str "dofile", str "loadfile", str "load", str "loadstring", str "module", str "require"]

/-- The functions of the base library have different names, and none is called like a library. -/
def Regular (L : Libs) : Prop := L.base.Pairwise (fun e e' => e.1 ≠ e'.1) ∧ ∀ e ∈ L.base,
  e.1 ∉ [str "table", str "string", str "math", str "coroutine", str "package", str "io", str "os", str "debug", str "channel"]

/-- The field of a struct at a path of indices: an embedded struct comes after the fields before it. -/
inductive FieldAt : Layout → List Nat → Str → FType → Prop
  | plain {fields} {k : Nat} {n t} : fields[k]? = some (n, t) → FieldAt (.plain fields) [k] n t
  | composed {before inner} {k : Nat} {n t} : inner[k]? = some (n, t) → FieldAt (.composed before inner) [before.length, k] n t

end Verif.Spec.LuaBind
