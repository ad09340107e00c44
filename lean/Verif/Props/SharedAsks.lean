import Verif.Spec.Shared
import Verif.Props.Shared
/-
C93, second part: what servers are asked is what the values say (C85), unless a `fastest` group and an element that hands out the question of the query are below a replace element.
-/
namespace Verif.Props.SharedAsks
open Verif Verif.Composition Verif.Shared Verif.Asks Verif.Spec.Shared

variable {H : Type}

/-! ### Who relies on what

Each object has a note: `none` if nobody relies on it (replies), or the message that those who hold it rely on, and, if only one goroutine may hold it, which. Channels carry
replies with a question of their own (`true`), or any. -/

private structure World where
  g : List (Option (Msg × Option Nat)) := []
  ch : List Bool := []

/-- Notes stay, but for objects of one goroutine that are not among those to `keep`. -/
private def Ext (keep : Nat → Nat → Prop) (W W' : World) : Prop :=
  (∀ (x : Nat) (e : Option (Msg × Option Nat)), W.g[x]? = some e → W'.g[x]? = some e ∨ ((∃ v o, e = some (v, some o) ∧ ¬ keep o x) ∧ W'.g[x]? = some none)) ∧
  ∀ (c : Nat) (b : Bool), W.ch[c]? = some b → W'.ch[c]? = some b

private def Dead (W : World) (x : Nat) : Prop := W.g[x]? = some none

private def mine (T : Nat) : Nat → Nat → Prop := fun o _ => o = T
private def below (T b : Nat) : Nat → Nat → Prop := fun o x => o = T ∧ x < b

private theorem ext_refl {keep : Nat → Nat → Prop} {W : World} : Ext keep W W := ⟨fun _ _ h => .inl h, fun _ _ h => h⟩

private theorem ext_dead {keep : Nat → Nat → Prop} {W W' : World} {x : Nat} (h : Ext keep W W') (hd : Dead W x) : Dead W' x := by
  rcases h.1 x _ hd with h | ⟨-, h⟩ <;> exact h

private theorem ext_trans {keep : Nat → Nat → Prop} {A B C : World} (h1 : Ext keep A B) (h2 : Ext keep B C) : Ext keep A C := by
  refine ⟨fun x e h => ?_, fun c b h => h2.2 c b (h1.2 c b h)⟩
  rcases h1.1 x e h with h | ⟨h3, h⟩
  · exact h2.1 x e h
  · exact .inr ⟨h3, ext_dead h2 h⟩

private theorem ext_weak {keep keep' : Nat → Nat → Prop} {W W' : World} (hk : ∀ o x, keep' o x → x < W.g.length → keep o x) (h : Ext keep W W') : Ext keep' W W' := by
  refine ⟨fun x e he => ?_, h.2⟩
  rcases h.1 x e he with h | ⟨⟨v, o, h1, h2⟩, h3⟩
  · exact .inl h
  · exact .inr ⟨⟨v, o, h1, fun hn => h2 (hk o x hn (List.getElem?_eq_some_iff.1 he).1)⟩, h3⟩

private theorem ext_len {keep : Nat → Nat → Prop} {W W' : World} (h : Ext keep W W') : W.g.length ≤ W'.g.length := by
  rcases Nat.lt_or_ge W'.g.length W.g.length with hlt | hge
  · have hx := List.getElem?_eq_getElem hlt
    rcases h.1 _ _ hx with h | ⟨-, h⟩ <;> exact absurd (List.getElem?_eq_some_iff.1 h).1 (Nat.lt_irrefl _)
  · exact hge

private inductive Mode where
  | free
  | strict
  | own

private def Mode.owner (T : Nat) : Mode → Option Nat
  | .own => some T
  | _ => none

/-- The message at `m` is known to be `v`. -/
private def Held (T : Nat) (md : Mode) (W : World) (m : Ptr) (v : Msg) : Prop := W.g[m.body]? = some (some (v, md.owner T)) ∧ W.g[m.arr]? = some (some (v, md.owner T))

private def ArrOk (T b : Nat) (q : Ptr) (W : World) (x : Nat) : Mode → Prop
  | .free => True
  | .strict => Dead W x
  | .own => Dead W x ∨ ((∃ v, W.g[x]? = some (some (v, some T))) ∧ (b ≤ x ∨ x = q.arr))

/-- What a reply to `q` may be made of. -/
private def Ret (T : Nat) (md : Mode) (b : Nat) (q : Ptr) (W : World) (r : Option Ptr) : Prop := ∀ p, r = some p → Dead W p.body ∧ ArrOk T b q W p.arr md

private def Fresh (W : World) (r : Option Ptr) : Prop := ∀ p, r = some p → Dead W p.body ∧ Dead W p.arr

private def ChanOk (tag : Bool) (W : World) (r : Option Ptr) : Prop := ∀ p, r = some p → Dead W p.body ∧ (tag = true → Dead W p.arr)

private def Fits (md : Mode) (t : Tree H) : Prop :=
  Apart t ∧ match md with
    | .free => True
    | .strict => ∀ u, Within t u → isKeeper u = false
    | .own => ∀ u, Within t u → isFastest u = false

private def Safe (G : Nat → Msg → ClientInfo → Prop) (T : Nat) (md : Mode) (b : Nat) (q : Ptr) : Prog H → World → Prop
  | .ret r, W => Ret T md b q W r
  | .stop, _ => True
  | .call t m ci k, W => ∃ v md2, Held T md2 W m v ∧ Fits md2 t ∧ (∀ i q' ci', Asks t v ci i q' ci' → G i q' ci') ∧
      ∀ W' r, Ext (below T W.g.length) W W' → Ret T md2 W.g.length m W' r → Safe G T md b q (k r) W'
  | .ask i m ci k, W => ∃ v, Held T md W m v ∧ G i v ci ∧ ∀ W' r, Ext (mine T) W W' → Fresh W' r → Safe G T md b q (k r) W'
  | .read m k, W => ∀ v, (∀ u, Held T md W m u → v = u) → Safe G T md b q (k v) W
  | .copy m f k, W => ∃ v md2, Held T md W m v ∧
      ∀ W' n, Ext (mine T) W W' → W.g.length ≤ n.arr → Held T md2 W' n (f v) → Safe G T md b q (k n) W'
  | .new _ k, W => ∀ W' n, Ext (mine T) W W' → Fresh W' (some n) → Safe G T md b q (k n) W'
  | .answer m _ k, W => ∀ W' x, Ext (mine T) W W' → Dead W' x → Safe G T md b q (k ⟨x, m.arr⟩) W'
  | .upd a _ k, W => Dead W a.body ∧ Safe G T md b q k W
  | .setName a _ k, W => (Dead W a.arr ∧ Safe G T md b q k W) ∨
      ((∃ v, W.g[a.arr]? = some (some (v, some T))) ∧ b ≤ a.arr ∧ ∀ W', Ext (fun o x => o = T ∧ x ≠ a.arr) W W' → Dead W' a.arr → Safe G T md b q k W')
  | .pick _ k, W => ∀ x, Safe G T md b q (k x) W
  | .goShare m p k, W => (∃ md' q', ∀ T' W', Ext (fun _ _ => False) W W' → Safe G T' md' 0 q' (p m) W') ∧ Safe G T md b q k W
  | .goCopy m f p k, W => (∃ v md', Held T md W m v ∧ ∀ T' W' n, Ext (fun _ _ => False) W W' → Held T' .free W' n (f v) → Safe G T' md' 0 n (p n) W') ∧ Safe G T md b q k W
  | .chan k, W => ∃ tag, ∀ W' c, Ext (mine T) W W' → W'.ch[c]? = some tag → Safe G T md b q (k c) W'
  | .send c r k, W => (∃ tag, W.ch[c]? = some tag ∧ ChanOk tag W r) ∧ Safe G T md b q k W
  | .recv c k, W => ∃ tag, W.ch[c]? = some tag ∧ ∀ W' r, Ext (mine T) W W' → ChanOk tag W' r → Safe G T md b q (k r) W'
  | .enter _ old new, W => (∀ r, Safe G T md b q (old r) W) ∧ ∀ f, Safe G T md b q (new f) W
  | .wait _ k, W => ∀ r, Safe G T md b q (k r) W
  | .land _ _ k, W => Safe G T md b q k W

section
variable {G : Nat → Msg → ClientInfo → Prop} {T : Nat} {md : Mode} {b : Nat} {q : Ptr} {W W' : World}

private theorem ext_below {n : Nat} (h : Ext (mine T) W W') : Ext (below T n) W W' := ext_weak (fun _ _ h _ => h.1) h

private theorem owner_keeps {keep : Nat → Nat → Prop} {x : Nat} {v : Msg} (h : Ext keep W W') (hk : md = .own → keep T x) (hx : W.g[x]? = some (some (v, md.owner T))) : W'.g[x]? = some (some (v, md.owner T)) := by
  rcases h.1 _ _ hx with h | ⟨⟨v', o, h1, h2⟩, -⟩
  · exact h
  · cases md with
    | free => cases h1
    | strict => cases h1
    | own => cases h1; exact absurd (hk rfl) h2

private theorem lt_of_some {x : Nat} {e : Option (Msg × Option Nat)} (h : W.g[x]? = some e) : x < W.g.length := (List.getElem?_eq_some_iff.1 h).1

private theorem held_mono {m : Ptr} {v : Msg} (h : Ext (mine T) W W') (hm : Held T md W m v) : Held T md W' m v :=
  ⟨owner_keeps h (fun _ => rfl) hm.1, owner_keeps h (fun _ => rfl) hm.2⟩

private theorem held_call {m : Ptr} {v : Msg} (h : Ext (below T W.g.length) W W') (hm : Held T md W m v) : Held T md W' m v :=
  ⟨owner_keeps h (fun _ => ⟨rfl, lt_of_some hm.1⟩) hm.1, owner_keeps h (fun _ => ⟨rfl, lt_of_some hm.2⟩) hm.2⟩

private theorem mine_keeps {x : Nat} {v : Msg} (h : Ext (mine T) W W') (hx : W.g[x]? = some (some (v, some T))) : W'.g[x]? = some (some (v, some T)) :=
  owner_keeps (md := .own) h (fun _ => rfl) hx

private theorem ret_mono {r : Option Ptr} (h : Ext (mine T) W W') (hr : Ret T md b q W r) : Ret T md b q W' r := by
  intro p hp
  obtain ⟨h1, h2⟩ := hr p hp
  refine ⟨ext_dead h h1, ?_⟩
  cases md with
  | free => trivial
  | strict => exact ext_dead h h2
  | own =>
    rcases h2 with h2 | ⟨⟨v, h2⟩, h3⟩
    · exact .inl (ext_dead h h2)
    · exact .inr ⟨⟨v, mine_keeps h h2⟩, h3⟩

private theorem ret_base {r : Option Ptr} {b' : Nat} (hb : b ≤ b') (hr : Ret T md b' q W r) : Ret T md b q W r := by
  intro p hp
  obtain ⟨h1, h2⟩ := hr p hp
  refine ⟨h1, ?_⟩
  cases md with
  | free => trivial
  | strict => exact h2
  | own =>
    rcases h2 with h2 | ⟨h2, h3⟩
    · exact .inl h2
    · exact .inr ⟨h2, h3.elim (fun h => .inl (Nat.le_trans hb h)) .inr⟩

/-- A reply to a copy that was made after `b` -/
private theorem ret_copy {r : Option Ptr} {b' : Nat} {n : Ptr} (hb : b ≤ b') (hn : b ≤ n.arr) (hr : Ret T md b' n W r) : Ret T md b q W r := by
  intro p hp
  obtain ⟨h1, h2⟩ := hr p hp
  refine ⟨h1, ?_⟩
  cases md with
  | free => trivial
  | strict => exact h2
  | own =>
    rcases h2 with h2 | ⟨h2, h3⟩
    · exact .inl h2
    · exact .inr ⟨h2, .inl (h3.elim (fun h => Nat.le_trans hb h) (fun h => by omega))⟩

private theorem ret_fresh {r : Option Ptr} (h : Fresh W r) : Ret T md b q W r := by
  intro p hp
  obtain ⟨h1, h2⟩ := h p hp
  refine ⟨h1, ?_⟩
  cases md with
  | free => trivial
  | strict => exact h2
  | own => exact .inl h2

private theorem ret_none : Ret T md b q W none := fun _ h => by cases h

private theorem chan_mono {keep : Nat → Nat → Prop} {tag : Bool} {r : Option Ptr} (h : Ext keep W W') (hr : ChanOk tag W r) : ChanOk tag W' r :=
  fun p hp => ⟨ext_dead h (hr p hp).1, fun ht => ext_dead h ((hr p hp).2 ht)⟩

private theorem safe_mono (p : Prog H) : ∀ {W W' : World}, Ext (mine T) W W' → Safe G T md b q p W → Safe G T md b q p W' := by
  induction p with
  | ret r => exact fun h hs => ret_mono h hs
  | stop => exact fun _ _ => trivial
  | call t m ci k ih =>
    rintro W W1 h ⟨v, md2, h1, h2, h3, h4⟩
    refine ⟨v, md2, held_mono h h1, h2, h3, fun W' r he hr => h4 W' r ?_ (ret_base (ext_len h) hr)⟩
    exact ext_trans (ext_below h) (ext_weak (fun _ _ hk _ => ⟨hk.1, Nat.lt_of_lt_of_le hk.2 (ext_len h)⟩) he)
  | ask i m ci k ih =>
    rintro W W1 h ⟨v, h1, h2, h3⟩
    exact ⟨v, held_mono h h1, h2, fun W' r he hr => h3 W' r (ext_trans h he) hr⟩
  | read m k ih => exact fun {W W1} h hs v hv => ih v h (hs v fun u hu => hv u (held_mono h hu))
  | copy m f k ih =>
    rintro W W1 h ⟨v, md2, h1, h2⟩
    exact ⟨v, md2, held_mono h h1, fun W' n he h3 h4 => h2 W' n (ext_trans h he) (Nat.le_trans (ext_len h) h3) h4⟩
  | new v k ih => exact fun h hs W' n he hn => hs W' n (ext_trans h he) hn
  | answer m v k ih => exact fun h hs W' x he hn => hs W' x (ext_trans h he) hn
  | upd a f k ih => exact fun h hs => ⟨ext_dead h hs.1, ih h hs.2⟩
  | setName a n k ih =>
    rintro W W1 h (⟨h1, h2⟩ | ⟨⟨v, h1⟩, h2, h3⟩)
    · exact .inl ⟨ext_dead h h1, ih h h2⟩
    · exact .inr ⟨⟨v, mine_keeps h h1⟩, h2, fun W' he hd => h3 W' (ext_trans (ext_weak (fun _ _ hk _ => hk.1) h) he) hd⟩
  | pick α k ih => exact fun h hs x => ih x h (hs x)
  | goShare m p k _ ih =>
    rintro W W1 h ⟨⟨md', q', h1⟩, h2⟩
    exact ⟨⟨md', q', fun T' W' he => h1 T' W' (ext_trans (ext_weak (fun _ _ hk _ => hk.elim) h) he)⟩, ih h h2⟩
  | goCopy m f p k _ ih =>
    rintro W W1 h ⟨⟨v, md', h0, h1⟩, h2⟩
    exact ⟨⟨v, md', held_mono h h0, fun T' W' n he => h1 T' W' n (ext_trans (ext_weak (fun _ _ hk _ => hk.elim) h) he)⟩, ih h h2⟩
  | chan k ih =>
    rintro W W1 h ⟨tag, h1⟩
    exact ⟨tag, fun W' c he => h1 W' c (ext_trans h he)⟩
  | send c r k ih =>
    rintro W W1 h ⟨⟨tag, h1, h2⟩, h3⟩
    exact ⟨⟨tag, h.2 _ _ h1, chan_mono h h2⟩, ih h h3⟩
  | recv c k ih =>
    rintro W W1 h ⟨tag, h1, h2⟩
    exact ⟨tag, h.2 _ _ h1, fun W' r he => h2 W' r (ext_trans h he)⟩
  | enter t old new ih1 ih2 => exact fun h hs => ⟨fun r => ih1 r h (hs.1 r), fun f => ih2 f h (hs.2 f)⟩
  | wait f k ih => exact fun h hs r => ih r h (hs r)
  | land f r k ih => exact fun h hs => ih h hs

/-! ### The elements -/

private theorem fits_child {t c : Tree H} (h : Fits md t) (hc : Child t c) : Fits md c := by
  refine ⟨fun exps d hd => h.1 exps d (.deeper hc hd), ?_⟩
  cases md with
  | free => trivial
  | strict => exact fun u hu => h.2 u (.deeper hc hu)
  | own => exact fun u hu => h.2 u (.deeper hc hu)

private theorem fits_free {t : Tree H} (h : Fits md t) : Fits .free t := ⟨h.1, trivial⟩

private theorem safe_onSome {m : Ptr} {md2 : Mode} {b' : Nat} {k : Ptr → Prog H} {r : Option Ptr} (h : Ret T md2 b' m W r) (hk : ∀ a, Ret T md2 b' m W (some a) → Safe G T md b q (k a) W) :
    Safe G T md b q (onSome k r) W := by
  cases r with
  | none => exact ret_none
  | some a => exact hk a h

private theorem safe_edit {f : Msg → Msg} {a : Ptr} (h : Ret T md b q W (some a)) : Safe G T md b q (edit f a : Prog H) W := ⟨(h a rfl).1, h⟩

private theorem safe_give {x : Option Msg} : Safe G T md b q (give x : Prog H) W := by
  cases x with
  | none => exact ret_none
  | some v => exact fun W' n _ h => ret_fresh h

private theorem safe_keepOrGive {a : Ptr} {x : Option Msg} (h : Ret T md b q W (some a)) : Safe G T md b q (keepOrGive a x : Prog H) W := by
  intro y
  show Safe G T md b q (if y = true then _ else _) W
  split
  · exact safe_edit h
  · exact safe_give

private theorem safe_orStop {α : Type} {k : α → Prog H} {x : Option α} (h : ∀ y, x = some y → Safe G T md b q (k y) W) : Safe G T md b q (orStop k x) W := by
  cases x with
  | none => trivial
  | some y => exact h y rfl

/-- Call a member with the same query. -/
private theorem safe_call {t : Tree H} {v : Msg} {ci : ClientInfo} {k : Option Ptr → Prog H} (hq : Held T md W q v) (hf : Fits md t) (hg : ∀ i q' ci', Asks t v ci i q' ci' → G i q' ci')
    (hb : b ≤ W.g.length) (hk : ∀ W' r, Held T md W' q v → b ≤ W'.g.length → Ret T md b q W' r → Safe G T md b q (k r) W') : Safe G T md b q (.call t q ci k) W :=
  ⟨v, md, hq, hf, hg, fun W' r he hr => hk W' r (held_call he hq) (Nat.le_trans hb (ext_len he)) (ret_base hb hr)⟩

private theorem safe_pass {t : Tree H} {v : Msg} {ci : ClientInfo} (hq : Held T md W q v) (hf : Fits md t) (hg : ∀ i q' ci', Asks t v ci i q' ci' → G i q' ci')
    (hb : b ≤ W.g.length) : Safe G T md b q (.call t q ci .ret) W := safe_call hq hf hg hb fun _ _ _ _ h => h

/-- Make a copy and call a member with it. -/
private theorem safe_copyCall {t : Tree H} {v : Msg} {f : Msg → Msg} {ci : ClientInfo} {k : Option Ptr → Prog H} (hq : Held T md W q v) (hf : Fits md t)
    (hg : ∀ i q' ci', Asks t (f v) ci i q' ci' → G i q' ci') (hb : b ≤ W.g.length)
    (hk : ∀ W' r, Ext (below T W.g.length) W W' → Held T md W' q v → b ≤ W'.g.length → Ret T md b q W' r → Safe G T md b q (k r) W') :
    Safe G T md b q (.copy q f fun n => .call t n ci k) W := by
  refine ⟨v, md, hq, fun W1 n h1 h2 h3 => ⟨f v, md, h3, hf, hg, fun W2 r h4 hr => ?_⟩⟩
  have hb1 := Nat.le_trans hb (ext_len h1)
  have he : Ext (below T W.g.length) W W2 := ext_trans (ext_below h1) (ext_weak (fun _ _ hk _ => ⟨hk.1, Nat.lt_of_lt_of_le hk.2 (ext_len h1)⟩) h4)
  exact hk W2 r he (held_call he hq) (Nat.le_trans hb (ext_len he)) (ret_copy hb1 (Nat.le_trans hb h2) hr)

private theorem safe_tryMembers {member : Nat → Tree H} {ci : ClientInfo} {v : Msg} (hf : ∀ m, Fits md (member m)) (hg : ∀ m i q' ci', Asks (member m) v ci i q' ci' → G i q' ci') :
    ∀ (n : Nat) (r : Option Ptr) (W : World), Held T md W q v → b ≤ W.g.length → Ret T md b q W r → Safe G T md b q (tryMembers member q ci n r) W := by
  intro n
  induction n with
  | zero => exact fun r W _ _ h => h
  | succ n ih =>
    intro r W hq hb _ m
    refine safe_call hq (hf m) (hg m) hb fun W' r' hq' hb' h' x => ?_
    show Safe G T md b q (if x = true then _ else _) W'
    split
    · exact h'
    · exact ih r' W' hq' hb' h'

private theorem safe_tryCopies {member : Nat → Tree H} {ci : ClientInfo} {v : Msg} (hf : ∀ m, Fits md (member m)) (hg : ∀ m i q' ci', Asks (member m) v ci i q' ci' → G i q' ci') :
    ∀ (n : Nat) (r : Option Ptr) (W : World), Held T md W q v → b ≤ W.g.length → Ret T md b q W r → Safe G T md b q (tryCopies member q ci n r) W := by
  intro n
  induction n with
  | zero => exact fun r W _ _ h => h
  | succ n ih =>
    intro r W hq hb _ m
    refine safe_copyCall (f := id) hq (hf m) (hg m) hb fun W' r' _ hq' hb' h' x => ?_
    show Safe G T md b q (if x = true then _ else _) W'
    split
    · exact h'
    · exact ih r' W' hq' hb' h'

private theorem safe_collect {c : Nat} (hc : ∃ tag, W.ch[c]? = some tag ∧ ∀ W' r, ChanOk tag W' r → Ret T md b q W' r) : ∀ n, Safe G T md b q (collect c n : Prog H) W := by
  obtain ⟨tag, hc, ht⟩ := hc
  intro n
  induction n generalizing W with
  | zero => exact ⟨tag, hc, fun W' r _ hr => ht W' r hr⟩
  | succ n ih =>
    refine ⟨tag, hc, fun W' r he hr x => ?_⟩
    show Safe G T md b q (if x = true then _ else if n = 0 then _ else _) W'
    split
    · exact ht W' r hr
    · split
      · exact ht W' r hr
      · exact ih (he.2 _ _ hc)

/-- In the modes in which queries may be shared -/
private theorem held_share {m : Ptr} {v : Msg} {T' : Nat} (hm : md.owner T = none) (h : Held T md W m v) : Held T' md W m v := by
  cases md with
  | free => exact h
  | strict => exact h
  | own => cases hm

private theorem owner_any {T' : Nat} (hm : md.owner T = none) : md.owner T' = none := by
  cases md with
  | free => rfl
  | strict => rfl
  | own => cases hm

private theorem held_any {m : Ptr} {v : Msg} (hm : md.owner T = none) {keep : Nat → Nat → Prop} (he : Ext keep W W') (h : Held T md W m v) : Held T md W' m v :=
  ⟨owner_keeps he (fun ho => by subst ho; cases hm) h.1, owner_keeps he (fun ho => by subst ho; cases hm) h.2⟩

private def strictTag : Mode → Bool
  | .strict => true
  | _ => false

private theorem ret_chan {r : Option Ptr} {m : Ptr} (hm : md.owner T = none) (h : Ret T md b m W r) : ChanOk (strictTag md) W r := by
  intro p hp
  refine ⟨(h p hp).1, fun ht => ?_⟩
  cases md with
  | free => cases ht
  | strict => exact (h p hp).2
  | own => cases hm

private theorem chan_ret {r : Option Ptr} (hm : md.owner T = none) (h : ChanOk (strictTag md) W r) : Ret T md b q W r := by
  intro p hp
  refine ⟨(h p hp).1, ?_⟩
  cases md with
  | free => trivial
  | strict => exact (h p hp).2 rfl
  | own => cases hm

private theorem safe_racer {t : Tree H} {ci : ClientInfo} {v : Msg} {c : Nat} {q' : Ptr} (hm : md.owner T = none) (hq : Held T md W q v) (hc : W.ch[c]? = some (strictTag md)) (hf : Fits md t)
    (hg : ∀ i q' ci', Asks t v ci i q' ci' → G i q' ci') : Safe G T md 0 q' (racer t ci c q) W := by
  refine ⟨v, md, hq, fun W1 n h1 h2 h3 => ⟨v, md, h3, hf, hg, fun W2 r h4 hr => ⟨⟨strictTag md, h4.2 _ _ (h1.2 _ _ hc), ret_chan hm hr⟩, ret_none⟩⟩⟩

private theorem safe_startAll {member : Nat → Tree H} {ci : ClientInfo} {v : Msg} {c : Nat} {k : Prog H} (hm : md.owner T = none) (hq : Held T md W q v) (hc : W.ch[c]? = some (strictTag md))
    (hf : ∀ m, Fits md (member m)) (hg : ∀ m i q' ci', Asks (member m) v ci i q' ci' → G i q' ci') (hk : Safe G T md b q k W) : ∀ n, Safe G T md b q (startAll member q ci c k n) W := by
  intro n
  induction n with
  | zero => exact hk
  | succ n ih =>
    exact ⟨⟨md, q, fun T' W' he => safe_racer (owner_any hm) (held_share hm (held_any hm he hq)) (he.2 _ _ hc) (hf n) (hg n)⟩, ih⟩

private theorem safe_lookups {t : Tree H} {v : Msg} {k : Prog H} (hf : Fits md t) (hg : ∀ p, Lookup p → ∀ i q' ci', Asks t p {} i q' ci' → G i q' ci') :
    ∀ (n : Nat) (W : World), Held T md W q v → b ≤ W.g.length → (∀ W', Ext (below T W.g.length) W W' → Safe G T md b q k W') → Safe G T md b q (lookups t q k n) W := by
  intro n
  induction n with
  | zero => exact fun W _ _ h => h W ext_refl
  | succ n ih =>
    intro W hq hb hk p
    refine safe_copyCall hq hf (hg p.1 p.2) hb fun W' r he hq' hb' _ => ih W' hq' hb' fun W2 h2 => hk W2 ?_
    exact ext_trans he (ext_weak (fun _ _ hk _ => ⟨hk.1, Nat.lt_of_lt_of_le hk.2 (ext_len he)⟩) h2)

private theorem resolve_same {o : Blocklist.Options} {v p : Msg} {target : Blocklist.Target} (h : Blocklist.resolve o v = some (.forward target p)) : p = v := by
  unfold Blocklist.resolve at h
  split at h
  · cases h
  · split at h
    · cases h; rfl
    · split at h
      · cases h; rfl
      · split at h
        · cases h
        · split at h
          · cases h; rfl
          · split at h <;> cases h

private theorem resolveClient_same {x y : Bool} {db : Str → Option Lists.Match} {v p : Msg} {ci : ClientInfo} {target : Blocklist.Target}
    (h : Blocklist.resolveClient x y db v ci = .forward target p) : p = v := by
  unfold Blocklist.resolveClient at h
  simp only at h
  split at h
  · cases h; rfl
  · split at h
    · split at h
      · cases h; rfl
      · cases h
    · cases h; rfl

private theorem blockIfMatch_same {κ : Type} {key : RR → Option κ} {db : κ → Option Lists.Match} {x y : Bool} {ede : Option Blocklist.Ede} {v a p : Msg} {target : Blocklist.Target}
    (h : Blocklist.blockIfMatch key db x y ede v a = .forward target p) : p = v := by
  unfold Blocklist.blockIfMatch at h
  split at h
  · cases h
  · split at h
    · cases h; rfl
    · cases h

private theorem resolveIp_same {o : Blocklist.IpOptions} {r : Res} {v p : Msg} {target : Blocklist.Target} (h : Blocklist.resolveIp o r v = .forward target p) : p = v := by
  unfold Blocklist.resolveIp at h
  split at h
  · split at h
    · cases h
    · split at h
      · unfold Blocklist.filterMatch at h
        split at h
        · split at h
          · cases h; rfl
          · cases h
        · cases h
      · exact blockIfMatch_same h
  · cases h

private theorem resolveName_same {o : Blocklist.NameOptions} {r : Res} {v p : Msg} {target : Blocklist.Target} (h : Blocklist.resolveName o r v = .forward target p) : p = v := by
  unfold Blocklist.resolveName at h
  split at h
  · exact blockIfMatch_same h
  · cases h

private theorem safe_act {t a c : Tree H} {v : Msg} {ci : ClientInfo} (hq : Held T md W q v) (hb : b ≤ W.g.length) (x : Blocklist.Act)
    (hx : ∀ target p, x = .forward target p → Fits md (branch t a c target) ∧ ∀ i q' ci', Asks (branch t a c target) v ci i q' ci' → G i q' ci') : Safe G T md b q (act t a c q ci x) W := by
  cases x with
  | done r => exact safe_give
  | forward target p => exact safe_pass hq (hx _ _ rfl).1 (hx _ _ rfl).2 hb

private theorem safe_actReply {t c : Tree H} {v : Msg} {ci : ClientInfo} {a : Ptr} (hq : Held T md W q v) (hb : b ≤ W.g.length) (h : Ret T md b q W (some a)) (x : Blocklist.Act)
    (hx : ∀ target p, x = .forward target p → Fits md (branch t t c target) ∧ ∀ i q' ci', Asks (branch t t c target) v ci i q' ci' → G i q' ci') : Safe G T md b q (actReply t c q a ci x) W := by
  cases x with
  | done r => exact safe_keepOrGive h
  | forward target p => exact safe_pass hq (hx _ _ rfl).1 (hx _ _ rfl).2 hb

private theorem branch_child {t a c : Tree H} {target : Blocklist.Target} : branch t a c target = t ∨ branch t a c target = a ∨ branch t a c target = c := by
  cases target
  · exact .inl rfl
  · exact .inr (.inl rfl)
  · exact .inr (.inr rfl)

private theorem branch_child2 {t c : Tree H} {target : Blocklist.Target} : branch t t c target = t ∨ branch t t c target = c := by
  cases target
  · exact .inl rfl
  · exact .inl rfl
  · exact .inr rfl

private theorem ret_call {r : Option Ptr} (h : Ext (below T W.g.length) W W') (hr : Ret T md b q W r) : Ret T md b q W' r := by
  intro p hp
  obtain ⟨h1, h2⟩ := hr p hp
  refine ⟨ext_dead h h1, ?_⟩
  cases md with
  | free => trivial
  | strict => exact ext_dead h h2
  | own =>
    rcases h2 with h2 | ⟨⟨v, h2⟩, h3⟩
    · exact .inl (ext_dead h h2)
    · exact .inr ⟨⟨v, owner_keeps (md := .own) (T := T) h (fun _ => ⟨rfl, lt_of_some h2⟩) h2⟩, h3⟩

private theorem renamed_ask {exps : List (Str → Str)} {v : Msg} {qu : Question} (h : v.question.head? = some qu) : renamed (Static.apply exps qu.name) v = replaceAsk exps v := by
  unfold renamed replaceAsk
  cases hq : v.question with
  | nil => rfl
  | cons x rest => rw [hq] at h; cases h; rfl

private theorem same_ask {exps : List (Str → Str)} {v : Msg} {qu : Question} (h : v.question.head? = some qu) (hn : Static.apply exps qu.name = qu.name) : replaceAsk exps v = v := by
  unfold replaceAsk
  cases hq : v.question with
  | nil => rfl
  | cons x rest =>
    rw [hq] at h; cases h
    simp only [hn]
    rw [← hq]

private theorem safe_replaced {exps : List (Str → Str)} {t : Tree H} {v : Msg} {ci : ClientInfo} {qu : Question} {md2 : Mode} (hq : Held T md W q v) (hb : b ≤ W.g.length) (hne : md2 ≠ .free) (hf : Fits md2 t)
    (hv : v.question.head? = some qu) (hg : ∀ i q' ci', Asks t (replaceAsk exps v) ci i q' ci' → G i q' ci') :
    Safe G T md b q (.copy q (renamed (Static.apply exps qu.name)) fun n => .call t n ci (onSome fun a =>
      .setName a qu.name (edit (restored (Static.apply exps qu.name) qu.name) a))) W := by
  refine ⟨v, md2, hq, fun W1 n h1 h2 h3 => ⟨_, md2, h3, hf, ?_, fun W2 r h4 hr => safe_onSome hr fun a ha => ?_⟩⟩
  · rw [renamed_ask hv]; exact hg
  · obtain ⟨hd, ha⟩ := ha a rfl
    have hdead : Dead W2 a.arr → Safe G T md b q (.setName a qu.name (edit (restored (Static.apply exps qu.name) qu.name) a) : Prog H) W2 := fun hx =>
      .inl ⟨hx, safe_edit (ret_fresh fun p hp => by cases hp; exact ⟨hd, hx⟩)⟩
    cases md2 with
    | free => exact absurd rfl hne
    | strict => exact hdead ha
    | own =>
      rcases ha with ha | ⟨ho, hx⟩
      · exact hdead ha
      · refine .inr ⟨ho, ?_, fun W3 h5 h6 => safe_edit (ret_fresh fun p hp => by cases hp; exact ⟨ext_dead h5 hd, h6⟩)⟩
        have := ext_len h1
        rcases hx with hx | hx <;> omega

private theorem safe_code {W : World} {v : Msg} (t : Tree H) (ci : ClientInfo) (hq : Held T md W q v) (hf : Fits md t) (hg : ∀ i q' ci', Asks t v ci i q' ci' → G i q' ci')
    (hb : b ≤ W.g.length) : Safe G T md b q (code t q ci) W := by
  cases t with
  | client i => exact ⟨v, hq, hg _ _ _ .client, fun W' r _ h => ret_fresh h⟩
  | ttl o t => exact safe_call hq (fits_child hf rfl) (fun _ _ _ h => hg _ _ _ (.ttl h)) hb fun W' r _ _ h => safe_onSome h fun a h => safe_edit h
  | truncateRetry t u =>
    refine safe_call hq (fits_child hf (Or.inl rfl)) (fun _ _ _ h => hg _ _ _ (.truncate h)) hb fun W' r hq hb h => safe_onSome h fun a h w _ => ?_
    show Safe G T md b q (if w.tc = true then _ else _) W'
    split
    · exact safe_pass hq (fits_child hf (Or.inr rfl)) (fun _ _ _ h => hg _ _ _ (.retry h)) hb
    · exact h
  | collapse n t =>
    exact safe_call hq (fits_child hf rfl) (fun _ _ _ h => hg _ _ _ (.collapse h)) hb fun W' r _ _ h => safe_onSome h fun a h w _ w' _ => safe_orStop fun x _ => safe_keepOrGive h
  | minimize t => exact safe_call hq (fits_child hf rfl) (fun _ _ _ h => hg _ _ _ (.minimize h)) hb fun W' r _ _ h => safe_onSome h fun a h => safe_edit h
  | drop => exact ret_none
  | modify m t =>
    show Safe G T md b q (Shared.modify m t q ci) W
    unfold Shared.modify
    split
    · exact safe_pass hq (fits_child hf rfl) (fun _ _ _ h => hg _ _ _ (.modify h)) hb
    · exact safe_copyCall hq (fits_child hf rfl) (fun _ _ _ h => hg _ _ _ (.modify h)) hb fun _ _ _ _ _ h => h
  | blocklist L t a c =>
    refine fun o w hw => safe_orStop fun x hx => safe_act hq hb x fun target p hp => ⟨fits_child hf branch_child, fun _ _ _ h => hg _ _ _ (.blocklist o.2 ?_ h)⟩
    have hx : Blocklist.resolve o.1 v = some x := hw v hq ▸ hx
    subst hp
    rw [hx, resolve_same hx]
  | clientBlocklist L t c =>
    refine fun o w hw => safe_act hq hb _ fun target p hp => ⟨fits_child hf branch_child2, fun _ _ _ h => hg _ _ _ (.clientBlocklist o.2 ?_ h)⟩
    have hp := hw v hq ▸ hp
    rw [hp, resolveClient_same hp]
  | responseIp L t c =>
    refine safe_call hq (fits_child hf (Or.inl rfl)) (fun _ _ _ h => hg _ _ _ (.responseIp h)) hb fun W' r hq hb h => safe_onSome h fun a h o w _ u hu => ?_
    refine safe_actReply hq hb h _ fun target p hp => ⟨fits_child hf branch_child2, fun _ _ _ h => hg _ _ _ (.responseIpBlock (r := .ok w) o.2 ?_ h)⟩
    have hp := hu v hq ▸ hp
    rw [hp, resolveIp_same hp]
  | responseName L t c =>
    refine safe_call hq (fits_child hf (Or.inl rfl)) (fun _ _ _ h => hg _ _ _ (.responseName h)) hb fun W' r hq hb h => safe_onSome h fun a h o w _ u hu => ?_
    refine safe_actReply hq hb h _ fun target p hp => ⟨fits_child hf branch_child2, fun _ _ _ h => hg _ _ _ (.responseNameBlock (r := .ok w) o.2 ?_ h)⟩
    have hp := hu v hq ▸ hp
    rw [hp, resolveName_same hp]
  | rateLimit hasLimit t l =>
    intro x
    show Safe G T md b q (limited t l q ci (Rate.dest hasLimit x)) W
    cases hd : Rate.dest hasLimit x with
    | resolver => exact safe_pass hq (fits_child hf (Or.inl rfl)) (fun _ _ _ h => hg _ _ _ (.rateOn h)) hb
    | limitResolver =>
      have hl : hasLimit = true := by
        cases hasLimit with
        | true => rfl
        | false => cases x <;> cases hd
      subst hl
      exact safe_pass hq (fits_child hf (Or.inr rfl)) (fun _ _ _ h => hg _ _ _ (.rateLimited h)) hb
    | dropped => exact ret_none
  | static s => exact fun w _ => safe_orStop fun x _ => safe_give
  | template newRR s => exact fun w _ => safe_orStop fun x _ => safe_give
  | replace exps t =>
    refine fun w hw => safe_orStop fun qu hqu => ?_
    have hqu : v.question.head? = some qu := hw v hq ▸ hqu
    unfold replaceWith
    split
    next hs => exact safe_pass hq (fits_child hf rfl) (fun _ _ _ h => hg _ _ _ (.replace (by rw [same_ask hqu hs]; exact h))) hb
    next =>
      have hc : Fits md t := fits_child hf rfl
      have key : ∀ md2 : Mode, md2 ≠ .free → Fits md2 t → _ := fun md2 hne hf2 => safe_replaced (md2 := md2) (G := G) (ci := ci) (exps := exps) hq hb hne hf2 hqu (fun _ _ _ h => hg _ _ _ (.replace h))
      cases md with
      | own => exact key .own (fun h => by cases h) hc
      | strict => exact key .strict (fun h => by cases h) hc
      | free =>
        rcases hf.1 exps t .self with h | h
        · exact key .own (fun h => by cases h) ⟨hc.1, h⟩
        · exact key .strict (fun h => by cases h) ⟨hc.1, h⟩
  | syslog o t => exact safe_pass hq (fits_child hf rfl) (fun _ _ _ h => hg _ _ _ (.syslog h)) hb
  | queryLog t => exact safe_pass hq (fits_child hf rfl) (fun _ _ _ h => hg _ _ _ (.queryLog h)) hb
  | dns64 ps t =>
    refine safe_call hq (fits_child hf rfl) (fun _ _ _ h => hg _ _ _ (.dns64 h)) hb fun W' r hq hb h => safe_onSome h fun a h x => ?_
    show Safe G T md b q (if x = true then _ else _) W'
    split
    · refine safe_copyCall hq (fits_child hf rfl) (fun _ _ _ h => hg _ _ _ (.dns64A h)) hb fun W2 r2 he _ _ _ y => ?_
      show Safe G T md b q (if y.isSome = true then _ else _) W2
      split
      · exact safe_give
      · exact ret_call he h
    · exact h
  | failRotate n ok member => exact safe_tryMembers (fun m => fits_child hf (Exists.intro m rfl)) (fun m _ _ _ h => hg _ _ _ (.failRotate h)) n none W hq hb ret_none
  | failBack n ok member => exact safe_tryMembers (fun m => fits_child hf (Exists.intro m rfl)) (fun m _ _ _ h => hg _ _ _ (.failBack h)) n none W hq hb ret_none
  | failBackEach n ok member => exact safe_tryMembers (fun m => fits_child hf (Exists.intro m rfl)) (fun m _ _ _ h => hg _ _ _ (.failBackEach h)) n none W hq hb ret_none
  | roundRobin n member => exact fun m => safe_pass hq (fits_child hf (Exists.intro m rfl)) (fun _ _ _ h => hg _ _ _ (.roundRobin h)) hb
  | random n ok member => exact safe_tryMembers (fun m => fits_child hf (Exists.intro m rfl)) (fun m _ _ _ h => hg _ _ _ (.random h)) n none W hq hb ret_none
  | loadBalance n ok member => exact safe_tryCopies (fun m => fits_child hf (Exists.intro m rfl)) (fun m _ _ _ h => hg _ _ _ (.loadBalance h)) n none W hq hb ret_none
  | fastest n member =>
    have hm : md.owner T = none := by
      cases md with
      | free => rfl
      | strict => rfl
      | own => exact absurd (hf.2 _ .self) (by simp [isFastest])
    refine ⟨strictTag md, fun W' c he hc => ?_⟩
    exact safe_startAll hm (held_mono he hq) hc (fun m => fits_child hf (Exists.intro m rfl)) (fun m _ _ _ h => hg _ _ _ (.fastest h))
      (safe_collect ⟨_, hc, fun _ _ h => chan_ret hm h⟩ n) n
  | fastestTcp wa n t => exact safe_call hq (fits_child hf rfl) (fun _ _ _ h => hg _ _ _ (.fastestTcp h)) hb fun W' r _ _ h => safe_onSome h fun a h f => safe_edit h
  | router routes member =>
    refine fun now w hw => safe_orStop fun qu hqu => ?_
    rw [hw v hq] at hqu ⊢
    show Safe G T md b q (routeTo member q ci (Route.routeIndex routes v qu ci now 0)) W
    cases hr : Route.routeIndex routes v qu ci now 0 with
    | none => exact ret_none
    | some m =>
      refine safe_pass hq (fits_child hf (Exists.intro m rfl)) (fun _ _ _ h => hg _ _ _ ?_) hb
      cases hl : v.question with
      | nil => rw [hl] at hqu; cases hqu
      | cons y rest =>
        rw [hl] at hqu; cases hqu
        exact .router hl hr h
  | dedup t =>
    have ha : ∀ (W' : World) (x : Nat), Held T md W' q v → Dead W' x → Ret T md b q W' (some ⟨x, q.arr⟩) := by
      intro W' x hq hx p hp
      cases hp
      refine ⟨hx, ?_⟩
      cases md with
      | free => trivial
      | strict => exact absurd (hf.2 _ .self) (by simp [isKeeper])
      | own => exact .inr ⟨⟨v, hq.2⟩, .inr rfl⟩
    have hh : ∀ (W' : World) (r : Option Ptr), Held T md W' q v → Safe G T md b q (handOut q r : Prog H) W' := by
      intro W' r hq
      cases r with
      | none => exact ret_none
      | some a => exact fun w _ u _ W2 x he hx => ha W2 x (held_mono he hq) hx
    exact ⟨fun r => hh W r hq, fun f => safe_call hq (fits_child hf rfl) (fun _ _ _ h => hg _ _ _ (.dedup h)) hb fun W' r hq _ h => hh W' r hq⟩
  | cache env o cap t =>
    have hg' : ∀ i q' ci', Asks t v ci i q' ci' → G i q' ci' := fun _ _ _ h => hg _ _ _ (.cache h)
    intro w hw
    show Safe G T md b q (if w.question.length > 1 then _ else _) W
    split
    · exact safe_pass hq (fits_child hf rfl) hg' hb
    · intro stored how
      show Safe G T md b q (cached t q ci stored how) W
      cases stored with
      | none => exact safe_copyCall (f := id) hq (fits_child hf rfl) hg' hb fun _ _ _ _ _ h => h
      | some u =>
        cases how with
        | none => exact safe_give (x := some u)
        | some refresh =>
          intro W' x he hx
          have hq := held_mono he hq
          have hr : Ret T md b q W' (some ⟨x, q.arr⟩) := by
            intro p hp
            cases hp
            refine ⟨hx, ?_⟩
            cases md with
            | free => trivial
            | strict => exact absurd (hf.2 _ .self) (by simp [isKeeper])
            | own => exact .inr ⟨⟨v, hq.2⟩, .inr rfl⟩
          show Safe G T md b q (if refresh = true then _ else _) W'
          split
          · exact ⟨⟨v, .free, hq, fun T' W2 n _ hn => ⟨v, .free, hn, fits_free (fits_child hf rfl), hg', fun _ _ _ _ => ret_none⟩⟩, hr⟩
          · exact hr
  | prefetch t =>
    refine safe_call hq (fits_child hf rfl) (fun _ _ _ h => hg _ _ _ (.prefetch h)) hb fun W' r hq _ h x => ?_
    cases x with
    | none => exact h
    | some u => exact ⟨⟨v, .free, hq, fun T' W2 n _ hn => ⟨u, .free, hn, fits_free (fits_child hf rfl), fun _ _ _ h => hg _ _ _ (.prefetchAgain h), fun _ _ _ _ => ret_none⟩⟩, h⟩
  | dnssec lo t =>
    refine safe_copyCall hq (fits_child hf rfl) (fun _ _ _ h => hg _ _ _ (.dnssec h)) hb fun W' r _ hq hb h => safe_onSome h fun a h n => ?_
    refine safe_lookups (fits_child hf rfl) (fun p hp _ _ _ h => hg _ _ _ (.dnssecLookup hp h)) n W' hq hb fun W2 he x f => ?_
    show Safe G T md b q (if x.isSome = true then _ else _) W2
    split
    · exact safe_give
    · exact safe_edit (ret_call he h)

end

/-! ### The whole program -/

private def Frames (G : Nat → Msg → ClientInfo → Prop) (T : Nat) (W : World) : Mode → Nat → Ptr → List (Option Ptr → Prog H) → Prop
  | _, _, _, [] => True
  | md, b, q, k :: st => ∃ md' b' q', b' ≤ b ∧ (∀ W' r, Ext (below T b) W W' → Ret T md b q W' r → Safe G T md' b' q' (k r) W') ∧ Frames G T W md' b' q' st

private def ThreadOk (G : Nat → Msg → ClientInfo → Prop) (T : Nat) (th : Thread H) (W : World) : Prop :=
  ∃ md b q, b ≤ W.g.length ∧ Safe G T md b q th.prog W ∧ Frames G T W md b q th.stack

private structure Inv (G : Nat → Msg → ClientInfo → Prop) (s : St H) (W : World) : Prop where
  len : W.g.length = s.heap.length
  holds : ∀ (x : Nat) (v : Msg) (o : Option Nat), W.g[x]? = some (some (v, o)) → s.heap[x]? = some v
  clen : W.ch.length = s.chans.length
  chans : ∀ (c : Nat) (tag : Bool) (l : List (Option Ptr)), W.ch[c]? = some tag → s.chans[c]? = some l → ∀ r ∈ l, ChanOk tag W r
  threads : ∀ (i : Nat) (th : Thread H), s.threads[i]? = some th → ThreadOk G i th W
  asked : ∀ e ∈ s.asked, G e.1 e.2.1 e.2.2

section
variable {G : Nat → Msg → ClientInfo → Prop} {T : Nat} {W W' : World}

private theorem frames_mono {st : List (Option Ptr → Prog H)} : ∀ {md : Mode} {b : Nat} {q : Ptr}, Ext (below T b) W W' → Frames G T W md b q st → Frames G T W' md b q st := by
  induction st with
  | nil => exact fun _ _ => trivial
  | cons k st ih =>
    rintro md b q h ⟨md', b', q', h1, h2, h3⟩
    exact ⟨md', b', q', h1, fun W2 r he => h2 W2 r (ext_trans h he), ih (ext_weak (fun _ _ hk _ => ⟨hk.1, Nat.lt_of_lt_of_le hk.2 h1⟩) h) h3⟩

private theorem thread_mono {th : Thread H} (h : Ext (mine T) W W') (ht : ThreadOk G T th W) : ThreadOk G T th W' := by
  obtain ⟨md, b, q, h1, h2, h3⟩ := ht
  exact ⟨md, b, q, Nat.le_trans h1 (ext_len h), safe_mono _ h h2, frames_mono (ext_below h) h3⟩

private theorem others_step {s : St H} {i : Nat} {th : Thread H} (ht : ∀ (i : Nat) (th : Thread H), s.threads[i]? = some th → ThreadOk G i th W)
    (h : Ext (fun o _ => o ≠ i) W W') (hn : ThreadOk G i th W') : ∀ (j : Nat) (th' : Thread H), (s.threads.set i th)[j]? = some th' → ThreadOk G j th' W' := by
  intro j th' hj
  rw [List.getElem?_set] at hj
  split at hj
  · next hij =>
    split at hj
    · cases hj; subst hij; exact hn
    · cases hj
  · next hij => exact thread_mono (ext_weak (fun o x hk _ => by cases hk; exact fun h => hij h.symm) h) (ht j th' hj)

private theorem added_thread {ths : List (Thread H)} {th : Thread H} (ht : ∀ (i : Nat) (th : Thread H), ths[i]? = some th → ThreadOk G i th W) (hn : ThreadOk G ths.length th W) :
    ∀ (j : Nat) (th' : Thread H), (ths ++ [th])[j]? = some th' → ThreadOk G j th' W := by
  intro j th' hj
  rw [List.getElem?_append] at hj
  split at hj
  · exact ht j th' hj
  · next hge =>
    cases hd : j - ths.length with
    | zero =>
      rw [hd] at hj; cases hj
      rwa [show j = ths.length by omega]
    | succ d => rw [hd] at hj; cases hj

private def World.add (W : World) (l : List (Option (Msg × Option Nat))) : World := { W with g := W.g ++ l }

private def World.kill (W : World) (x : Nat) : World := { W with g := W.g.set x none }

private theorem ext_add {keep : Nat → Nat → Prop} {l : List (Option (Msg × Option Nat))} : Ext keep W (W.add l) := by
  refine ⟨fun x e h => .inl ?_, fun _ _ h => h⟩
  show (W.g ++ l)[x]? = some e
  rw [List.getElem?_append_left (List.getElem?_eq_some_iff.1 h).1]
  exact h

private theorem ext_kill {keep : Nat → Nat → Prop} {x : Nat} {v : Msg} {o : Nat} (hx : W.g[x]? = some (some (v, some o))) (hk : ¬ keep o x) : Ext keep W (W.kill x) := by
  refine ⟨fun y e h => ?_, fun _ _ h => h⟩
  show (W.g.set x none)[y]? = some e ∨ _ ∧ (W.g.set x none)[y]? = some none
  by_cases hxy : x = y
  · subst hxy
    rw [hx] at h; cases h
    exact .inr ⟨⟨v, o, rfl, hk⟩, List.getElem?_set_self (lt_of_some hx)⟩
  · rw [List.getElem?_set_ne hxy]
    exact .inl h

private theorem kill_dead {x : Nat} {e : Option (Msg × Option Nat)} (hx : W.g[x]? = some e) : Dead (W.kill x) x := List.getElem?_set_self (lt_of_some hx)

private theorem held_value {h : Heap} {md : Mode} {m : Ptr} {v : Msg} (hh : ∀ (x : Nat) (v : Msg) (o : Option Nat), W.g[x]? = some (some (v, o)) → h[x]? = some v) (hm : Held T md W m v) : value h m = v := by
  simp only [value, hh _ _ _ hm.1, hh _ _ _ hm.2, Option.getD_some]

private theorem holds_add {h : Heap} {l : List (Option (Msg × Option Nat))} {l' : List Msg} (hl : W.g.length = h.length) (hh : ∀ (x : Nat) (v : Msg) (o : Option Nat), W.g[x]? = some (some (v, o)) → h[x]? = some v)
    (hn : ∀ (x : Nat) (v : Msg) (o : Option Nat), l[x]? = some (some (v, o)) → l'[x]? = some v) :
    ∀ (x : Nat) (v : Msg) (o : Option Nat), (W.add l).g[x]? = some (some (v, o)) → (h ++ l')[x]? = some v := by
  intro x v o hx
  replace hx : (W.g ++ l)[x]? = some (some (v, o)) := hx
  rw [List.getElem?_append] at hx ⊢
  rw [← hl]
  split at hx
  · next hlt => rw [if_pos hlt]; exact hh x v o hx
  · next hlt => rw [if_neg hlt]; exact hn _ v o hx

private theorem holds_set {h : Heap} {y : Nat} {u : Msg} (hd : Dead W y) (hh : ∀ (x : Nat) (v : Msg) (o : Option Nat), W.g[x]? = some (some (v, o)) → h[x]? = some v) :
    ∀ (x : Nat) (v : Msg) (o : Option Nat), W.g[x]? = some (some (v, o)) → (h.set y u)[x]? = some v := by
  intro x v o hx
  by_cases hxy : y = x
  · subst hxy; rw [hd] at hx; cases hx
  · rw [List.getElem?_set_ne hxy]; exact hh x v o hx

private theorem chans_mono {c : List (List (Option Ptr))} (he : Ext (fun _ _ => False) W W') (hch : W'.ch = W.ch)
    (h : ∀ (n : Nat) (tag : Bool) (l : List (Option Ptr)), W.ch[n]? = some tag → c[n]? = some l → ∀ r ∈ l, ChanOk tag W r) :
    ∀ (n : Nat) (tag : Bool) (l : List (Option Ptr)), W'.ch[n]? = some tag → c[n]? = some l → ∀ r ∈ l, ChanOk tag W' r :=
  fun n tag l h1 h2 r hr => chan_mono he (h n tag l (hch ▸ h1) h2 r hr)

private theorem add_dead2 {n : Nat} (hl : W.g.length = n) : Fresh (W.add [none, none]) (some ⟨n, n + 1⟩) := by
  intro p hp
  cases hp
  subst hl
  constructor
  · show (W.g ++ [none, none])[W.g.length]? = some none
    simp
  · show (W.g ++ [none, none])[W.g.length + 1]? = some none
    simp

private theorem add_held {n : Nat} {md : Mode} {v : Msg} (hl : W.g.length = n) : Held T md (W.add [some (v, md.owner T), some (v, md.owner T)]) ⟨n, n + 1⟩ v := by
  subst hl
  constructor
  · show (W.g ++ _)[W.g.length]? = _
    simp
  · show (W.g ++ _)[W.g.length + 1]? = _
    simp

private theorem pair_holds {v : Msg} {o : Option Nat} : ∀ (x : Nat) (u : Msg) (o' : Option Nat), [some (v, o), some (v, o)][x]? = some (some (u, o')) → [v, v][x]? = some u := by
  intro x u o' h
  match x with
  | 0 => cases h; rfl
  | 1 => cases h; rfl
  | x + 2 => cases h

private theorem none_holds {l : List (Option (Msg × Option Nat))} {l' : List Msg} (hl : ∀ e ∈ l, e = none) : ∀ (x : Nat) (u : Msg) (o' : Option Nat), l[x]? = some (some (u, o')) → l'[x]? = some u := by
  intro x u o' h
  cases hl _ (List.mem_of_getElem? h)

private theorem len_add {h : Heap} {l : List (Option (Msg × Option Nat))} {l' : List Msg} (hl : W.g.length = h.length) (hn : l.length = l'.length) : (W.add l).g.length = (h ++ l').length := by
  show (W.g ++ l).length = _
  simp only [List.length_append, hl, hn]

private theorem inv_step {s s' : St H} (hi : ∃ W, Inv G s W) (hs : Step s s') : ∃ W, Inv G s' W := by
  obtain ⟨W, hi⟩ := hi
  cases hs with
  | ret h =>
    obtain ⟨md, b, q, hb, h1, md', b', q', h2, h3, h4⟩ := hi.threads _ _ h
    exact ⟨W, hi.len, hi.holds, hi.clen, hi.chans, others_step hi.threads ext_refl ⟨md', b', q', Nat.le_trans h2 hb, h3 _ _ ext_refl h1, h4⟩, hi.asked⟩
  | @call i t m ci k st h =>
    obtain ⟨md, b, q, hb, ⟨v, md2, h1, h2, h3, h4⟩, h5⟩ := hi.threads _ _ h
    exact ⟨W, hi.len, hi.holds, hi.clen, hi.chans, others_step hi.threads ext_refl
      ⟨md2, W.g.length, m, Nat.le_refl _, safe_code t ci h1 h2 h3 (Nat.le_refl _), md, b, q, hb, h4, h5⟩, hi.asked⟩
  | @askFail i n m ci k st h =>
    obtain ⟨md, b, q, hb, ⟨v, h1, h2, h3⟩, h5⟩ := hi.threads _ _ h
    refine ⟨W, hi.len, hi.holds, hi.clen, hi.chans, others_step hi.threads ext_refl ⟨md, b, q, hb, h3 _ none ext_refl (fun _ h => by cases h), h5⟩, fun e he => ?_⟩
    rcases List.mem_append.1 he with he | he
    · exact hi.asked e he
    · cases List.mem_singleton.1 he
      show G n (value s.heap m) ci
      rw [held_value hi.holds h1]; exact h2
  | @ask i n m ci k st u h =>
    obtain ⟨md, b, q, hb, ⟨v, h1, h2, h3⟩, h5⟩ := hi.threads _ _ h
    refine ⟨W.add [none, none], len_add hi.len rfl, holds_add hi.len hi.holds (none_holds (by simp)), hi.clen, chans_mono ext_add rfl hi.chans,
      others_step hi.threads ext_add ⟨md, b, q, Nat.le_trans hb (ext_len (ext_add (keep := mine 0))), h3 _ _ ext_add (add_dead2 hi.len), frames_mono ext_add h5⟩, fun e he => ?_⟩
    rcases List.mem_append.1 he with he | he
    · exact hi.asked e he
    · cases List.mem_singleton.1 he
      show G n (value s.heap m) ci
      rw [held_value hi.holds h1]; exact h2
  | read h =>
    obtain ⟨md, b, q, hb, h1, h2⟩ := hi.threads _ _ h
    exact ⟨W, hi.len, hi.holds, hi.clen, hi.chans, others_step hi.threads ext_refl ⟨md, b, q, hb, h1 _ fun u hu => held_value hi.holds hu, h2⟩, hi.asked⟩
  | @copy i m f k st h =>
    obtain ⟨md, b, q, hb, ⟨v, md2, h1, h2⟩, h3⟩ := hi.threads _ _ h
    rw [held_value hi.holds h1]
    refine ⟨W.add [some (f v, md2.owner i), some (f v, md2.owner i)], len_add hi.len rfl, holds_add hi.len hi.holds pair_holds, hi.clen, chans_mono ext_add rfl hi.chans, ?_, hi.asked⟩
    refine others_step hi.threads ext_add ⟨md, b, q, Nat.le_trans hb (ext_len (ext_add (keep := mine 0))), h2 _ _ ext_add ?_ (add_held hi.len), frames_mono ext_add h3⟩
    show W.g.length ≤ s.heap.length + 1
    rw [hi.len]; omega
  | new h =>
    obtain ⟨md, b, q, hb, h1, h2⟩ := hi.threads _ _ h
    exact ⟨W.add [none, none], len_add hi.len rfl, holds_add hi.len hi.holds (none_holds (by simp)), hi.clen, chans_mono ext_add rfl hi.chans,
      others_step hi.threads ext_add ⟨md, b, q, Nat.le_trans hb (ext_len (ext_add (keep := mine 0))), h1 _ _ ext_add (add_dead2 hi.len), frames_mono ext_add h2⟩, hi.asked⟩
  | answer h =>
    obtain ⟨md, b, q, hb, h1, h2⟩ := hi.threads _ _ h
    refine ⟨W.add [none], len_add hi.len rfl, holds_add hi.len hi.holds (none_holds (by simp)), hi.clen, chans_mono ext_add rfl hi.chans,
      others_step hi.threads ext_add ⟨md, b, q, Nat.le_trans hb (ext_len (ext_add (keep := mine 0))), h1 _ _ ext_add ?_, frames_mono ext_add h2⟩, hi.asked⟩
    show (W.g ++ [none])[s.heap.length]? = some none
    rw [← hi.len]; simp
  | upd h =>
    obtain ⟨md, b, q, hb, h1, h2⟩ := hi.threads _ _ h
    exact ⟨W, by simp only [St.go, List.length_set]; exact hi.len, holds_set h1.1 hi.holds, hi.clen, hi.chans, others_step hi.threads ext_refl ⟨md, b, q, hb, h1.2, h2⟩, hi.asked⟩
  | @setName i a n k st h =>
    obtain ⟨md, b, q, hb, h1, h2⟩ := hi.threads _ _ h
    rcases h1 with ⟨h1, h3⟩ | ⟨⟨v, h1⟩, h3, h4⟩
    · exact ⟨W, by simp only [St.go, List.length_set]; exact hi.len, holds_set h1 hi.holds, hi.clen, hi.chans, others_step hi.threads ext_refl ⟨md, b, q, hb, h3, h2⟩, hi.asked⟩
    · have hd := kill_dead h1
      refine ⟨W.kill a.arr, ?_, holds_set hd ?_, hi.clen, chans_mono (ext_kill (keep := fun _ _ => False) h1 id) rfl hi.chans,
        others_step hi.threads (ext_kill h1 fun hk => hk rfl) ⟨md, b, q, ?_, h4 _ (ext_kill h1 fun hk => hk.2 rfl) hd, frames_mono (ext_kill h1 fun hk => absurd hk.2 (by omega)) h2⟩, hi.asked⟩
      · show (W.g.set a.arr none).length = (s.heap.set a.arr _).length
        rw [List.length_set, List.length_set]; exact hi.len
      · intro x u o hx
        replace hx : (W.g.set a.arr none)[x]? = some (some (u, o)) := hx
        rw [List.getElem?_set] at hx
        split at hx
        · split at hx <;> cases hx
        · exact hi.holds x u o hx
      · show b ≤ (W.g.set a.arr none).length
        rw [List.length_set]; exact hb
  | pick x h =>
    obtain ⟨md, b, q, hb, h1, h2⟩ := hi.threads _ _ h
    exact ⟨W, hi.len, hi.holds, hi.clen, hi.chans, others_step hi.threads ext_refl ⟨md, b, q, hb, h1 x, h2⟩, hi.asked⟩
  | @goShare i m p k st h =>
    obtain ⟨md, b, q, hb, ⟨⟨md', q', h1⟩, h2⟩, h3⟩ := hi.threads _ _ h
    exact ⟨W, hi.len, hi.holds, hi.clen, hi.chans, added_thread (others_step hi.threads ext_refl ⟨md, b, q, hb, h2, h3⟩) ⟨md', 0, q', Nat.zero_le _, h1 _ W ext_refl, trivial⟩, hi.asked⟩
  | @goCopy i m f p k st h =>
    obtain ⟨md, b, q, hb, ⟨⟨v, md', h0, h1⟩, h2⟩, h3⟩ := hi.threads _ _ h
    rw [held_value hi.holds h0]
    refine ⟨W.add [some (f v, none), some (f v, none)], len_add hi.len rfl, holds_add hi.len hi.holds pair_holds, hi.clen, chans_mono ext_add rfl hi.chans, ?_, hi.asked⟩
    exact added_thread (others_step hi.threads ext_add ⟨md, b, q, Nat.le_trans hb (ext_len (ext_add (keep := mine 0))), safe_mono _ ext_add h2, frames_mono ext_add h3⟩)
      ⟨md', 0, _, Nat.zero_le _, h1 _ _ _ ext_add (add_held (md := .free) hi.len), trivial⟩
  | @chan i k st h =>
    obtain ⟨md, b, q, hb, ⟨tag, h1⟩, h2⟩ := hi.threads _ _ h
    have he : ∀ keep : Nat → Nat → Prop, Ext keep W { W with ch := W.ch ++ [tag] } := by
      refine fun keep => ⟨fun x e h => .inl h, fun c b h => ?_⟩
      show (W.ch ++ [tag])[c]? = some b
      rw [List.getElem?_append_left (List.getElem?_eq_some_iff.1 h).1]
      exact h
    refine ⟨{ W with ch := W.ch ++ [tag] }, hi.len, hi.holds, ?_, ?_, others_step hi.threads (he _) ⟨md, b, q, hb, h1 _ _ (he _) ?_, frames_mono (he _) h2⟩, hi.asked⟩
    · show (W.ch ++ [tag]).length = (s.chans ++ [[]]).length
      simp only [List.length_append, hi.clen, List.length_cons, List.length_nil]
    · intro c tag' l hc hl r hr
      replace hc : (W.ch ++ [tag])[c]? = some tag' := hc
      replace hl : (s.chans ++ [[]])[c]? = some l := hl
      rw [List.getElem?_append] at hc hl
      rw [hi.clen] at hc
      split at hl
      · next hlt => rw [if_pos hlt] at hc; exact hi.chans c tag' l hc hl r hr
      · cases hd : c - s.chans.length with
        | zero => rw [hd] at hl; cases hl; cases hr
        | succ d => rw [hd] at hl; cases hl
    · show (W.ch ++ [tag])[s.chans.length]? = some tag
      rw [← hi.clen]; simp
  | send h hc =>
    obtain ⟨md, b, q, hb, ⟨⟨tag, h1, h2⟩, h3⟩, h4⟩ := hi.threads _ _ h
    refine ⟨W, hi.len, hi.holds, by simp only [St.go, List.length_set]; exact hi.clen, ?_, others_step hi.threads ext_refl ⟨md, b, q, hb, h3, h4⟩, hi.asked⟩
    intro c tag' l' ht hl r hr
    simp only [St.go] at hl
    rw [List.getElem?_set] at hl
    split at hl
    · next hcc =>
      split at hl
      · cases hl
        subst hcc
        rw [h1] at ht; cases ht
        rcases List.mem_append.1 hr with hr | hr
        · exact hi.chans _ _ _ h1 hc r hr
        · cases List.mem_singleton.1 hr; exact h2
      · cases hl
    · exact hi.chans c tag' l' ht hl r hr
  | recv h hc =>
    obtain ⟨md, b, q, hb, ⟨tag, h1, h2⟩, h4⟩ := hi.threads _ _ h
    refine ⟨W, hi.len, hi.holds, by simp only [St.go, List.length_set]; exact hi.clen, ?_,
      others_step hi.threads ext_refl ⟨md, b, q, hb, h2 _ _ ext_refl (hi.chans _ _ _ h1 hc _ (List.mem_cons_self ..)), h4⟩, hi.asked⟩
    intro c tag' l' ht hl r hr
    simp only [St.go] at hl
    rw [List.getElem?_set] at hl
    split at hl
    · next hcc =>
      split at hl
      · cases hl
        subst hcc
        exact hi.chans _ _ _ ht hc r (List.mem_cons_of_mem _ hr)
      · cases hl
    · exact hi.chans c tag' l' ht hl r hr
  | lead h =>
    obtain ⟨md, b, q, hb, h1, h2⟩ := hi.threads _ _ h
    exact ⟨W, hi.len, hi.holds, hi.clen, hi.chans, others_step hi.threads ext_refl ⟨md, b, q, hb, h1.2 _, h2⟩, hi.asked⟩
  | join h _ =>
    obtain ⟨md, b, q, hb, h1, h2⟩ := hi.threads _ _ h
    exact ⟨W, hi.len, hi.holds, hi.clen, hi.chans, others_step hi.threads ext_refl ⟨md, b, q, hb, h1.1, h2⟩, hi.asked⟩
  | wait h _ =>
    obtain ⟨md, b, q, hb, h1, h2⟩ := hi.threads _ _ h
    exact ⟨W, hi.len, hi.holds, hi.clen, hi.chans, others_step hi.threads ext_refl ⟨md, b, q, hb, h1 _, h2⟩, hi.asked⟩
  | land h _ =>
    obtain ⟨md, b, q, hb, h1, h2⟩ := hi.threads _ _ h
    exact ⟨W, hi.len, hi.holds, hi.clen, hi.chans, others_step hi.threads ext_refl ⟨md, b, q, hb, h1, h2⟩, hi.asked⟩

end

private theorem init_notes {roots : List (Root H)} : ∀ (j : Nat) (r : Root H), roots[j]? = some r →
    (roots.flatMap fun r => [some (r.q, (none : Option Nat)), some (r.q, none)])[2 * j]? = some (some (r.q, none)) ∧
    (roots.flatMap fun r => [some (r.q, (none : Option Nat)), some (r.q, none)])[2 * j + 1]? = some (some (r.q, none)) := by
  induction roots with
  | nil => intro j r h; cases h
  | cons x l ih =>
    intro j r h
    cases j with
    | zero => cases h; exact ⟨rfl, rfl⟩
    | succ j => exact ih j r h

private theorem init_holds {roots : List (Root H)} : ∀ (x : Nat) (v : Msg) (o : Option Nat), (roots.flatMap fun r => [some (r.q, (none : Option Nat)), some (r.q, none)])[x]? = some (some (v, o)) →
    (roots.flatMap fun r => [r.q, r.q])[x]? = some v := by
  induction roots with
  | nil => intro x v o h; cases h
  | cons y l ih =>
    intro x v o h
    match x with
    | 0 => cases h; rfl
    | 1 => cases h; rfl
    | x + 2 => exact ih x v o h

/-- C93: with any queries at the same time, whatever goroutines are faster, the servers are asked what C85 says of each query by itself, as long as below each replace element
there is no `fastest` group, or neither de-duplication nor cache. -/
theorem asked_as_values (roots : List (Root H)) (hc : ∀ r ∈ roots, Apart r.tree) (s : St H) (hs : Steps (init roots) s) (i : Nat) (v : Msg) (ci : ClientInfo) (ha : (i, v, ci) ∈ s.asked) :
    ∃ r ∈ roots, Asks r.tree r.q r.ci i v ci := by
  let G : Nat → Msg → ClientInfo → Prop := fun i v ci => ∃ r ∈ roots, Asks r.tree r.q r.ci i v ci
  have h0 : ∃ W, Inv G (init roots) W := by
    refine ⟨{ g := roots.flatMap fun r => [some (r.q, none), some (r.q, none)] }, ?_, init_holds, rfl, (fun c tag l h => by cases h), ?_, (fun e h => by cases h)⟩
    · simp only [init, List.length_flatMap, List.length_cons, List.length_nil]
    · intro j th h
      simp only [init, List.getElem?_mapIdx, Option.map_eq_some_iff] at h
      obtain ⟨r, hr, rfl⟩ := h
      have hm := List.mem_of_getElem? hr
      exact ⟨.free, 0, rootPtr j, Nat.zero_le _, safe_pass (v := r.q) (init_notes j r hr) ⟨hc r hm, trivial⟩ (fun i q' ci' h => ⟨r, hm, h⟩) (Nat.zero_le _), trivial⟩
  have hi : ∃ W, Inv G s W := by
    clear ha
    generalize init roots = a at hs h0
    induction hs with
    | refl => exact h0
    | step _ h ih => exact inv_step ih h
  obtain ⟨W, hi⟩ := hi
  exact hi.asked _ ha

/-! ### What happens otherwise -/

/-- A replace element above de-duplication above a `fastest` group of two servers -/
private def race : Tree Unit := .replace [fun _ => str "b."] (.dedup (.fastest 2 .client))

private def asA : Msg := { question := [⟨str "a.", 1, 1⟩] }

private def ofServer : Msg := { question := [⟨str "b.", 1, 1⟩], response := true }

private theorem race_run : ∃ s, Steps (init [⟨race, asA, {}⟩]) s ∧ (0, asA, {}) ∈ s.asked := by
  have h := Steps.refl (s := init [⟨race, asA, {}⟩])
  have h := h.step (.call (i := 0) rfl)
  have h := h.step (.read (i := 0) rfl)
  have h := h.step (.copy (i := 0) rfl)
  have h := h.step (.call (i := 0) rfl)
  have h := h.step (.lead (i := 0) rfl)
  have h := h.step (.call (i := 0) rfl)
  have h := h.step (.chan (i := 0) rfl)
  have h := h.step (.goShare (i := 0) rfl)
  have h := h.step (.goShare (i := 0) rfl)
  have h := h.step (.copy (i := 1) rfl)
  have h := h.step (.call (i := 1) rfl)
  have h := h.step (.ask (i := 1) (v := ofServer) rfl)
  have h := h.step (.ret (i := 1) rfl)
  have h := h.step (.send (i := 1) rfl rfl)
  have h := h.step (.recv (i := 0) rfl rfl)
  have h := h.step (.pick (i := 0) true rfl)
  have h := h.step (.ret (i := 0) rfl)
  have h := h.step (.land (i := 0) (f := 0) rfl rfl)
  have h := h.step (.read (i := 0) rfl)
  have h := h.step (.read (i := 0) rfl)
  have h := h.step (.answer (i := 0) rfl)
  have h := h.step (.ret (i := 0) rfl)
  have h := h.step (.setName (i := 0) rfl)
  have h := h.step (.copy (i := 2) rfl)
  have h := h.step (.call (i := 2) rfl)
  have h := h.step (.askFail (i := 2) rfl)
  exact ⟨_, h, List.mem_append_right _ (List.mem_singleton.2 rfl)⟩

/-- C93, what the code does otherwise: a server is asked for the name the client sent, which the replace element was to hide. De-duplication puts the question of the query into its reply
(request-dedup.go:135), the replace element puts the name back there (replace.go:84), and a member of the `fastest` group that starts late copies the query after that (fastest.go:43). -/
theorem late_member_asks_original_name : ∃ (t : Tree Unit) (q : Msg) (s : St Unit), Steps (init [⟨t, q, {}⟩]) s ∧ (0, q, {}) ∈ s.asked ∧ ¬ Asks t q {} 0 q {} := by
  obtain ⟨s, h1, h2⟩ := race_run
  refine ⟨race, asA, s, h1, h2, fun h => ?_⟩
  cases h with
  | replace h => cases h with
    | dedup h => cases h with
      | fastest h =>
        generalize hv : replaceAsk [fun _ => str "b."] asA = v at h
        cases h
        have : (replaceAsk [fun _ => str "b."] asA).question.map (·.name) = asA.question.map (·.name) := by rw [hv]
        exact absurd this (by decide)

section Examples

/-- With the group above, or without de-duplication, all is well. -/
private def tidy : Tree Unit := .fastest 2 fun i => .replace [fun _ => str "b."] (.dedup (.client i))

private theorem tidy_apart : Apart tidy := by
  intro exps c hw
  refine .inl fun u hu => ?_
  cases hw with
  | deeper hc hw =>
    obtain ⟨i, rfl⟩ := hc
    have key : ∀ u, Within (.dedup (.client i) : Tree Unit) u → isFastest u = false := by
      intro u hu
      cases hu with
      | self => rfl
      | deeper hc hu =>
        cases hc
        cases hu with
        | self => rfl
        | deeper hc _ => exact hc.elim
    cases hw with
    | self => exact key u hu
    | deeper hc hw =>
      cases hc
      cases hw with
      | deeper hc hw =>
        cases hc
        cases hw with
        | deeper hc _ => exact hc.elim

/-- One member has asked, with the name changed. -/
example : ∃ s : St Unit, Steps (init [⟨tidy, asA, {}⟩]) s ∧ (1, { asA with question := [⟨str "b.", 1, 1⟩] }, {}) ∈ s.asked ∧ ∀ r ∈ [(⟨tidy, asA, {}⟩ : Root Unit)], Apart r.tree := by
  have h := Steps.refl (s := init [⟨tidy, asA, {}⟩])
  have h := h.step (.call (i := 0) rfl)
  have h := h.step (.chan (i := 0) rfl)
  have h := h.step (.goShare (i := 0) rfl)
  have h := h.step (.copy (i := 1) rfl)
  have h := h.step (.call (i := 1) rfl)
  have h := h.step (.read (i := 1) rfl)
  have h := h.step (.copy (i := 1) rfl)
  have h := h.step (.call (i := 1) rfl)
  have h := h.step (.lead (i := 1) rfl)
  have h := h.step (.call (i := 1) rfl)
  have h := h.step (.askFail (i := 1) rfl)
  refine ⟨_, h, List.mem_append_right _ (List.mem_singleton.2 rfl), fun r hr => ?_⟩
  cases List.mem_singleton.1 hr
  exact tidy_apart

end Examples

end Verif.Props.SharedAsks
