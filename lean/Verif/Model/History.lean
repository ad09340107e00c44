import Verif.Model.Composition
/-
A program from its start: queries that elements of the configuration handle, one after the other or at the same time.
-/
namespace Verif.History
open Verif Verif.Composition

/-- An element handles a query, from `start` to `stop` (nanoseconds): until it has replied, or until its reply is in the cache in front of it (cache.go:204-285). `servers` are the replies that
upstream servers may give meanwhile. Queries of clients are episodes of the element behind a listener; what this element asks the elements behind it is made of episodes of these; and so is what a
cache (cache.go:230-262) or prefetching (prefetch.go:80-90) asks by itself. -/
structure Episode (H : Type) where
  element : Tree H
  query : Msg
  client : ClientInfo
  reply : Res
  start : Int
  stop : Int
  servers : Nat → Msg → ClientInfo → Option Res → Prop

/-- What there is when a query is handled between `start` and `stop`, after the episodes in `past` have ended (some perhaps after `start`): caches hold responses that the element behind gave in one of
these, stored while it lasted (cache.go:204-285); de-duplication hands out results of the element behind that came in after `start` (request-dedup.go:96-126); clocks show the time; validations
end as `V` says (dnssec.go:133-146); and members of groups have replied to other queries as in these episodes (failrotate.go:50-97). -/
def since {H : Type} (V : Tree H → Msg → DnssecResolver.Verdict → Prop) (past : List (Episode H)) (start stop : Int) : Around H where
  stored t m ts := ∃ e, e ∈ past ∧ e.element = t ∧ e.reply = .ok m ∧ e.start ≤ ts ∧ ts ≤ e.stop
  shared t y := ∃ e, e ∈ past ∧ e.element = t ∧ e.reply = y ∧ start ≤ e.stop
  clock τ := start ≤ τ ∧ τ ≤ stop
  verdict := V
  replied t y := ∃ e, e ∈ past ∧ e.element = t ∧ e.reply = y

/-- The episodes since the program was started with empty caches, in the order in which they ended, the last one first. Caches that are saved to files (cache-memory.go:163-222) or kept by Redis hold what
earlier episodes have stored: then this is the history since they were empty, over restarts. -/
inductive Runs {H : Type} [DecidableEq H] (V : Tree H → Msg → DnssecResolver.Verdict → Prop) : List (Episode H) → Prop
  | start : Runs V []
  | next {past e} : Runs V past → e.start ≤ e.stop → (∀ e', e' ∈ past → e'.stop ≤ e.stop) →
      RepliesIn (since V past e.start e.stop) e.servers e.element e.query e.client (some e.reply) → Runs V (e :: past)

end Verif.History
