import Verif.Model.Assemble
import Verif.Model.Settings
/-
The options of a rate limiter in a configuration file.
-/
namespace Verif.LimitsConfig
open Verif Verif.Assemble

/-- cmd/routedns/main.go:1001-1012: the options of the section, with what `NewRateLimiter` fills in (`Settings.rateLimiter`) -/
def options (g : Group) : Rate.Options := Settings.rateLimiter { requests := g.requests, window := g.window, prefix4 := g.prefix4, prefix6 := g.prefix6 }

end Verif.LimitsConfig
