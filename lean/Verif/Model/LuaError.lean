import Verif.Model.LuaBind
/-
Errors in scripts: making one, and reading its text.
-/
namespace Verif.LuaBind

/-- `Error.new`, lua-error.go:19-24. `none`: an error is raised. Further arguments are ignored, and none is nil to `L.CheckString`. -/
def errorNew (E : Env) (args : List LVal) : Option LVal := (checkString E (args.headD .nil)).map fun s => .user (some .error) (.error s)

/-- `err:error()`, lua-error.go:28-31, with `method` of lua-helpers.go:12-26. `none`: an error is raised. -/
def errorText : List LVal → Option LVal
  | .user _ (.error e) :: _ => some (.string e)
  | _ => none

end Verif.LuaBind
