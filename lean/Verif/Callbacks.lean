import Verif.Plugins

/-
Model of user plugins that call back `WhatamiPluginManager.build_string`, as the plugins for collections of plugins.py:64-109 do.

Simplified: the recursion limit of Python is a bound on the nested calls of `build_string` (Python counts all calls); plugins do not catch
RecursionError.
-/
namespace Whatami

/-- What a user plugin does when given a value: it returns or raises, or it calls `build_string` on some value and goes on as it likes with what
that returned or raised.  plugins.py:350-379 `insert`, 73-75. -/
inductive Act where
  | done (r : R (Option Str))
  | ask (v : Val) (k : R (Option Str) → Act)

/-- Running the plugin: `build_string` is `bs`.  plugins.py:391. -/
def Act.eval (bs : BS) : Act → R (Option Str)
  | .done r => r
  | .ask v k =>
    match bs v with
    | .error .recursionError => .error .recursionError
    | r => (k r).eval bs

/-- The user plugins.  plugins.py:350-379 `insert`. -/
abbrev Callers := Nat → Val → Act

/-- `plugin(v)`.  plugins.py:391. -/
def Plugin.runC (cu : Callers) (bs : BS) (p : Plugin) (v : Val) : R (Option Str) :=
  p.run (fun k u => (cu k u).eval bs) bs v

/-- plugins.py:381-393 `build_string` when at most `n` calls of it can be nested. -/
def buildC (cu : Callers) (ps : List Plugin) : Nat → BS
  | 0, _ => .error .recursionError
  | n + 1, v => firstSome (fun p => p.runC cu (buildC cu ps n) v) ps

end Whatami
