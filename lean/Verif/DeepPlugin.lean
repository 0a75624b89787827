import Verif.Callbacks
import Verif.Manager

/-
Model of `anyobject0x_plugin(deep=True)` (plugins.py:172-189), put in the place of the default.

Simplified: as for the default, `str()` is modelled for the values that get to the capture-all plugins; objects are trees (an object that holds
itself makes the plugin call itself without end, plugins.py:182).
-/
namespace Whatami

/-- what.py:263-268: `id()` of a What, as calls of `build_string` one after the other; `parts` are the texts of the items done. -/
def askId (name : Str) : Conf → List Str → Act
  | [], parts => .done (.ok (some (wrapId name none (pyJoin c!"," parts))))
  | (k, v) :: rest, parts => .ask v fun
    | .error e => .done (.error e)
    | .ok s => askId name rest (parts ++ [k ++ c!"=" ++ showOpt s])

/-- plugins.py:172-189 `anyobject0x_plugin(v, deep=True)`. -/
def deepPlugin (v : Val) : Act :=
  if isInfix c!" at 0x" (pyStr v) then askId (className v) (idItems { name := className v, conf := configDictForObject {} v } false) []
  else .done (.ok none)

/-- The user's plugin is `partial(anyobject0x_plugin, deep=True)`.  plugins.py:172-189. -/
def deepUser : Callers := fun _ => deepPlugin

/-- The plugins after `drop(anyobject0x_plugin)` and `insert(partial(anyobject0x_plugin, deep=True), before=anyobject_plugin)`.
plugins.py:297-320, 334-379. -/
def deepPlugins : List Plugin := mrun (fun _ => false) defaultPlugins [.drop .any0x, .insert (.custom 0) (some .any)]

/-- `build_string` with these plugins, when at most `limit` calls of it can be nested.  plugins.py:381-393. -/
def buildDeepN (limit : Nat) : BS := buildC deepUser deepPlugins limit

end Whatami
