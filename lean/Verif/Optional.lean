import Verif.Manager

/-
Model of plugins.py in an installation where the optional libraries may be missing (setup.py:41-46).

`np` and `pd` are results of `maybe_import` (plugins.py:202, 210): the module, or an object that raises ImportError whenever
an attribute is asked for (misc.py:719-731, modelled in `Frame`).  Neither is ever None, so the guards `np is not None` and
`pd is not None` always let through, and a plugin of a missing library raises as soon as it evaluates `pd.DataFrame`,
`np.ndarray` or `np.random`, that is on every value it is given.
-/
namespace Whatami

/-- Which of the optional libraries can be imported.  setup.py:41-46. -/
structure Libs where
  numpy : Bool
  pandas : Bool
deriving DecidableEq, Repr

/-- plugins.py:205-207 `has_numpy`: `isinstance(np, ModuleType)`, which reads `np.__class__` if `type(np)` is no module type; on the stand-in
that raises (misc.py:719-731). -/
def Libs.hasNumpy (L : Libs) : R Bool := if L.numpy then .ok true else .error .importError

/-- plugins.py:213-215 `has_pandas`: whether `pd` is not None, and it never is. -/
def Libs.hasPandas (_ : Libs) : R Bool := .ok true

/-- A plugin of a missing library, as user plugin number 0: evaluating the class to compare with raises.  The user's own plugins
have the other numbers.  plugins.py:221, 228, 235, misc.py:719-731. -/
def missingLib (cu : Customs) : Customs
  | 0, _ => .error .importError
  | n + 1, v => cu (n + 1) v

/-- The plugins of the libraries that are missing raise; the others are themselves.  plugins.py:218-236. -/
def Libs.plugin (L : Libs) : Plugin → Plugin
  | .pandas => if L.pandas then .pandas else .custom 0
  | .numpy => if L.numpy then .numpy else .custom 0
  | .rng => if L.numpy then .rng else .custom 0
  | p => p

/-- `build_string` in that installation with the list of plugins `ps`.  plugins.py:381-393. -/
def Libs.build (L : Libs) (cu : Customs) (ps : List Plugin) : BS := Whatami.build (missingLib cu) (ps.map L.plugin)

end Whatami
