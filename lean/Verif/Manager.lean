import Verif.Plugins

/-
Model of the bookkeeping of `WhatamiPluginManager` (plugins.py:247-379).
The class attribute `PLUGINS` is the state; every call returns the new state and the outcome.
-/
namespace Whatami

/-- `plugins.remove(p)`: the first occurrence.  plugins.py:345. -/
def pyRemove (p : Plugin) : List Plugin → List Plugin
  | [] => []
  | q :: r => if q = p then r else q :: pyRemove p r

/-- `plugins.insert(plugins.index(b), p)`.  plugins.py:375-376. -/
def insertAtIndex (p b : Plugin) : List Plugin → List Plugin
  | [] => []
  | q :: r => if q = b then p :: q :: r else q :: insertAtIndex p b r

/-- The calls on the manager. `insert`'s `before` argument is None or a plugin.  plugins.py:324-379. -/
inductive MOp where
  | insert (p : Plugin) (before : Option Plugin)
  | drop (p : Plugin)
  | reset
deriving DecidableEq, Repr

/-- The exception whose message has `plugin.__name__` in it: the message cannot be made for plugins without a name, such as partials; `named`
tells which of the user's plugins have one.  plugins.py:348, 369, 378. -/
def nameError (named : Nat → Bool) : Plugin → Err
  | .custom n => if named n then .valueError else .attributeError
  | _ => .valueError

/-- plugins.py:329-332 `reset`, 334-348 `drop`, 350-379 `insert`. -/
def mstep (named : Nat → Bool) (ps : List Plugin) : MOp → List Plugin × R Unit
  | .reset => (defaultPlugins, .ok ())
  | .drop p => if p ∈ ps then (pyRemove p ps, .ok ()) else (ps, .error (nameError named p))
  | .insert p before =>
    if p ∈ ps then (ps, .error (nameError named p))
    else
      match before with
      | none => (ps ++ [p], .ok ())
      | some b => if b ∈ ps then (insertAtIndex p b ps, .ok ()) else (ps, .error (nameError named b))

/-- The plugin list after a history of calls, failing ones included.  A client of plugins.py:324-379. -/
def mrun (named : Nat → Bool) (ps : List Plugin) (ops : List MOp) : List Plugin := ops.foldl (fun s op => (mstep named s op).1) ps

end Whatami
