import Verif.Manager

/-
Model of the bookkeeping of `WhatamiPluginManager` (plugins.py:247-379) step by step: what several threads that insert, drop and reset plugins may do to the
plugin list, and what is left of a call that is interrupted.  A step is one read or one write of the class attribute `PLUGINS`: in CPython these are atomic,
and any other thread may run between two of them; an exception such as KeyboardInterrupt may come between two of them.  Lists and tuples that only one
thread has are part of the step before.
-/
namespace Whatami

/-- A call that is running, plugins.py:329-379: it has returned or raised, reads `cls.PLUGINS` and goes on, or writes it and goes on. -/
inductive MProg where
  | done (r : R Unit)
  | load (k : List Plugin → MProg)
  | store (ps : List Plugin) (k : MProg)

/-- plugins.py:370-379: the second part of `insert`. -/
def insertProg (named : Nat → Bool) (p : Plugin) (before : Option Plugin) : MProg :=
  .load fun ps =>
    match before with
    | none => .store (ps ++ [p]) (.done (.ok ()))
    | some b => if b ∈ ps then .store (insertAtIndex p b ps) (.done (.ok ())) else .done (.error (nameError named b))

/-- plugins.py:329-332 `reset`, 334-348 `drop`, 350-379 `insert`. -/
def MOp.prog (named : Nat → Bool) : MOp → MProg
  | .reset => .store defaultPlugins (.done (.ok ()))
  | .drop p => .load fun ps => if p ∈ ps then .store (pyRemove p ps) (.done (.ok ())) else .done (.error (nameError named p))
  | .insert p before => .load fun ps => if p ∈ ps then .done (.error (nameError named p)) else insertProg named p before

/-- One step.  plugins.py:329-379. -/
def MProg.step (ps : List Plugin) : MProg → List Plugin × MProg
  | .done r => (ps, .done r)
  | .load k => (ps, k ps)
  | .store ps' k => (ps', k)

/-- Threads that use the plugin manager.  Clients of plugins.py:324-379. -/
structure PlugState where
  plugins : List Plugin
  threads : Nat → MProg

/-- Threads that are about to make these calls.  Clients of plugins.py:324-379. -/
def startOps (named : Nat → Bool) (ps : List Plugin) (calls : List MOp) : PlugState :=
  ⟨ps, fun t => match calls[t]? with | some op => op.prog named | none => .done (.error .exception)⟩

/-- The scheduler lets a thread do one step.  Clients of plugins.py:324-379. -/
def PlugState.tick (s : PlugState) (t : Nat) : PlugState :=
  let r := (s.threads t).step s.plugins
  ⟨r.1, fun t' => if t' = t then r.2 else s.threads t'⟩

/-- A schedule: which thread does the next step, again and again.  Calls that are interrupted are not scheduled any more.  Clients of
plugins.py:324-379. -/
def PlugState.run (s : PlugState) (sched : List Nat) : PlugState := sched.foldl PlugState.tick s

end Whatami
