import Verif.Spec.Attr
import Verif.Spec.Same
import Verif.Spec.Within

/-
Specification for C88: what stands for an object whose `str()` has its address when objects are looked into.
-/
namespace Whatami

/-- An object that was not made whatable, or to no effect since it is callable (finding 18). -/
def NotWhatable (callable : Bool) (wh : Option WhatOpts) : Prop := wh = none ∨ callable = true

/-- An object that is not whatable and whose `str()` has its address. -/
def HasAddress (v : Val) : Prop := ∃ c cl cd dd sd pd wh s, v = .obj c cl cd dd sd pd wh s ∧ NotWhatable cl wh ∧ c!" at 0x" <:+: s

/-- `Opened v x`: `v` is an object, callable or not, whose `str()` has its address, and `x` is the What with its class and all its attributes,
private ones too: slots and properties first, then what is in its `__dict__`. -/
inductive Opened : Val → Val → Prop where
  | obj {ob : Inst} {s : Str} {cd dd sd pd conf : Conf} {callable : Bool} {wh : Option WhatOpts} : ob.Ok →
      ob.toVal none s = .ok (.obj ob.cls false cd dd sd pd none s) → NotWhatable callable wh → c!" at 0x" <:+: s →
      UniqueKeys conf → (∀ n x, (n, x) ∈ conf ↔ ob.Shows {} n x) →
      Opened (.obj ob.cls callable cd dd sd pd wh s) (.what ob.cls conf [] none)

end Whatami
