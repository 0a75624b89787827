import Verif.Basic

/-
Model of the classes of a Python session, as far as `all_subclasses` (misc.py:334-351) and `whatamize_object`
(whatutils.py:22-54, with wrappers/what_sklearn.py:628-631) look at them: bases, method resolution order, and the attribute `what`.

Simplified: classes are never destroyed; their bases are not reassigned; `__subclasses__` is not overridden; metaclasses have no
attribute `what`.
-/
namespace Whatami

/-- The classes of the session in the order they were defined, each with its bases: class `i` is the `i`-th.  misc.py:351. -/
abbrev Bases := List (List Nat)

/-- `cls.__subclasses__()`, in the order of definition (misc.py:351). -/
def directSubs (g : Bases) (i : Nat) : List Nat := (List.range g.length).filter fun j => (g.getD j []).contains i

/-- misc.py:334-351 `all_subclasses`; `n` bounds the nesting of the calls (an error beyond it, as with Python's recursion limit). -/
def allSubs (g : Bases) : Nat → Nat → R (List Nat)
  | 0, _ => .error .exception
  | n + 1, i =>
    match mapR (allSubs g n) (directSubs g i) with
    | .error e => .error e
    | .ok below => .ok (directSubs g i ++ below.flatten)

/-- The attribute `what` of every class that has it in its own namespace (whatutils.py:49-50); `F` is whatever it is. -/
abbrev WhatAttrs (F : Type) := Nat → Option F

/-- The attribute `what` of a class and of its instances (whatutils.py:49): that of the first class in its method resolution order that has one. -/
def lookupWhat {F : Type} (mro : Nat → List Nat) (own : WhatAttrs F) (c : Nat) : Option F := (mro c).findSome? own

/-- `clazz.what = what_func` (whatutils.py:50). -/
def assignWhat {F : Type} (own : WhatAttrs F) (c : Nat) (f : F) : WhatAttrs F := fun d => if d = c then some f else own d

/-- whatutils.py:22-54 `whatamize_object`; `clazz` is what the name was resolved to, or the exception that raised. -/
def whatamizeObject {F : Type} (mro : Nat → List Nat) (own : WhatAttrs F) (clazz : R Nat) (f : F) (failOnImportError force : Bool) : R (WhatAttrs F) :=
  match clazz with
  | .error .importError => if failOnImportError then .error .importError else .ok own
  | .error e => .error e
  | .ok c => if (lookupWhat mro own c).isNone || force then .ok (assignWhat own c f) else .ok own

/-- wrappers/what_sklearn.py:628-631: the classes are whatamized one after the other, those that cannot be imported being skipped. -/
def whatamizeAll {F : Type} (mro : Nat → List Nat) (f : F) : WhatAttrs F → List (R Nat) → R (WhatAttrs F)
  | own, [] => .ok own
  | own, c :: cs =>
    match whatamizeObject mro own c f false false with
    | .error e => .error e
    | .ok own' => whatamizeAll mro f own' cs

end Whatami
