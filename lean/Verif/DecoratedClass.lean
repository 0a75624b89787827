import Verif.ClassGraph

/-
Model of `whatable` on classes (what.py:526-559) and of `is_whatable` on classes (what.py:383-395), with `whatfunc` and
`force_flag_as_whatami`, over a session in which any classes are decorated in any order: functions are objects, so that
marking one (`whatablefunc.whatami = True`) shows wherever it is used.

Simplified: metaclasses have no attribute `what`; `whatfunc` is a function.
-/
namespace Whatami

/-- What a class can have as its attribute `what` (what.py:384): a function, by identity; a classmethod, by identity; a property; or something else
(a number, ...).  The last two have neither `__self__` nor `whatami`. -/
inductive ClassWhat where
  | func (f : Nat)
  | classMethod (f : Nat)
  | prop
  | other
deriving DecidableEq, Repr

/-- What does not change in a session: method resolution orders (what.py:384), the classes whose attributes cannot be assigned (built-in types, what.py:553),
whether the call `cls.what()` of a classmethod gives a `What` (what.py:393). -/
structure ClassWorld where
  mro : Nat → List Nat
  sealed_ : Nat → Bool
  gives : Nat → Nat → Bool

/-- What does: the classes' own attributes `what`; the functions marked with `whatami` (what.py:534, 552); the next new function (what.py:541). -/
structure ClassState where
  own : WhatAttrs ClassWhat
  marked : Nat → Bool
  next : Nat

/-- what.py:383-395 `is_whatable` on a class. -/
def isWhatableClass (W : ClassWorld) (S : ClassState) (c : Nat) : Bool :=
  match lookupWhat W.mro S.own c with
  | none => false
  | some (.func f) => S.marked f
  | some (.classMethod f) => W.gives f c
  | some .prop => false
  | some .other => false

/-- `f.whatami = True` (what.py:534, 552). -/
def ClassState.mark (S : ClassState) (f : Nat) : ClassState := { S with marked := fun g => if g = f then true else S.marked g }

/-- what.py:541-559: the new function, or `whatfunc`, is marked and then assigned, if that can be done. -/
def giveWhat (W : ClassWorld) (S : ClassState) (c : Nat) (whatfunc : Option Nat) : R Unit × ClassState :=
  match whatfunc with
  | some f => if W.sealed_ c then (.error .exception, S.mark f) else (.ok (), { S.mark f with own := assignWhat S.own c (.func f) })
  | none => if W.sealed_ c then (.error .exception, { S.mark S.next with next := S.next + 1 })
    else (.ok (), { S.mark S.next with own := assignWhat S.own c (.func S.next), next := S.next + 1 })

/-- what.py:526-559 `whatable` on a class: what it raises or not, and the session afterwards. -/
def whatableClass (W : ClassWorld) (S : ClassState) (c : Nat) (whatfunc : Option Nat) (force : Bool) : R Unit × ClassState :=
  match lookupWhat W.mro S.own c with
  | none => giveWhat W S c whatfunc
  | some v =>
    if isWhatableClass W S c then giveWhat W S c whatfunc
    else if force then
      match v with
      -- bound methods and most other objects take no attributes
      | .func f => (.ok (), S.mark f)
      | _ => (.error .attributeError, S)
    else (.error .exception, S)

/-- A call of `whatable` on a class.  what.py:398-412. -/
structure ClassCall where
  cls : Nat
  whatfunc : Option Nat := none
  force : Bool := false

/-- Any calls one after the other, exceptions being caught.  what.py:398. -/
def whatableClasses (W : ClassWorld) : ClassState → List ClassCall → ClassState
  | S, [] => S
  | S, k :: ks => whatableClasses W (whatableClass W S k.cls k.whatfunc k.force).2 ks

end Whatami
