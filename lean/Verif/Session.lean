import Verif.DecoratedClass

/-
Model of `whatable` on objects with `whatfunc` and `force_flag_as_whatami` (what.py:526-559) and of `is_whatable` on objects
(what.py:383-395), over a session in which classes and objects are decorated in any order.

Simplified: a property called `what`, read on an object, gives something that is no method and takes no attributes, and has no setter; so with other values
called `what`; `__getattr__` and `__setattr__` are not overridden.
-/
namespace Whatami

/-- What an object can have as its attribute `what` (what.py:384): a function bound to it; a classmethod, bound to its class; a function put into its
`__dict__`, which is not bound; or something else. -/
inductive ObjWhat where
  | bound (f : Nat)
  | boundCls (f : Nat)
  | func (f : Nat)
  | other
deriving DecidableEq, Repr

/-- What does not change in a session: the classes; the class of an object (what.py:384); whether it has a `__dict__` (what.py:555);
whether the call `f(obj)` gives a `What` (what.py:393). -/
structure ObjWorld where
  classes : ClassWorld
  cls : Nat → Nat
  hasDict : Nat → Bool
  yields : Nat → Nat → Bool

/-- What does: the classes and the marks on functions; what objects have in their `__dict__` under `what` (what.py:555). -/
structure Session where
  classes : ClassState
  held : Nat → Option ObjWhat

/-- `obj.what` (what.py:384): properties of the class come first, then the `__dict__`, then other attributes of the class. -/
def lookupObj (W : ObjWorld) (S : Session) (o : Nat) : Option ObjWhat :=
  match lookupWhat W.classes.mro S.classes.own (W.cls o) with
  | some .prop => some .other
  | c =>
    match S.held o with
    | some x => some x
    | none =>
      match c with
      | none => none
      | some (.func f) => some (.bound f)
      | some (.classMethod f) => some (.boundCls f)
      | some _ => some .other

/-- what.py:383-395 `is_whatable` on an object. -/
def isWhatableObj (W : ObjWorld) (S : Session) (o : Nat) : Bool :=
  match lookupObj W S o with
  | some (.bound f) => W.yields f o
  | some (.boundCls f) => W.classes.gives f (W.cls o)
  | some (.func f) => S.classes.marked f
  | _ => false

/-- `obj.what = ...` (what.py:555) can be done. -/
def canHold (W : ObjWorld) (S : Session) (o : Nat) : Bool :=
  W.hasDict o && lookupWhat W.classes.mro S.classes.own (W.cls o) != some .prop

/-- what.py:541-559: the new function, or `whatfunc`, is marked, bound and then assigned, if that can be done. -/
def holdWhat (W : ObjWorld) (S : Session) (o : Nat) (whatfunc : Option Nat) : R Unit × Session :=
  let C : ClassState := match whatfunc with
    | some f => S.classes.mark f
    | none => { S.classes.mark S.classes.next with next := S.classes.next + 1 }
  let f := match whatfunc with
    | some f => f
    | none => S.classes.next
  if canHold W S o then (.ok (), { classes := C, held := fun p => if p = o then some (.bound f) else S.held p })
  else (.error .exception, { S with classes := C })

/-- what.py:526-559 `whatable` on an object: what it raises or not, and the session afterwards. -/
def whatableObject (W : ObjWorld) (S : Session) (o : Nat) (whatfunc : Option Nat) (force : Bool) : R Unit × Session :=
  match lookupObj W S o with
  | none => holdWhat W S o whatfunc
  | some x =>
    if isWhatableObj W S o then holdWhat W S o whatfunc
    else if force then
      match x with
      -- bound methods take no attributes
      | .func f => (.ok (), { S with classes := S.classes.mark f })
      | _ => (.error .attributeError, S)
    else (.error .exception, S)

/-- A call of `whatable` on a class or on an object.  what.py:398-412. -/
inductive AnyCall where
  | cls (k : ClassCall)
  | obj (o : Nat) (whatfunc : Option Nat) (force : Bool)

/-- `whatable` on either.  what.py:526-559. -/
def whatableAny (W : ObjWorld) (S : Session) : AnyCall → R Unit × Session
  | .cls k => let r := whatableClass W.classes S.classes k.cls k.whatfunc k.force; (r.1, { S with classes := r.2 })
  | .obj o wf force => whatableObject W S o wf force

/-- Any calls one after the other, exceptions being caught.  what.py:398. -/
def whatableAll (W : ObjWorld) : Session → List AnyCall → Session
  | S, [] => S
  | S, k :: ks => whatableAll W (whatableAny W S k).2 ks

end Whatami
