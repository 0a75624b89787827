import Verif.Classes

/-
Model of `whatable` on objects that are no functions (what.py:525-559): the method `what` it adds to an object or a class.

Simplified: without `whatfunc` and `force_flag_as_whatami` (those are in Session.lean); objects are not callable; a slot called `what` is not filled.
-/
namespace Whatami

/-- `types.MethodType(whatablefunc, obj)` (what.py:555), a value of class `method` that carries the options of the decoration. -/
def methVal (o : WhatOpts) : Val := .obj c!"method" true [] [] [] [] (some o) c!"<bound method>"

/-- `whatablefunc` as seen from the class (what.py:553). -/
def funVal (o : WhatOpts) : Val := .obj c!"function" true [] [] [] [] (some o) c!"<function>"

/-- The options of a method that `whatable` made.  what.py:541-550. -/
def methOpts : Val → Option WhatOpts
  | .obj cls _ _ _ _ _ (some o) _ => if cls = c!"method" then some o else none
  | _ => none

/-- `obj.n` (what.py:384, 529). -/
def readAttr (ob : Inst) (n : Str) : R Val :=
  match findMember n ob.mro with
  | none => match dget (dictSrc ob) n with
    | some v => .ok v
    | none => .error .attributeError
  | some m =>
    if m.isData then m.get
    else match dget (dictSrc ob) n with
      | some v => .ok v
      | none => m.get

/-- `whatareyou(self, ...)` on such an object.  what.py:541-550, 342-360. -/
def reportInst (o : WhatOpts) (ob : Inst) : R What :=
  match configDictInst o ob with
  | .error e => .error e
  | .ok cd => .ok { name := ob.cls, conf := trimDict o cd, nonids := o.nonids, out := none }

/-- `obj.what()` (what.py:392); what attributes of another origin do is not modelled. -/
def callWhat (ob : Inst) : R What :=
  match readAttr ob c!"what" with
  | .error e => .error e
  | .ok v =>
    match methOpts v with
    | some o => reportInst o ob
    | none => .error .exception

/-- what.py:363-395 `is_whatable` on an object. -/
def isWhatableInst (ob : Inst) : Bool :=
  match callWhat ob with
  | .ok _ => true
  | .error _ => false

/-- `hasattr(obj, 'what')` (what.py:529). -/
def hasWhatAttr (ob : Inst) : R Bool :=
  match readAttr ob c!"what" with
  | .ok _ => .ok true
  | .error .attributeError => .ok false
  | .error e => .error e

/-- `obj.what = types.MethodType(whatablefunc, obj)` (what.py:555), any exception being turned into another (what.py:557-558). -/
def setWhatAttr (o : WhatOpts) (ob : Inst) : R Inst :=
  match findMember c!"what" ob.mro, ob.dict with
  | some (.slot _), _ | some (.prop _), _ | _, none => .error .exception
  | _, some d => .ok { ob with dict := some (dset d c!"what" (methVal o)) }

/-- what.py:529-559 `whatable` on an object. -/
def whatableObj (o : WhatOpts) (ob : Inst) : R Inst :=
  match hasWhatAttr ob with
  | .error e => .error e
  | .ok true => if isWhatableInst ob then setWhatAttr o ob else .error .exception
  | .ok false => setWhatAttr o ob

/-- `cls.what = whatablefunc` (what.py:552-553), for the `i`-th class in the method resolution order of the object's class: what
the decoration of that class makes of the object. -/
def decorateClass (o : WhatOpts) (ob : Inst) (i : Nat) : Inst :=
  { ob with mro := ob.mro.modify i fun c => dset c c!"what" (.meth (funVal o) (methVal o)) }

end Whatami
