import Verif.DecoratedObj
import Verif.Utils

/-
Model of whatutils.py:105-143, 419-430 and what.py:310-395: `obj2what` on objects, callable or not, with a `what` of `FunctionLike`, one
that `whatable` made, or none.

Simplified: what() methods of another origin are not modelled here (C55); a `__name__` that is not a string stands as TypeError.
-/
namespace Whatami

/-- An object of a user-defined class, with or without a `__call__` (misc.py:327). -/
structure Obj where
  inst : Inst
  callable : Bool

/-- The method `what` of `FunctionLike`, bound.  whatutils.py:426. -/
def likeVal : Val := .obj c!"method" true [] [] [] [] none c!"<bound method FunctionLike.what>"

/-- The namespace of the class `FunctionLike`, for an object of the class `cls`.  whatutils.py:419-430. -/
def likeClass (cls : Str) : List (Str × Member) := [(c!"__name__", .prop (.ok (.str cls))), (c!"what", .meth (.builtin c!"what") likeVal)]

/-- `self.__name__` (whatutils.py:430, misc.py:329). -/
def nameOf (ob : Inst) : R Str :=
  match readAttr ob c!"__name__" with
  | .error e => .error e
  | .ok (.str n) => .ok n
  | .ok _ => .error .typeError

/-- whatutils.py:426-430 `FunctionLike.what` (`config_dict_for_object` with its defaults). -/
def functionLikeWhat (ob : Inst) : R What :=
  match configDictInst {} ob with
  | .error e => .error e
  | .ok cd =>
    match nameOf ob with
    | .error e => .error e
    | .ok n => .ok { name := n, conf := cd.filter fun kv => !startsWith kv.1 c!"_" && !endsWith kv.1 c!"_" }

/-- what.py:310-360 `whatareyou` on such an object: a callable one is asked for its `__name__` (misc.py:327-329) and nothing else, the
ValueError for the others (misc.py:330) makes it look at the attributes. -/
def whatareyouObj (o : WhatOpts) (nameOverride : Option Str) (x : Obj) : R What :=
  let mk (name : Str) (cd : Conf) : What :=
    { name := match nameOverride with | some n => n | none => name
      conf := trimDict o cd, nonids := o.nonids, out := none }
  let inspected : R What :=
    match configDictInst o x.inst with
    | .error e => .error e
    | .ok cd => .ok (mk x.inst.cls cd)
  if x.callable then
    match nameOf x.inst with
    | .ok n => .ok (mk n [])
    | .error .valueError | .error .typeError => inspected
    | .error e => .error e
  else inspected

/-- `obj.what()` (whatutils.py:132, what.py:392). -/
def callWhatObj (x : Obj) : R What :=
  match readAttr x.inst c!"what" with
  | .error e => .error e
  | .ok (.obj cls _ _ _ _ _ wh s) =>
    if cls = c!"method" then
      match wh with
      | some o => whatareyouObj o none x
      | none => if s = c!"<bound method FunctionLike.what>" then functionLikeWhat x.inst else .error .exception
    else .error .exception
  | .ok _ => .error .exception

/-- whatutils.py:105-143 `obj2what`; any exception of what() makes `is_whatable` False (what.py:384-395), and `add_class` keeps its
default. -/
def obj2whatObj (forceInspect : Bool) (nameOverride : Option Str) (o : WhatOpts) (x : Obj) : R What :=
  match forceInspect, callWhatObj x with
  | false, .ok w => .ok w
  | _, _ => whatareyouObj { o with addClass := false } nameOverride x

end Whatami
