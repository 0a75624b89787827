import Verif.Misc

/-
Model of `whatable` on functions and partials (what.py:490-523), of closures and of what `callable2call` makes of them
(misc.py:287-331, 566-582).
-/
namespace Whatami

/-- What a function does when it is called: code of the user's, by identity, or `return obj(*args, **kwargs)` where `obj` is
the only captured variable (what.py:497-500). -/
inductive Code where
  | user (n : Nat)
  | forward
deriving DecidableEq, Repr

/-- What the attribute `what` of a decorated function is: `partial(What, name=..., conf=..., non_id_keys=...)` (what.py:518), or
`partial(whatfunc, owner)` (what.py:520), where the owner is the function that has the attribute and `whatfunc` is code of the user's, by
identity. -/
inductive WhatAttr where
  | conf (w : What)
  | by (whatfunc : Nat)

/-- A callable, with its attribute `what`, if it has that (what.py:490-523).

* `func`: a function; `closed`: it is a closure, but not over a single variable.
* `over`: a function that captures exactly one variable, with that variable's contents.
* `part`: `functools.partial` (`plain`) or a toolz `curry`.
* `other`: anything else.

(Simplification: calls of `what()` always give an equal What; that they share a dictionary is modelled in Heap.lean.) -/
inductive Fn where
  | func (name : Str) (args : List Str) (defaults : List Val) (code : Code) (closed : Bool) (what : Option WhatAttr)
  | over (name : Str) (args : List Str) (defaults : List Val) (code : Code) (cell : Fn) (what : Option WhatAttr)
  | part (plain : Bool) (f : Fn) (args : List Val) (kws : Conf) (what : Option WhatAttr)
  | other (v : Val)

/-- `inspect.isfunction`.  misc.py:568, 580; what.py:493. -/
def Fn.isFunction : Fn → Bool
  | .func .. | .over .. => true
  | _ => false

/-- misc.py:571-582 `extract_decorated_function_from_closure`. -/
def extractDecorated : Fn → Fn
  | .over n a d c cell (some w) => if cell.isFunction then extractDecorated cell else .over n a d c cell (some w)
  | f => f

/-- The function case of `callable2call`, after `closure_extractor` (misc.py:299-320). -/
def funcCallOf : Fn → List Val → Conf → R (Str × Conf)
  | .func n a d _ _ _, pos, kw => funcCall n a d pos kw
  | .over n a d _ _ _, pos, kw => funcCall n a d pos kw
  | _, _, _ => .error .typeError

/-- `c.__name__` and the like for other callables (misc.py:327-330), as in `callable2call`. -/
def otherCall (v : Val) (pos : List Val) (kw : Conf) : R (Str × Conf) := callable2call v pos kw

/-- misc.py:233-331 `callable2call`.  The constructor of `functools.partial` flattens a partial in function position, but not
if that has attributes of its own (a `what`). -/
def fnCall (ext : Fn → Fn) : Fn → List Val → Conf → R (Str × Conf)
  -- a closure if `closed`: misc.py:300-301
  | .func n a d c closed w, pos, kw => funcCallOf (if closed then ext (.func n a d c closed w) else .func n a d c closed w) pos kw
  | .over n a d c cell w, pos, kw => funcCallOf (ext (.over n a d c cell w)) pos kw
  | .part _ (.part true g a k none) args kws _, pos, kw => fnCall ext g (pos ++ (a ++ args)) (dictOf (dupdate k kws ++ kw))
  | .part _ f args kws _, pos, kw => fnCall ext f (pos ++ args) (dictOf (kws ++ kw))
  | .other v, pos, kw => otherCall v pos kw
termination_by structural f => f

/-- `obj.what = ...`.  what.py:518-521. -/
def Fn.setWhat (w : WhatAttr) : Fn → Fn
  | .func n a d c closed _ => .func n a d c closed (some w)
  | .over n a d c cell _ => .over n a d c cell (some w)
  | .part p f a k _ => .part p f a k (some w)
  | .other v => .other v

/-- The attribute `what`.  what.py:518-521. -/
def Fn.what : Fn → Option WhatAttr
  | .func _ _ _ _ _ w | .over _ _ _ _ _ w | .part _ _ _ _ w => w
  | .other _ => none

/-- `f.__name__`.  what.py:506. -/
def Fn.name? : Fn → Option Str
  | .func n _ _ _ _ _ | .over n _ _ _ _ _ => some n
  | _ => none

/-- what.py:497-511: the new function, with the name of the old one if that has one. -/
def wrapFn (obj : Fn) : Fn := .over (obj.name?.getD c!"whatablefunc") [] [] .forward obj none

/-- what.py:493: what the function branch of `whatable` deals with. -/
def Fn.decorable : Fn → Bool
  | .func .. | .over .. => true
  | .part plain _ _ _ _ => plain
  | .other _ => false

/-- `f.what()` (what.py:518-521) if `f` has the attribute; `wf k g` is what the call `whatfunc(g)` of the user's gives, `none` for something
that is no What. -/
def Fn.callWhat (wf : Nat → Fn → R (Option What)) (f : Fn) : Option (R (Option What)) :=
  match f.what with
  | none => none
  | some (.conf w) => some (.ok (some w))
  | some (.by k) => some (wf k f)

/-- what.py:383-395 `is_whatable` on functions and partials: a partial has no `__self__`, so the `what` that `whatable` gives them is taken for
an unbound method, and its mark (what.py:521) decides. -/
def Fn.isWhatable (f : Fn) : Bool := f.what.isSome

/-- what.py:493-523 `whatable` on functions and partials.  (The rest of `whatable`, for objects, is not
modelled here and stands as an exception.) -/
def whatableFn (whatfunc : Option Nat) (excludes : List Str) (inplace : Bool) (obj : Fn) : R Fn :=
  if obj.decorable then
    let new := if inplace then obj else wrapFn obj
    match whatfunc with
    | some k => .ok (new.setWhat (.by k))
    | none =>
      match fnCall extractDecorated obj [] [] with
      | .error e => .error e
      | .ok (name, conf) => .ok (new.setWhat (.conf { name := name, conf := conf, nonids := excludes }))
  else .error .exception

/-- what.py:310-360 `whatareyou` on functions and partials whose arguments fit: closures are taken as they are (misc.py:233, 301).  The other
functions and partials are not modelled and stand as an exception. -/
def whatareyouFn (o : WhatOpts) (f : Fn) : R What :=
  match fnCall (fun c => c) f [] [] with
  | .error e => .error e
  | .ok (name, conf) => .ok { name := name, conf := trimDict o conf, nonids := o.nonids }

end Whatami
