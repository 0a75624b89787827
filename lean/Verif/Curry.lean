import Verif.Recorder

/-
Model of how `Recorder.add` is called: the metaclass wraps it in `toolz.curry` (registry.py:124-125), and `padd`
(registry.py:663-667) in `functools.partial`.
-/
namespace Whatami

/-- Positional and keyword arguments of a call, `self` aside.  registry.py:567-569. -/
structure PyArgs where
  pos : List Val := []
  kws : Conf := []

/-- The named parameters of `add`.  registry.py:567-569. -/
def addParams : List Str := [c!"ids", c!"unbox_iterables", c!"record_postprocessors", c!"override_postprocessors"]

/-- `inspect.signature(add).bind_partial(...)` works: not too many positional arguments, none given twice.
registry.py:567-569; toolz `is_partial_args`. -/
def bindPartialOk (a : PyArgs) : Bool :=
  decide (a.pos.length ≤ addParams.length) && !(addParams.take a.pos.length).any (fun p => dhas a.kws p) && !dhas a.kws c!"self"

/-- `inspect.signature(add).bind(...)` works: also `ids` is given.  registry.py:567-569; toolz `is_valid_args`. -/
def bindOk (a : PyArgs) : Bool := bindPartialOk a && (!a.pos.isEmpty || dhas a.kws c!"ids")

/-- How the objects passed to `add` behave: `bool(v)`, `list(v)` of a list of postprocessors, the id extractor.
registry.py:620-653. -/
structure AddEnv where
  fi : Str → Option Int
  truthy : Val → Bool
  posts : Val → List Post
  extract : Nat → Val → R Rid

/-- The argument bound to the `i`-th parameter, called `p`.  registry.py:567-569. -/
def argOf (a : PyArgs) (i : Nat) (p : Str) : Option Val :=
  match a.pos[i]? with
  | some v => some v
  | none => dget a.kws p

/-- What the body of `add` gets to see.  registry.py:567-569. -/
def toAddCall (E : AddEnv) (a : PyArgs) : AddCall :=
  { extract := E.extract
    ids := (argOf a 0 c!"ids").getD .none
    unbox := match argOf a 1 c!"unbox_iterables" with | some v => E.truthy v | none => true
    posts := match argOf a 2 c!"record_postprocessors" with | some .none => none | some v => some (E.posts v) | none => none
    override := match argOf a 3 c!"override_postprocessors" with | some v => E.truthy v | none => false
    columns := a.kws.filter fun kv => !addParams.contains kv.1 }

/-- What a call of `add` gives: the new records or, curried, a function.  registry.py:567-661. -/
inductive Outcome (α : Type) where
  | records (rs : List (Rid × Record))
  | function (f : α)

/-- The function itself, uncurried.  registry.py:567-661. -/
def callAdd (E : AddEnv) (r : Recorder) (a : PyArgs) : Recorder × R (List (Rid × Record)) :=
  if bindOk a then r.add E.fi (toAddCall E a) else (r, .error .typeError)

/-- `recorder.add` and what can be made of it: a curried function with frozen arguments, or a partial.
registry.py:124-125, 663-667. -/
inductive Callee where
  | curry (frozen : PyArgs)
  | part (f : Callee) (kws : Conf)

/-- Calling it.  A curried function calls the function with the frozen arguments and the new ones; if that raises TypeError
and more arguments could make the call right, they are all frozen instead (toolz `curry.__call__`, `_should_curry`).
registry.py:124-125, 663-667. -/
def Callee.call (E : AddEnv) : Callee → Recorder → PyArgs → Recorder × R (Outcome Callee)
  | .part f kws, r, a => f.call E r { a with kws := dupdate kws a.kws }
  | .curry fr, r, a =>
    let full : PyArgs := { pos := fr.pos ++ a.pos, kws := dupdate fr.kws a.kws }
    match callAdd E r full with
    | (r', .ok rs) => (r', .ok (.records rs))
    | (r', .error .typeError) => if bindPartialOk full && !bindOk full then (r', .ok (.function (.curry full))) else (r', .error .typeError)
    | (r', .error e) => (r', .error e)

/-- `recorder.add`.  registry.py:124-125. -/
def addMethod : Callee := .curry {}

/-- registry.py:663-667 `padd`. -/
def padd (add : Option Callee) (kws : Conf) : Callee :=
  match add with
  | some f => .part f kws
  | none => .part addMethod kws

end Whatami
