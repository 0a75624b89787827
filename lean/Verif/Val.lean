import Verif.Basic

/-
The universe of Python values a configuration may hold.

Sets and dicts are lists of elements / items in iteration order; the iteration order is arbitrary,
so every theorem that quantifies over values quantifies over it too.
-/
namespace Whatami

/-- The collection types that may be subclassed without a dict payload.  plugins.py:64-109. -/
inductive Kind where
  | list | tuple | set | fset
deriving DecidableEq, Repr

/-- The options `whatable(...)` closes over when it decorates a class or an object
(what.py:398-412, 541-550).  A `None` prefix or postfix behaves like an empty one
(misc.py:483-484 only tests truthiness), so both are `[]` here. -/
structure WhatOpts where
  nonids : List Str := []
  addDict : Bool := true
  addSlots : Bool := true
  addProps : Bool := true
  addClass : Bool := false
  prefx : Str := ['_']
  postfx : Str := ['_']
  excludes : List Str := [['w', 'h', 'a', 't']]
deriving DecidableEq, Repr

/-- A Python value.

* `float` carries the text `repr` gives; a double is identified with it.
* `sub kind cls attrs xs`: instance of a proper subclass `cls` of list/tuple/set/frozenset.
* `odict cls attrs kvs`: an `OrderedDict` (or an instance of a subclass); `ddict`: any other proper dict
  subclass; `attrs` are its instance attributes.
* `what`: a `What` object (what.py:80-125).
* `obj cls callable cd dd sd pd wh s`: any other instance: `cd` its class attributes
  (`inspect.getmembers(cls)`), `dd` its `__dict__`, `sd` its slots, `pd` its properties and other data
  descriptors, `wh` the options if it was made whatable, `callable` whether it has `__call__`,
  `s` its `str()`.
* `duck`: any other object (also a whatable function) whose `what()` returns the given What.
* `numtype`: one of the types int, float, complex; `cls`: any other class (its dotted name);
  `wcls`: a class decorated with `@whatable`.
* `func name args defaults`: a Python function with its named parameters and their defaults.
* `part plain f args kws`: `functools.partial` (`plain`) or a toolz `curry` object.
* `array`: numpy array / pandas object with the hash minijoblib computes for it; `rng`: a numpy
  `RandomState` with its `__getstate__()`. -/
inductive Val where
  | none
  | bool (b : Bool)
  | int (i : Int)
  | float (tok : Str)
  | str (s : Str)
  | tuple (xs : List Val)
  | list (xs : List Val)
  | set (xs : List Val)
  | fset (xs : List Val)
  | sub (kind : Kind) (cls : Str) (attrs : List (Str × Val)) (xs : List Val)
  | dict (kvs : List (Val × Val))
  | odict (cls : Str) (attrs : List (Str × Val)) (kvs : List (Val × Val))
  | ddict (cls : Str) (attrs : List (Str × Val)) (kvs : List (Val × Val))
  | what (name : Str) (conf : List (Str × Val)) (nonids : List Str) (out : Option Str)
  | obj (cls : Str) (callable : Bool) (cd dd sd pd : List (Str × Val)) (wh : Option WhatOpts) (s : Str)
  | duck (name : Str) (conf : List (Str × Val)) (nonids : List Str) (out : Option Str)
  | numtype (name : Str)
  | cls (fqn : Str)
  | wcls (fqn : Str)
  | func (name : Str) (args : List Str) (defaults : List Val)
  | part (plain : Bool) (f : Val) (args : List Val) (kws : List (Str × Val))
  | builtin (name : Str)
  | property
  | array (cls : Str) (hash : Str)
  | rng (cls : Str) (state : Val)
deriving Repr

/-- A configuration dictionary `{parameter: value}` in insertion order.  what.py:118. -/
abbrev Conf := List (Str × Val)

/-- The four slots of a `What` (what.py:109-125); `nonids` is a set, `out = none` is `None`. -/
structure What where
  name : Str
  conf : Conf
  nonids : List Str := []
  out : Option Str := none

/-- The value that is the given What object.  what.py:80-125. -/
def What.toVal (w : What) : Val := .what w.name w.conf w.nonids w.out

mutual
/-- The nesting depth of a value.  Not code: the measure that bounds how deep the mutual
recursion between the plugins and `What.id` goes.  The recursion it bounds is plugins.py:381-393. -/
def depth : Val → Nat
  | .tuple xs => depthL xs + 1
  | .list xs => depthL xs + 1
  | .set xs => depthL xs + 1
  | .fset xs => depthL xs + 1
  | .sub _ _ attrs xs => max (depthA attrs) (depthL xs) + 1
  | .dict kvs => depthD kvs + 1
  | .odict _ attrs kvs => max (depthA attrs) (depthD kvs) + 3
  | .ddict _ attrs kvs => max (depthA attrs) (depthD kvs) + 2
  | .what _ conf _ _ => depthA conf + 1
  | .obj _ _ cd dd sd pd _ _ =>
    max (max (depthA cd) (depthA dd)) (max (depthA sd) (depthA pd)) + 1
  | .duck _ conf _ _ => depthA conf + 1
  | .func _ _ defaults => depthL defaults + 1
  | .part _ f args kws => max (depth f) (max (depthL args) (depthA kws)) + 3
  | .rng _ state => depth state + 4
  | .none | .bool _ | .int _ | .float _ | .str _ | .numtype _ | .cls _ | .wcls _
  | .builtin _ | .property | .array _ _ => 1
termination_by structural v => v
/-- `depth` of a list of values.  As `depth`. -/
def depthL : List Val → Nat
  | [] => 0
  | x :: xs => max (depth x) (depthL xs)
termination_by structural xs => xs
/-- `depth` of the values of a `{name: value}` dict.  As `depth`. -/
def depthA : List (Str × Val) → Nat
  | [] => 0
  | (_, v) :: r => max (depth v) (depthA r)
termination_by structural r => r
/-- `depth` of the keys and values of a dict.  As `depth`. -/
def depthD : List (Val × Val) → Nat
  | [] => 0
  | (k, v) :: r => max (max (depth k) (depth v)) (depthD r)
termination_by structural r => r
end

theorem depth_mem {x : Val} {xs : List Val} (h : x ∈ xs) : depth x ≤ depthL xs := by
  induction xs with
  | nil => cases h
  | cons y ys ih =>
    simp only [depthL]
    cases h with
    | head => omega
    | tail _ h => have := ih h; omega

theorem depth_memA {k : Str} {v : Val} {xs : List (Str × Val)} (h : (k, v) ∈ xs) :
    depth v ≤ depthA xs := by
  induction xs with
  | nil => cases h
  | cons y ys ih =>
    obtain ⟨a, b⟩ := y
    simp only [depthA]
    cases h with
    | head => omega
    | tail _ h => have := ih h; omega

theorem depth_memD {k v : Val} {xs : List (Val × Val)} (h : (k, v) ∈ xs) :
    depth k ≤ depthD xs ∧ depth v ≤ depthD xs := by
  induction xs with
  | nil => cases h
  | cons y ys ih =>
    obtain ⟨a, b⟩ := y
    simp only [depthD]
    cases h with
    | head => omega
    | tail _ h => have := ih h; omega

end Whatami
