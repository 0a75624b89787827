import Verif.PyEq

/-
Model of `==` on configurations that may contain themselves or share parts: objects live at addresses of a memory and refer to one another by
address, as Python objects do.  Python takes an item of a container for equal to itself without asking (`is` or `==`), and stops at the first
difference.

Simplified: keys of dicts are strings; sets, functions and instances are not among the cells.  A number is given up to `==`, as in `PyEq`.
-/
namespace Whatami

/-- What there is at an address: None, a number (the integer it equals, or the `repr` of a float that equals none), a string, a tuple, list or dict, a
`What` with the address of its `conf` (what.py:109-125). -/
inductive ECell where
  | none
  | num (k : Int ⊕ Str)
  | str (s : Str)
  | tuple (xs : List Nat)
  | list (xs : List Nat)
  | dict (kvs : List (Str × Nat))
  | what (name : Str) (conf : Nat) (nonids : List Str) (out : Option Str)

/-- `x is y or x == y`.  Python built-in, as used on the items of containers by what.py:202. -/
def sameOr (f : Nat → Nat → Option Bool) (x y : Nat) : Option Bool := if x = y then some true else f x y

/-- Item by item, until two differ; none: RecursionError.  Python built-in `==` of lists and tuples, as used by what.py:202. -/
def allEq (f : Nat → Nat → Option Bool) : List (Nat × Nat) → Option Bool
  | [] => some true
  | p :: r => (f p.1 p.2).bind fun b => if b then allEq f r else some false

/-- Every key of the first is looked up in the second, until one is missing or the values differ.  Python built-in `==` of dicts, as used by
what.py:202. -/
def itemsEq (f : Nat → Nat → Option Bool) : List (Str × Nat) → List (Str × Nat) → Option Bool
  | [], _ => some true
  | kv :: r, ys =>
    match ys.find? fun q => q.1 == kv.1 with
    | none => some false
    | some q => (f kv.2 q.2).bind fun b => if b then itemsEq f r ys else some false

/-- `==` of what is at two addresses, with at most so many comparisons nested (none: RecursionError).  `back`: whether dicts compare their values from
right to left (CPython 3) or from left to right (CPython 2).  what.py:199-203 for `What`; Python built-in for the others. -/
def eqMem (back : Bool) (mem : Nat → ECell) : Nat → Nat → Nat → Option Bool
  | 0, _, _ => none
  | f + 1, a, b =>
    match mem a, mem b with
    | .none, .none => some true
    | .num k, .num k' => some (numEq false k k')
    | .str s, .str t => some (s == t)
    | .tuple xs, .tuple ys => (allEq (sameOr (eqMem back mem f)) (xs.zip ys)).map fun r => r && xs.length == ys.length
    | .list xs, .list ys => if xs.length == ys.length then allEq (sameOr (eqMem back mem f)) (xs.zip ys) else some false
    | .dict xs, .dict ys =>
      if xs.length == ys.length then
        itemsEq (fun x y => if back then sameOr (eqMem back mem f) y x else sameOr (eqMem back mem f) x y) xs ys
      else some false
    | .what n d _ o, .what n' d' _ o' => if n == n' then (eqMem back mem f d d').map fun r => r && o == o' else some false
    | _, _ => some false

/-- what.py:199-203 `self == other`, when so many comparisons may be nested. -/
def whatEq (back : Bool) (mem : Nat → ECell) (n a b : Nat) : R Bool :=
  match eqMem back mem n a b with
  | some r => .ok r
  | none => .error .recursionError

end Whatami
