import Verif.Repr

/-
Model of `What.__repr__` on configurations that may contain themselves or share parts: objects live at addresses of a memory.  Python's `repr` of a
tuple, list or dict that is being shown already, further up, is `(...)`, `[...]` or `{...}`.

Simplified: what cannot contain a configuration or a list (None, numbers, strings, sets, ...) is given as a value, and so are the keys of dicts.
-/
namespace Whatami

/-- What there is at an address: a value that refers to nothing, a tuple, list or dict, a `What` with the address of its `conf`.  what.py:109-125. -/
inductive RCell where
  | data (v : Val)
  | tuple (xs : List Nat)
  | list (xs : List Nat)
  | dict (kvs : List (Val × Nat))
  | what (name : Str) (conf : Nat) (nonids : List Str) (out : Option Str)

/-- One after the other; none: an exception.  Python built-in `repr`, used at what.py:210-215. -/
def eachRepr (f : Nat → Option Str) : List Nat → Option (List Str)
  | [] => some []
  | x :: xs => (f x).bind fun s => (eachRepr f xs).map fun r => s :: r

/-- Items after the first.  Python built-in `repr`, used at what.py:210-215. -/
def commaTail : List Str → Str
  | [] => []
  | s :: r => c!", " ++ s ++ commaTail r

/-- `s1, s2, s3`.  Python built-in `repr`, used at what.py:210-215. -/
def commaItems : List Str → Str
  | [] => []
  | s :: r => s ++ commaTail r

/-- The text of a tuple.  Python built-in `repr`, used at what.py:210-215. -/
def tupleText : List Str → Str
  | [] => c!"()"
  | [s] => '(' :: s ++ c!",)"
  | ss => '(' :: commaItems ss ++ c!")"

/-- The texts of the items of a dict, from those of the values.  Python built-in `repr`, used at what.py:213. -/
def entryTexts (p : Char → Bool) : List (Val × Nat) → List Str → List Str
  | kv :: kvs, s :: ss => (reprV p kv.1 ++ c!": " ++ s) :: entryTexts p kvs ss
  | _, _ => []

/-- `repr` of what is at an address, with at most so many calls nested (none: RecursionError); `act`: the tuples, lists and dicts that are being shown.
what.py:209-215 for `What`; Python built-in for the others. -/
def reprMem (p : Char → Bool) (mem : Nat → RCell) : Nat → List Nat → Nat → Option Str
  | 0, _, _ => none
  | f + 1, act, a =>
    match mem a with
    | .data v => some (reprV p v)
    | .tuple xs => if a ∈ act then some c!"(...)" else (eachRepr (reprMem p mem f (a :: act)) xs).map tupleText
    | .list xs => if a ∈ act then some c!"[...]" else (eachRepr (reprMem p mem f (a :: act)) xs).map fun ss => '[' :: commaItems ss ++ c!"]"
    | .dict kvs =>
      if a ∈ act then some c!"{...}"
      else (eachRepr (reprMem p mem f (a :: act)) (kvs.map (·.2))).map fun ss => '{' :: commaItems (entryTexts p kvs ss) ++ c!"}"
    | .what name d nonids out => (reprMem p mem f act d).map fun s =>
        c!"What(" ++ reprStr p name ++ c!", " ++ s ++ c!", " ++ reprStrSet p nonids ++ c!", " ++ reprOut p out ++ c!")"

/-- `repr(what)`, when so many calls may be nested.  what.py:209-215. -/
def whatReprMem (p : Char → Bool) (mem : Nat → RCell) (n a : Nat) : R Str :=
  match reprMem p mem n [] a with
  | some s => .ok s
  | none => .error .recursionError

end Whatami
