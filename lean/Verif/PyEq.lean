import Verif.Val

/-
Python's `==` and hashability on the values the parser produces and on dict keys.

`fi t` is the integer the float with `repr` `t` is equal to, if any (`1.0 == 1`, `-0.0 == 0`); two floats
that equal no integer are equal iff they have the same `repr`, nan excepted.
`nanSelf` says whether nan is found equal to itself: lookups of the same object succeed by identity, while
two parsed nans are different objects.
-/
namespace Whatami

/-- A number up to `==`: an integer, or the `repr` of a float that equals no integer.
Python built-in equality, as used by what.py:199-203, parsers.py:217,225, whatutils.py:309,326-327 and registry.py:681-685. -/
def numKey (fi : Str → Option Int) : Val → Option (Int ⊕ Str)
  | .bool b => some (.inl (if b then 1 else 0))
  | .int i => some (.inl i)
  | .float t =>
    match fi t with
    | some i => some (.inl i)
    | none => some (.inr t)
  | _ => none

/-- Equality of numbers.
Python built-in equality, as used by what.py:199-203, parsers.py:217,225, whatutils.py:309,326-327 and registry.py:681-685. -/
def numEq (nanSelf : Bool) : Int ⊕ Str → Int ⊕ Str → Bool
  | .inl a, .inl b => a == b
  | .inr a, .inr b => a == b && (nanSelf || !(a == c!"nan"))
  | _, _ => false

mutual
/-- `a == b`.  Instances of collection subclasses and other objects are not modelled (never equal).
Python built-in equality, as used by what.py:199-203, parsers.py:217,225, whatutils.py:309,326-327 and registry.py:681-685. -/
def pyEq (fi : Str → Option Int) (nanSelf : Bool) : Val → Val → Bool
  | .none, .none => true
  | .bool a, b => match numKey fi b with | some n => numEq nanSelf (.inl (if a then 1 else 0)) n | none => false
  | .int a, b => match numKey fi b with | some n => numEq nanSelf (.inl a) n | none => false
  | .float a, b =>
    match numKey fi (.float a), numKey fi b with
    | some m, some n => numEq nanSelf m n
    | _, _ => false
  | .str a, .str b => a == b
  | .cls a, .cls b => a == b
  | .numtype a, .numtype b => a == b
  | .tuple xs, .tuple ys => pyEqL fi nanSelf xs ys
  | .list xs, .list ys => pyEqL fi nanSelf xs ys
  | .set xs, .set ys => xs.length == ys.length && pySubL fi nanSelf xs ys
  | .set xs, .fset ys => xs.length == ys.length && pySubL fi nanSelf xs ys
  | .fset xs, .set ys => xs.length == ys.length && pySubL fi nanSelf xs ys
  | .fset xs, .fset ys => xs.length == ys.length && pySubL fi nanSelf xs ys
  | .dict xs, .dict ys => xs.length == ys.length && pySubD fi nanSelf xs ys
  -- what.py:196-200 `What.__eq__`
  | .what n c _ o, .what n' c' _ o' =>
    n == n' && o == o' && c.length == c'.length && pySubA fi nanSelf c c'
  | _, _ => false
termination_by structural a => a
/-- Elementwise `==`.
Python built-in equality, as used by what.py:199-203, parsers.py:217,225, whatutils.py:309,326-327 and registry.py:681-685. -/
def pyEqL (fi : Str → Option Int) (nanSelf : Bool) : List Val → List Val → Bool
  | [], [] => true
  | x :: xs, y :: ys => pyEq fi nanSelf x y && pyEqL fi nanSelf xs ys
  | _, _ => false
termination_by structural xs => xs
/-- Every element of the first has an equal one in the second.
Python built-in equality, as used by what.py:199-203, parsers.py:217,225, whatutils.py:309,326-327 and registry.py:681-685. -/
def pySubL (fi : Str → Option Int) (nanSelf : Bool) : List Val → List Val → Bool
  | [], _ => true
  | x :: xs, ys => ys.any (fun y => pyEq fi nanSelf x y) && pySubL fi nanSelf xs ys
termination_by structural xs => xs
/-- Every item of the first has an equal one in the second.
Python built-in equality, as used by what.py:199-203, parsers.py:217,225, whatutils.py:309,326-327 and registry.py:681-685. -/
def pySubD (fi : Str → Option Int) (nanSelf : Bool) : List (Val × Val) → List (Val × Val) → Bool
  | [], _ => true
  | (k, v) :: xs, ys =>
    ys.any (fun y => pyEq fi nanSelf k y.1 && pyEq fi nanSelf v y.2) && pySubD fi nanSelf xs ys
termination_by structural xs => xs
/-- Every parameter of the first has an equal one in the second.
Python built-in equality, as used by what.py:199-203, parsers.py:217,225, whatutils.py:309,326-327 and registry.py:681-685. -/
def pySubA (fi : Str → Option Int) (nanSelf : Bool) : List (Str × Val) → List (Str × Val) → Bool
  | [], _ => true
  | (k, v) :: xs, ys =>
    ys.any (fun y => k == y.1 && pyEq fi nanSelf v y.2) && pySubA fi nanSelf xs ys
termination_by structural xs => xs
end

mutual
/-- `hash(v)` does not raise.  `What` defines `__eq__` only (what.py:196), hence is unhashable. -/
def hashable : Val → Bool
  | .list _ | .set _ | .dict _ | .odict _ _ _ | .ddict _ _ _ | .what _ _ _ _ | .array _ _ => false
  | .sub .list _ _ _ => false
  | .sub .set _ _ _ => false
  | .sub .tuple _ _ xs => hashableL xs
  | .sub .fset _ _ _ => true
  | .tuple xs => hashableL xs
  | _ => true
termination_by structural v => v
/-- All elements are hashable.
Python built-in equality, as used by what.py:199-203, parsers.py:217,225, whatutils.py:309,326-327 and registry.py:681-685. -/
def hashableL : List Val → Bool
  | [] => true
  | x :: xs => hashable x && hashableL xs
termination_by structural xs => xs
end

/-- `d[k]` by hash and equality (or identity).  Python built-in: dict lookup at what.py:226. -/
def vget (fi : Str → Option Int) : List (Val × Val) → Val → Option Val
  | [], _ => none
  | (k', v) :: r, k => if pyEq fi true k' k then some v else vget fi r k

end Whatami
