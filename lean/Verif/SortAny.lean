import Verif.GenKeys
import Verif.Utils

/-
Model of `sort_whats` and `sort_whatids` (whatutils.py:160-200) for values that Python may not be able to compare, and for any stable sort that `sorted` may
be.
-/
namespace Whatami

/-- `a < b` on tuples: the first elements that differ decide, if `<` does not raise.  whatutils.py:177,199. -/
def tupleLtR (fi : Str → Option Int) (lt : Val → Val → R Bool) : List Val → List Val → R Bool
  | [], [] => .ok false
  | [], _ :: _ => .ok true
  | _ :: _, [] => .ok false
  | x :: xs, y :: ys => if pyEq fi true x y then tupleLtR fi lt xs ys else lt x y

/-- What `sorted` does with the values: only `<` is used.  whatutils.py:177,199. -/
def tupleOps (fi : Str → Option Int) (lt : Val → Val → R Bool) : KeyOps (List Val) := ⟨tupleLtR fi lt, fun _ _ => false, fun _ => []⟩

/-- whatutils.py:177-178, 199-200: sort the values along with what they belong to, and take them apart. -/
def answerAny (alg : Nat → SortProg) (fi : Str → Option Int) (lt : Val → Val → R Bool) (values : List (List Val)) (whats : List Val) : R Val :=
  match sortedItems alg (tupleOps fi lt) (values.zip whats) with
  | .error e => .error e
  | .ok l => .ok (unzipVal (l.map fun p => (p.2, .tuple p.1)))

/-- whatutils.py:160-178 `sort_whats` (on a list). -/
def sortWhatsAny (alg : Nat → SortProg) (fi : Str → Option Int) (lt : Val → Val → R Bool) (whats : List What) (keys : List Val) : R Val :=
  match mapR (fun w => whatvalues fi w (.tuple keys)) whats with
  | .error e => .error e
  | .ok values => answerAny alg fi lt values (whats.map What.toVal)

/-- whatutils.py:181-200 `sort_whatids` (on a list). -/
def sortWhatidsAny (alg : Nat → SortProg) (E : Env) (lt : Val → Val → R Bool) (ids : List Str) (keys : List Val) : R Val :=
  match mapR (idValues E keys) ids with
  | .error e => .error e
  | .ok values => answerAny alg E.fi lt values (ids.map .str)

/-- `a < b` for strings, integers, booleans and None.  Simplified: other values are said not to be comparable; statements leave them out.
Python built-in, used by `sorted` at whatutils.py:177,199. -/
def scalarLt : Val → Val → R Bool
  | .str a, .str b => .ok (!strLe b a)
  | .int a, .int b => .ok (decide (a < b))
  | .int a, .bool b => .ok (decide (a < if b then 1 else 0))
  | .bool a, .int b => .ok (decide ((if a then 1 else 0) < b))
  | .bool a, .bool b => .ok (!a && b)
  | _, _ => .error .typeError

end Whatami
