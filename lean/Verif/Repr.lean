import Verif.Val

/-
Model of `What.__repr__` (what.py:209-215) and of the `repr` of the values it shows.
-/
namespace Whatami

/-- A hexadecimal digit, in lower case.  Python built-in `repr`, used at what.py:210. -/
def hexDigit (n : Nat) : Char := (c!"0123456789abcdef").getD n '0'

/-- The last `k` hexadecimal digits of a number.  Python built-in `repr`, used at what.py:210. -/
def hexDigits : Nat → Nat → Str
  | 0, _ => []
  | k + 1, n => hexDigits k (n / 16) ++ [hexDigit (n % 16)]

/-- How `repr` shows a character of a string that is delimited by `q`; `printable` is `str.isprintable` beyond ASCII.
Python built-in `repr`, used at what.py:210. -/
def reprChar (printable : Char → Bool) (q c : Char) : Str :=
  if c = q ∨ c = '\\' then ['\\', c]
  else if c = '\t' then c!"\\t"
  else if c = '\n' then c!"\\n"
  else if c = '\r' then c!"\\r"
  else if 32 ≤ c.toNat ∧ c.toNat < 127 ∨ 127 < c.toNat ∧ printable c = true then [c]
  else if c.toNat < 256 then '\\' :: 'x' :: hexDigits 2 c.toNat
  else if c.toNat < 65536 then '\\' :: 'u' :: hexDigits 4 c.toNat
  else '\\' :: 'U' :: hexDigits 8 c.toNat

/-- The characters of a string, one after the other.  Python built-in `repr`, used at what.py:210. -/
def reprChars (printable : Char → Bool) (q : Char) : Str → Str
  | [] => []
  | c :: s => reprChar printable q c ++ reprChars printable q s

/-- `repr` of a string: delimited by single quotes, unless it has single but no double quotes in it.
Python built-in `repr`, used at what.py:210. -/
def reprStr (printable : Char → Bool) (s : Str) : Str :=
  let q := if '\'' ∈ s ∧ '"' ∉ s then '"' else '\''
  q :: reprChars printable q s ++ [q]

/-- `repr` of strings after the first in a set.  what.py:210. -/
def reprStrTail (printable : Char → Bool) : List Str → Str
  | [] => []
  | s :: ss => c!", " ++ reprStr printable s ++ reprStrTail printable ss

/-- `repr` of a set of strings, here `non_id_keys` (what.py:214). -/
def reprStrSet (printable : Char → Bool) : List Str → Str
  | [] => c!"set()"
  | s :: ss => '{' :: reprStr printable s ++ reprStrTail printable ss ++ ['}']

/-- `repr` of a string or None, here `out_name` (what.py:215). -/
def reprOut (printable : Char → Bool) : Option Str → Str
  | none => c!"None"
  | some s => reprStr printable s

mutual
/-- `repr(v)`; of objects other than these data it is not modelled (and stands as empty).  what.py:209-215. -/
def reprV (p : Char → Bool) : Val → Str
  | .none => c!"None"
  | .bool true => c!"True"
  | .bool false => c!"False"
  | .int i => intStr i
  | .float t => t
  | .str s => reprStr p s
  | .numtype n => c!"<class '" ++ n ++ c!"'>"
  | .cls n => c!"<class '" ++ n ++ c!"'>"
  | .tuple [] => c!"()"
  | .tuple [x] => '(' :: reprV p x ++ c!",)"
  | .tuple (x :: y :: xs) => '(' :: reprV p x ++ reprTail p (y :: xs) ++ c!")"
  | .list [] => c!"[]"
  | .list (x :: xs) => '[' :: reprV p x ++ reprTail p xs ++ c!"]"
  | .set [] => c!"set()"
  | .set (x :: xs) => '{' :: reprV p x ++ reprTail p xs ++ c!"}"
  | .fset [] => c!"frozenset()"
  | .fset (x :: xs) => c!"frozenset({" ++ reprV p x ++ reprTail p xs ++ c!"})"
  | .dict [] => c!"{}"
  | .dict ((k, v) :: kvs) => '{' :: reprV p k ++ c!": " ++ reprV p v ++ reprTailD p kvs ++ c!"}"
  | .what name [] nonids out => c!"What(" ++ reprStr p name ++ c!", " ++ c!"{}" ++ c!", " ++ reprStrSet p nonids ++ c!", " ++ reprOut p out ++ c!")"
  | .what name ((k, v) :: conf) nonids out =>
    c!"What(" ++ reprStr p name ++ c!", " ++ ('{' :: reprStr p k ++ c!": " ++ reprV p v ++ reprTailA p conf ++ c!"}") ++ c!", " ++
      reprStrSet p nonids ++ c!", " ++ reprOut p out ++ c!")"
  | _ => []
/-- The elements of a collection after the first.  what.py:209-215. -/
def reprTail (p : Char → Bool) : List Val → Str
  | [] => []
  | x :: xs => c!", " ++ reprV p x ++ reprTail p xs
/-- The items of a dict after the first.  what.py:209-215. -/
def reprTailD (p : Char → Bool) : List (Val × Val) → Str
  | [] => []
  | (k, v) :: kvs => c!", " ++ reprV p k ++ c!": " ++ reprV p v ++ reprTailD p kvs
/-- The parameters of a configuration after the first.  what.py:209-215. -/
def reprTailA (p : Char → Bool) : List (Str × Val) → Str
  | [] => []
  | (k, v) :: kvs => c!", " ++ reprStr p k ++ c!": " ++ reprV p v ++ reprTailA p kvs
end

/-- what.py:209-215 `What.__repr__` (of What itself, no subclass). -/
def What.repr (p : Char → Bool) (w : What) : Str := reprV p w.toVal

end Whatami
