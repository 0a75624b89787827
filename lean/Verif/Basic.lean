/-
Python primitives used by whatami, as small total functions.

Strings are lists of Unicode scalar values (`List Char`): a Python `str` without lone surrogates.
Exceptions are values of `Except Err`.
-/
namespace Whatami

/-- A Python `str` (sequence of code points).  Python built-in; the texts of what.py and plugins.py. -/
abbrev Str := List Char

open Lean in
/-- `c!"abc"` is the explicit character list `['a', 'b', 'c']`. -/
macro:max "c!" s:str : term => do
  let cs := s.getString.toList
  let elems := cs.map fun c => Syntax.mkCharLit c
  `(([$(elems.toArray),*] : List Char))

/-- The exception classes the modelled code can raise.  Messages are not modelled.
Raised or caught at: plugins.py:348,369,378; parsers.py:187; what.py:221,227; whatutils.py:74,77,469,484; registry.py:29-104,502-690; misc.py:83,134,206,211,712,787. -/
inductive Err where
  /-- `arpeggio.NoMatch` -/
  | noMatch
  | typeError
  | valueError
  | keyError
  | indexError
  | attributeError
  | importError
  /-- a bare `raise Exception(...)` -/
  | exception
  /-- Python's own, when calls are nested too deeply -/
  | recursionError
  /-- an exception raised by user code passed in (postprocessors, id extractors, ...) -/
  | user (tag : Nat)
deriving DecidableEq, Repr

/-- Result of a Python call: a value or a raised exception.  Python built-in. -/
abbrev R (α : Type) := Except Err α

deriving instance DecidableEq for Except

/-- The returned value, if any, forgetting which exception was raised otherwise.
No code of its own: used in statements. -/
def val? {α : Type} : R α → Option α
  | .ok a => some a
  | .error _ => none

/-- `[f(x) for x in xs]` / `list(map(f, xs))`: left to right, the first exception wins.
Used at plugins.py:73,85,97,106 and elsewhere. -/
def mapR {α β : Type} (f : α → R β) : List α → R (List β)
  | [] => .ok []
  | x :: xs =>
    match f x with
    | .error e => .error e
    | .ok y =>
      match mapR f xs with
      | .error e => .error e
      | .ok ys => .ok (y :: ys)

/-! ### Strings -/

/-- `sep.join(parts)`.  Used at plugins.py:76,87,97,106 and what.py:263,284. -/
def pyJoin (sep : Str) : List Str → Str
  | [] => []
  | [x] => x
  | x :: y :: r => x ++ sep ++ pyJoin sep (y :: r)

/-- Worker of `pyReplace`: `skip` characters of an already replaced occurrence are still to be dropped.
Python built-in used at plugins.py:132. -/
def replaceGo (pat rep : Str) : Nat → Str → Str
  | _, [] => []
  | n + 1, _ :: r => replaceGo pat rep n r
  | 0, c :: r =>
    if pat.isPrefixOf (c :: r) then rep ++ replaceGo pat rep (pat.length - 1) r
    else c :: replaceGo pat rep 0 r

/-- `s.replace(pat, rep)` for a non-empty `pat`: leftmost, non-overlapping occurrences.
Used at plugins.py:132. -/
def pyReplace (s pat rep : Str) : Str := replaceGo pat rep 0 s

/-- `s.startswith(p)`.  Used at misc.py:483 and whatutils.py:461. -/
def startsWith (s p : Str) : Bool := p.isPrefixOf s

/-- `s.endswith(p)`.  Used at misc.py:484. -/
def endsWith (s p : Str) : Bool := p.isSuffixOf s

/-- `before, _, after = s.rpartition(sep)` for a one-character `sep`.  Used at parsers.py:184 and misc.py:783. -/
def rpartition (s : Str) (sep : Char) : Str × Str :=
  let r := s.reverse
  match r.dropWhile (· != sep) with
  | [] => ([], s)
  | _ :: before => (before.reverse, (r.takeWhile (· != sep)).reverse)

/-- `before, _, after = s.partition(sep)` for a one-character `sep`.  Used at whatutils.py:462. -/
def partition (s : Str) (sep : Char) : Str × Str :=
  (s.takeWhile (· != sep), (s.dropWhile (· != sep)).drop 1)

/-- Python's `a <= b` on `str`: lexicographic by code point.
The order of `sorted` at what.py:172,174,264 and plugins.py:76,85. -/
def strLe : Str → Str → Bool
  | [], _ => true
  | _ :: _, [] => false
  | a :: as, b :: bs =>
    if a.toNat < b.toNat then true
    else if b.toNat < a.toNat then false
    else strLe as bs

/-- The decimal digit character of `n < 10`.
Part of `str(int)`, used by plugins.py:192-194 `anyobject_plugin`. -/
def digitChar (n : Nat) : Char := Char.ofNat (48 + n)

/-- Worker of `natStr`; the first argument bounds the number of digits.
Part of `str(int)`, used by plugins.py:192-194. -/
def natStrAux : Nat → Nat → Str
  | 0, _ => []
  | f + 1, n => if n < 10 then [digitChar n] else natStrAux f (n / 10) ++ [digitChar (n % 10)]

/-- `str(n)` for a non-negative integer.  Used by plugins.py:192-194. -/
def natStr (n : Nat) : Str := natStrAux (n + 1) n

/-- `str(i)` for an integer.  Used by plugins.py:192-194. -/
def intStr : Int → Str
  | .ofNat n => natStr n
  | .negSucc n => '-' :: natStr (n + 1)

/-- ASCII `\d`.  In the regular expression of parsers.py:48. -/
def isDig (c : Char) : Bool := decide (48 ≤ c.toNat ∧ c.toNat ≤ 57)

/-- Value of a string of decimal digits.  `int(...)` at parsers.py:149. -/
def digitsVal (s : Str) : Nat := s.foldl (fun acc c => acc * 10 + (c.toNat - 48)) 0

/-! ### `sorted` -/

/-- Insert `a` before the first element it does not exceed.  Part of `sorted`, as `sortBy`. -/
def insertBy {α : Type} (le : α → α → Bool) (a : α) : List α → List α
  | [] => [a]
  | b :: l => if le a b then a :: b :: l else b :: insertBy le a l

/-- `sorted(l, key=...)`: the stable ascending sort for the order `le`.
Used at what.py:172,174,264, plugins.py:76,85 and whatutils.py:177,199. -/
def sortBy {α : Type} (le : α → α → Bool) : List α → List α
  | [] => []
  | a :: l => insertBy le a (sortBy le l)

/-! ### Dictionaries

A Python dict (3.7+: insertion-ordered) is an association list; well-formed ones have unique keys. -/

section Dict
variable {κ ν : Type} [DecidableEq κ]

/-- `d.get(k)`.  Python built-in: dict lookup (what.py:220, registry.py:80-92). -/
def dget : List (κ × ν) → κ → Option ν
  | [], _ => none
  | (k', v) :: r, k => if k' = k then some v else dget r k

/-- `k in d`.  Python built-in: dict membership (whatutils.py:468, registry.py:29-54). -/
def dhas (d : List (κ × ν)) (k : κ) : Bool := (dget d k).isSome

/-- `d[k] = v`: in place if present, else appended.
Python built-in: dict assignment (what.py:245, registry.py:29-54). -/
def dset : List (κ × ν) → κ → ν → List (κ × ν)
  | [], k, v => [(k, v)]
  | (k', v') :: r, k, v => if k' = k then (k', v) :: r else (k', v') :: dset r k v

/-- `del d[k]` for a present key (identity on absent keys; the callers raise KeyError first).
Python built-in: dict deletion (misc.py:210, registry.py:60-78). -/
def ddel : List (κ × ν) → κ → List (κ × ν)
  | [], _ => []
  | (k', v') :: r, k => if k' = k then r else (k', v') :: ddel r k

/-- `d.update(e)`.  Python built-in: `dict.update` (misc.py:216-221,488-563). -/
def dupdate (d e : List (κ × ν)) : List (κ × ν) := e.foldl (fun acc kv => dset acc kv.1 kv.2) d

/-- `dict(pairs)`.  Python built-in: `dict(...)` (parsers.py:256, misc.py:314-320). -/
def dictOf (pairs : List (κ × ν)) : List (κ × ν) := dupdate [] pairs

/-- The keys, in iteration order.  Python built-in: dict iteration. -/
def dkeys (d : List (κ × ν)) : List κ := d.map Prod.fst

end Dict

end Whatami
