import Verif.EqMem
import Verif.WhatOps

/-
Model of `flatten` on configurations that may contain themselves or share parts, in a memory as in `EqMem`.

Simplified: a key that `flatten` gives as `k` when it has one step and as a tuple when it has more is here the list of its steps; values are given by
their addresses; keys of dicts are strings, so that sorting compares nothing else.
-/
namespace Whatami

/-- One step of a key: a parameter or key of a dict, or an index.  what.py:169-187. -/
inductive KeyStep where
  | key (k : Str)
  | idx (i : Nat)
deriving DecidableEq

/-- The items of a dict.  what.py:172,174. -/
def ECell.entries : ECell → List (Str × Nat)
  | .dict kvs => kvs
  | _ => []

/-- `enumerate(xs)`, from `i` on.  what.py:176. -/
def enumFromAt : Nat → List Nat → List (KeyStep × Nat)
  | _, [] => []
  | i, x :: xs => (.idx i, x) :: enumFromAt (i + 1) xs

/-- `kvs`: what `flatten` finds in a value.  what.py:170-180. -/
def memItems (o : FlatOpts) (mem : Nat → ECell) : ECell → List (KeyStep × Nat)
  | .what _ d nk _ => (sortBy keyLe ((mem d).entries.filter fun kv => o.nonIdsToo || !nk.contains kv.1)).map fun kv => (.key kv.1, kv.2)
  | .list xs => if o.collectionsToo then enumFromAt 0 xs else []
  | .tuple xs => if o.collectionsToo then enumFromAt 0 xs else []
  | .dict kvs => if o.collectionsToo then (sortBy keyLe kvs).map fun kv => (.key kv.1, kv.2) else []
  | _ => []

/-- One after the other, all results together; none: an exception.  what.py:181-186. -/
def gather {α β : Type} (f : α → Option (List β)) : List α → Option (List β)
  | [] => some []
  | x :: xs => (f x).bind fun a => (gather f xs).map fun r => a ++ r

/-- The function `flatten` inside `flatten`, with at most so many calls nested (none: RecursionError).  what.py:169-187. -/
def flatMem (o : FlatOpts) (mem : Nat → ECell) : Nat → Nat → List KeyStep → Option (List (List KeyStep × Nat))
  | 0, _, _ => none
  | f + 1, a, p =>
    gather (fun kr =>
      if o.recursive then (flatMem o mem f kr.2 (p ++ [kr.1])).map fun l => (p ++ [kr.1], kr.2) :: l
      else some [(p ++ [kr.1], kr.2)]) (memItems o mem (mem a))

/-- what.py:138-187 `what.flatten(...)`, when so many calls may be nested: the keys, each with its value. -/
def flattenMem (o : FlatOpts) (mem : Nat → ECell) (n a : Nat) : R (List (List KeyStep × Nat)) :=
  match flatMem o mem n a [] with
  | some l => .ok l
  | none => .error .recursionError

end Whatami
