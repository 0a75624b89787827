import Verif.HashFail
import Verif.Plugins

/-
Model of minijoblib/hashing.py on values that may contain themselves: objects live at addresses of a memory and refer to one another by address, as
Python objects do, and the pickler remembers where it has seen them (`memoize`), so that loops end.

Simplified as in `HashFail`: keys of dicts are strings; of the values that are written in one go there are None, ints and strings.  Tuples, sets and
arrays are not among the cells, nor what cannot be pickled.
-/
namespace Whatami

/-- What there is at an address: None, a number, a string, a class or function (its module and name), a list, a dict, an instance of a class with the
address of its `__dict__`.  hashing.py:66. -/
inductive HCell where
  | none
  | int (i : Int)
  | str (s : Str)
  | glob (m n : Str)
  | list (xs : List Nat)
  | dict (kvs : List (Str × Nat))
  | obj (m n : Str) (did : Nat)

/-- The items of a dict.  hashing.py:139. -/
def HCell.items : HCell → List (Str × Nat)
  | .dict kvs => kvs
  | _ => []

/-- One after the other, what is remembered being passed on; none: an exception.  hashing.py:94. -/
def saveSeq {α γ : Type} (f : α → PState → Option (γ × PState)) : List α → PState → Option (List γ × PState)
  | [], s => some ([], s)
  | x :: xs, s => (f x s).bind fun a => (saveSeq f xs a.2).map fun r => (a.1 :: r.1, r.2)

/-- `Hasher.save` (hashing.py:77-94) of what is at an address, and the methods of the pickler it comes to, with at most `f` of them nested (none:
RecursionError).  Lists, dicts and instances are remembered before their contents are pickled (hashing.py:96-103); the items of dicts are sorted by key
(hashing.py:139-146); an instance is pickled as its class, without arguments, and then its `__dict__`, unless that is empty. -/
def saveGraph (mem : Nat → HCell) : Nat → Nat → PState → Option (List PTok × PState)
  | 0, _, _ => none
  | f + 1, a, s =>
    match mem a with
    | .none => some ([.none], s)
    | .int i => some ([.int i], s)
    | .str t => some ([.str t], s)
    | .glob m n => some (saveGlob m n s)
    | .list xs =>
      match s.find (some a) with
      | some i => some ([.get i], s)
      | none => (saveSeq (saveGraph mem f) xs (s.put (some a))).map fun r =>
          (.emptyList :: .memoize :: batches .append .appends (xs.length + 1) r.1, r.2)
    | .dict kvs =>
      match s.find (some a) with
      | some i => some ([.get i], s)
      | none => (saveSeq (fun kv s => (saveGraph mem f kv.2 s).map fun r => (.str kv.1 :: r.1, r.2)) (sortBy keyLe kvs) (s.put (some a))).map fun r =>
          (.emptyDict :: .memoize :: batches .setitem .setitems (kvs.length + 1) r.1, r.2)
    | .obj m n d =>
      match s.find (some a) with
      | some i => some ([.get i], s)
      | none =>
        if (mem d).items.isEmpty then some ((saveGlob m n s).1 ++ [.emptyTuple, .newobj, .memoize], (saveGlob m n s).2.put (some a))
        else (saveGraph mem f d ((saveGlob m n s).2.put (some a))).map fun r =>
          ((saveGlob m n s).1 ++ [.emptyTuple, .newobj, .memoize] ++ r.1 ++ [.build], r.2)

/-- hashing.py:66-75, 245-262 `hasher(obj)` of what is at an address, when so many calls may be nested.  `D` is the digest. -/
def hashGraph (D : Dump → Str) (mem : Nat → HCell) (n a : Nat) : R Str :=
  match saveGraph mem n a {} with
  | some r => .ok (D (r.2.fed, r.1 ++ [.stop]))
  | none => .error .recursionError

end Whatami
