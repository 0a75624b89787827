import Verif.HashOpts

/-
Model of minijoblib/hashing.py on values that cannot be pickled.

The pickler writes as it goes and remembers objects as it goes (`Hasher.stream`, the memo), so when an exception is caught half way what was written and
remembered stays.  `Hasher._batch_setitems` (hashing.py:139-151) catches TypeError around all the pickling of a dict's items, to deal with keys that
cannot be sorted; but TypeError is also what Python raises for values that cannot be pickled (generators, locks, open files, modules).

Simplified as in `Hasher`; the keys of dicts are strings (so they can be sorted), and of the values that are written in one go (None, booleans, numbers,
strings) there are None, ints and strings.
-/
namespace Whatami

/-- A value in memory, as `JVal`.  Lists, tuples, dicts and instances have an identity: the same number twice means the same object.
hashing.py:66. -/
inductive UVal where
  | none
  | int (i : Int)
  | str (s : Str)
  | tuple (id : Nat) (xs : List UVal)
  | list (id : Nat) (xs : List UVal)
  | dict (id : Nat) (kvs : List (Str × UVal))
  /-- an instance of a class, with its `__dict__` (which has an identity of its own) -/
  | obj (id : Nat) (m n : Str) (did : Nat) (kvs : List (Str × UVal))
  /-- a function or class: its module and name; whether it is found there -/
  | glob (m n : Str) (found : Bool)
  /-- a generator, lock, open file, module...: asking it how to pickle it raises TypeError -/
  | stuck

/-- Pickling something: from a state of the memo to another one, with what was written, and the exception if there was one: what was written and
remembered before stays.  hashing.py:66-75, 94. -/
abbrev PickleAct := PState → PState × List PTok × Option Err

/-- Write these.  hashing.py:59. -/
def emit (ts : List PTok) : PickleAct := fun s => (s, ts, none)

/-- `raise`.  hashing.py:120. -/
def raiseWith (e : Err) : PickleAct := fun s => (s, [], some e)

/-- One after the other; an exception ends it.  hashing.py:94. -/
def andThen (f g : PickleAct) : PickleAct := fun s =>
  match f s with
  | (s1, ts, none) => ((g s1).1, ts ++ (g s1).2.1, (g s1).2.2)
  | (s1, ts, some e) => (s1, ts, some e)

/-- All of them.  hashing.py:94. -/
def allOf : List PickleAct → PickleAct
  | [] => emit []
  | a :: as => andThen a (allOf as)

/-- `try: f; except TypeError: g`, from where `f` left off.  hashing.py:141-151. -/
def orElse (f g : PickleAct) : PickleAct := fun s =>
  match f s with
  | (s1, ts, some .typeError) => ((g s1).1, ts ++ (g s1).2.1, (g s1).2.2)
  | r => r

/-- `self.memoize(obj)`.  hashing.py:96-103. -/
def remember (id : Nat) : PickleAct := fun s => (s.put (some id), [.memoize], none)

/-- `Pickler.save`: an object that is in the memo is referred to.  hashing.py:94. -/
def onlyNew (id : Nat) (f : PickleAct) : PickleAct := fun s =>
  match s.find (some id) with
  | some i => (s, [.get i], none)
  | none => f s

/-- `Pickler._batch_appends` and `Pickler._batch_setitems` (hashing.py:146): in batches of a thousand, a batch of one without mark.  `f` bounds the number
of batches. -/
def inBatches (one many : PTok) : Nat → List PickleAct → PickleAct
  | 0, _ => emit []
  | f + 1, as =>
    andThen
      (if (as.take 1000).length > 1 then andThen (emit [.mark]) (andThen (allOf (as.take 1000)) (emit [many]))
        else if (as.take 1000).length = 1 then andThen (allOf (as.take 1000)) (emit [one]) else emit [])
      (if (as.take 1000).length < 1000 then emit [] else inBatches one many f (as.drop 1000))

/-- `Pickler._batch_setitems(self, items)`: keys are strings.  hashing.py:146,150. -/
def setItems (items : List (Str × PickleAct)) : PickleAct :=
  inBatches .setitem .setitems (items.length + 1) (items.map fun kv => andThen (emit [.str kv.1]) kv.2)

/-- hashing.py:139-151 `_batch_setitems`.  `D` is the digest; `hasher(k)` of a string `k` is that of its pickle.  (Hashes that collide would have
the values compared.) -/
def itemsInOrder (D : Dump → Str) (items : List (Str × PickleAct)) : PickleAct :=
  orElse (setItems (sortBy (fun a b => strLe a.1 b.1) items)) (setItems (sortBy (fun a b => strLe a.1 b.1) (items.map fun kv => (D ([], [.str kv.1, .stop]), kv.2))))

/-- hashing.py:107-131 `save_global`: by name, once.  If it is not found there, PicklingError (here `.exception`) is raised, caught, and raised again
by doing the same thing a second time (hashing.py:119): the code for IPython after that is never reached. -/
def saveName (m n : Str) (found : Bool) : PickleAct := fun s =>
  match s.globs.find? fun p => p.1 == (m, n) with
  | some p => if found then (s, [.get p.2], none) else (s, [], some .exception)
  | none => if found then ((saveGlob m n s).2, (saveGlob m n s).1, none) else (s, [], some .exception)

mutual
/-- `Hasher.save` (hashing.py:77-94) and the methods of the pickler it comes to.  A list, a dict or an instance is remembered before its contents are
pickled, a tuple after. -/
def saveU (D : Dump → Str) : UVal → PickleAct
  | .none => emit [.none]
  | .int i => emit [.int i]
  | .str s => emit [.str s]
  | .tuple id xs =>
    if xs.isEmpty then emit [.emptyTuple]
    else onlyNew id <|
      if xs.length ≤ 3 then andThen (allOf (saveUs D xs)) (andThen (emit [.tupleN xs.length]) (remember id))
      else andThen (emit [.mark]) (andThen (allOf (saveUs D xs)) (andThen (emit [.tuple]) (remember id)))
  | .list id xs => onlyNew id (andThen (emit [.emptyList]) (andThen (remember id) (inBatches .append .appends (xs.length + 1) (saveUs D xs))))
  | .dict id kvs => onlyNew id (andThen (emit [.emptyDict]) (andThen (remember id) (itemsInOrder D (saveUKs D kvs))))
  | .obj id m n did kvs => onlyNew id <|
      andThen (saveName m n true) <| andThen (emit [.emptyTuple, .newobj]) <| andThen (remember id) <|
        if kvs.isEmpty then emit []
        else andThen (onlyNew did (andThen (emit [.emptyDict]) (andThen (remember did) (itemsInOrder D (saveUKs D kvs))))) (emit [.build])
  | .glob m n found => saveName m n found
  | .stuck => raiseWith .typeError
termination_by structural v => v
/-- Each element.  hashing.py:94. -/
def saveUs (D : Dump → Str) : List UVal → List PickleAct
  | [] => []
  | x :: xs => saveU D x :: saveUs D xs
termination_by structural xs => xs
/-- Each item.  hashing.py:94. -/
def saveUKs (D : Dump → Str) : List (Str × UVal) → List (Str × PickleAct)
  | [] => []
  | (k, x) :: xs => (k, saveU D x) :: saveUKs D xs
termination_by structural xs => xs
end

/-- hashing.py:66-75, 245-262 `hasher(obj)`: the hash of what was written, or the exception. -/
def hashU (D : Dump → Str) (v : UVal) : R Str :=
  match saveU D v {} with
  | (s, ts, none) => .ok (D (s.fed, ts ++ [.stop]))
  | (_, _, some e) => .error e

end Whatami
