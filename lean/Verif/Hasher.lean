import Verif.Arrays

/-
Model of minijoblib/hashing.py: `Hasher` (hashing.py:51-157), a pickler whose output is hashed, and `NumpyHasher` (hashing.py:160-242), which hashes
the data of arrays on the way.

The pickler itself (`pickle._Pickler`, protocol 4 and later) belongs to Python; it is modelled here as far as these values need it,
opcodes with their arguments being the tokens `PTok`.  Simplified: frames and the header of the protocol, which depend on the
tokens only, are left out; values are not cyclic; objects are those pickled by their class and `__dict__` (nothing with a `__reduce__` or slots of its
own, nor arrays of Python objects); classes and functions can be pickled by name (no `__main__` of IPython); classes of arrays are called after the module
numpy; types of elements have a one-line `descr`; memory maps are not coerced (`coerce_mmap=False`, as in plugins.py:199); comparing two keys may raise
nothing but TypeError.
-/
namespace Whatami

/-- A value in memory.  Compound values and strings have an identity (`id()`), which the pickler remembers: the same number twice means the
same object.  Dicts and sets are in the order of their iteration.  hashing.py:66. -/
inductive JVal where
  | none
  | bool (b : Bool)
  | int (i : Int)
  | float (t : Str)
  | str (id : Nat) (s : Str)
  | tuple (id : Nat) (xs : List JVal)
  | list (id : Nat) (xs : List JVal)
  | dict (id : Nat) (kvs : List (JVal × JVal))
  | set (id : Nat) (xs : List JVal)
  | fset (id : Nat) (xs : List JVal)
  /-- a class or function: its module and name -/
  | glob (m n : Str)
  /-- an instance of a class, with its `__dict__` (which has an identity of its own) -/
  | obj (id : Nat) (m n : Str) (did : Nat) (kvs : List (JVal × JVal))
  /-- a builtin function: its name and module -/
  | builtin (f m : Str)
  /-- a builtin method whose `__self__` is None -/
  | unbound (f : Str)
  /-- a bound method: its name, what it is bound to, and the class of that -/
  | meth (f : Str) (self : JVal) (m n : Str)
  /-- the type of the elements of an array -/
  | dtype (d : Dtype)
  | arr (a : Arr)

/-- What is left to pickle once dicts and sets are in order (hashing.py:139-155), arrays, types and methods have been replaced (hashing.py:77-94,
182-242), and a set has become a `_ConsistentSet` (hashing.py:26-41).  The objects the hasher makes itself are temporary, and have no identity. -/
inductive PNode where
  | none
  | bool (b : Bool)
  | int (i : Int)
  | float (t : Str)
  | str (s : Str)
  | glob (m n : Str)
  | tuple (id : Option Nat) (xs : List PNode)
  | list (id : Option Nat) (xs : List PNode)
  | dict (id : Option Nat) (kvs : List (PNode × PNode))
  | fset (id : Option Nat) (xs : List PNode)
  | inst (id : Option Nat) (m n : Str) (did : Option Nat) (kvs : List (PNode × PNode))
  /-- first these bytes go to the hash function -/
  | hashed (b : Bytes) (p : PNode)
deriving Repr

/-- The opcodes of the pickler that these values need, with their arguments.  hashing.py:66-75. -/
inductive PTok where
  | none
  | bool (b : Bool)
  | int (i : Int)
  | float (t : Str)
  | str (s : Str)
  | mark
  | emptyTuple
  | tupleN (n : Nat)
  | tuple
  | emptyList
  | append
  | appends
  | emptyDict
  | setitem
  | setitems
  | frozenset
  | memoize
  | get (i : Nat)
  | stackGlobal
  | newobj
  | build
  | stop
deriving DecidableEq, Repr

/-- What goes to the hash function: the data of arrays (hashing.py:210), then the pickle (hashing.py:73-74). -/
abbrev Dump := Bytes × List PTok

/-- Python's `<` on keys and set elements (none: TypeError), and the hash function (hashing.py:64, 140-151). -/
structure HashEnv where
  lt : JVal → JVal → Option Bool
  digest : Dump → Str

/-! ### Sorting -/

/-- One step of `sorted` (hashing.py:37, 146): put an element in front of the first one that is not smaller. -/
def insertLt {α : Type} (lt : α → α → Option Bool) (a : α) : List α → Option (List α)
  | [] => some [a]
  | b :: l =>
    match lt b a with
    | none => none
    | some true => (insertLt lt a l).map (b :: ·)
    | some false => some (a :: b :: l)

/-- `sorted(l)` (hashing.py:37, 146), stable; none if a comparison raises TypeError. -/
def sortLt {α : Type} (lt : α → α → Option Bool) : List α → Option (List α)
  | [] => some []
  | a :: l => (sortLt lt l).bind (insertLt lt a)

/-! ### The pickler -/

/-- The memo of the pickler: the positions of objects by identity and of classes and functions by name (there is one object of a name, or it could not
be pickled), the number of positions used; and the bytes that went to the hash function already.  hashing.py:64, 96-103, 210. -/
structure PState where
  memo : List (Nat × Nat) := []
  n : Nat := 0
  globs : List ((Str × Str) × Nat) := []
  fed : Bytes := []

/-- `memoize(obj)`: temporary objects take a position too but are never met again.  hashing.py:103. -/
def PState.put (s : PState) : Option Nat → PState
  | some id => { s with memo := (id, s.n) :: s.memo, n := s.n + 1 }
  | none => { s with n := s.n + 1 }

/-- Where an object is in the memo, if it is.  hashing.py:94. -/
def PState.find (s : PState) : Option Nat → Option Nat
  | some id => (s.memo.find? fun p => p.1 == id).map Prod.snd
  | none => none

/-- `Pickler._batch_appends` and `Pickler._batch_setitems` (hashing.py:146): the tokens of the elements in batches of a thousand, a batch of
one without mark.  `f` bounds the number of batches. -/
def batches (one many : PTok) : Nat → List (List PTok) → List PTok
  | 0, _ => []
  | f + 1, ts =>
    (if (ts.take 1000).length > 1 then .mark :: (ts.take 1000).flatten ++ [many]
      else if (ts.take 1000).length = 1 then (ts.take 1000).flatten ++ [one] else []) ++
    if (ts.take 1000).length < 1000 then [] else batches one many f (ts.drop 1000)

/-- Pickling a class or function (hashing.py:107-120): by name, once. -/
def saveGlob (m n : Str) (s : PState) : List PTok × PState :=
  match s.globs.find? fun p => p.1 == (m, n) with
  | some p => ([.get p.2], s)
  | none => ([.str m, .str n, .stackGlobal, .memoize], { s with globs := ((m, n), s.n) :: s.globs, n := s.n + 1 })

mutual
/-- `Hasher.save` (hashing.py:77-94) and the methods of the pickler it comes to; strings are not memoized (hashing.py:96-103).  An instance is
pickled as its class, without arguments, and then its `__dict__`, unless that is empty. -/
def savePickle : PNode → PState → List PTok × PState
  | .none, s => ([.none], s)
  | .bool b, s => ([.bool b], s)
  | .int i, s => ([.int i], s)
  | .float t, s => ([.float t], s)
  | .str t, s => ([.str t], s)
  | .glob m n, s => saveGlob m n s
  -- the empty tuple is never in the memo
  | .tuple id xs, s =>
    if xs.isEmpty then ([.emptyTuple], s)
    else
      match s.find id with
      | some i => ([.get i], s)
      | .none =>
        let r := savePickles xs s
        if xs.length ≤ 3 then (r.1.flatten ++ [.tupleN xs.length, .memoize], r.2.put id)
        else (.mark :: r.1.flatten ++ [.tuple, .memoize], r.2.put id)
  | .list id xs, s =>
    match s.find id with
    | some i => ([.get i], s)
    | .none =>
      let r := savePickles xs (s.put id)
      (.emptyList :: .memoize :: batches .append .appends (xs.length + 1) r.1, r.2)
  | .dict id kvs, s =>
    match s.find id with
    | some i => ([.get i], s)
    | .none =>
      let r := savePairs kvs (s.put id)
      (.emptyDict :: .memoize :: batches .setitem .setitems (kvs.length + 1) r.1, r.2)
  | .fset id xs, s =>
    match s.find id with
    | some i => ([.get i], s)
    | .none =>
      let r := savePickles xs s
      (.mark :: r.1.flatten ++ [.frozenset, .memoize], r.2.put id)
  | .inst id m n did kvs, s =>
    match s.find id with
    | some i => ([.get i], s)
    | .none =>
      let c := saveGlob m n s
      let s1 := c.2.put id
      if kvs.isEmpty then (c.1 ++ [.emptyTuple, .newobj, .memoize], s1)
      else
        match s1.find did with
        | some i => (c.1 ++ [.emptyTuple, .newobj, .memoize, .get i, .build], s1)
        | .none =>
          let r := savePairs kvs (s1.put did)
          (c.1 ++ [.emptyTuple, .newobj, .memoize, .emptyDict, .memoize] ++ batches .setitem .setitems (kvs.length + 1) r.1 ++ [.build], r.2)
  -- hashing.py:210
  | .hashed b p, s => savePickle p { s with fed := s.fed ++ b }
termination_by structural p => p
/-- One after the other: the tokens of each.  hashing.py:94. -/
def savePickles : List PNode → PState → List (List PTok) × PState
  | [], s => ([], s)
  | x :: xs, s =>
    let a := savePickle x s
    let r := savePickles xs a.2
    (a.1 :: r.1, r.2)
termination_by structural xs => xs
/-- Keys and values in turn: the tokens of each pair.  hashing.py:94. -/
def savePairs : List (PNode × PNode) → PState → List (List PTok) × PState
  | [], s => ([], s)
  | (k, v) :: xs, s =>
    let a := savePickle k s
    let b := savePickle v a.2
    let r := savePairs xs b.2
    ((a.1 ++ b.1) :: r.1, r.2)
termination_by structural xs => xs
end

/-- `self.dump(obj)` (hashing.py:68), dicts and sets being in order: all that goes to the hash function. -/
def dumpNode (p : PNode) : Dump := ((savePickle p {}).2.fed, (savePickle p {}).1 ++ [.stop])

/-! ### Ordering dicts and sets -/

/-- hashing.py:139-151 `_batch_setitems`: items sorted by key, or by the hashes of the keys, which then take their place.  (Hashes that collide
would have the values compared.) -/
def orderItems (E : HashEnv) (l : List ((JVal × JVal) × (PNode × PNode))) : List (PNode × PNode) :=
  match sortLt (fun a b => E.lt a.1.1 b.1.1) l with
  | some l' => l'.map Prod.snd
  | none => (sortBy (fun a b => strLe a.1 b.1) (l.map fun x => (E.digest (dumpNode x.2.1), x.2.2))).map fun x => (.str x.1, x.2)

/-- hashing.py:30-41 `_ConsistentSet`: sorted elements, or the sorted hashes of the elements. -/
def orderElems (E : HashEnv) (l : List (JVal × PNode)) : List PNode :=
  match sortLt (fun a b => E.lt a.1 b.1) l with
  | some l' => l'.map Prod.snd
  | none => (sortBy strLe (l.map fun x => E.digest (dumpNode x.2))).map .str

/-- hashing.py:77-93 `_MyHash(*args)`. -/
def myHash (args : List PNode) : PNode := .inst none c!"whatami.minijoblib.hashing" c!"_MyHash" none [(.str c!"args", .tuple none args)]

/-- hashing.py:26-41 `_ConsistentSet`, with its elements in order. -/
def consistentSet (seq : List PNode) : PNode :=
  .inst none c!"whatami.minijoblib.hashing" c!"_ConsistentSet" none [(.str c!"_sequence", .list none seq)]

/-- hashing.py:240-241: `(klass, ('HASHED', obj.descr))` for the type of elements. -/
def dtypeNode (d : Dtype) : PNode :=
  .tuple none [.glob c!"numpy" c!"dtype", .tuple none [.str c!"HASHED", .list none [.tuple none [.str [], .str d.descr]]]]

/-- hashing.py:227: `(klass, ('HASHED', obj.dtype, obj.shape, obj.strides))` for an array. -/
def arrNode (a : Arr) : PNode :=
  .tuple none [.glob c!"numpy" a.cls, .tuple none [.str c!"HASHED", dtypeNode a.dtype, .tuple none (a.shape.map fun d : Nat => .int d),
    .tuple none (a.strides.map .int)]]

mutual
/-- What is pickled of a value (hashing.py:77-94, 139-155, 182-242).  (In the code dicts and sets are ordered while pickling; that does not depend on the
state of the pickler.) -/
def arrange (E : HashEnv) : JVal → PNode
  | .none => .none
  | .bool b => .bool b
  | .int i => .int i
  | .float t => .float t
  | .str _ s => .str s
  | .tuple id xs => .tuple (some id) ((arrangeL E xs).map Prod.snd)
  | .list id xs => .list (some id) ((arrangeL E xs).map Prod.snd)
  | .dict id kvs => .dict (some id) (orderItems E (arrangeD E kvs))
  | .set _ xs => consistentSet (orderElems E (arrangeL E xs))
  | .fset id xs => .fset (some id) ((arrangeL E xs).map Prod.snd)
  | .glob m n => .glob m n
  | .obj id m n did kvs => .inst (some id) m n (some did) (orderItems E (arrangeD E kvs))
  | .builtin f m => myHash [.str f, .str m]
  | .unbound f => myHash [.str f, .none]
  | .meth f self m n => myHash [.str f, arrange E self, .glob m n]
  | .dtype d => dtypeNode d
  | .arr a => .hashed a.data (arrNode a)
termination_by structural v => v
/-- Each element with what is pickled of it.  hashing.py:139-155. -/
def arrangeL (E : HashEnv) : List JVal → List (JVal × PNode)
  | [] => []
  | x :: xs => (x, arrange E x) :: arrangeL E xs
termination_by structural xs => xs
/-- Each item with what is pickled of it.  hashing.py:139-151. -/
def arrangeD (E : HashEnv) : List (JVal × JVal) → List ((JVal × JVal) × (PNode × PNode))
  | [] => []
  | (k, v) :: xs => ((k, v), (arrange E k, arrange E v)) :: arrangeD E xs
termination_by structural xs => xs
end

/-- What is hashed of a value (hashing.py:66-75, 210). -/
def hashDump (E : HashEnv) (v : JVal) : Dump := dumpNode (arrange E v)

/-- hashing.py:245-262 `hasher(obj)`. -/
def hasherOf (E : HashEnv) (v : JVal) : Str := E.digest (hashDump E v)

end Whatami
