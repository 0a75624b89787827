import Verif.Hasher

/-
Model of minijoblib's hash with its options (hashing.py:245-262): `hash_name` and `coerce_mmap`.  Where keys or elements cannot be sorted, hashing.py:41 and 150
hash them with the defaults, whatever the options are.  Simplified as in `Verif.Hasher`.
-/
namespace Whatami

/-- An array that passes for one of the class `ndarray`.  hashing.py:216-220. -/
def Arr.asNdarray (a : Arr) : Arr := { a with cls := c!"ndarray" }

/-- The array whose class is pickled; `mmap` are the classes of memory maps.  hashing.py:216-222. -/
def klassOf (mmap : Str → Bool) (coerce : Bool) (a : Arr) : Arr := if coerce && mmap a.cls then a.asNdarray else a

/-- hashing.py:139-151 `_batch_setitems`: if the keys do not compare, they are hashed with the defaults. -/
def orderItemsOpt (E : HashEnv) (l : List ((JVal × JVal) × (PNode × PNode))) : List (PNode × PNode) :=
  match sortLt (fun a b => E.lt a.1.1 b.1.1) l with
  | some l' => l'.map Prod.snd
  | none => (sortBy (fun a b => strLe a.1 b.1) (l.map fun x => (hasherOf E x.1.1, x.2.2))).map fun x => (.str x.1, x.2)

/-- hashing.py:30-41 `_ConsistentSet`: if the elements do not compare, they are hashed with the defaults. -/
def orderElemsOpt (E : HashEnv) (l : List (JVal × PNode)) : List PNode :=
  match sortLt (fun a b => E.lt a.1 b.1) l with
  | some l' => l'.map Prod.snd
  | none => (sortBy strLe (l.map fun x => hasherOf E x.1)).map .str

mutual
/-- What is pickled of a value (hashing.py:77-94, 139-155, 182-242). -/
def arrangeOpt (E : HashEnv) (mmap : Str → Bool) (coerce : Bool) : JVal → PNode
  | .none => .none
  | .bool b => .bool b
  | .int i => .int i
  | .float t => .float t
  | .str _ s => .str s
  | .tuple id xs => .tuple (some id) ((arrangeOptL E mmap coerce xs).map Prod.snd)
  | .list id xs => .list (some id) ((arrangeOptL E mmap coerce xs).map Prod.snd)
  | .dict id kvs => .dict (some id) (orderItemsOpt E (arrangeOptD E mmap coerce kvs))
  | .set _ xs => consistentSet (orderElemsOpt E (arrangeOptL E mmap coerce xs))
  | .fset id xs => .fset (some id) ((arrangeOptL E mmap coerce xs).map Prod.snd)
  | .glob m n => .glob m n
  | .obj id m n did kvs => .inst (some id) m n (some did) (orderItemsOpt E (arrangeOptD E mmap coerce kvs))
  | .builtin f m => myHash [.str f, .str m]
  | .unbound f => myHash [.str f, .none]
  | .meth f self m n => myHash [.str f, arrangeOpt E mmap coerce self, .glob m n]
  | .dtype d => dtypeNode d
  | .arr a => .hashed a.data (arrNode (klassOf mmap coerce a))
termination_by structural v => v
/-- Each element with what is pickled of it.  hashing.py:139-155. -/
def arrangeOptL (E : HashEnv) (mmap : Str → Bool) (coerce : Bool) : List JVal → List (JVal × PNode)
  | [] => []
  | x :: xs => (x, arrangeOpt E mmap coerce x) :: arrangeOptL E mmap coerce xs
termination_by structural xs => xs
/-- Each item with what is pickled of it.  hashing.py:139-151. -/
def arrangeOptD (E : HashEnv) (mmap : Str → Bool) (coerce : Bool) : List (JVal × JVal) → List ((JVal × JVal) × (PNode × PNode))
  | [] => []
  | (k, v) :: xs => ((k, v), (arrangeOpt E mmap coerce k, arrangeOpt E mmap coerce v)) :: arrangeOptD E mmap coerce xs
termination_by structural xs => xs
end

/-- What is hashed of a value (hashing.py:66-75, 210). -/
def hashDumpOpt (E : HashEnv) (mmap : Str → Bool) (coerce : Bool) (v : JVal) : Dump := dumpNode (arrangeOpt E mmap coerce v)

/-- hashing.py:245-262 `hasher(obj, hash_name, coerce_mmap)`: `digest` is the hash function of that name, `E.digest` is md5. -/
def hasherOpt (E : HashEnv) (mmap : Str → Bool) (digest : Dump → Str) (coerce : Bool) (v : JVal) : Str := digest (hashDumpOpt E mmap coerce v)

end Whatami
