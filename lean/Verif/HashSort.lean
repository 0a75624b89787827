import Verif.Hasher
import Verif.GenKeys

/-
Model of the sorting inside minijoblib's hash (hashing.py:30-41, 139-151) with any sort in the place of Python's `sorted`: which keys or elements are compared,
and so whether TypeError is raised, is up to the sort.  `Verif.Hasher` has an insertion sort there.
-/
namespace Whatami

/-- `<` as `sorted` meets it: TypeError, or an answer.  hashing.py:37,146. -/
def ltOps {α : Type} (lt : α → α → Option Bool) : KeyOps α where
  lt a b := match lt a b with
    | some x => .ok x
    | none => .error .typeError
  same _ _ := false
  text _ := []

/-- `sorted(l)` with the sort `alg`; none if a comparison raises TypeError.  hashing.py:37,41,146,150. -/
def sortAny {α : Type} (alg : Nat → SortProg) (lt : α → α → Option Bool) (l : List α) : Option (List α) :=
  match sortedItems alg (ltOps lt) (l.map fun a => (a, ())) with
  | .ok l' => some (l'.map (·.1))
  | .error _ => none

/-- `<` of strings.  Python built-in, used by `sorted` at hashing.py:41,150. -/
def hexLt (s t : Str) : Option Bool := some (!strLe t s)

/-- hashing.py:139-151 `_batch_setitems`.  (Simplified as in `Verif.Hasher`: hashes that collide would have the values compared.  Strings are always
compared, so that the second sort does not raise.) -/
def orderItemsAny (alg : Nat → SortProg) (E : HashEnv) (l : List ((JVal × JVal) × (PNode × PNode))) : List (PNode × PNode) :=
  match sortAny alg (fun a b => E.lt a.1.1 b.1.1) l with
  | some l' => l'.map Prod.snd
  | none => ((sortAny alg (fun a b => hexLt a.1 b.1) (l.map fun x => (E.digest (dumpNode x.2.1), x.2.2))).getD []).map fun x => (.str x.1, x.2)

/-- hashing.py:30-41 `_ConsistentSet`. -/
def orderElemsAny (alg : Nat → SortProg) (E : HashEnv) (l : List (JVal × PNode)) : List PNode :=
  match sortAny alg (fun a b => E.lt a.1 b.1) l with
  | some l' => l'.map Prod.snd
  | none => ((sortAny alg hexLt (l.map fun x => E.digest (dumpNode x.2))).getD []).map .str

mutual
/-- What is pickled of a value (hashing.py:77-94, 139-155, 182-242). -/
def arrangeAny (alg : Nat → SortProg) (E : HashEnv) : JVal → PNode
  | .none => .none
  | .bool b => .bool b
  | .int i => .int i
  | .float t => .float t
  | .str _ s => .str s
  | .tuple id xs => .tuple (some id) ((arrangeAnyL alg E xs).map Prod.snd)
  | .list id xs => .list (some id) ((arrangeAnyL alg E xs).map Prod.snd)
  | .dict id kvs => .dict (some id) (orderItemsAny alg E (arrangeAnyD alg E kvs))
  | .set _ xs => consistentSet (orderElemsAny alg E (arrangeAnyL alg E xs))
  | .fset id xs => .fset (some id) ((arrangeAnyL alg E xs).map Prod.snd)
  | .glob m n => .glob m n
  | .obj id m n did kvs => .inst (some id) m n (some did) (orderItemsAny alg E (arrangeAnyD alg E kvs))
  | .builtin f m => myHash [.str f, .str m]
  | .unbound f => myHash [.str f, .none]
  | .meth f self m n => myHash [.str f, arrangeAny alg E self, .glob m n]
  | .dtype d => dtypeNode d
  | .arr a => .hashed a.data (arrNode a)
termination_by structural v => v
/-- Each element with what is pickled of it.  hashing.py:139-155. -/
def arrangeAnyL (alg : Nat → SortProg) (E : HashEnv) : List JVal → List (JVal × PNode)
  | [] => []
  | x :: xs => (x, arrangeAny alg E x) :: arrangeAnyL alg E xs
termination_by structural xs => xs
/-- Each item with what is pickled of it.  hashing.py:139-151. -/
def arrangeAnyD (alg : Nat → SortProg) (E : HashEnv) : List (JVal × JVal) → List ((JVal × JVal) × (PNode × PNode))
  | [] => []
  | (k, v) :: xs => ((k, v), (arrangeAny alg E k, arrangeAny alg E v)) :: arrangeAnyD alg E xs
termination_by structural xs => xs
end

/-- What is hashed of a value (hashing.py:66-75, 210). -/
def hashDumpAny (alg : Nat → SortProg) (E : HashEnv) (v : JVal) : Dump := dumpNode (arrangeAny alg E v)

/-- hashing.py:245-262 `hasher(obj)`. -/
def hasherAny (alg : Nat → SortProg) (E : HashEnv) (v : JVal) : Str := E.digest (hashDumpAny alg E v)

/-- Python's `<` between strings, numbers and None.  Python built-in, used by `sorted` at hashing.py:37,146. -/
def plainLt : JVal → JVal → Option Bool
  | .str _ s, .str _ t => some (!strLe t s)
  | .int i, .int j => some (decide (i < j))
  | .int i, .bool b => some (decide (i < if b then 1 else 0))
  | .bool a, .int j => some (decide ((if a then 1 else 0) < j))
  | .bool a, .bool b => some (!a && b)
  | _, _ => none

/-- A sort that first compares every pair. -/
def askAll : List (Nat × Nat) → SortProg → SortProg
  | [], p => p
  | (i, j) :: l, p => .ask i j fun _ => askAll l p

/-- Every position with every position, then insertion sort: another example of a sort.  The built-in `sorted` of hashing.py:37. -/
def eagerAlg (n : Nat) : SortProg := askAll ((List.range n).flatMap fun i => (List.range n).map fun j => (i, j)) (insertionAlg n)

end Whatami
