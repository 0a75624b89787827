import Verif.Plugins

/-
Model of `What.id` (what.py:250-269) and of the first level of `What.keys` (what.py:169-186) for configurations whose keys are not only strings: nothing in
`What` asks for strings.  `sorted` compares the items, so it compares keys (they differ, so that values are never compared), and Python's `<` between keys may
raise.  Which keys are compared is up to `sorted`: it is modelled as any program that asks for comparisons and then lists the positions.
-/
namespace Whatami

/-- What Python does with keys of some kind: `a < b` (it may raise), `a == b`, `str(a)`.  what.py:172-174, 263-265. -/
structure KeyOps (K : Type) where
  lt : K → K → R Bool
  same : K → K → Bool
  text : K → Str

/-- A sort: it asks whether the item at position `i` is below the one at position `j` and goes on, or lists the positions in the order it has found.
The built-in `sorted` of what.py:172,174,264. -/
inductive SortProg where
  | ask (i j : Nat) (k : Bool → SortProg)
  | done (positions : List Nat)

/-- A sort runs; a comparison that raises ends it.  what.py:172,174,264. -/
def SortProg.run (lt : Nat → Nat → R Bool) : SortProg → R (List Nat)
  | .done l => .ok l
  | .ask i j k =>
    match lt i j with
    | .error e => .error e
    | .ok b => (k b).run lt

/-- The comparisons of a sort of a list of keys: no key is compared with itself.  what.py:172,174,264. -/
def askKeys {K : Type} (ops : KeyOps K) (ks : List K) (i j : Nat) : R Bool :=
  if i = j then .ok false
  else
    match ks[i]?, ks[j]? with
    | some a, some b => ops.lt a b
    | _, _ => .ok false

/-- `sorted(conf.items())`; `alg n` is the sort of a list of `n` items.  what.py:172,174,264. -/
def sortedItems {K V : Type} (alg : Nat → SortProg) (ops : KeyOps K) (conf : List (K × V)) : R (List (K × V)) :=
  match (alg conf.length).run (askKeys ops (conf.map (·.1))) with
  | .error e => .error e
  | .ok l => .ok (l.filterMap (conf[·]?))

/-- A `What` with any keys.  what.py:107-125. -/
structure GenWhat (K : Type) where
  name : Str
  conf : List (K × Val)
  nonids : List K := []
  out : Option Str := none

/-- `k in non_id_keys`.  what.py:174,265. -/
def GenWhat.nonId {K : Type} (ops : KeyOps K) (w : GenWhat K) (k : K) : Bool := w.nonids.any fun k' => ops.same k k'

/-- what.py:263: `'%s=%s' % (k, build_string(v))`. -/
def genKvStr {K : Type} (ops : KeyOps K) (bs : BS) (kv : K × Val) : R Str :=
  match bs kv.2 with
  | .error e => .error e
  | .ok s => .ok (ops.text kv.1 ++ c!"=" ++ showOpt s)

/-- what.py:263-268 `What.id` before trimming: all items are sorted, then those that are not for the id are left out. -/
def genIdStr {K : Type} (alg : Nat → SortProg) (ops : KeyOps K) (bs : BS) (w : GenWhat K) (nonidsToo : Bool) : R Str :=
  match sortedItems alg ops w.conf with
  | .error e => .error e
  | .ok items =>
    match mapR (genKvStr ops bs) (items.filter fun kv => nonidsToo || !w.nonId ops kv.1) with
    | .error e => .error e
    | .ok parts => .ok (wrapId w.name w.out (pyJoin c!"," parts))

/-- what.py:250-269 `What.id`. -/
def genId {K : Type} (alg : Nat → SortProg) (sha1 : Str → Str) (ops : KeyOps K) (bs : BS) (w : GenWhat K) (nonidsToo : Bool) (maxlength : Int) : R Str :=
  match genIdStr alg ops bs w nonidsToo with
  | .error e => .error e
  | .ok s => .ok (trimTooLong sha1 s maxlength)

/-- what.py:169-191 `keys(non_ids_too, recursive=False)`: items that are not for the id are left out, then the others are sorted. -/
def genKeys {K : Type} (alg : Nat → SortProg) (ops : KeyOps K) (w : GenWhat K) (nonidsToo : Bool) : R (List K) :=
  match sortedItems alg ops (if nonidsToo then w.conf else w.conf.filter fun kv => !w.nonId ops kv.1) with
  | .error e => .error e
  | .ok items => .ok (items.map (·.1))

/-- Keys of the built-in types.  `set` is a frozenset of integers, in the order Python lists it.  Simplified: no floats but NaN, no tuples, no bytes.
Python built-in; keys of what.py:117. -/
inductive PyKey where
  | str (s : Str)
  | int (i : Int)
  | bool (b : Bool)
  | nan
  | none
  | set (xs : List Int)
deriving DecidableEq, Repr

/-- The integer that a key is, if it is one: `True == 1`.  Python built-in; keys of what.py:117. -/
def PyKey.toInt? : PyKey → Option Int
  | .int i => some i
  | .bool b => some (if b then 1 else 0)
  | _ => Option.none

/-- `a < b`.  Python built-in, used by `sorted` at what.py:172,174,264. -/
def PyKey.lt : PyKey → PyKey → R Bool
  | .str a, .str b => .ok (!strLe b a)
  | .set a, .set b => .ok (a.all (b.contains ·) && !b.all (a.contains ·))
  | a, b =>
    match a, b, a.toInt?, b.toInt? with
    | _, _, some x, some y => .ok (decide (x < y))
    | .nan, _, _, some _ => .ok false
    | _, .nan, some _, _ => .ok false
    | .nan, .nan, _, _ => .ok false
    | _, _, _, _ => .error .typeError

/-- `a == b` for different objects.  Python built-in, used by `in` at what.py:174,265. -/
def PyKey.same : PyKey → PyKey → Bool
  | .str a, .str b => decide (a = b)
  | .set a, .set b => a.all (b.contains ·) && b.all (a.contains ·)
  | .none, .none => true
  | a, b =>
    match a.toInt?, b.toInt? with
    | some x, some y => decide (x = y)
    | _, _ => false

/-- `str(a)`.  Python built-in, used by `'%s'` at what.py:263. -/
def PyKey.text : PyKey → Str
  | .str s => s
  | .int i => intStr i
  | .bool b => if b then c!"True" else c!"False"
  | .nan => c!"nan"
  | .none => c!"None"
  | .set [] => c!"frozenset()"
  | .set xs => c!"frozenset({" ++ pyJoin c!", " (xs.map intStr) ++ c!"})"

/-- Keys of the built-in types.  what.py:172-174, 263-265. -/
def pyKeyOps : KeyOps PyKey := ⟨PyKey.lt, PyKey.same, PyKey.text⟩

/-- Inserting position `i` into sorted positions, and what is done then: an example of a sort.  The built-in `sorted` of what.py:264. -/
def insertAsk (i : Nat) : List Nat → (List Nat → SortProg) → SortProg
  | [], k => k [i]
  | j :: r, k => .ask i j fun b => if b then k (i :: j :: r) else insertAsk i r fun r' => k (j :: r')

/-- Insertion sort of the positions from `i` on.  The built-in `sorted` of what.py:264. -/
def insertionFrom (i : Nat) : Nat → List Nat → SortProg
  | 0, acc => .done acc
  | n + 1, acc => insertAsk i acc fun acc' => insertionFrom (i + 1) n acc'

/-- Insertion sort.  The built-in `sorted` of what.py:264 (on short lists CPython uses insertion sort with a binary search). -/
def insertionAlg (n : Nat) : SortProg := insertionFrom 0 n []

end Whatami
