import Verif.Hasher
import Verif.Spec.Arrays

/-
Which values minijoblib's hash should tell apart, and which not.  Vocabulary for the statements of C65; the code they are about is
minijoblib/hashing.py.
-/
namespace Whatami

/-- The same value: the same types and the same contents at the same places, dicts and sets irrespective of their order of iteration, whatever the identities.
(Frozensets are compared in their order of iteration, as the code does.) -/
inductive Alike : JVal → JVal → Prop where
  | none : Alike .none .none
  | bool (b : Bool) : Alike (.bool b) (.bool b)
  | int (i : Int) : Alike (.int i) (.int i)
  | float (t : Str) : Alike (.float t) (.float t)
  | str (a b : Nat) (s : Str) : Alike (.str a s) (.str b s)
  | tuple {a b : Nat} {xs ys : List JVal} : xs.length = ys.length → (∀ (i : Nat) x y, xs[i]? = some x → ys[i]? = some y → Alike x y) →
      Alike (.tuple a xs) (.tuple b ys)
  | list {a b : Nat} {xs ys : List JVal} : xs.length = ys.length → (∀ (i : Nat) x y, xs[i]? = some x → ys[i]? = some y → Alike x y) →
      Alike (.list a xs) (.list b ys)
  | dict {a b : Nat} {kvs kvs' l l' : List (JVal × JVal)} : kvs.Perm l → kvs'.Perm l' → l.length = l'.length →
      (∀ (i : Nat) x y, l[i]? = some x → l'[i]? = some y → Alike x.1 y.1) →
      (∀ (i : Nat) x y, l[i]? = some x → l'[i]? = some y → Alike x.2 y.2) → Alike (.dict a kvs) (.dict b kvs')
  | set {a b : Nat} {xs ys l l' : List JVal} : xs.Perm l → ys.Perm l' → l.length = l'.length →
      (∀ (i : Nat) x y, l[i]? = some x → l'[i]? = some y → Alike x y) → Alike (.set a xs) (.set b ys)
  | fset {a b : Nat} {xs ys : List JVal} : xs.length = ys.length → (∀ (i : Nat) x y, xs[i]? = some x → ys[i]? = some y → Alike x y) →
      Alike (.fset a xs) (.fset b ys)
  | glob (m n : Str) : Alike (.glob m n) (.glob m n)
  /-- objects: of the same class, with the same attributes -/
  | obj {a b c d : Nat} {m n : Str} {kvs kvs' l l' : List (JVal × JVal)} : kvs.Perm l → kvs'.Perm l' → l.length = l'.length →
      (∀ (i : Nat) x y, l[i]? = some x → l'[i]? = some y → Alike x.1 y.1) →
      (∀ (i : Nat) x y, l[i]? = some x → l'[i]? = some y → Alike x.2 y.2) → Alike (.obj a m n c kvs) (.obj b m n d kvs')
  | builtin (f m : Str) : Alike (.builtin f m) (.builtin f m)
  | unbound (f : Str) : Alike (.unbound f) (.unbound f)
  | meth {f m n : Str} {x y : JVal} : Alike x y → Alike (.meth f x m n) (.meth f y m n)
  | dtype (d : Dtype) : Alike (.dtype d) (.dtype d)
  /-- arrays: the same class, type, shape, strides and elements -/
  | arr {a b : Arr} : a.Ok → a.cls = b.cls → a.dtype = b.dtype → a.shape = b.shape → a.strides = b.strides → SameItems a b → Alike (.arr a) (.arr b)

mutual
/-- The identities of the objects a value is made of, each as often as it is met.  Those of strings, sets, arrays, types, classes, functions, methods and
the empty tuple are left out: the pickler does not remember them, or by name. -/
def idsH : JVal → List Nat
  | .tuple id xs => if xs.isEmpty then [] else id :: idsHL xs
  | .list id xs | .fset id xs => id :: idsHL xs
  | .dict id kvs => id :: idsHD kvs
  | .set _ xs => idsHL xs
  | .obj id _ _ did kvs => id :: if kvs.isEmpty then [] else did :: idsHD kvs
  | .meth _ x _ _ => idsH x
  | _ => []
termination_by structural v => v
/-- Those in the elements. -/
def idsHL : List JVal → List Nat
  | [] => []
  | x :: xs => idsH x ++ idsHL xs
termination_by structural xs => xs
/-- Those in the items. -/
def idsHD : List (JVal × JVal) → List Nat
  | [] => []
  | (k, v) :: xs => idsH k ++ idsH v ++ idsHD xs
termination_by structural xs => xs
end

/-- No object is met twice. -/
def NoSharing (v : JVal) : Prop := (idsH v).Nodup

/-- All the elements can be compared, no two are equal, and the order is transitive. -/
structure Sortable {α : Type} (lt : α → α → Option Bool) (l : List α) : Prop where
  compared : l.Pairwise fun a b => (lt a b = some true ∧ lt b a = some false) ∨ (lt a b = some false ∧ lt b a = some true)
  trans : ∀ a ∈ l, ∀ b ∈ l, ∀ c ∈ l, lt a b = some true → lt b c = some true → lt a c = some true

/-- The elements are of several kinds that cannot be compared with each other. -/
def Clashing {α : Type} (lt : α → α → Option Bool) (l : List α) : Prop :=
  ∃ kind : α → Nat, (∃ a ∈ l, ∃ b ∈ l, kind a ≠ kind b) ∧ ∀ a ∈ l, ∀ b ∈ l, kind a ≠ kind b → lt a b = none

mutual
/-- The keys of all dicts (and the names of attributes of all objects) inside satisfy `D`, the elements of all sets `S`. -/
def Inside (D S : List JVal → Prop) : JVal → Prop
  | .tuple _ xs | .list _ xs | .fset _ xs => InsideL D S xs
  | .dict _ kvs => D (kvs.map Prod.fst) ∧ InsideD D S kvs
  | .set _ xs => S xs ∧ InsideL D S xs
  | .obj _ _ _ _ kvs => D (kvs.map Prod.fst) ∧ InsideD D S kvs
  | .meth _ x _ _ => Inside D S x
  | _ => True
termination_by structural v => v
/-- In the elements. -/
def InsideL (D S : List JVal → Prop) : List JVal → Prop
  | [] => True
  | x :: xs => Inside D S x ∧ InsideL D S xs
termination_by structural xs => xs
/-- In the items. -/
def InsideD (D S : List JVal → Prop) : List (JVal × JVal) → Prop
  | [] => True
  | (k, v) :: xs => Inside D S k ∧ Inside D S v ∧ InsideD D S xs
termination_by structural xs => xs
end

mutual
/-- Nothing passes for what the hasher makes of arrays, types, sets and methods: no tuple begins with the string `HASHED`, no object is of a class of
hashing.py.  `size` gives the size of the elements of each type. -/
def Ordinary (size : Str → Nat) : JVal → Prop
  | .tuple _ xs => (∀ id ys, xs ≠ .str id c!"HASHED" :: ys) ∧ OrdinaryL size xs
  | .list _ xs | .set _ xs | .fset _ xs => OrdinaryL size xs
  | .dict _ kvs => OrdinaryD size kvs
  | .obj _ m _ _ kvs => m ≠ c!"whatami.minijoblib.hashing" ∧ OrdinaryD size kvs
  | .meth _ x _ _ => Ordinary size x
  | .dtype d => d.itemsize = size d.descr
  | .arr a => a.Ok ∧ a.dtype.itemsize = size a.dtype.descr
  | _ => True
termination_by structural v => v
/-- In the elements. -/
def OrdinaryL (size : Str → Nat) : List JVal → Prop
  | [] => True
  | x :: xs => Ordinary size x ∧ OrdinaryL size xs
termination_by structural xs => xs
/-- In the items. -/
def OrdinaryD (size : Str → Nat) : List (JVal × JVal) → Prop
  | [] => True
  | (k, v) :: xs => Ordinary size k ∧ Ordinary size v ∧ OrdinaryD size xs
termination_by structural xs => xs
end

/-- The tuple `(klass, ('HASHED', dtype, shape, strides))` that is pickled in place of an array, made by hand. -/
def standIn (i j k l : Nat) (a : Arr) : JVal :=
  .tuple i [.glob c!"numpy" a.cls, .tuple j [.str 0 c!"HASHED", .dtype a.dtype, .tuple k (a.shape.map fun d : Nat => .int d), .tuple l (a.strides.map .int)]]

/-- All dicts and sets can be sorted. -/
def AllSortable (E : HashEnv) : JVal → Prop := Inside (Sortable E.lt) (Sortable E.lt)

/-- All dicts and sets can be sorted, or clearly cannot (and then no two keys of a dict have the same hash). -/
def AllOrderly (E : HashEnv) : JVal → Prop :=
  Inside (fun ks => Sortable E.lt ks ∨ (Clashing E.lt ks ∧ (ks.map (hasherOf E)).Nodup)) (fun xs => Sortable E.lt xs ∨ Clashing E.lt xs)

/-- Comparisons depend on the values only. -/
def ComparesValues (E : HashEnv) : Prop := ∀ a a' b b', Alike a a' → Alike b b' → E.lt a b = E.lt a' b'

end Whatami
