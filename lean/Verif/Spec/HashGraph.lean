import Verif.HashGraph
import Verif.Spec.Same
import Verif.Spec.HashFail

/-
Specification: values in memory of the same shape.
Definitions here are vocabulary for statements: the code they are about is cited in the model modules.
-/
namespace Whatami

/-- A list, dict or instance: what it is, and not only what it contains, can be seen. -/
inductive HCell.Container : HCell → Prop
  | list (xs : List Nat) : Container (.list xs)
  | dict (kvs : List (Str × Nat)) : Container (.dict kvs)
  | obj (m n : Str) (d : Nat) : Container (.obj m n d)

/-- The value refers to the one at `r`. -/
inductive Refers : HCell → Nat → Prop
  | list {xs : List Nat} {r : Nat} : r ∈ xs → Refers (.list xs) r
  | dict {kvs : List (Str × Nat)} {k : Str} {r : Nat} : (k, r) ∈ kvs → Refers (.dict kvs) r
  | obj {m n : Str} {d : Nat} : Refers (.obj m n d) d

/-- The same cell, what it refers to being related by `R`: dicts in any order, and an empty `__dict__` is as good as another. -/
inductive CellAlike (mem mem' : Nat → HCell) (R : Nat → Nat → Prop) : HCell → HCell → Prop
  | none : CellAlike mem mem' R .none .none
  | int (i : Int) : CellAlike mem mem' R (.int i) (.int i)
  | str (s : Str) : CellAlike mem mem' R (.str s) (.str s)
  | glob (m n : Str) : CellAlike mem mem' R (.glob m n) (.glob m n)
  | list {xs ys : List Nat} : xs.length = ys.length → (∀ (i x y : Nat), xs[i]? = some x → ys[i]? = some y → R x y) →
      CellAlike mem mem' R (.list xs) (.list ys)
  | dict {kvs kvs' : List (Str × Nat)} : (kvs.map (·.1)).Perm (kvs'.map (·.1)) → (∀ k x y, (k, x) ∈ kvs → (k, y) ∈ kvs' → R x y) →
      CellAlike mem mem' R (.dict kvs) (.dict kvs')
  | obj {m n : Str} {d d' : Nat} : ((mem d).items = [] ∧ (mem' d').items = []) ∨ R d d' → CellAlike mem mem' R (.obj m n d) (.obj m n d')

/-- `R` pairs values off: what it pairs are the same cells, and no list, dict or instance has two partners. -/
structure PairsOff (mem mem' : Nat → HCell) (R : Nat → Nat → Prop) : Prop where
  cells : ∀ x y, R x y → CellAlike mem mem' R (mem x) (mem' y)
  once : ∀ x y x' y', R x y → R x' y' → (mem x).Container → (mem x').Container → (x = x' ↔ y = y')

/-- The values at `a` and `a'` have the same contents and are connected in the same way: they differ in their addresses and the order of dicts only. -/
def SameShape (mem : Nat → HCell) (a : Nat) (mem' : Nat → HCell) (a' : Nat) : Prop := ∃ R, PairsOff mem mem' R ∧ R a a'

/-- The hash function does not take the pickles of the two values for one another. -/
def NoClash (D : Dump → Str) (mem : Nat → HCell) (n a : Nat) (mem' : Nat → HCell) (n' a' : Nat) : Prop :=
  ∀ r r', saveGraph mem n a {} = some r → saveGraph mem' n' a' {} = some r' → D (r.2.fed, r.1 ++ [.stop]) = D (r'.2.fed, r'.1 ++ [.stop]) → r.1 = r'.1

/-- The value at `a` is made of those at the addresses `L`. -/
def MadeOf (mem : Nat → HCell) (a : Nat) (L : List Nat) : Prop := a ∈ L ∧ ∀ x ∈ L, ∀ y, Refers (mem x) y → y ∈ L

/-- No dict has a key twice. -/
def GoodDicts (mem : Nat → HCell) : Prop := ∀ a kvs, mem a = .dict kvs → (kvs.map (·.1)).Nodup

/-- The value at `a` is the tree `v` (in which values that are there twice have the same identity twice). -/
inductive TreeAt (mem : Nat → HCell) : Nat → UVal → Prop
  | none {a : Nat} : mem a = .none → TreeAt mem a .none
  | int {a : Nat} {i : Int} : mem a = .int i → TreeAt mem a (.int i)
  | str {a : Nat} {s : Str} : mem a = .str s → TreeAt mem a (.str s)
  | glob {a : Nat} {m n : Str} : mem a = .glob m n → TreeAt mem a (.glob m n true)
  | list {a : Nat} {xs : List Nat} (φ : Nat → UVal) : mem a = .list xs → (∀ x ∈ xs, TreeAt mem x (φ x)) → TreeAt mem a (.list a (xs.map φ))
  | dict {a : Nat} {kvs : List (Str × Nat)} (φ : Nat → UVal) : mem a = .dict kvs → (∀ kv ∈ kvs, TreeAt mem kv.2 (φ kv.2)) →
      TreeAt mem a (.dict a (kvs.map fun kv => (kv.1, φ kv.2)))
  | obj {a : Nat} {m n : Str} {d : Nat} {kvs : List (Str × Nat)} (φ : Nat → UVal) : mem a = .obj m n d → mem d = .dict kvs →
      (∀ kv ∈ kvs, TreeAt mem kv.2 (φ kv.2)) → TreeAt mem a (.obj a m n d (kvs.map fun kv => (kv.1, φ kv.2)))

end Whatami
