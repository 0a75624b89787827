import Verif.EqMem

/-
Specification: when values in memory are equal, and which comparisons never end.
Definitions here are vocabulary for statements: the code they are about is cited in the model modules.
-/
namespace Whatami

/-- A memory as Python's: no dict has a key twice, and the `conf` of a What is a dict. -/
structure GoodMem (mem : Nat → ECell) : Prop where
  keys : ∀ a kvs, mem a = .dict kvs → (kvs.map (·.1)).Nodup
  confs : ∀ a n d nk o, mem a = .what n d nk o → ∃ kvs, mem d = .dict kvs

/-- Equal as far as one can see at once, the items being identical or related by `R`: the order of dicts and the non-id keys do not matter, and nan is
not equal to another nan. -/
inductive CellEq (R : Nat → Nat → Prop) : ECell → ECell → Prop
  | none : CellEq R .none .none
  | num {k : Int ⊕ Str} : k ≠ .inr c!"nan" → CellEq R (.num k) (.num k)
  | str {s : Str} : CellEq R (.str s) (.str s)
  | tuple {xs ys : List Nat} : xs.length = ys.length → (∀ (i x y : Nat), xs[i]? = some x → ys[i]? = some y → x = y ∨ R x y) → CellEq R (.tuple xs) (.tuple ys)
  | list {xs ys : List Nat} : xs.length = ys.length → (∀ (i x y : Nat), xs[i]? = some x → ys[i]? = some y → x = y ∨ R x y) → CellEq R (.list xs) (.list ys)
  | dict {xs ys : List (Str × Nat)} : (∀ k, (∃ x, (k, x) ∈ xs) ↔ ∃ y, (k, y) ∈ ys) → (∀ k x y, (k, x) ∈ xs → (k, y) ∈ ys → x = y ∨ R x y) →
      CellEq R (.dict xs) (.dict ys)
  | what {n : Str} {d d' : Nat} {nk nk' : List Str} {o : Option Str} : R d d' → CellEq R (.what n d nk o) (.what n d' nk' o)

/-- No difference can be found between the values, however deep one looks. -/
def NoDifference (mem : Nat → ECell) (a b : Nat) : Prop := ∃ R : Nat → Nat → Prop, (∀ x y, R x y → CellEq R (mem x) (mem y)) ∧ R a b

/-- To compare the first two one has to compare the second two: items in the same place or under the same key that are not identical, or what two Whats
have as `conf`. -/
inductive Compares (mem : Nat → ECell) (a b : Nat) : Nat → Nat → Prop
  | tuple {xs ys : List Nat} {i x y : Nat} : mem a = .tuple xs → mem b = .tuple ys → xs[i]? = some x → ys[i]? = some y → x ≠ y → Compares mem a b x y
  | list {xs ys : List Nat} {i x y : Nat} : mem a = .list xs → mem b = .list ys → xs[i]? = some x → ys[i]? = some y → x ≠ y → Compares mem a b x y
  | dict {xs ys : List (Str × Nat)} {k : Str} {x y : Nat} : mem a = .dict xs → mem b = .dict ys → (k, x) ∈ xs → (k, y) ∈ ys → x ≠ y → Compares mem a b x y
  | what {n n' : Str} {d d' : Nat} {nk nk' : List Str} {o o' : Option Str} : mem a = .what n d nk o → mem b = .what n' d' nk' o' → Compares mem a b d d'

/-- There is no end to what has to be compared. -/
def NeverEnds (mem : Nat → ECell) (a b : Nat) : Prop := ∃ p q : Nat → Nat, p 0 = a ∧ q 0 = b ∧ ∀ i, Compares mem (p i) (q i) (p (i + 1)) (q (i + 1))

/-- A tuple, list, dict or What. -/
inductive ECell.Compound : ECell → Prop
  | tuple (xs : List Nat) : Compound (.tuple xs)
  | list (xs : List Nat) : Compound (.list xs)
  | dict (kvs : List (Str × Nat)) : Compound (.dict kvs)
  | what (n : Str) (d : Nat) (nk : List Str) (o : Option Str) : Compound (.what n d nk o)

/-- The value has the one at `r` as an item, a dict as a value, a What as its `conf`. -/
inductive HasItem : ECell → Nat → Prop
  | tuple {xs : List Nat} {r : Nat} : r ∈ xs → HasItem (.tuple xs) r
  | list {xs : List Nat} {r : Nat} : r ∈ xs → HasItem (.list xs) r
  | dict {kvs : List (Str × Nat)} {k : Str} {r : Nat} : (k, r) ∈ kvs → HasItem (.dict kvs) r
  | conf {n : Str} {d : Nat} {nk : List Str} {o : Option Str} : HasItem (.what n d nk o) d

/-- The value at `a` contains the one at the address, at whatever depth. -/
inductive InsideMem (mem : Nat → ECell) (a : Nat) : Nat → Prop
  | refl : InsideMem mem a a
  | step {x y : Nat} : InsideMem mem a x → HasItem (mem x) y → InsideMem mem a y

/-- The value contains itself, or goes on for ever otherwise; not with tuples only, which is impossible. -/
def Loops (mem : Nat → ECell) (a : Nat) : Prop :=
  ∃ p : Nat → Nat, p 0 = a ∧ (∀ i, HasItem (mem (p i)) (p (i + 1))) ∧ ∀ i, ∃ j, i ≤ j ∧ ¬ ∃ xs, mem (p j) = .tuple xs

/-- The same cell with everything it refers to replaced. -/
def ECell.mapR (φ : Nat → Nat) : ECell → ECell
  | .tuple xs => .tuple (xs.map φ)
  | .list xs => .list (xs.map φ)
  | .dict kvs => .dict (kvs.map fun kv => (kv.1, φ kv.2))
  | .what n d nk o => .what n (φ d) nk o
  | c => c

/-- The value at `b` is a deep copy of that at `a`: all that is inside is copied once and connected as before; None, numbers and strings are not copied;
tuples may or may not be. -/
def DeepCopy (mem : Nat → ECell) (a b : Nat) : Prop :=
  ∃ φ : Nat → Nat, φ a = b ∧ ∀ x, InsideMem mem a x → mem (φ x) = (mem x).mapR φ ∧
    ((mem x).Compound → (¬ ∃ xs, mem x = .tuple xs) → φ x ≠ x) ∧ (¬ (mem x).Compound → φ x = x)

/-- The value at `a` is the tree `v`.  `fi` is as in `PyEq`. -/
inductive IsTree (fi : Str → Option Int) (mem : Nat → ECell) : Nat → Val → Prop
  | none {a : Nat} : mem a = .none → IsTree fi mem a .none
  | num {a : Nat} {k : Int ⊕ Str} {v : Val} : mem a = .num k → numKey fi v = some k → IsTree fi mem a v
  | str {a : Nat} {s : Str} : mem a = .str s → IsTree fi mem a (.str s)
  | tuple {a : Nat} {xs : List Nat} (φ : Nat → Val) : mem a = .tuple xs → (∀ x ∈ xs, IsTree fi mem x (φ x)) → IsTree fi mem a (.tuple (xs.map φ))
  | list {a : Nat} {xs : List Nat} (φ : Nat → Val) : mem a = .list xs → (∀ x ∈ xs, IsTree fi mem x (φ x)) → IsTree fi mem a (.list (xs.map φ))
  | dict {a : Nat} {kvs : List (Str × Nat)} (φ : Nat → Val) : mem a = .dict kvs → (∀ kv ∈ kvs, IsTree fi mem kv.2 (φ kv.2)) →
      IsTree fi mem a (.dict (kvs.map fun kv => (.str kv.1, φ kv.2)))
  | what {a : Nat} {n : Str} {d : Nat} {nk : List Str} {o : Option Str} {kvs : List (Str × Nat)} (φ : Nat → Val) : mem a = .what n d nk o →
      mem d = .dict kvs → (∀ kv ∈ kvs, IsTree fi mem kv.2 (φ kv.2)) → IsTree fi mem a (.what n (kvs.map fun kv => (kv.1, φ kv.2)) nk o)

end Whatami
