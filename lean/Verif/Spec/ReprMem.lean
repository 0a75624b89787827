import Verif.ReprMem
import Verif.Props.Repr

/-
Specification: what is inside configurations in memory, and which are trees.
Definitions here are vocabulary for statements: the code they are about is cited in the model modules.
-/
namespace Whatami

/-- The value has the one at `r` as its item number `i`, or as its `conf`. -/
inductive ItemR : RCell → Nat → Nat → Prop
  | tuple {xs : List Nat} {i r : Nat} : xs[i]? = some r → ItemR (.tuple xs) i r
  | list {xs : List Nat} {i r : Nat} : xs[i]? = some r → ItemR (.list xs) i r
  | dict {kvs : List (Val × Nat)} {i r : Nat} {k : Val} : kvs[i]? = some (k, r) → ItemR (.dict kvs) i r
  | conf {n : Str} {d : Nat} {nk : List Str} {o : Option Str} : ItemR (.what n d nk o) 0 d

/-- The value at `a` contains the one at the address, at whatever depth, itself included. -/
inductive InsideR (mem : Nat → RCell) : Nat → Nat → Prop
  | refl {a : Nat} : InsideR mem a a
  | step {a x y i : Nat} : ItemR (mem a) i x → InsideR mem x y → InsideR mem a y

/-- Following the items of these numbers one gets from one address to the other. -/
inductive LeadsR (mem : Nat → RCell) : Nat → List Nat → Nat → Prop
  | here {a : Nat} : LeadsR mem a [] a
  | item {a x y i : Nat} {q : List Nat} : ItemR (mem a) i x → LeadsR mem x q y → LeadsR mem a (i :: q) y

/-- The `conf` of a What is a dict. -/
def ConfsR (mem : Nat → RCell) : Prop := ∀ a n d nk o, mem a = .what n d nk o → ∃ kvs, mem d = .dict kvs

/-- The value at `a` is the tree `v`. -/
inductive IsTreeR (mem : Nat → RCell) : Nat → Val → Prop
  | data {a : Nat} {v : Val} : mem a = .data v → IsTreeR mem a v
  | tuple {a : Nat} {xs : List Nat} (φ : Nat → Val) : mem a = .tuple xs → (∀ x ∈ xs, IsTreeR mem x (φ x)) → IsTreeR mem a (.tuple (xs.map φ))
  | list {a : Nat} {xs : List Nat} (φ : Nat → Val) : mem a = .list xs → (∀ x ∈ xs, IsTreeR mem x (φ x)) → IsTreeR mem a (.list (xs.map φ))
  | dict {a : Nat} {kvs : List (Val × Nat)} (φ : Nat → Val) : mem a = .dict kvs → (∀ kv ∈ kvs, IsTreeR mem kv.2 (φ kv.2)) →
      IsTreeR mem a (.dict (kvs.map fun kv => (kv.1, φ kv.2)))
  | what {a : Nat} {n : Str} {d : Nat} {nk : List Str} {o : Option Str} {kvs : List (Str × Nat)} (φ : Nat → Val) : mem a = .what n d nk o →
      mem d = .dict (kvs.map fun kv => (.str kv.1, kv.2)) → (∀ kv ∈ kvs, IsTreeR mem kv.2 (φ kv.2)) →
      IsTreeR mem a (.what n (kvs.map fun kv => (kv.1, φ kv.2)) nk o)

/-- A memory as Python's: values and keys of dicts are data with a modelled `repr`, and the `conf` of a What is a dict with strings for keys. -/
structure GoodR (mem : Nat → RCell) : Prop where
  data : ∀ a v, mem a = .data v → ReprData v
  keys : ∀ a kvs, mem a = .dict kvs → ∀ kv ∈ kvs, ReprData kv.1
  confs : ∀ a n d nk o, mem a = .what n d nk o → ∃ kvs : List (Str × Nat), mem d = .dict (kvs.map fun kv => (.str kv.1, kv.2))

/-- The value has a float in it whose `repr` is `...`; no Python value has. -/
inductive Dots : Val → Prop
  | here : Dots (.float c!"...")
  | tuple {xs : List Val} {x : Val} : x ∈ xs → Dots x → Dots (.tuple xs)
  | list {xs : List Val} {x : Val} : x ∈ xs → Dots x → Dots (.list xs)
  | set {xs : List Val} {x : Val} : x ∈ xs → Dots x → Dots (.set xs)
  | dictKey {kvs : List (Val × Val)} {k v : Val} : (k, v) ∈ kvs → Dots k → Dots (.dict kvs)
  | dictVal {kvs : List (Val × Val)} {k v : Val} : (k, v) ∈ kvs → Dots v → Dots (.dict kvs)
  | what {n : Str} {conf : Conf} {nk : List Str} {o : Option Str} {k : Str} {v : Val} : (k, v) ∈ conf → Dots v → Dots (.what n conf nk o)

end Whatami
