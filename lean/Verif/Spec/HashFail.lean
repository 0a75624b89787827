import Verif.HashFail

/-
Specification: values that can be pickled, and those that cannot.
Definitions here are vocabulary for statements: the code they are about is cited in the model modules.
-/
namespace Whatami

/-- Something inside: an element, a value or attribute, at any depth, or the value itself. -/
inductive UInside : UVal → UVal → Prop
  | refl (v : UVal) : UInside v v
  | tuple {v x : UVal} {id : Nat} {xs : List UVal} : x ∈ xs → UInside v x → UInside v (.tuple id xs)
  | list {v x : UVal} {id : Nat} {xs : List UVal} : x ∈ xs → UInside v x → UInside v (.list id xs)
  | dict {v : UVal} {x : Str × UVal} {id : Nat} {kvs : List (Str × UVal)} : x ∈ kvs → UInside v x.2 → UInside v (.dict id kvs)
  | obj {v : UVal} {x : Str × UVal} {id : Nat} {m n : Str} {did : Nat} {kvs : List (Str × UVal)} :
      x ∈ kvs → UInside v x.2 → UInside v (.obj id m n did kvs)

/-- Nothing inside raises TypeError when it is pickled. -/
def NoneStuck (v : UVal) : Prop := ¬ UInside .stuck v

/-- Every function and class inside is found under its name. -/
def AllNamed (v : UVal) : Prop := ∀ m n, ¬ UInside (.glob m n false) v

/-- There are no dicts inside, nor instances (which have a `__dict__`). -/
def NoDicts (v : UVal) : Prop := (∀ id kvs, ¬ UInside (.dict id kvs) v) ∧ ∀ id m n did kvs, ¬ UInside (.obj id m n did kvs) v

mutual
/-- The identities inside. -/
def uids : UVal → List Nat
  | .tuple id xs => id :: uidsL xs
  | .list id xs => id :: uidsL xs
  | .dict id kvs => id :: uidsK kvs
  | .obj id _ _ did kvs => id :: did :: uidsK kvs
  | _ => []
def uidsL : List UVal → List Nat
  | [] => []
  | x :: xs => uids x ++ uidsL xs
def uidsK : List (Str × UVal) → List Nat
  | [] => []
  | (_, x) :: xs => uids x ++ uidsK xs
end

mutual
/-- The value as one of those in `Hasher`. -/
def UVal.toJ : UVal → JVal
  | .none => .none
  | .int i => .int i
  | .str s => .str 0 s
  | .tuple id xs => .tuple id (toJL xs)
  | .list id xs => .list id (toJL xs)
  | .dict id kvs => .dict id (toJK kvs)
  | .obj id m n did kvs => .obj id m n did (toJK kvs)
  | .glob m n _ => .glob m n
  | .stuck => .none
def toJL : List UVal → List JVal
  | [] => []
  | x :: xs => x.toJ :: toJL xs
def toJK : List (Str × UVal) → List (JVal × JVal)
  | [] => []
  | (k, x) :: xs => (.str 0 k, x.toJ) :: toJK xs
end

/-- The same value with the items of some dicts, or the attributes of some instances, in another order. -/
inductive UReorder : UVal → UVal → Prop
  | refl (v : UVal) : UReorder v v
  | trans {a b c : UVal} : UReorder a b → UReorder b c → UReorder a c
  | dict {id : Nat} {kvs kvs' : List (Str × UVal)} : (kvs.map (·.1)).Nodup → kvs.Perm kvs' → UReorder (.dict id kvs) (.dict id kvs')
  | obj {id : Nat} {m n : Str} {did : Nat} {kvs kvs' : List (Str × UVal)} :
      (kvs.map (·.1)).Nodup → kvs.Perm kvs' → UReorder (.obj id m n did kvs) (.obj id m n did kvs')
  | inTuple {id : Nat} {a b : List UVal} {x y : UVal} : UReorder x y → UReorder (.tuple id (a ++ x :: b)) (.tuple id (a ++ y :: b))
  | inList {id : Nat} {a b : List UVal} {x y : UVal} : UReorder x y → UReorder (.list id (a ++ x :: b)) (.list id (a ++ y :: b))
  | inDict {id : Nat} {a b : List (Str × UVal)} {k : Str} {x y : UVal} :
      UReorder x y → UReorder (.dict id (a ++ (k, x) :: b)) (.dict id (a ++ (k, y) :: b))
  | inObj {id : Nat} {m n : Str} {did : Nat} {a b : List (Str × UVal)} {k : Str} {x y : UVal} :
      UReorder x y → UReorder (.obj id m n did (a ++ (k, x) :: b)) (.obj id m n did (a ++ (k, y) :: b))

end Whatami
