import Verif.PyEq
import Verif.Spec.Within
import Verif.Spec.Same

/-
Specification vocabulary for C67: values with a modelled `==`, and collections as Python has them.
-/
namespace Whatami

/-- Data: None, booleans, numbers, strings, classes, and tuples, lists, sets, dicts and Whats of data. -/
inductive EqData : Val → Prop where
  | none : EqData .none
  | bool (b : Bool) : EqData (.bool b)
  | int (i : Int) : EqData (.int i)
  | float (t : Str) : EqData (.float t)
  | str (s : Str) : EqData (.str s)
  | cls (s : Str) : EqData (.cls s)
  | numtype (s : Str) : EqData (.numtype s)
  | tuple {xs : List Val} : (∀ x ∈ xs, EqData x) → EqData (.tuple xs)
  | list {xs : List Val} : (∀ x ∈ xs, EqData x) → EqData (.list xs)
  | set {xs : List Val} : (∀ x ∈ xs, EqData x) → EqData (.set xs)
  | fset {xs : List Val} : (∀ x ∈ xs, EqData x) → EqData (.fset xs)
  | dict {kvs : List (Val × Val)} : (∀ kv ∈ kvs, EqData kv.1) → (∀ kv ∈ kvs, EqData kv.2) → EqData (.dict kvs)
  | what {conf : Conf} (n : Str) (nk : List Str) (o : Option Str) : (∀ kv ∈ conf, EqData kv.2) → EqData (.what n conf nk o)

/-- Within the value no set has two equal elements, no dict two equal keys, no configuration two parameters of one name. -/
def NoDoubles (fi : Str → Option Int) (ns : Bool) (v : Val) : Prop :=
  (∀ xs, Within (.set xs) v ∨ Within (.fset xs) v → xs.Pairwise fun x y => pyEq fi ns x y = false) ∧
  (∀ kvs, Within (.dict kvs) v → kvs.Pairwise fun x y => pyEq fi ns x.1 y.1 = false) ∧
  (∀ n conf nk o, Within (.what n conf nk o) v → UniqueKeys conf)

end Whatami
