import Verif.Spec.SameToIds

/-
Specification for C19 and C94: the parameters of a configuration in order, and when two lists of values are shown alike.  Nothing here refers to how
configurations are flattened or ids generated.
-/
namespace Whatami

/-- `ParamAt f v p x`: `x` is the parameter of `v` that the names `p` lead to, through Whats that are values of Whats.  Only parameters that count for
the id, at every level, unless `f`. -/
inductive ParamAt (f : Bool) : Val → List Str → Val → Prop where
  | here {n : Str} {c : Conf} {nk : List Str} {o : Option Str} {k : Str} {x : Val} :
      (k, x) ∈ c → (f = true ∨ k ∉ nk) → ParamAt f (.what n c nk o) [k] x
  | deeper {n : Str} {c : Conf} {nk : List Str} {o : Option Str} {k : Str} {x y : Val} {p : List Str} :
      (k, x) ∈ c → (f = true ∨ k ∉ nk) → ParamAt f x p y → ParamAt f (.what n c nk o) (k :: p) y

/-- The order of a dictionary: parameters before their own parameters, siblings (and all they contain) by name, names by their characters. -/
inductive Before : List Str → List Str → Prop where
  | parent (k : Str) (q : List Str) : Before [] (k :: q)
  | sibling {k k' : Str} (q q' : List Str) : List.Lex (fun c d : Char => c.toNat < d.toNat) k k' → Before (k :: q) (k' :: q')
  | inside (k : Str) {p q : List Str} : Before p q → Before (k :: p) (k :: q)

/-- All parameters of a configuration, each once, in order. -/
def Listing (f : Bool) (w : What) (ps : List (List Str × Val)) : Prop :=
  ps.Pairwise (fun a b => Before a.1 b.1) ∧ ∀ p x, (p, x) ∈ ps ↔ ParamAt f w.toVal p x

/-- The same value, but for what ids do not show. -/
def SameShown (a b : Val) : Prop := Cong (fun a b => StandIn a b ∨ Collide a b) a b

/-- A value that is data, or has something that stands for it, at any depth. -/
def ShownVal (v : Val) : Prop := ∃ x : Val, SeenAs v x ∧ Supported x ∧ DictKeys x

/-- One by one. -/
def SameList (vs vs' : List Val) : Prop :=
  vs.length = vs'.length ∧ ∀ (i : Nat) v v', vs[i]? = some v → vs'[i]? = some v' → SameShown v v'

/-- A configuration whose names are names and whose parameters, at any depth, can be shown. -/
def Positionable (f : Bool) (w : What) : Prop :=
  Ident w.name ∧ (∀ x, w.out = some x → Ident x) ∧ DictKeys w.toVal ∧ ∀ p x, ParamAt f w.toVal p x → ShownVal x

end Whatami
