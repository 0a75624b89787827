import Verif.Spec.Legible
import Verif.Spec.Within

/-
Specification for C90: what ids do not show.  Nothing here refers to how ids are generated or parsed.
-/
namespace Whatami

/-- A What called `set` or `frozenset`, without an out_name and without parameters that show, in place of an empty set or frozenset. -/
inductive EmptyCall : Val → Val → Prop where
  | set {c : Conf} {nk : List Str} : (∀ k v, (k, v) ∈ c → k ∈ nk) → EmptyCall (.what c!"set" c nk none) (.set [])
  | fset {c : Conf} {nk : List Str} : (∀ k v, (k, v) ∈ c → k ∈ nk) → EmptyCall (.what c!"frozenset" c nk none) (.fset [])

/-- All that ids do not show: the order of dicts, sets and parameters, which single quotes of strings are escaped already, non-id parameters, and the
difference between an empty set and a What that is called like one. -/
def Collide (a b : Val) : Prop := Reorder a b ∨ QuoteChange a b ∨ SameIdPart a b ∨ EmptyCall a b

/-- Wherever there is a What in `v`, no two of its parameters have the same name, as in any Python dict. -/
def DictKeys (v : Val) : Prop := ∀ n c nk o, Within (.what n c nk o) v → UniqueKeys c

end Whatami
