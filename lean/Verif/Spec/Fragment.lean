import Verif.Ast
import Verif.Spec.Same

/-
Specification for C06, C07, C08, C13: the configurations whose ids can be read back, and what reading them back
may change.  Nothing here refers to how ids are generated or parsed.
-/
namespace Whatami

/-- Which features a fragment allows: strings with unescaped quotes, non-id keys, frozensets. -/
structure Frag where
  quotes : Prop
  nonids : Prop
  fsets : Prop

/-- `repr` of a float: a number with a fraction or an exponent, or a special one; never just digits. -/
def FloatText (t : Str) : Prop := NumShape t ∧ ¬ Digits t ∧ ∀ d, t = '-' :: d → ¬ Digits d

/-- `m1.m2.C`: what `<class '...'>` shows for classes in modules. -/
def Dotted (f : Str) : Prop := f ≠ [] ∧ ∀ c ∈ f, isIdChar c = true ∨ c = '.'

/-- A What that goes by `[out=]name(...)` with these keys, and can be nested. -/
def Names (o : Option Str) (n : Str) (keys : List Str) : Prop :=
  (∀ x, o = some x → Ident x) ∧ Ident n ∧ ∀ k ∈ keys, Ident k

/-- A nested `name(...)` that cannot be taken for something else: it does not start like a keyword, and is not
`set()` or `frozenset()`. -/
def Nestable (o : Option Str) (n : Str) (noParams : Prop) : Prop :=
  NestedStart (o.getD n) ∧ (o = none → noParams → n ≠ c!"set" ∧ n ≠ c!"frozenset")

mutual
/-- Values whose text is in the language of ids. -/
def Printable (F : Frag) : Val → Prop
  | .none | .bool _ | .int _ => True
  | .float t => FloatText t
  | .str s => GoodBody s ∨ (F.quotes ∧ ∃ q, QuoteEq s q ∧ GoodBody q)
  | .cls f => Dotted f
  | .tuple xs | .list xs | .set xs => PrintableL F xs
  | .fset xs => F.fsets ∧ PrintableL F xs
  | .dict kvs => PrintableD F kvs
  | .what n c nk o => Names o n (c.map Prod.fst) ∧ Nestable o n (∀ k ∈ c.map Prod.fst, k ∈ nk) ∧ UniqueKeys c ∧
      (nk = [] ∨ F.nonids) ∧ PrintableA F nk c
  | _ => False
termination_by structural v => v
/-- All elements are. -/
def PrintableL (F : Frag) : List Val → Prop
  | [] => True
  | x :: xs => Printable F x ∧ PrintableL F xs
termination_by structural xs => xs
/-- All keys and values are. -/
def PrintableD (F : Frag) : List (Val × Val) → Prop
  | [] => True
  | (k, v) :: xs => Printable F k ∧ Printable F v ∧ PrintableD F xs
termination_by structural xs => xs
/-- All parameters but the non-id ones are. -/
def PrintableA (F : Frag) (nk : List Str) : List (Str × Val) → Prop
  | [] => True
  | (k, v) :: xs => (k ∉ nk → Printable F v) ∧ PrintableA F nk xs
termination_by structural xs => xs
end

/-- The What of a whole id. -/
def PrintableWhat (F : Frag) (w : What) : Prop :=
  Names w.out w.name (w.conf.map Prod.fst) ∧ UniqueKeys w.conf ∧ (w.nonids = [] ∨ F.nonids) ∧
    ∀ k v, (k, v) ∈ w.conf → k ∉ w.nonids → Printable F v

/-- Changing non-id parameters and the set of non-id keys. -/
inductive SameIdPart : Val → Val → Prop where
  | what {a b : Conf} (n : Str) (nk nk' : List Str) (o : Option Str) : UniqueKeys a → UniqueKeys b →
      (∀ k v, ((k, v) ∈ a ∧ k ∉ nk) ↔ ((k, v) ∈ b ∧ k ∉ nk')) → SameIdPart (.what n a nk o) (.what n b nk' o)

/-- A frozenset that became a set. -/
inductive Thaw : Val → Val → Prop where
  | fset (xs : List Val) : Thaw (.fset xs) (.set xs)

/-- The changes that ids of the fragment do not show. -/
def Hidden (F : Frag) (a b : Val) : Prop := Reorder a b ∨ (F.quotes ∧ QuoteChange a b) ∨ (F.nonids ∧ SameIdPart a b)

/-! ### What can be read back -/

mutual
/-- Values that can be set elements and dict keys after reading them back. -/
def Flat : Val → Prop
  | .none | .bool _ | .int _ | .float _ | .str _ | .cls _ => True
  | .tuple xs => FlatL xs
  | _ => False
termination_by structural v => v
/-- All elements are flat. -/
def FlatL : List Val → Prop
  | [] => True
  | x :: xs => Flat x ∧ FlatL xs
termination_by structural xs => xs
end

/-- The two values are different, and stay so however their quotes are escaped (if the fragment allows for
quotes). -/
def Apart (F : Frag) (fi : Str → Option Int) (x y : Val) : Prop :=
  ∀ x' y', Cong (fun a b => F.quotes ∧ QuoteChange a b) x x' → Cong (fun a b => F.quotes ∧ QuoteChange a b) y y' →
    pyEq fi false x' y' = false ∧ pyEq fi false y' x' = false

mutual
/-- Values that reading back finds again: the environment knows their floats and classes; set elements and dict keys
are hashable, and different as in any Python set; an out_name comes with parameters. -/
def Loadable (F : Frag) (E : Env) : Val → Prop
  | .float t => E.floatOf t = t
  | .cls f => E.imp (rpartition f '.').1 (rpartition f '.').2 = .ok (.cls f)
  | .tuple xs | .list xs => LoadableL F E xs
  | .set xs | .fset xs => LoadableL F E xs ∧ (∀ x ∈ xs, Flat x) ∧ xs.Pairwise (Apart F E.fi)
  | .dict kvs => LoadableD F E kvs ∧ (∀ kv ∈ kvs, Flat kv.1) ∧ (kvs.map Prod.fst).Pairwise (Apart F E.fi)
  | .what _ c nk o => (o ≠ none → ∃ k ∈ c.map Prod.fst, k ∉ nk) ∧ LoadableA F E nk c
  | _ => True
termination_by structural v => v
/-- All elements are. -/
def LoadableL (F : Frag) (E : Env) : List Val → Prop
  | [] => True
  | x :: xs => Loadable F E x ∧ LoadableL F E xs
termination_by structural xs => xs
/-- All keys and values are. -/
def LoadableD (F : Frag) (E : Env) : List (Val × Val) → Prop
  | [] => True
  | (k, v) :: xs => Loadable F E k ∧ Loadable F E v ∧ LoadableD F E xs
termination_by structural xs => xs
/-- All parameters but the non-id ones are. -/
def LoadableA (F : Frag) (E : Env) (nk : List Str) : List (Str × Val) → Prop
  | [] => True
  | (k, v) :: xs => (k ∉ nk → Loadable F E v) ∧ LoadableA F E nk xs
termination_by structural xs => xs
end

/-- The What of a whole id. -/
def LoadableWhat (F : Frag) (E : Env) (w : What) : Prop :=
  (w.out ≠ none → ∃ k ∈ w.conf.map Prod.fst, k ∉ w.nonids) ∧ ∀ k v, (k, v) ∈ w.conf → k ∉ w.nonids → Loadable F E v

end Whatami
