import Verif.Val

/-
Specification: when must two configurations have the same id?

`Cong P` is "equal up to any number of `P`-changes, anywhere, at any nesting depth".  The relations
`Reorder`, `NonIdChange`, `PrivateChange` and `QuoteChange` describe the changes that must not matter.
Nothing here refers to how ids are computed.
-/
namespace Whatami

/-- The keys of a configuration are unique (an invariant of every Python dict). -/
def UniqueKeys {α : Type} (c : List (Str × α)) : Prop := (c.map Prod.fst).Nodup

/-- Closure of a relation between values under reflexivity, symmetry, transitivity and under replacing
one element of a collection, one dict key or value, one parameter of a What, one attribute of an object,
one default of a function, one argument of a partial, or the state of a random generator. -/
inductive Cong (P : Val → Val → Prop) : Val → Val → Prop where
  | base {a b : Val} : P a b → Cong P a b
  | refl (a : Val) : Cong P a a
  | symm {a b : Val} : Cong P a b → Cong P b a
  | trans {a b c : Val} : Cong P a b → Cong P b c → Cong P a c
  | tuple {a b : Val} (l r : List Val) : Cong P a b → Cong P (.tuple (l ++ a :: r)) (.tuple (l ++ b :: r))
  | list {a b : Val} (l r : List Val) : Cong P a b → Cong P (.list (l ++ a :: r)) (.list (l ++ b :: r))
  | set {a b : Val} (l r : List Val) : Cong P a b → Cong P (.set (l ++ a :: r)) (.set (l ++ b :: r))
  | fset {a b : Val} (l r : List Val) : Cong P a b → Cong P (.fset (l ++ a :: r)) (.fset (l ++ b :: r))
  | sub {a b : Val} (k : Kind) (c : Str) (attrs : Conf) (l r : List Val) :
      Cong P a b → Cong P (.sub k c attrs (l ++ a :: r)) (.sub k c attrs (l ++ b :: r))
  | dictKey {a b : Val} (v : Val) (l r : List (Val × Val)) :
      Cong P a b → Cong P (.dict (l ++ (a, v) :: r)) (.dict (l ++ (b, v) :: r))
  | dictVal {a b : Val} (k : Val) (l r : List (Val × Val)) :
      Cong P a b → Cong P (.dict (l ++ (k, a) :: r)) (.dict (l ++ (k, b) :: r))
  | odictKey {a b : Val} (c : Str) (attrs : Conf) (v : Val) (l r : List (Val × Val)) :
      Cong P a b → Cong P (.odict c attrs (l ++ (a, v) :: r)) (.odict c attrs (l ++ (b, v) :: r))
  | odictVal {a b : Val} (c : Str) (attrs : Conf) (k : Val) (l r : List (Val × Val)) :
      Cong P a b → Cong P (.odict c attrs (l ++ (k, a) :: r)) (.odict c attrs (l ++ (k, b) :: r))
  | odictAttr {a b : Val} (c : Str) (l r : Conf) (k : Str) (kvs : List (Val × Val)) :
      Cong P a b → Cong P (.odict c (l ++ (k, a) :: r) kvs) (.odict c (l ++ (k, b) :: r) kvs)
  | ddictKey {a b : Val} (c : Str) (attrs : Conf) (v : Val) (l r : List (Val × Val)) :
      Cong P a b → Cong P (.ddict c attrs (l ++ (a, v) :: r)) (.ddict c attrs (l ++ (b, v) :: r))
  | ddictVal {a b : Val} (c : Str) (attrs : Conf) (k : Val) (l r : List (Val × Val)) :
      Cong P a b → Cong P (.ddict c attrs (l ++ (k, a) :: r)) (.ddict c attrs (l ++ (k, b) :: r))
  | ddictAttr {a b : Val} (c : Str) (l r : Conf) (k : Str) (kvs : List (Val × Val)) :
      Cong P a b → Cong P (.ddict c (l ++ (k, a) :: r) kvs) (.ddict c (l ++ (k, b) :: r) kvs)
  | what {a b : Val} (n : Str) (l r : Conf) (k : Str) (nk : List Str) (o : Option Str) :
      Cong P a b → Cong P (.what n (l ++ (k, a) :: r) nk o) (.what n (l ++ (k, b) :: r) nk o)
  | duck {a b : Val} (n : Str) (l r : Conf) (k : Str) (nk : List Str) (o : Option Str) :
      Cong P a b → Cong P (.duck n (l ++ (k, a) :: r) nk o) (.duck n (l ++ (k, b) :: r) nk o)
  | objClass {a b : Val} (c : Str) (cl : Bool) (l r dd sd pd : Conf) (k : Str) (wh : Option WhatOpts) (s : Str) :
      Cong P a b → Cong P (.obj c cl (l ++ (k, a) :: r) dd sd pd wh s) (.obj c cl (l ++ (k, b) :: r) dd sd pd wh s)
  | objDict {a b : Val} (c : Str) (cl : Bool) (cd l r sd pd : Conf) (k : Str) (wh : Option WhatOpts) (s : Str) :
      Cong P a b → Cong P (.obj c cl cd (l ++ (k, a) :: r) sd pd wh s) (.obj c cl cd (l ++ (k, b) :: r) sd pd wh s)
  | objSlot {a b : Val} (c : Str) (cl : Bool) (cd dd l r pd : Conf) (k : Str) (wh : Option WhatOpts) (s : Str) :
      Cong P a b → Cong P (.obj c cl cd dd (l ++ (k, a) :: r) pd wh s) (.obj c cl cd dd (l ++ (k, b) :: r) pd wh s)
  | objProp {a b : Val} (c : Str) (cl : Bool) (cd dd sd l r : Conf) (k : Str) (wh : Option WhatOpts) (s : Str) :
      Cong P a b → Cong P (.obj c cl cd dd sd (l ++ (k, a) :: r) wh s) (.obj c cl cd dd sd (l ++ (k, b) :: r) wh s)
  | func {a b : Val} (n : Str) (args : List Str) (l r : List Val) :
      Cong P a b → Cong P (.func n args (l ++ a :: r)) (.func n args (l ++ b :: r))
  | partArg {a b : Val} (p : Bool) (f : Val) (l r : List Val) (kws : Conf) :
      Cong P a b → Cong P (.part p f (l ++ a :: r) kws) (.part p f (l ++ b :: r) kws)
  | partKw {a b : Val} (p : Bool) (f : Val) (args : List Val) (l r : Conf) (k : Str) :
      Cong P a b → Cong P (.part p f args (l ++ (k, a) :: r)) (.part p f args (l ++ (k, b) :: r))
  | rngTuple {xs ys : List Val} (c : Str) :
      Cong P (.tuple xs) (.tuple ys) → Cong P (.rng c (.tuple xs)) (.rng c (.tuple ys))
  | rngDict {xs ys : List (Val × Val)} (c : Str) :
      Cong P (.dict xs) (.dict ys) → Cong P (.rng c (.dict xs)) (.rng c (.dict ys))

/-- Changing the iteration order of a dict, set or frozenset (or of an instance of a subclass), or the
insertion order of the parameters of a What or of the attributes of an object. -/
inductive Reorder : Val → Val → Prop where
  | dict {a b : List (Val × Val)} : a.Perm b → Reorder (.dict a) (.dict b)
  | set {a b : List Val} : a.Perm b → Reorder (.set a) (.set b)
  | fset {a b : List Val} : a.Perm b → Reorder (.fset a) (.fset b)
  | subSet {a b : List Val} (c : Str) (attrs : Conf) : a.Perm b → Reorder (.sub .set c attrs a) (.sub .set c attrs b)
  | subFset {a b : List Val} (c : Str) (attrs : Conf) : a.Perm b → Reorder (.sub .fset c attrs a) (.sub .fset c attrs b)
  | ddict {a b : List (Val × Val)} (c : Str) (attrs : Conf) : a.Perm b → Reorder (.ddict c attrs a) (.ddict c attrs b)
  | what {a b : Conf} (n : Str) (nk : List Str) (o : Option Str) :
      UniqueKeys a → a.Perm b → Reorder (.what n a nk o) (.what n b nk o)
  | duck {a b : Conf} (n : Str) (nk : List Str) (o : Option Str) :
      UniqueKeys a → a.Perm b → Reorder (.duck n a nk o) (.duck n b nk o)
  | obj {cd cd' dd dd' sd sd' pd pd' : Conf} (c : Str) (cl : Bool) (wh : Option WhatOpts) (s : Str) :
      UniqueKeys cd → UniqueKeys dd → UniqueKeys sd → UniqueKeys pd →
      cd.Perm cd' → dd.Perm dd' → sd.Perm sd' → pd.Perm pd' →
      Reorder (.obj c cl cd dd sd pd wh s) (.obj c cl cd' dd' sd' pd' wh s)

/-- The two configurations have the same value (or both none) for every key that is not a non-id key. -/
def AgreeOnIds (nk : List Str) (a b : Conf) : Prop := ∀ k, k ∉ nk → ∀ v, (k, v) ∈ a ↔ (k, v) ∈ b

/-- Changing, adding or removing parameters whose keys are non-id keys. -/
inductive NonIdChange : Val → Val → Prop where
  | what {a b : Conf} (n : Str) (nk : List Str) (o : Option Str) :
      UniqueKeys a → UniqueKeys b → AgreeOnIds nk a b → NonIdChange (.what n a nk o) (.what n b nk o)
  | duck {a b : Conf} (n : Str) (nk : List Str) (o : Option Str) :
      UniqueKeys a → UniqueKeys b → AgreeOnIds nk a b → NonIdChange (.duck n a nk o) (.duck n b nk o)

/-- An attribute that takes part in the configuration of a whatable object: its name neither starts with
the excluded prefix, nor ends with the excluded postfix, nor is excluded by name. -/
def Public (o : WhatOpts) (k : Str) : Prop :=
  ¬ o.prefx <+: k ∧ ¬ o.postfx <:+ k ∧ k ∉ o.excludes

/-- Changing attributes that are not public (or the order of attributes) of a non-callable object that was
made whatable; its `str()` may change as well. -/
inductive PrivateChange : Val → Val → Prop where
  | obj {cd cd' dd dd' sd sd' pd pd' : Conf} (c : Str) (o : WhatOpts) (s s' : Str) :
      UniqueKeys cd → UniqueKeys dd → UniqueKeys sd → UniqueKeys pd →
      UniqueKeys cd' → UniqueKeys dd' → UniqueKeys sd' → UniqueKeys pd' →
      (∀ k, Public o k → ∀ v, ((k, v) ∈ cd ↔ (k, v) ∈ cd') ∧ ((k, v) ∈ dd ↔ (k, v) ∈ dd') ∧
        ((k, v) ∈ sd ↔ (k, v) ∈ sd') ∧ ((k, v) ∈ pd ↔ (k, v) ∈ pd')) →
      PrivateChange (.obj c false cd dd sd pd (some o) s) (.obj c false cd' dd' sd' pd' (some o) s')

/-- Two strings differ only in which of their single quotes are already escaped: the equivalence generated
by putting a backslash before a quote that no backslash precedes. -/
inductive QuoteEq : Str → Str → Prop where
  | refl (s : Str) : QuoteEq s s
  | symm {s t : Str} : QuoteEq s t → QuoteEq t s
  | trans {s t u : Str} : QuoteEq s t → QuoteEq t u → QuoteEq s u
  | esc (l r : Str) : l.getLast? ≠ some '\\' → QuoteEq (l ++ '\'' :: r) (l ++ '\\' :: '\'' :: r)

/-- Changing only which single quotes of a string are already escaped. -/
inductive QuoteChange : Val → Val → Prop where
  | str {s t : Str} : QuoteEq s t → QuoteChange (.str s) (.str t)

end Whatami
