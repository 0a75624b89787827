import Verif.Spec.Text
import Verif.Spec.Meaning
import Verif.Spec.Collide

/-
Specification for C91: what a configuration is read back as.  Nothing here refers to how ids are generated or parsed; `IdTextOf` (Spec/Text) is the
text of a value in an id.
-/
namespace Whatami

/-- The texts of the two values are in order. -/
def TextsInOrder (x y : Val) : Prop := ∃ s t, IdTextOf x s ∧ IdTextOf y t ∧ (s = t ∨ strLt s t)

/-- The text of an item of a dict: those of the key and the value, and a colon between them. -/
def ItemText (e : Val × Val) (s : Str) : Prop := ∃ k v, IdTextOf e.1 k ∧ IdTextOf e.2 v ∧ s = k ++ c!":" ++ v

/-- The texts of the two items are in order. -/
def ItemsInOrder (d e : Val × Val) : Prop := ∃ s t, ItemText d s ∧ ItemText e t ∧ (s = t ∨ strLt s t)

/-- `ps` are the parameters that show, in ascending order. -/
def ParamsInOrder (c : Conf) (nk : List Str) (ps : Conf) : Prop :=
  (ps.map Prod.fst).Pairwise strLt ∧ ∀ k v, (k, v) ∈ ps ↔ (k, v) ∈ c ∧ k ∉ nk

/-- `t` is `s` with all its quotes escaped and without the whitespace at the beginning. -/
def CleanedUp (s t : Str) : Prop :=
  ∃ b ws, QuoteEq s b ∧ QuotesEscaped b ∧ b = ws ++ t ∧ (∀ c ∈ ws, isWs c = true) ∧ ∀ c r, t = c :: r → isWs c = false

/-- `ReadAs E v u`: where there was `v`, reading an id finds `u`. -/
inductive ReadAs (E : Env) : Val → Val → Prop where
  | none : ReadAs E .none .none
  | bool (b : Bool) : ReadAs E (.bool b) (.bool b)
  | int (i : Int) : ReadAs E (.int i) (.int i)
  | float (t : Str) : ReadAs E (.float t) (.float (E.floatOf t))
  | str {s t : Str} : CleanedUp s t → ReadAs E (.str s) (.str t)
  /-- a class that can be imported -/
  | cls {b m n : Str} {v : Val} : DottedName b m n → E.imp m n = .ok v → v ≠ .none → ReadAs E (.cls b) v
  /-- a class that cannot -/
  | lost {b m n : Str} {e : Err} : DottedName b m n → E.imp m n = .error e → e = .importError ∨ e = .attributeError →
      ReadAs E (.cls b) (.dict [(.str c!"class", .str b)])
  | tuple {xs l : List Val} : xs.length = l.length → (∀ (i : Nat) x v, xs[i]? = some x → l[i]? = some v → ReadAs E x v) →
      ReadAs E (.tuple xs) (.tuple l)
  | list {xs l : List Val} : xs.length = l.length → (∀ (i : Nat) x v, xs[i]? = some x → l[i]? = some v → ReadAs E x v) →
      ReadAs E (.list xs) (.list l)
  /-- the elements are added in the order of their texts -/
  | set {xs ys l d : List Val} : ys.Perm xs → ys.Pairwise TextsInOrder → ys.length = l.length →
      (∀ (i : Nat) x v, ys[i]? = some x → l[i]? = some v → ReadAs E x v) → (∀ v ∈ l, CanHash v) → Added (SameKey E.fi) l d →
      ReadAs E (.set xs) (.set d)
  /-- a frozenset is read as a set -/
  | fset {xs : List Val} {v : Val} : ReadAs E (.set xs) v → ReadAs E (.fset xs) v
  /-- the items are assigned in the order of their texts -/
  | dict {kvs es l d : List (Val × Val)} : es.Perm kvs → es.Pairwise ItemsInOrder → es.length = l.length →
      (∀ (i : Nat) e u, es[i]? = some e → l[i]? = some u → ReadAs E e.1 u.1) →
      (∀ (i : Nat) e u, es[i]? = some e → l[i]? = some u → ReadAs E e.2 u.2) →
      (∀ u ∈ l, CanHash u.1) → Assigned (SameKey E.fi) l d → ReadAs E (.dict kvs) (.dict d)
  /-- only the parameters that show are found; an out_name needs some -/
  | what {n : Str} {c ps l : Conf} {nk : List Str} {o : Option Str} : ParamsInOrder c nk ps → ps.map Prod.fst = l.map Prod.fst →
      (∀ (i : Nat) p u, ps[i]? = some p → l[i]? = some u → ReadAs E p.2 u.2) → (ps = [] → o = .none) →
      (ps = [] → n ≠ c!"set" ∧ n ≠ c!"frozenset") → ReadAs E (.what n c nk o) (.what n l [] o)
  /-- a nested What that looks like an empty set or frozenset is read as the empty set -/
  | setCall {n : Str} {c : Conf} {nk : List Str} : (∀ k v, (k, v) ∈ c → k ∈ nk) → n = c!"set" ∨ n = c!"frozenset" →
      ReadAs E (.what n c nk .none) (.set [])

/-- The What of a whole id, which may have any name. -/
def WhatReadAs (E : Env) (w u : What) : Prop :=
  u.name = w.name ∧ u.out = w.out ∧ u.nonids = [] ∧ ∃ ps, ParamsInOrder w.conf w.nonids ps ∧ ps.map Prod.fst = u.conf.map Prod.fst ∧
    (∀ (i : Nat) p q, ps[i]? = some p → u.conf[i]? = some q → ReadAs E p.2 q.2) ∧ (ps = [] → w.out = none)

/-! ### Nothing lost -/

/-- All quotes are escaped and there is no whitespace at the beginning. -/
def IsClean (s : Str) : Prop := QuotesEscaped s ∧ ∀ c r, s = c :: r → isWs c = false

/-- `Stays E v`: nothing in `v` gets lost when it is written and read: strings are clean, classes and floats are found again, there are no frozensets
and no parameters that do not show, set elements and dict keys are different, and no nested What looks like an empty set. -/
inductive Stays (E : Env) : Val → Prop where
  | none : Stays E .none
  | bool (b : Bool) : Stays E (.bool b)
  | int (i : Int) : Stays E (.int i)
  | float {t : Str} : E.floatOf t = t → Stays E (.float t)
  | str {s : Str} : IsClean s → Stays E (.str s)
  | cls {b m n : Str} : DottedName b m n → E.imp m n = .ok (.cls b) → Stays E (.cls b)
  | tuple {xs : List Val} : (∀ x ∈ xs, Stays E x) → Stays E (.tuple xs)
  | list {xs : List Val} : (∀ x ∈ xs, Stays E x) → Stays E (.list xs)
  | set {xs : List Val} : (∀ x ∈ xs, Stays E x) → (∀ x ∈ xs, CanHash x) → xs.Pairwise (fun x y => ¬ SameKey E.fi x y) → Stays E (.set xs)
  | dict {kvs : List (Val × Val)} : (∀ k v, (k, v) ∈ kvs → Stays E k) → (∀ k v, (k, v) ∈ kvs → Stays E v) →
      (∀ k v, (k, v) ∈ kvs → CanHash k) → (kvs.map Prod.fst).Pairwise (fun x y => ¬ SameKey E.fi x y) → Stays E (.dict kvs)
  | what {n : Str} {c : Conf} {o : Option Str} : (∀ k v, (k, v) ∈ c → Stays E v) → (c = [] → o = .none ∧ n ≠ c!"set" ∧ n ≠ c!"frozenset") →
      Stays E (.what n c [] o)

/-- The environment finds what it found again: a float that was read is read as itself, and a class that was imported is found under its own name. -/
structure FindsAgain (E : Env) : Prop where
  floats : ∀ t, E.floatOf (E.floatOf t) = E.floatOf t
  classes : ∀ m n b, E.imp m n = .ok (.cls b) → ∃ m' n', DottedName b m' n' ∧ E.imp m' n' = .ok (.cls b)

/-- The What of a whole id, which may have any name. -/
def WhatStays (E : Env) (w : What) : Prop := w.nonids = [] ∧ (w.conf = [] → w.out = none) ∧ ∀ k v, (k, v) ∈ w.conf → Stays E v

end Whatami
