import Verif.Spec.Same
import Verif.Plugins

/-
Specification for C17: which components of a value have a part in its id under the default plugins.
-/
namespace Whatami

/-- The pairs assign `x` to `k`, and no later one assigns anything to it. -/
def Latest (ps : Conf) (k : Str) (x : Val) : Prop := ∃ pre post, ps = pre ++ (k, x) :: post ∧ ∀ y, (k, y) ∉ post

/-- `Shown x v`: the text of `x` is a part of the text of `v`: elements, items, id parameters, public attributes, defaults and bound
arguments.  Attributes of lists, tuples and sets are not shown, nor those of objects that are not whatable. -/
inductive Shown : Val → Val → Prop where
  | tuple {x : Val} {xs : List Val} : x ∈ xs → Shown x (.tuple xs)
  | list {x : Val} {xs : List Val} : x ∈ xs → Shown x (.list xs)
  | set {x : Val} {xs : List Val} : x ∈ xs → Shown x (.set xs)
  | fset {x : Val} {xs : List Val} : x ∈ xs → Shown x (.fset xs)
  | sub {x : Val} {xs : List Val} (k : Kind) (c : Str) (attrs : Conf) : x ∈ xs → Shown x (.sub k c attrs xs)
  | dictKey {x y : Val} {kvs : List (Val × Val)} : (x, y) ∈ kvs → Shown x (.dict kvs)
  | dictVal {x y : Val} {kvs : List (Val × Val)} : (y, x) ∈ kvs → Shown x (.dict kvs)
  | odictKey {x y : Val} {kvs : List (Val × Val)} (c : Str) (attrs : Conf) : (x, y) ∈ kvs → Shown x (.odict c attrs kvs)
  | odictVal {x y : Val} {kvs : List (Val × Val)} (c : Str) (attrs : Conf) : (y, x) ∈ kvs → Shown x (.odict c attrs kvs)
  | odictAttr {x : Val} {attrs : Conf} {n : Str} (c : Str) (kvs : List (Val × Val)) :
      Latest attrs n x → Public {} n → n ≠ c!"seq" → Shown x (.odict c attrs kvs)
  | ddictKey {x y : Val} {kvs : List (Val × Val)} (c : Str) (attrs : Conf) : (x, y) ∈ kvs → Shown x (.ddict c attrs kvs)
  | ddictVal {x y : Val} {kvs : List (Val × Val)} (c : Str) (attrs : Conf) : (y, x) ∈ kvs → Shown x (.ddict c attrs kvs)
  | ddictAttr {x : Val} {attrs : Conf} {n : Str} (c : Str) (kvs : List (Val × Val)) :
      Latest attrs n x → Public {} n → n ≠ c!"seq" → Shown x (.ddict c attrs kvs)
  | what {x : Val} {conf : Conf} {k : Str} {nk : List Str} (n : Str) (o : Option Str) : (k, x) ∈ conf → k ∉ nk → Shown x (.what n conf nk o)
  | duck {x : Val} {conf : Conf} {k : Str} {nk : List Str} (n : Str) (o : Option Str) : (k, x) ∈ conf → k ∉ nk → Shown x (.duck n conf nk o)
  /-- an object that was made whatable: C26 and C48 say what its attributes are -/
  | obj {x : Val} {cd dd sd pd : Conf} {o : WhatOpts} {k : Str} (c s : Str) : (k, x) ∈ configDictOfSrcs o ⟨cd, dd, sd, pd⟩ →
      Public o k → k ∉ o.nonids → Shown x (.obj c false cd dd sd pd (some o) s)
  /-- the default of a parameter: those with defaults are the last ones -/
  | func {x : Val} {pre names : List Str} {ds : List Val} {k : Str} (n : Str) : names.length = ds.length ∨ (pre = [] ∧ names.length ≤ ds.length) →
      Latest (names.zip ds) k x → Shown x (.func n (pre ++ names) ds)
  /-- a partial: C27 says what its arguments are -/
  | part {x : Val} {p : Bool} {f : Val} {args : List Val} {kws : Conf} {n k : Str} {kw : Conf} :
      callable2call (curry2partial (.part p f args kws)) [] [] = .ok (n, kw) → (k, x) ∈ kw → Shown x (.part p f args kws)
  /-- a random generator: what `whatareyou` has on its state -/
  | rng {x st : Val} {w : What} {k : Str} (c : Str) : whatareyou {} st = .ok w → (k, x) ∈ w.conf → k ∉ w.nonids → Shown x (.rng c st)

/-- `ShownIn x v`: `x` is `v` or it shows somewhere in it. -/
inductive ShownIn : Val → Val → Prop where
  | refl (v : Val) : ShownIn v v
  | step {x y v : Val} : ShownIn x y → Shown y v → ShownIn x v

end Whatami
