import Verif.Val

/-
Specification: what a value contains, and which values make id generation fail.
-/
namespace Whatami

/-- `Child x v`: `x` is a direct component of `v`: an element, a dict key or value, a parameter, an attribute,
a default of a function, the function or an argument of a partial, the state of a random generator. -/
inductive Child : Val → Val → Prop where
  | tuple {x : Val} {xs : List Val} : x ∈ xs → Child x (.tuple xs)
  | list {x : Val} {xs : List Val} : x ∈ xs → Child x (.list xs)
  | set {x : Val} {xs : List Val} : x ∈ xs → Child x (.set xs)
  | fset {x : Val} {xs : List Val} : x ∈ xs → Child x (.fset xs)
  | sub {x : Val} {xs : List Val} (k : Kind) (c : Str) (attrs : Conf) : x ∈ xs → Child x (.sub k c attrs xs)
  | subAttr {x : Val} {attrs : Conf} (n : Str) (k : Kind) (c : Str) (xs : List Val) :
      (n, x) ∈ attrs → Child x (.sub k c attrs xs)
  | dictKey {x y : Val} {kvs : List (Val × Val)} : (x, y) ∈ kvs → Child x (.dict kvs)
  | dictVal {x y : Val} {kvs : List (Val × Val)} : (y, x) ∈ kvs → Child x (.dict kvs)
  | odictKey {x y : Val} {kvs : List (Val × Val)} (c : Str) (attrs : Conf) :
      (x, y) ∈ kvs → Child x (.odict c attrs kvs)
  | odictVal {x y : Val} {kvs : List (Val × Val)} (c : Str) (attrs : Conf) :
      (y, x) ∈ kvs → Child x (.odict c attrs kvs)
  | odictAttr {x : Val} {attrs : Conf} (n c : Str) (kvs : List (Val × Val)) :
      (n, x) ∈ attrs → Child x (.odict c attrs kvs)
  | ddictKey {x y : Val} {kvs : List (Val × Val)} (c : Str) (attrs : Conf) :
      (x, y) ∈ kvs → Child x (.ddict c attrs kvs)
  | ddictVal {x y : Val} {kvs : List (Val × Val)} (c : Str) (attrs : Conf) :
      (y, x) ∈ kvs → Child x (.ddict c attrs kvs)
  | ddictAttr {x : Val} {attrs : Conf} (n c : Str) (kvs : List (Val × Val)) :
      (n, x) ∈ attrs → Child x (.ddict c attrs kvs)
  | what {x : Val} {conf : Conf} (k n : Str) (nk : List Str) (o : Option Str) :
      (k, x) ∈ conf → Child x (.what n conf nk o)
  | duck {x : Val} {conf : Conf} (k n : Str) (nk : List Str) (o : Option Str) :
      (k, x) ∈ conf → Child x (.duck n conf nk o)
  | obj {x : Val} {cd dd sd pd : Conf} (k c : Str) (cl : Bool) (wh : Option WhatOpts) (s : Str) :
      (k, x) ∈ cd ++ dd ++ sd ++ pd → Child x (.obj c cl cd dd sd pd wh s)
  | func {x : Val} {ds : List Val} (n : Str) (args : List Str) : x ∈ ds → Child x (.func n args ds)
  | partFunc (p : Bool) (f : Val) (args : List Val) (kws : Conf) : Child f (.part p f args kws)
  | partArg {x : Val} {args : List Val} (p : Bool) (f : Val) (kws : Conf) : x ∈ args → Child x (.part p f args kws)
  | partKw {x : Val} {kws : Conf} (k : Str) (p : Bool) (f : Val) (args : List Val) :
      (k, x) ∈ kws → Child x (.part p f args kws)
  | rng (c : Str) (st : Val) : Child st (.rng c st)

/-- `Within x v`: `x` is `v` or occurs somewhere inside it. -/
inductive Within : Val → Val → Prop where
  | refl (v : Val) : Within v v
  | step {x y v : Val} : Within x y → Child y v → Within x v

theorem Within.trans {x y v : Val} (h : Within x y) (k : Within y v) : Within x v := by
  induction k with
  | refl => exact h
  | step _ c ih => exact .step ih c

theorem Child.within {x v : Val} (h : Child x v) : Within x v := .step (.refl x) h

end Whatami
