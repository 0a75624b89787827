import Verif.Classes

/-
Specification: Python's attribute access on objects (`object.__getattribute__`).
Only the types of the model are used here, none of its functions.
-/
namespace Whatami

/-- The class of the object, or else the first of its bases in method resolution order that has the name, maps it
to `m`. -/
def Inst.Finds (ob : Inst) (n : Str) (m : Member) : Prop :=
  ∃ before c after, ob.mro = before ++ c :: after ∧ (∀ d ∈ before, ∀ m', (n, m') ∉ d) ∧ (n, m) ∈ c

/-- Data descriptors: slots and properties. -/
inductive IsData : Member → Prop where
  | slot (c : Option Val) : IsData (.slot c)
  | prop (r : R Val) : IsData (.prop r)

/-- The object's `__dict__` has it. -/
def Inst.InDict (ob : Inst) (n : Str) (v : Val) : Prop := ∃ d, ob.dict = some d ∧ (n, v) ∈ d

/-- The outcome of `obj.n`: data descriptors come first, then the `__dict__`, then whatever else the classes have. -/
inductive GetAttr (ob : Inst) (n : Str) : R Val → Prop where
  | slot {v : Val} : ob.Finds n (.slot (some v)) → GetAttr ob n (.ok v)
  | empty : ob.Finds n (.slot none) → GetAttr ob n (.error .attributeError)
  | prop {r : R Val} : ob.Finds n (.prop r) → GetAttr ob n r
  | dict {v : Val} : (∀ m, ob.Finds n m → ¬ IsData m) → ob.InDict n v → GetAttr ob n (.ok v)
  | meth {c v : Val} : (∀ u, ¬ ob.InDict n u) → ob.Finds n (.meth c v) → GetAttr ob n (.ok v)
  | plain {v : Val} : (∀ u, ¬ ob.InDict n u) → ob.Finds n (.plain v) → GetAttr ob n (.ok v)
  | missing : (∀ u, ¬ ob.InDict n u) → (∀ m, ¬ ob.Finds n m) → GetAttr ob n (.error .attributeError)

/-- `FromClass m v`: read through the class (`type(obj).n`), a member `m` of it gives `v`. -/
inductive FromClass : Member → Val → Prop where
  | slot (c : Option Val) : FromClass (.slot c) (.obj c!"member_descriptor" false [] [] [] [] none c!"<member>")
  | prop (r : R Val) : FromClass (.prop r) .property
  | meth (f b : Val) : FromClass (.meth f b) f
  | plain (v : Val) : FromClass (.plain v) v

/-- An attribute of the object itself: a slot, a property, or in its `__dict__` (but for `__weakref__`). -/
def Inst.Own (ob : Inst) (n : Str) : Prop :=
  n ≠ c!"__weakref__" ∧ ((∃ m, ob.Finds n m ∧ IsData m) ∨ ∃ v, ob.InDict n v)

/-- An object as Python has them: namespaces are dictionaries, and nobody writes `__weakref__` to a `__dict__`. -/
structure Inst.Ok (ob : Inst) : Prop where
  uniq : ∀ c ∈ ob.mro, (c.map Prod.fst).Nodup
  dict : ∀ d, ob.dict = some d → (d.map Prod.fst).Nodup
  weakref : ∀ v, ¬ ob.InDict c!"__weakref__" v

/-- The descriptors that the options ask for. -/
def Wanted (o : WhatOpts) (n : Str) (m : Member) : Prop :=
  n ≠ c!"__weakref__" ∧ ((o.addSlots = true ∧ ∃ c, m = .slot c) ∨ (o.addProps = true ∧ ∃ r, m = .prop r))

/-- The object shows `v` under the name `n`, for these options: a slot or property that is asked for, with the value the object has for it; else
what the `__dict__` has, if that is asked for; else what the classes have, if those are. -/
def Inst.Shows (ob : Inst) (o : WhatOpts) (n : Str) (v : Val) : Prop :=
  ((∃ m, ob.Finds n m ∧ Wanted o n m) ∧ GetAttr ob n (.ok v)) ∨
  (¬ (∃ m, ob.Finds n m ∧ Wanted o n m) ∧
    ((o.addDict = true ∧ ob.InDict n v) ∨
     (o.addClass = true ∧ ¬ (o.addDict = true ∧ ∃ u, ob.InDict n u) ∧ ∃ m, ob.Finds n m ∧ FromClass m v)))

end Whatami
