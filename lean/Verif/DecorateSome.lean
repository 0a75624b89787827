import Verif.Basic

/-
Model of misc.py:596-690 `decorate_some`: the metaclass that decorates the attributes of the classes created with it.

Simplified: attributes are of an arbitrary type `A`; a decorator returns another attribute or raises; metaclass conflicts are not modelled.
-/
namespace Whatami

/-- The decorators given for an attribute (misc.py:683): a single one, a collection, or an iterator with what is left of it. -/
inductive DecSpec (A : Type) where
  | one (f : A → R A)
  | many (fs : List (A → R A))
  | iter (left : List (A → R A))

/-- misc.py:685-687: the decorators that are applied when the loop starts. -/
def DecSpec.funs {A : Type} : DecSpec A → List (A → R A)
  | .one f => [f]
  | .many fs => fs
  | .iter fs => fs

/-- The decorators afterwards: an iterator is used up (misc.py:687). -/
def DecSpec.used {A : Type} : DecSpec A → DecSpec A
  | .iter _ => .iter []
  | s => s

/-- misc.py:687-688: `for attr_decorator in attr_decorators: d[attr] = attr_decorator(d[attr])`. -/
def decorateAttr {A : Type} : List (A → R A) → A → R A
  | [], a => .ok a
  | f :: fs, a =>
    match f a with
    | .error e => .error e
    | .ok b => decorateAttr fs b

/-- misc.py:680-689 `new_decorate`: the namespace of the class, and what is left of the decorators. -/
def newDecorate {A : Type} : List (Str × DecSpec A) → List (Str × A) → R (List (Str × DecSpec A) × List (Str × A))
  | [], d => .ok ([], d)
  | (attr, s) :: rest, d =>
    match dget d attr with
    | none =>
      match newDecorate rest d with
      | .error e => .error e
      | .ok (rest', d') => .ok ((attr, s) :: rest', d')
    | some a =>
      match decorateAttr s.funs a with
      | .error e => .error e
      | .ok b =>
        match newDecorate rest (dset d attr b) with
        | .error e => .error e
        | .ok (rest', d') => .ok ((attr, s.used) :: rest', d')

/-- Class definitions one after the other, given by their bodies (misc.py:680-689): the namespaces of the classes. -/
def createAll {A : Type} : List (Str × DecSpec A) → List (List (Str × A)) → R (List (List (Str × A)))
  | _, [] => .ok []
  | decs, body :: bodies =>
    match newDecorate decs body with
    | .error e => .error e
    | .ok (decs', d) =>
      match createAll decs' bodies with
      | .error e => .error e
      | .ok ds => .ok (d :: ds)

end Whatami
