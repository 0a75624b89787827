import Verif.Spec.Fragment
import Verif.Spec.Meaning

/-
Specification for C13: which of the configurations whose text is in the language of ids have an id that parse_whatid accepts.
Nothing here refers to how ids are generated or parsed; `hashable` (PyEq) says which of the things that can be imported are.
-/
namespace Whatami

/-- The name of the class can be looked up: what is found is not None, or nothing is found (a dict then stands for it). -/
def ClassReads (E : Env) (f : Str) : Prop := ∃ m n, DottedName f m n ∧
  ((∃ v, E.imp m n = .ok v ∧ v ≠ .none) ∨ E.imp m n = .error .importError ∨ E.imp m n = .error .attributeError)

/-- Something hashable is found under the name of the class. -/
def ClassHashes (E : Env) (f : Str) : Prop := ∃ m n v, DottedName f m n ∧ E.imp m n = .ok v ∧ v ≠ .none ∧ hashable v = true

mutual
/-- Values that are read as something hashable: no lists, sets, dicts or Whats, and frozensets are read as sets. -/
def KeyLike (E : Env) : Val → Prop
  | .none | .bool _ | .int _ | .float _ | .str _ => True
  | .cls f => ClassHashes E f
  | .tuple xs => KeyLikeL E xs
  | _ => False
termination_by structural v => v
/-- All elements are. -/
def KeyLikeL (E : Env) : List Val → Prop
  | [] => True
  | x :: xs => KeyLike E x ∧ KeyLikeL E xs
termination_by structural xs => xs
end

mutual
/-- Values whose text is accepted: their classes can be looked up, what is in their sets and the keys of their dicts is hashable when read, and
their Whats have parameters that show if they have an out_name. -/
def Accepted (E : Env) : Val → Prop
  | .cls f => ClassReads E f
  | .tuple xs | .list xs => AcceptedL E xs
  | .set xs | .fset xs => KeyLikeL E xs
  | .dict kvs => AcceptedD E kvs
  | .what _ c nk o => (o ≠ none → ∃ k ∈ c.map Prod.fst, k ∉ nk) ∧ AcceptedA E nk c
  | _ => True
termination_by structural v => v
/-- All elements are. -/
def AcceptedL (E : Env) : List Val → Prop
  | [] => True
  | x :: xs => Accepted E x ∧ AcceptedL E xs
termination_by structural xs => xs
/-- All keys are read as something hashable, and all values are accepted. -/
def AcceptedD (E : Env) : List (Val × Val) → Prop
  | [] => True
  | (k, v) :: xs => KeyLike E k ∧ Accepted E v ∧ AcceptedD E xs
termination_by structural xs => xs
/-- All parameters but the non-id ones are. -/
def AcceptedA (E : Env) (nk : List Str) : List (Str × Val) → Prop
  | [] => True
  | (k, v) :: xs => (k ∉ nk → Accepted E v) ∧ AcceptedA E nk xs
termination_by structural xs => xs
end

/-- The What of a whole id. -/
def AcceptedWhat (E : Env) (w : What) : Prop := Accepted E w.toVal

end Whatami
