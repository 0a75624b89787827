import Verif.Spec.Fragment

/-
Specification for C13: all the configurations the property is about, and what makes the syntax of their ids unreadable.
Nothing here refers to how ids are generated or parsed.
-/
namespace Whatami

/-- What Python shows between the quotes of `<class '...'>`, for classes in modules as well as in functions (`m.f.<locals>.C`). -/
def ClassName (f : Str) : Prop := ∀ c ∈ f, c ≠ '\'' ∧ c ≠ '\\' ∧ isWs c = false

mutual
/-- None, booleans, integers, floats, strings, classes, tuples, lists, sets, frozensets, dicts and Whats with identifiers for names, nested in
any way.  Nothing is asked of strings, and nothing of parameters that do not show. -/
def Supported : Val → Prop
  | .none | .bool _ | .int _ | .str _ => True
  | .float t => FloatText t
  | .cls f => ClassName f
  | .tuple xs | .list xs | .set xs | .fset xs => SupportedL xs
  | .dict kvs => SupportedD kvs
  | .what n c nk o => (∀ x, o = some x → Ident x) ∧ Ident n ∧ SupportedA nk c
  | _ => False
termination_by structural v => v
/-- All elements are. -/
def SupportedL : List Val → Prop
  | [] => True
  | x :: xs => Supported x ∧ SupportedL xs
termination_by structural xs => xs
/-- All keys and values are. -/
def SupportedD : List (Val × Val) → Prop
  | [] => True
  | (k, v) :: xs => Supported k ∧ Supported v ∧ SupportedD xs
termination_by structural xs => xs
/-- All parameters but the non-id ones are. -/
def SupportedA (nk : List Str) : List (Str × Val) → Prop
  | [] => True
  | (k, v) :: xs => (k ∉ nk → Ident k ∧ Supported v) ∧ SupportedA nk xs
termination_by structural xs => xs
end

/-- `n` backslashes. -/
def backslashes (n : Nat) : Str := List.replicate n '\\'

/-- The string does not end in an odd number of backslashes, and none of its quotes comes after an even number of them other than zero:
`\` and `\\'` are out, `'`, `\'` and `\\` are fine. -/
def StrLegible (s : Str) : Prop :=
  (∀ u n, s = u ++ backslashes (2 * n + 1) → ∃ u', u = u' ++ ['\\']) ∧
  (∀ u n v, s = u ++ backslashes (2 * n + 2) ++ '\'' :: v → ∃ u', u = u' ++ ['\\'])

mutual
/-- All strings that show are legible, and no What goes by a name (an out_name if it has one) that starts like None, True, False, inf or nan. -/
def Legible : Val → Prop
  | .str s => StrLegible s
  | .tuple xs | .list xs | .set xs | .fset xs => LegibleL xs
  | .dict kvs => LegibleD kvs
  | .what n c nk o => NestedStart (o.getD n) ∧ LegibleA nk c
  | _ => True
termination_by structural v => v
/-- All elements are. -/
def LegibleL : List Val → Prop
  | [] => True
  | x :: xs => Legible x ∧ LegibleL xs
termination_by structural xs => xs
/-- All keys and values are. -/
def LegibleD : List (Val × Val) → Prop
  | [] => True
  | (k, v) :: xs => Legible k ∧ Legible v ∧ LegibleD xs
termination_by structural xs => xs
/-- All parameters but the non-id ones are. -/
def LegibleA (nk : List Str) : List (Str × Val) → Prop
  | [] => True
  | (k, v) :: xs => (k ∉ nk → Legible v) ∧ LegibleA nk xs
termination_by structural xs => xs
end

/-- The What of a whole id. -/
def SupportedWhat (w : What) : Prop := Supported w.toVal
/-- The What of a whole id, which may have any name. -/
def LegibleWhat (w : What) : Prop := ∀ k v, (k, v) ∈ w.conf → k ∉ w.nonids → Legible v

end Whatami
