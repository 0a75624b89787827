import Verif.ClassGraph
import Verif.Naming

/-
Model of wrappers/what_sklearn.py:669-708 `sklearn_parameters_report`: the names reported under 'unwhatamized'.

Simplified: `init_argspec` never fails on a class (misc.py:72-85; what it gives is not reported).  The classes of the session are those there
are after `import_submodules('sklearn')`.
-/
namespace Whatami

/-- `set(xs)` of strings (wrappers/what_sklearn.py:696), as a list without duplicates. -/
def strSet : List Str → List Str → List Str
  | acc, [] => acc
  | acc, s :: r => strSet (if acc.contains s then acc else acc ++ [s]) r

/-- wrappers/what_sklearn.py:687-693: the names of all strict subclasses of the bases; those that cannot be imported are skipped.
`bases` is what the names in `_WHATAMIZED_BASES` were resolved to by `maybe_import_member(..., fail_if_import_error=False)`. -/
def subclassNames (g : Bases) (depth : Nat) (names : Nat → NameAttrs) : List (R (Option Nat)) → R (List Str)
  | [] => .ok []
  | .error e :: _ => .error e
  | .ok none :: bs => subclassNames g depth names bs
  | .ok (some i) :: bs =>
    (allSubs g depth i).bind fun subs =>
    (mapR (fun c => fqn (names c) (names c) false) subs).bind fun ns =>
    (subclassNames g depth names bs).map fun rest => ns ++ rest

/-- wrappers/what_sklearn.py:669-708 `sklearn_parameters_report()['unwhatamized']`; `declared` are the classes in the registry. -/
def unwhatamized (g : Bases) (depth : Nat) (names : Nat → NameAttrs) (declared : List Nat) (bases : List (R (Option Nat))) : R (List Str) :=
  (mapR (fun c => fqn (names c) (names c) false) declared).bind fun known =>
  (subclassNames g depth names bases).map fun all => sortBy strLe ((strSet [] all).filter fun s => !known.contains s)

end Whatami
