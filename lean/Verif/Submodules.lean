import Verif.Basic

/-
Model of misc.py:794-834 `import_submodules`.

Simplified: `import_module` is a function of the name (importing changes nothing for later imports); the `__name__` of a module is the
name it is imported by; what `walk_packages` yields for a package is part of the package (it lists the modules and packages directly
in it, unless a package in it has the name of a top-level module: it tries to import packages by their bare names).
-/
namespace Whatami

/-- A module: what `walk_packages(package.__path__)` yields (name, is_pkg), or none if it is no package (misc.py:820). -/
structure PyModule where
  entries : Option (List (Str × Bool))
deriving DecidableEq, Repr

/-- `package.__name__ + '.' + name` (misc.py:821). -/
def fullName (pkg name : Str) : Str := pkg ++ '.' :: name

/-- misc.py:822-826: import one submodule, if it can be. -/
def importOne (imp : Str → R PyModule) (ignoreErrors : Bool) (results : List (Str × PyModule)) (full : Str) : R (List (Str × PyModule)) :=
  match imp full with
  | .ok m => .ok (dset results full m)
  | .error .importError => if ignoreErrors then .ok results else .error .importError
  | .error e => .error e

/-- misc.py:827-832: what is below a package. -/
def importBelow (rec : Str → R (List (Str × PyModule))) (ignoreErrors : Bool) (results : List (Str × PyModule)) (full : Str) : R (List (Str × PyModule)) :=
  match rec full with
  | .ok r => .ok (dupdate results r)
  | .error .importError => if ignoreErrors then .ok results else .error .importError
  | .error e => .error e

/-- misc.py:820-832: the loop. -/
def importLoop (imp : Str → R PyModule) (rec : Str → R (List (Str × PyModule))) (recurse ignoreErrors : Bool) (pkg : Str) :
    List (Str × PyModule) → List (Str × Bool) → R (List (Str × PyModule))
  | results, [] => .ok results
  | results, (name, isPkg) :: rest =>
    match importOne imp ignoreErrors results (fullName pkg name) with
    | .error e => .error e
    | .ok results1 =>
      if recurse && isPkg then
        match importBelow rec ignoreErrors results1 (fullName pkg name) with
        | .error e => .error e
        | .ok results2 => importLoop imp rec recurse ignoreErrors pkg results2 rest
      else importLoop imp rec recurse ignoreErrors pkg results1 rest

/-- misc.py:794-834 `import_submodules` of a name; the recursive call (misc.py:829) does not pass the flags on, so it uses the defaults.
`n` bounds the nesting (an error beyond it, as with Python's recursion limit). -/
def importSubmodules (imp : Str → R PyModule) : Nat → Bool → Bool → Str → R (List (Str × PyModule))
  | 0, _, _, _ => .error .exception
  | n + 1, recurse, ignoreErrors, pkg =>
    match imp pkg with
    | .error .importError => if ignoreErrors then .ok [] else .error .importError
    | .error e => .error e
    | .ok m =>
      match m.entries with
      | none => .error .attributeError
      | some es => importLoop imp (importSubmodules imp n true true) recurse ignoreErrors pkg (dset [] pkg m) es

end Whatami
