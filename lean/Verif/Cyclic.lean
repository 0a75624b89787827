import Verif.Stack

/-
Model of `build_string` on values that may contain themselves: objects live at addresses of a memory and refer to one another by address, as Python
objects do.  whatami looks at a container only to ask `build_string` for its items, one at a time (plugins.py:64-109, what.py:262-265), so what a
plugin sees is the cell with references where the items are.

Simplified: subclasses of the containers, partials, functions and arrays are not among the cells, nor are objects without `what()`, with slots or
with properties; frames are counted as in `Stack`, and depend on the cell.
-/
namespace Whatami

/-- What there is at an address.  The values that whatami has plugins for, with addresses for items: None, booleans, numbers and strings,
plugins.py:64-109 the containers, plugins.py:24-30 `What`, plugins.py:33-41 an instance of a class decorated with `@whatable`, with its `__dict__`
and its `str()`. -/
inductive MCell where
  | none
  | bool (b : Bool)
  | int (i : Int)
  | float (tok : Str)
  | str (s : Str)
  | tuple (xs : List Nat)
  | list (xs : List Nat)
  | set (xs : List Nat)
  | fset (xs : List Nat)
  | dict (kvs : List (Nat × Nat))
  | what (name : Str) (conf : List (Str × Nat)) (nonids : List Str) (out : Option Str)
  | obj (cls : Str) (attrs : List (Str × Nat)) (s : Str)

/-- The value with items `φ r` where there are references `r`.  plugins.py:24-109, what.py:109-125. -/
def MCell.fill (φ : Nat → Val) : MCell → Val
  | .none => .none
  | .bool b => .bool b
  | .int i => .int i
  | .float t => .float t
  | .str s => .str s
  | .tuple xs => .tuple (xs.map φ)
  | .list xs => .list (xs.map φ)
  | .set xs => .set (xs.map φ)
  | .fset xs => .fset (xs.map φ)
  | .dict kvs => .dict (kvs.map fun kv => (φ kv.1, φ kv.2))
  | .what n c nk o => .what n (c.map fun kv => (kv.1, φ kv.2)) nk o
  | .obj c a s => .obj c false [] (a.map fun kv => (kv.1, φ kv.2)) [] [] (some {}) s

/-- A reference, as an item that plugins hand to `build_string` and do not look into.  plugins.py:73-75,84,96,105, what.py:263. -/
def refV (r : Nat) : Val := .int r

/-- The address that was handed to `build_string`.  plugins.py:381-391. -/
def derefV : Val → Nat
  | .int i => i.toNat
  | _ => 0

/-- The value at an address, as far as a plugin looks at it.  plugins.py:24-109. -/
def MCell.shape (c : MCell) : Val := c.fill refV

/-- `build_string` of what is at an address, with `n` frames left above its own and at most `m` nested calls of it, for the default plugins.
plugins.py:297-320,381-393. -/
def memFuel (K : Frames) (mem : Nat → MCell) : Nat → Nat → Nat → R (Option Str)
  | 0, _, _ => .error .recursionError
  | m + 1, n, a => firstSome (fun p => p.runF K noCustom (fun j u => memFuel K mem m j (derefV u)) n (mem a).shape) defaultPlugins

/-- `build_string` of what is at an address, with `n` frames left above its own.  plugins.py:381-393.  (Every nested call takes a frame, so `n + 1`
of them do: `buildMem_eq`.) -/
def buildMem (K : Frames) (mem : Nat → MCell) (n a : Nat) : R (Option Str) := memFuel K mem (n + 1) n a

end Whatami
