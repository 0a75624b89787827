import Verif.Cyclic
import Verif.Spec.Same

/-
Specification: what of a value is in its id, and when that goes on for ever.
Definitions here are vocabulary for statements: the code they are about is cited in the model modules.
-/
namespace Whatami

/-- The value refers, in what its id shows, to the one at `r`: an item of a container, a parameter of a configuration that makes it to the id, a
public attribute of a whatable object. -/
inductive Shows : MCell → Nat → Prop
  | tuple {xs : List Nat} {r : Nat} : r ∈ xs → Shows (.tuple xs) r
  | list {xs : List Nat} {r : Nat} : r ∈ xs → Shows (.list xs) r
  | set {xs : List Nat} {r : Nat} : r ∈ xs → Shows (.set xs) r
  | fset {xs : List Nat} {r : Nat} : r ∈ xs → Shows (.fset xs) r
  | key {kvs : List (Nat × Nat)} {r v : Nat} : (r, v) ∈ kvs → Shows (.dict kvs) r
  | value {kvs : List (Nat × Nat)} {k r : Nat} : (k, r) ∈ kvs → Shows (.dict kvs) r
  | param {n : Str} {conf : List (Str × Nat)} {nk : List Str} {o : Option Str} {k : Str} {r : Nat} :
      (k, r) ∈ conf → k ∉ nk → Shows (.what n conf nk o) r
  | attr {c : Str} {attrs : List (Str × Nat)} {s : Str} {k : Str} {r : Nat} :
      (k, r) ∈ dictOf attrs → Public {} k → Shows (.obj c attrs s) r

/-- From the value at `a` one gets to the one at `b` through what ids show. -/
inductive Leads (mem : Nat → MCell) (a : Nat) : Nat → Prop
  | refl : Leads mem a a
  | step {b c : Nat} : Leads mem a b → Shows (mem b) c → Leads mem a c

/-- There is no end to what the value at `a` shows: a path that goes on for ever. -/
def Endless (mem : Nat → MCell) (a : Nat) : Prop := ∃ path : Nat → Nat, path 0 = a ∧ ∀ i, Shows (mem (path i)) (path (i + 1))

/-- The value at `a` is the tree `v`: whatever it shows is a tree; of what it does not show anything goes. -/
inductive Unfolds (mem : Nat → MCell) : Nat → Val → Prop
  | mk (a : Nat) (φ : Nat → Val) : (∀ r, Shows (mem a) r → Unfolds mem r (φ r)) → Unfolds mem a ((mem a).fill φ)

/-- A whatable object. -/
def MCell.Whatable (c : MCell) : Prop := ∃ n a s, c = .obj n a s

/-- Nothing shown from `a` on is a whatable object. -/
def NoObjects (mem : Nat → MCell) (a : Nat) : Prop := ∀ b, Leads mem a b → ¬ (mem b).Whatable

end Whatami
