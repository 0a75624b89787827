import Verif.Arrays

/-
Specification for C56 and C65: the elements of an array.  The code that is about is minijoblib/hashing.py:189-227.
-/
namespace Whatami

/-- How far an index is from the first element, in bytes. -/
def offsetOf : List Nat → List Int → Int
  | i :: idx, s :: strides => i * s + offsetOf idx strides
  | _, _ => 0

/-- The `j`-th byte of the element at an index. -/
def Arr.item (a : Arr) (idx : List Nat) (j : Nat) : UInt8 := a.memory (a.start + offsetOf idx a.strides + j)

/-- An index of an array of this shape. -/
inductive ValidIndex : List Nat → List Nat → Prop where
  | nil : ValidIndex [] []
  | cons {i d : Nat} {idx shape : List Nat} : i < d → ValidIndex idx shape → ValidIndex (i :: idx) (d :: shape)

/-- The two arrays have the same elements. -/
def SameItems (a b : Arr) : Prop := ∀ idx j, ValidIndex idx a.shape → j < a.dtype.itemsize → a.item idx j = b.item idx j

/-- There is a stride for every axis. -/
def Arr.Ok (a : Arr) : Prop := a.strides.length = a.shape.length

end Whatami
