import Verif.Basic

/-
Model of minijoblib/hashing.py on numpy arrays (`NumpyHasher.save`) and of `numpy_plugin` (plugins.py:218-222): what is fed to
the hash function.

Simplified: arrays without Python objects in them; memory maps are not coerced (`coerce_mmap=False`, as in plugins.py:199).
-/
namespace Whatami

/-- Bytes.  minijoblib/hashing.py:210. -/
abbrev Bytes := List UInt8

/-- The type of the elements: `dtype.descr`, as a text, and the size of an element in bytes (which is part of that text).
minijoblib/hashing.py:228-241. -/
structure Dtype where
  descr : Str
  itemsize : Nat
deriving DecidableEq, Repr

/-- A numpy array: its class, the type of its elements, its shape and strides, the address of its first element and the
memory it is a view of; `state` is what instances of subclasses have on top of that (the mask of a masked array, say).  minijoblib/hashing.py:189-227. -/
structure Arr where
  cls : Str
  dtype : Dtype
  shape : List Nat
  strides : List Int
  start : Int
  memory : Int → UInt8
  state : List (Str × Str) := []

/-- A stretch of memory.  minijoblib/hashing.py:210. -/
def bytesAt (mem : Int → UInt8) (at_ : Int) : Nat → Bytes
  | 0 => []
  | n + 1 => mem at_ :: bytesAt mem (at_ + 1) n

/-- numpy's flag `c_contiguous` (minijoblib/hashing.py:196), from the last axis to the first: the strides of axes of length 1 do
not matter.  Returns the number of bytes below, or none. -/
def contiguousBytes (itemsize : Nat) : List Nat → List Int → Option Nat
  | [], _ => some itemsize
  | d :: shape, s :: strides =>
    match contiguousBytes itemsize shape strides with
    | none => none
    | some b => if d = 1 ∨ s = b then some (d * b) else none
  | _ :: _, [] => none

/-- `flags.c_contiguous` (minijoblib/hashing.py:196): an array without elements always is. -/
def cContiguous (itemsize : Nat) (shape : List Nat) (strides : List Int) : Bool :=
  shape.contains 0 || (contiguousBytes itemsize shape strides).isSome

/-- `flags.f_contiguous` (minijoblib/hashing.py:198). -/
def fContiguous (itemsize : Nat) (shape : List Nat) (strides : List Int) : Bool :=
  cContiguous itemsize shape.reverse strides.reverse

/-- `obj.flatten()` (minijoblib/hashing.py:195, 204): a copy in C order, from address `at_` on. -/
def flattenBytes (mem : Int → UInt8) (itemsize : Nat) : List Nat → List Int → Int → Bytes
  | [], _, at_ => bytesAt mem at_ itemsize
  | d :: shape, strides, at_ => (List.range d).flatMap fun (i : Nat) => flattenBytes mem itemsize shape strides.tail (at_ + i * strides.headD 0)

/-- The number of elements.  minijoblib/hashing.py:210. -/
def Arr.size (a : Arr) : Nat := a.shape.foldr (· * ·) 1

/-- The buffer the hash function is updated with (minijoblib/hashing.py:190-211): the memory itself if it is contiguous one way or
the other, else a copy. -/
def Arr.data (a : Arr) : Bytes :=
  if a.shape = [] then flattenBytes a.memory a.dtype.itemsize a.shape a.strides a.start
  else if cContiguous a.dtype.itemsize a.shape a.strides then bytesAt a.memory a.start (a.size * a.dtype.itemsize)
  else if fContiguous a.dtype.itemsize a.shape a.strides then bytesAt a.memory a.start (a.size * a.dtype.itemsize)
  else flattenBytes a.memory a.dtype.itemsize a.shape a.strides a.start

/-- What is pickled in place of the array (minijoblib/hashing.py:227): `(klass, ('HASHED', dtype, shape, strides))`. -/
abbrev Header := Str × Dtype × List Nat × List Int

/-- All the bytes that go to the hash function (minijoblib/hashing.py:210-227, 66-75); `pickle` is the pickled tuple. -/
def Arr.hashInput (pickle : Header → Bytes) (a : Arr) : Bytes := a.data ++ pickle (a.cls, a.dtype, a.shape, a.strides)

/-- plugins.py:218-222 `numpy_plugin`; `md5` gives the hexadecimal digest. -/
def arrayText (md5 : Bytes → Str) (pickle : Header → Bytes) (a : Arr) : Str :=
  a.cls ++ c!"(hash='" ++ md5 (a.hashInput pickle) ++ c!"')"

end Whatami
