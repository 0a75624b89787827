import Verif.Misc

/-
Model of the attribute sources of misc.py (`_dict`, `_slotsdict`, `_propsdict`, `_classdict`) on objects of
user-defined classes with inheritance, and of `config_dict_for_object` on them.

Simplified: the names every class has from `object` (all of them dunder names) are not listed, metaclass attributes
are not either; a data descriptor read through its class gives itself, as properties and slots do; reading a
property changes nothing.
-/
namespace Whatami

/-- An entry of the namespace of a class, for the object at hand (misc.py:401, 422, 458):
a slot with its current contents, another data descriptor (a property, mostly) with what its `__get__` gives or
raises for the object, a method-like entry as seen from the class and from the object, or any other value. -/
inductive Member where
  | slot (cur : Option Val)
  | prop (get : R Val)
  | meth (viaClass viaObj : Val)
  | plain (v : Val)

/-- An object: the namespaces of the classes in the method resolution order of its class, the class itself first,
and its `__dict__`, if it has one.  misc.py:354-458. -/
structure Inst where
  cls : Str
  mro : List (List (Str × Member))
  dict : Option Conf

/-- `inspect.isdatadescriptor` (misc.py:401, 422). -/
def Member.isData : Member → Bool
  | .slot _ | .prop _ => true
  | _ => false

/-- `inspect.ismemberdescriptor` (misc.py:403, 426). -/
def Member.isSlot : Member → Bool
  | .slot _ => true
  | _ => false

/-- `getattr(cls, name)`: the first class that has the name (misc.py:401, 422, 458, in `inspect.getmembers`). -/
def findMember (n : Str) : List (List (Str × Member)) → Option Member
  | [] => none
  | c :: cs => match dget c n with
    | some m => some m
    | none => findMember n cs

/-- `dir(cls)`, in `inspect.getmembers` (misc.py:401, 422, 458). -/
def dirNames (mro : List (List (Str × Member))) : List Str := sortBy strLe (mro.flatMap dkeys).eraseDups

/-- `inspect.getmembers(cls)` (misc.py:401, 422, 458). -/
def getMembers (mro : List (List (Str × Member))) : List (Str × Member) :=
  (dirNames mro).filterMap fun n => (findMember n mro).map fun m => (n, m)

/-- `value.__get__(obj)` (misc.py:402, 425): an empty slot raises AttributeError. -/
def Member.get : Member → R Val
  | .slot (some v) => .ok v
  | .slot none => .error .attributeError
  | .prop r => r
  | .meth _ o => .ok o
  | .plain v => .ok v

/-- A member read through the class (misc.py:458). -/
def Member.viaClass : Member → Val
  | .slot _ => .obj c!"member_descriptor" false [] [] [] [] none c!"<member>"
  | .prop _ => .property
  | .meth c _ => c
  | .plain v => v

/-- misc.py:354-380 `_dict`. -/
def dictSrc (ob : Inst) : Conf := ob.dict.getD []

/-- `{dname: value.__get__(obj) for dname, value in descriptors if ...}` (misc.py:402-403, 425-426). -/
def getAll (ms : List (Str × Member)) : R Conf :=
  mapR (fun p : Str × Member => p.2.get.map fun v => (p.1, v)) ms

/-- misc.py:383-403 `_slotsdict`. -/
def slotsSrc (ob : Inst) : R Conf :=
  getAll ((getMembers ob.mro).filter fun p => p.2.isData && (p.1 != c!"__weakref__" && p.2.isSlot))

/-- misc.py:406-426 `_propsdict`. -/
def propsSrc (ob : Inst) : R Conf :=
  getAll ((getMembers ob.mro).filter fun p => p.2.isData && (p.1 != c!"__weakref__" && !p.2.isSlot))

/-- misc.py:429-458 `_classdict`. -/
def classSrc (ob : Inst) : Conf := (getMembers ob.mro).map fun p => (p.1, p.2.viaClass)

/-- `if flag: cd.update(source())` (misc.py:555-562): a source that is not wanted is not read. -/
def updateIf (flag : Bool) (cd : Conf) (src : R Conf) : R Conf :=
  if flag then src.map fun d => dupdate cd d else .ok cd

/-- misc.py:488-563 `config_dict_for_object`. -/
def configDictInst (o : WhatOpts) (ob : Inst) : R Conf := do
  let cd ← updateIf o.addClass [] (.ok (classSrc ob))
  let cd ← updateIf o.addDict cd (.ok (dictSrc ob))
  let cd ← updateIf o.addSlots cd (slotsSrc ob)
  updateIf o.addProps cd (propsSrc ob)

/-- The object as a value of a configuration (not callable, `str()` given): its sources, read (misc.py:354-458). -/
def Inst.toVal (ob : Inst) (wh : Option WhatOpts) (s : Str) : R Val := do
  let sd ← slotsSrc ob
  let pd ← propsSrc ob
  .ok (.obj ob.cls false (classSrc ob) (dictSrc ob) sd pd wh s)

end Whatami
