import Verif.Plugins

/-
Model of the aliasing behaviour of `What` objects (what.py:109-135, 238-243, 519; whatutils.py:384-416):
objects live on a heap, hold a reference to their configuration dictionary, and configurations may refer to
other What objects.
-/
namespace Whatami

/-- A parameter value: a plain value, a reference to a What object, or a tuple of such.
(Simplification: no operation of this model mutates a plain value.)  what.py:111-125. -/
inductive HVal where
  | val (v : Val)
  | ref (a : Nat)
  | tup (xs : List HVal)

/-- A configuration dictionary on the heap.  what.py:118. -/
abbrev HDict := List (Str × HVal)

/-- The slots of a What object (what.py:107): `conf` is the address of a dictionary.  `nonids` is a set the
constructor always builds anew (what.py:120-123), and strings are immutable: both are held by value. -/
structure WObj where
  name : Str
  conf : Nat
  nonids : List Str := []
  out : Option Str := none

/-- The dictionaries and the What objects; addresses are positions.
what.py:80-125: the attributes `name`, `conf`, `non_id_keys`, `out_name` of every object. -/
structure Heap where
  dicts : List HDict := []
  objs : List WObj := []

/-- what.py:109-125 `What(name, conf, non_id_keys, out_name)`: the dictionary is not copied. -/
def hNew (h : Heap) (name : Str) (d : Nat) (nonids : List Str) (out : Option Str) : Heap × Nat :=
  (⟨h.dicts, h.objs ++ [⟨name, d, nonids, out⟩]⟩, h.objs.length)

mutual
/-- A value of the duplicated part of the heap.  Part of `deepcopy`, what.py:127-135. -/
def HVal.shift (k : Nat) : HVal → HVal
  | .val v => .val v
  | .ref a => .ref (a + k)
  | .tup xs => .tup (shiftL k xs)
termination_by structural v => v
/-- `shift` on lists.  Part of `deepcopy`, what.py:127-135. -/
def shiftL (k : Nat) : List HVal → List HVal
  | [] => []
  | x :: xs => x.shift k :: shiftL k xs
termination_by structural xs => xs
end

/-- The effect of `deepcopy` (what.py:133): everything reachable is duplicated, sharing and cycles kept.
Simplification: the whole heap is duplicated; the extra objects are referenced by nobody. -/
def hDuplicate (h : Heap) : Heap :=
  ⟨h.dicts ++ h.dicts.map (fun d => d.map fun kv => (kv.1, kv.2.shift h.objs.length)),
   h.objs ++ h.objs.map fun o => { o with conf := o.conf + h.dicts.length }⟩

/-- what.py:127-135 `What.copy`; the result is the address of the new object. -/
def hCopy (h : Heap) (a : Nat) (deep : Bool) : Option (Heap × Nat) :=
  match h.objs[a]? with
  | none => none
  | some o =>
    if deep then some (hNew (hDuplicate h) o.name (o.conf + h.dicts.length) o.nonids o.out)
    else
      match h.dicts[o.conf]? with
      | none => none
      | some d => some (hNew ⟨h.dicts ++ [d], h.objs⟩ o.name h.dicts.length o.nonids o.out)

/-- `dict d`[k] = v`.  what.py:245. -/
def hWrite (h : Heap) (d : Nat) (k : Str) (v : HVal) : Option Heap :=
  match h.dicts[d]? with
  | none => none
  | some items => some ⟨h.dicts.set d (dset items k v), h.objs⟩

/-- what.py:242 `what.conf[key] = value`. -/
def hSetIn (h : Heap) (a : Nat) (k : Str) (v : HVal) : Option (Heap × Nat) :=
  match h.objs[a]? with
  | none => none
  | some o => (hWrite h o.conf k v).map fun h' => (h', a)

/-- what.py:238-243 `What.set`. -/
def hSet (h : Heap) (a : Nat) (k : Str) (v : HVal) (copy : Bool) : Option (Heap × Nat) :=
  if copy then (hCopy h a false).bind fun r => hSetIn r.1 r.2 k v
  else hSetIn h a k v

mutual
/-- Everything a value refers to exists.  No code of its own: no dangling references in Python. -/
def HVal.okIn (n : Nat) : HVal → Bool
  | .val _ => true
  | .ref a => a < n
  | .tup xs => okInL n xs
termination_by structural v => v
/-- `okIn` on lists.  As `okIn`. -/
def okInL (n : Nat) : List HVal → Bool
  | [] => true
  | x :: xs => x.okIn n && okInL n xs
termination_by structural xs => xs
end

/-- What a program may do with What objects and their dictionaries.
what.py:111-135 (constructor, copy), 241-246 (set), and plain assignments to `what.conf`. -/
inductive HOp where
  /-- a dict display -/
  | dict (items : HDict)
  /-- `What(name, conf=d, ...)` -/
  | new (name : Str) (d : Nat) (nonids : List Str) (out : Option Str)
  | copy (a : Nat) (deep : Bool)
  | set (a : Nat) (k : Str) (v : HVal) (copy : Bool)
  /-- `d[k] = v` by whoever holds the dictionary -/
  | write (d : Nat) (k : Str) (v : HVal)
  /-- assignment to the slots name, out_name, non_id_keys -/
  | attrs (a : Nat) (name : Str) (nonids : List Str) (out : Option Str)
  /-- `what.conf = d` -/
  | rebind (a : Nat) (d : Nat)

/-- One operation; `none` if it mentions something that does not exist (no program can).
what.py:111-135, 241-246. -/
def hStep (h : Heap) : HOp → Option Heap
  | .dict items => if items.all (fun kv => kv.2.okIn h.objs.length) then some ⟨h.dicts ++ [items], h.objs⟩ else none
  | .new name d nonids out => if d < h.dicts.length then some (hNew h name d nonids out).1 else none
  | .copy a deep => (hCopy h a deep).map Prod.fst
  | .set a k v copy => if v.okIn h.objs.length then (hSet h a k v copy).map Prod.fst else none
  | .write d k v => if v.okIn h.objs.length then hWrite h d k v else none
  | .attrs a name nonids out =>
    match h.objs[a]? with
    | none => none
    | some o => some ⟨h.dicts, h.objs.set a ⟨name, o.conf, nonids, out⟩⟩
  | .rebind a d =>
    match h.objs[a]? with
    | none => none
    | some o => if d < h.dicts.length then some ⟨h.dicts, h.objs.set a { o with conf := d }⟩ else none

/-! ### What a program sees -/

mutual
/-- The value seen through references; `o` resolves them.  What what.py:250-269 `id` sees. -/
def viewVal (o : Nat → Option Val) : HVal → Option Val
  | .val v => some v
  | .ref a => o a
  | .tup xs => (viewVals o xs).map .tuple
termination_by structural v => v
/-- `viewVal` on lists.  As `viewVal`. -/
def viewVals (o : Nat → Option Val) : List HVal → Option (List Val)
  | [] => some []
  | x :: xs =>
    match viewVal o x, viewVals o xs with
    | some v, some vs => some (v :: vs)
    | _, _ => none
termination_by structural xs => xs
end

/-- `viewVal` on the items of a dictionary.  As `viewVal`. -/
def viewItems (o : Nat → Option Val) : HDict → Option Conf
  | [] => some []
  | (k, x) :: r =>
    match viewVal o x, viewItems o r with
    | some v, some vs => some ((k, v) :: vs)
    | _, _ => none

/-- The configuration an object stands for, looking through at most `n` levels of nested Whats (a cyclic
configuration has none, whatever `n`; Python has its own recursion limit).  As `viewVal`. -/
def viewObj (h : Heap) : Nat → Nat → Option What
  | 0, _ => none
  | n + 1, a =>
    match h.objs[a]? with
    | none => none
    | some o =>
      match h.dicts[o.conf]? with
      | none => none
      | some d => (viewItems (fun b => (viewObj h n b).map What.toVal) d).map fun c => ⟨o.name, c, o.nonids, o.out⟩

/-- `what.id()` of the object at `a` (`none`: nested deeper than the recursion limit `n`).  what.py:250-269. -/
def hId (bs : BS) (h : Heap) (n a : Nat) : Option (R Str) := (viewObj h n a).map fun w => idStr bs w false

/-! ### whatutils.py:384-416 -/

/-- whatutils.py:416: the loop `[what.set(key, value).id() for value in values]`. -/
def whataddGo (bs : BS) (n : Nat) (c : Nat) (key : Str) : Heap → List HVal → Option (Heap × R (List Str))
  | h, [] => some (h, .ok [])
  | h, v :: vs =>
    match hSetIn h c key v with
    | none => none
    | some (h1, c1) =>
      match hId bs h1 n c1 with
      | none => none
      | some (.error e) => some (h1, .error e)
      | some (.ok s) => (whataddGo bs n c key h1 vs).map fun r => (r.1, r.2.map fun l => s :: l)

/-- whatutils.py:384-416 `whatadd`. -/
def whatadd (bs : BS) (n : Nat) (h : Heap) (a : Nat) (key : Str) (values : List HVal) : Option (Heap × R (List Str)) :=
  match hCopy h a false with
  | none => none
  | some (h1, c) =>
    match h1.objs[c]? with
    | none => none
    | some o =>
      match h1.dicts[o.conf]? with
      | none => none
      | some d => if dhas d key then some (h1, .error .valueError) else whataddGo bs n c key h1 values

/-! ### what.py:516-520 -/

/-- A decorated function: `whatablefunc.what` is `partial(What, name=name, conf=config_dict, non_id_keys=excludes)`
for one dictionary, built at decoration.  what.py:495-530. -/
structure WFun where
  name : Str
  conf : Nat
  excludes : List Str := [c!"what"]

/-- what.py:519: a call of `f.what()`. -/
def WFun.what (f : WFun) (h : Heap) : Heap × Nat := hNew h f.name f.conf f.excludes none

end Whatami
