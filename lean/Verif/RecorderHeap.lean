import Verif.Recorder

/-
Model of what recorders share with each other and with their callers (registry.py:502-692): the list of postprocessors given
to the constructor is kept, not copied, and `add_record_postprocessors` extends it in place; `add` and `get` hand out the record
dictionaries themselves.
Simplified: the dict a postprocessor returns is the one it was given or a new one, not one that something else refers to; the
values in records are not mutated.
-/
namespace Whatami

/-- `self._record_postprocessors`: a list object, or a tuple (after `override_record_postprocessors`).  registry.py:515, 538-546. -/
inductive PostsRef where
  | list (a : Nat)
  | tuple (ps : List Post)

/-- The attributes of a recorder; the records are the addresses of dicts.  registry.py:502-515. -/
structure RecObj where
  registry : List (Rid × Nat) := []
  idCol : Str := c!"id"
  defaults : Conf := []
  posts : PostsRef

/-- The lists of postprocessors, the record dicts and the recorders there are; addresses are positions.  registry.py:502-515. -/
structure RHeap where
  lists : List (List Post) := []
  dicts : List Record := []
  recs : List RecObj := []

/-- The postprocessors a recorder has at present.  registry.py:536-538. -/
def PostsRef.now (h : RHeap) : PostsRef → List Post
  | .list a => (h.lists[a]?).getD []
  | .tuple ps => ps

/-- The recorder, with what is in its records and its postprocessors at present.  registry.py:502-515. -/
def RecObj.now (h : RHeap) (o : RecObj) : Recorder :=
  { registry := o.registry.map fun e => (e.1, (h.dicts[e.2]?).getD []), idCol := o.idCol, defaults := o.defaults, posts := o.posts.now h }

/-- What a program may do with recorders.  registry.py:502-692. -/
inductive ROp where
  /-- a list display -/
  | list (ps : List Post)
  /-- any change in place of a list, by whoever holds it -/
  | setList (a : Nat) (ps : List Post)
  /-- `Recorder(id_column_name, record_postprocessors, **column_defaults)` -/
  | new (idCol : Str) (defaults : Conf) (posts : Option PostsRef)
  /-- a method call that may change the recorder -/
  | call (x : Nat) (op : RecOp)
  /-- `rec.record_postprocessors()` -/
  | posts (x : Nat)
  /-- any change in place of a record, by whoever got it from `add` or `get` -/
  | setRecord (d : Nat) (record : Record)

/-- registry.py:515: an empty list is not kept, `[]` is a new one. -/
def newPosts (h : RHeap) : Option PostsRef → RHeap × PostsRef
  | none => (⟨h.lists ++ [[]], h.dicts, h.recs⟩, .list h.lists.length)
  | some p => if (p.now h).isEmpty then (⟨h.lists ++ [[]], h.dicts, h.recs⟩, .list h.lists.length) else (h, p)

/-- The calls.  registry.py:524-546: defaults and postprocessors; registry.py:567-661: `add`, of which every record is a new dict. -/
def callOn (fi : Str → Option Int) (h : RHeap) (x : Nat) (o : RecObj) : RecOp → RHeap
  | .add a =>
    match ((o.now h).add fi a).2 with
    | .error _ => h
    | .ok records => ⟨h.lists, h.dicts ++ records.map Prod.snd,
        h.recs.set x { o with registry := o.registry ++ (records.map Prod.fst).zip (List.range' h.dicts.length records.length) }⟩
  | .addDefaults cs => ⟨h.lists, h.dicts, h.recs.set x { o with defaults := dupdate o.defaults cs }⟩
  | .removeDefaults cs => ⟨h.lists, h.dicts, h.recs.set x { o with defaults := removeDefaults o.defaults cs }⟩
  | .addPosts ps =>
    match o.posts with
    | .list a => ⟨h.lists.set a ((h.lists[a]?).getD [] ++ ps), h.dicts, h.recs⟩
    | .tuple qs => ⟨h.lists, h.dicts, h.recs.set x { o with posts := .tuple (qs ++ ps) }⟩
  | .overridePosts ps => ⟨h.lists, h.dicts, h.recs.set x { o with posts := .tuple ps }⟩

/-- One operation; `none` if it mentions something that does not exist (no program can).  registry.py:502-692. -/
def rStep (fi : Str → Option Int) (h : RHeap) : ROp → Option RHeap
  | .list ps => some ⟨h.lists ++ [ps], h.dicts, h.recs⟩
  | .setList a ps => if a < h.lists.length then some ⟨h.lists.set a ps, h.dicts, h.recs⟩ else none
  | .new idCol defaults posts =>
    match posts with
    | some (.list a) =>
      if a < h.lists.length then
        let n := newPosts h (some (.list a))
        some ⟨n.1.lists, n.1.dicts, n.1.recs ++ [{ idCol := idCol, defaults := defaults, posts := n.2 }]⟩
      else none
    | p =>
      let n := newPosts h p
      some ⟨n.1.lists, n.1.dicts, n.1.recs ++ [{ idCol := idCol, defaults := defaults, posts := n.2 }]⟩
  | .call x op =>
    match h.recs[x]? with
    | none => none
    | some o => some (callOn fi h x o op)
  | .posts x =>
    match h.recs[x]? with
    | none => none
    | some o =>
      match o.posts with
      | .list a => some ⟨h.lists ++ [(h.lists[a]?).getD []], h.dicts, h.recs⟩
      | .tuple _ => some h
  | .setRecord d record => if d < h.dicts.length then some ⟨h.lists, h.dicts.set d record, h.recs⟩ else none

/-- registry.py:674-676 `get`: the record dicts themselves. -/
def RecObj.get (o : RecObj) : List Rid → List Nat
  | [] => []
  | i :: ids =>
    match dget o.registry i with
    | some d => d :: o.get ids
    | none => o.get ids

end Whatami
