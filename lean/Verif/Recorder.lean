import Verif.PyEq
import Verif.Plugins

/-
Model of `Recorder` (registry.py:107-692).
-/
namespace Whatami

/-- Record ids, as `id_extractor` returns them: strings or integers (other hashables are not modelled).
registry.py:620-661. -/
inductive Rid where
  | str (s : Str)
  | int (i : Int)
deriving DecidableEq, Repr

/-- The id as a value.  registry.py:620-661. -/
def Rid.toVal : Rid → Val
  | .str s => .str s
  | .int i => .int i

/-- A record: a dict from column names to values.  registry.py:620-661. -/
abbrev Record := Conf

/-- What a postprocessor can see of the recorder it is given.  registry.py:645-661. -/
structure RecView where
  registry : List (Rid × Record) := []
  idCol : Str := c!"id"
  defaults : Conf := []

/-- A record postprocessor `(id, record, recorder) -> record`; it may raise, and may read but not write the
recorder (simplification: nor does it keep state between calls; RecorderLive lifts this).  registry.py:536-548, 645-661. -/
abbrev Post := Rid → Record → RecView → R Record

/-- registry.py:502-515: the attributes of a recorder.  The list of postprocessors is held by value: that it is
shared with the caller's list is modelled in RecorderHeap. -/
structure Recorder extends RecView where
  posts : List Post := []

/-- `iter(v)`: none if it raises TypeError, else the elements, or the exception the first `next` raises.
A What has `__getitem__` and hence can be iterated, but `what[0]` raises KeyError.
Arrays and other objects count as not iterable here.  registry.py:551-565, misc.py:585-593. -/
def iterV : Val → Option (R (List Val))
  | .list xs | .tuple xs | .set xs | .fset xs | .sub _ _ _ xs => some (.ok xs)
  | .dict kvs | .odict _ _ kvs | .ddict _ _ kvs => some (.ok (kvs.map Prod.fst))
  | .str s => some (.ok (s.map fun c => .str [c]))
  | .what _ _ _ _ => some (.error .keyError)
  | _ => none

/-- The items of a dict (or instance of a subclass).  registry.py:551-565. -/
def dictItems : Val → Option (List (Val × Val))
  | .dict kvs | .odict _ _ kvs | .ddict _ _ kvs => some kvs
  | _ => none

/-- The objects `_params2dict` returns (registry.py:551-565): the caller's dict, a dict with the same value
for every id, or a `_DefaultDict`. -/
inductive ColVals where
  | given (kvs : List (Val × Val))
  | same (names : List Rid) (v : Val)
  | deflt (kvs : List (Rid × Val)) (default : Val)

/-- `dict(zip(ids, params))` and `**` (registry.py:564): keys must be strings, and must not be the names of the
parameters of `_DefaultDict.__init__`. -/
def kwArgs : List (Rid × Val) → R (List (Rid × Val))
  | [] => .ok []
  | (.str s, v) :: r =>
    if s = c!"default" ∨ s = c!"self" then .error .typeError
    else (kwArgs r).map fun l => (.str s, v) :: l
  | (.int _, _) :: _ => .error .typeError

/-- registry.py:551-565 `_params2dict` (the warning is off). -/
def params2dict (ids : List Rid) (params : Val) (unbox : Bool) : R ColVals :=
  match dictItems params with
  | some kvs => .ok (.given kvs)
  | none =>
    match params with
    | .str s => .ok (.same ids (.str s))
    | v =>
      match iterV v, unbox with
      | some (.error e), true => if ids = [] then .ok (.deflt [] .none) else .error e
      | some (.ok xs), true => (kwArgs (dictOf (ids.zip xs))).map fun kvs => .deflt kvs .none
      | _, _ => .ok (.deflt [] v)

/-- registry.py:626-627: the config dict of a call. -/
def configDict (ids : List Rid) (unbox : Bool) : Conf → R (List (Str × ColVals))
  | [] => .ok []
  | (c, v) :: r =>
    match params2dict ids v unbox with
    | .error e => .error e
    | .ok x => (configDict ids unbox r).map fun l => (c, x) :: l

/-- `values[an_id]` if `an_id in values` (registry.py:637-638, 107-122). -/
def ColVals.get (fi : Str → Option Int) : ColVals → Rid → Option Val
  | .given kvs, i => vget fi kvs i.toVal
  | .same names v, i => if i ∈ names then some v else none
  | .deflt kvs d, i => some ((dget kvs i).getD d)

/-- registry.py:637-638: the record before the id and the defaults are added. -/
def rawRecord (fi : Str → Option Int) (an_id : Rid) : List (Str × ColVals) → Record
  | [] => []
  | (c, x) :: r =>
    match x.get fi an_id with
    | some v => (c, v) :: rawRecord fi an_id r
    | none => rawRecord fi an_id r

/-- registry.py:643-646: defaults for the columns not given. -/
def addDefaults (record : Record) : Conf → Record
  | [] => record
  | (c, d) :: r => addDefaults (if dhas record c then record else dset record c d) r

/-- registry.py:655-656: the chain of postprocessors. -/
def runPosts (an_id : Rid) (view : RecView) : List Post → Record → R Record
  | [], record => .ok record
  | f :: fs, record =>
    match f an_id record view with
    | .error e => .error e
    | .ok record' => runPosts an_id view fs record'

/-- registry.py:648-653: which postprocessors run. -/
def choosePosts (own : List Post) (extra : Option (List Post)) (override : Bool) : List Post :=
  match extra with
  | none => own
  | some ps => if override then ps else own ++ ps

/-- registry.py:629-658: the loop over the ids; `acc` is `records`. -/
def addLoop (fi : Str → Option Int) (view : RecView) (cd : List (Str × ColVals)) (posts : List Post) :
    List Rid → List (Rid × Record) → R (List (Rid × Record))
  | [], acc => .ok acc
  | i :: ids, acc =>
    if dhas view.registry i then .error .exception
    else if dhas acc i then .error .exception
    else
      let raw := rawRecord fi i cd
      if dhas raw view.idCol then .error .exception
      else
        match runPosts i view posts (addDefaults (dset raw view.idCol i.toVal) view.defaults) with
        | .error e => .error e
        | .ok record => addLoop fi view cd posts ids (dset acc i record)

/-- `list(map(id_extractor, ids))`; `extract k` is the k-th call (extractors may keep state).
registry.py:620-661. -/
def extractIds (extract : Nat → Val → R Rid) : Nat → List Val → R (List Rid)
  | _, [] => .ok []
  | k, v :: vs =>
    match extract k v with
    | .error e => .error e
    | .ok i => (extractIds extract (k + 1) vs).map fun l => i :: l

/-- registry.py:620-624: the ids of a call; strings and non-iterables stand for one record. -/
def callIds (extract : Nat → Val → R Rid) (ids : Val) : R (List Rid) :=
  match ids with
  | .str s => extractIds extract 0 [.str s]
  | v =>
    match iterV v with
    | none => extractIds extract 0 [v]
    | some (.error e) => .error e
    | some (.ok vs) => extractIds extract 0 vs

/-- The arguments of `add` (registry.py:567-569), with the extractor's behaviour during the call. -/
structure AddCall where
  extract : Nat → Val → R Rid
  ids : Val
  unbox : Bool := true
  posts : Option (List Post) := none
  override : Bool := false
  columns : Conf := []

/-- registry.py:620-661 `add`: the new state and what it returns or raises. -/
def Recorder.add (fi : Str → Option Int) (r : Recorder) (a : AddCall) : Recorder × R (List (Rid × Record)) :=
  match callIds a.extract a.ids with
  | .error e => (r, .error e)
  | .ok ids =>
    match configDict ids a.unbox a.columns with
    | .error e => (r, .error e)
    | .ok cd =>
      match addLoop fi r.toRecView cd (choosePosts r.posts a.posts a.override) ids [] with
      | .error e => (r, .error e)
      | .ok records => ({ r with registry := dupdate r.registry records }, .ok records)

/-- registry.py:674-676 `get`. -/
def Recorder.get (r : Recorder) : List Rid → List Record
  | [] => []
  | i :: ids =>
    match dget r.registry i with
    | some rec => rec :: r.get ids
    | none => r.get ids

/-- registry.py:678-679 `len`. -/
def Recorder.len (r : Recorder) : Nat := r.registry.length

/-- Adding a value to a set.  registry.py:681-685 `unique`. -/
def setAdd (fi : Str → Option Int) (s : List Val) (v : Val) : List Val := if s.any (fun x => pyEq fi true x v) then s else s ++ [v]

/-- registry.py:681-683 `unique`: the values of a column, as a set; unhashable values raise TypeError. -/
def uniqueGo (fi : Str → Option Int) (column : Str) : List (Rid × Record) → List Val → R (List Val)
  | [], acc => .ok acc
  | (_, rec) :: r, acc =>
    match dget rec column with
    | none => uniqueGo fi column r acc
    | some v => if hashable v then uniqueGo fi column r (setAdd fi acc v) else .error .typeError

/-- registry.py:681-683 `unique`. -/
def Recorder.unique (fi : Str → Option Int) (r : Recorder) (column : Str) : R (List Val) := uniqueGo fi column r.registry []

/-- registry.py:528-532 `remove_column_defaults`. -/
def removeDefaults (d : Conf) : List Str → Conf
  | [] => d
  | c :: cs => removeDefaults (if dhas d c then ddel d c else d) cs

/-- The calls that change a recorder.  registry.py:520-690. -/
inductive RecOp where
  | add (a : AddCall)
  | addDefaults (columns : Conf)
  | removeDefaults (columns : List Str)
  | addPosts (ps : List Post)
  | overridePosts (ps : List Post)

/-- One call (registry.py:524-546, 567). -/
def recStep (fi : Str → Option Int) (r : Recorder) : RecOp → Recorder
  | .add a => (r.add fi a).1
  | .addDefaults cs => { r with defaults := dupdate r.defaults cs }
  | .removeDefaults cs => { r with defaults := removeDefaults r.defaults cs }
  | .addPosts ps => { r with posts := r.posts ++ ps }
  | .overridePosts ps => { r with posts := ps }

/-- A history of calls, failing ones included.  A client of registry.py:502-690. -/
def recRun (fi : Str → Option Int) (r : Recorder) (ops : List RecOp) : Recorder := ops.foldl (recStep fi) r

end Whatami
