import Verif.Recorder

/-
Model of `Recorder.add` (registry.py:567-661) step by step: what several threads that add to one recorder may do to it, and what is left of an `add` that
is interrupted.  A step is one look at the registry, by `add` or by a postprocessor, or the commit: in CPython these are atomic for ids that are strings or
integers (`OrderedDict.update` from an OrderedDict then runs no Python code), and any other thread may run between two of them; an exception such as
KeyboardInterrupt may come between two of them.

Simplified: the settings of the recorder (column defaults, postprocessors) do not change meanwhile; the id extractor does not use the recorder;
postprocessors read the registry as often as they like but do not write.
-/
namespace Whatami

/-- What a postprocessor does: it returns or raises, or looks at the registry and goes on.  registry.py:655-656. -/
inductive PostProg where
  | done (r : R Record)
  | look (k : List (Rid × Record) → PostProg)

/-- A postprocessor.  registry.py:655-656. -/
abbrev PostCode := Rid → Record → PostProg

/-- An `add` that is running: it has returned or raised, looks at the registry and goes on, or commits and returns.  registry.py:620-661. -/
inductive AddProg where
  | done (r : R (List (Rid × Record)))
  | look (k : List (Rid × Record) → AddProg)
  | commit (records : List (Rid × Record))

/-- A postprocessor and what `add` does then.  registry.py:655-658. -/
def PostProg.andThen : PostProg → (R Record → AddProg) → AddProg
  | .done r, f => f r
  | .look k, f => .look fun reg => (k reg).andThen f

/-- registry.py:655-656: the chain of postprocessors, and what `add` does then. -/
def postsProg (an_id : Rid) (f : R Record → AddProg) : List PostCode → Record → AddProg
  | [], record => f (.ok record)
  | p :: ps, record => (p an_id record).andThen fun r =>
    match r with
    | .error e => f (.error e)
    | .ok record' => postsProg an_id f ps record'

/-- The settings of a recorder.  registry.py:502-515. -/
structure RecSettings where
  idCol : Str := c!"id"
  defaults : Conf := []
  posts : List PostCode := []

/-- The arguments of `add`.  registry.py:567-569. -/
structure AddArgs where
  extract : Nat → Val → R Rid
  ids : Val
  unbox : Bool := true
  posts : Option (List PostCode) := none
  override : Bool := false
  columns : Conf := []

/-- registry.py:648-653: which postprocessors run. -/
def codePosts (own : List PostCode) (extra : Option (List PostCode)) (override : Bool) : List PostCode :=
  match extra with
  | none => own
  | some ps => if override then ps else own ++ ps

/-- registry.py:629-660: the loop over the ids and the commit; `acc` is `records`. -/
def loopProg (fi : Str → Option Int) (S : RecSettings) (cd : List (Str × ColVals)) (posts : List PostCode) : List Rid → List (Rid × Record) → AddProg
  | [], acc => .commit acc
  | i :: ids, acc => .look fun reg =>
    if dhas reg i then .done (.error .exception)
    else if dhas acc i then .done (.error .exception)
    else if dhas (rawRecord fi i cd) S.idCol then .done (.error .exception)
    else postsProg i (fun r =>
      match r with
      | .error e => .done (.error e)
      | .ok record => loopProg fi S cd posts ids (dset acc i record)) posts (addDefaults (dset (rawRecord fi i cd) S.idCol i.toVal) S.defaults)

/-- registry.py:620-661 `add`. -/
def addProg (fi : Str → Option Int) (S : RecSettings) (a : AddArgs) : AddProg :=
  match callIds a.extract a.ids with
  | .error e => .done (.error e)
  | .ok ids =>
    match configDict ids a.unbox a.columns with
    | .error e => .done (.error e)
    | .ok cd => loopProg fi S cd (codePosts S.posts a.posts a.override) ids []

/-- One step of an `add`.  registry.py:620-661. -/
def AddProg.step (reg : List (Rid × Record)) : AddProg → List (Rid × Record) × AddProg
  | .done r => (reg, .done r)
  | .look k => (reg, k reg)
  | .commit records => (dupdate reg records, .done (.ok records))

/-- Threads that add to one recorder.  Clients of registry.py:567-661. -/
structure AddState where
  registry : List (Rid × Record)
  threads : Nat → AddProg

/-- Threads that are about to make these calls.  Clients of registry.py:567-661. -/
def startAdds (fi : Str → Option Int) (S : RecSettings) (reg : List (Rid × Record)) (calls : List AddArgs) : AddState :=
  ⟨reg, fun t => match calls[t]? with | some a => addProg fi S a | none => .done (.error .exception)⟩

/-- The scheduler lets a thread do one step.  Clients of registry.py:567-661. -/
def AddState.tick (s : AddState) (t : Nat) : AddState :=
  let r := (s.threads t).step s.registry
  ⟨r.1, fun t' => if t' = t then r.2 else s.threads t'⟩

/-- A schedule: which thread does the next step, again and again.  Calls that are interrupted are not scheduled any more.  Clients of
registry.py:567-661. -/
def AddState.run (s : AddState) (sched : List Nat) : AddState := sched.foldl AddState.tick s

end Whatami
