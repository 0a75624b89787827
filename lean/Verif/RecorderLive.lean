import Verif.Recorder

/-
Model of `Recorder` (registry.py:502-692) when the id extractor and the postprocessors keep state and use the recorder they are given: they
read it, change its settings and call its `add`.

Simplified: one recorder; user code does not write to `_registry` or to the dicts in it (RecorderHeap has that), nor to `id_column_name` or
`id_extractor`; the iterables that `add` is given are collections; the recursion limit of Python is a bound on the nested calls of `add`
(Python counts all calls), and its RecursionError can be caught.
-/
namespace Whatami

/-- registry.py:502-515: the attributes of a recorder, with the postprocessors as code of the user's, by identity. -/
structure LiveRec extends RecView where
  posts : List Nat := []

/-- The arguments of `add` (registry.py:567-569). -/
structure AddReq where
  ids : Val
  unbox : Bool := true
  posts : Option (List Nat) := none
  override : Bool := false
  columns : Conf := []

/-- The calls that change the settings.  registry.py:524-548. -/
inductive Setting where
  | addDefaults (columns : Conf)
  | removeDefaults (columns : List Str)
  | addPosts (ps : List Nat)
  | overridePosts (ps : List Nat)

/-- What code of the user's does when it is called (registry.py:624, 656): it returns or raises (`done`), reads the recorder and its own
state, which is anything (`look`), writes its state (`put`), calls `add` and goes on with what that returns or raises (`add`), or changes the
settings of the recorder (`set`). -/
inductive RAct (σ α : Type) where
  | done (r : R α)
  | look (k : LiveRec → σ → RAct σ α)
  | put (s : σ) (k : RAct σ α)
  | add (a : AddReq) (k : R (List (Rid × Record)) → RAct σ α)
  | set (op : Setting) (k : RAct σ α)

/-- The code of the user's: `id_extractor(v)` (registry.py:624) and `function(an_id, record, self)` (registry.py:656). -/
structure UserCode (σ : Type) where
  extract : Val → RAct σ Rid
  post : Nat → Rid → Record → RAct σ Record

/-- The recorder and the state of the user's code.  registry.py:502-515. -/
structure Live (σ : Type) where
  recorder : LiveRec
  user : σ

/-- registry.py:524-548. -/
def LiveRec.change (r : LiveRec) : Setting → LiveRec
  | .addDefaults cs => { r with defaults := dupdate r.defaults cs }
  | .removeDefaults cs => { r with defaults := removeDefaults r.defaults cs }
  | .addPosts ps => { r with posts := r.posts ++ ps }
  | .overridePosts ps => { r with posts := ps }

/-- Running it, given what `add` does.  registry.py:624, 656. -/
def RAct.eval {σ α : Type} (add : AddReq → Live σ → Live σ × R (List (Rid × Record))) : RAct σ α → Live σ → Live σ × R α
  | .done r, w => (w, r)
  | .look k, w => (k w.recorder w.user).eval add w
  | .put s k, w => k.eval add ⟨w.recorder, s⟩
  | .add a k, w => (k (add a w).2).eval add (add a w).1
  | .set op k, w => k.eval add ⟨w.recorder.change op, w.user⟩

variable {σ : Type}

/-- registry.py:620-622: what the extractor is called with. -/
def idsOf (ids : Val) : R (List Val) :=
  match ids with
  | .str s => .ok [.str s]
  | v =>
    match iterV v with
    | none => .ok [v]
    | some r => r

/-- registry.py:623-624 `list(map(self.id_extractor, ids))`. -/
def extractLive (U : UserCode σ) (add : AddReq → Live σ → Live σ × R (List (Rid × Record))) : List Val → Live σ → Live σ × R (List Rid)
  | [], w => (w, .ok [])
  | v :: vs, w =>
    match (U.extract v).eval add w with
    | (w', .error e) => (w', .error e)
    | (w', .ok i) =>
      match extractLive U add vs w' with
      | (w'', .error e) => (w'', .error e)
      | (w'', .ok l) => (w'', .ok (i :: l))

/-- registry.py:655-656: the chain of postprocessors. -/
def runPostsLive (U : UserCode σ) (add : AddReq → Live σ → Live σ × R (List (Rid × Record))) (i : Rid) :
    List Nat → Record → Live σ → Live σ × R Record
  | [], record, w => (w, .ok record)
  | p :: ps, record, w =>
    match (U.post p i record).eval add w with
    | (w', .error e) => (w', .error e)
    | (w', .ok record') => runPostsLive U add i ps record' w'

/-- registry.py:648-653: which postprocessors run, given those the recorder has now. -/
def postsLive (own : List Nat) (a : AddReq) : List Nat :=
  match a.posts with
  | none => own
  | some ps => if a.override then ps else own ++ ps

/-- registry.py:629-658: the loop over the ids; `acc` is `records`.  The recorder is read anew for every id. -/
def addLoopLive (fi : Str → Option Int) (U : UserCode σ) (add : AddReq → Live σ → Live σ × R (List (Rid × Record)))
    (a : AddReq) (cd : List (Str × ColVals)) : List Rid → List (Rid × Record) → Live σ → Live σ × R (List (Rid × Record))
  | [], acc, w => (w, .ok acc)
  | i :: ids, acc, w =>
    if dhas w.recorder.registry i then (w, .error .exception)
    else if dhas acc i then (w, .error .exception)
    else if dhas (rawRecord fi i cd) w.recorder.idCol then (w, .error .exception)
    else
      match runPostsLive U add i (postsLive w.recorder.posts a)
          (addDefaults (dset (rawRecord fi i cd) w.recorder.idCol i.toVal) w.recorder.defaults) w with
      | (w', .error e) => (w', .error e)
      | (w', .ok record) => addLoopLive fi U add a cd ids (dset acc i record) w'

/-- registry.py:620-661 `add`, when at most `n` calls of it can be nested. -/
def addLive (fi : Str → Option Int) (U : UserCode σ) : Nat → AddReq → Live σ → Live σ × R (List (Rid × Record))
  | 0, _, w => (w, .error .recursionError)
  | n + 1, a, w =>
    match idsOf a.ids with
    | .error e => (w, .error e)
    | .ok vs =>
      match extractLive U (addLive fi U n) vs w with
      | (w, .error e) => (w, .error e)
      | (w, .ok ids) =>
        match configDict ids a.unbox a.columns with
        | .error e => (w, .error e)
        | .ok cd =>
          match addLoopLive fi U (addLive fi U n) a cd ids [] w with
          | (w, .error e) => (w, .error e)
          | (w, .ok records) =>
            (⟨{ w.recorder with registry := dupdate w.recorder.registry records }, w.user⟩, .ok records)

/-- What a client does.  registry.py:524-692. -/
inductive LiveOp (σ : Type) where
  | add (a : AddReq)
  | set (op : Setting)
  /-- something else happens to the state of the user's code -/
  | user (f : σ → σ)

/-- One call.  registry.py:524-692. -/
def liveStep (fi : Str → Option Int) (U : UserCode σ) (n : Nat) (w : Live σ) : LiveOp σ → Live σ
  | .add a => (addLive fi U n a w).1
  | .set op => ⟨w.recorder.change op, w.user⟩
  | .user f => ⟨w.recorder, f w.user⟩

/-- Calls one after the other, exceptions being caught.  A client of registry.py:502-692. -/
def liveRun (fi : Str → Option Int) (U : UserCode σ) (n : Nat) (w : Live σ) (ops : List (LiveOp σ)) : Live σ :=
  ops.foldl (liveStep fi U n) w

end Whatami
