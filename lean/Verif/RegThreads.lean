import Verif.Registry

/-
Model of `WhatamiRegistry` (registry.py:20-102) step by step: what several threads that use one registry may do to it, and what is left of a call that is
interrupted.  A step is one access to an attribute of the registry or to one of its dictionaries: in CPython these are atomic for keys that are strings,
and any other thread may run between two of them; an exception such as KeyboardInterrupt may come between two of them.  Lines that only use local
variables are part of the step before.  The ids are those that `what2id` gave (registry.py:37, 64), which does not use the registry.
-/
namespace Whatami

/-- The two attributes, registry.py:26-27. -/
inductive Table where
  | ids
  | nicks
deriving DecidableEq, Repr

/-- A registry in memory, registry.py:23-27: the dictionaries that were made so far, and which of them the attributes hold. -/
structure RegHeap where
  dicts : Table → Nat → List (Str × Str)
  cur : Table → Nat
  used : Table → Nat

/-- A call that is running, registry.py:29-102: the step it does next and how it goes on. -/
inductive RegProg where
  /-- returned, or raised -/
  | done (r : R Unit)
  /-- reads `self._id2nick` or `self._nick2id` -/
  | load (t : Table) (k : Nat → RegProg)
  /-- `d[key]`, `key in d`, `d.get(key)` -/
  | look (t : Table) (d : Nat) (key : Str) (k : Option Str → RegProg)
  /-- `d[key] = val` -/
  | put (t : Table) (d : Nat) (key val : Str) (k : RegProg)
  /-- `del d[key]` -/
  | del (t : Table) (d : Nat) (key : Str) (k : Bool → RegProg)
  /-- `self._id2nick = {}`, `self._nick2id = {}` -/
  | fresh (t : Table) (k : RegProg)

/-- registry.py:42-44, 45-47: `if key in d and not d[key] == val: raise Exception(... % d[key])`. -/
def checkFree (t : Table) (d : Nat) (key val : Str) (k : RegProg) : RegProg :=
  .look t d key fun r =>
    match r with
    | none => k
    | some _ => .look t d key fun r =>
      match r with
      | none => .done (.error .keyError)
      | some v =>
        if v = val then k
        else .look t d key fun r =>
          match r with
          | none => .done (.error .keyError)
          | some _ => .done (.error .exception)

/-- registry.py:39-54: `register`, from where the id is known. -/
def registerProg (i n : Str) : RegProg :=
  .load .ids fun a => .load .nicks fun b =>
    checkFree .nicks b n i (checkFree .ids a i n (.put .ids a i n (.put .nicks b n i (.done (.ok ())))))

/-- `del self.table[key]`, where `key` may be None (never a key).  registry.py:77-78. -/
def delProg (t : Table) (key : Option Str) (k : RegProg) : RegProg :=
  .load t fun d =>
    match key with
    | none => .done (.error .keyError)
    | some key => .del t d key fun found => if found then k else .done (.error .keyError)

/-- registry.py:77-78: the two deletions, in order. -/
def removeProg (nick id : Option Str) : RegProg := delProg .nicks nick (delProg .ids id (.done (.ok ())))

/-- A call that may change the registry, from where the id is known: `register`, `remove` with a nickname, with a what, with both, and `reset`.
registry.py:39-54, 60-78, 99-102. -/
inductive RegCall where
  | register (i n : Str)
  | removeNick (n : Str)
  | removeId (i : Str)
  | removeBoth (n i : Str)
  | reset
deriving DecidableEq, Repr

/-- The steps of a call.  registry.py:39-54 `register`, 65-78 `remove` (the lookups of 68, 70, 72-73 are those of 80-92), 99-102 `reset`. -/
def RegCall.prog : RegCall → RegProg
  | .register i n => registerProg i n
  | .removeNick n => .load .nicks fun d => .look .nicks d n fun i => removeProg (some n) i
  | .removeId i => .load .ids fun d => .look .ids d i fun n => removeProg n (some i)
  | .removeBoth n i =>
    .load .nicks fun d => .look .nicks d n fun i' =>
      .load .ids fun d => .look .ids d n fun n' =>  -- registry.py:73 looks the *nickname* up
        if i' ≠ some i ∨ n' ≠ some n then .done (.error .valueError) else removeProg (some n) (some i)
  | .reset => .fresh .ids (.fresh .nicks (.done (.ok ())))

/-- `d` in the place of a dictionary.  registry.py:50-51, 77-78, 101-102. -/
def RegHeap.set (h : RegHeap) (t : Table) (n : Nat) (d : List (Str × Str)) : RegHeap :=
  { h with dicts := fun t' n' => if t' = t ∧ n' = n then d else h.dicts t' n' }

/-- A new empty dictionary for an attribute.  registry.py:101-102. -/
def RegHeap.renew (h : RegHeap) (t : Table) : RegHeap :=
  ⟨(h.set t (h.used t) []).dicts, fun t' => if t' = t then h.used t else h.cur t', fun t' => if t' = t then h.used t + 1 else h.used t'⟩

/-- One step of a call.  registry.py:39-102. -/
def RegProg.step (h : RegHeap) : RegProg → RegHeap × RegProg
  | .done r => (h, .done r)
  | .load t k => (h, k (h.cur t))
  | .look t d key k => (h, k (dget (h.dicts t d) key))
  | .put t d key val k => (h.set t d (dset (h.dicts t d) key val), k)
  | .del t d key k => if dhas (h.dicts t d) key then (h.set t d (ddel (h.dicts t d) key), k true) else (h, k false)
  | .fresh t k => (h.renew t, k)

/-- A call that runs alone to its end.  registry.py:39-102. -/
def RegProg.alone : RegProg → RegHeap → RegHeap × R Unit
  | .done r, h => (h, r)
  | .load t k, h => (k (h.cur t)).alone h
  | .look t d key k, h => (k (dget (h.dicts t d) key)).alone h
  | .put t d key val k, h => k.alone (h.set t d (dset (h.dicts t d) key val))
  | .del t d key k, h => if dhas (h.dicts t d) key then (k true).alone (h.set t d (ddel (h.dicts t d) key)) else (k false).alone h
  | .fresh t k, h => k.alone (h.renew t)

/-- Threads that run calls on one registry.  Clients of registry.py:20-102. -/
structure RegState where
  heap : RegHeap
  threads : Nat → RegProg

/-- Threads that are about to make these calls on a registry.  Clients of registry.py:20-102. -/
def startCalls (h : RegHeap) (calls : List RegCall) : RegState :=
  ⟨h, fun t => match calls[t]? with | some c => c.prog | none => .done (.ok ())⟩

/-- The scheduler lets a thread do one step.  Clients of registry.py:20-102. -/
def RegState.tick (s : RegState) (t : Nat) : RegState :=
  let r := (s.threads t).step s.heap
  ⟨r.1, fun t' => if t' = t then r.2 else s.threads t'⟩

/-- A schedule: which thread does the next step, again and again.  Calls that are interrupted are not scheduled any more.  Clients of
registry.py:20-102. -/
def RegState.run (s : RegState) (sched : List Nat) : RegState := sched.foldl RegState.tick s

/-- A registry in memory that nobody uses, registry.py:23-27. -/
def Registry.heap (r : Registry) : RegHeap :=
  ⟨fun t n => if n = 0 then (match t with | .ids => r.id2nick | .nicks => r.nick2id) else [], fun _ => 0, fun _ => 1⟩

/-- What the attributes hold, registry.py:26-27. -/
def RegHeap.view (h : RegHeap) : Registry := ⟨h.dicts .ids (h.cur .ids), h.dicts .nicks (h.cur .nicks)⟩

end Whatami
