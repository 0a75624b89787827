import Verif.Callbacks
import Verif.PlugThreads

/-
Model of `build_string` and `What.id` step by step, while other threads insert, drop and reset plugins.  A step is one read of `cls.PLUGINS`: every call of
`build_string` reads it once, when it begins (plugins.py:390), and goes on with the tuple it got, which nobody changes.  All else that plugins do is part of the
step before: user plugins and the objects that are described do not depend on other threads.
-/
namespace Whatami

/-- What a function does that calls `build_string`: it returns or raises, or calls `build_string` on a value and goes on with what that does.
plugins.py:391, what.py:263. -/
inductive Queries (α : Type) where
  | done (r : R α)
  | ask (v : Val) (k : R (Option Str) → Queries α)

/-- One after the other; an exception ends it.  plugins.py:391, what.py:263. -/
def Queries.bind {α β : Type} : Queries α → (α → Queries β) → Queries β
  | .done (.ok a), f => f a
  | .done (.error e), _ => .done (.error e)
  | .ask v k, f => .ask v fun r => (k r).bind f

/-- `build_string(v)`.  plugins.py:73,85,97,106, what.py:263. -/
def askC (v : Val) : Queries (Option Str) := .ask v .done

/-- A value, without any call.  plugins.py:391. -/
def retC {α : Type} (a : α) : Queries α := .done (.ok a)

/-- A loop.  plugins.py:75,85,97,106, what.py:264. -/
def mapCalls {α β : Type} (f : α → Queries β) : List α → Queries (List β)
  | [] => retC []
  | x :: xs => (f x).bind fun y => (mapCalls f xs).bind fun ys => retC (y :: ys)

/-- what.py:263. -/
def kvCalls (kv : Str × Val) : Queries Str := (askC kv.2).bind fun s => retC (kv.1 ++ c!"=" ++ showOpt s)

/-- what.py:250-268 `What.id` before trimming. -/
def idCalls (w : What) (nonidsToo : Bool) : Queries Str :=
  (mapCalls kvCalls (idItems w nonidsToo)).bind fun parts => retC (wrapId w.name w.out (pyJoin c!"," parts))

/-- The id as the answer of a plugin.  plugins.py:24-41. -/
def idText (w : What) : Queries (Option Str) := (idCalls w false).bind fun s => retC (some s)

/-- plugins.py:85,97,106. -/
def stringsCalls (xs : List Val) : Queries (List Str) := (mapCalls askC xs).bind fun l => .done (unNone l)

/-- plugins.py:82-109: the texts of the elements, put together by `g`. -/
def seqCalls (xs : List Val) (g : List Str → Str) : Queries (Option Str) := (stringsCalls xs).bind fun l => retC (some (g l))

/-- plugins.py:73-75. -/
def dkvCalls (kv : Val × Val) : Queries Str := (askC kv.1).bind fun k => (askC kv.2).bind fun v => retC (showOpt k ++ c!":" ++ showOpt v)

/-- plugins.py:73-76. -/
def dictCalls (kvs : List (Val × Val)) : Queries Str := (mapCalls dkvCalls kvs).bind fun l => retC (bracket c!"{" c!"}" (sortBy strLe l))

/-- A user plugin.  plugins.py:350-379 `insert`. -/
def actCalls : Act → Queries (Option Str)
  | .done r => .done r
  | .ask v k => .ask v fun r => actCalls (k r)

/-- `plugin(v)`.  plugins.py:24-236, 391. -/
def Plugin.calls (cu : Callers) : Plugin → Val → Queries (Option Str)
  -- plugins.py:24-30
  | .what, v =>
    match v with
    | .what n c nk o => idText { name := n, conf := c, nonids := nk, out := o }
    | _ => retC none
  -- plugins.py:33-41
  | .whatable, v =>
    if isWhatable v then
      match whatMethod v with
      | some (.ok w) => idText w
      | some (.error e) => .done (.error e)
      | none => retC none
    else retC none
  -- plugins.py:103-109
  | .tuple, v =>
    match v with
    | .tuple xs => seqCalls xs (bracket c!"(" c!")")
    | .sub .tuple c _ xs => seqCalls xs fun l => seqId c (bracket c!"(" c!")" l)
    | _ => retC none
  -- plugins.py:94-100
  | .list, v =>
    match v with
    | .list xs => seqCalls xs (bracket c!"[" c!"]")
    | .sub .list c _ xs => seqCalls xs fun l => seqId c (bracket c!"[" c!"]" l)
    | _ => retC none
  -- plugins.py:64-79
  | .dict, v =>
    match v with
    | .odict _ _ kvs =>
      match whatareyou {} v with
      | .error e => .done (.error e)
      | .ok w => idText { w with conf := dset w.conf c!"seq" (itemsList kvs) }
    | .dict kvs => (dictCalls kvs).bind fun s => retC (some s)
    | .ddict _ _ kvs => (dictCalls kvs).bind fun _ =>
      match whatareyou {} v with
      | .error e => .done (.error e)
      | .ok w => idText w
    | _ => retC none
  -- plugins.py:82-91
  | .set, v =>
    match v with
    | .set xs => seqCalls xs fun l => setStr (sortBy strLe l)
    | .fset xs => seqCalls xs fun l => fsetStr (sortBy strLe l)
    | .sub .set c _ xs => seqCalls xs fun l => seqId c (setStr (sortBy strLe l))
    | .sub .fset c _ xs => seqCalls xs fun l => seqId c (setStr (sortBy strLe l))
    | _ => retC none
  -- plugins.py:143-152
  | .part, v =>
    match v with
    | .part p f args kws =>
      match callable2call (curry2partial (.part p f args kws)) [] [] with
      | .error e => .done (.error e)
      | .ok (n, kw) => idText { name := n, conf := kw }
    | _ => retC none
  -- plugins.py:155-167
  | .function, v =>
    match v with
    | .func n args defaults => idText { name := if n = c!"<lambda>" then c!"lambda" else n, conf := dictOf ((pyLast defaults.length args).zip defaults) }
    | _ => retC none
  -- plugins.py:225-229
  | .rng, v =>
    match v with
    | .rng c state =>
      match whatareyou {} state with
      | .error e => .done (.error e)
      | .ok w => (idCalls w false).bind fun s => retC (some (c ++ c!"(state=" ++ s ++ c!")"))
    | _ => retC none
  -- plugins.py:172-189
  | .any0x, v => if isInfix c!" at 0x" (pyStr v) then idText { name := className v, conf := [] } else retC none
  | .builtin, v => .done (builtinPlugin v)
  | .numericType, v => .done (numericTypePlugin v)
  | .property, v => .done (propertyPlugin v)
  | .string, v => .done (stringPlugin v)
  | .pandas, v => .done (arrayPlugin v)
  | .numpy, v => .done (arrayPlugin v)
  | .any, v => .done (anyPlugin v)
  | .custom k, v => actCalls (cu k v)

/-- A thread that describes something: it is done, or reads `cls.PLUGINS` and goes on.  plugins.py:390. -/
inductive DProg (α : Type) where
  | done (r : R α)
  | load (k : List Plugin → DProg α)

/-- `a` if the interpreter's stack is full, `b` otherwise.  plugins.py:391. -/
def ifDeep {β : Type} (r : R (Option Str)) (a b : DProg β) : DProg β :=
  match r with
  | .error .recursionError => a
  | _ => b

/-- Running what calls `build_string`, which is `bp`, and then `k`.  plugins.py:391. -/
def Queries.prog {α β : Type} (bp : Val → (R (Option Str) → DProg β) → DProg β) : Queries α → (R α → DProg β) → DProg β
  | .done r, k => k r
  | .ask v c, k => bp v fun r => ifDeep r (k (.error .recursionError)) ((c r).prog bp k)

/-- plugins.py:390-393: the loop of `build_string`, and then `k`. -/
def chainProg {β : Type} (f : Plugin → (R (Option Str) → DProg β) → DProg β) : List Plugin → (R (Option Str) → DProg β) → DProg β
  | [], k => k (.ok none)
  | p :: ps, k => f p fun r =>
    match r with
    | .error e => k (.error e)
    | .ok (some s) => k (.ok (some s))
    | .ok none => chainProg f ps k

/-- plugins.py:381-393 `build_string` when at most `n` calls of it can be nested, and then `k`. -/
def buildProg {β : Type} (cu : Callers) : Nat → Val → (R (Option Str) → DProg β) → DProg β
  | 0, _, k => k (.error .recursionError)
  | n + 1, v, k => .load fun ps => chainProg (fun p k => (p.calls cu v).prog (buildProg cu n) k) ps k

/-- what.py:250-268 `What.id` before trimming, when at most `n` calls of `build_string` can be nested. -/
def idProg (cu : Callers) (n : Nat) (w : What) (nonidsToo : Bool) : DProg Str := (idCalls w nonidsToo).prog (buildProg cu n) .done

/-- A thread that describes something, and threads that use the plugin manager.  Clients of plugins.py:324-393. -/
structure DescState (α : Type) where
  plug : PlugState
  prog : DProg α

/-- The scheduler lets a thread do one step: one of the others, or the one that describes.  Clients of plugins.py:324-393. -/
def DescState.tick {α : Type} (s : DescState α) : Option Nat → DescState α
  | some t => { s with plug := s.plug.tick t }
  | none =>
    match s.prog with
    | .done r => { s with prog := .done r }
    | .load k => { s with prog := k s.plug.plugins }

/-- A schedule.  Clients of plugins.py:324-393. -/
def DescState.run {α : Type} (s : DescState α) (sched : List (Option Nat)) : DescState α := sched.foldl DescState.tick s

end Whatami
