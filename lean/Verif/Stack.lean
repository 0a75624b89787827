import Verif.Plugins

/-
Model of `build_string` when the stack is limited, counted in frames as CPython does (`sys.getrecursionlimit`).

Almost everywhere a RecursionError is just raised.  The exception is the call of `what()` in `is_whatable` (what.py:391-393), which is inside
`try: ... except Exception: return False`: a RecursionError raised there is taken for "not whatable", and the chain goes on.

Simplified: how many frames each piece of code opens is a parameter (`Frames`), fixed for a plugin and a value; a plugin calls back `build_string`
always from the same number of frames; plugins that fail for lack of frames do so before they call back; user plugins do not call back.
-/
namespace Whatami

/-- How many frames things need above the frame of `build_string`: `own p v` what `plugin(v)` opens outside the call of `what()` inside
`is_whatable`, and outside calling back; `ask p v` the frames between `build_string` and `build_string` when `p` calls back (`whatable_plugin`,
`what_plugin`, `What.id`, its generator: four); `probe v` what calling `what()` inside `is_whatable` takes, with `whatable_plugin` and
`is_whatable` themselves.  plugins.py:24-41,381-393, what.py:250-269,363-395. -/
structure Frames where
  own : Plugin → Val → Nat
  ask : Plugin → Val → Nat
  probe : Val → Nat

/-- `is_whatable` calls `what()` on the value: it has a bound method `what`.  what.py:383-391. -/
def probed : Val → Bool
  | .duck _ _ _ _ => true
  | .obj _ _ _ _ _ _ (some _) _ => true
  | _ => false

/-- `plugin(v)` with `n` frames left; `below j` is `build_string` with `j` frames left.  plugins.py:33-41, what.py:363-395: with too few frames
for `what()`, `is_whatable` returns False and `whatable_plugin` declines. -/
def Plugin.runF (K : Frames) (cu : Customs) (below : Nat → BS) (n : Nat) (p : Plugin) (v : Val) : R (Option Str) :=
  if n < K.own p v then .error .recursionError
  else if p = .whatable ∧ probed v = true ∧ n < K.probe v then .ok none
  else p.run cu (fun u => if n ≤ K.ask p v then .error .recursionError else below (n - K.ask p v - 1) u) v

/-- `build_string` with `n` frames left above its own, and at most `m` nested calls of it.  plugins.py:381-393. -/
def buildFuel (K : Frames) (cu : Customs) (ps : List Plugin) : Nat → Nat → BS
  | 0, _, _ => .error .recursionError
  | m + 1, n, v => firstSome (fun p => p.runF K cu (buildFuel K cu ps m) n v) ps

/-- `build_string` with `n` frames left above its own.  plugins.py:381-393.  (Every nested call takes a frame, so `n + 1` of them do:
`buildF_eq`.) -/
def buildF (K : Frames) (cu : Customs) (ps : List Plugin) (n : Nat) : BS := buildFuel K cu ps (n + 1) n

end Whatami
