import Verif.Val

/-
Specification for C27: what calling a partial application binds the parameters of the function to.
Nothing here refers to `callable2call`.
-/
namespace Whatami

/-- The positional argument that goes to parameter `k` of a function with these parameters. -/
def PosFor (args : List Str) (pos : List Val) (k : Str) (v : Val) : Prop := ∃ i : Nat, args[i]? = some k ∧ pos[i]? = some v

/-- The default of parameter `k`: defaults belong to the last parameters. -/
def DefaultFor (args : List Str) (defaults : List Val) (k : Str) (v : Val) : Prop :=
  ∃ i : Nat, args[args.length - defaults.length + i]? = some k ∧ defaults[i]? = some v

/-- Python's binding of `f(*pos, **kw)`: the positional argument, else the keyword argument, else the default. -/
def Bound (args : List Str) (defaults pos : List Val) (kw : Str → Option Val) (k : Str) (v : Val) : Prop :=
  PosFor args pos k v ∨ (¬ ∃ u, PosFor args pos k u) ∧ (kw k = some v ∨ kw k = none ∧ DefaultFor args defaults k v)

/-- The arguments given so far are no TypeError: not too many, keywords are parameters, none is given twice. -/
def Fits (args : List Str) (pos : List Val) (kw : Str → Option Val) : Prop :=
  pos.length ≤ args.length ∧ ∀ k v, kw k = some v → k ∈ args ∧ ¬ ∃ u, PosFor args pos k u

/-- A function signature: different parameters, not more defaults than parameters. -/
def Signature (args : List Str) (defaults : List Val) : Prop := args.Nodup ∧ defaults.length ≤ args.length

/-- `functools.partial(f, *args, **kws)`, as CPython builds it: a partial of a plain partial is flattened. -/
def partialOf (f : Val) (args : List Val) (kws : Conf) : Val :=
  match f with
  | .part true g a k => .part true g (a ++ args) (dupdate k kws)
  | _ => .part true f args kws

/-- Partial applications one after the other, the innermost first. -/
def applyAll (f : Val) : List (List Val × Conf) → Val
  | [] => f
  | (args, kws) :: outer => applyAll (partialOf f args kws) outer

/-- The positional arguments of all of them: the innermost come first. -/
def allPos (apps : List (List Val × Conf)) : List Val := (apps.map Prod.fst).flatten

/-- The keyword arguments of all of them: the outermost wins. -/
def allKw : List (List Val × Conf) → Str → Option Val
  | [], _ => none
  | (_, kws) :: outer, k => (allKw outer k).or (dget kws k)

/-- The function that a partial-like object (plain partial or toolz curry) finally calls, and with which arguments:
`partial.__call__` passes its own positional arguments first and lets the keywords of the call win. -/
inductive Calls : Val → List Val → (Str → Option Val) → Val → List Val → (Str → Option Val) → Prop
  | func (n : Str) (args : List Str) (ds pos : List Val) (kw : Str → Option Val) : Calls (.func n args ds) pos kw (.func n args ds) pos kw
  | part {f g : Val} {pos pos' : List Val} {kw kw' : Str → Option Val} (p : Bool) (args : List Val) (kws : Conf) :
      Calls f (args ++ pos) (fun k => (kw k).or (dget kws k)) g pos' kw' →
      Calls (.part p f args kws) pos kw g pos' kw'

/-- No partial of the chain has positional arguments. -/
def NoPos : Val → Prop
  | .part _ f args _ => args = [] ∧ NoPos f
  | _ => True

/-- At most one partial of the chain has positional arguments. -/
def PosOnce : Val → Prop
  | .part _ f args _ => (args = [] ∧ PosOnce f) ∨ NoPos f
  | _ => True

/-- The keywords of all partials of the chain are dicts. -/
def KwDicts : Val → Prop
  | .part _ f _ kws => (kws.map Prod.fst).Nodup ∧ KwDicts f
  | _ => True

end Whatami
