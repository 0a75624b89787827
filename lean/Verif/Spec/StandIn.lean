import Verif.Spec.Text
import Verif.Spec.Attr
import Verif.Spec.Call
import Verif.Spec.Fragment

/-
Specification for C77: what stands in an id for a value that is not data, and is read back in its place.  Nothing here refers to how ids
are generated or parsed.
-/
namespace Whatami

/-- `StandIn v x`: the reader of an id finds `x` (data, or a What) where `v` was. -/
inductive StandIn : Val → Val → Prop where
  /-- numeric types: `int` shows as `int()` -/
  | numtype (n : Str) : StandIn (.numtype n) (.what n [] [] none)
  /-- arrays and frames, by their digest -/
  | array {c h : Str} : '\'' ∉ h → StandIn (.array c h) (.what c [(c!"hash", .str h)] [] none)
  /-- instances of subclasses, by their elements; frozensets become sets -/
  | subList (c : Str) (a : Conf) (xs : List Val) : StandIn (.sub .list c a xs) (.what c [(c!"seq", .list xs)] [] none)
  | subTuple (c : Str) (a : Conf) (xs : List Val) : StandIn (.sub .tuple c a xs) (.what c [(c!"seq", .tuple xs)] [] none)
  | subSet (c : Str) (a : Conf) (xs : List Val) : StandIn (.sub .set c a xs) (.what c [(c!"seq", .set xs)] [] none)
  | subFset (c : Str) (a : Conf) (xs : List Val) : StandIn (.sub .fset c a xs) (.what c [(c!"seq", .set xs)] [] none)
  /-- ordered dicts: their public attributes and the list of their items, which hides an attribute of that name -/
  | odict {c : Str} {a conf : Conf} {kvs : List (Val × Val)} : UniqueKeys a → UniqueKeys conf →
      (∀ n x, (n, x) ∈ conf ↔ (n = c!"seq" ∧ x = .list (kvs.map fun e => .tuple [e.1, e.2])) ∨ (n ≠ c!"seq" ∧ Public {} n ∧ (n, x) ∈ a)) →
      StandIn (.odict c a kvs) (.what c conf [] none)
  /-- other dict subclasses: their public attributes and the dict -/
  | ddict {c : Str} {a conf : Conf} {kvs : List (Val × Val)} : UniqueKeys a → UniqueKeys conf →
      (∀ n x, (n, x) ∈ conf ↔ (n = c!"seq" ∧ x = .dict kvs) ∨ (n ≠ c!"seq" ∧ Public {} n ∧ (n, x) ∈ a)) →
      StandIn (.ddict c a kvs) (.what c conf [] none)
  /-- functions, by their defaults, which belong to the last parameters -/
  | func {n : Str} {pre names : List Str} {ds : List Val} : n ≠ c!"<lambda>" → names.length = ds.length → names.Nodup →
      StandIn (.func n (pre ++ names) ds) (.what n (names.zip ds) [] none)
  | lambda {pre names : List Str} {ds : List Val} : names.length = ds.length → names.Nodup →
      StandIn (.func c!"<lambda>" (pre ++ names) ds) (.what c!"lambda" (names.zip ds) [] none)
  /-- partial applications of a function, by what they bind its parameters to (in any order) -/
  | partials {n : Str} {args : List Str} {ds : List Val} {apps : List (List Val × Conf)} {d : Conf} : Signature args ds → apps ≠ [] →
      (∀ a ∈ apps, UniqueKeys a.2) → Fits args (allPos apps) (allKw apps) →
      (∀ k u x, PosFor args (allPos apps) k u → ¬ DefaultFor args ds k x) →
      UniqueKeys d → (∀ k x, (k, x) ∈ d ↔ Bound args ds (allPos apps) (allKw apps) k x) →
      StandIn (applyAll (.func n args ds) apps) (.what (n.filter fun c => !(c == '<') && !(c == '>')) d [] none)
  /-- partials and toolz curries of one another down to a function, if at most one of them has positional arguments: what calling them
  would bind its parameters to (in any order) -/
  | curries {p : Bool} {f : Val} {vs : List Val} {kws : Conf} {n : Str} {args : List Str} {ds pos : List Val} {kw : Str → Option Val} {d : Conf} :
      Signature args ds → KwDicts (.part p f vs kws) → PosOnce (.part p f vs kws) →
      Calls (.part p f vs kws) [] (fun _ => none) (.func n args ds) pos kw → Fits args pos kw →
      (∀ k u x, PosFor args pos k u → ¬ DefaultFor args ds k x) → UniqueKeys d → (∀ k x, (k, x) ∈ d ↔ Bound args ds pos kw k x) →
      StandIn (.part p f vs kws) (.what (n.filter fun c => !(c == '<') && !(c == '>')) d [] none)
  /-- objects with a `what()` of their own -/
  | duck (n : Str) (conf : Conf) (nk : List Str) (o : Option Str) : StandIn (.duck n conf nk o) (.what n conf nk o)
  /-- objects made whatable, with any options: their class and whatever they show that is public -/
  | whatable {ob : Inst} {o : WhatOpts} {s : Str} {v : Val} {conf : Conf} : ob.Ok → ob.toVal (some o) s = .ok v → UniqueKeys conf →
      (∀ n x, (n, x) ∈ conf ↔ Public o n ∧ ob.Shows o n x) →
      StandIn v (.what ob.cls conf o.nonids none)
  /-- random generators -/
  | rngTuple (c : Str) (xs : List Val) :
      StandIn (.rng c (.tuple xs)) (.what c [(c!"state", .what c!"tuple" [(c!"seq", .tuple xs)] [] none)] [] none)
  | rngDict (c : Str) (kvs : List (Val × Val)) :
      StandIn (.rng c (.dict kvs)) (.what c [(c!"state", .what c!"dict" [(c!"seq", .dict kvs)] [] none)] [] none)
  /-- any other object: just its class, if its `str()` has its address -/
  | address {c s : Str} {cl : Bool} {cd dd sd pd : Conf} : c!" at 0x" <:+: s → StandIn (.obj c cl cd dd sd pd none s) (.what c [] [] none)
  /-- ... else whatever value is written like its `str()`: a numpy number becomes a Python number -/
  | looks {c s : Str} {cl : Bool} {cd dd sd pd : Conf} {x : Val} : ¬ c!" at 0x" <:+: s → HasText x → IdTextOf x s →
      StandIn (.obj c cl cd dd sd pd none s) x

/-- `SeenAs v x`: `x` comes from `v` by putting stand-ins for parts of it, at any depth, again and again, and by leaving non-id parameters
out. -/
def SeenAs (v x : Val) : Prop := Cong (fun a b => StandIn a b ∨ SameIdPart a b) v x

end Whatami
