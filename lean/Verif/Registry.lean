import Verif.Plugins

/-
Model of `WhatamiRegistry` (registry.py:20-102).  Nicknames are strings; `w2i` is `what2id`, any function from
objects to strings that may raise (it is modelled in Utils).
-/
namespace Whatami

/-- registry.py:23-27: the two dictionaries. -/
structure Registry where
  id2nick : List (Str × Str) := []
  nick2id : List (Str × Str) := []
deriving DecidableEq, Repr

/-- `del d[k]`, where `k` may be None (never a key).  registry.py:60-78. -/
def delKey (d : List (Str × Str)) (k : Option Str) : List (Str × Str) × R Unit :=
  match k with
  | none => (d, .error .keyError)
  | some k => if dhas d k then (ddel d k, .ok ()) else (d, .error .keyError)

/-- registry.py:29-54 `register`; None arguments are `none`. -/
def register (w2i : Val → R Str) (r : Registry) (what : Option Val) (nick : Option Str) : Registry × R (Option Val) :=
  match what with
  | none => (r, .error .valueError)
  | some what =>
    match nick with
    | none => (r, .error .valueError)
    | some n =>
      match w2i what with
      | .error e => (r, .error e)
      | .ok i =>
        if dhas r.nick2id n && !(dget r.nick2id n == some i) then (r, .error .exception)
        else if dhas r.id2nick i && !(dget r.id2nick i == some n) then (r, .error .exception)
        else (⟨dset r.id2nick i n, dset r.nick2id n i⟩, .ok (some what))

/-- registry.py:77-78: the two deletions, in order. -/
def removeBoth (r : Registry) (nick id : Option Str) : Registry × R Unit :=
  match delKey r.nick2id nick with
  | (d, .error e) => (⟨r.id2nick, d⟩, .error e)
  | (d, .ok ()) =>
    match delKey r.id2nick id with
    | (d', .error e) => (⟨d', d⟩, .error e)
    | (d', .ok ()) => (⟨d', d⟩, .ok ())

/-- registry.py:60-78 `remove`. -/
def remove (w2i : Val → R Str) (r : Registry) (nick : Option Str) (what : Option Val) : Registry × R Unit :=
  match (match what with | none => .ok none | some w => (w2i w).map some : R (Option Str)) with
  | .error e => (r, .error e)
  | .ok id =>
    match nick, id with
    | none, none => (r, .error .valueError)
    | none, some i => removeBoth r (dget r.id2nick i) (some i)
    | some n, none => removeBoth r (some n) (dget r.nick2id n)
    | some n, some i =>
      -- registry.py:74 looks the *nickname* up in the ids
      if dget r.nick2id n ≠ some i ∨ dget r.id2nick n ≠ some n then (r, .error .valueError)
      else removeBoth r (some n) (some i)

/-- registry.py:80-92 `nick2id`, `id2nick`. -/
def Registry.nickToId (r : Registry) (n : Str) : Option Str := dget r.nick2id n
/-- registry.py:87-92 `id2nick`. -/
def Registry.idToNick (r : Registry) (i : Str) : Option Str := dget r.id2nick i

/-- registry.py:94-97 `nick_or_id`. -/
def nickOrId (w2i : Val → R Str) (r : Registry) (what : Val) : R Str :=
  match w2i what with
  | .error e => .error e
  | .ok i => .ok ((dget r.id2nick i).getD i)

/-- Tuple comparison of pairs of strings.  registry.py:56-58. -/
def pairLe (a b : Str × Str) : Bool := if a.1 = b.1 then strLe a.2 b.2 else strLe a.1 b.1

/-- registry.py:56-58 `list`. -/
def Registry.list (r : Registry) : List (Str × Str) := sortBy pairLe r.nick2id

/-- The calls that may change the registry.  registry.py:29-104. -/
inductive RegOp where
  | register (what : Option Val) (nick : Option Str)
  | remove (nick : Option Str) (what : Option Val)
  | reset

/-- One call; registry.py:99-102 `reset`. -/
def regStep (w2i : Val → R Str) (r : Registry) : RegOp → Registry
  | .register w n => (register w2i r w n).1
  | .remove n w => (remove w2i r n w).1
  | .reset => ⟨[], []⟩

/-- A history of calls, failing ones included; `what2id` may answer differently in each call (configurations
are mutable).  A client of registry.py:20-104. -/
def regRun (r : Registry) (ops : List ((Val → R Str) × RegOp)) : Registry :=
  ops.foldl (fun r op => regStep op.1 r op.2) r

end Whatami
