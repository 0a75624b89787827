import Verif.Plugins
import Verif.PyEq

/-
Model of the accessors of `What`: flatten, keys, values, [], get, positional_id (what.py:138-237, 271-288).
-/
namespace Whatami

/-- The flags of `flatten` (what.py:138). -/
structure FlatOpts where
  nonIdsToo : Bool := false
  collectionsToo : Bool := false
  recursive : Bool := true
deriving DecidableEq, Repr

/-- `sorted(d.items())`: may raise TypeError for keys that do not compare.  Which order Python gives to the
keys of an arbitrary dict is a parameter.  what.py:172,174,178. -/
abbrev SortItems := List (Val × Val) → R (List (Val × Val))

/-- `enumerate(xs)` from `i`.  what.py:176. -/
def enumFrom (i : Nat) : List Val → List (Val × Val)
  | [] => []
  | x :: xs => (.int i, x) :: enumFrom (i + 1) xs

/-- what.py:170-180: the items `flatten` iterates over. -/
def flatItems (srt : SortItems) (o : FlatOpts) : Val → R (List (Val × Val))
  | .what _ conf nonids _ =>
    let items := if o.nonIdsToo then conf else conf.filter fun kv => !nonids.contains kv.1
    .ok ((sortBy keyLe items).map fun kv => (.str kv.1, kv.2))
  | .list xs => .ok (if o.collectionsToo then enumFrom 0 xs else [])
  | .tuple xs => .ok (if o.collectionsToo then enumFrom 0 xs else [])
  | .sub .list _ _ xs => .ok (if o.collectionsToo then enumFrom 0 xs else [])
  | .sub .tuple _ _ xs => .ok (if o.collectionsToo then enumFrom 0 xs else [])
  | .dict kvs => if o.collectionsToo then srt kvs else .ok []
  | .odict _ _ kvs => if o.collectionsToo then srt kvs else .ok []
  | .ddict _ _ kvs => if o.collectionsToo then srt kvs else .ok []
  | _ => .ok []

/-- what.py:181-185: the loop over the items; `rec` is the recursive call. -/
def flatLoop (recursive : Bool) (rec : Val → List Val → R (List (List Val × Val))) (pk : List Val) :
    List (Val × Val) → R (List (List Val × Val))
  | [] => .ok []
  | (k, v) :: r =>
    match (if recursive then rec v (pk ++ [k]) else .ok []) with
    | .error e => .error e
    | .ok sub =>
      match flatLoop recursive rec pk r with
      | .error e => .error e
      | .ok rest => .ok ((pk ++ [k], v) :: sub ++ rest)

/-- what.py:169-186 with at most `n` levels of recursion: pairs (path, value) in order. -/
def flattenN (srt : SortItems) (o : FlatOpts) : Nat → Val → List Val → R (List (List Val × Val))
  | 0, _, _ => .error .exception
  | n + 1, v, pk =>
    match flatItems srt o v with
    | .error e => .error e
    | .ok items => flatLoop o.recursive (flattenN srt o n) pk items

/-- The key `flatten` reports for a path: the key itself at the top level, else the tuple (what.py:182). -/
def pathKey : List Val → Val
  | [k] => k
  | p => .tuple p

/-- what.py:138-187 `What.flatten`: the pairs of the two returned lists. -/
def flatten (srt : SortItems) (o : FlatOpts) (w : What) : R (List (Val × Val)) :=
  (flattenN srt o (depth w.toVal) w.toVal []).map fun l => l.map fun pv => (pathKey pv.1, pv.2)

/-- what.py:189-191 `What.keys`. -/
def whatKeys (srt : SortItems) (o : FlatOpts) (w : What) : R (List Val) := (flatten srt o w).map fun l => l.map Prod.fst

/-- what.py:193-195 `What.values`. -/
def whatValues (srt : SortItems) (o : FlatOpts) (w : What) : R (List Val) := (flatten srt o w).map fun l => l.map Prod.snd

/-- `xs[i]` for an integer index, negative ones counting from the end.  what.py:226. -/
def pyIndex (xs : List Val) (i : Int) : R Val :=
  let j := if i < 0 then i + xs.length else i
  if j < 0 then .error .indexError
  else match xs[j.toNat]? with
    | some v => .ok v
    | none => .error .indexError

/-- The integer a subscript stands for.  what.py:226. -/
def asIndex : Val → Option Int
  | .int i => some i
  | .bool b => some (if b then 1 else 0)
  | _ => none

/-- `w[key]` for values that are no `What`: dicts, lists, tuples, strings; anything else raises TypeError
(arrays and generic classes, which can be subscripted, are not modelled; nor is `__missing__`).
what.py:226. -/
def subscript (fi : Str → Option Int) : Val → Val → R Val
  | .dict kvs, k | .odict _ _ kvs, k | .ddict _ _ kvs, k =>
    if hashable k then (match vget fi kvs k with | some v => .ok v | none => .error .keyError) else .error .typeError
  | .list xs, k | .tuple xs, k | .sub .list _ _ xs, k | .sub .tuple _ _ xs, k =>
    match asIndex k with
    | some i => pyIndex xs i
    | none => .error .typeError
  | .str s, k =>
    match asIndex k with
    | some i => pyIndex (s.map fun c => .str [c]) i
    | none => .error .typeError
  | _, _ => .error .typeError

/-- what.py:226 `w[key]`; `getWhat` is `What.__getitem__(key)` on a conf. -/
def direct (fi : Str → Option Int) (w key : Val) (getWhat : Conf → R Val) : R Val :=
  match w with
  | .what _ c _ _ => getWhat c
  | w => subscript fi w key

/-- what.py:227-228: on TypeError, `w.what()[key]`. -/
def orWhat (w : Val) (r : R Val) (getWhat : Conf → R Val) : R Val :=
  match r with
  | .error .typeError =>
    match whatMethod w with
    | none => .error .attributeError
    | some (.error e) => .error e
    | some (.ok u) => getWhat u.conf
  | r => r

mutual
/-- what.py:217-230 `What.__getitem__` on the conf of a What. -/
def getItem (fi : Str → Option Int) : Val → Conf → R Val
  | .str k, conf =>
    match dget conf k with
    | some v => .ok v
    | none => .error .keyError
  | .tuple path, conf => if hashableL path then walk fi path (strDict conf) else .error .typeError
  | .sub .tuple _ _ path, conf => if hashableL path then walk fi path (strDict conf) else .error .typeError
  | item, _ => if hashable item then .error .keyError else .error .typeError
termination_by structural item => item
/-- what.py:222-229: the loop over the elements of a tuple key.  On TypeError, `w.what()[key]`. -/
def walk (fi : Str → Option Int) : List Val → Val → R Val
  | [], w => .ok w
  | key :: path, w =>
    match orWhat w (direct fi w key (getItem fi key)) (getItem fi key) with
    | .error e => .error e
    | .ok w' => walk fi path w'
termination_by structural path => path
end

/-- what.py:232-237 `What.get`. -/
def whatGet (fi : Str → Option Int) (w : What) (item default : Val) : R Val :=
  match getItem fi item w.conf with
  | .error .keyError => .ok default
  | r => r

/-- what.py:271-288 `What.positional_id` before trimming: the strings of all the values, recursively. -/
def positionalStr (srt : SortItems) (bs : BS) (w : What) (nonIdsToo : Bool) : R Str :=
  match whatValues srt { nonIdsToo := nonIdsToo } w with
  | .error e => .error e
  | .ok vs => (strings bs vs).map fun l => wrapId w.name w.out (pyJoin c!"," l)

/-- what.py:271-288 `What.positional_id`. -/
def positionalId (sha1 : Str → Str) (srt : SortItems) (bs : BS) (w : What) (nonIdsToo : Bool) (maxlength : Int) : R Str :=
  match positionalStr srt bs w nonIdsToo with
  | .error e => .error e
  | .ok s => .ok (trimTooLong sha1 s maxlength)

end Whatami
