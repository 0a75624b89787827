import Verif.WhatOps
import Verif.Parser

/-
Model of whatutils.py: what2id, id2dict / What.to_dict, obj2what, whatvalues, sort_whats, sort_whatids, match_whatids,
whatid2columns, FunctionLike, call2what.
-/
namespace Whatami

/-- `None` or a string.  whatutils.py:99-100. -/
def optStr : Option Str → Val
  | none => .none
  | some s => .str s

/-! ### what2id -/

/-- `obj.what().id()` (whatutils.py:73): AttributeError if there is no such method. -/
def viaWhat (bs : BS) (v : Val) : R Str :=
  match whatMethod v with
  | none => .error .attributeError
  | some (.error e) => .error e
  | some (.ok w) => idStr bs w false

/-- `obj.id()` (whatutils.py:76): that of a What, or (`idm`) of an object of a class with such a method. -/
def viaId (bs : BS) (idm : Val → Option (R Str)) (v : Val) : R Str :=
  match v with
  | .what n c nk o => idStr bs ⟨n, c, nk, o⟩ false
  | v =>
    match idm v with
    | none => .error .attributeError
    | some r => r

/-- `try: a except AttributeError: b`.  whatutils.py:72-78. -/
def orElseAttr {α : Type} (a b : R α) : R α :=
  match a with
  | .error .attributeError => b
  | r => r

/-- `whatareyou(obj).id()` (whatutils.py:78). -/
def viaInspection (bs : BS) (v : Val) : R Str :=
  match whatareyou {} v with
  | .error e => .error e
  | .ok w => idStr bs w false

/-- whatutils.py:57-78 `what2id`. -/
def what2id (bs : BS) (idm : Val → Option (R Str)) (v : Val) : R (Option Str) :=
  match v with
  | .none => .ok none
  | .str s => .ok (some s)
  | v => (orElseAttr (viaWhat bs v) (orElseAttr (viaId bs idm v) (viaInspection bs v))).map some

/-! ### id2dict, to_dict -/

/-- whatutils.py:98-102: the dictionary, given the (already converted) parameters. -/
def whatDict (name : Str) (out : Option Str) (items : Conf) : Val :=
  .dict [(.str c!"whatami_name", .str name), (.str c!"whatami_out_name", optStr out), (.str c!"whatami_conf", strDict items)]

/-- whatutils.py:101: `v if not isinstance(v, What) else v.to_dict()`, with what.py:302-307 `to_dict`; `rec` is
`id2dict`. -/
def dictVal (bs : BS) (rec : Str → R Val) : Val → R Val
  | .what nm c nk o =>
    match idStr bs ⟨nm, c, nk, o⟩ false with
    | .error e => .error e
    | .ok s => rec s
  | v => .ok v

/-- whatutils.py:101-102: the parameters, converted. -/
def confItems (f : Val → R Val) (c : Conf) : R Conf := mapR (fun kv => (f kv.2).map fun v => (kv.1, v)) c

/-- whatutils.py:85-102 `id2dict`, with at most `n` nested calls (then RecursionError). -/
def id2dictN (E : Env) (bs : BS) : Nat → Str → R Val
  | 0, _ => .error .exception
  | n + 1, s =>
    match parseWhatid E s with
    | .error e => .error e
    | .ok w => (confItems (dictVal bs (id2dictN E bs n)) w.conf).map fun items => whatDict w.name w.out items

/-- what.py:302-307 `What.to_dict`. -/
def toDictN (E : Env) (bs : BS) (n : Nat) (w : What) (nonidsToo : Bool) : R Val :=
  match idStr bs w nonidsToo with
  | .error e => .error e
  | .ok s => id2dictN E bs n s

/-! ### obj2what, call2what -/

/-- whatutils.py:105-143 `obj2what`.  (`is_whatable` of a decorated class is True, and then `what()` raises.) -/
def obj2what (forceInspect : Bool) (nameOverride : Option Str) (o : WhatOpts) (v : Val) : R What :=
  if !forceInspect && isWhatable v then
    match whatMethod v with
    | some r => r
    | none => .error .attributeError
  else whatareyou o v nameOverride

/-- whatutils.py:203-233 `call2what`: `stack` is `inspect.stack()` from the caller on, as (function name, locals); depth 0 is
`call2what` itself, whose frame is `own`, and negative depths count from the outermost frame. -/
def call2what (own : Str × Conf) (stack : List (Str × Conf)) (depth : Int) (nonids : List Str) : R What :=
  let frames := own :: stack
  let i := if depth < 0 then depth + frames.length else depth
  if i < 0 then .error .indexError
  else match frames[i.toNat]? with
    | none => .error .indexError
    | some (name, locs) => .ok { name := name, conf := locs, nonids := nonids }

/-! ### whatvalues, sort_whats, sort_whatids -/

/-- whatutils.py:146-157 `whatvalues`: a key that is no tuple stands for itself. -/
def whatvalues (fi : Str → Option Int) (w : What) (keys : Val) : R (List Val) :=
  match keys with
  | .tuple ks => mapR (fun k => getItem fi k w.conf) ks
  | .sub .tuple _ _ ks => mapR (fun k => getItem fi k w.conf) ks
  | k => mapR (fun k => getItem fi k w.conf) [k]

/-- `a < b` on tuples: the first elements that differ decide.  `lt` is `<` on the elements; values that do not
compare (TypeError) are not modelled.  whatutils.py:177,199. -/
def tupleLt (fi : Str → Option Int) (lt : Val → Val → Bool) : List Val → List Val → Bool
  | [], [] => false
  | [], _ :: _ => true
  | _ :: _, [] => false
  | x :: xs, y :: ys => if pyEq fi true x y then tupleLt fi lt xs ys else lt x y

/-- `sorted(pairs, key=itemgetter(0))`: the stable sort.  whatutils.py:177,199. -/
def sortedByFirst {α : Type} (fi : Str → Option Int) (lt : Val → Val → Bool) (l : List (List Val × α)) : List (List Val × α) :=
  sortBy (fun p q => !tupleLt fi lt q.1 p.1) l

/-- `tuple(zip(*pairs))`.  whatutils.py:178,200. -/
def unzipVal : List (Val × Val) → Val
  | [] => .tuple []
  | p :: l => .tuple [.tuple ((p :: l).map Prod.fst), .tuple ((p :: l).map Prod.snd)]

/-- whatutils.py:177-178, 199-200: sort the values along with what they belong to, and take them apart. -/
def sortedAnswer (fi : Str → Option Int) (lt : Val → Val → Bool) (values : List (List Val)) (whats : List Val) : Val :=
  unzipVal ((sortedByFirst fi lt (values.zip whats)).map fun p => (p.2, .tuple p.1))

/-- whatutils.py:160-178 `sort_whats` (on a list). -/
def sortWhats (fi : Str → Option Int) (lt : Val → Val → Bool) (whats : List What) (keys : List Val) : R Val :=
  match mapR (fun w => whatvalues fi w (.tuple keys)) whats with
  | .error e => .error e
  | .ok values => .ok (sortedAnswer fi lt values (whats.map What.toVal))

/-- One step of whatutils.py:196-197: parse an id and take its values. -/
def idValues (E : Env) (keys : List Val) (s : Str) : R (List Val) :=
  match parseWhatid E s with
  | .error e => .error e
  | .ok w => whatvalues E.fi w (.tuple keys)

/-- whatutils.py:181-200 `sort_whatids` (on a list). -/
def sortWhatids (E : Env) (lt : Val → Val → Bool) (ids : List Str) (keys : List Val) : R Val :=
  match mapR (idValues E keys) ids with
  | .error e => .error e
  | .ok values => .ok (sortedAnswer E.fi lt values (ids.map .str))

/-! ### match_whatids -/

/-- `key in set(ignored_keys)` for hashable keys.  whatutils.py:309. -/
def inKeys (fi : Str → Option Int) (ignored : List Val) (key : Val) : Bool := ignored.any fun k => pyEq fi false k key

/-- whatutils.py:308-314 `ignore_key`, with at most `n` recursive calls. -/
def ignoreKeyN (fi : Str → Option Int) (ignored : List Val) : Nat → Val → Bool
  | 0, key => inKeys fi ignored key
  | n + 1, key =>
    if inKeys fi ignored key then true
    else
      match key with
      | .tuple [k] => ignoreKeyN fi ignored n k
      | .tuple (a :: b :: r) => ignoreKeyN fi ignored n (.tuple (a :: b :: r).dropLast)
      | _ => false

/-- whatutils.py:308-314 `ignore_key`.  The keys `flatten` gives are names and tuples of at least two elements that begin
with a name, for which as many calls as the tuple has elements suffice (other tuples are not modelled). -/
def ignoreKey (fi : Str → Option Int) (ignored : List Val) (key : Val) : Bool :=
  match key with
  | .tuple p => ignoreKeyN fi ignored p.length key
  | _ => ignoreKeyN fi ignored 0 key

/-- whatutils.py:317: what a value counts as. -/
def stub : Val → Val
  | .what n _ _ o => .tuple [.str n, optStr o]
  | v => v

/-- whatutils.py:316-318 `not_ignored_values`; `set(ignored_keys)` raises for unhashable keys, once there is a key.
(Simplification: `ignored_keys` is a list; an iterator would be used up by the first key.) -/
def notIgnoredValues (fi : Str → Option Int) (ignored : List Val) (kvs : List (Val × Val)) : R (List Val) :=
  if kvs.isEmpty || ignored.all hashable then
    .ok ((kvs.filter fun kv => !ignoreKey fi ignored kv.1).map fun kv => stub kv.2)
  else .error .typeError

/-- whatutils.py:320-327 `partial_match`. -/
def partialMatch (fi : Str → Option Int) (srt : SortItems) (o : FlatOpts) (ignored : List Val) (tname : Str) (tkeys niv : List Val)
    (w : What) : R Bool :=
  if w.name ≠ tname then .ok false
  else
    match flatten srt o w with
    | .error e => .error e
    | .ok kvs =>
      if pyEqL fi false tkeys (kvs.map Prod.fst) then
        (notIgnoredValues fi ignored kvs).map fun vals => pyEqL fi false vals niv
      else .ok false

/-- `[x for x in xs if p(x)]`.  whatutils.py:330. -/
def filterR {α : Type} (p : α → R Bool) : List α → R (List α)
  | [] => .ok []
  | x :: xs =>
    match p x with
    | .error e => .error e
    | .ok b =>
      match filterR p xs with
      | .error e => .error e
      | .ok l => .ok (if b then x :: l else l)

/-- whatutils.py:330: the test of one id. -/
def idMatch (E : Env) (srt : SortItems) (o : FlatOpts) (ignored : List Val) (tname : Str) (tkeys niv : List Val) (s : Str) : R Bool :=
  match parseWhatid E s with
  | .error e => .error e
  | .ok w => partialMatch E.fi srt o ignored tname tkeys niv w

/-- whatutils.py:247-330 `match_whatids`. -/
def matchWhatids (E : Env) (srt : SortItems) (o : FlatOpts) (ids : List Str) (template : Str) (ignored : List Val) : R (List Str) :=
  match parseWhatid E template with
  | .error e => .error e
  | .ok t =>
    match flatten srt o t with
    | .error e => .error e
    | .ok tkvs =>
      match notIgnoredValues E.fi ignored tkvs with
      | .error e => .error e
      | .ok niv => filterR (idMatch E srt o ignored t.name (tkvs.map Prod.fst) niv) ids

end Whatami
