import Verif.Utils

/-
Model of whatutils.py: `whatid2columns` and its helpers.

Simplified: a data frame is its columns, in order, each a list of cells; pandas' index, dtypes and its conversion of
results (`[1, None]` becomes `[1.0, nan]`) are not modelled, nor are ids that are no strings.
-/
namespace Whatami

/-- A pandas DataFrame (whatutils.py:333-381): names and cells of the columns. -/
abbrev Df := List (Str × List Val)

/-- whatutils.py:236-240 `_get_or_none`. -/
def getOrNone (fi : Str → Option Int) (w : What) (key : Val) : R Val :=
  match getItem fi key w.conf with
  | .error .keyError => .ok .none
  | r => r

/-- whatutils.py:243-244 `_key2colname`, added to a string: only strings, tuples and lists have a name that is one. -/
def colName : Val → R Str
  | .str s => .ok s
  | .tuple ks => .ok (pyJoin c!"_" (ks.map pyStr))
  | .list ks => .ok (pyJoin c!"_" (ks.map pyStr))
  | _ => .error .typeError

/-- whatutils.py:376-377: lists become tuples. -/
def asTuple : Val → Val
  | .list ks => .tuple ks
  | k => k

/-- `id2what` of a cell (whatutils.py:363). -/
def parseCell (E : Env) : Val → R What
  | .str s => parseWhatid E s
  | _ => .error .typeError

/-- `df[col].unique()` (whatutils.py:363), for a column of strings. -/
def uniqueIds (cells : List Val) : List Str :=
  (cells.filterMap fun v => match v with | .str s => some s | _ => none).eraseDups

/-- whatutils.py:363 `{whatid: id2what(whatid) for ...}`. -/
def parseAll (E : Env) (ids : List Str) : R (List (Str × What)) :=
  mapR (fun s => (parseWhatid E s).map fun w => (s, w)) ids

/-- `whats[whatid]` (whatutils.py:379). -/
def cachedWhat (whats : List (Str × What)) : Val → R What
  | .str s => match dget whats s with
    | some w => .ok w
    | none => .error .keyError
  | v => if hashable v then .error .keyError else .error .typeError

/-- The function applied to every cell (whatutils.py:379). -/
def cellFor (fi : Str → Option Int) (whats : List (Str × What)) (key cell : Val) : R Val :=
  match cachedWhat whats cell with
  | .error e => .error e
  | .ok w => getOrNone fi w key

/-- One round of whatutils.py:374-379: the cells are computed before the name of the column. -/
def addColumn (fi : Str → Option Int) (whats : List (Str × What)) (col : Str) (pre post : Str) (key : Val) (df : Df) : R Df :=
  match dget df col with
  | none => .error .keyError
  | some cells =>
    match mapR (cellFor fi whats (asTuple key)) cells with
    | .error e => .error e
    | .ok vs =>
      match colName key with
      | .error e => .error e
      | .ok n => .ok (dset df (pre ++ n ++ post) vs)

/-- whatutils.py:374-379: the loop.  The frame as it is in the end, and the exception if there was one. -/
def addColumns (fi : Str → Option Int) (whats : List (Str × What)) (col pre post : Str) : List Val → Df → Df × Option Err
  | [], df => (df, none)
  | k :: ks, df =>
    match addColumn fi whats col pre post k df with
    | .error e => (df, some e)
    | .ok df' => addColumns fi whats col pre post ks df'

/-- The key of `sorted` at whatutils.py:366. -/
def colLe (a b : Val) : Bool :=
  match colName a, colName b with
  | .ok s, .ok t => strLe s t
  | _, _ => true

/-- whatutils.py:365-366: the given columns, or all the keys there are; `iter` is the order in which the set of all
keys is iterated over. -/
def theColumns (E : Env) (srt : SortItems) (iter : List Val → List Val) (whats : List (Str × What)) :
    Option (List Val) → R (List Val)
  | some cols => .ok cols
  | none =>
    match mapR (fun p : Str × What => whatKeys srt {} p.2) whats with
    | .error e => .error e
    | .ok keys =>
      match setFrom E.fi [] keys.flatten with
      | .error e => .error e
      | .ok set => .ok (sortBy colLe (iter set))

/-- whatutils.py:333-381 `whatid2columns`: the frame returned, or the exception; and the frame passed in, as it is
afterwards.  A `None` prefix or postfix is `[]`. -/
def whatid2columns (E : Env) (srt : SortItems) (iter : List Val → List Val) (df : Df) (col : Str)
    (columns : Option (List Val)) (pre post : Str) (inplace : Bool) : R Df × Df :=
  match dget df col with
  | none => (.error .keyError, df)
  | some cells =>
    match mapR (parseCell E) cells with
    | .error e => (.error e, df)
    | .ok _ =>
      match parseAll E (uniqueIds cells) with
      | .error e => (.error e, df)
      | .ok whats =>
        match theColumns E srt iter whats columns with
        | .error e => (.error e, df)
        | .ok cols =>
          match addColumns E.fi whats col pre post cols df with
          | (df', none) => (.ok df', if inplace then df' else df)
          | (df', some e) => (.error e, if inplace then df' else df)

end Whatami
