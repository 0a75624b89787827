import Verif.Peg
import Verif.PyEq

/-
Model of parsers.py: the tree visitor and `parse_whatid`.
-/
namespace Whatami

/-- The world outside of the parser.
Stands for misc.py:734-757 `maybe_import` with `getattr` (parsers.py:186), and `float` (parsers.py:151). -/
structure Env where
  /-- `repr(float(text))` -/
  floatOf : Str → Str
  /-- the integer that a float (given by its `repr`) equals, if any -/
  fi : Str → Option Int
  /-- `getattr(maybe_import(module), name)` -/
  imp : Str → Str → R Val

/-- What the visitor's methods return: Python values, the marker `_NONE_NODE`, identifiers (strings, see
`visit_an_id`), and the intermediate `(key, value)` pairs and lists of children.  parsers.py:142-260. -/
inductive Sem where
  | val (v : Val)
  | noneNode
  | id (s : Str)
  | pair (k v : Val)
  | kv (k : Str) (v : Val)
  | many (l : List Sem)

/-- parsers.py:172-174 `nonenode2none`.  Intermediate results never get here: see `c10_no_shape_error`. -/
def Sem.toVal : Sem → R Val
  | .val v => .ok v
  | .noneNode => .ok .none
  | .id s => .ok (.str s)
  | _ => .error .exception

/-- `int(text)` for a text matched by one of the alternatives of `a_number`.  parsers.py:149. -/
def pyInt : Str → Option Int
  | [] => none
  | c :: r =>
    if c = '-' then (if r ≠ [] ∧ r.all isDig = true then some (-(digitsVal r : Int)) else none)
    else if (c :: r).all isDig = true then some (digitsVal (c :: r) : Int) else none

/-- parsers.py:146-151 `visit_a_number`. -/
def numberOf (E : Env) (t : Str) : Val :=
  match pyInt t with
  | some i => .int i
  | none => .float (E.floatOf t)

/-- `str(node)`: arpeggio joins the texts of the children.  parsers.py:144,149. -/
def treeText : Tree → Str
  | .term _ _ t => t
  | .node _ ts => pyJoin c!" | " (texts ts)
where
  /-- the texts of the children -/
  texts : List Tree → List Str
    | [] => []
    | t :: ts => treeText t :: texts ts

/-- `d[k] = v` in a dict with arbitrary keys.  parsers.py:217. -/
def vput (fi : Str → Option Int) : List (Val × Val) → Val → Val → List (Val × Val)
  | [], k, v => [(k, v)]
  | (k', v') :: r, k, v => if pyEq fi false k' k then (k', v) :: r else (k', v') :: vput fi r k v

/-- `dict(list_of_pairs)`: an unhashable key raises TypeError.  parsers.py:217. -/
def dictFrom (fi : Str → Option Int) : List (Val × Val) → List (Val × Val) → R (List (Val × Val))
  | acc, [] => .ok acc
  | acc, (k, v) :: r => if hashable k then dictFrom fi (vput fi acc k v) r else .error .typeError

/-- `set(list_of_values)`: an unhashable element raises TypeError.  parsers.py:225. -/
def setFrom (fi : Str → Option Int) : List Val → List Val → R (List Val)
  | acc, [] => .ok acc
  | acc, v :: r =>
    if hashable v then setFrom fi (if acc.any (fun x => pyEq fi false x v) then acc else acc ++ [v]) r else .error .typeError

/-- `list(children[0])` of `(key, value)` pairs.  parsers.py:217. -/
def semPairs : List Sem → R (List (Val × Val))
  | [] => .ok []
  | .pair k v :: r => (semPairs r).map fun l => (k, v) :: l
  | _ :: _ => .error .exception

/-- The same for parameters.  parsers.py:256. -/
def semKvs : List Sem → R (List (Str × Val))
  | [] => .ok []
  | .kv k v :: r => (semKvs r).map fun l => (k, v) :: l
  | _ :: _ => .error .exception

/-- parsers.py:243-256 `visit_whatami_id`: one, two or three children; two are taken to be the name and the
parameters, so that an out_name before a What without parameters makes `dict(list(name))` raise ValueError. -/
def visitWhat : List Sem → R (Option Sem)
  | [.id o, .id n, .many kvs] => (semKvs kvs).map fun l => some (.val (.what n (dictOf l) [] (some o)))
  | [.id n, .many kvs] => (semKvs kvs).map fun l => some (.val (.what n (dictOf l) [] none))
  | [.id n, .id s] => if s = [] then .ok (some (.val (.what n [] [] none))) else .error .valueError
  | [.id n] => .ok (some (.val (.what n [] [] none)))
  | [] => .error .indexError
  | _ => .error .exception

/-- parsers.py:182-189 `visit_a_class`: ImportError and AttributeError give a dict instead. -/
def visitClass (E : Env) (s : Str) : R (Option Sem) :=
  match E.imp (rpartition s '.').1 (rpartition s '.').2 with
  -- a None is what arpeggio takes for "no result"
  | .ok .none => .ok none
  | .ok v => .ok (some (.val v))
  | .error .importError => .ok (some (.val (.dict [(.str c!"class", .str s)])))
  | .error .attributeError => .ok (some (.val (.dict [(.str c!"class", .str s)])))
  | .error e => .error e

/-- arpeggio's `visit__default__` and the visitor's methods on terminals (parsers.py:142-178). -/
def visitTerm (rule : Option Rule) (suppress : Bool) (t : Str) : Option Sem :=
  match rule with
  | some .anId => some (.id t)
  | some .aTrue => some (.val (.bool true))
  | some .aFalse => some (.val (.bool false))
  | some .aNone => some .noneNode
  | some .anEmptySet => some (.val (.set []))
  | _ => if suppress then none else some (.val (.str t))

/-- The visitor's methods on non-terminals (parsers.py:142-260).  `text` is the text of the node; results that
cannot come from the grammar are `exception` (see `c10_no_shape_error`). -/
def visitNode (E : Env) (rule : Rule) (text : Str) (children : List Sem) : R (Option Sem) :=
  match rule with
  | .aNumber => .ok (some (.val (numberOf E text)))
  | .aString =>
    match children with
    | [c] => .ok (some c)
    | [] => .ok (some (.val (.str [])))
    | _ => .error .valueError
  | .aClass =>
    match children with
    | .val (.str s) :: _ => visitClass E s
    | [] => .error .indexError
    | _ => .error .exception
  | .listElements => (mapR Sem.toVal children).map fun l => some (.val (.list l))
  | .aList =>
    match children with
    | [] => .ok (some (.val (.list [])))
    | c :: _ => .ok (some c)
  | .aTuple =>
    match children with
    | [] => .ok (some (.val (.tuple [])))
    | .val (.list l) :: _ => .ok (some (.val (.tuple l)))
    | _ => .error .exception
  | .dictkv =>
    match children with
    | k :: v :: _ =>
      match k.toVal with
      | .error e => .error e
      | .ok k' =>
        match v.toVal with
        | .error e => .error e
        | .ok v' => .ok (some (.pair k' v'))
    | _ => .error .indexError
  | .dictElements => .ok (some (.many children))
  | .aDict =>
    match children with
    | [] => .ok (some (.val (.dict [])))
    | .many l :: _ =>
      match semPairs l with
      | .error e => .error e
      | .ok ps => (dictFrom E.fi [] ps).map fun d => some (.val (.dict d))
    | _ => .error .exception
  | .anEmptySet => .ok (some (.val (.set [])))
  | .aNonEmptySet =>
    match children with
    | [] => .error .indexError
    | .val (.list l) :: _ => (setFrom E.fi [] l).map fun d => some (.val (.set d))
    | _ => .error .exception
  | .value =>
    match children with
    | [] => .error .indexError
    | c :: _ => .ok (some c)
  | .kv =>
    match children with
    | .id k :: v :: _ => (v.toVal).map fun v' => some (.kv k v')
    | [] => .error .indexError
    | [_] => .error .indexError
    | _ => .error .exception
  | .kvs => .ok (some (.many children))
  | .whatamiId => visitWhat children
  | .whatamiIdTop =>
    match children with
    | [] => .error .indexError
    | c :: _ => .ok (some c)
  -- `visit__default__`: the only child
  | _ =>
    match children with
    | [c] => .ok (some c)
    | _ => .error .exception

mutual
/-- arpeggio's `visit_parse_tree` with this visitor; `none` is Python's None.  parsers.py:306. -/
def visit (E : Env) : Tree → R (Option Sem)
  | .term r b t => .ok (visitTerm r b t)
  | .node r ts =>
    match visitAll E ts with
    | .error e => .error e
    | .ok children => visitNode E r (treeText (.node r ts)) children
termination_by structural t => t
/-- The results of the children, left to right; None is dropped.  parsers.py:306. -/
def visitAll (E : Env) : List Tree → R (List Sem)
  | [] => .ok []
  | t :: ts =>
    match visit E t with
    | .error e => .error e
    | .ok none => visitAll E ts
    | .ok (some c) => (visitAll E ts).map fun l => c :: l
termination_by structural ts => ts
end

/-- Steps per character that suffice (theorem C10).  No code of its own. -/
def stepsPerChar : Nat := 24

/-- `parser.parse(text)`.  parsers.py:306. -/
def parseTree (g : Rule → Peg) (s : Str) : R Tree :=
  match run g ((s.length + 1) * stepsPerChar) false (.ref .whatamiIdTop) s with
  | .ok (t :: _) _ => .ok t
  | .fail => .error .noMatch
  | _ => .error .exception

/-- `visit_parse_tree(parser.parse(text), visitor)` (parsers.py:306, whatutils.py:465). -/
def parseWith (E : Env) (g : Rule → Peg) (s : Str) : R What :=
  match parseTree g s with
  | .error e => .error e
  | .ok t =>
    match visit E t with
    | .error e => .error e
    | .ok (some (.val (.what n c nk o))) => .ok ⟨n, c, nk, o⟩
    | .ok _ => .error .exception

/-- parsers.py:267-306 `parse_whatid` with the default parser and visitor. -/
def parseWhatid (E : Env) (s : Str) : R What := parseWith E newGrammar s

end Whatami
