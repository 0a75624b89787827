import Verif.Parser

/-
Specification of the concrete syntax of ids: abstract syntax, its tokens, spacing, and the parse tree.
Nothing here refers to the parser's algorithm.
Definitions here are vocabulary for statements and proofs: the code they are about is cited in the model modules.
-/
namespace Whatami

/-- The abstract syntax of a value in an id. -/
inductive Ast where
  | none
  | bool (b : Bool)
  | num (t : Str)
  | str (body : Str)
  | cls (body : Str)
  | tuple (xs : List Ast)
  | list (xs : List Ast)
  | set (xs : List Ast)
  | fset (xs : List Ast)
  | dict (kvs : List (Ast × Ast))
  | what (out : Option Str) (name : Str) (kvs : List (Str × Ast))
deriving Repr

/-- Tokens of a comma-separated list. -/
def sepToks : List (List Str) → List Str
  | [] => []
  | [t] => t
  | t :: u :: ts => t ++ c!"," :: sepToks (u :: ts)

/-- Tokens of `out_name=`. -/
def outToks : Option Str → List Str
  | .none => []
  | some o => [o, c!"="]

mutual
/-- The tokens of a value.  The opening quote of a string literal is a token of its own (the parser skips
whitespace after it); the rest of the literal is one token. -/
def toks : Ast → List Str
  | .none => [c!"None"]
  | .bool b => [if b then c!"True" else c!"False"]
  | .num t => [t]
  | .str b => [c!"'", b ++ c!"'"]
  | .cls b => [c!"<class ", c!"'", b ++ c!"'", c!">"]
  | .tuple xs => c!"(" :: sepToks (toksL xs) ++ [c!")"]
  | .list xs => c!"[" :: sepToks (toksL xs) ++ [c!"]"]
  | .set xs => if xs.isEmpty then [c!"set()"] else c!"{" :: sepToks (toksL xs) ++ [c!"}"]
  | .fset xs => if xs.isEmpty then [c!"frozenset()"] else c!"frozenset({" :: sepToks (toksL xs) ++ [c!"})"]
  | .dict kvs => c!"{" :: sepToks (toksD kvs) ++ [c!"}"]
  | .what o n kvs => outToks o ++ n :: c!"(" :: sepToks (toksA kvs) ++ [c!")"]
termination_by structural a => a
/-- The tokens of the elements. -/
def toksL : List Ast → List (List Str)
  | [] => []
  | x :: xs => toks x :: toksL xs
termination_by structural xs => xs
/-- The tokens of the items of a dict. -/
def toksD : List (Ast × Ast) → List (List Str)
  | [] => []
  | (k, v) :: xs => (toks k ++ c!":" :: toks v) :: toksD xs
termination_by structural xs => xs
/-- The tokens of parameters. -/
def toksA : List (Str × Ast) → List (List Str)
  | [] => []
  | (k, v) :: xs => (k :: c!"=" :: toks v) :: toksA xs
termination_by structural xs => xs
end

/-- The text without any space between tokens. -/
def text (a : Ast) : Str := (toks a).flatten

/-- The tokens, each with any amount of whitespace before it. -/
inductive Padded : List Str → Str → Prop
  | nil : Padded [] []
  | cons {ws t : Str} {ts : List Str} {s : Str} : ws.all isWs = true → Padded ts s → Padded (t :: ts) (ws ++ (t ++ s))

/-! ### Parse trees -/

/-- A suppressed string match. -/
def tok (t : Str) : Tree := .term .none true t

/-- Trees of a comma-separated list. -/
def sepTrees : List Tree → List Tree
  | [] => []
  | [t] => [t]
  | t :: u :: ts => t :: .term (some .listSep) true c!"," :: sepTrees (u :: ts)

/-- The tree of an optional comma-separated list. -/
def elems (r : Rule) (ts : List Tree) : List Tree := if ts.isEmpty then [] else [.node r (sepTrees ts)]

/-- The tree of a string literal. -/
def strTree (b : Str) : Tree := .node .aString (tok c!"'" :: (if b.isEmpty then [] else [.term .none false b]) ++ [tok c!"'"])

/-- The tree of an identifier. -/
def idTree (s : Str) : Tree := .term (some .anId) false s

/-- The trees of `out_name=`. -/
def outTrees : Option Str → List Tree
  | .none => []
  | some o => [idTree o, tok c!"="]

mutual
/-- The parse tree of a value. -/
def tree : Ast → Tree
  | .none => .node .value [.term (some .aNone) false c!"None"]
  | .bool b => .node .value [.node .aBool [if b then .term (some .aTrue) false c!"True" else .term (some .aFalse) false c!"False"]]
  | .num t => .node .value [.node .aNumber [.term .none false t]]
  | .str b => .node .value [strTree b]
  | .cls b => .node .value [.node .aClass [tok c!"<class ", strTree b, tok c!">"]]
  | .tuple xs => .node .value [.node .aTuple (tok c!"(" :: elems .listElements (treeL xs) ++ [tok c!")"])]
  | .list xs => .node .value [.node .aList (tok c!"[" :: elems .listElements (treeL xs) ++ [tok c!"]"])]
  | .set xs => .node .value [.node .aSet [
      if xs.isEmpty then .node .anEmptySet [.term .none false c!"set()"]
      else .node .aNonEmptySet (tok c!"{" :: elems .listElements (treeL xs) ++ [tok c!"}"])]]
  | .fset xs => .node .value [.node .aSet [
      if xs.isEmpty then .node .anEmptySet [.term .none false c!"frozenset()"]
      else .node .aNonEmptySet (tok c!"frozenset({" :: elems .listElements (treeL xs) ++ [tok c!"})"])]]
  | .dict kvs => .node .value [.node .aDict (tok c!"{" :: elems .dictElements (treeD kvs) ++ [tok c!"}"])]
  | .what o n kvs =>
    .node .value [.node .whatamiId (outTrees o ++ idTree n :: tok c!"(" :: elems .kvs (treeA kvs) ++ [tok c!")"])]
termination_by structural a => a
/-- The trees of the elements. -/
def treeL : List Ast → List Tree
  | [] => []
  | x :: xs => tree x :: treeL xs
termination_by structural xs => xs
/-- The trees of the items of a dict. -/
def treeD : List (Ast × Ast) → List Tree
  | [] => []
  | (k, v) :: xs => .node .dictkv [tree k, tok c!":", tree v] :: treeD xs
termination_by structural xs => xs
/-- The trees of parameters. -/
def treeA : List (Str × Ast) → List Tree
  | [] => []
  | (k, v) :: xs => .node .kv [idTree k, tok c!"=", tree v] :: treeA xs
termination_by structural xs => xs
end

/-- The tree of a top-level id. -/
def topTree (o : Option Str) (n : Str) (kvs : List (Str × Ast)) : Tree :=
  .node .whatamiIdTop [.node .whatamiId (outTrees o ++ idTree n :: tok c!"(" :: elems .kvs (treeA kvs) ++ [tok c!")"]),
    tok []]

/-! ### Well-formedness -/

/-- An ASCII identifier. -/
def Ident (s : Str) : Prop := ∃ c r, s = c :: r ∧ isIdStart c = true ∧ r.all isIdChar = true

/-- Digits, at least one. -/
def Digits (s : Str) : Prop := s ≠ [] ∧ s.all isDig = true

/-- `-?digits[.digits][(e|E)[+|-]digits]`, or one of the three special floats. -/
inductive NumShape : Str → Prop
  | digits (neg : Bool) {ds fr ex : Str} : Digits ds →
      (fr = [] ∨ ∃ f, fr = '.' :: f ∧ f.all isDig = true) →
      (ex = [] ∨ ∃ c sg e, ex = c :: (sg ++ e) ∧ (c = 'e' ∨ c = 'E') ∧ (sg = [] ∨ sg = ['+'] ∨ sg = ['-']) ∧ Digits e) →
      NumShape ((if neg then ['-'] else []) ++ ds ++ fr ++ ex)
  | inf : NumShape c!"inf"
  | minusInf : NumShape c!"-inf"
  | nan : NumShape c!"nan"

/-- Bodies of string literals: ordinary characters, and backslashes each with the character it escapes (a backslash
before a newline is ordinary). -/
inductive Units : Str → Prop
  | nil : Units []
  | char {c : Char} {r : Str} : c ≠ '\'' → c ≠ '\\' → Units r → Units (c :: r)
  | esc {d : Char} {r : Str} : d ≠ '\n' → Units r → Units ('\\' :: d :: r)
  | backslashNl {r : Str} : Units r → Units ('\\' :: '\n' :: r)

/-- A literal that reads as itself: made of units, no whitespace in front. -/
def GoodBody (b : Str) : Prop := Units b ∧ ∀ c r, b = c :: r → isWs c = false

/-- The words that a nested name (or out_name) must not begin with, because the parser takes them for a value. -/
def reserved : List Str := [c!"None", c!"True", c!"False", c!"inf", c!"nan"]

/-- A name that is read as a name when it starts a nested value. -/
def NestedStart (s : Str) : Prop := ∀ w ∈ reserved, ¬ w <+: s

mutual
/-- Well-formed syntax. -/
def Wf : Ast → Prop
  | .none | .bool _ => True
  | .num t => NumShape t
  | .str b | .cls b => GoodBody b
  | .tuple xs | .list xs | .set xs | .fset xs => WfL xs
  | .dict kvs => WfD kvs
  | .what o n kvs => (∀ x, o = some x → Ident x) ∧ Ident n ∧ NestedStart (o.getD n) ∧ WfA kvs
termination_by structural a => a
/-- All elements are. -/
def WfL : List Ast → Prop
  | [] => True
  | x :: xs => Wf x ∧ WfL xs
termination_by structural xs => xs
/-- All keys and values are. -/
def WfD : List (Ast × Ast) → Prop
  | [] => True
  | (k, v) :: xs => Wf k ∧ Wf v ∧ WfD xs
termination_by structural xs => xs
/-- All keys are identifiers, all values well-formed. -/
def WfA : List (Str × Ast) → Prop
  | [] => True
  | (k, v) :: xs => Ident k ∧ Wf v ∧ WfA xs
termination_by structural xs => xs
end

mutual
/-- No nested id reads `set()` or `frozenset()`, which is the empty set. -/
def NoSetCall : Ast → Prop
  | .tuple xs | .list xs | .set xs | .fset xs => NoSetCallL xs
  | .dict kvs => NoSetCallD kvs
  | .what o n kvs => (o = .none → kvs = [] → n ≠ c!"set" ∧ n ≠ c!"frozenset") ∧ NoSetCallA kvs
  | _ => True
termination_by structural a => a
/-- `NoSetCall` of all elements. -/
def NoSetCallL : List Ast → Prop
  | [] => True
  | x :: xs => NoSetCall x ∧ NoSetCallL xs
termination_by structural xs => xs
/-- `NoSetCall` of all keys and values. -/
def NoSetCallD : List (Ast × Ast) → Prop
  | [] => True
  | (k, v) :: xs => NoSetCall k ∧ NoSetCall v ∧ NoSetCallD xs
termination_by structural xs => xs
/-- `NoSetCall` of all parameters. -/
def NoSetCallA : List (Str × Ast) → Prop
  | [] => True
  | (_, v) :: xs => NoSetCall v ∧ NoSetCallA xs
termination_by structural xs => xs
end

end Whatami
