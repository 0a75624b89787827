import Verif.ParseSem

/-
Specification of the concrete syntax of old-style ids (`name#key=value#...`): abstract syntax, tokens, parse trees and meaning.
Nothing here refers to the parser's algorithm.
Definitions here are vocabulary for statements and proofs: the code they are about is cited in the model modules.
-/
namespace Whatami

/-- The abstract syntax of a value in an old-style id.  `braces` is `{}`; `what true` is a nested id in double quotes. -/
inductive OAst where
  | none
  | bool (b : Bool)
  | num (t : Str)
  | str (body : Str)
  | tuple (xs : List OAst)
  | list (xs : List OAst)
  | set (xs : List OAst)
  | braces
  | dict (kvs : List (OAst × OAst))
  | what (quoted : Bool) (name : Str) (kvs : List (Str × OAst))
deriving Repr

/-- Tokens of parameters after the first, each after a `#`. -/
def hashRest : List (List Str) → List Str
  | [] => []
  | t :: ts => c!"#" :: t ++ hashRest ts

/-- Tokens of parameters separated by `#`. -/
def hashToks : List (List Str) → List Str
  | [] => []
  | t :: ts => t ++ hashRest ts

/-- The double quotes around some nested ids. -/
def quoteTok (q : Bool) : List Str := if q then [c!"\""] else []

mutual
/-- The tokens of a value. -/
def otoks : OAst → List Str
  | .none => [c!"None"]
  | .bool b => [if b then c!"True" else c!"False"]
  | .num t => [t]
  | .str b => [c!"'", b ++ c!"'"]
  | .tuple xs => c!"(" :: sepToks (otoksL xs) ++ [c!")"]
  | .list xs => c!"[" :: sepToks (otoksL xs) ++ [c!"]"]
  | .set xs => if xs.isEmpty then [c!"set()"] else c!"{" :: sepToks (otoksL xs) ++ [c!"}"]
  | .braces => [c!"{", c!"}"]
  | .dict kvs => c!"{" :: sepToks (otoksD kvs) ++ [c!"}"]
  | .what q n kvs => quoteTok q ++ (n :: c!"#" :: hashToks (otoksA kvs)) ++ quoteTok q
termination_by structural a => a
/-- The tokens of the elements. -/
def otoksL : List OAst → List (List Str)
  | [] => []
  | x :: xs => otoks x :: otoksL xs
termination_by structural xs => xs
/-- The tokens of the items of a dict. -/
def otoksD : List (OAst × OAst) → List (List Str)
  | [] => []
  | (k, v) :: xs => (otoks k ++ c!":" :: otoks v) :: otoksD xs
termination_by structural xs => xs
/-- The tokens of parameters. -/
def otoksA : List (Str × OAst) → List (List Str)
  | [] => []
  | (k, v) :: xs => (k :: c!"=" :: otoks v) :: otoksA xs
termination_by structural xs => xs
end

/-! ### Parse trees -/

/-- Trees of parameters after the first. -/
def hashRestTrees : List Tree → List Tree
  | [] => []
  | t :: ts => tok c!"#" :: t :: hashRestTrees ts

/-- The tree of optional parameters. -/
def hashElems : List Tree → List Tree
  | [] => []
  | t :: ts => [.node .kvs (t :: hashRestTrees ts)]

/-- The double quotes around some nested ids. -/
def quoteTree (q : Bool) : List Tree := if q then [tok c!"\""] else []

/-- The tree of an id. -/
def oidTree (q : Bool) (n : Str) (ts : List Tree) : Tree :=
  .node .whatamiId (quoteTree q ++ (idTree n :: tok c!"#" :: hashElems ts) ++ quoteTree q)

mutual
/-- The parse tree of a value. -/
def otree : OAst → Tree
  | .none => .node .value [.term (some .aNone) false c!"None"]
  | .bool b => .node .value [.node .aBool [if b then .term (some .aTrue) false c!"True" else .term (some .aFalse) false c!"False"]]
  | .num t => .node .value [.node .aNumber [.term .none false t]]
  | .str b => .node .value [strTree b]
  | .tuple xs => .node .value [.node .aTuple (tok c!"(" :: elems .listElements (otreeL xs) ++ [tok c!")"])]
  | .list xs => .node .value [.node .aList (tok c!"[" :: elems .listElements (otreeL xs) ++ [tok c!"]"])]
  | .set xs => .node .value [.node .aSet [
      if xs.isEmpty then .term (some .anEmptySet) false c!"set()"
      else .node .aNonEmptySet (tok c!"{" :: elems .listElements (otreeL xs) ++ [tok c!"}"])]]
  | .braces => .node .value [.node .aSet [.node .aNonEmptySet [tok c!"{", tok c!"}"]]]
  | .dict kvs => .node .value [.node .aDict (tok c!"{" :: elems .dictElements (otreeD kvs) ++ [tok c!"}"])]
  | .what q n kvs => .node .value [oidTree q n (otreeA kvs)]
termination_by structural a => a
/-- The trees of the elements. -/
def otreeL : List OAst → List Tree
  | [] => []
  | x :: xs => otree x :: otreeL xs
termination_by structural xs => xs
/-- The trees of the items of a dict. -/
def otreeD : List (OAst × OAst) → List Tree
  | [] => []
  | (k, v) :: xs => .node .dictkv [otree k, tok c!":", otree v] :: otreeD xs
termination_by structural xs => xs
/-- The trees of parameters. -/
def otreeA : List (Str × OAst) → List Tree
  | [] => []
  | (k, v) :: xs => .node .kv [idTree k, tok c!"=", otree v] :: otreeA xs
termination_by structural xs => xs
end

/-- The tree of a top-level id. -/
def otopTree (q : Bool) (n : Str) (kvs : List (Str × OAst)) : Tree :=
  .node .whatamiIdTop [oidTree q n (otreeA kvs), tok []]

/-! ### Well-formedness -/

/-- A nested id with parameters and without quotes: all parameters to its right are its own. -/
def Open : OAst → Prop
  | .what false _ (_ :: _) => True
  | _ => False

mutual
/-- Well-formed syntax. -/
def OWf : OAst → Prop
  | .none | .bool _ | .braces => True
  | .num t => NumShape t
  | .str b => GoodBody b
  | .tuple xs | .list xs | .set xs => OWfL xs
  | .dict kvs => kvs ≠ [] ∧ OWfD kvs
  | .what q n kvs => Ident n ∧ (q = false → NestedStart n) ∧ OWfA kvs
termination_by structural a => a
/-- All elements are. -/
def OWfL : List OAst → Prop
  | [] => True
  | x :: xs => OWf x ∧ OWfL xs
termination_by structural xs => xs
/-- All keys and values are. -/
def OWfD : List (OAst × OAst) → Prop
  | [] => True
  | (k, v) :: xs => OWf k ∧ OWf v ∧ OWfD xs
termination_by structural xs => xs
/-- All keys are identifiers, all values well-formed, and only the last one may be open. -/
def OWfA : List (Str × OAst) → Prop
  | [] => True
  | (k, v) :: xs => Ident k ∧ OWf v ∧ (xs ≠ [] → ¬ Open v) ∧ OWfA xs
termination_by structural xs => xs
end

/-! ### Meaning -/

mutual
/-- The same value in the syntax of new-style ids: `name(key=value,...)` for `name#key=value#...`. -/
def modern : OAst → Ast
  | .none => .none
  | .bool b => .bool b
  | .num t => .num t
  | .str b => .str b
  | .tuple xs => .tuple (modernL xs)
  | .list xs => .list (modernL xs)
  | .set xs => .set (modernL xs)
  | .braces => .dict []
  | .dict kvs => .dict (modernD kvs)
  | .what _ n kvs => .what Option.none n (modernA kvs)
termination_by structural a => a
/-- The elements in new syntax. -/
def modernL : List OAst → List Ast
  | [] => []
  | x :: xs => modern x :: modernL xs
termination_by structural xs => xs
/-- The items of a dict in new syntax. -/
def modernD : List (OAst × OAst) → List (Ast × Ast)
  | [] => []
  | (k, v) :: xs => (modern k, modern v) :: modernD xs
termination_by structural xs => xs
/-- The parameters in new syntax. -/
def modernA : List (Str × OAst) → List (Str × Ast)
  | [] => []
  | (k, v) :: xs => (k, modern v) :: modernA xs
termination_by structural xs => xs
end

mutual
/-- No `{}` in the value. -/
def NoBraces : OAst → Prop
  | .braces => False
  | .tuple xs | .list xs | .set xs => NoBracesL xs
  | .dict kvs => NoBracesD kvs
  | .what _ _ kvs => NoBracesA kvs
  | _ => True
termination_by structural a => a
/-- No `{}` in the elements. -/
def NoBracesL : List OAst → Prop
  | [] => True
  | x :: xs => NoBraces x ∧ NoBracesL xs
termination_by structural xs => xs
/-- No `{}` in keys and values. -/
def NoBracesD : List (OAst × OAst) → Prop
  | [] => True
  | (k, v) :: xs => NoBraces k ∧ NoBraces v ∧ NoBracesD xs
termination_by structural xs => xs
/-- No `{}` in the parameters. -/
def NoBracesA : List (Str × OAst) → Prop
  | [] => True
  | (_, v) :: xs => NoBraces v ∧ NoBracesA xs
termination_by structural xs => xs
end

/-- `s` is the old-style id `name#key=value#...` (possibly all in double quotes) with any spacing before each token and at the end. -/
def OldLayout (q : Bool) (n : Str) (kvs : List (Str × OAst)) (s : Str) : Prop :=
  ∃ p ws, s = p ++ ws ∧ Padded (otoks (.what q n kvs)) p ∧ ws.all isWs = true

/-- The id is well-formed. -/
def OldWf (n : Str) (kvs : List (Str × OAst)) : Prop := Ident n ∧ OWfA kvs

end Whatami
