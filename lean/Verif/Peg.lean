import Verif.Basic

/-
The part of arpeggio (>= 1.5) that parsers.py uses: parsing expressions, matching and parse trees.

arpeggio itself is a dependency, not part of the repository: this file states how it is taken to work.
Positions are represented by the remaining input.  Every step takes one unit of fuel; `timeout` is the outcome
of a run whose fuel does not suffice, and stands for a parser that does not stop.  (That enough fuel exists for
every input is theorem C10, not an assumption.)
-/
namespace Whatami

/-- The characters `ParserPython` skips before every match (its default `ws`, '\t\n\r ').
parsers.py:120 (the parser's defaults). -/
def isWs (c : Char) : Bool := c == ' ' || c == '\t' || c == '\n' || c == '\r'

/-- Whitespace skipping.  parsers.py:120 (the parser's defaults). -/
def skipWs (s : Str) : Str := s.dropWhile isWs

/-- `[_A-Za-z]`.  parsers.py:45. -/
def isIdStart (c : Char) : Bool :=
  c == '_' || decide (65 ≤ c.toNat ∧ c.toNat ≤ 90) || decide (97 ≤ c.toNat ∧ c.toNat ≤ 122)

/-- `[_a-zA-Z0-9]`.  parsers.py:45. -/
def isIdChar (c : Char) : Bool := isIdStart c || isDig c

/-- The three regular expressions of the grammars (parsers.py:45, 48, 52 and 339, 342, 346). -/
inductive Rx where
  /-- `[_A-Za-z][_a-zA-Z0-9]*` -/
  | ident
  /-- `-?\d+((\.\d*)?((e|E)(\+|-)?\d+)?)?`, with ASCII digits -/
  | number
  /-- `(\\.|[^'])*`, where `.` is anything but a newline -/
  | body
deriving DecidableEq, Repr

/-- `((e|E)(\+|-)?\d+)?`.  parsers.py:48. -/
def scanExp (s : Str) : Str × Str :=
  match s with
  | [] => ([], [])
  | c :: r =>
    if c = 'e' ∨ c = 'E' then
      match r with
      | [] => ([], s)
      | d :: r' =>
        if d = '+' ∨ d = '-' then
          match r'.takeWhile isDig with
          | [] => ([], s)
          | ds => (c :: d :: ds, r'.dropWhile isDig)
        else
          match r.takeWhile isDig with
          | [] => ([], s)
          | ds => (c :: ds, r.dropWhile isDig)
    else ([], s)

/-- `(\.\d*)?`.  parsers.py:48. -/
def scanFrac (s : Str) : Str × Str :=
  match s with
  | [] => ([], [])
  | c :: r => if c = '.' then (c :: r.takeWhile isDig, r.dropWhile isDig) else ([], s)

/-- `\d+(...)?`.  parsers.py:48. -/
def scanUnsigned (s : Str) : Option (Str × Str) :=
  match s.takeWhile isDig with
  | [] => none
  | ds =>
    let (fr, r) := scanFrac (s.dropWhile isDig)
    let (ex, r) := scanExp r
    some (ds ++ fr ++ ex, r)

/-- `-?\d+(...)?`.  parsers.py:48. -/
def scanNumber (s : Str) : Option (Str × Str) :=
  match s with
  | [] => none
  | c :: r =>
    if c = '-' then
      match scanUnsigned r with
      | none => none
      | some (t, r') => some ('-' :: t, r')
    else scanUnsigned s

/-- `(\\.|[^'])*`: a backslash takes the next character with it, unless that is a newline or there is none.
parsers.py:52. -/
def scanBody : Str → Str × Str
  | [] => ([], [])
  | c :: r =>
    if c = '\'' then ([], c :: r)
    else if c = '\\' then
      match r with
      | [] => ([c], [])
      | d :: r' =>
        if d = '\n' then
          let (t, u) := scanBody (d :: r')
          (c :: t, u)
        else
          let (t, u) := scanBody r'
          (c :: d :: t, u)
    else
      let (t, u) := scanBody r
      (c :: t, u)

/-- `re.match`: the matched text and the remaining input.  parsers.py:45,48,52. -/
def Rx.scan : Rx → Str → Option (Str × Str)
  | .ident, [] => none
  | .ident, c :: r => if isIdStart c then some (c :: r.takeWhile isIdChar, r.dropWhile isIdChar) else none
  | .number, s => scanNumber s
  | .body, s => some (scanBody s)

/-- The rule functions of parsers.py, by name. -/
inductive Rule where
  | listSep | anId | aNumber | aString | aTrue | aFalse | aBool | aNone | aClass | listElements | aList | aTuple
  | dictkv | dictElements | aDict | anEmptySet | aNonEmptySet | aSet | value | kv | kvs | whatamiId | whatamiIdTop
deriving DecidableEq, Repr

/-- Parsing expressions.  `Sequence` is `cat`/`emp`, `OrderedChoice` is `alt`/`never` (see `seq`, `choice`).
arpeggio, imported at parsers.py:1-10. -/
inductive Peg where
  | str (s : Str)
  | rx (r : Rx)
  | eof
  | emp
  | cat (a b : Peg)
  | never
  | alt (a b : Peg)
  | opt (e : Peg)
  | star (e : Peg)
  | ref (r : Rule)
deriving DecidableEq, Repr

/-- `Sequence(es)`.  arpeggio: tuples in parsers.py:31-118. -/
def seq (es : List Peg) : Peg := es.foldr .cat .emp

/-- `OrderedChoice(es)`.  arpeggio: lists in parsers.py:31-118. -/
def choice (es : List Peg) : Peg := es.foldr .alt .never

/-- Subclasses of arpeggio's `Match`.  arpeggio. -/
def Peg.isMatch : Peg → Bool
  | .str _ | .rx _ | .eof => true
  | _ => false

/-- Parse trees: terminals (with the name of the rule they are the whole body of, if any, and the flag
`suppress`) and non-terminals.  arpeggio; visited at parsers.py:306. -/
inductive Tree where
  | term (rule : Option Rule) (suppress : Bool) (text : Str)
  | node (rule : Rule) (children : List Tree)
deriving Repr

/-- The outcome of parsing: no fuel left, `NoMatch`, or the trees and the remaining input.  arpeggio. -/
inductive Out where
  | timeout
  | fail
  | ok (ts : List Tree) (rest : Str)
deriving Repr

/-- The result of a rule: a match keeps its terminal, now named after the rule; an empty result gives no node.
arpeggio, with `reduce_tree=False` (parsers.py:12,120). -/
def ruleResult (r : Rule) (body : Peg) (ts : List Tree) : List Tree :=
  if body.isMatch then
    ts.map fun t => match t with | .term _ b s => .term (some r) b s | t => t
  else
    match ts with
    | [] => []
    | ts => [.node r ts]

/-- `ParsingExpression.parse`.  `inSeq`: the enclosing expression is a Sequence (then string matches are flagged
`suppress`).  arpeggio, as called at parsers.py:306. -/
def run (g : Rule → Peg) : Nat → Bool → Peg → Str → Out
  | 0, _, _, _ => .timeout
  | _ + 1, inSeq, .str t, s => if t.isPrefixOf (skipWs s) then .ok [.term none inSeq t] ((skipWs s).drop t.length) else .fail
  | _ + 1, _, .rx r, s =>
    match r.scan (skipWs s) with
    | none => .fail
    | some ([], rest) => .ok [] rest
    | some (t, rest) => .ok [.term none false t] rest
  | _ + 1, _, .eof, s => if skipWs s = [] then .ok [.term none true []] [] else .fail
  | _ + 1, _, .emp, s => .ok [] s
  | n + 1, _, .cat a b, s =>
    match run g n true a s with
    | .timeout => .timeout
    | .fail => .fail
    | .ok ts s' =>
      match run g n true b s' with
      | .timeout => .timeout
      | .fail => .fail
      | .ok us s'' => .ok (ts ++ us) s''
  | _ + 1, _, .never, _ => .fail
  | n + 1, _, .alt a b, s =>
    match run g n false a s with
    | .timeout => .timeout
    | .ok (t :: ts) s' => .ok (t :: ts) s'
    | _ => run g n false b s
  | n + 1, _, .opt e, s =>
    match run g n false e s with
    | .timeout => .timeout
    | .fail => .ok [] s
    | .ok ts s' => .ok ts s'
  | n + 1, _, .star e, s =>
    match run g n false e s with
    | .timeout => .timeout
    | .fail => .ok [] s
    | .ok [] s' => .ok [] s'
    | .ok (t :: ts) s' =>
      match run g n false (.star e) s' with
      | .timeout => .timeout
      | .fail => .fail
      | .ok us s'' => .ok (t :: ts ++ us) s''
  | n + 1, inSeq, .ref r, s =>
    match run g n inSeq (g r) s with
    | .timeout => .timeout
    | .fail => .fail
    | .ok ts s' => .ok (ruleResult r (g r) ts) s'

/-! ### The grammars -/

/-- parsers.py:31-120: the grammar of the current ids. -/
def newGrammar : Rule → Peg
  | .listSep => .str c!","
  | .anId => .rx .ident
  | .aNumber => choice [.rx .number, .str c!"-inf", .str c!"inf", .str c!"nan"]
  | .aString => seq [.str c!"'", .rx .body, .str c!"'"]
  | .aTrue => .str c!"True"
  | .aFalse => .str c!"False"
  | .aBool => choice [.ref .aTrue, .ref .aFalse]
  | .aNone => .str c!"None"
  | .aClass => seq [.str c!"<class ", .ref .aString, .str c!">"]
  | .listElements => seq [.ref .value, .star (seq [.ref .listSep, .ref .value])]
  | .aList => seq [.str c!"[", .opt (.ref .listElements), .str c!"]"]
  | .aTuple => seq [.str c!"(", .opt (.ref .listElements), .str c!")"]
  | .dictkv => seq [.ref .value, .str c!":", .ref .value]
  | .dictElements => seq [.ref .dictkv, .star (seq [.ref .listSep, .ref .dictkv])]
  | .aDict => seq [.str c!"{", .opt (.ref .dictElements), .str c!"}"]
  | .anEmptySet => choice [.str c!"set()", .str c!"frozenset()"]
  | .aNonEmptySet => choice [seq [.str c!"{", .ref .listElements, .str c!"}"],
      seq [.str c!"frozenset({", .ref .listElements, .str c!"})"]]
  | .aSet => choice [.ref .anEmptySet, .ref .aNonEmptySet]
  | .value => choice [.ref .aNone, .ref .aBool, .ref .aNumber, .ref .aString, .ref .aTuple, .ref .aList, .ref .aSet,
      .ref .aDict, .ref .aClass, .ref .whatamiId]
  | .kv => seq [.ref .anId, .str c!"=", .ref .value]
  | .kvs => seq [.ref .kv, .star (seq [.ref .listSep, .ref .kv])]
  | .whatamiId => seq [.opt (seq [.ref .anId, .str c!"="]), .ref .anId, .str c!"(", .opt (.ref .kvs), .str c!")"]
  | .whatamiIdTop => seq [.ref .whatamiId, .eof]

/-- parsers.py:316-409: the grammar of the old ids (`a_class` does not exist there). -/
def oldGrammar : Rule → Peg
  | .aClass => .never
  | .anEmptySet => .str c!"set()"
  | .aNonEmptySet => seq [.str c!"{", .opt (.ref .listElements), .str c!"}"]
  | .value => choice [.ref .aNone, .ref .aBool, .ref .aNumber, .ref .aString, .ref .aTuple, .ref .aList, .ref .aSet,
      .ref .aDict, .ref .whatamiId]
  | .kvs => seq [.ref .kv, .star (seq [.str c!"#", .ref .kv])]
  | .whatamiId => choice [seq [.ref .anId, .str c!"#", .opt (.ref .kvs)],
      seq [.str c!"\"", .ref .anId, .str c!"#", .opt (.ref .kvs), .str c!"\""]]
  | r => newGrammar r

end Whatami
