import Verif.Parser

/-
How much work the parser does: the number of times it tries to match a terminal (a string, a regular expression or the end of the text)
against the text.  Every other step of the parser is followed by such a try, at most a fixed number of steps later.
-/
namespace Whatami

/-- The number of calls to `Match.parse` that `run` makes: the parser is created without memoization, so that an expression that is tried
again at the same position is matched again.  Follows `run` step by step.  parsers.py:120 (arpeggio's defaults), 306. -/
def tries (g : Rule → Peg) : Nat → Bool → Peg → Str → Nat
  | 0, _, _, _ => 0
  | _ + 1, _, .str _, _ => 1
  | _ + 1, _, .rx _, _ => 1
  | _ + 1, _, .eof, _ => 1
  | _ + 1, _, .emp, _ => 0
  | _ + 1, _, .never, _ => 0
  | n + 1, _, .cat a b, s =>
    match run g n true a s with
    | .ok _ s' => tries g n true a s + tries g n true b s'
    | _ => tries g n true a s
  | n + 1, _, .alt a b, s =>
    match run g n false a s with
    | .timeout => tries g n false a s
    | .ok (_ :: _) _ => tries g n false a s
    | _ => tries g n false a s + tries g n false b s
  | n + 1, _, .opt e, s => tries g n false e s
  | n + 1, _, .star e, s =>
    match run g n false e s with
    | .ok (_ :: _) s' => tries g n false e s + tries g n false (.star e) s'
    | _ => tries g n false e s
  | n + 1, inSeq, .ref r, s => tries g n inSeq (g r) s

/-- The number of tries of `parser.parse(text)`.  parsers.py:306. -/
def parseTries (g : Rule → Peg) (s : Str) : Nat := tries g ((s.length + 1) * stepsPerChar) false (.ref .whatamiIdTop) s

end Whatami
