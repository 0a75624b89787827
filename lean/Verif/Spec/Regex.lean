import Verif.Basic

/-
Specification: Python regular expressions, as far as the grammars use them, and `re.match`.

A pattern has several ways of matching at a position; they are listed in the order in which `re` tries them
(alternatives from left to right, repetitions greedily), each as the input that is left.  `re.match` reports the
first one.
-/
namespace Whatami

/-- Patterns: one character of a class, the empty pattern, concatenation, alternative and greedy repetition. -/
inductive Re where
  | chr (p : Char → Bool)
  | eps
  | cat (a b : Re)
  | alt (a b : Re)
  | star (a : Re)

namespace Re
/-- `a?`, greedy. -/
def opt (a : Re) : Re := alt a eps
/-- `a+`, greedy. -/
def plus (a : Re) : Re := cat a (star a)
/-- A literal character. -/
def lit (c : Char) : Re := chr (· == c)
/-- A literal string. -/
def lits : List Char → Re
  | [] => eps
  | [c] => lit c
  | c :: cs => cat (lit c) (lits cs)

/-- Greedy repetition of `f`, at most `n` times; an iteration must consume something. -/
def starRun (f : Str → List Str) : Nat → Str → List Str
  | 0, s => [s]
  | n + 1, s => ((f s).filter (fun r => decide (r.length < s.length))).flatMap (starRun f n) ++ [s]

/-- All the ways to match at the beginning of `s`, in order of preference: the inputs left. -/
def run : Re → Str → List Str
  | chr _, [] => []
  | chr p, c :: r => if p c then [r] else []
  | eps, s => [s]
  | cat a b, s => (a.run s).flatMap b.run
  | alt a b, s => a.run s ++ b.run s
  | star a, s => starRun a.run s.length s

/-- `re.match(pattern, s)`: the text matched and the input left. -/
def matchR (a : Re) (s : Str) : Option (Str × Str) :=
  (a.run s).head?.map (fun r => (s.take (s.length - r.length), r))
end Re

end Whatami
