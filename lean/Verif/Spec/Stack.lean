import Verif.Spec.Within

/-
Specification: whatable objects inside one another, and what is left of them when the stack is short.
Definitions here are vocabulary for statements: the code they are about is cited in the model modules.
-/
namespace Whatami

/-- An instance of a class `c` decorated with `@whatable`, with one attribute `k` and the `str()` `s`. -/
def holder (c k s : Str) (u : Val) : Val := .obj c false [] [(k, u)] [] [] (some {}) s

/-- `j` of them inside one another, the innermost one holding `u`. -/
def nested (c k s : Str) : Nat → Val → Val
  | 0, u => u
  | j + 1, u => holder c k s (nested c k s j u)

/-- The text of `j` of them around the text `t`: `c(k=c(k=...t...))`. -/
def nestedText (c k : Str) : Nat → Str → Str
  | 0, t => t
  | j + 1, t => c ++ ['('] ++ k ++ ['='] ++ nestedText c k j t ++ [')']

/-- The text that shows the outer `j` and then `c()`, as if the next one held nothing. -/
def cutText (c k : Str) (j : Nat) : Str := nestedText c k j (c ++ ['(', ')'])

/-- Made of whatable objects that print as `... at 0x...`, and of None, booleans, numbers and strings. -/
inductive WhatableTree : Val → Prop where
  | none : WhatableTree .none
  | bool (b : Bool) : WhatableTree (.bool b)
  | int (i : Int) : WhatableTree (.int i)
  | float (t : Str) : WhatableTree (.float t)
  | str (s : Str) : WhatableTree (.str s)
  | obj (c : Str) (dd : List (Str × Val)) (s : Str) :
      (∀ kv ∈ dd, WhatableTree kv.2) → WhatableTree (.obj c false [] dd [] [] (some {}) s)

end Whatami
