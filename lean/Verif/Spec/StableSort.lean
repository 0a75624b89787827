import Verif.GenKeys

/-
What is relied on of Python's `sorted`: it sorts, and keeps the order of items of which none is below the other.  That is only promised for orders.
-/
namespace Whatami

/-- "Below" is a strict weak order of the first `n` positions. -/
def WeakOrder (n : Nat) (lt : Nat → Nat → Bool) : Prop :=
  (∀ i j, i < n → j < n → lt i j = true → lt j i = false) ∧
  ∀ i j k, i < n → j < n → k < n → lt i j = true → lt i k = true ∨ lt k j = true

/-- Whatever strict weak order the items are in, `alg n` lists the `n` positions in that order, and positions of which none is below the other as they
were. -/
def StableSort (alg : Nat → SortProg) : Prop :=
  ∀ n lt, WeakOrder n lt → ∃ l, (alg n).run (fun i j => .ok (lt i j)) = .ok l ∧ l.Perm (List.range n) ∧
    l.Pairwise fun i j => lt j i = false ∧ (lt i j = true ∨ i < j)

/-- Kinds of keys: those of different kinds cannot be compared. -/
inductive KeyKind where
  | text | number | nothing
deriving DecidableEq

/-- Strings, integers and booleans, and None: each is of its kind. -/
def PyKey.kind? : PyKey → Option KeyKind
  | .str _ => some .text
  | .int _ => some .number
  | .bool _ => some .number
  | .none => some .nothing
  | _ => Option.none

end Whatami
