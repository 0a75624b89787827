import Verif.FlatMem
import Verif.Spec.EqMem

/-
Specification: the keys of configurations in memory.
Definitions here are vocabulary for statements: the code they are about is cited in the model modules.
-/
namespace Whatami

/-- The value at `a` has the one at `r` under the key: a parameter (if it is one for the id, or all are asked for); if collections are asked for, an item
of a list or tuple under its index, a value of a dict under its key. -/
inductive HasUnder (o : FlatOpts) (mem : Nat → ECell) (a : Nat) : KeyStep → Nat → Prop
  | param {n : Str} {d : Nat} {nk : List Str} {out : Option Str} {kvs : List (Str × Nat)} {k : Str} {r : Nat} : mem a = .what n d nk out → mem d = .dict kvs →
      (k, r) ∈ kvs → o.nonIdsToo = true ∨ k ∉ nk → HasUnder o mem a (.key k) r
  | list {xs : List Nat} {i r : Nat} : o.collectionsToo = true → mem a = .list xs → xs[i]? = some r → HasUnder o mem a (.idx i) r
  | tuple {xs : List Nat} {i r : Nat} : o.collectionsToo = true → mem a = .tuple xs → xs[i]? = some r → HasUnder o mem a (.idx i) r
  | dict {kvs : List (Str × Nat)} {k : Str} {r : Nat} : o.collectionsToo = true → mem a = .dict kvs → (k, r) ∈ kvs → HasUnder o mem a (.key k) r

/-- The path leads from the value at `a` to the one at `r`. -/
inductive PathTo (o : FlatOpts) (mem : Nat → ECell) : Nat → List KeyStep → Nat → Prop
  | one {a r : Nat} {k : KeyStep} : HasUnder o mem a k r → PathTo o mem a [k] r
  | more {a x r : Nat} {k : KeyStep} {p : List KeyStep} : HasUnder o mem a k x → PathTo o mem x p r → PathTo o mem a (k :: p) r

/-- The order of what is listed: keys before those under them, siblings (and all under them) by name, names by their characters, or by index. -/
inductive KeyBefore : List KeyStep → List KeyStep → Prop
  | parent (k : KeyStep) (q : List KeyStep) : KeyBefore [] (k :: q)
  | names {k k' : Str} (q q' : List KeyStep) : List.Lex (fun c d : Char => c.toNat < d.toNat) k k' → KeyBefore (.key k :: q) (.key k' :: q')
  | indices {i j : Nat} (q q' : List KeyStep) : i < j → KeyBefore (.idx i :: q) (.idx j :: q')
  | inside (k : KeyStep) {p q : List KeyStep} : KeyBefore p q → KeyBefore (k :: p) (k :: q)

/-- A step of a key, as `flatten` gives it. -/
def KeyStep.val : KeyStep → Val
  | .key k => .str k
  | .idx i => .int i

/-- There is no end to its keys. -/
def EndlessKeys (o : FlatOpts) (mem : Nat → ECell) (a : Nat) : Prop := ∃ x : Nat → Nat, x 0 = a ∧ ∀ i, ∃ k, HasUnder o mem (x i) k (x (i + 1))

end Whatami
