import Verif.Ast

/-
How the syntax of an id is spelt and what it means, as relations: no function of the parser is used here.
Vocabulary for the statements of C63; the code they are about is parsers.py:142-260.
-/
namespace Whatami

/-! ### Spelling -/

/-- `set()` or `frozenset()` as a call. -/
def SetCall (o : Option Str) (n : Str) (kvs : List (Str × Ast)) : Prop := o = none ∧ kvs = [] ∧ (n = c!"set" ∨ n = c!"frozenset")

mutual
/-- The syntax is spelt with these tokens.  They are those of `toks`, but in a nested `set ( )` or `frozenset ( )` one of the tokens ends in
whitespace. -/
def Spelt : Ast → List Str → Prop
  | .tuple xs, ts => ∃ tss, SpeltL xs tss ∧ ts = c!"(" :: sepToks tss ++ [c!")"]
  | .list xs, ts => ∃ tss, SpeltL xs tss ∧ ts = c!"[" :: sepToks tss ++ [c!"]"]
  | .set xs, ts => ∃ tss, SpeltL xs tss ∧ ts = if xs.isEmpty then [c!"set()"] else c!"{" :: sepToks tss ++ [c!"}"]
  | .fset xs, ts => ∃ tss, SpeltL xs tss ∧ ts = if xs.isEmpty then [c!"frozenset()"] else c!"frozenset({" :: sepToks tss ++ [c!"})"]
  | .dict kvs, ts => ∃ tss, SpeltD kvs tss ∧ ts = c!"{" :: sepToks tss ++ [c!"}"]
  | .what o n kvs, ts => ∃ tss, SpeltA kvs tss ∧
      ((¬ SetCall o n kvs ∧ ts = outToks o ++ n :: c!"(" :: sepToks tss ++ [c!")"]) ∨
        (SetCall o n kvs ∧ ∃ c, isWs c = true ∧ (ts = [n ++ [c], c!"(", c!")"] ∨ ts = [n, ['(', c], c!")"])))
  | a, ts => ts = toks a
termination_by structural a => a
/-- The elements are. -/
def SpeltL : List Ast → List (List Str) → Prop
  | [], tss => tss = []
  | x :: xs, tss => ∃ t ts, Spelt x t ∧ SpeltL xs ts ∧ tss = t :: ts
termination_by structural xs => xs
/-- The items of a dict are. -/
def SpeltD : List (Ast × Ast) → List (List Str) → Prop
  | [], tss => tss = []
  | (k, v) :: xs, tss => ∃ t u ts, Spelt k t ∧ Spelt v u ∧ SpeltD xs ts ∧ tss = (t ++ c!":" :: u) :: ts
termination_by structural xs => xs
/-- Parameters are. -/
def SpeltA : List (Str × Ast) → List (List Str) → Prop
  | [], tss => tss = []
  | (k, v) :: xs, tss => ∃ t ts, Spelt v t ∧ SpeltA xs ts ∧ tss = (k :: c!"=" :: t) :: ts
termination_by structural xs => xs
end

/-- `s` is a text of the id: the tokens in order, whitespace before each of them and at the end. -/
def IsText (s : Str) (o : Option Str) (n : Str) (kvs : List (Str × Ast)) : Prop :=
  ∃ tss p ws, SpeltA kvs tss ∧ Padded (outToks o ++ n :: c!"(" :: sepToks tss ++ [c!")"]) p ∧ ws.all isWs = true ∧ s = p ++ ws

/-- Names are identifiers, numbers and strings have the right shape, nested names do not start like another value. -/
def WellFormed (o : Option Str) (n : Str) (kvs : List (Str × Ast)) : Prop := (∀ x, o = some x → Ident x) ∧ Ident n ∧ WfA kvs

/-! ### Meaning -/

/-- The number that digits stand for (leading zeros allowed, as `int()` does). -/
def NatOf (t : Str) (n : Nat) : Prop :=
  t ≠ [] ∧ (∀ c ∈ t, '0' ≤ c ∧ c ≤ '9') ∧ t.foldl (fun acc c => acc * 10 + (c.toNat - '0'.toNat)) 0 = n

/-- Digits, or a minus and digits. -/
def IntText (t : Str) : Prop := ∃ d n, NatOf d n ∧ (t = d ∨ t = '-' :: d)

/-- The text is `module.name`, or just a name (and the module is empty); a name has no dot. -/
def DottedName (b m n : Str) : Prop := '.' ∉ n ∧ (b = m ++ '.' :: n ∨ (b = n ∧ m = []))

/-- What a number is equal to, if that is an integer.  `fi` gives it for floats. -/
inductive IsInteger (fi : Str → Option Int) : Val → Int → Prop where
  | true : IsInteger fi (.bool true) 1
  | false : IsInteger fi (.bool false) 0
  | int (i : Int) : IsInteger fi (.int i) i
  | float {t : Str} {i : Int} : fi t = some i → IsInteger fi (.float t) i

/-- Two dict keys or set elements are equal.  Two nans never are. -/
inductive SameKey (fi : Str → Option Int) : Val → Val → Prop where
  | none : SameKey fi .none .none
  | str (s : Str) : SameKey fi (.str s) (.str s)
  | cls (f : Str) : SameKey fi (.cls f) (.cls f)
  | numtype (f : Str) : SameKey fi (.numtype f) (.numtype f)
  | integer {a b : Val} {i : Int} : IsInteger fi a i → IsInteger fi b i → SameKey fi a b
  | float {t : Str} : fi t = none → t ≠ c!"nan" → SameKey fi (.float t) (.float t)
  | tuple {xs ys : List Val} : xs.length = ys.length →
      (∀ (i : Nat) x y, xs[i]? = some x → ys[i]? = some y → SameKey fi x y) → SameKey fi (.tuple xs) (.tuple ys)

/-- What can be a dict key or set element: anything but lists, sets, dicts, Whats and tuples of such. -/
inductive CanHash : Val → Prop where
  | none : CanHash .none
  | bool (b : Bool) : CanHash (.bool b)
  | int (i : Int) : CanHash (.int i)
  | float (t : Str) : CanHash (.float t)
  | str (s : Str) : CanHash (.str s)
  | cls (f : Str) : CanHash (.cls f)
  | numtype (f : Str) : CanHash (.numtype f)
  | tuple {xs : List Val} : (∀ x ∈ xs, CanHash x) → CanHash (.tuple xs)

/-- A dict after assigning items in order: a new key goes last, a known key keeps its place and takes the new value. -/
inductive Assigned {κ ν : Type} (same : κ → κ → Prop) : List (κ × ν) → List (κ × ν) → Prop where
  | nil : Assigned same [] []
  | new {l d : List (κ × ν)} {k : κ} {v : ν} : Assigned same l d → (∀ p ∈ d, ¬ same p.1 k) → Assigned same (l ++ [(k, v)]) (d ++ [(k, v)])
  | known {l d e : List (κ × ν)} {k k' : κ} {v v' : ν} : Assigned same l (d ++ (k', v') :: e) → (∀ p ∈ d, ¬ same p.1 k) → same k' k →
      Assigned same (l ++ [(k, v)]) (d ++ (k', v) :: e)

/-- A set after adding elements in order: of equal elements the first stays. -/
inductive Added {α : Type} (same : α → α → Prop) : List α → List α → Prop where
  | nil : Added same [] []
  | new {l d : List α} {x : α} : Added same l d → (∀ y ∈ d, ¬ same y x) → Added same (l ++ [x]) (d ++ [x])
  | known {l d : List α} {x y : α} : Added same l d → y ∈ d → same y x → Added same (l ++ [x]) d

/-- The value that syntax stands for. -/
inductive Means (E : Env) : Ast → Val → Prop where
  | none : Means E .none .none
  | bool (b : Bool) : Means E (.bool b) (.bool b)
  | nat {t : Str} {n : Nat} : NatOf t n → Means E (.num t) (.int n)
  | neg {t : Str} {n : Nat} : NatOf t n → Means E (.num ('-' :: t)) (.int (-(n : Int)))
  | float {t : Str} : ¬ IntText t → Means E (.num t) (.float (E.floatOf t))
  | str (b : Str) : Means E (.str b) (.str b)
  /-- a class that can be imported -/
  | cls {b m n : Str} {v : Val} : DottedName b m n → E.imp m n = .ok v → v ≠ .none → Means E (.cls b) v
  /-- a class that cannot -/
  | lost {b m n : Str} {e : Err} : DottedName b m n → E.imp m n = .error e → e = .importError ∨ e = .attributeError →
      Means E (.cls b) (.dict [(.str c!"class", .str b)])
  | tuple {xs : List Ast} {l : List Val} : xs.length = l.length → (∀ (i : Nat) x v, xs[i]? = some x → l[i]? = some v → Means E x v) →
      Means E (.tuple xs) (.tuple l)
  | list {xs : List Ast} {l : List Val} : xs.length = l.length → (∀ (i : Nat) x v, xs[i]? = some x → l[i]? = some v → Means E x v) →
      Means E (.list xs) (.list l)
  | set {xs : List Ast} {l d : List Val} : xs.length = l.length → (∀ (i : Nat) x v, xs[i]? = some x → l[i]? = some v → Means E x v) →
      (∀ v ∈ l, CanHash v) → Added (SameKey E.fi) l d → Means E (.set xs) (.set d)
  /-- a frozenset is read as a set -/
  | fset {xs : List Ast} {l d : List Val} : xs.length = l.length → (∀ (i : Nat) x v, xs[i]? = some x → l[i]? = some v → Means E x v) →
      (∀ v ∈ l, CanHash v) → Added (SameKey E.fi) l d → Means E (.fset xs) (.set d)
  | dict {kvs : List (Ast × Ast)} {l d : List (Val × Val)} : kvs.length = l.length →
      (∀ (i : Nat) k x k' v, kvs[i]? = some (k, x) → l[i]? = some (k', v) → Means E k k') →
      (∀ (i : Nat) k x k' v, kvs[i]? = some (k, x) → l[i]? = some (k', v) → Means E x v) →
      (∀ k v, (k, v) ∈ l → CanHash k) → Assigned (SameKey E.fi) l d → Means E (.dict kvs) (.dict d)
  /-- an out_name needs parameters -/
  | what {o : Option Str} {n : Str} {kvs : List (Str × Ast)} {l d : List (Str × Val)} : kvs.map Prod.fst = l.map Prod.fst →
      (∀ (i : Nat) k x k' v, kvs[i]? = some (k, x) → l[i]? = some (k', v) → Means E x v) →
      (kvs = [] → o = .none) → Assigned Eq l d → Means E (.what o n kvs) (.what n d [] o)

end Whatami
