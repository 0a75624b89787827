import Verif.Repr
import Verif.Encode

/-
C73: repr of a What shows everything.

Specification: `ReprFloat` (what `repr` of a float looks like), `ReprData` (values with a modelled `repr`), `LiteralBody` and `Literal` (which
Python expressions stand for which data: what `eval` makes of a text).
-/
namespace Whatami

/-- Texts of floats: of digits, sign, point, exponent, or inf and nan; and not those of an integer. -/
def ReprFloat (t : Str) : Prop := (∀ c ∈ t, c ∈ c!"0123456789+-.einfa") ∧ ∃ c ∈ t, c ∈ c!".enf"

/-- Data: None, booleans, numbers, strings, classes, and tuples, lists, sets, dicts and Whats of data. -/
inductive ReprData : Val → Prop where
  | none : ReprData .none
  | bool (b : Bool) : ReprData (.bool b)
  | int (i : Int) : ReprData (.int i)
  | float {t : Str} : ReprFloat t → ReprData (.float t)
  | str (s : Str) : ReprData (.str s)
  | numtype {s : Str} : s ∈ [c!"int", c!"float", c!"complex"] → ReprData (.numtype s)
  | cls {s : Str} : '\'' ∉ s → s ∉ [c!"int", c!"float", c!"complex"] → ReprData (.cls s)
  | tuple {xs : List Val} : (∀ x ∈ xs, ReprData x) → ReprData (.tuple xs)
  | list {xs : List Val} : (∀ x ∈ xs, ReprData x) → ReprData (.list xs)
  | set {xs : List Val} : (∀ x ∈ xs, ReprData x) → ReprData (.set xs)
  | fset {xs : List Val} : (∀ x ∈ xs, ReprData x) → ReprData (.fset xs)
  | dict {kvs : List (Val × Val)} : (∀ kv ∈ kvs, ReprData kv.1) → (∀ kv ∈ kvs, ReprData kv.2) → ReprData (.dict kvs)
  | what {conf : Conf} (n : Str) (nk : List Str) (o : Option Str) : (∀ kv ∈ conf, ReprData kv.2) → ReprData (.what n conf nk o)

/-- The number that hexadecimal digits stand for. -/
inductive HexNumber : Str → Nat → Prop where
  | nil : HexNumber [] 0
  | digit {s : Str} {n d : Nat} : HexNumber s n → d < 16 → HexNumber (s ++ [(c!"0123456789abcdef")[d]!]) (16 * n + d)

/-- What is between the quotes `q` of a Python string literal, and the string that this is. -/
inductive LiteralBody (q : Char) : Str → Str → Prop where
  | nil : LiteralBody q [] []
  | plain {c : Char} {b s : Str} : c ≠ q → c ≠ '\\' → c ≠ '\n' → c ≠ '\r' → LiteralBody q b s → LiteralBody q (c :: b) (c :: s)
  | quote {c : Char} {b s : Str} : c ∈ c!"'\"\\" → LiteralBody q b s → LiteralBody q ('\\' :: c :: b) (c :: s)
  | tab {b s : Str} : LiteralBody q b s → LiteralBody q ('\\' :: 't' :: b) ('\t' :: s)
  | newline {b s : Str} : LiteralBody q b s → LiteralBody q ('\\' :: 'n' :: b) ('\n' :: s)
  | ret {b s : Str} : LiteralBody q b s → LiteralBody q ('\\' :: 'r' :: b) ('\r' :: s)
  | hex {x : Char} {k : Nat} {d : Str} {c : Char} {b s : Str} : (x, k) ∈ [('x', 2), ('u', 4), ('U', 8)] → d.length = k → HexNumber d c.toNat →
      LiteralBody q b s → LiteralBody q ('\\' :: x :: d ++ b) (c :: s)

mutual
/-- Python expressions for data. -/
inductive Literal : Str → Val → Prop where
  | none : Literal c!"None" .none
  | true : Literal c!"True" (.bool true)
  | false : Literal c!"False" (.bool false)
  | int (i : Int) : Literal (intStr i) (.int i)
  | float (t : Str) : Literal t (.float t)
  | str {q : Char} {b s : Str} : q = '\'' ∨ q = '"' → LiteralBody q b s → Literal (q :: b ++ [q]) (.str s)
  | emptyTuple : Literal c!"()" (.tuple [])
  | oneTuple {t : Str} {x : Val} : Literal t x → Literal (c!"(" ++ t ++ c!",)") (.tuple [x])
  | tuple {t : Str} {x y : Val} {xs : List Val} : Literals t (x :: y :: xs) → Literal (c!"(" ++ t ++ c!")") (.tuple (x :: y :: xs))
  | list {t : Str} {xs : List Val} : Literals t xs → Literal (c!"[" ++ t ++ c!"]") (.list xs)
  | emptySet : Literal c!"set()" (.set [])
  | set {t : Str} {x : Val} {xs : List Val} : Literals t (x :: xs) → Literal (c!"{" ++ t ++ c!"}") (.set (x :: xs))
  | emptyFrozenset : Literal c!"frozenset()" (.fset [])
  | frozenset {t : Str} {x : Val} {xs : List Val} : Literals t (x :: xs) → Literal (c!"frozenset({" ++ t ++ c!"})") (.fset (x :: xs))
  | dict {t : Str} {kvs : List (Val × Val)} : LiteralItems t kvs → Literal (c!"{" ++ t ++ c!"}") (.dict kvs)
  | what {t u x o : Str} {name : Str} {conf : Conf} {nonids : List Str} {out : Option Str} : Literal t (.str name) →
      Literal u (.dict (conf.map fun kv => (.str kv.1, kv.2))) → Literal x (.set (nonids.map .str)) →
      Literal o (match out with | some out => .str out | .none => .none) →
      Literal (c!"What(" ++ t ++ c!", " ++ u ++ c!", " ++ x ++ c!", " ++ o ++ c!")") (.what name conf nonids out)
/-- Expressions for the elements of a collection, separated by comma and space. -/
inductive Literals : Str → List Val → Prop where
  | none : Literals [] []
  | one {t : Str} {x : Val} : Literal t x → Literals t [x]
  | more {t u : Str} {x y : Val} {xs : List Val} : Literal t x → Literals u (y :: xs) → Literals (t ++ c!", " ++ u) (x :: y :: xs)
/-- Expressions for the items of a dict. -/
inductive LiteralItems : Str → List (Val × Val) → Prop where
  | none : LiteralItems [] []
  | one {t u : Str} {k v : Val} : Literal t k → Literal u v → LiteralItems (t ++ c!": " ++ u) [(k, v)]
  | more {t u r : Str} {k v : Val} {kv : Val × Val} {kvs : List (Val × Val)} : Literal t k → Literal u v → LiteralItems r (kv :: kvs) →
      LiteralItems (t ++ c!": " ++ u ++ c!", " ++ r) ((k, v) :: kv :: kvs)
end

/-- Data that have an expression: no classes in it. -/
inductive NoClasses : Val → Prop where
  | none : NoClasses .none
  | bool (b : Bool) : NoClasses (.bool b)
  | int (i : Int) : NoClasses (.int i)
  | float (t : Str) : NoClasses (.float t)
  | str (s : Str) : NoClasses (.str s)
  | tuple {xs : List Val} : (∀ x ∈ xs, NoClasses x) → NoClasses (.tuple xs)
  | list {xs : List Val} : (∀ x ∈ xs, NoClasses x) → NoClasses (.list xs)
  | set {xs : List Val} : (∀ x ∈ xs, NoClasses x) → NoClasses (.set xs)
  | fset {xs : List Val} : (∀ x ∈ xs, NoClasses x) → NoClasses (.fset xs)
  | dict {kvs : List (Val × Val)} : (∀ kv ∈ kvs, NoClasses kv.1) → (∀ kv ∈ kvs, NoClasses kv.2) → NoClasses (.dict kvs)
  | what {conf : Conf} (n : Str) (nk : List Str) (o : Option Str) : (∀ kv ∈ conf, NoClasses kv.2) → NoClasses (.what n conf nk o)

/-! ### Strings -/

theorem hexDigits_length (k n : Nat) : (hexDigits k n).length = k := by
  induction k generalizing n with
  | zero => rfl
  | succ k ih => simp [hexDigits, ih]

theorem hexDigit_inj {a b : Nat} (ha : a < 16) (hb : b < 16) (h : hexDigit a = hexDigit b) : a = b := by
  have : ∀ a : Fin 16, ∀ b : Fin 16, hexDigit a = hexDigit b → a = b := by decide
  have := this ⟨a, ha⟩ ⟨b, hb⟩ h
  simpa using this

theorem hexDigits_inj {k a b : Nat} (ha : a < 16 ^ k) (hb : b < 16 ^ k) (h : hexDigits k a = hexDigits k b) : a = b := by
  induction k generalizing a b with
  | zero => simp at ha hb; omega
  | succ k ih =>
    simp only [hexDigits] at h
    obtain ⟨h1, h2⟩ := List.append_inj' h rfl
    have e1 := ih (by rw [Nat.pow_succ] at ha; omega) (by rw [Nat.pow_succ] at hb; omega) h1
    have e2 := hexDigit_inj (Nat.mod_lt _ (by omega)) (Nat.mod_lt _ (by omega)) (List.cons.inj h2).1
    omega

theorem char_inj {c d : Char} (h : c.toNat = d.toNat) : c = d := by
  have : Char.ofNat c.toNat = Char.ofNat d.toNat := by rw [h]
  simpa using this

theorem char_lt (c : Char) : c.toNat < 16 ^ 8 := by
  have := c.valid
  have h2 : c.toNat = c.val.toNat := rfl
  simp only [UInt32.isValidChar, Nat.isValidChar] at this
  omega

/-- What stands for a character, by how it begins. -/
inductive CharShape (q c : Char) : Str → Prop where
  | self : c ≠ q → c ≠ '\\' → CharShape q c [c]
  | escaped : c = q ∨ c = '\\' → CharShape q c ['\\', c]
  | tab : c = '\t' → CharShape q c ['\\', 't']
  | newline : c = '\n' → CharShape q c ['\\', 'n']
  | ret : c = '\r' → CharShape q c ['\\', 'r']
  | hex2 : c.toNat < 16 ^ 2 → CharShape q c ('\\' :: 'x' :: hexDigits 2 c.toNat)
  | hex4 : c.toNat < 16 ^ 4 → CharShape q c ('\\' :: 'u' :: hexDigits 4 c.toNat)
  | hex8 : CharShape q c ('\\' :: 'U' :: hexDigits 8 c.toNat)

theorem reprChar_shape (p : Char → Bool) (q c : Char) : CharShape q c (reprChar p q c) := by
  unfold reprChar
  split
  · exact .escaped ‹_›
  · rename_i h
    split
    · exact .tab ‹_›
    split
    · exact .newline ‹_›
    split
    · exact .ret ‹_›
    split
    · exact .self (fun e => h (.inl e)) (fun e => h (.inr e))
    split
    · exact .hex2 ‹_›
    split
    · exact .hex4 ‹_›
    · exact .hex8

theorem shape_inj {q c d : Char} (hq : q = '\'' ∨ q = '"') {s t u v : Str} (h : CharShape q c s) (h' : CharShape q d t)
    (e : s ++ u = t ++ v) : c = d ∧ u = v := by
  have hexEq : ∀ k, c.toNat < 16 ^ k → d.toNat < 16 ^ k → hexDigits k c.toNat ++ u = hexDigits k d.toNat ++ v → c = d ∧ u = v := by
    intro k h1 h2 he
    obtain ⟨e1, e2⟩ := List.append_inj he (by rw [hexDigits_length, hexDigits_length])
    exact ⟨char_inj (hexDigits_inj h1 h2 e1), e2⟩
  cases h <;> cases h' <;> simp only [List.cons_append, List.nil_append, List.cons.injEq, reduceCtorEq, Char.reduceEq, true_and, false_and, and_false] at e
  all_goals first
    | exact hexEq 2 ‹_› ‹_› e
    | exact hexEq 4 ‹_› ‹_› e
    | exact hexEq 8 (char_lt c) (char_lt d) e
    | (refine ⟨?_, ?_⟩ <;> grind)
    | grind

theorem shape_not_end {q c : Char} (hq : q = '\'' ∨ q = '"') {s u v : Str} (h : CharShape q c s) : s ++ u ≠ q :: v := by
  intro e
  cases h <;> simp only [List.cons_append, List.nil_append, List.cons.injEq] at e <;> grind

theorem reprChars_inj (p : Char → Bool) {q : Char} (hq : q = '\'' ∨ q = '"') {s t r r' : Str}
    (h : reprChars p q s ++ q :: r = reprChars p q t ++ q :: r') : s = t ∧ r = r' := by
  induction s generalizing t with
  | nil =>
    cases t with
    | nil => simpa [reprChars] using h
    | cons d t =>
      simp only [reprChars, List.nil_append, List.append_assoc] at h
      exact absurd h.symm (shape_not_end hq (reprChar_shape p q d))
  | cons c s ih =>
    cases t with
    | nil =>
      simp only [reprChars, List.nil_append, List.append_assoc] at h
      exact absurd h (shape_not_end hq (reprChar_shape p q c))
    | cons d t =>
      simp only [reprChars, List.append_assoc] at h
      obtain ⟨rfl, h2⟩ := shape_inj hq (reprChar_shape p q c) (reprChar_shape p q d) h
      obtain ⟨rfl, rfl⟩ := ih h2
      exact ⟨rfl, rfl⟩

theorem reprStr_eq (p : Char → Bool) (s : Str) : ∃ q, (q = '\'' ∨ q = '"') ∧ ∀ r, reprStr p s ++ r = q :: (reprChars p q s ++ q :: r) := by
  unfold reprStr
  split
  · exact ⟨'"', .inr rfl, fun r => by simp⟩
  · exact ⟨'\'', .inl rfl, fun r => by simp⟩

theorem reprStr_inj (p : Char → Bool) {s t r r' : Str} (h : reprStr p s ++ r = reprStr p t ++ r') : s = t ∧ r = r' := by
  obtain ⟨q, hq, e⟩ := reprStr_eq p s
  obtain ⟨q', hq', e'⟩ := reprStr_eq p t
  rw [e, e'] at h
  obtain ⟨rfl, h2⟩ := List.cons.inj h
  exact reprChars_inj p hq h2

theorem reprStrTail_inj (p : Char → Bool) {xs ys : List Str} {r r' : Str} (h : reprStrTail p xs ++ '}' :: r = reprStrTail p ys ++ '}' :: r') :
    xs = ys ∧ r = r' := by
  induction xs generalizing ys with
  | nil =>
    cases ys with
    | nil => simpa [reprStrTail] using h
    | cons y ys => simp [reprStrTail] at h
  | cons x xs ih =>
    cases ys with
    | nil => simp [reprStrTail] at h
    | cons y ys =>
      simp only [reprStrTail, List.append_assoc, List.cons_append, List.nil_append, List.cons.injEq, true_and] at h
      obtain ⟨rfl, h2⟩ := reprStr_inj p h
      obtain ⟨rfl, rfl⟩ := ih h2
      exact ⟨rfl, rfl⟩

theorem reprStrSet_inj (p : Char → Bool) {xs ys : List Str} {r r' : Str} (h : reprStrSet p xs ++ r = reprStrSet p ys ++ r') : xs = ys ∧ r = r' := by
  cases xs with
  | nil =>
    cases ys with
    | nil => simpa [reprStrSet] using h
    | cons y ys => simp [reprStrSet] at h
  | cons x xs =>
    cases ys with
    | nil => simp [reprStrSet] at h
    | cons y ys =>
      simp only [reprStrSet, List.append_assoc, List.cons_append, List.nil_append, List.cons.injEq, true_and] at h
      obtain ⟨rfl, h2⟩ := reprStr_inj p h
      obtain ⟨rfl, rfl⟩ := reprStrTail_inj p h2
      exact ⟨rfl, rfl⟩

theorem reprOut_inj (p : Char → Bool) {x y : Option Str} {r r' : Str} (h : reprOut p x ++ r = reprOut p y ++ r') : x = y ∧ r = r' := by
  cases x with
  | none =>
    cases y with
    | none => simpa [reprOut] using h
    | some y =>
      simp only [reprOut] at h
      obtain ⟨q, hq, e⟩ := reprStr_eq p y
      rw [e] at h
      rcases hq with rfl | rfl <;> simp at h
  | some x =>
    cases y with
    | none =>
      simp only [reprOut] at h
      obtain ⟨q, hq, e⟩ := reprStr_eq p x
      rw [e] at h
      rcases hq with rfl | rfl <;> simp at h
    | some y =>
      obtain ⟨rfl, rfl⟩ := reprStr_inj p h
      exact ⟨rfl, rfl⟩

/-! ### Kinds of values, told from the text -/

/-- Characters of words and numbers. -/
def wordChar (c : Char) : Bool := c.isAlphanum || c = '+' || c = '-' || c = '.'

/-- What may follow a value. -/
def AfterValue (r : Str) : Prop := ∀ c t, r = c :: t → c ∈ c!",)]}:"

/-- Which kind of value a text begins with. -/
def kindOf (s : Str) : Nat :=
  match s with
  | '\'' :: _ => 1
  | '"' :: _ => 1
  | '(' :: _ => 2
  | '[' :: _ => 3
  | '{' :: _ => 4
  | '<' :: _ => 5
  | s =>
    match s.takeWhile wordChar, s.dropWhile wordChar with
    | ['W', 'h', 'a', 't'], '(' :: _ => 6
    | ['s', 'e', 't'], '(' :: _ => 7
    | ['f', 'r', 'o', 'z', 'e', 'n', 's', 'e', 't'], '(' :: _ => 8
    | _, _ => 0

theorem delim_word {r : Str} (h : AfterValue r) : r.takeWhile wordChar = [] ∧ r.dropWhile wordChar = r := by
  cases r with
  | nil => exact ⟨rfl, rfl⟩
  | cons c t =>
    have := h c t rfl
    have hw : wordChar c = false := by
      simp only [List.mem_cons, List.not_mem_nil, or_false] at this
      rcases this with rfl | rfl | rfl | rfl | rfl <;> decide
    simp [hw]

theorem word_split {u r : Str} (hu : ∀ c ∈ u, wordChar c = true) (hr : AfterValue r) : (u ++ r).takeWhile wordChar = u ∧ (u ++ r).dropWhile wordChar = r := by
  induction u with
  | nil => exact delim_word hr
  | cons c u ih =>
    obtain ⟨h1, h2⟩ := ih fun x hx => hu x (.tail _ hx)
    simp [hu c (.head _), h1, h2]

theorem word_kind {u r : Str} (hne : u ≠ []) (hu : ∀ c ∈ u, wordChar c = true) (hr : AfterValue r) : kindOf (u ++ r) = 0 := by
  obtain ⟨h1, h2⟩ := word_split hu hr
  cases u with
  | nil => exact absurd rfl hne
  | cons c u =>
    have hc := hu c (.head _)
    unfold kindOf
    split
    any_goals (rename_i heq; simp only [List.cons_append, List.cons.injEq] at heq; rw [heq.1] at hc; exact absurd hc (by decide))
    rw [h1, h2]
    split
    any_goals rfl
    all_goals exact absurd (hr _ _ rfl) (by decide)

theorem word_inj {u u' r r' : Str} (hu : ∀ c ∈ u, wordChar c = true) (hu' : ∀ c ∈ u', wordChar c = true) (hr : AfterValue r) (hr' : AfterValue r')
    (h : u ++ r = u' ++ r') : u = u' ∧ r = r' := by
  have h1 := word_split hu hr
  have h2 := word_split hu' hr'
  rw [h] at h1
  exact ⟨h1.1.symm.trans h2.1, h1.2.symm.trans h2.2⟩

/-- Values shown as one word. -/
inductive Leaf : Val → Prop where
  | none : Leaf .none
  | bool (b : Bool) : Leaf (.bool b)
  | int (i : Int) : Leaf (.int i)
  | float {t : Str} : ReprFloat t → Leaf (.float t)

theorem intStr_chars (i : Int) : intStr i ≠ [] ∧ ∀ c ∈ intStr i, c ∈ c!"0123456789-" := by
  have hd : ∀ c, isDig c = true → c ∈ c!"0123456789-" := by
    intro c hc
    simp only [isDig, decide_eq_true_eq, Bool.and_eq_true] at hc
    have : ∀ n : Fin 10, Char.ofNat (48 + n) ∈ c!"0123456789-" := by decide
    have h1 : 48 ≤ c.toNat := hc.1
    have h2 : c.toNat ≤ 57 := hc.2
    have := this ⟨c.toNat - 48, by omega⟩
    simp only at this
    rw [show 48 + (c.toNat - 48) = c.toNat by omega, Char.ofNat_toNat] at this
    exact this
  cases i with
  | ofNat n =>
    obtain ⟨⟨h1, h2⟩, _⟩ := natStr_spec n
    refine ⟨h1, fun c hc => hd c ?_⟩
    exact List.all_eq_true.mp h2 c hc
  | negSucc n =>
    obtain ⟨⟨h1, h2⟩, _⟩ := natStr_spec (n + 1)
    refine ⟨by simp [intStr], fun c hc => ?_⟩
    simp only [intStr, List.mem_cons] at hc
    rcases hc with rfl | hc
    · decide
    · exact hd c (List.all_eq_true.mp h2 c hc)

theorem float_chars {t : Str} (h : ReprFloat t) : t ≠ [] := by
  obtain ⟨_, c, hc, _⟩ := h
  exact List.ne_nil_of_mem hc

theorem wordChar_of {l t : Str} (hl : ∀ c ∈ l, wordChar c = true) (h : ∀ c ∈ t, c ∈ l) : ∀ c ∈ t, wordChar c = true := fun c hc => hl c (h c hc)

theorem leaf_word (p : Char → Bool) {v : Val} (h : Leaf v) : reprV p v ≠ [] ∧ ∀ c ∈ reprV p v, wordChar c = true := by
  cases h with
  | none => exact ⟨by simp [reprV], by simp only [reprV]; decide⟩
  | bool b => cases b <;> exact ⟨by simp [reprV], by simp only [reprV]; decide⟩
  | int i =>
    simp only [reprV]
    exact ⟨(intStr_chars i).1, wordChar_of (by decide) (intStr_chars i).2⟩
  | float hf =>
    simp only [reprV]
    exact ⟨float_chars hf, wordChar_of (by decide) hf.1⟩

theorem leaf_inj (p : Char → Bool) {v w : Val} (h : Leaf v) (h' : Leaf w) (e : reprV p v = reprV p w) : v = w := by
  have hi : ∀ i : Int, ∀ c ∈ intStr i, c ∈ c!"0123456789-" := fun i => (intStr_chars i).2
  have nf : ∀ {t : Str}, ReprFloat t → ∀ i, intStr i ≠ t := by
    rintro t ⟨_, c, hc, hc2⟩ i rfl
    have h1 := hi i c hc
    revert h1
    revert c
    simp
  have up : ∀ {t u : Str} {c : Char}, (∀ c ∈ t, c ∈ u) → c ∉ u → ∀ r, t ≠ c :: r := by
    rintro t u c h1 h2 r rfl
    exact h2 (h1 c (.head _))
  cases h with
  | none =>
    cases h' with
    | none => rfl
    | bool b => cases b <;> simp [reprV] at e
    | int i => exact absurd e.symm (up (hi i) (by decide) _)
    | float hf => exact absurd e.symm (up hf.1 (by decide) _)
  | bool b =>
    cases h' with
    | none => cases b <;> simp [reprV] at e
    | bool b' => cases b <;> cases b' <;> first | rfl | simp [reprV] at e
    | int i => cases b <;> exact absurd e.symm (up (hi i) (by decide) _)
    | float hf => cases b <;> exact absurd e.symm (up hf.1 (by decide) _)
  | int i =>
    cases h' with
    | none => exact absurd e (up (hi i) (by decide) _)
    | bool b => cases b <;> exact absurd e (up (hi i) (by decide) _)
    | int j =>
      simp only [reprV] at e
      have := pyInt_intStr i
      rw [e, pyInt_intStr j] at this
      rw [Option.some.inj this]
    | float hf => simp only [reprV] at e; exact absurd e (nf hf i)
  | float hf =>
    cases h' with
    | none => exact absurd e (up hf.1 (by decide) _)
    | bool b => cases b <;> exact absurd e (up hf.1 (by decide) _)
    | int i => simp only [reprV] at e; exact absurd e.symm (nf hf i)
    | float hf' => simp only [reprV] at e; rw [e]

/-- The kind of a value, as `kindOf` has it. -/
def kindVal : Val → Nat
  | .str _ => 1
  | .tuple _ => 2
  | .list _ => 3
  | .set [] => 7
  | .set (_ :: _) => 4
  | .dict _ => 4
  | .numtype _ => 5
  | .cls _ => 5
  | .what .. => 6
  | .fset _ => 8
  | _ => 0

theorem kind_word_paren (w : Str) (hw : w ≠ [] ∧ ∀ c ∈ w, wordChar c = true) (r : Str) :
    kindOf (w ++ '(' :: r) = if w = c!"What" then 6 else if w = c!"set" then 7 else if w = c!"frozenset" then 8 else 0 := by
  have hs : (w ++ '(' :: r).takeWhile wordChar = w ∧ (w ++ '(' :: r).dropWhile wordChar = '(' :: r := by
    have hw2 := hw.2
    clear hw
    induction w with
    | nil => exact ⟨rfl, rfl⟩
    | cons c u ih =>
      obtain ⟨h1, h2⟩ := ih fun x hx => hw2 x (.tail _ hx)
      simp [hw2 c (.head _), h1, h2]
  obtain ⟨hne, hw⟩ := hw
  cases w with
  | nil => exact absurd rfl hne
  | cons c u =>
    have hc := hw c (.head _)
    unfold kindOf
    split
    any_goals (rename_i heq; simp only [List.cons_append, List.cons.injEq] at heq; rw [heq.1] at hc; exact absurd hc (by decide))
    rw [hs.1, hs.2]
    split
    · rename_i h1 _; rw [h1]; rfl
    · rename_i h1 _; rw [h1]; rfl
    · rename_i h1 _; rw [h1]; rfl
    · rename_i h1 h2 h3
      rw [if_neg fun e => h1 r e rfl, if_neg fun e => h2 r e rfl, if_neg fun e => h3 r e rfl]

theorem kind_repr (p : Char → Bool) {v : Val} {r : Str} (h : ReprData v) (hr : AfterValue r) : kindOf (reprV p v ++ r) = kindVal v := by
  have leaf : ∀ {v}, Leaf v → kindOf (reprV p v ++ r) = 0 := fun hl => word_kind (leaf_word p hl).1 (leaf_word p hl).2 hr
  cases h with
  | none => exact leaf .none
  | bool b => exact leaf (.bool b)
  | int i => exact leaf (.int i)
  | float hf => exact leaf (.float hf)
  | str s =>
    simp only [reprV]
    obtain ⟨q, hq, e⟩ := reprStr_eq p s
    rw [e]
    rcases hq with rfl | rfl <;> rfl
  | numtype => simp only [reprV, List.append_assoc]; rfl
  | cls => simp only [reprV, List.append_assoc]; rfl
  | @tuple xs _ => rcases xs with _ | ⟨x, _ | ⟨y, xs⟩⟩ <;> simp only [reprV, List.append_assoc] <;> rfl
  | @list xs _ => cases xs <;> simp only [reprV, List.append_assoc] <;> rfl
  | @set xs _ =>
    cases xs with
    | nil => exact kind_word_paren c!"set" ⟨by decide, by decide⟩ (')' :: r)
    | cons x xs => simp only [reprV, List.append_assoc]; rfl
  | @fset xs _ =>
    cases xs with
    | nil => exact kind_word_paren c!"frozenset" ⟨by decide, by decide⟩ (')' :: r)
    | cons x xs => simp only [reprV, List.append_assoc]; exact kind_word_paren c!"frozenset" ⟨by decide, by decide⟩ ('{' :: _)
  | @dict kvs _ _ => rcases kvs with _ | ⟨⟨k, v⟩, kvs⟩ <;> simp only [reprV, List.append_assoc] <;> rfl
  | @what conf n nk o _ => rcases conf with _ | ⟨⟨k, v⟩, kvs⟩ <;> simp only [reprV, List.append_assoc] <;> exact kind_word_paren c!"What" ⟨by decide, by decide⟩ _

theorem repr_start (p : Char → Bool) {v : Val} (h : ReprData v) {c : Char} (hc : c ∈ c!",)]}: ") (r s : Str) : reprV p v ++ r ≠ c :: s := by
  have nonleaf : ∀ {d : Char} {t : Str}, d ∉ c!",)]}: " → d :: t ≠ c :: s := by
    rintro d t hd e
    exact hd ((List.cons.inj e).1 ▸ hc)
  have leaf : ∀ {v}, Leaf v → reprV p v ++ r ≠ c :: s := by
    intro v hl e
    obtain ⟨h1, h2⟩ := leaf_word p hl
    cases hv : reprV p v with
    | nil => exact h1 hv
    | cons d t =>
      rw [hv] at e h2
      have hd := h2 d (.head _)
      rw [(List.cons.inj e).1] at hd
      have : ∀ c ∈ c!",)]}: ", wordChar c = false := by decide
      rw [this c hc] at hd
      exact absurd hd (by decide)
  cases h with
  | none => exact leaf .none
  | bool b => exact leaf (.bool b)
  | int i => exact leaf (.int i)
  | float hf => exact leaf (.float hf)
  | str s =>
    simp only [reprV]
    obtain ⟨q, hq, e⟩ := reprStr_eq p s
    rw [e]
    rcases hq with rfl | rfl <;> exact nonleaf (by decide)
  | numtype => simp only [reprV, List.append_assoc]; exact nonleaf (by decide)
  | cls => simp only [reprV, List.append_assoc]; exact nonleaf (by decide)
  | @tuple xs _ => rcases xs with _ | ⟨x, _ | ⟨y, xs⟩⟩ <;> simp only [reprV, List.append_assoc] <;> exact nonleaf (by decide)
  | @list xs _ => cases xs <;> simp only [reprV, List.append_assoc] <;> exact nonleaf (by decide)
  | @set xs _ => cases xs <;> simp only [reprV, List.append_assoc] <;> exact nonleaf (by decide)
  | @fset xs _ => cases xs <;> simp only [reprV, List.append_assoc] <;> exact nonleaf (by decide)
  | @dict kvs _ _ => rcases kvs with _ | ⟨⟨k, v⟩, kvs⟩ <;> simp only [reprV, List.append_assoc] <;> exact nonleaf (by decide)
  | @what conf n nk o _ => rcases conf with _ | ⟨⟨k, v⟩, kvs⟩ <;> simp only [reprV, List.append_assoc] <;> exact nonleaf (by decide)

/-! ### Different values, different texts -/

/-- No other value is shown as `v` is. -/
def Told (p : Char → Bool) (v : Val) : Prop :=
  ∀ w r r', ReprData w → AfterValue r → AfterValue r' → reprV p v ++ r = reprV p w ++ r' → v = w ∧ r = r'

theorem after_cons {c : Char} (h : c ∈ c!",)]}:") (s : Str) : AfterValue (c :: s) := by
  intro d t e
  rw [← (List.cons.inj e).1]
  exact h

theorem after_tail (p : Char → Bool) (xs : List Val) {c : Char} (h : c ∈ c!",)]}:") (s : Str) : AfterValue (reprTail p xs ++ c :: s) := by
  cases xs with
  | nil => exact after_cons h s
  | cons x xs => simp only [reprTail, List.append_assoc]; exact after_cons (by decide) _

theorem after_tailD (p : Char → Bool) (xs : List (Val × Val)) {c : Char} (h : c ∈ c!",)]}:") (s : Str) : AfterValue (reprTailD p xs ++ c :: s) := by
  rcases xs with _ | ⟨⟨k, v⟩, xs⟩
  · exact after_cons h s
  · simp only [reprTailD, List.append_assoc]; exact after_cons (by decide) _

theorem after_tailA (p : Char → Bool) (xs : Conf) {c : Char} (h : c ∈ c!",)]}:") (s : Str) : AfterValue (reprTailA p xs ++ c :: s) := by
  rcases xs with _ | ⟨⟨k, v⟩, xs⟩
  · exact after_cons h s
  · simp only [reprTailA, List.append_assoc]; exact after_cons (by decide) _

theorem tail_inj (p : Char → Bool) {c : Char} (hc : c ∈ c!")]}") {xs ys : List Val} (hx : ∀ x ∈ xs, Told p x) (hy : ∀ y ∈ ys, ReprData y) {r r' : Str}
    (h : reprTail p xs ++ c :: r = reprTail p ys ++ c :: r') : xs = ys ∧ r = r' := by
  have hc1 : c ∈ c!",)]}:" := by simp at hc ⊢; grind
  have hc2 : c ≠ ',' := by rintro rfl; simp at hc
  induction xs generalizing ys with
  | nil =>
    cases ys with
    | nil => simpa [reprTail] using h
    | cons y ys => simp [reprTail] at h; exact absurd h.1 hc2
  | cons x xs ih =>
    cases ys with
    | nil => simp [reprTail] at h; exact absurd h.1.symm hc2
    | cons y ys =>
      simp only [reprTail, List.append_assoc, List.cons_append, List.nil_append, List.cons.injEq, true_and] at h
      obtain ⟨rfl, h2⟩ := hx x (.head _) y _ _ (hy y (.head _)) (after_tail p xs hc1 r) (after_tail p ys hc1 r') h
      obtain ⟨rfl, rfl⟩ := ih (fun a ha => hx a (.tail _ ha)) (fun a ha => hy a (.tail _ ha)) h2
      exact ⟨rfl, rfl⟩

theorem tailD_inj (p : Char → Bool) {xs ys : List (Val × Val)} (hx : ∀ x ∈ xs, Told p x.1 ∧ Told p x.2) (hy : ∀ y ∈ ys, ReprData y.1 ∧ ReprData y.2)
    {r r' : Str} (h : reprTailD p xs ++ '}' :: r = reprTailD p ys ++ '}' :: r') : xs = ys ∧ r = r' := by
  induction xs generalizing ys with
  | nil =>
    rcases ys with _ | ⟨⟨k, v⟩, ys⟩
    · simpa [reprTailD] using h
    · simp [reprTailD] at h
  | cons x xs ih =>
    obtain ⟨k, v⟩ := x
    rcases ys with _ | ⟨⟨k', v'⟩, ys⟩
    · simp [reprTailD] at h
    · simp only [reprTailD, List.append_assoc, List.cons_append, List.nil_append, List.cons.injEq, true_and] at h
      obtain ⟨rfl, h2⟩ := (hx _ (.head _)).1 k' _ _ (hy _ (.head _)).1 (after_cons (by decide) _) (after_cons (by decide) _) h
      simp only [List.cons.injEq, true_and] at h2
      obtain ⟨rfl, h3⟩ := (hx _ (.head _)).2 v' _ _ (hy _ (.head _)).2 (after_tailD p xs (by decide) r) (after_tailD p ys (by decide) r') h2
      obtain ⟨rfl, rfl⟩ := ih (fun a ha => hx a (.tail _ ha)) (fun a ha => hy a (.tail _ ha)) h3
      exact ⟨rfl, rfl⟩

theorem tailA_inj (p : Char → Bool) {xs ys : Conf} (hx : ∀ x ∈ xs, Told p x.2) (hy : ∀ y ∈ ys, ReprData y.2)
    {r r' : Str} (h : reprTailA p xs ++ '}' :: r = reprTailA p ys ++ '}' :: r') : xs = ys ∧ r = r' := by
  induction xs generalizing ys with
  | nil =>
    rcases ys with _ | ⟨⟨k, v⟩, ys⟩
    · simpa [reprTailA] using h
    · simp [reprTailA] at h
  | cons x xs ih =>
    obtain ⟨k, v⟩ := x
    rcases ys with _ | ⟨⟨k', v'⟩, ys⟩
    · simp [reprTailA] at h
    · simp only [reprTailA, List.append_assoc, List.cons_append, List.nil_append, List.cons.injEq, true_and] at h
      obtain ⟨rfl, h2⟩ := reprStr_inj p h
      simp only [List.cons.injEq, true_and] at h2
      obtain ⟨rfl, h3⟩ := hx _ (.head _) v' _ _ (hy _ (.head _)) (after_tailA p xs (by decide) r) (after_tailA p ys (by decide) r') h2
      obtain ⟨rfl, rfl⟩ := ih (fun a ha => hx a (.tail _ ha)) (fun a ha => hy a (.tail _ ha)) h3
      exact ⟨rfl, rfl⟩

theorem leaf_or {w : Val} (h : ReprData w) (hk : kindVal w = 0) : Leaf w := by
  cases h with
  | none => exact .none
  | bool b => exact .bool b
  | int i => exact .int i
  | float hf => exact .float hf
  | @set xs _ => cases xs <;> simp [kindVal] at hk
  | _ => simp [kindVal] at hk

theorem quote_split {a b r r' : Str} (ha : '\'' ∉ a) (hb : '\'' ∉ b) (h : a ++ '\'' :: r = b ++ '\'' :: r') : a = b ∧ r = r' := by
  induction a generalizing b with
  | nil =>
    cases b with
    | nil => simpa using h
    | cons c b => simp at h; exact absurd h.1 (fun e => hb (e ▸ .head _))
  | cons c a ih =>
    cases b with
    | nil => simp at h; exact absurd h.1.symm (fun e => ha (e ▸ .head _))
    | cons d b =>
      simp only [List.cons_append, List.cons.injEq] at h
      obtain ⟨rfl, h2⟩ := h
      obtain ⟨rfl, rfl⟩ := ih (fun m => ha (.tail _ m)) (fun m => hb (.tail _ m)) h2
      exact ⟨rfl, rfl⟩

theorem told (p : Char → Bool) {v : Val} (h : ReprData v) : Told p v := by
  have leaf : ∀ {v}, Leaf v → ReprData v → kindVal v = 0 → Told p v := by
    intro v hl hd hk w r r' hw hr hr' e
    have k1 := kind_repr p hd hr
    rw [e, kind_repr p hw hr', hk] at k1
    have hlw := leaf_or hw k1
    obtain ⟨e1, e2⟩ := word_inj (leaf_word p hl).2 (leaf_word p hlw).2 hr hr' e
    exact ⟨leaf_inj p hl hlw e1, e2⟩
  induction h with
  | none => exact leaf .none .none rfl
  | bool b => exact leaf (.bool b) (.bool b) rfl
  | int i => exact leaf (.int i) (.int i) rfl
  | float hf => exact leaf (.float hf) (.float hf) rfl
  | str s =>
    intro w r r' hw hr hr' e
    have k1 := kind_repr p (.str s) hr
    rw [e, kind_repr p hw hr'] at k1
    cases hw with
    | str t =>
      simp only [reprV] at e
      obtain ⟨rfl, rfl⟩ := reprStr_inj p e
      exact ⟨rfl, rfl⟩
    | @set xs _ => cases xs <;> simp [kindVal] at k1
    | _ => simp [kindVal] at k1
  | @numtype s hs =>
    intro w r r' hw hr hr' e
    have k1 := kind_repr p (.numtype hs) hr
    rw [e, kind_repr p hw hr'] at k1
    have hq : ∀ s ∈ [c!"int", c!"float", c!"complex"], '\'' ∉ s := by decide
    cases hw with
    | numtype ht =>
      simp only [reprV, List.append_assoc, List.append_cancel_left_eq] at e
      obtain ⟨rfl, e2⟩ := quote_split (hq _ hs) (hq _ ht) e
      exact ⟨rfl, (List.cons.inj e2).2⟩
    | cls ht ht' =>
      simp only [reprV, List.append_assoc, List.append_cancel_left_eq] at e
      obtain ⟨rfl, e2⟩ := quote_split (hq _ hs) ht e
      exact absurd hs ht'
    | @set xs _ => cases xs <;> simp [kindVal] at k1
    | _ => simp [kindVal] at k1
  | @cls s hs hs' =>
    intro w r r' hw hr hr' e
    have k1 := kind_repr p (.cls hs hs') hr
    rw [e, kind_repr p hw hr'] at k1
    have hq : ∀ s ∈ [c!"int", c!"float", c!"complex"], '\'' ∉ s := by decide
    cases hw with
    | numtype ht =>
      simp only [reprV, List.append_assoc, List.append_cancel_left_eq] at e
      obtain ⟨rfl, e2⟩ := quote_split hs (hq _ ht) e
      exact absurd ht hs'
    | cls ht ht' =>
      simp only [reprV, List.append_assoc, List.append_cancel_left_eq] at e
      obtain ⟨rfl, e2⟩ := quote_split hs ht e
      exact ⟨rfl, (List.cons.inj e2).2⟩
    | @set xs _ => cases xs <;> simp [kindVal] at k1
    | _ => simp [kindVal] at k1
  | @tuple xs hd ih =>
    intro w r r' hw hr hr' e
    have k1 := kind_repr p (.tuple hd) hr
    rw [e, kind_repr p hw hr'] at k1
    cases hw with
    | @tuple ys hy =>
      rcases xs with _ | ⟨x, _ | ⟨x2, xs⟩⟩ <;> rcases ys with _ | ⟨y, _ | ⟨y2, ys⟩⟩ <;>
        simp only [reprV, List.append_assoc, List.cons_append, List.nil_append, List.cons.injEq, true_and] at e
      · exact ⟨rfl, e⟩
      · exact absurd e.symm (repr_start p (hy y (.head _)) (by decide) _ _)
      · exact absurd e.symm (repr_start p (hy y (.head _)) (by decide) _ _)
      · exact absurd e (repr_start p (hd x (.head _)) (by decide) _ _)
      · obtain ⟨rfl, e2⟩ := ih x (.head _) y _ _ (hy y (.head _)) (after_cons (by decide) _) (after_cons (by decide) _) e
        simp only [List.cons.injEq, true_and] at e2
        exact ⟨rfl, e2⟩
      · obtain ⟨rfl, e2⟩ := ih x (.head _) y _ _ (hy y (.head _)) (after_cons (by decide) _) (after_tail p _ (by decide) _) e
        simp [reprTail] at e2
      · exact absurd e (repr_start p (hd x (.head _)) (by decide) _ _)
      · obtain ⟨rfl, e2⟩ := ih x (.head _) y _ _ (hy y (.head _)) (after_tail p _ (by decide) _) (after_cons (by decide) _) e
        simp [reprTail] at e2
      · obtain ⟨rfl, e2⟩ := ih x (.head _) y _ _ (hy y (.head _)) (after_tail p _ (by decide) _) (after_tail p _ (by decide) _) e
        obtain ⟨e3, rfl⟩ := tail_inj p (by decide) (fun a ha => ih a (.tail _ ha)) (fun a ha => hy a (.tail _ ha)) e2
        exact ⟨by rw [e3], rfl⟩
    | @set xs _ => cases xs <;> simp [kindVal] at k1
    | _ => simp [kindVal] at k1
  | @list xs hd ih =>
    intro w r r' hw hr hr' e
    have k1 := kind_repr p (.list hd) hr
    rw [e, kind_repr p hw hr'] at k1
    cases hw with
    | @list ys hy =>
      rcases xs with _ | ⟨x, xs⟩ <;> rcases ys with _ | ⟨y, ys⟩ <;>
        simp only [reprV, List.append_assoc, List.cons_append, List.nil_append, List.cons.injEq, true_and] at e
      · exact ⟨rfl, e⟩
      · exact absurd e.symm (repr_start p (hy y (.head _)) (by decide) _ _)
      · exact absurd e (repr_start p (hd x (.head _)) (by decide) _ _)
      · obtain ⟨rfl, e2⟩ := ih x (.head _) y _ _ (hy y (.head _)) (after_tail p _ (by decide) _) (after_tail p _ (by decide) _) e
        obtain ⟨e3, rfl⟩ := tail_inj p (by decide) (fun a ha => ih a (.tail _ ha)) (fun a ha => hy a (.tail _ ha)) e2
        exact ⟨by rw [e3], rfl⟩
    | @set xs _ => cases xs <;> simp [kindVal] at k1
    | _ => simp [kindVal] at k1
  | @set xs hd ih =>
    intro w r r' hw hr hr' e
    have k1 := kind_repr p (.set hd) hr
    rw [e, kind_repr p hw hr'] at k1
    cases hw with
    | @set ys hy =>
      rcases xs with _ | ⟨x, xs⟩ <;> rcases ys with _ | ⟨y, ys⟩
      · simp only [reprV, List.append_cancel_left_eq] at e
        exact ⟨rfl, e⟩
      · simp [kindVal] at k1
      · simp [kindVal] at k1
      · simp only [reprV, List.append_assoc, List.cons_append, List.nil_append, List.cons.injEq, true_and] at e
        obtain ⟨rfl, e2⟩ := ih x (.head _) y _ _ (hy y (.head _)) (after_tail p _ (by decide) _) (after_tail p _ (by decide) _) e
        obtain ⟨e3, rfl⟩ := tail_inj p (by decide) (fun a ha => ih a (.tail _ ha)) (fun a ha => hy a (.tail _ ha)) e2
        exact ⟨by rw [e3], rfl⟩
    | @dict kvs hk hv =>
      rcases xs with _ | ⟨x, xs⟩
      · simp [kindVal] at k1
      · rcases kvs with _ | ⟨⟨k, v⟩, kvs⟩ <;>
          simp only [reprV, List.append_assoc, List.cons_append, List.nil_append, List.cons.injEq, true_and] at e
        · exact absurd e (repr_start p (hd x (.head _)) (by decide) _ _)
        · obtain ⟨rfl, e2⟩ := ih x (.head _) k _ _ (hk _ (.head _)) (after_tail p _ (by decide) _) (after_cons (by decide) _) e
          cases xs <;> simp [reprTail] at e2
    | _ => cases xs <;> simp [kindVal] at k1
  | @fset xs hd ih =>
    intro w r r' hw hr hr' e
    have k1 := kind_repr p (.fset hd) hr
    rw [e, kind_repr p hw hr'] at k1
    cases hw with
    | @fset ys hy =>
      rcases xs with _ | ⟨x, xs⟩ <;> rcases ys with _ | ⟨y, ys⟩ <;>
        simp only [reprV, List.append_assoc, List.cons_append, List.nil_append, List.cons.injEq, true_and, Char.reduceEq, false_and] at e
      · exact ⟨rfl, e⟩
      · obtain ⟨rfl, e2⟩ := ih x (.head _) y _ _ (hy y (.head _)) (after_tail p _ (by decide) _) (after_tail p _ (by decide) _) e
        obtain ⟨e3, e4⟩ := tail_inj p (by decide) (fun a ha => ih a (.tail _ ha)) (fun a ha => hy a (.tail _ ha)) e2
        exact ⟨by rw [e3], (List.cons.inj e4).2⟩
    | @set xs _ => cases xs <;> simp [kindVal] at k1
    | _ => simp [kindVal] at k1
  | @dict kvs hk hv ihk ihv =>
    intro w r r' hw hr hr' e
    have k1 := kind_repr p (.dict hk hv) hr
    rw [e, kind_repr p hw hr'] at k1
    cases hw with
    | @dict kvs' hk' hv' =>
      rcases kvs with _ | ⟨⟨k, v⟩, kvs⟩ <;> rcases kvs' with _ | ⟨⟨k', v'⟩, kvs'⟩ <;>
        simp only [reprV, List.append_assoc, List.cons_append, List.nil_append, List.cons.injEq, true_and] at e
      · exact ⟨rfl, e⟩
      · exact absurd e.symm (repr_start p (hk' _ (.head _)) (by decide) _ _)
      · exact absurd e (repr_start p (hk _ (.head _)) (by decide) _ _)
      · obtain ⟨rfl, e2⟩ := ihk _ (.head _) k' _ _ (hk' _ (.head _)) (after_cons (by decide) _) (after_cons (by decide) _) e
        simp only [List.cons.injEq, true_and] at e2
        obtain ⟨rfl, e3⟩ := ihv _ (.head _) v' _ _ (hv' _ (.head _)) (after_tailD p _ (by decide) _) (after_tailD p _ (by decide) _) e2
        obtain ⟨e4, rfl⟩ := tailD_inj p (fun a ha => ⟨ihk a (.tail _ ha), ihv a (.tail _ ha)⟩) (fun a ha => ⟨hk' a (.tail _ ha), hv' a (.tail _ ha)⟩) e3
        exact ⟨by rw [e4], rfl⟩
    | @set xs hy =>
      rcases xs with _ | ⟨x, xs⟩
      · simp [kindVal] at k1
      · rcases kvs with _ | ⟨⟨k, v⟩, kvs⟩ <;>
          simp only [reprV, List.append_assoc, List.cons_append, List.nil_append, List.cons.injEq, true_and] at e
        · exact absurd e.symm (repr_start p (hy x (.head _)) (by decide) _ _)
        · obtain ⟨rfl, e2⟩ := ihk _ (.head _) x _ _ (hy x (.head _)) (after_cons (by decide) _) (after_tail p _ (by decide) _) e
          cases xs <;> simp [reprTail] at e2
    | _ => simp [kindVal] at k1
  | @what conf n nk o hd ih =>
    intro w r r' hw hr hr' e
    have k1 := kind_repr p (.what n nk o hd) hr
    rw [e, kind_repr p hw hr'] at k1
    cases hw with
    | @what conf' n' nk' o' hy =>
      rcases conf with _ | ⟨⟨k, v⟩, conf⟩ <;> rcases conf' with _ | ⟨⟨k', v'⟩, conf'⟩ <;>
        simp only [reprV, List.append_assoc, List.cons_append, List.nil_append, List.cons.injEq, true_and] at e <;>
        obtain ⟨rfl, e2⟩ := reprStr_inj p e <;> simp only [List.cons.injEq, true_and] at e2
      · obtain ⟨rfl, e3⟩ := reprStrSet_inj p e2
        simp only [List.cons.injEq, true_and] at e3
        obtain ⟨rfl, e4⟩ := reprOut_inj p e3
        exact ⟨rfl, (List.cons.inj e4).2⟩
      · obtain ⟨q, hq, eq⟩ := reprStr_eq p k'
        rw [eq] at e2
        rcases hq with rfl | rfl <;> simp at e2
      · obtain ⟨q, hq, eq⟩ := reprStr_eq p k
        rw [eq] at e2
        rcases hq with rfl | rfl <;> simp at e2
      · obtain ⟨rfl, e3⟩ := reprStr_inj p e2
        simp only [List.cons.injEq, true_and] at e3
        obtain ⟨rfl, e4⟩ := ih _ (.head _) v' _ _ (hy _ (.head _)) (after_tailA p _ (by decide) _) (after_tailA p _ (by decide) _) e3
        obtain ⟨e5, e6⟩ := tailA_inj p (fun a ha => ih a (.tail _ ha)) (fun a ha => hy a (.tail _ ha)) e4
        simp only [List.cons.injEq, true_and] at e6
        obtain ⟨rfl, e7⟩ := reprStrSet_inj p e6
        simp only [List.cons.injEq, true_and] at e7
        obtain ⟨rfl, e8⟩ := reprOut_inj p e7
        exact ⟨by rw [e5], (List.cons.inj e8).2⟩
    | @set xs _ => cases xs <;> simp [kindVal] at k1
    | _ => simp [kindVal] at k1

/-! ### The text is an expression for the value -/

theorem hexDigits_number {k n : Nat} (h : n < 16 ^ k) : HexNumber (hexDigits k n) n := by
  induction k generalizing n with
  | zero => simp at h; subst h; exact .nil
  | succ k ih =>
    have e : n = 16 * (n / 16) + n % 16 := by omega
    have h1 := ih (n := n / 16) (by rw [Nat.pow_succ] at h; omega)
    have h2 := HexNumber.digit h1 (Nat.mod_lt n (by omega))
    rw [← e] at h2
    have hd : hexDigit (n % 16) = (c!"0123456789abcdef")[n % 16]! := by
      have : ∀ d : Fin 16, hexDigit d = (c!"0123456789abcdef")[d.val]! := by decide
      exact this ⟨n % 16, Nat.mod_lt n (by omega)⟩
    simp only [hexDigits, hd]
    exact h2

theorem literal_char (p : Char → Bool) {q c : Char} (hq : q = '\'' ∨ q = '"') {b s : Str} (h : LiteralBody q b s) :
    LiteralBody q (reprChar p q c ++ b) (c :: s) := by
  unfold reprChar
  split
  · rename_i h1
    refine .quote ?_ h
    rcases h1 with rfl | rfl
    · rcases hq with rfl | rfl <;> decide
    · decide
  · rename_i h1
    split
    · rename_i e; subst e; exact .tab h
    split
    · rename_i e; subst e; exact .newline h
    split
    · rename_i e; subst e; exact .ret h
    rename_i h2 h3 h4
    split
    · exact .plain (fun e => h1 (.inl e)) (fun e => h1 (.inr e)) h3 h4 h
    split
    · rename_i hlt; exact .hex (x := 'x') (by decide) (hexDigits_length 2 _) (hexDigits_number hlt) h
    split
    · rename_i hlt; exact .hex (x := 'u') (by decide) (hexDigits_length 4 _) (hexDigits_number hlt) h
    · exact .hex (x := 'U') (by decide) (hexDigits_length 8 _) (hexDigits_number (char_lt c)) h

theorem literal_str (p : Char → Bool) (s : Str) : Literal (reprStr p s) (.str s) := by
  obtain ⟨q, hq, e⟩ := reprStr_eq p s
  have h := e []
  rw [List.append_nil] at h
  rw [h]
  refine .str hq ?_
  clear e h
  induction s with
  | nil => exact .nil
  | cons c s ih => exact literal_char p hq ih

theorem literals_tail (p : Char → Bool) {x : Val} {xs : List Val} (h : ∀ y ∈ x :: xs, Literal (reprV p y) y) : Literals (reprV p x ++ reprTail p xs) (x :: xs) := by
  induction xs generalizing x with
  | nil => simpa [reprTail] using Literals.one (h x (.head _))
  | cons y ys ih =>
    have := Literals.more (h x (.head _)) (ih fun z hz => h z (.tail _ hz))
    simpa [reprTail] using this

theorem items_tail (p : Char → Bool) {k v : Val} {kvs : List (Val × Val)} (h : ∀ y ∈ (k, v) :: kvs, Literal (reprV p y.1) y.1 ∧ Literal (reprV p y.2) y.2) :
    LiteralItems (reprV p k ++ c!": " ++ reprV p v ++ reprTailD p kvs) ((k, v) :: kvs) := by
  induction kvs generalizing k v with
  | nil => simpa [reprTailD] using LiteralItems.one (h _ (.head _)).1 (h _ (.head _)).2
  | cons y ys ih =>
    obtain ⟨k', v'⟩ := y
    have := LiteralItems.more (h _ (.head _)).1 (h _ (.head _)).2 (ih fun z hz => h z (.tail _ hz))
    simpa [reprTailD] using this

theorem tailA_tailD (p : Char → Bool) (conf : Conf) : reprTailA p conf = reprTailD p (conf.map fun kv => (.str kv.1, kv.2)) := by
  induction conf with
  | nil => simp [reprTailA, reprTailD]
  | cons kv conf ih =>
    obtain ⟨k, v⟩ := kv
    simp [reprTailA, reprTailD, reprV, ih]

theorem strTail_tail (p : Char → Bool) (ss : List Str) : reprStrTail p ss = reprTail p (ss.map .str) := by
  induction ss with
  | nil => simp [reprStrTail, reprTail]
  | cons s ss ih => simp [reprStrTail, reprTail, reprV, ih]

theorem literal_strSet (p : Char → Bool) (ss : List Str) : Literal (reprStrSet p ss) (.set (ss.map .str)) := by
  cases ss with
  | nil => exact .emptySet
  | cons s ss =>
    have := literals_tail p (x := .str s) (xs := ss.map .str) (by
      intro y hy
      simp only [List.mem_cons, List.mem_map] at hy
      rcases hy with rfl | ⟨z, _, rfl⟩ <;> simp only [reprV] <;> exact literal_str p _)
    have := Literal.set this
    simpa [reprStrSet, strTail_tail, reprV] using this

theorem literal_out (p : Char → Bool) (o : Option Str) : Literal (reprOut p o) (match o with | some out => .str out | .none => .none) := by
  cases o with
  | none => exact .none
  | some s => exact literal_str p s

theorem literal_repr (p : Char → Bool) {v : Val} (h : NoClasses v) : Literal (reprV p v) v := by
  induction h with
  | none => simp only [reprV]; exact .none
  | bool b => cases b <;> simp only [reprV] <;> first | exact .true | exact .false
  | int i => simp only [reprV]; exact .int i
  | float t => simp only [reprV]; exact .float t
  | str s => simp only [reprV]; exact literal_str p s
  | @tuple xs _ ih =>
    rcases xs with _ | ⟨x, _ | ⟨y, xs⟩⟩
    · simp only [reprV]; exact .emptyTuple
    · simpa [reprV] using Literal.oneTuple (ih x (.head _))
    · simpa [reprV] using Literal.tuple (literals_tail p ih)
  | @list xs _ ih =>
    rcases xs with _ | ⟨x, xs⟩
    · simpa [reprV] using Literal.list .none
    · simpa [reprV] using Literal.list (literals_tail p ih)
  | @set xs _ ih =>
    rcases xs with _ | ⟨x, xs⟩
    · simp only [reprV]; exact .emptySet
    · simpa [reprV] using Literal.set (literals_tail p ih)
  | @fset xs _ ih =>
    rcases xs with _ | ⟨x, xs⟩
    · simp only [reprV]; exact .emptyFrozenset
    · simpa [reprV] using Literal.frozenset (literals_tail p ih)
  | @dict kvs _ _ ihk ihv =>
    rcases kvs with _ | ⟨⟨k, v⟩, kvs⟩
    · simpa [reprV] using Literal.dict .none
    · simpa [reprV] using Literal.dict (items_tail p fun y hy => ⟨ihk y hy, ihv y hy⟩)
  | @what conf n nk o _ ih =>
    rcases conf with _ | ⟨⟨k, v⟩, conf⟩
    · have := Literal.what (conf := []) (literal_str p n) (Literal.dict .none) (literal_strSet p nk) (literal_out p o)
      simpa [reprV] using this
    · have h1 := items_tail p (k := .str k) (v := v) (kvs := conf.map fun kv => (.str kv.1, kv.2)) (by
        intro y hy
        simp only [List.mem_cons, List.mem_map] at hy
        rcases hy with rfl | ⟨z, hz, rfl⟩
        · exact ⟨by simp only [reprV]; exact literal_str p _, ih (k, v) (.head _)⟩
        · exact ⟨by simp only [reprV]; exact literal_str p _, ih z (.tail _ hz)⟩)
      have := Literal.what (conf := (k, v) :: conf) (literal_str p n) (Literal.dict h1) (literal_strSet p nk) (literal_out p o)
      simpa [reprV, tailA_tailD] using this

/-! ### C73 -/

/-- C73: `repr` of a What tells everything: two Whats with the same `repr` have the same name, the same configuration with the same values in
the same order, the same non-identifying parameters and the same output name. -/
theorem c73_told (p : Char → Bool) {w w' : What} (h : ∀ kv ∈ w.conf, ReprData kv.2) (h' : ∀ kv ∈ w'.conf, ReprData kv.2)
    (e : w.repr p = w'.repr p) : w.name = w'.name ∧ w.conf = w'.conf ∧ w.nonids = w'.nonids ∧ w.out = w'.out := by
  have := told p (.what w.name w.nonids w.out h) _ [] [] (.what w'.name w'.nonids w'.out h') (by intro c t e; cases e) (by intro c t e; cases e)
    (by simpa [What.repr, What.toVal] using e)
  simpa using this.1

/-- C73: and what it shows is right: `repr` of a What is a Python expression for it (`What(name, configuration, non-ids, output)`). -/
theorem c73_expression (p : Char → Bool) {w : What} (h : ∀ kv ∈ w.conf, NoClasses kv.2) :
    Literal (w.repr p) (.what w.name w.conf w.nonids w.out) := literal_repr p (.what w.name w.nonids w.out h)

/-- A What with a bit of everything. -/
def exRepr : What :=
  ⟨c!"it's", [(c!"a", .tuple [.int (-3)]), (c!"b\n", .set []), (c!"c", .dict [(.str c!"\"'", .list [.none, .bool true])]), (c!"d", .what c!"n" [] [] none)], [c!"a"], some c!"out"⟩

example : exRepr.repr (fun _ => true) =
    c!"What(\"it's\", {'a': (-3,), 'b\\n': set(), 'c': {'\"\\'': [None, True]}, 'd': What('n', {}, set(), None)}, {'a'}, 'out')" := by
  decide +kernel

example : (∀ kv ∈ exRepr.conf, ReprData kv.2) ∧ (∀ kv ∈ exRepr.conf, NoClasses kv.2) := by
  constructor
  · simp only [exRepr, List.mem_cons, List.not_mem_nil, or_false]
    rintro kv (rfl | rfl | rfl | rfl)
    · exact .tuple (by simp; exact .int _)
    · exact .set (by simp)
    · exact .dict (by simp; exact .str _) (by simp; exact .list (by simp; exact ⟨.none, .bool _⟩))
    · exact .what _ _ _ (by simp)
  · simp only [exRepr, List.mem_cons, List.not_mem_nil, or_false]
    rintro kv (rfl | rfl | rfl | rfl)
    · exact .tuple (by simp; exact .int _)
    · exact .set (by simp)
    · exact .dict (by simp; exact .str _) (by simp; exact .list (by simp; exact ⟨.none, .bool _⟩))
    · exact .what _ _ _ (by simp)

end Whatami
