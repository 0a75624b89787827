import Verif.Marks
import Verif.Props.Legible

/-
The marked text tells the syntax, but for nested calls `set()` and `frozenset()`, which are texts of empty sets as well.
Definitions here are vocabulary for statements and proofs: the code they are about is cited in the model modules.
-/
namespace Whatami

mutual
/-- The syntax with nested calls `set()` and `frozenset()` made empty sets. -/
def blur : Ast → Ast
  | .none => .none
  | .bool b => .bool b
  | .num t => .num t
  | .str b => .str b
  | .cls b => .cls b
  | .tuple xs => .tuple (blurL xs)
  | .list xs => .list (blurL xs)
  | .set xs => .set (blurL xs)
  | .fset xs => .fset (blurL xs)
  | .dict kvs => .dict (blurD kvs)
  | .what o n kvs => if o = none ∧ kvs.isEmpty ∧ n = c!"set" then .set [] else if o = none ∧ kvs.isEmpty ∧ n = c!"frozenset" then .fset [] else .what o n (blurA kvs)
termination_by structural a => a
/-- Of all elements. -/
def blurL : List Ast → List Ast
  | [] => []
  | x :: xs => blur x :: blurL xs
termination_by structural xs => xs
/-- Of all items. -/
def blurD : List (Ast × Ast) → List (Ast × Ast)
  | [] => []
  | (k, v) :: xs => (blur k, blur v) :: blurD xs
termination_by structural xs => xs
/-- Of all parameters. -/
def blurA : List (Str × Ast) → List (Str × Ast)
  | [] => []
  | (k, v) :: xs => (k, blur v) :: blurA xs
termination_by structural xs => xs
end

theorem blurL_map (xs : List Ast) : blurL xs = xs.map blur := by
  induction xs with | nil => rfl | cons x xs ih => simp only [blurL, ih, List.map_cons]
theorem blurD_map (xs : List (Ast × Ast)) : blurD xs = xs.map fun x => (blur x.1, blur x.2) := by
  induction xs with | nil => rfl | cons x xs ih => obtain ⟨k, v⟩ := x; simp only [blurD, ih, List.map_cons]
theorem blurA_map (xs : List (Str × Ast)) : blurA xs = xs.map fun x => (x.1, blur x.2) := by
  induction xs with | nil => rfl | cons x xs ih => obtain ⟨k, v⟩ := x; simp only [blurA, ih, List.map_cons]

/-! ### Words -/

/-- The characters of names and numbers. -/
def isWordChar (c : Char) : Bool := isIdChar c || c == '.' || c == '+' || c == '-'

/-- What comes after a value. -/
def Ends (r : MStr) : Prop := r = [] ∨ ∃ c r', r = (c, false) :: r' ∧ (c = ',' ∨ c = ')' ∨ c = ']' ∨ c = '}' ∨ c = ':')

/-- Does not start with a word. -/
def Breaks (r : MStr) : Prop := ∀ c b r', r = (c, b) :: r' → isWordChar c = false

theorem ends_breaks {r : MStr} (h : Ends r) : Breaks r := by
  rintro c b r' rfl
  rcases h with h | ⟨c', r'', e, h⟩
  · cases h
  · cases e; rcases h with rfl | rfl | rfl | rfl | rfl <;> rfl

theorem breaks_cons {c : Char} (h : isWordChar c = false) (b : Bool) (r : MStr) : Breaks ((c, b) :: r) := by
  rintro c' b' r' e; cases e; exact h

/-- Words end where they end. -/
theorem word_apart {u u' : Str} {r r' : MStr} (hu : u.all isWordChar = true) (hu' : u'.all isWordChar = true) (hr : Breaks r) (hr' : Breaks r')
    (e : pl u ++ r = pl u' ++ r') : u = u' ∧ r = r' := by
  induction u generalizing u' with
  | nil =>
    cases u' with
    | nil => exact ⟨rfl, e⟩
    | cons c u' =>
      have := hr c false (pl u' ++ r') e
      simp [this] at hu'
  | cons c u ih =>
    cases u' with
    | nil =>
      have := hr' c false (pl u ++ r) e.symm
      simp [this] at hu
    | cons c' u' =>
      simp only [List.all_cons, Bool.and_eq_true] at hu hu'
      have e : (c, false) :: (pl u ++ r) = (c', false) :: (pl u' ++ r') := e
      simp only [List.cons.injEq, Prod.mk.injEq, and_true] at e
      obtain ⟨rfl, h⟩ := ih hu.2 hu'.2 e.2
      exact ⟨by rw [e.1], h⟩

/-- Literals end where they end. -/
theorem ql_inj {b b' : Str} {c c' : Char} {r r' : MStr} (e : ql b ++ (c, false) :: r = ql b' ++ (c', false) :: r') : b = b' ∧ r = r' := by
  induction b generalizing b' with
  | nil =>
    cases b' with
    | nil => simp only [ql, List.map_nil, List.nil_append, List.cons.injEq] at e; exact ⟨rfl, e.2⟩
    | cons _ _ => cases e
  | cons d b ih =>
    cases b' with
    | nil => cases e
    | cons d' b' =>
      have e : (d, true) :: (ql b ++ (c, false) :: r) = (d', true) :: (ql b' ++ (c', false) :: r') := e
      simp only [List.cons.injEq, Prod.mk.injEq, and_true] at e
      obtain ⟨rfl, h⟩ := ih e.2
      exact ⟨by rw [e.1], h⟩

theorem word_ident {x : Str} (h : Ident x) : x.all isWordChar = true := by
  rw [List.all_eq_true]
  intro c hc
  have := List.all_eq_true.1 (ident_all h) c hc
  simp [isWordChar, this]

theorem word_dig {t : Str} (h : t.all isDig = true) : t.all isWordChar = true := by
  rw [List.all_eq_true] at h ⊢
  intro c hc
  have := h c hc
  simp [isWordChar, isIdChar, this]

theorem word_num {t : Str} (h : NumShape t) : t.all isWordChar = true := by
  cases h with
  | @digits neg ds fr ex hd hf he =>
    simp only [List.all_append, Bool.and_eq_true]
    refine ⟨⟨⟨?_, word_dig hd.2⟩, ?_⟩, ?_⟩
    · cases neg <;> rfl
    · rcases hf with rfl | ⟨f, rfl, hf⟩
      · rfl
      · simp only [List.all_cons, word_dig hf, Bool.and_true]; rfl
    · rcases he with rfl | ⟨c, sg, e, rfl, hc, hs, he⟩
      · rfl
      · simp only [List.all_cons, List.all_append, word_dig he.2, Bool.and_true, Bool.and_eq_true]
        constructor
        · rcases hc with rfl | rfl <;> rfl
        · rcases hs with rfl | rfl | rfl <;> rfl
  | inf => rfl
  | minusInf => rfl
  | nan => rfl

theorem num_ne {t : Str} (h : NumShape t) : t ≠ [] := by
  cases h with
  | digits neg hd hf he => have := hd.1; simp [this]
  | inf => simp
  | minusInf => simp
  | nan => simp

theorem num_not_word {t : Str} (h : NumShape t) : t ≠ c!"None" ∧ t ≠ c!"True" ∧ t ≠ c!"False" := by
  have key : ∀ c r, t = c :: r → c ≠ 'N' ∧ c ≠ 'T' ∧ c ≠ 'F' := by
    cases h with
    | @digits neg ds fr ex hd hf he =>
      intro c r e
      cases neg with
      | true => simp at e; obtain ⟨rfl, -⟩ := e; decide
      | false =>
        cases ds with
        | nil => exact absurd rfl hd.1
        | cons d ds =>
          have hdd : isDig d = true := by have := hd.2; simp at this; exact this.1
          simp at e
          obtain ⟨rfl, -⟩ := e
          refine ⟨?_, ?_, ?_⟩ <;> (rintro rfl; revert hdd; decide)
    | inf => intro c r e; cases e; decide
    | minusInf => intro c r e; cases e; decide
    | nan => intro c r e; cases e; decide
  refine ⟨?_, ?_, ?_⟩ <;> (intro e; have := key _ _ e; simp at this)

/-! ### What kind of value a text is of -/

/-- After a word: whether there is a call. -/
def afterWord : MStr → Nat
  | [] => 0
  | (c, _) :: r => if isWordChar c then afterWord r else if c = '(' ∨ c = '=' then 1 else 0

/-- What kind of value a text starts with. -/
def textKind : MStr → Nat
  | [] => 7
  | (c, b) :: r =>
    if isWordChar c then afterWord ((c, b) :: r)
    else if c = '\'' then 2 else if c = '<' then 3 else if c = '[' then 4 else if c = '(' then 5 else if c = '{' then 6 else 7

/-- The kind of a value. -/
def sortOf : Ast → Nat
  | .none | .bool _ | .num _ => 0
  | .what _ _ _ | .fset _ => 1
  | .set xs => if xs.isEmpty then 1 else 6
  | .str _ => 2
  | .cls _ => 3
  | .list _ => 4
  | .tuple _ => 5
  | .dict _ => 6

theorem afterWord_word {u : Str} (hu : u.all isWordChar = true) (r : MStr) : afterWord (pl u ++ r) = afterWord r := by
  induction u with
  | nil => rfl
  | cons c u ih =>
    simp only [List.all_cons, Bool.and_eq_true] at hu
    show afterWord ((c, false) :: (pl u ++ r)) = _
    simp only [afterWord, hu.1, if_true]
    exact ih hu.2

theorem kind_word {u : Str} (h : u ≠ []) (hu : u.all isWordChar = true) (r : MStr) : textKind (pl u ++ r) = afterWord r := by
  rw [← afterWord_word hu r]
  cases u with
  | nil => exact absurd rfl h
  | cons c u =>
    simp only [List.all_cons, Bool.and_eq_true] at hu
    show textKind ((c, false) :: (pl u ++ r)) = afterWord ((c, false) :: (pl u ++ r))
    simp only [textKind, hu.1, if_true]

theorem afterWord_ends {r : MStr} (h : Ends r) : afterWord r = 0 := by
  rcases h with rfl | ⟨c, r', rfl, h⟩
  · rfl
  · rcases h with rfl | rfl | rfl | rfl | rfl <;> rfl

theorem kind_atom {u : Str} (h : u ≠ []) (hu : u.all isWordChar = true) {r : MStr} (hr : Ends r) : textKind (pl u ++ r) = 0 := by
  rw [kind_word h hu, afterWord_ends hr]

theorem ident_ne_nil {x : Str} (h : Ident x) : x ≠ [] := by
  obtain ⟨c, r, rfl, _⟩ := h; simp

theorem kind_text (a : Ast) (h : Loose a) {r : MStr} (hr : Ends r) : textKind (mtext a ++ r) = sortOf a := by
  cases a with
  | none => exact kind_atom (by simp) (by decide) hr
  | bool b => cases b <;> exact kind_atom (by simp) (by decide) hr
  | num t => exact kind_atom (num_ne h) (word_num h) hr
  | str b => rfl
  | cls b => rfl
  | tuple xs => rfl
  | list xs => rfl
  | set xs =>
    simp only [mtext, sortOf]
    split
    · rfl
    · rfl
  | fset xs =>
    simp only [mtext, sortOf]
    split
    · rfl
    · rfl
  | dict kvs => rfl
  | what o n kvs =>
    simp only [Loose] at h
    simp only [mtext, sortOf, List.append_assoc]
    cases o with
    | none =>
      have : pl (outText none) = [] := rfl
      rw [this, List.nil_append, kind_word (ident_ne_nil h.2.1) (word_ident h.2.1)]
      rfl
    | some x =>
      have : pl (outText (some x)) = pl x ++ pl c!"=" := by simp [outText, pl]
      rw [this, List.append_assoc, kind_word (ident_ne_nil (h.1 x rfl)) (word_ident (h.1 x rfl))]
      rfl

/-! ### Lists -/

/-- A text that is there, and starts neither with a comma nor with a bracket that closes. -/
def Begins (m : MStr) : Prop := ∃ c b m', m = (c, b) :: m' ∧ c ≠ ',' ∧ c ≠ ')' ∧ c ≠ ']' ∧ c ≠ '}' ∧ c ≠ ':' ∧ c ≠ '='

theorem begins_append {m : MStr} (h : Begins m) (r : MStr) : Begins (m ++ r) := by
  obtain ⟨c, b, m', rfl, h⟩ := h; exact ⟨c, b, m' ++ r, rfl, h⟩

theorem begins_word {u : Str} (h : u ≠ []) (hu : u.all isWordChar = true) : Begins (pl u) := by
  cases u with
  | nil => exact absurd rfl h
  | cons c u =>
    simp only [List.all_cons, Bool.and_eq_true] at hu
    refine ⟨c, false, pl u, rfl, ?_, ?_, ?_, ?_, ?_, ?_⟩ <;> (rintro rfl; have := hu.1; revert this; decide)

theorem begins_text (a : Ast) (h : Loose a) : Begins (mtext a) := by
  cases a with
  | none => exact begins_word (by simp) (by decide)
  | bool b => cases b <;> exact begins_word (by simp) (by decide)
  | num t => exact begins_word (num_ne h) (word_num h)
  | str b => exact ⟨_, _, _, rfl, by decide⟩
  | cls b => exact ⟨_, _, _, rfl, by decide⟩
  | tuple xs => exact ⟨_, _, _, rfl, by decide⟩
  | list xs => exact ⟨_, _, _, rfl, by decide⟩
  | set xs => simp only [mtext]; split <;> exact ⟨_, _, _, rfl, by decide⟩
  | fset xs => simp only [mtext]; split <;> exact ⟨_, _, _, rfl, by decide⟩
  | dict kvs => exact ⟨_, _, _, rfl, by decide⟩
  | what o n kvs =>
    simp only [Loose] at h
    simp only [mtext]
    cases o with
    | none => exact begins_append (m := pl n) (begins_word (ident_ne_nil h.2.1) (word_ident h.2.1)) _
    | some x =>
      have : pl (outText (some x)) = pl x ++ pl c!"=" := by simp [outText, pl]
      rw [this, List.append_assoc]
      exact begins_append (begins_word (ident_ne_nil (h.1 x rfl)) (word_ident (h.1 x rfl))) _

theorem begins_ne {m : MStr} (h : Begins m) {c : Char} {r s : MStr} (hc : c = ',' ∨ c = ')' ∨ c = ']' ∨ c = '}' ∨ c = ':') (e : m ++ r = (c, false) :: s) : False := by
  obtain ⟨d, b, m', rfl, h1, h2, h3, h4, h5, _⟩ := h
  simp only [List.cons_append, List.cons.injEq, Prod.mk.injEq] at e
  obtain ⟨⟨rfl, _⟩, _⟩ := e
  rcases hc with h | h | h | h | h
  · exact h1 h
  · exact h2 h
  · exact h3 h
  · exact h4 h
  · exact h5 h

/-- With a comma in front of each. -/
def mtail : List MStr → MStr
  | [] => []
  | t :: ts => (',', false) :: (t ++ mtail ts)

theorem mjoin_cons (t : MStr) (ts : List MStr) : mjoin (t :: ts) = t ++ mtail ts := by
  induction ts generalizing t with
  | nil => simp [mjoin, mtail]
  | cons u ts ih => rw [mjoin, ih]; rfl

/-- `x` and `y`, whatever comes after, tell. -/
def TellsAt {α β : Type} (f : α → MStr) (g : α → β) (x y : α) : Prop :=
  ∀ r r', Ends r → Ends r' → f x ++ r = f y ++ r' → g x = g y ∧ r = r'

section
variable {α β : Type} {f : α → MStr} {g : α → β} {cl : Char} (hcl : cl = ')' ∨ cl = ']' ∨ cl = '}')
include hcl

theorem ends_close (r : MStr) : Ends ((cl, false) :: r) := by
  refine .inr ⟨cl, r, rfl, ?_⟩
  rcases hcl with h | h | h <;> simp [h]

theorem ends_tail (ts : List MStr) (r : MStr) : Ends (mtail ts ++ (cl, false) :: r) := by
  cases ts with
  | nil => exact ends_close hcl r
  | cons t ts => exact .inr ⟨',', _, rfl, .inl rfl⟩

theorem tail_tells {xs ys : List α} (h : ∀ x ∈ xs, ∀ y ∈ ys, TellsAt f g x y) {r r' : MStr}
    (e : mtail (xs.map f) ++ (cl, false) :: r = mtail (ys.map f) ++ (cl, false) :: r') : xs.map g = ys.map g ∧ r = r' := by
  induction xs generalizing ys with
  | nil =>
    cases ys with
    | nil => simp only [List.map_nil, mtail, List.nil_append, List.cons.injEq] at e; exact ⟨rfl, e.2⟩
    | cons y ys =>
      simp only [List.map_nil, List.map_cons, mtail, List.nil_append, List.cons_append, List.cons.injEq, Prod.mk.injEq] at e
      rcases hcl with h | h | h <;> (rw [h] at e; exact absurd e.1.1 (by decide))
  | cons x xs ih =>
    cases ys with
    | nil =>
      simp only [List.map_nil, List.map_cons, mtail, List.nil_append, List.cons_append, List.cons.injEq, Prod.mk.injEq] at e
      rcases hcl with h | h | h <;> (rw [h] at e; exact absurd e.1.1 (by decide))
    | cons y ys =>
      simp only [List.map_cons, mtail, List.cons_append, List.append_assoc, List.cons.injEq, true_and] at e
      obtain ⟨h1, h2⟩ := h x (by simp) y (by simp) _ _ (ends_tail hcl _ _) (ends_tail hcl _ _) e
      obtain ⟨h3, h4⟩ := ih (fun x hx y hy => h x (by simp [hx]) y (by simp [hy])) h2
      exact ⟨by simp only [List.map_cons, h1, h3], h4⟩

theorem join_tells {xs ys : List α} (h : ∀ x ∈ xs, ∀ y ∈ ys, TellsAt f g x y) (hx : ∀ x ∈ xs, Begins (f x)) (hy : ∀ y ∈ ys, Begins (f y)) {r r' : MStr}
    (e : mjoin (xs.map f) ++ (cl, false) :: r = mjoin (ys.map f) ++ (cl, false) :: r') : xs.map g = ys.map g ∧ r = r' := by
  have hc : cl = ',' ∨ cl = ')' ∨ cl = ']' ∨ cl = '}' ∨ cl = ':' := by rcases hcl with h | h | h <;> simp [h]
  cases xs with
  | nil =>
    cases ys with
    | nil => simp only [List.map_nil, mjoin, List.nil_append, List.cons.injEq] at e; exact ⟨rfl, e.2⟩
    | cons y ys =>
      rw [List.map_cons, mjoin_cons, List.append_assoc] at e
      exact (begins_ne (hy y (by simp)) hc e.symm).elim
  | cons x xs =>
    cases ys with
    | nil =>
      rw [List.map_cons, mjoin_cons, List.append_assoc] at e
      exact (begins_ne (hx x (by simp)) hc e).elim
    | cons y ys =>
      rw [List.map_cons, mjoin_cons, List.map_cons, mjoin_cons, List.append_assoc, List.append_assoc] at e
      obtain ⟨h1, h2⟩ := h x (by simp) y (by simp) _ _ (ends_tail hcl _ _) (ends_tail hcl _ _) e
      obtain ⟨h3, h4⟩ := tail_tells hcl (fun x hx y hy => h x (by simp [hx]) y (by simp [hy])) h2
      exact ⟨by simp only [List.map_cons, h1, h3], h4⟩
end

/-! ### Values -/

/-- The text of `a` tells it from all others. -/
def Tells (a : Ast) : Prop := ∀ b, Loose b → TellsAt mtext blur a b

section
variable {cl : Char} (hcl : cl = ')' ∨ cl = ']' ∨ cl = '}')
include hcl

theorem elems_tell {xs ys : List Ast} (h : ∀ x ∈ xs, Tells x) (hx : LooseL xs) (hy : LooseL ys) {r r' : MStr}
    (e : mjoin (mtextL xs) ++ (cl, false) :: r = mjoin (mtextL ys) ++ (cl, false) :: r') : blurL xs = blurL ys ∧ r = r' := by
  rw [mtextL_map, mtextL_map] at e
  rw [blurL_map, blurL_map]
  rw [looseL_iff] at hx hy
  exact join_tells hcl (fun x hx y hy' => h x hx y (hy y hy')) (fun x hx' => begins_text x (hx x hx')) (fun y hy' => begins_text y (hy y hy')) e

theorem items_tell {xs ys : List (Ast × Ast)} (h : ∀ x ∈ xs, Tells x.1 ∧ Tells x.2) (hx : LooseD xs) (hy : LooseD ys) {r r' : MStr}
    (e : mjoin (mtextD xs) ++ (cl, false) :: r = mjoin (mtextD ys) ++ (cl, false) :: r') : blurD xs = blurD ys ∧ r = r' := by
  rw [mtextD_map, mtextD_map] at e
  rw [blurD_map, blurD_map]
  rw [looseD_iff] at hx hy
  refine join_tells hcl (fun x hx' y hy' => ?_) (fun x hx' => begins_append (begins_text _ (hx x hx').1) _) (fun y hy' => begins_append (begins_text _ (hy y hy').1) _) e
  intro r r' hr hr' e
  simp only [List.append_assoc] at e
  obtain ⟨h1, h2⟩ := (h x hx').1 _ (hy y hy').1 _ _ (.inr ⟨':', _, rfl, by simp⟩) (.inr ⟨':', _, rfl, by simp⟩) e
  simp only [pl, List.map_cons, List.map_nil, List.cons_append, List.nil_append, List.cons.injEq, true_and] at h2
  obtain ⟨h3, h4⟩ := (h x hx').2 _ (hy y hy').2 _ _ hr hr' h2
  exact ⟨by simp only [h1, h3], h4⟩

theorem params_tell {xs ys : List (Str × Ast)} (h : ∀ x ∈ xs, Tells x.2) (hx : LooseA xs) (hy : LooseA ys) {r r' : MStr}
    (e : mjoin (mtextA xs) ++ (cl, false) :: r = mjoin (mtextA ys) ++ (cl, false) :: r') : blurA xs = blurA ys ∧ r = r' := by
  rw [mtextA_map, mtextA_map] at e
  rw [blurA_map, blurA_map]
  rw [looseA_iff] at hx hy
  have hb : ∀ {x : Str × Ast}, Ident x.1 ∧ Loose x.2 → Begins (pl x.1 ++ (pl c!"=" ++ mtext x.2)) := fun h =>
    begins_append (begins_word (ident_ne_nil h.1) (word_ident h.1)) _
  refine join_tells hcl (fun x hx' y hy' => ?_) (fun x hx' => hb (hx x hx')) (fun y hy' => hb (hy y hy')) e
  intro r r' hr hr' e
  simp only [List.append_assoc] at e
  obtain ⟨h1, h2⟩ := word_apart (word_ident (hx x hx').1) (word_ident (hy y hy').1) (breaks_cons (by decide) _ _) (breaks_cons (by decide) _ _) e
  simp only [pl, List.map_cons, List.map_nil, List.cons_append, List.nil_append, List.cons.injEq, true_and] at h2
  obtain ⟨h3, h4⟩ := h x hx' _ (hy y hy').2 _ _ hr hr' h2
  exact ⟨by simp only [h1, h3], h4⟩
end

theorem pl_append (s t : Str) : pl (s ++ t) = pl s ++ pl t := List.map_append
theorem pl_cons (c : Char) (t : Str) : pl (c :: t) = (c, false) :: pl t := rfl
theorem pl_nil : pl [] = [] := rfl

/-- The names of a call. -/
theorem names_tell {o o' : Option Str} {n n' : Str} (ho : ∀ x, o = some x → Ident x) (hn : Ident n) (ho' : ∀ x, o' = some x → Ident x) (hn' : Ident n')
    {r r' : MStr} (e : pl (outText o) ++ (pl n ++ ('(', false) :: r) = pl (outText o') ++ (pl n' ++ ('(', false) :: r')) : o = o' ∧ n = n' ∧ r = r' := by
  have b1 : ∀ r : MStr, Breaks (('(', false) :: r) := fun r => breaks_cons (by decide) _ _
  have b2 : ∀ r : MStr, Breaks (('=', false) :: r) := fun r => breaks_cons (by decide) _ _
  cases o with
  | none =>
    cases o' with
    | none =>
      simp only [outText, pl_nil, List.nil_append] at e
      obtain ⟨rfl, h⟩ := word_apart (word_ident hn) (word_ident hn') (b1 _) (b1 _) e
      simp only [List.cons.injEq, true_and] at h
      exact ⟨rfl, rfl, h⟩
    | some x =>
      simp only [outText, pl_nil, List.nil_append, pl_append, pl_cons, List.append_assoc, List.cons_append] at e
      obtain ⟨_, h⟩ := word_apart (word_ident hn) (word_ident (ho' x rfl)) (b1 _) (b2 _) e
      simp at h
  | some x =>
    cases o' with
    | none =>
      simp only [outText, pl_nil, List.nil_append, pl_append, pl_cons, List.append_assoc, List.cons_append] at e
      obtain ⟨_, h⟩ := word_apart (word_ident (ho x rfl)) (word_ident hn') (b2 _) (b1 _) e
      simp at h
    | some y =>
      simp only [outText, pl_nil, List.nil_append, pl_append, pl_cons, List.append_assoc, List.cons_append] at e
      obtain ⟨rfl, h⟩ := word_apart (word_ident (ho x rfl)) (word_ident (ho' y rfl)) (b2 _) (b2 _) e
      simp only [List.cons.injEq, true_and] at h
      obtain ⟨rfl, h2⟩ := word_apart (word_ident hn) (word_ident hn') (b1 _) (b1 _) h
      simp only [List.cons.injEq, true_and] at h2
      exact ⟨rfl, rfl, h2⟩

theorem ident_set : Ident c!"set" := ⟨'s', c!"et", rfl, by decide, by decide⟩
theorem ident_frozenset : Ident c!"frozenset" := ⟨'f', c!"rozenset", rfl, by decide, by decide⟩

theorem params_begin {kvs : List (Str × Ast)} (h : LooseA kvs) {r s : MStr} {c : Char} (hc : isWordChar c = false) (e : mjoin (mtextA kvs) ++ (')', false) :: r = (c, false) :: s) :
    kvs = [] := by
  cases kvs with
  | nil => rfl
  | cons x kvs =>
    exfalso
    obtain ⟨k, v⟩ := x
    simp only [LooseA] at h
    rw [mtextA, mjoin_cons] at e
    obtain ⟨d, k', rfl, hd, hk⟩ := h.1
    simp only [pl_cons, List.cons_append, List.cons.injEq, Prod.mk.injEq] at e
    have := word_ident h.1
    simp only [List.all_cons, Bool.and_eq_true] at this
    rw [e.1.1, hc] at this
    cases this.1

/-- A call, as its names and what is in its parentheses. -/
theorem call_view (a : Ast) (h : Loose a) (hk : sortOf a = 1) : ∃ o n m, (∀ x, o = some x → Ident x) ∧ Ident n ∧
    mtext a = pl (outText o) ++ (pl n ++ ('(', false) :: m) ∧
    ((∃ kvs, a = .what o n kvs ∧ m = mjoin (mtextA kvs) ++ [(')', false)]) ∨
     (a = .set [] ∧ o = none ∧ n = c!"set" ∧ m = [(')', false)]) ∨
     (a = .fset [] ∧ o = none ∧ n = c!"frozenset" ∧ m = [(')', false)]) ∨
     (∃ x xs, a = .fset (x :: xs) ∧ o = none ∧ n = c!"frozenset" ∧ m = ('{', false) :: (mjoin (mtextL (x :: xs)) ++ [('}', false), (')', false)]))) := by
  cases a with
  | what o n kvs =>
    simp only [Loose] at h
    exact ⟨o, n, _, h.1, h.2.1, rfl, .inl ⟨kvs, rfl, rfl⟩⟩
  | fset xs =>
    cases xs with
    | nil => exact ⟨none, c!"frozenset", _, fun x e => by (cases e), ident_frozenset, rfl, .inr (.inr (.inl ⟨rfl, rfl, rfl, rfl⟩))⟩
    | cons x xs => exact ⟨none, c!"frozenset", _, fun x e => by (cases e), ident_frozenset, rfl, .inr (.inr (.inr ⟨x, xs, rfl, rfl, rfl, rfl⟩))⟩
  | set xs =>
    cases xs with
    | nil => exact ⟨none, c!"set", _, fun x e => by (cases e), ident_set, rfl, .inr (.inl ⟨rfl, rfl, rfl, rfl⟩)⟩
    | cons x xs => simp [sortOf] at hk
  | none => simp [sortOf] at hk
  | bool _ => simp [sortOf] at hk
  | num _ => simp [sortOf] at hk
  | str _ => simp [sortOf] at hk
  | cls _ => simp [sortOf] at hk
  | tuple _ => simp [sortOf] at hk
  | list _ => simp [sortOf] at hk
  | dict _ => simp [sortOf] at hk

theorem blur_set_call : blur (.what none c!"set" []) = .set [] := by simp [blur]
theorem blur_fset_call : blur (.what none c!"frozenset" []) = .fset [] := by simp [blur]

theorem call_tells {a : Ast} (ha : Loose a) (hk : sortOf a = 1) (hA : ∀ o n kvs, a = .what o n kvs → ∀ x ∈ kvs, Tells x.2)
    (hF : ∀ xs, a = .fset xs → ∀ x ∈ xs, Tells x) : Tells a := by
  intro b hb r r' hr hr' e
  have hkb : sortOf b = 1 := by rw [← kind_text b hb hr', ← e, kind_text a ha hr, hk]
  obtain ⟨o, n, m, ho, hn, e1, c1⟩ := call_view a ha hk
  obtain ⟨o', n', m', ho', hn', e2, c2⟩ := call_view b hb hkb
  rw [e1, e2] at e
  simp only [List.append_assoc, List.cons_append] at e
  obtain ⟨ho2, hn2, e3⟩ := names_tell ho hn ho' hn' e
  subst ho2
  subst hn2
  replace e := e3
  clear e3
  have hp : isWordChar ')' = false := by decide
  have hq : isWordChar '{' = false := by decide
  rcases c1 with ⟨kvs, rfl, rfl⟩ | ⟨rfl, rfl, rfl, rfl⟩ | ⟨rfl, rfl, rfl, rfl⟩ | ⟨x, xs, rfl, rfl, rfl, rfl⟩
  · simp only [List.append_assoc, List.cons_append, List.nil_append] at e
    have ha' : LooseA kvs := ha.2.2
    rcases c2 with ⟨kvs', rfl, rfl⟩ | ⟨rfl, rfl, rfl, rfl⟩ | ⟨rfl, rfl, rfl, rfl⟩ | ⟨x, xs, rfl, rfl, rfl, rfl⟩
    · simp only [List.append_assoc, List.cons_append, List.nil_append] at e
      have hb' : LooseA kvs' := hb.2.2
      obtain ⟨h1, h2⟩ := params_tell (.inl rfl) (hA _ _ _ rfl) ha' hb' e
      refine ⟨?_, h2⟩
      have he : kvs.isEmpty = kvs'.isEmpty := by
        rw [blurA_map, blurA_map] at h1
        have := congrArg List.isEmpty h1
        simpa using this
      simp only [blur, h1, he]
    · simp only [List.cons_append, List.nil_append] at e
      obtain rfl := params_begin ha' hp e
      simp only [mtextA, mjoin, List.nil_append, List.cons.injEq, true_and] at e
      exact ⟨blur_set_call, e⟩
    · simp only [List.cons_append, List.nil_append] at e
      obtain rfl := params_begin ha' hp e
      simp only [mtextA, mjoin, List.nil_append, List.cons.injEq, true_and] at e
      exact ⟨blur_fset_call, e⟩
    · simp only [List.cons_append] at e
      obtain rfl := params_begin ha' hq e
      simp [mtextA, mjoin] at e
  · simp only [List.cons_append, List.nil_append] at e
    rcases c2 with ⟨kvs', rfl, rfl⟩ | ⟨rfl, h, h', rfl⟩ | ⟨rfl, h, h', rfl⟩ | ⟨x, xs, rfl, h, h', rfl⟩
    · simp only [List.append_assoc, List.cons_append, List.nil_append] at e
      have hb' : LooseA kvs' := hb.2.2
      obtain rfl := params_begin hb' hp e.symm
      simp only [mtextA, mjoin, List.nil_append, List.cons.injEq, true_and] at e
      exact ⟨blur_set_call.symm, e⟩
    · simp only [List.cons_append, List.nil_append, List.cons.injEq, true_and] at e
      exact ⟨rfl, e⟩
    · simp at h'
    · simp at h'
  · simp only [List.cons_append, List.nil_append] at e
    rcases c2 with ⟨kvs', rfl, rfl⟩ | ⟨rfl, h, h', rfl⟩ | ⟨rfl, h, h', rfl⟩ | ⟨x, xs, rfl, h, h', rfl⟩
    · simp only [List.append_assoc, List.cons_append, List.nil_append] at e
      have hb' : LooseA kvs' := hb.2.2
      obtain rfl := params_begin hb' hp e.symm
      simp only [mtextA, mjoin, List.nil_append, List.cons.injEq, true_and] at e
      exact ⟨blur_fset_call.symm, e⟩
    · simp at h'
    · simp only [List.cons_append, List.nil_append, List.cons.injEq, true_and] at e
      exact ⟨rfl, e⟩
    · simp at e
  · simp only [List.cons_append, List.append_assoc] at e
    rcases c2 with ⟨kvs', rfl, rfl⟩ | ⟨rfl, h, h', rfl⟩ | ⟨rfl, h, h', rfl⟩ | ⟨y, ys, rfl, h, h', rfl⟩
    · simp only [List.append_assoc, List.cons_append, List.nil_append] at e
      have hb' : LooseA kvs' := hb.2.2
      obtain rfl := params_begin hb' hq e.symm
      simp [mtextA, mjoin] at e
    · simp at h'
    · simp at e
    · simp only [List.cons_append, List.append_assoc, List.nil_append, List.cons.injEq, true_and] at e
      obtain ⟨h1, h2⟩ := elems_tell (.inr (.inr rfl)) (hF _ rfl) ha hb e
      simp only [List.cons.injEq, true_and] at h2
      exact ⟨by simp only [blur, h1], h2⟩

/-- An atom, as its word. -/
theorem atom_view (a : Ast) (h : Loose a) (hk : sortOf a = 0) : ∃ u, u.all isWordChar = true ∧ mtext a = pl u ∧ text a = u := by
  cases a with
  | none => exact ⟨_, by decide, rfl, rfl⟩
  | bool b => cases b <;> exact ⟨_, by decide, rfl, rfl⟩
  | num t => exact ⟨t, word_num h, rfl, by simp [text, toks]⟩
  | set xs => cases xs <;> simp [sortOf] at hk
  | str _ => simp [sortOf] at hk
  | cls _ => simp [sortOf] at hk
  | tuple _ => simp [sortOf] at hk
  | list _ => simp [sortOf] at hk
  | dict _ => simp [sortOf] at hk
  | fset _ => simp [sortOf] at hk
  | what _ _ _ => simp [sortOf] at hk

theorem atom_inj {a b : Ast} (ha : Loose a) (hb : Loose b) (hka : sortOf a = 0) (hkb : sortOf b = 0) (e : text a = text b) : a = b := by
  have atoms : ∀ a, Loose a → sortOf a = 0 → a = .none ∨ a = .bool true ∨ a = .bool false ∨ ∃ t, NumShape t ∧ a = .num t := by
    intro a h hk
    cases a with
    | none => exact .inl rfl
    | bool b => cases b <;> simp
    | num t => exact .inr (.inr (.inr ⟨t, h, rfl⟩))
    | set xs => cases xs <;> simp [sortOf] at hk
    | str _ => simp [sortOf] at hk
    | cls _ => simp [sortOf] at hk
    | tuple _ => simp [sortOf] at hk
    | list _ => simp [sortOf] at hk
    | dict _ => simp [sortOf] at hk
    | fset _ => simp [sortOf] at hk
    | what _ _ _ => simp [sortOf] at hk
  have tn : ∀ t, text (.num t) = t := fun t => by simp [text, toks]
  have t0 : text .none = c!"None" := rfl
  have t1 : text (.bool true) = c!"True" := rfl
  have t2 : text (.bool false) = c!"False" := rfl
  rcases atoms a ha hka with rfl | rfl | rfl | ⟨t, ht, rfl⟩ <;> rcases atoms b hb hkb with rfl | rfl | rfl | ⟨t', ht', rfl⟩ <;>
    (simp only [tn, t0, t1, t2] at e) <;>
    first
    | rfl
    | exact absurd e (by decide)
    | exact absurd e.symm (num_not_word ht').1
    | exact absurd e.symm (num_not_word ht').2.1
    | exact absurd e.symm (num_not_word ht').2.2
    | exact absurd e (num_not_word ht).1
    | exact absurd e (num_not_word ht).2.1
    | exact absurd e (num_not_word ht).2.2
    | (subst e; rfl)

theorem blur_atom {a : Ast} (hk : sortOf a = 0) : blur a = a := by
  cases a with
  | set xs => cases xs <;> simp [sortOf] at hk
  | none => rfl
  | bool _ => rfl
  | num _ => rfl
  | str _ => simp [sortOf] at hk
  | cls _ => simp [sortOf] at hk
  | tuple _ => simp [sortOf] at hk
  | list _ => simp [sortOf] at hk
  | dict _ => simp [sortOf] at hk
  | fset _ => simp [sortOf] at hk
  | what _ _ _ => simp [sortOf] at hk

theorem atom_tells {a : Ast} (ha : Loose a) (hk : sortOf a = 0) : Tells a := by
  intro b hb r r' hr hr' e
  have hkb : sortOf b = 0 := by rw [← kind_text b hb hr', ← e, kind_text a ha hr, hk]
  obtain ⟨u, h1, h2, h3⟩ := atom_view a ha hk
  obtain ⟨u', h1', h2', h3'⟩ := atom_view b hb hkb
  rw [h2, h2'] at e
  obtain ⟨rfl, e2⟩ := word_apart h1 h1' (ends_breaks hr) (ends_breaks hr') e
  refine ⟨?_, e2⟩
  rw [atom_inj ha hb hk hkb (h3.trans h3'.symm)]

/-- A set is not a dict: there is no colon after its first element. -/
theorem set_not_dict_text {x : Ast} {xs : List Ast} {kvs : List (Ast × Ast)} (hx : Loose x) (hd : LooseD kvs) (h : Tells x ∨ ∀ k ∈ kvs, Tells k.1) {r r' : MStr}
    (e : mjoin (mtextL (x :: xs)) ++ ('}', false) :: r = mjoin (mtextD kvs) ++ ('}', false) :: r') : False := by
  rw [mtextL, mjoin_cons, List.append_assoc] at e
  cases kvs with
  | nil => exact begins_ne (begins_text x hx) (by simp) e
  | cons y kvs =>
    obtain ⟨k, v⟩ := y
    simp only [LooseD] at hd
    rw [mtextD, mjoin_cons, List.append_assoc, List.append_assoc] at e
    have e1 : Ends (mtail (mtextL xs) ++ ('}', false) :: r) := ends_tail (.inr (.inr rfl)) _ _
    have e2 : Ends (pl c!":" ++ mtext v ++ (mtail (mtextD kvs) ++ ('}', false) :: r')) := .inr ⟨':', _, rfl, by simp⟩
    have he : mtail (mtextL xs) ++ ('}', false) :: r = pl c!":" ++ mtext v ++ (mtail (mtextD kvs) ++ ('}', false) :: r') := by
      rcases h with h | h
      · exact (h k hd.1 _ _ e1 e2 e).2
      · exact (h (k, v) (by simp) x hx _ _ e2 e1 e.symm).2.symm
    cases xs with
    | nil => simp [mtextL, mtail, pl_cons] at he
    | cons z xs => simp [mtextL, mtail, pl_cons] at he

section
variable {a : Ast} (ha : Loose a)
include ha

theorem str_tells {s : Str} (e : a = .str s) : Tells a := by
  intro b hb r r' hr hr' e'
  have hkb : sortOf b = 2 := by rw [← kind_text b hb hr', ← e', kind_text a ha hr, e]; rfl
  subst e
  cases b with
  | str s' =>
    simp only [mtext, List.append_assoc, pl_cons, pl_nil, List.cons_append, List.nil_append, List.cons.injEq, true_and] at e'
    obtain ⟨rfl, h⟩ := ql_inj e'
    exact ⟨rfl, h⟩
  | set xs => cases xs <;> simp [sortOf] at hkb
  | none => simp [sortOf] at hkb
  | bool _ => simp [sortOf] at hkb
  | num _ => simp [sortOf] at hkb
  | cls _ => simp [sortOf] at hkb
  | tuple _ => simp [sortOf] at hkb
  | list _ => simp [sortOf] at hkb
  | dict _ => simp [sortOf] at hkb
  | fset _ => simp [sortOf] at hkb
  | what _ _ _ => simp [sortOf] at hkb

theorem cls_tells {s : Str} (e : a = .cls s) : Tells a := by
  intro b hb r r' hr hr' e'
  have hkb : sortOf b = 3 := by rw [← kind_text b hb hr', ← e', kind_text a ha hr, e]; rfl
  subst e
  cases b with
  | cls s' =>
    simp only [mtext, List.append_assoc, pl_cons, pl_nil, List.cons_append, List.nil_append, List.cons.injEq, true_and] at e'
    obtain ⟨rfl, h⟩ := ql_inj e'
    simp only [List.cons.injEq, true_and] at h
    exact ⟨rfl, h⟩
  | set xs => cases xs <;> simp [sortOf] at hkb
  | none => simp [sortOf] at hkb
  | bool _ => simp [sortOf] at hkb
  | num _ => simp [sortOf] at hkb
  | str _ => simp [sortOf] at hkb
  | tuple _ => simp [sortOf] at hkb
  | list _ => simp [sortOf] at hkb
  | dict _ => simp [sortOf] at hkb
  | fset _ => simp [sortOf] at hkb
  | what _ _ _ => simp [sortOf] at hkb

theorem tuple_tells {xs : List Ast} (e : a = .tuple xs) (h : ∀ x ∈ xs, Tells x) : Tells a := by
  intro b hb r r' hr hr' e'
  have hkb : sortOf b = 5 := by rw [← kind_text b hb hr', ← e', kind_text a ha hr, e]; rfl
  subst e
  cases b with
  | tuple ys =>
    simp only [mtext, List.append_assoc, pl_cons, pl_nil, List.cons_append, List.nil_append, List.cons.injEq, true_and] at e'
    obtain ⟨h1, h2⟩ := elems_tell (.inl rfl) h ha hb e'
    exact ⟨by simp only [blur, h1], h2⟩
  | set xs => cases xs <;> simp [sortOf] at hkb
  | none => simp [sortOf] at hkb
  | bool _ => simp [sortOf] at hkb
  | num _ => simp [sortOf] at hkb
  | str _ => simp [sortOf] at hkb
  | cls _ => simp [sortOf] at hkb
  | list _ => simp [sortOf] at hkb
  | dict _ => simp [sortOf] at hkb
  | fset _ => simp [sortOf] at hkb
  | what _ _ _ => simp [sortOf] at hkb

theorem list_tells {xs : List Ast} (e : a = .list xs) (h : ∀ x ∈ xs, Tells x) : Tells a := by
  intro b hb r r' hr hr' e'
  have hkb : sortOf b = 4 := by rw [← kind_text b hb hr', ← e', kind_text a ha hr, e]; rfl
  subst e
  cases b with
  | list ys =>
    simp only [mtext, List.append_assoc, pl_cons, pl_nil, List.cons_append, List.nil_append, List.cons.injEq, true_and] at e'
    obtain ⟨h1, h2⟩ := elems_tell (.inr (.inl rfl)) h ha hb e'
    exact ⟨by simp only [blur, h1], h2⟩
  | set xs => cases xs <;> simp [sortOf] at hkb
  | none => simp [sortOf] at hkb
  | bool _ => simp [sortOf] at hkb
  | num _ => simp [sortOf] at hkb
  | str _ => simp [sortOf] at hkb
  | cls _ => simp [sortOf] at hkb
  | tuple _ => simp [sortOf] at hkb
  | dict _ => simp [sortOf] at hkb
  | fset _ => simp [sortOf] at hkb
  | what _ _ _ => simp [sortOf] at hkb

theorem set_tells {x : Ast} {xs : List Ast} (e : a = .set (x :: xs)) (h : ∀ y ∈ x :: xs, Tells y) : Tells a := by
  intro b hb r r' hr hr' e'
  have hkb : sortOf b = 6 := by rw [← kind_text b hb hr', ← e', kind_text a ha hr, e]; rfl
  subst e
  cases b with
  | set ys =>
    cases ys with
    | nil => simp [sortOf] at hkb
    | cons y ys =>
      simp only [mtext, List.isEmpty_cons, Bool.false_eq_true, if_false, List.append_assoc, pl_cons, pl_nil, List.cons_append, List.nil_append, List.cons.injEq, true_and] at e'
      obtain ⟨h1, h2⟩ := elems_tell (.inr (.inr rfl)) h ha hb e'
      exact ⟨by simp only [blur, h1], h2⟩
  | dict kvs =>
    simp only [mtext, List.isEmpty_cons, Bool.false_eq_true, if_false, List.append_assoc, pl_cons, pl_nil, List.cons_append, List.nil_append, List.cons.injEq, true_and] at e'
    exact (set_not_dict_text ha.1 hb (.inl (h x (by simp))) e').elim
  | none => simp [sortOf] at hkb
  | bool _ => simp [sortOf] at hkb
  | num _ => simp [sortOf] at hkb
  | str _ => simp [sortOf] at hkb
  | cls _ => simp [sortOf] at hkb
  | tuple _ => simp [sortOf] at hkb
  | list _ => simp [sortOf] at hkb
  | fset _ => simp [sortOf] at hkb
  | what _ _ _ => simp [sortOf] at hkb

theorem dict_tells {kvs : List (Ast × Ast)} (e : a = .dict kvs) (h : ∀ x ∈ kvs, Tells x.1 ∧ Tells x.2) : Tells a := by
  intro b hb r r' hr hr' e'
  have hkb : sortOf b = 6 := by rw [← kind_text b hb hr', ← e', kind_text a ha hr, e]; rfl
  subst e
  cases b with
  | set ys =>
    cases ys with
    | nil => simp [sortOf] at hkb
    | cons y ys =>
      simp only [mtext, List.isEmpty_cons, Bool.false_eq_true, if_false, List.append_assoc, pl_cons, pl_nil, List.cons_append, List.nil_append, List.cons.injEq, true_and] at e'
      exact (set_not_dict_text hb.1 ha (.inr fun k hk => (h k hk).1) e'.symm).elim
  | dict kvs' =>
    simp only [mtext, List.append_assoc, pl_cons, pl_nil, List.cons_append, List.nil_append, List.cons.injEq, true_and] at e'
    obtain ⟨h1, h2⟩ := items_tell (.inr (.inr rfl)) h ha hb e'
    exact ⟨by simp only [blur, h1], h2⟩
  | none => simp [sortOf] at hkb
  | bool _ => simp [sortOf] at hkb
  | num _ => simp [sortOf] at hkb
  | str _ => simp [sortOf] at hkb
  | cls _ => simp [sortOf] at hkb
  | tuple _ => simp [sortOf] at hkb
  | list _ => simp [sortOf] at hkb
  | fset _ => simp [sortOf] at hkb
  | what _ _ _ => simp [sortOf] at hkb
end

mutual
theorem tells : ∀ a : Ast, Loose a → Tells a
  | .none, h => atom_tells h rfl
  | .bool _, h => atom_tells h rfl
  | .num _, h => atom_tells h rfl
  | .str _, h => str_tells h rfl
  | .cls _, h => cls_tells h rfl
  | .tuple xs, h => tuple_tells h rfl (tellsL xs h)
  | .list xs, h => list_tells h rfl (tellsL xs h)
  | .set xs, h => by
      have ih := tellsL xs h
      cases hx : xs with
      | nil => exact call_tells (a := .set []) trivial rfl (fun _ _ _ e => by cases e) (fun _ e => by cases e)
      | cons y ys => rw [hx] at h ih; exact set_tells h rfl ih
  | .fset xs, h => by
      have ih := tellsL xs h
      exact call_tells h rfl (fun _ _ _ e => by cases e) (fun _ e => by cases e; exact ih)
  | .dict kvs, h => dict_tells h rfl (tellsD kvs h)
  | .what o n kvs, h => by
      have ih := tellsA kvs h.2.2
      exact call_tells h rfl (fun _ _ _ e => by cases e; exact ih) (fun _ e => by cases e)
termination_by structural a => a
theorem tellsL : ∀ xs : List Ast, LooseL xs → ∀ x ∈ xs, Tells x
  | [], _, x, hx => by cases hx
  | y :: ys, h, x, hx => by
      have h1 := tells y h.1
      have h2 := tellsL ys h.2
      rcases List.mem_cons.1 hx with e | hx
      · rw [e]; exact h1
      · exact h2 x hx
termination_by structural xs => xs
theorem tellsD : ∀ xs : List (Ast × Ast), LooseD xs → ∀ x ∈ xs, Tells x.1 ∧ Tells x.2
  | [], _, x, hx => by cases hx
  | (k, v) :: ys, h, x, hx => by
      have h0 := tells k h.1
      have h1 := tells v h.2.1
      have h2 := tellsD ys h.2.2
      rcases List.mem_cons.1 hx with e | hx
      · rw [e]; exact ⟨h0, h1⟩
      · exact h2 x hx
termination_by structural xs => xs
theorem tellsA : ∀ xs : List (Str × Ast), LooseA xs → ∀ x ∈ xs, Tells x.2
  | [], _, x, hx => by cases hx
  | (k, v) :: ys, h, x, hx => by
      have h1 := tells v h.2.1
      have h2 := tellsA ys h.2.2
      rcases List.mem_cons.1 hx with e | hx
      · rw [e]; exact h1
      · exact h2 x hx
termination_by structural xs => xs
end

/-- The text tells the syntax, but for calls `set()` and `frozenset()`. -/
theorem blur_of_text {a b : Ast} (ha : Loose a) (hb : Loose b) (e : text a = text b) : blur a = blur b :=
  (tells a ha b hb [] [] (.inl rfl) (.inl rfl) (by rw [mtext_of_text ha hb e])).1

end Whatami
