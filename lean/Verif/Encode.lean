import Verif.ParseSem
import Verif.Spec.Fragment
import Verif.IdLemmas

/-
The syntax of the text of a value, and the value a piece of syntax stands for.
Definitions here are vocabulary for statements and proofs: the code they are about is cited in the model modules.
-/
namespace Whatami

/-- The order of set elements in an id. -/
def textLe (a b : Ast) : Bool := strLe (text a) (text b)
/-- The text of an item of a dict. -/
def text2 (p : Ast × Ast) : Str := text p.1 ++ c!":" ++ text p.2
/-- The order of dict items in an id. -/
def textLe2 (a b : Ast × Ast) : Bool := strLe (text2 a) (text2 b)

mutual
/-- The syntax of the text of a printable value. -/
def enc : Val → Ast
  | .none => .none
  | .bool b => .bool b
  | .int i => .num (intStr i)
  | .float t => .num t
  | .str s => .str (strBody s)
  | .cls f => .cls f
  | .tuple xs => .tuple (encL xs)
  | .list xs => .list (encL xs)
  | .set xs => .set (sortBy textLe (encL xs))
  | .fset xs => .fset (sortBy textLe (encL xs))
  | .dict kvs => .dict (sortBy textLe2 (encD kvs))
  | .what n c nk o => .what o n ((sortBy keyLe (encA c)).filter fun kv => !nk.contains kv.1)
  | _ => .none
termination_by structural v => v
/-- The syntax of the elements. -/
def encL : List Val → List Ast
  | [] => []
  | x :: xs => enc x :: encL xs
termination_by structural xs => xs
/-- The syntax of the items of a dict. -/
def encD : List (Val × Val) → List (Ast × Ast)
  | [] => []
  | (k, v) :: xs => (enc k, enc v) :: encD xs
termination_by structural xs => xs
/-- The syntax of parameters. -/
def encA : List (Str × Val) → List (Str × Ast)
  | [] => []
  | (k, v) :: xs => (k, enc v) :: encA xs
termination_by structural xs => xs
end

mutual
/-- The value of syntax; `keep` says whether frozensets stay frozensets. -/
def dec (keep : Bool) : Ast → Val
  | .none => .none
  | .bool b => .bool b
  | .num t => match pyInt t with | some i => .int i | none => .float t
  | .str b => .str b
  | .cls b => .cls b
  | .tuple xs => .tuple (decL keep xs)
  | .list xs => .list (decL keep xs)
  | .set xs => .set (decL keep xs)
  | .fset xs => if keep then .fset (decL keep xs) else .set (decL keep xs)
  | .dict kvs => .dict (decD keep kvs)
  | .what o n kvs => .what n (decA keep kvs) [] o
termination_by structural a => a
/-- The values of elements. -/
def decL (keep : Bool) : List Ast → List Val
  | [] => []
  | x :: xs => dec keep x :: decL keep xs
termination_by structural xs => xs
/-- The values of items. -/
def decD (keep : Bool) : List (Ast × Ast) → List (Val × Val)
  | [] => []
  | (k, v) :: xs => (dec keep k, dec keep v) :: decD keep xs
termination_by structural xs => xs
/-- The values of parameters. -/
def decA (keep : Bool) : List (Str × Ast) → List (Str × Val)
  | [] => []
  | (k, v) :: xs => (k, dec keep v) :: decA keep xs
termination_by structural xs => xs
end

theorem encL_map (xs : List Val) : encL xs = xs.map enc := by
  induction xs with
  | nil => rfl
  | cons x xs ih => simp only [encL, ih, List.map_cons]
theorem encD_map (xs : List (Val × Val)) : encD xs = xs.map fun kv => (enc kv.1, enc kv.2) := by
  induction xs with
  | nil => rfl
  | cons x xs ih => obtain ⟨k, v⟩ := x; simp only [encD, ih, List.map_cons]
theorem encA_map (xs : List (Str × Val)) : encA xs = xs.map fun kv => (kv.1, enc kv.2) := by
  induction xs with
  | nil => rfl
  | cons x xs ih => obtain ⟨k, v⟩ := x; simp only [encA, ih, List.map_cons]
theorem decL_map (b : Bool) (xs : List Ast) : decL b xs = xs.map (dec b) := by
  induction xs with
  | nil => rfl
  | cons x xs ih => simp only [decL, ih, List.map_cons]
theorem decD_map (b : Bool) (xs : List (Ast × Ast)) : decD b xs = xs.map fun kv => (dec b kv.1, dec b kv.2) := by
  induction xs with
  | nil => rfl
  | cons x xs ih => obtain ⟨k, v⟩ := x; simp only [decD, ih, List.map_cons]
theorem decA_map (b : Bool) (xs : List (Str × Ast)) : decA b xs = xs.map fun kv => (kv.1, dec b kv.2) := by
  induction xs with
  | nil => rfl
  | cons x xs ih => obtain ⟨k, v⟩ := x; simp only [decA, ih, List.map_cons]

/-! ### Integers -/

theorem digitChar_facts : ∀ n, n < 10 → isDig (digitChar n) = true ∧ (digitChar n).toNat - 48 = n := by decide

theorem digitsVal_append (a : Str) (c : Char) : digitsVal (a ++ [c]) = digitsVal a * 10 + (c.toNat - 48) := by
  simp [digitsVal]

theorem natStrAux_spec (f n : Nat) (h : n < f) : natStrAux f n ≠ [] ∧ (natStrAux f n).all isDig = true ∧ digitsVal (natStrAux f n) = n := by
  induction f generalizing n with
  | zero => omega
  | succ f ih =>
    simp only [natStrAux]
    split
    · rename_i hn
      obtain ⟨h1, h2⟩ := digitChar_facts n hn
      exact ⟨by simp, by simp [h1], by simp [digitsVal, h2]⟩
    · obtain ⟨h1, h2, h3⟩ := ih (n / 10) (by omega)
      obtain ⟨h4, h5⟩ := digitChar_facts (n % 10) (by omega)
      refine ⟨by simp, by simp [h4]; simpa using h2, ?_⟩
      rw [digitsVal_append, h3, h5]
      omega

theorem natStr_spec (n : Nat) : Digits (natStr n) ∧ digitsVal (natStr n) = n := by
  obtain ⟨h1, h2, h3⟩ := natStrAux_spec (n + 1) n (by omega)
  exact ⟨⟨h1, h2⟩, h3⟩

theorem pyInt_digits {d : Str} (h : Digits d) : pyInt d = some (digitsVal d : Int) := by
  obtain ⟨hne, hd⟩ := h
  cases d with
  | nil => exact absurd rfl hne
  | cons c r =>
    have hc : c ≠ '-' := by
      rintro rfl
      simp [isDig] at hd
    simp only [pyInt, hc, if_false, hd, if_true]

theorem pyInt_neg {d : Str} (h : Digits d) : pyInt ('-' :: d) = some (-(digitsVal d : Int)) := by
  simp only [pyInt, if_true]
  exact if_pos h

theorem pyInt_intStr (i : Int) : pyInt (intStr i) = some i := by
  cases i with
  | ofNat n =>
    simp only [intStr, pyInt_digits (natStr_spec n).1, (natStr_spec n).2]
    rfl
  | negSucc n =>
    simp only [intStr, pyInt_neg (natStr_spec (n + 1)).1, (natStr_spec (n + 1)).2]
    rfl

theorem numShape_intStr (i : Int) : NumShape (intStr i) := by
  cases i with
  | ofNat n =>
    have := NumShape.digits false (natStr_spec n).1 (.inl rfl) (.inl rfl)
    simpa [intStr] using this
  | negSucc n =>
    have := NumShape.digits true (natStr_spec (n + 1)).1 (.inl rfl) (.inl rfl)
    simpa [intStr] using this

theorem pyInt_float {t : Str} (h : FloatText t) : pyInt t = none := by
  obtain ⟨hs, hd, hm⟩ := h
  cases t with
  | nil => rfl
  | cons c r =>
    simp only [pyInt]
    split
    · rename_i hc
      subst hc
      rw [if_neg]
      exact hm r rfl
    · rw [if_neg]
      intro h
      exact hd ⟨by simp, h⟩

/-! ### Strings -/

theorem escFrom_units {b : Str} (h : Units b) : escFrom false b = b := by
  induction h with
  | nil => rfl
  | char h1 h2 _ ih =>
    have : ∀ c : Char, c ≠ '\\' → (c == '\\') = false := by simp
    simp only [escFrom, h1, if_false, this _ h2, ih]
  | @esc d r hd _ ih =>
    by_cases hq : d = '\''
    · subst hq
      simp [escFrom, ih]
    · simp only [escFrom]
      by_cases hb : d = '\\'
      · subst hb
        have : ∀ r, Units r → escFrom true r = escFrom false r := by
          intro r hr
          cases hr <;> simp_all [escFrom]
        simp [this r ‹_›, ih]
      · have : (d == '\\') = false := by simp [hb]
        simp [hq, this, ih]
  | backslashNl _ ih => simp [escFrom, ih]

theorem strBody_good {s : Str} (h : GoodBody s) : strBody s = s := by rw [strBody_eq, escFrom_units h.1]

theorem printable_str {F : Frag} {s : Str} (h : Printable F (.str s)) :
    GoodBody (strBody s) ∧ (strBody s = s ∨ (F.quotes ∧ QuoteEq s (strBody s))) := by
  simp only [Printable] at h
  rcases h with h | ⟨hq, q, h1, h2⟩
  · rw [strBody_good h]; exact ⟨h, .inl rfl⟩
  · rw [strBody_of_quoteEq h1, strBody_good h2]
    exact ⟨h2, .inr ⟨hq, h1⟩⟩

/-! ### Text without " at 0x" -/

theorem infix_nospace {s : Str} (h : ∀ c ∈ s, c ≠ ' ') : isInfix c!" at 0x" s = false := by
  induction s with
  | nil => rfl
  | cons c r ih =>
    simp only [isInfix, Bool.or_eq_false_iff]
    refine ⟨?_, ih fun d hd => h d (by simp [hd])⟩
    have := h c (by simp)
    simp [List.isPrefixOf, Ne.symm this]

theorem dig_nospace {s : Str} (h : s.all isDig = true) : ∀ c ∈ s, c ≠ ' ' := by
  intro c hc e
  subst e
  have := List.all_eq_true.1 h _ hc
  simp [isDig] at this

theorem numShape_nospace {t : Str} (h : NumShape t) : ∀ c ∈ t, c ≠ ' ' := by
  cases h with
  | digits neg hd hf he =>
    intro c hc
    simp only [List.mem_append] at hc
    rcases hc with ((hc | hc) | hc) | hc
    · cases neg <;> simp at hc; subst hc; decide
    · exact dig_nospace hd.2 c hc
    · rcases hf with rfl | ⟨f, rfl, hf⟩
      · cases hc
      · rcases List.mem_cons.1 hc with rfl | hc
        · decide
        · exact dig_nospace hf c hc
    · rcases he with rfl | ⟨d, sg, e, rfl, hd, hs, he⟩
      · cases hc
      · rcases List.mem_cons.1 hc with rfl | hc
        · rcases hd with rfl | rfl <;> decide
        · rcases List.mem_append.1 hc with hc | hc
          · rcases hs with rfl | rfl | rfl <;> simp at hc <;> (subst hc; decide)
          · exact dig_nospace he.2 c hc
  | inf => decide
  | minusInf => decide
  | nan => decide

theorem dotted_chars {f : Str} (h : Dotted f) : ∀ c ∈ f, c ≠ ' ' ∧ c ≠ '\'' ∧ c ≠ '\\' ∧ isWs c = false := by
  have key : ∀ c : Char, isIdChar c = true ∨ c = '.' → c ≠ ' ' ∧ c ≠ '\'' ∧ c ≠ '\\' ∧ isWs c = false := by
    intro c hc
    refine ⟨?_, ?_, ?_, ?_⟩
    · rintro rfl; revert hc; decide
    · rintro rfl; revert hc; decide
    · rintro rfl; revert hc; decide
    · cases hw : isWs c with
      | false => rfl
      | true =>
        exfalso
        rcases ws_cases hw with rfl | rfl | rfl | rfl <;> (revert hc; decide)
  exact fun c hc => key c (h.2 c hc)

theorem dotted_good {f : Str} (h : Dotted f) : GoodBody f := by
  have hc := dotted_chars h
  refine ⟨?_, fun c r e => (hc c (by simp [e])).2.2.2⟩
  clear h
  induction f with
  | nil => exact .nil
  | cons c r ih => exact .char (hc c (by simp)).2.1 (hc c (by simp)).2.2.1 (ih fun d hd => hc d (by simp [hd]))

theorem dotted_infix {f : Str} (h : Dotted f) : isInfix c!" at 0x" (c!"<class '" ++ f ++ c!"'>") = false := by
  have : isInfix c!" at 0x" (f ++ c!"'>") = false := by
    apply infix_nospace
    intro c hc
    rcases List.mem_append.1 hc with hc | hc
    · exact (dotted_chars h c hc).1
    · rcases List.mem_cons.1 hc with rfl | hc
      · decide
      · rcases List.mem_cons.1 hc with rfl | hc
        · decide
        · cases hc
  simp [isInfix, List.isPrefixOf]
  simpa using this

/-! ### The text of a value -/

theorem insertBy_map {α β : Type} {le : α → α → Bool} {le' : β → β → Bool} {f : α → β} (h : ∀ a b, le' (f a) (f b) = le a b) (a : α) (l : List α) :
    insertBy le' (f a) (l.map f) = (insertBy le a l).map f := by
  induction l with
  | nil => rfl
  | cons b l ih =>
    simp only [List.map_cons, insertBy, h]
    split
    · rfl
    · simp only [List.map_cons, ih]

theorem sortBy_map {α β : Type} {le : α → α → Bool} {le' : β → β → Bool} {f : α → β} (h : ∀ a b, le' (f a) (f b) = le a b) (l : List α) :
    sortBy le' (l.map f) = (sortBy le l).map f := by
  induction l with
  | nil => rfl
  | cons a l ih => simp only [List.map_cons, sortBy, ih, insertBy_map h]

theorem sepToks_flatten (ls : List (List Str)) : (sepToks ls).flatten = pyJoin c!"," (ls.map List.flatten) := by
  induction ls with
  | nil => rfl
  | cons x l ih =>
    cases l with
    | nil => simp [sepToks, pyJoin]
    | cons y l =>
      simp only [sepToks, List.flatten_append, List.flatten_cons, ih, List.map_cons, pyJoin]
      simp

theorem toksL_flatten (xs : List Ast) : (toksL xs).map List.flatten = xs.map text := by
  rw [toksL_map, List.map_map]; rfl
theorem toksD_flatten (xs : List (Ast × Ast)) : (toksD xs).map List.flatten = xs.map text2 := by
  rw [toksD_map, List.map_map]
  refine List.map_congr_left fun x _ => ?_
  simp [toks2, text2, text]
/-- The text of a parameter. -/
def textA (p : Str × Ast) : Str := p.1 ++ c!"=" ++ text p.2
theorem toksA_flatten (xs : List (Str × Ast)) : (toksA xs).map List.flatten = xs.map textA := by
  rw [toksA_map, List.map_map]
  refine List.map_congr_left fun x _ => ?_
  simp [toksKv, textA, text]

theorem bracket_text (op cl : Str) (ls : List (List Str)) :
    (op :: sepToks ls ++ [cl]).flatten = bracket op cl (ls.map List.flatten) := by
  simp [bracket, sepToks_flatten]

theorem text_what (o : Option Str) (n : Str) (kvs : List (Str × Ast)) :
    text (.what o n kvs) = wrapId n o (pyJoin c!"," (kvs.map textA)) := by
  simp only [text, toks, wrapId]
  have := bracket_text c!"(" c!")" (toksA kvs)
  rw [toksA_flatten] at this
  rw [List.append_assoc, List.flatten_append, List.cons_append, List.flatten_cons, this]
  cases o with
  | none => simp [outToks, bracket]
  | some x => simp [outToks, bracket]

/-- `build_string` gives the text of the syntax. -/
def TextOf (v : Val) : Prop := buildD v = .ok (some (text (enc v)))

theorem strings_text {xs : List Val} (h : ∀ x ∈ xs, TextOf x) : strings buildD xs = .ok ((encL xs).map text) := by
  induction xs with
  | nil => rfl
  | cons x xs ih =>
    have hx := h x (by simp)
    have ht := ih fun y hy => h y (by simp [hy])
    simp only [strings] at ht ⊢
    simp only [mapR]
    rw [show buildD x = _ from hx]
    cases hm : mapR buildD xs with
    | error e => rw [hm] at ht; cases ht
    | ok l =>
      rw [hm] at ht
      simp only [unNone] at ht ⊢
      rw [ht]
      simp [encL]

theorem dkvs_text {kvs : List (Val × Val)} (h : ∀ x ∈ kvs, TextOf x.1 ∧ TextOf x.2) :
    mapR (dkvStr buildD) kvs = .ok ((encD kvs).map text2) := by
  induction kvs with
  | nil => rfl
  | cons x xs ih =>
    obtain ⟨k, v⟩ := x
    obtain ⟨h1, h2⟩ := h (k, v) (by simp)
    simp only [mapR, dkvStr, ih fun y hy => h y (by simp [hy])]
    rw [show buildD k = _ from h1, show buildD v = _ from h2]
    rfl

theorem kvs_text {kvs : List (Str × Val)} (h : ∀ x ∈ kvs, TextOf x.2) :
    mapR (kvStr buildD) kvs = .ok ((encA kvs).map textA) := by
  induction kvs with
  | nil => rfl
  | cons x xs ih =>
    obtain ⟨k, v⟩ := x
    have h2 := h (k, v) (by simp)
    simp only [mapR, kvStr, ih fun y hy => h y (by simp [hy])]
    rw [show buildD v = _ from h2]
    rfl

theorem sort_encA (c : Conf) : sortBy keyLe (encA c) = encA (sortBy keyLe c) := by
  rw [encA_map, encA_map]
  exact sortBy_map (fun _ _ => rfl) c

theorem filter_encA (p : Str → Bool) (c : Conf) : (encA c).filter (fun kv => p kv.1) = encA (c.filter fun kv => p kv.1) := by
  rw [encA_map, encA_map, List.filter_map]
  rfl

theorem enc_items (w : What) : (sortBy keyLe (encA w.conf)).filter (fun kv => !w.nonids.contains kv.1) = encA (idItems w false) := by
  rw [sort_encA, filter_encA fun k => !w.nonids.contains k]
  simp [idItems]

theorem what_text {n : Str} {c : Conf} {nk : List Str} {o : Option Str} (h : ∀ k v, (k, v) ∈ c → k ∉ nk → TextOf v) :
    idD ⟨n, c, nk, o⟩ = .ok (text (enc (.what n c nk o))) := by
  have hi : ∀ x ∈ idItems ⟨n, c, nk, o⟩ false, TextOf x.2 := by
    rintro ⟨k, v⟩ hx
    simp only [idItems, List.mem_filter, mem_sortBy, Bool.false_or, Bool.not_eq_true',
      List.contains_eq_mem, decide_eq_false_iff_not] at hx
    exact h k v hx.1 hx.2
  simp only [enc]
  rw [enc_items ⟨n, c, nk, o⟩, text_what, idD, idStr, kvs_text hi]

theorem printableL_mem {F : Frag} {xs : List Val} (h : PrintableL F xs) : ∀ x ∈ xs, Printable F x := by
  induction xs with
  | nil => intro x hx; cases hx
  | cons y ys ih =>
    simp only [PrintableL] at h
    intro x hx
    rcases List.mem_cons.1 hx with rfl | hx
    · exact h.1
    · exact ih h.2 x hx
theorem printableD_mem {F : Frag} {xs : List (Val × Val)} (h : PrintableD F xs) : ∀ x ∈ xs, Printable F x.1 ∧ Printable F x.2 := by
  induction xs with
  | nil => intro x hx; cases hx
  | cons y ys ih =>
    obtain ⟨k, v⟩ := y
    simp only [PrintableD] at h
    intro x hx
    rcases List.mem_cons.1 hx with rfl | hx
    · exact ⟨h.1, h.2.1⟩
    · exact ih h.2.2 x hx
theorem printableA_mem {F : Frag} {nk : List Str} {xs : List (Str × Val)} (h : PrintableA F nk xs) :
    ∀ k v, (k, v) ∈ xs → k ∉ nk → Printable F v := by
  induction xs with
  | nil => intro k v hx; cases hx
  | cons y ys ih =>
    obtain ⟨k', v'⟩ := y
    simp only [PrintableA] at h
    intro k v hx
    rcases List.mem_cons.1 hx with e | hx
    · cases e; exact h.1
    · exact ih h.2 k v hx

theorem text_plain {v : Val} (h : plainVal v = true) (h0 : isInfix c!" at 0x" (pyStr v) = false) : buildD v = .ok (some (pyStr v)) := by
  rw [buildD_plain v h, captureAll, h0]
  rfl

theorem isEmpty_map_text (l : List Ast) : (l.map text).isEmpty = l.isEmpty := by cases l <;> rfl

mutual
theorem text_of {F : Frag} : ∀ v : Val, Printable F v → TextOf v
  | .none, _ => text_plain rfl rfl
  | .bool true, _ => text_plain rfl rfl
  | .bool false, _ => text_plain rfl rfl
  | .int i, _ => by
      have := text_plain (v := .int i) rfl (infix_nospace (numShape_nospace (numShape_intStr i)))
      simpa [TextOf, text, toks, enc, pyStr] using this
  | .float t, h => by
      simp only [Printable] at h
      have := text_plain (v := .float t) rfl (infix_nospace (numShape_nospace h.1))
      simpa [TextOf, text, toks, enc, pyStr] using this
  | .str s, _ => by simp [TextOf, buildD_str, text, toks, enc]
  | .cls f, h => by
      simp only [Printable] at h
      have := text_plain (v := .cls f) rfl (dotted_infix h)
      simpa [TextOf, text, toks, enc, pyStr] using this
  | .tuple xs, h => by
      simp only [Printable] at h
      have := text_ofL xs h
      simp only [TextOf, buildD_tuple, strings_text this, enc, text, toks, bracket_text, toksL_flatten]
      rfl
  | .list xs, h => by
      simp only [Printable] at h
      have := text_ofL xs h
      simp only [TextOf, buildD_list, strings_text this, enc, text, toks, bracket_text, toksL_flatten]
      rfl
  | .set xs, h => by
      simp only [Printable] at h
      have := text_ofL xs h
      have hs : sortBy strLe ((encL xs).map text) = (sortBy textLe (encL xs)).map text := sortBy_map (fun _ _ => rfl) _
      simp only [TextOf, buildD_set, strings_text this, enc, Except.map, setStr, hs, isEmpty_map_text, ret, text, toks]
      cases (sortBy textLe (encL xs)).isEmpty with
      | true => rfl
      | false => simp only [Bool.false_eq_true, if_false, bracket_text, toksL_flatten]
  | .fset xs, h => by
      simp only [Printable] at h
      have := text_ofL xs h.2
      have hs : sortBy strLe ((encL xs).map text) = (sortBy textLe (encL xs)).map text := sortBy_map (fun _ _ => rfl) _
      simp only [TextOf, buildD_fset, strings_text this, enc, Except.map, fsetStr, hs, isEmpty_map_text, ret, text, toks]
      cases (sortBy textLe (encL xs)).isEmpty with
      | true => rfl
      | false => simp only [Bool.false_eq_true, if_false, bracket_text, toksL_flatten]
  | .dict kvs, h => by
      simp only [Printable] at h
      have := text_ofD kvs h
      have hs : sortBy strLe ((encD kvs).map text2) = (sortBy textLe2 (encD kvs)).map text2 := sortBy_map (fun _ _ => rfl) _
      simp only [TextOf, buildD_dict, dictStr, dkvs_text this, enc, Except.map, hs, ret, text, toks, bracket_text, toksD_flatten]
  | .what n c nk o, h => by
      simp only [Printable] at h
      have := text_ofA c h.2.2.2.2
      have hw := what_text (n := n) (o := o) this
      simp only [TextOf, buildD_what]
      simp only [idD] at hw
      rw [hw]
      rfl
  | .sub _ _ _ _, h => by simp only [Printable] at h
  | .odict _ _ _, h => by simp only [Printable] at h
  | .ddict _ _ _, h => by simp only [Printable] at h
  | .obj _ _ _ _ _ _ _ _, h => by simp only [Printable] at h
  | .duck _ _ _ _, h => by simp only [Printable] at h
  | .numtype _, h => by simp only [Printable] at h
  | .wcls _, h => by simp only [Printable] at h
  | .func _ _ _, h => by simp only [Printable] at h
  | .part _ _ _ _, h => by simp only [Printable] at h
  | .builtin _, h => by simp only [Printable] at h
  | .property, h => by simp only [Printable] at h
  | .array _ _, h => by simp only [Printable] at h
  | .rng _ _, h => by simp only [Printable] at h
termination_by structural v => v
theorem text_ofL {F : Frag} : ∀ xs : List Val, PrintableL F xs → ∀ x ∈ xs, TextOf x
  | [], _, x, hx => by cases hx
  | y :: ys, h, x, hx => by
      simp only [PrintableL] at h
      have h1 := text_of y h.1
      have h2 := text_ofL ys h.2
      rcases List.mem_cons.1 hx with e | hx
      · rw [e]; exact h1
      · exact h2 x hx
termination_by structural xs => xs
theorem text_ofD {F : Frag} : ∀ xs : List (Val × Val), PrintableD F xs → ∀ x ∈ xs, TextOf x.1 ∧ TextOf x.2
  | [], _, x, hx => by cases hx
  | (k, v) :: ys, h, x, hx => by
      simp only [PrintableD] at h
      have h0 := text_of k h.1
      have h1 := text_of v h.2.1
      have h2 := text_ofD ys h.2.2
      rcases List.mem_cons.1 hx with e | hx
      · rw [e]; exact ⟨h0, h1⟩
      · exact h2 x hx
termination_by structural xs => xs
theorem text_ofA {F : Frag} {nk : List Str} : ∀ xs : List (Str × Val), PrintableA F nk xs → ∀ k v, (k, v) ∈ xs → k ∉ nk → TextOf v
  | [], _, k, v, hx => by cases hx
  | (k', v') :: ys, h, k, v, hx => by
      simp only [PrintableA] at h
      have h1 := fun hk => text_of v' (h.1 hk)
      have h2 := text_ofA ys h.2
      intro hk
      rcases List.mem_cons.1 hx with e | hx
      · cases e; exact h1 hk
      · exact h2 k v hx hk
termination_by structural xs => xs
end

end Whatami
