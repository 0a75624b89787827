import Verif.Plugins
import Verif.Spec.Same

/-
`string_plugin` escapes exactly the quotes no backslash precedes.
Definitions here are vocabulary for statements and proofs: the code they are about is cited in the model modules.
-/
namespace Whatami

/-- Escape every quote that no backslash precedes; the flag says whether the previous character is a
backslash. -/
def escFrom : Bool → Str → Str
  | _, [] => []
  | b, c :: r =>
    if c = '\'' then (if b then ['\''] else ['\\', '\'']) ++ escFrom false r
    else c :: escFrom (c == '\\') r

/-- `replace("\\'", "'")`. -/
def unescQ (s : Str) : Str := pyReplace s ['\\', '\''] ['\'']
/-- `replace("'", "\\'")`. -/
def escQ (s : Str) : Str := pyReplace s ['\''] ['\\', '\'']

theorem escQ_nil : escQ [] = [] := rfl
theorem escQ_quote (r : Str) : escQ ('\'' :: r) = '\\' :: '\'' :: escQ r := by
  simp [escQ, pyReplace, replaceGo, List.isPrefixOf]
theorem escQ_other (c : Char) (r : Str) (h : c ≠ '\'') : escQ (c :: r) = c :: escQ r := by
  simp only [escQ, pyReplace, replaceGo, List.isPrefixOf]
  have : ('\'' == c) = false := by simp [Ne.symm h]
  simp [this]

theorem unescQ_nil : unescQ [] = [] := rfl
theorem unescQ_esc (r : Str) : unescQ ('\\' :: '\'' :: r) = '\'' :: unescQ r := by
  simp [unescQ, pyReplace, replaceGo, List.isPrefixOf]
theorem unescQ_other (c : Char) (r : Str) (h : ¬ (c = '\\' ∧ r.head? = some '\'')) :
    unescQ (c :: r) = c :: unescQ r := by
  simp only [unescQ, pyReplace, replaceGo]
  rw [if_neg]
  intro hp
  apply h
  cases r with
  | nil => simp [List.isPrefixOf] at hp
  | cons d r =>
    simp only [List.isPrefixOf, Bool.and_eq_true, beq_iff_eq] at hp
    exact ⟨hp.1.symm, by simp [hp.2.1.symm]⟩

theorem escFrom_flag (r : Str) (h : r.head? ≠ some '\'') : escFrom true r = escFrom false r := by
  cases r with
  | nil => rfl
  | cons c r =>
    have : c ≠ '\'' := by simpa using h
    simp only [escFrom, this, if_false]

theorem strBody_eq : ∀ s : Str, strBody s = escFrom false s := by
  intro s
  change escQ (unescQ s) = _
  induction h : s.length using Nat.strongRecOn generalizing s with
  | _ n ih =>
    subst h
    match s with
    | [] => rfl
    | c :: r =>
      by_cases hc : c = '\\' ∧ r.head? = some '\''
      · obtain ⟨rfl, hr⟩ := hc
        cases r with
        | nil => simp at hr
        | cons d r =>
          simp at hr; subst hr
          rw [unescQ_esc, escQ_quote, ih _ (by simp; omega) r rfl]
          simp [escFrom]
      · rw [unescQ_other c r hc]
        by_cases hq : c = '\''
        · subst hq
          rw [escQ_quote, ih _ (by simp) r rfl]
          simp [escFrom]
        · rw [escQ_other c _ hq, ih _ (by simp) r rfl]
          simp only [escFrom, hq, if_false]
          by_cases hb : c = '\\'
          · subst hb
            have : r.head? ≠ some '\'' := fun h => hc ⟨rfl, h⟩
            simp [escFrom_flag r this]
          · have : (c == '\\') = false := by simp [hb]
            rw [this]

/-- Whether the string ends with a backslash. -/
def endsBS (b : Bool) (l : Str) : Bool :=
  match l.getLast? with
  | none => b
  | some c => c == '\\'

theorem endsBS_cons (b : Bool) (c : Char) (l : Str) : endsBS b (c :: l) = endsBS (c == '\\') l := by
  cases l with
  | nil => simp [endsBS]
  | cons d l =>
    simp only [endsBS, List.getLast?_cons_cons]
    cases h : (d :: l).getLast? with
    | none => simp at h
    | some x => rfl

theorem escFrom_append (b : Bool) (l r : Str) : escFrom b (l ++ r) = escFrom b l ++ escFrom (endsBS b l) r := by
  induction l generalizing b with
  | nil => simp [escFrom, endsBS]
  | cons c l ih =>
    rw [List.cons_append, endsBS_cons]
    by_cases hq : c = '\''
    · subst hq
      simp only [escFrom, if_true, ih, List.append_assoc]
      rfl
    · simp only [escFrom, hq, if_false, ih, List.cons_append]

theorem endsBS_false_iff (l : Str) : endsBS false l = false ↔ l.getLast? ≠ some '\\' := by
  simp only [endsBS]
  cases l.getLast? <;> simp

theorem strBody_esc (l r : Str) (h : l.getLast? ≠ some '\\') :
    strBody (l ++ '\'' :: r) = strBody (l ++ '\\' :: '\'' :: r) := by
  rw [strBody_eq, strBody_eq, escFrom_append, escFrom_append, (endsBS_false_iff l).2 h]
  simp [escFrom]

theorem strBody_of_quoteEq {s t : Str} (h : QuoteEq s t) : strBody s = strBody t := by
  induction h with
  | refl => rfl
  | symm _ ih => exact ih.symm
  | trans _ _ i1 i2 => exact i1.trans i2
  | esc l r h => exact strBody_esc l r h

theorem quoteEq_escFrom (s : Str) : ∀ l : Str, QuoteEq (l ++ s) (l ++ escFrom (endsBS false l) s) := by
  induction s with
  | nil => intro l; exact QuoteEq.refl _
  | cons c r ih =>
    intro l
    have e1 : endsBS false (l ++ [c]) = (c == '\\') := by simp [endsBS]
    by_cases hq : c = '\''
    · subst hq
      simp only [escFrom, if_true]
      cases hb : endsBS false l with
      | true =>
        simp only [if_true, List.cons_append, List.nil_append]
        have := ih (l ++ ['\''])
        rw [e1] at this
        simpa using this
      | false =>
        simp only [Bool.false_eq_true, if_false, List.cons_append, List.nil_append]
        refine (QuoteEq.esc l r ((endsBS_false_iff l).1 hb)).trans ?_
        have := ih (l ++ ['\\', '\''])
        have e2 : endsBS false (l ++ ['\\', '\'']) = false := by simp [endsBS]
        rw [e2] at this
        simpa using this
    · simp only [escFrom, hq, if_false]
      have := ih (l ++ [c])
      rw [e1] at this
      simpa only [List.append_assoc, List.cons_append, List.nil_append] using this

theorem quoteEq_strBody (s : Str) : QuoteEq s (strBody s) := by
  have := quoteEq_escFrom s []
  rw [strBody_eq]
  simpa [endsBS] using this

theorem strBody_eq_iff (s t : Str) : strBody s = strBody t ↔ QuoteEq s t := by
  constructor
  · intro h
    have := quoteEq_strBody s
    rw [h] at this
    exact this.trans (quoteEq_strBody t).symm
  · exact strBody_of_quoteEq

theorem strBody_idem (s : Str) : strBody (strBody s) = strBody s :=
  (strBody_of_quoteEq (quoteEq_strBody s)).symm

theorem escFrom_quoted (b : Bool) (s l r : Str) (h : escFrom b s = l ++ '\'' :: r) :
    (b = true ∧ l = []) ∨ l.getLast? = some '\\' := by
  induction s generalizing b l with
  | nil => simp [escFrom] at h
  | cons c s ih =>
    simp only [escFrom] at h
    by_cases hq : c = '\''
    · simp only [hq, if_true] at h
      cases b with
      | true =>
        simp only [if_true, List.cons_append, List.nil_append] at h
        cases l with
        | nil => simp
        | cons d l =>
          simp only [List.cons_append, List.cons.injEq] at h
          rcases ih false l h.2 with h' | h'
          · exact absurd h'.1 (by simp)
          · right
            cases l with
            | nil => simp at h'
            | cons => simpa using h'
      | false =>
        simp only [Bool.false_eq_true, if_false, List.cons_append, List.nil_append] at h
        right
        cases l with
        | nil => simp at h
        | cons d l =>
          simp only [List.cons_append, List.cons.injEq] at h
          cases l with
          | nil => simp [h.1.symm]
          | cons e l =>
            simp only [List.cons_append, List.cons.injEq] at h
            rcases ih false l h.2.2 with h' | h'
            · exact absurd h'.1 (by simp)
            · cases l with
              | nil => simp at h'
              | cons => simpa using h'
    · simp only [hq, if_false] at h
      cases l with
      | nil => simp at h; exact absurd h.1 hq
      | cons d l =>
        simp only [List.cons_append, List.cons.injEq] at h
        right
        rcases ih _ l h.2 with h' | h'
        · obtain ⟨h1, rfl⟩ := h'
          simp at h1; simp [← h.1, h1]
        · cases l with
          | nil => simp at h'
          | cons => simpa using h'

theorem strBody_quoted (s l r : Str) (h : strBody s = l ++ '\'' :: r) : l.getLast? = some '\\' := by
  rw [strBody_eq] at h
  rcases escFrom_quoted false s l r h with h | h
  · exact absurd h.1 (by simp)
  · exact h

end Whatami
