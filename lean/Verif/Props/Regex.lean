import Verif.PegLemmas
import Verif.Spec.Regex

/-
C47: the tokens of the grammars are what their regular expressions match.
-/
namespace Whatami

open Re

/-- `\d` (ASCII). -/
def reDigit : Re := .chr (fun c => decide ('0' ≤ c) && decide (c ≤ '9'))

/-- `[_A-Za-z]` -/
def reIdStart : Re :=
  .chr (fun c => c == '_' || (decide ('A' ≤ c) && decide (c ≤ 'Z')) || (decide ('a' ≤ c) && decide (c ≤ 'z')))

/-- `[_a-zA-Z0-9]` -/
def reIdChar : Re :=
  .chr (fun c => c == '_' || (decide ('a' ≤ c) && decide (c ≤ 'z')) || (decide ('A' ≤ c) && decide (c ≤ 'Z')) ||
    (decide ('0' ≤ c) && decide (c ≤ '9')))

/-- The regular expressions of parsers.py:45, 48 and 52 (and 339, 342 and 346), read as Python does. -/
def Rx.re : Rx → Re
  -- `[_A-Za-z][_a-zA-Z0-9]*`
  | .ident => .cat reIdStart (.star reIdChar)
  -- `-?\d+((\.\d*)?((e|E)(\+|-)?\d+)?)?`
  | .number => .cat (.opt (.lit '-')) (.cat (.plus reDigit) (.opt (.cat (.opt (.cat (.lit '.') (.star reDigit)))
      (.opt (.cat (.alt (.lit 'e') (.lit 'E')) (.cat (.opt (.alt (.lit '+') (.lit '-'))) (.plus reDigit)))))))
  -- `(\\.|[^'])*`
  | .body => .star (.alt (.cat (.lit '\\') (.chr (· != '\n'))) (.chr (· != '\'')))

/-! ### First matches -/

theorem run_cat (a b : Re) (s : Str) : (Re.cat a b).run s = (a.run s).flatMap b.run := by rw [Re.run]
theorem run_alt (a b : Re) (s : Str) : (Re.alt a b).run s = a.run s ++ b.run s := by rw [Re.run]

theorem head_flatMap {α β : Type} {l : List α} {f : α → List β} {x : α} {y : β} (h : l.head? = some x)
    (h' : (f x).head? = some y) : (l.flatMap f).head? = some y := by
  cases l with
  | nil => simp at h
  | cons a t =>
    simp at h; subst h
    simp [List.flatMap_cons, List.head?_append, h']

theorem head_flatMap_none {α β : Type} {l : List α} {f : α → List β} (h : ∀ x ∈ l, f x = []) :
    l.flatMap f = [] := by simpa using h

theorem head_alt {α : Type} {l m : List α} {x : α} (h : l.head? = some x) : (l ++ m).head? = some x := by
  simp [List.head?_append, h]

theorem char_le {c d : Char} : c ≤ d ↔ c.toNat ≤ d.toNat := by
  rw [Char.le_def, UInt32.le_iff_toNat_le]; rfl

theorem reDigit_eq : reDigit = .chr isDig := by
  simp only [reDigit, char_le]
  congr 1
  funext c
  simp only [isDig, Bool.decide_and]
  rfl

theorem reIdStart_eq : reIdStart = .chr isIdStart := by
  simp only [reIdStart, char_le]
  congr 1
  funext c
  simp only [isIdStart, Bool.decide_and]
  rfl

theorem reIdChar_eq : reIdChar = .chr isIdChar := by
  simp only [reIdChar]
  congr 1
  funext c
  simp only [char_le, isIdChar, isIdStart, isDig, Bool.decide_and]
  simp only [show 'a'.toNat = 97 from rfl, show 'z'.toNat = 122 from rfl, show 'A'.toNat = 65 from rfl,
    show 'Z'.toNat = 90 from rfl, show '0'.toNat = 48 from rfl, show '9'.toNat = 57 from rfl]
  rw [Bool.or_assoc (c == '_'), Bool.or_assoc (c == '_')]
  rw [Bool.or_comm (decide (97 ≤ c.toNat) && decide (c.toNat ≤ 122))]
  simp only [Bool.or_assoc]

theorem starRun_chr_head (p : Char → Bool) : ∀ (n : Nat) (s : Str), s.length ≤ n →
    (starRun (Re.run (.chr p)) n s).head? = some (s.dropWhile p)
  | 0, s, h => by
    have : s = [] := by cases s <;> simp_all
    subst this; rfl
  | n + 1, [], _ => by simp [starRun, Re.run]
  | n + 1, c :: r, h => by
    by_cases hc : p c
    · have ih := starRun_chr_head p n r (by simpa using h)
      simp only [starRun, Re.run, hc, if_true]
      apply head_alt
      simpa [List.dropWhile, hc] using ih
    · simp [starRun, Re.run, hc, List.dropWhile]

theorem star_chr_head (p : Char → Bool) (s : Str) : (Re.run (.star (.chr p)) s).head? = some (s.dropWhile p) :=
  starRun_chr_head p _ s (Nat.le_refl _)

theorem plus_chr (p : Char → Bool) (c : Char) (r : Str) (h : p c = true) :
    (Re.run (.plus (.chr p)) (c :: r)).head? = some (r.dropWhile p) := by
  have := star_chr_head p r
  simp only [plus, Re.run, h, if_true, List.flatMap_cons, List.flatMap_nil, List.append_nil]
  simpa [Re.run] using this

theorem plus_chr_none (p : Char → Bool) (s : Str) (h : s.takeWhile p = []) : Re.run (.plus (.chr p)) s = [] := by
  cases s with
  | nil => rfl
  | cons c r =>
    have hc : p c = false := by
      cases hp : p c
      · rfl
      · simp [List.takeWhile, hp] at h
    simp [plus, Re.run, hc]

theorem plus_chr_some (p : Char → Bool) (s : Str) (d : Char) (ds : Str) (h : s.takeWhile p = d :: ds) :
    (Re.run (.plus (.chr p)) s).head? = some (s.dropWhile p) := by
  cases s with
  | nil => simp at h
  | cons c r =>
    have hc : p c = true := by
      cases hp : p c
      · simp [List.takeWhile, hp] at h
      · rfl
    rw [plus_chr p c r hc]; simp [List.dropWhile, hc]

/-! ### Numbers -/

/-- `((e|E)(\+|-)?\d+)?` -/
def reExp : Re :=
  .opt (.cat (.alt (.lit 'e') (.lit 'E')) (.cat (.opt (.alt (.lit '+') (.lit '-'))) (.plus (.chr isDig))))

theorem sign_digits (s : Str) :
    (Re.run (.cat (.opt (.alt (.lit '+') (.lit '-'))) (.plus (.chr isDig))) s).head? =
      match s with
      | [] => none
      | d :: r =>
        if d = '+' ∨ d = '-' then (if r.takeWhile isDig = [] then none else some (r.dropWhile isDig))
        else (if s.takeWhile isDig = [] then none else some (s.dropWhile isDig)) := by
  cases s with
  | nil => rfl
  | cons d r =>
    by_cases hd : d = '+' ∨ d = '-'
    · have hnd : (d :: r).takeWhile isDig = [] := by rcases hd with rfl | rfl <;> rfl
      have hrun : Re.run (.opt (.alt (.lit '+') (.lit '-'))) (d :: r) = [r, d :: r] := by
        rcases hd with rfl | rfl <;> rfl
      simp only [hd, if_true]
      rw [Re.run, hrun]
      simp only [List.flatMap_cons, List.flatMap_nil, plus_chr_none _ _ hnd, List.append_nil]
      cases h : r.takeWhile isDig with
      | nil => simp [plus_chr_none _ _ h]
      | cons a b => simpa using plus_chr_some _ _ _ _ h
    · have hrun : Re.run (.opt (.alt (.lit '+') (.lit '-'))) (d :: r) = [d :: r] := by
        simp only [not_or] at hd
        simp [Re.run, opt, lit, hd.1, hd.2]
      simp only [hd, if_false]
      rw [Re.run, hrun]
      simp only [List.flatMap_cons, List.flatMap_nil, List.append_nil]
      cases h : (d :: r).takeWhile isDig with
      | nil => simp [plus_chr_none _ _ h]
      | cons a b => simpa using plus_chr_some _ _ _ _ h

theorem reExp_head (s : Str) : (Re.run reExp s).head? = some (scanExp s).2 := by
  cases s with
  | nil => rfl
  | cons c r =>
    by_cases hc : c = 'e' ∨ c = 'E'
    · have hrun : Re.run (.alt (.lit 'e') (.lit 'E')) (c :: r) = [r] := by
        rcases hc with rfl | rfl <;> rfl
      have h := sign_digits r
      have e : Re.run reExp (c :: r) = Re.run (.cat (.opt (.alt (.lit '+') (.lit '-'))) (.plus (.chr isDig))) r ++ [c :: r] := by
        rw [reExp, opt, run_alt, run_cat, hrun]; simp [Re.run]
      rw [e, List.head?_append, h]
      cases r with
      | nil => simp [scanExp, hc]
      | cons d r' =>
        by_cases hd : d = '+' ∨ d = '-'
        · simp only [scanExp, hc, hd, if_true]
          cases ht : r'.takeWhile isDig <;> simp
        · simp only [scanExp, hc, hd, if_true, if_false]
          cases ht : (d :: r').takeWhile isDig <;> simp
    · have hrun : Re.run (.alt (.lit 'e') (.lit 'E')) (c :: r) = [] := by
        simp only [not_or] at hc
        simp [Re.run, lit, hc.1, hc.2]
      have e : Re.run reExp (c :: r) = [c :: r] := by
        rw [reExp, opt, run_alt, run_cat, hrun]; simp [Re.run]
      rw [e]; simp [scanExp, hc]

theorem reFrac_head (s : Str) :
    (Re.run (.opt (.cat (.lit '.') (.star (.chr isDig)))) s).head? = some (scanFrac s).2 := by
  cases s with
  | nil => rfl
  | cons c r =>
    by_cases hc : c = '.'
    · subst hc
      have h := star_chr_head isDig r
      rw [opt, Re.run]
      apply head_alt
      simpa [Re.run, lit, scanFrac] using h
    · simp [Re.run, opt, lit, scanFrac, hc]

theorem reUnsigned (s : Str) :
    (Re.run (.cat (.plus (.chr isDig)) (.opt (.cat (.opt (.cat (.lit '.') (.star (.chr isDig)))) reExp))) s).head? =
      (scanUnsigned s).map Prod.snd := by
  cases h : s.takeWhile isDig with
  | nil => simp [Re.run, plus_chr_none _ _ h, scanUnsigned, h]
  | cons a b =>
    have h1 := plus_chr_some _ _ _ _ h
    simp only [scanUnsigned, h]
    rw [Re.run]
    refine (head_flatMap h1 (y := (scanExp (scanFrac (s.dropWhile isDig)).2).2) ?_)
    rw [opt, Re.run, Re.run]
    exact head_alt (head_flatMap (reFrac_head _) (reExp_head _))

theorem reNumber_head (s : Str) : (Re.run (Rx.re .number) s).head? = (scanNumber s).map Prod.snd := by
  have e : Rx.re .number = .cat (.opt (.lit '-')) (.cat (.plus (.chr isDig))
      (.opt (.cat (.opt (.cat (.lit '.') (.star (.chr isDig)))) reExp))) := by
    simp only [Rx.re, reDigit_eq, reExp]
  rw [e]
  cases s with
  | nil => rfl
  | cons c r =>
    by_cases hc : c = '-'
    · subst hc
      have h := reUnsigned r
      have h0 := reUnsigned ('-' :: r)
      have hn : scanUnsigned ('-' :: r) = none := by
        simp [scanUnsigned, show isDig '-' = false from rfl]
      rw [hn] at h0
      have hn' := List.head?_eq_none_iff.1 h0
      have hr : Re.run (.opt (.lit '-')) ('-' :: r) = [r, '-' :: r] := rfl
      rw [Re.run, hr, List.flatMap_cons, List.flatMap_cons, hn', List.flatMap_nil]
      simp only [List.append_nil, h, scanNumber, if_true]
      cases scanUnsigned r <;> rfl
    · have hr : Re.run (.opt (.lit '-')) (c :: r) = [c :: r] := by simp [Re.run, opt, lit, hc]
      rw [Re.run, hr]
      simp only [List.flatMap_cons, List.flatMap_nil, List.append_nil, reUnsigned, scanNumber, hc, if_false]

/-! ### String bodies -/

theorem scanBody_len : ∀ (n : Nat) (s : Str), s.length ≤ n → (scanBody s).1 ++ (scanBody s).2 = s
  | 0, s, h => by
    have : s = [] := by cases s <;> simp_all
    subst this; rfl
  | n + 1, [], _ => rfl
  | n + 1, c :: r, h => by
    have hl : r.length ≤ n := by simpa using h
    rw [scanBody.eq_def]
    by_cases h1 : c = '\''
    · simp [h1]
    · by_cases h2 : c = '\\'
      · subst h2
        cases r with
        | nil => simp
        | cons d r' =>
          by_cases h3 : d = '\n'
          · subst h3
            simpa using scanBody_len n ('\n' :: r') hl
          · have : r'.length ≤ n := by simp at hl; omega
            simpa [h3] using scanBody_len n r' this
      · simpa [h1, h2] using scanBody_len n r hl

/-- One unit of a string body: `\\.|[^']` -/
def reUnit : Re := .alt (.cat (.lit '\\') (.chr (· != '\n'))) (.chr (· != '\''))

theorem reBody_head : ∀ (n : Nat) (s : Str), s.length ≤ n →
    (starRun (Re.run reUnit) n s).head? = some (scanBody s).2
  | 0, s, h => by
    have : s = [] := by cases s <;> simp_all
    subst this; rfl
  | n + 1, [], _ => rfl
  | n + 1, c :: r, h => by
    have hl : r.length ≤ n := by simpa using h
    rw [scanBody.eq_def]
    by_cases h1 : c = '\''
    · subst h1
      simp [starRun, Re.run, reUnit, lit]
    · by_cases h2 : c = '\\'
      · subst h2
        cases r with
        | nil =>
          have := reBody_head n [] (by simp)
          simp only [starRun]
          apply head_alt
          simpa [Re.run, reUnit, lit, scanBody] using this
        | cons d r' =>
          by_cases h3 : d = '\n'
          · subst h3
            have := reBody_head n ('\n' :: r') hl
            simp only [starRun]
            apply head_alt
            simpa [Re.run, reUnit, lit] using this
          · have := reBody_head n r' (by simp at hl; omega)
            simp only [starRun]
            apply head_alt
            have e : Re.run reUnit ('\\' :: d :: r') = [r', d :: r'] := by simp [Re.run, reUnit, lit, h3]
            rw [e, List.filter_cons]
            simp only [List.length_cons]
            rw [if_pos (by simp; omega), List.flatMap_cons]
            apply head_alt
            simpa [h3] using this
      · have := reBody_head n r hl
        simp only [starRun]
        apply head_alt
        simpa [Re.run, reUnit, lit, h1, h2] using this

/-! ### What is matched -/

theorem take_of_append {t r s : Str} (h : t ++ r = s) : s.take (s.length - r.length) = t := by
  subst h; simp

theorem scan_split {x : Rx} {s t r : Str} (h : x.scan s = some (t, r)) : t ++ r = s := by
  cases x with
  | ident =>
    cases s with
    | nil => cases h
    | cons c u =>
      simp only [Rx.scan] at h
      split at h
      · simp only [Option.some.injEq, Prod.mk.injEq] at h
        rw [← h.1, ← h.2, List.cons_append, List.takeWhile_append_dropWhile]
      · cases h
  | number =>
    cases s with
    | nil => cases h
    | cons c u =>
      simp only [Rx.scan, scanNumber] at h
      split at h
      · next hc =>
        split at h
        · cases h
        · next t' r' h' =>
          simp only [Option.some.injEq, Prod.mk.injEq] at h
          rw [← h.1, ← h.2, List.cons_append, ← (scanUnsigned_append h').1, hc]
      · exact (scanUnsigned_append h).1.symm
  | body =>
    simp only [Rx.scan, Option.some.injEq] at h
    have := scanBody_len _ s (Nat.le_refl _)
    rw [h] at this
    exact this

/-- **C47**: the three scanners of the parser model find, on every input, exactly what `re.match` finds with the
regular expressions of the grammars. -/
theorem c47_tokens (x : Rx) (s : Str) : x.scan s = x.re.matchR s := by
  have key : (Re.run x.re s).head? = (x.scan s).map Prod.snd := by
    cases x with
    | ident =>
      simp only [Rx.re, reIdStart_eq, reIdChar_eq]
      cases s with
      | nil => rfl
      | cons c r =>
        by_cases hc : isIdStart c
        · have := star_chr_head isIdChar r
          simp only [Rx.scan, hc, if_true]
          simpa [Re.run, hc] using this
        · simp [Rx.scan, Re.run, hc]
    | number => exact reNumber_head s
    | body => exact reBody_head _ s (Nat.le_refl _)
  simp only [matchR, key]
  cases h : x.scan s with
  | none => rfl
  | some p =>
    obtain ⟨t, r⟩ := p
    simp [take_of_append (scan_split h)]

example : Rx.number.re.matchR c!"-12.e+5x" = some (c!"-12.", c!"e+5x") ∨
    Rx.number.re.matchR c!"-12.e+5x" = some (c!"-12.e+5", c!"x") := by right; rfl
example : Rx.number.re.matchR c!"3e+)" = some (c!"3", c!"e+)") := rfl
example : Rx.body.re.matchR c!"a\\'b'c" = some (c!"a\\'b", c!"'c") := rfl

end Whatami
