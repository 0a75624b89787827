import Verif.CostLower
import Verif.Props.RoundTrip

/-
C79: how much work it is to read a text.
-/
namespace Whatami

/-- C79. A text that loads was read in time linear in its length, however deeply it is nested: at most 192 tries to match a terminal
for every character. -/
theorem c79_loads {E : Env} {s : Str} {w : What} (h : parseWhatid E s = .ok w) : parseTries newGrammar s ≤ 192 * s.length :=
  tries_linear h

/-- C79, for ids: to read an id back takes time linear in its length. -/
theorem c79_ids {F : Frag} {E : Env} {w : What} (h : PrintableWhat F w) (hl : LoadableWhat F E w) :
    ∃ s, idD w = .ok s ∧ parseTries newGrammar s ≤ 192 * s.length := by
  obtain ⟨s, h1, h2⟩ := id_parse h hl
  exact ⟨s, h1, c79_loads h2⟩

/-- C79, for any text, whether it loads or not: only opening braces can make it expensive, and each at most doubles the work. -/
theorem c79_any (s : Str) : parseTries newGrammar s ≤ 96 * 2 ^ s.count '{' * s.length + 7 := tries_general s

/-- C79: a text without braces is read (or rejected) in linear time. -/
theorem c79_no_braces {s : Str} (h : '{' ∉ s) : parseTries newGrammar s ≤ 96 * s.length + 7 := by
  have := c79_any s
  rw [List.count_eq_zero.2 h] at this
  omega

/-- C79, the limit of it: a text with `n` open braces is rejected, after no less than `2 ^ n` tries. -/
theorem c79_exponential (E : Env) (n : Nat) : parseWhatid E (c!"a(b=" ++ List.replicate n '{') = .error .noMatch ∧
    2 ^ n ≤ parseTries newGrammar (c!"a(b=" ++ List.replicate n '{') := by
  obtain ⟨h1, h2⟩ := braces_top n
  exact ⟨by simp only [parseWhatid, parseWith, parseTree, h1], h2⟩

/-- C79: the work is at least one try for every terminal of the parse tree. -/
theorem c79_at_least {s : Str} {t : Tree} (h : parseTree newGrammar s = .ok t) : terminals t ≤ parseTries newGrammar s := by
  unfold parseTree at h
  split at h
  · next e =>
    cases h
    have := terminals_le e
    simp only [terminalsL] at this
    exact Nat.le_trans (Nat.le_add_right _ _) this
  · cases h
  · cases h

/-! ### Concrete cases -/

example : ∃ s, idD exRT = .ok s ∧ parseTries newGrammar s ≤ 192 * s.length :=
  c79_ids (exRT_printable ⟨False, False, False⟩) (exRT_loadable (fun h => h))
example : parseTries newGrammar c!"a(b={1:{2:{3:'x'}}},c=[(1,2),{3}])" = 158 := by decide +kernel
example : [1, 2, 3, 4, 5].map (fun n => parseTries newGrammar (c!"a(b=" ++ List.replicate n '{')) = [62, 136, 284, 580, 1172] := by decide +kernel
example : parseTries newGrammar c!"a(b=((((((" ≤ 96 * 10 + 7 := by decide +kernel

end Whatami
