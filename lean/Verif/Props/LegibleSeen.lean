import Verif.Props.Legible
import Verif.Props.StandIn

/-
C13 for values that are not data: functions, partials, arrays, objects.
-/
namespace Whatami

variable {E : Env}

/-- C13, exactly, whatever the values: the id is accepted if and only if the data and Whats that show in place of the values are legible and accepted. -/
theorem c13_seen {w x : What} (h : SeenAs w.toVal x.toVal) (hx : SupportedWhat x) :
    ∃ s, idD w = .ok s ∧ ((∃ w', parseWhatid E s = .ok w') ↔ LegibleWhat x ∧ AcceptedWhat E x) := by
  obtain ⟨s, h1, h2⟩ := c13_full (E := E) hx
  have := idD_of_text (c77_text h)
  rw [h1] at this
  cases hw : idD w with
  | error e => rw [hw] at this; cases this
  | ok t =>
    rw [hw] at this
    obtain rfl : t = s := by injection this
    exact ⟨t, rfl, h2⟩

/-- C13, the errors, whatever the values. -/
theorem c13_seen_syntax {w x : What} (hE : ∀ m n, E.imp m n ≠ .error .noMatch) (h : SeenAs w.toVal x.toVal) (hx : SupportedWhat x) :
    ∃ s, idD w = .ok s ∧ (parseWhatid E s = .error .noMatch ↔ ¬ LegibleWhat x) := by
  obtain ⟨s, h1, h2⟩ := c13_syntax hE hx
  have := idD_of_text (c77_text h)
  rw [h1] at this
  cases hw : idD w with
  | error e => rw [hw] at this; cases this
  | ok t =>
    rw [hw] at this
    obtain rfl : t = s := by injection this
    exact ⟨t, rfl, h2⟩

/-! The type `int` is accepted, since it shows as `int()`; functions whose name starts with one of the reserved words are not. -/

theorem exOne_seen {v u : Val} (h : SeenAs v u) : SeenAs (exOne v).toVal (exOne u).toVal := .what c!"f" [] [] c!"a" [] none h

example : SeenAs (exOne (.numtype c!"int")).toVal (exOne (.what c!"int" [] [] none)).toVal := exOne_seen (.base (.inl (.numtype _)))
example : Legible (.what c!"int" [] [] none) := by simp only [Legible, LegibleA, and_true]; unfold NestedStart; decide
example : SeenAs (exOne (.func c!"inflate" [c!"x"] [])).toVal (exOne (.what c!"inflate" [] [] none)).toVal :=
  exOne_seen (.base (.inl (.func (pre := [c!"x"]) (names := []) (ds := []) (by decide) rfl (by simp))))
example : SupportedWhat (exOne (.what c!"inflate" [] [] none)) ∧ ¬ LegibleWhat (exOne (.what c!"inflate" [] [] none)) := by
  refine ⟨exOne_supported ?_, fun h => ?_⟩
  · simp only [Supported, SupportedA, and_true]; exact ⟨fun x h => by (cases h), ident_of (by rfl)⟩
  · have := exOne_legible.1 h
    simp only [Legible, LegibleA, and_true] at this
    revert this; unfold NestedStart; decide
example : idD (exOne (.func c!"inflate" [c!"x"] [])) = .ok c!"f(a=inflate())" ∧
    parseWhatid exEnv c!"f(a=inflate())" = .error .noMatch := ⟨by rfl, by rfl⟩

end Whatami
