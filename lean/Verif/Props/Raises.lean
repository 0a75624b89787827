import Verif.BasicChain

/-
C17: id generation raises exactly on the values that show something it refuses.
-/
namespace Whatami

theorem basicsD : Basics buildD := basics noCustom [.pandas, .numpy, .rng, .any0x, .any] (by decide)

/-- The text of a value fails exactly if the value is refused or the text of something shown in it fails. -/
theorem fails_iff (v : Val) : Fails (buildD v) ↔ Bad v ∨ ∃ x, Shown x v ∧ Fails (buildD x) := by
  have noText : (∃ s, buildD v = .ok s) → (∀ x, ¬ Shown x v) → ¬ Bad v → (Fails (buildD v) ↔ Bad v ∨ ∃ x, Shown x v ∧ Fails (buildD x)) := by
    rintro ⟨s, hs⟩ h1 h2
    rw [hs]
    constructor
    · rintro ⟨e, h⟩; cases h
    · rintro (h | ⟨x, h, -⟩)
      · exact absurd h h2
      · exact absurd h (h1 x)
  cases hl : lateVal v with
  | false => exact fails_basic basicsD v hl
  | true =>
  cases v with
  | none => exact noText ⟨_, buildD_plain _ rfl⟩ (by intro x h; cases h) (by intro h; cases h)
  | bool b => exact noText ⟨_, buildD_plain _ rfl⟩ (by intro x h; cases h) (by intro h; cases h)
  | int b => exact noText ⟨_, buildD_plain _ rfl⟩ (by intro x h; cases h) (by intro h; cases h)
  | float b => exact noText ⟨_, buildD_plain _ rfl⟩ (by intro x h; cases h) (by intro h; cases h)
  | cls b => exact noText ⟨_, buildD_plain _ rfl⟩ (by intro x h; cases h) (by intro h; cases h)
  | array c s => exact noText ⟨_, buildD_array c s⟩ (by intro x h; cases h) (by intro h; cases h)
  | obj c cl cd dd sd pd wh s =>
    refine noText ⟨_, buildD_plain _ hl⟩ ?_ (by intro h; cases h)
    intro x h; cases h; cases hl
  | rng c st =>
    rw [buildD_rng]
    cases hw : whatareyou {} st with
    | error e =>
      refine ⟨fun _ => ?_, fun _ => ⟨e, rfl⟩⟩
      have : e = .attributeError := by
        simp only [whatareyou] at hw
        cases hc : callable2call st [] [] with
        | ok p => rw [hc] at hw; cases hw
        | error e' =>
          rw [hc] at hw
          cases e' <;> simp only [reduceCtorEq, Except.error.injEq] at hw
          all_goals first
            | exact hw.symm
            | exact absurd hc (c2c_error _ _ _ _ (by simp) (by simp))
      subst this
      exact .inl (.rng c st hw)
    | ok w =>
      simp only [fails_ret_iff, fails_map_iff, fails_idStr_iff]
      constructor
      · rintro ⟨k, x, hx, hk, hf⟩; exact .inr ⟨x, .rng _ hw hx hk, hf⟩
      · rintro (h | ⟨x, h, hf⟩)
        · cases h with | rng _ _ h => rw [hw] at h; cases h
        · cases h with
          | rng _ h hx hk =>
            rw [hw] at h; cases h
            exact ⟨_, x, hx, hk, hf⟩

  | _ => cases hl

/-- **C17**: under the default plugins `build_string` raises exactly if something that shows in the value is a builtin function, a
dynamic property, a whatable class, or a partial that does not fit its function.  What does not show is never looked at. -/
theorem c17_exactly (v : Val) : (∃ e, buildD v = .error e) ↔ ∃ b, ShownIn b v ∧ Bad b := by
  constructor
  · induction hd : depth v using Nat.strongRecOn generalizing v with
    | _ d ih =>
      intro h
      rcases (fails_iff v).1 h with h | ⟨x, hx, hf⟩
      · exact ⟨v, .refl v, h⟩
      · obtain ⟨b, hb, hbad⟩ := ih (depth x) (by have := shown_depth hx; omega) x rfl hf
        exact ⟨b, .step hb hx, hbad⟩
  · rintro ⟨b, hs, hb⟩
    show Fails (buildD v)
    induction hs with
    | refl => exact (fails_iff _).2 (.inl hb)
    | step _ hx ih => exact (fails_iff _).2 (.inr ⟨_, hx, ih⟩)

/-- The builtin in the non-id parameter does not show; the one that is the default of a function does. -/
example : ∃ s, buildD (.what c!"f" [(c!"verbose", .builtin c!"print"), (c!"x", .int 1)] [c!"verbose"] none) = .ok s := ⟨_, rfl⟩
example : ShownIn (.builtin c!"len") (.list [.func c!"f" [c!"x", c!"key"] [.builtin c!"len"]]) ∧
    buildD (.list [.func c!"f" [c!"x", c!"key"] [.builtin c!"len"]]) = .error .exception :=
  ⟨.step (y := .func c!"f" [c!"x", c!"key"] [.builtin c!"len"]) (.step (.refl _) (.func (pre := [c!"x"]) (names := [c!"key"]) (k := c!"key") _ (.inl rfl)
    ⟨[], [], rfl, by simp⟩)) (.list (by simp)), rfl⟩

end Whatami
