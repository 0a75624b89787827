import Verif.Old.Sem
import Verif.OldIds
import Verif.Normal
import Verif.Props.Chain

/-
Facts about the meaning of old-style ids, used by C41.
Definitions here are vocabulary for statements and proofs: the code they are about is cited in the model modules.
-/
namespace Whatami.Old
open Whatami

variable {E : Env}

/-! ### Classes do not matter -/

/-- The same world without importable classes. -/
def noCls (E : Env) : Env := { E with imp := fun _ _ => .error .importError }

theorem noCls_finds : FindsClasses (noCls E) := by intro m n v h; cases h

mutual
theorem osem_noCls : ∀ a : OAst, osem E a = osem (noCls E) a
  | .none => rfl
  | .bool _ => rfl
  | .num _ => rfl
  | .str _ => rfl
  | .braces => rfl
  | .tuple xs => by simp only [osem, osemL_noCls xs]
  | .list xs => by simp only [osem, osemL_noCls xs]
  | .set xs => by simp only [osem, osemL_noCls xs]; rfl
  | .dict kvs => by simp only [osem, osemD_noCls kvs]; rfl
  | .what _ n kvs => by simp only [osem, osemA_noCls kvs]
termination_by structural a => a
theorem osemL_noCls : ∀ xs : List OAst, osemL E xs = osemL (noCls E) xs
  | [] => rfl
  | x :: xs => by simp only [osemL, osem_noCls x, osemL_noCls xs]
termination_by structural xs => xs
theorem osemD_noCls : ∀ xs : List (OAst × OAst), osemD E xs = osemD (noCls E) xs
  | [] => rfl
  | (k, v) :: xs => by simp only [osemD, osem_noCls k, osem_noCls v, osemD_noCls xs]
termination_by structural xs => xs
theorem osemA_noCls : ∀ xs : List (Str × OAst), osemA E xs = osemA (noCls E) xs
  | [] => rfl
  | (k, v) :: xs => by simp only [osemA, osem_noCls v, osemA_noCls xs]
termination_by structural xs => xs
end

/-! ### `{}` is an error -/

mutual
theorem noBraces_of_ok : ∀ (a : OAst) (v : Val), osem E a = .ok v → NoBraces a
  | .none, _, _ => trivial
  | .bool _, _, _ => trivial
  | .num _, _, _ => trivial
  | .str _, _, _ => trivial
  | .braces, _, h => by simp only [osem] at h; cases h
  | .tuple xs, _, h => by
    simp only [osem] at h
    obtain ⟨l, h1, _⟩ := except_map_ok h
    simp only [NoBraces]; exact noBracesL_of_ok xs l h1
  | .list xs, _, h => by
    simp only [osem] at h
    obtain ⟨l, h1, _⟩ := except_map_ok h
    simp only [NoBraces]; exact noBracesL_of_ok xs l h1
  | .set xs, _, h => by
    simp only [osem] at h
    obtain ⟨l, h1, _⟩ := except_bind_ok h
    simp only [NoBraces]; exact noBracesL_of_ok xs l h1
  | .dict kvs, _, h => by
    simp only [osem] at h
    obtain ⟨l, h1, _⟩ := except_bind_ok h
    simp only [NoBraces]; exact noBracesD_of_ok kvs l h1
  | .what _ _ kvs, _, h => by
    simp only [osem] at h
    obtain ⟨l, h1, _⟩ := except_bind_ok h
    simp only [NoBraces]; exact noBracesA_of_ok kvs l h1
termination_by structural a => a
theorem noBracesL_of_ok : ∀ (xs : List OAst) (l : List Val), osemL E xs = .ok l → NoBracesL xs
  | [], _, _ => trivial
  | x :: xs, l, h => by
    simp only [osemL] at h
    obtain ⟨v, h1, h2⟩ := except_bind_ok h
    obtain ⟨r, h3, _⟩ := except_map_ok h2
    exact ⟨noBraces_of_ok x v h1, noBracesL_of_ok xs r h3⟩
termination_by structural xs => xs
theorem noBracesD_of_ok : ∀ (xs : List (OAst × OAst)) (l : List (Val × Val)), osemD E xs = .ok l → NoBracesD xs
  | [], _, _ => trivial
  | (a, b) :: xs, l, h => by
    simp only [osemD] at h
    obtain ⟨k, h1, h2⟩ := except_bind_ok h
    obtain ⟨v, h3, h4⟩ := except_bind_ok h2
    obtain ⟨r, h5, _⟩ := except_map_ok h4
    exact ⟨noBraces_of_ok a k h1, noBraces_of_ok b v h3, noBracesD_of_ok xs r h5⟩
termination_by structural xs => xs
theorem noBracesA_of_ok : ∀ (xs : List (Str × OAst)) (l : List (Str × Val)), osemA E xs = .ok l → NoBracesA xs
  | [], _, _ => trivial
  | (a, b) :: xs, l, h => by
    simp only [osemA] at h
    obtain ⟨v, h3, h4⟩ := except_bind_ok h
    obtain ⟨r, h5, _⟩ := except_map_ok h4
    exact ⟨noBraces_of_ok b v h3, noBracesA_of_ok xs r h5⟩
termination_by structural xs => xs
end

/-! ### Errors -/

/-- The only ways for well-formed old-style ids to fail. -/
def OErr (e : Err) : Prop := e = .indexError ∨ e = .typeError

mutual
theorem osem_error {e : Err} : ∀ a : OAst, osem E a = .error e → OErr e
  | .none, h => by simp only [osem] at h; cases h
  | .bool b, h => by simp only [osem] at h; cases h
  | .num t, h => by simp only [osem] at h; cases h
  | .str b, h => by simp only [osem] at h; cases h
  | .braces, h => by simp only [osem] at h; cases h; exact .inl rfl
  | .tuple xs, h => osemL_error xs (rmap_error (by simpa only [osem] using h))
  | .list xs, h => osemL_error xs (rmap_error (by simpa only [osem] using h))
  | .set xs, h => by
      simp only [osem] at h
      rcases rbind_error h with h | ⟨l, _, h⟩
      · exact osemL_error xs h
      · exact .inr (setFrom_error (rmap_error h))
  | .dict kvs, h => by
      simp only [osem] at h
      rcases rbind_error h with h | ⟨l, _, h⟩
      · exact osemD_error kvs h
      · exact .inr (dictFrom_error (rmap_error h))
  | .what o n kvs, h => by
      simp only [osem] at h
      rcases rbind_error h with h | ⟨l, _, h⟩
      · exact osemA_error kvs h
      · cases h
termination_by structural a => a
theorem osemL_error {e : Err} : ∀ xs : List OAst, osemL E xs = .error e → OErr e
  | [], h => by simp only [osemL] at h; cases h
  | x :: xs, h => by
      simp only [osemL] at h
      rcases rbind_error h with h | ⟨v, _, h⟩
      · exact osem_error x h
      · exact osemL_error xs (rmap_error h)
termination_by structural xs => xs
theorem osemD_error {e : Err} : ∀ xs : List (OAst × OAst), osemD E xs = .error e → OErr e
  | [], h => by simp only [osemD] at h; cases h
  | (k, v) :: xs, h => by
      simp only [osemD] at h
      rcases rbind_error h with h | ⟨k', _, h⟩
      · exact osem_error k h
      · rcases rbind_error h with h | ⟨v', _, h⟩
        · exact osem_error v h
        · exact osemD_error xs (rmap_error h)
termination_by structural xs => xs
theorem osemA_error {e : Err} : ∀ xs : List (Str × OAst), osemA E xs = .error e → OErr e
  | [], h => by simp only [osemA] at h; cases h
  | (k, v) :: xs, h => by
      simp only [osemA] at h
      rcases rbind_error h with h | ⟨v', _, h⟩
      · exact osem_error v h
      · exact osemA_error xs (rmap_error h)
termination_by structural xs => xs
end

theorem osemTop_error {e : Err} {n : Str} {kvs : List (Str × OAst)} (h : osemTop E n kvs = .error e) : OErr e := by
  rcases rbind_error h with h | ⟨l, _, h⟩
  · exact osemA_error kvs h
  · cases h

theorem osemA_keys : ∀ (xs : List (Str × OAst)) (l : List (Str × Val)), osemA E xs = .ok l → l.map Prod.fst = xs.map Prod.fst
  | [], l, h => by cases h; rfl
  | (a, b) :: xs, l, h => by
    obtain ⟨v, h1, h2⟩ := except_bind_ok h
    obtain ⟨r, h3, h4⟩ := except_map_ok h2
    rw [← h4]
    simp only [List.map_cons, osemA_keys xs r h3]

/-! ### The id of what was read -/

theorem osemTop_plain {n : Str} {kvs : List (Str × OAst)} {w : What} (h : osemTop E n kvs = .ok w) : PlainV w.toVal := by
  obtain ⟨l, h1, h2⟩ := except_bind_ok h
  cases h2
  rw [osemA_noCls, osemA_modern kvs (noBracesA_of_ok kvs l h1)] at h1
  simp only [What.toVal, PlainV]
  exact ⟨trivial, nodup_dictOf l, plainA_iff.2 fun k v hm => sem_plainA noCls_finds _ l h1 k v (mem_dictOf hm)⟩

end Whatami.Old

namespace Whatami

theorem plain_not_bad {v : Val} (h : PlainV v) : ¬ HasBad v := by
  rintro ⟨b, hw, hb⟩
  have := plain_within h hw
  cases hb <;> simp [PlainV] at this

/-- Plain configurations have ids. -/
theorem idD_plain {w : What} (h : PlainV w.toVal) : ∃ s, idD w = .ok s := by
  cases hs : idD w with
  | ok s => exact ⟨s, rfl⟩
  | error e =>
    obtain ⟨k, v, hm, hf⟩ := fails_idStr (bs := buildD) (w := w) (f := false) ⟨e, hs⟩
    have := fails_hasBad _ v (Nat.le_refl _) hf
    exact absurd this (plain_not_bad (plain_child h (.what k _ _ _ hm)))

end Whatami
