import Verif.Peg

/-
More fuel never changes an outcome; parsing never gains input; and enough fuel exists.
Definitions here are vocabulary for statements and proofs: the code they are about is cited in the model modules.
-/
namespace Whatami

theorem run_mono {g : Rule → Peg} {n : Nat} {b : Bool} {e : Peg} {s : Str} (h : run g n b e s ≠ .timeout) :
    run g (n + 1) b e s = run g n b e s := by
  induction n generalizing b e s with
  | zero => exact absurd rfl h
  | succ n ih =>
    cases e with
    | str t => rfl
    | rx r => rfl
    | eof => rfl
    | emp => rfl
    | never => rfl
    | cat x y =>
      rw [run] at h ⊢
      rw [run]
      cases h1 : run g n true x s with
      | timeout => rw [h1] at h; exact absurd rfl h
      | fail => rw [ih (by rw [h1]; simp), h1]
      | ok ts s' =>
        rw [h1] at h
        rw [ih (by rw [h1]; simp), h1]
        simp only at h ⊢
        cases h2 : run g n true y s' with
        | timeout => rw [h2] at h; exact absurd rfl h
        | fail => rw [ih (by rw [h2]; simp), h2]
        | ok us s'' => rw [ih (by rw [h2]; simp), h2]
    | alt x y =>
      rw [run] at h ⊢
      rw [run]
      cases h1 : run g n false x s with
      | timeout => rw [h1] at h; exact absurd rfl h
      | fail =>
        rw [h1] at h
        rw [ih (by rw [h1]; simp), h1]
        exact ih h
      | ok ts s' =>
        rw [h1] at h
        rw [ih (by rw [h1]; simp), h1]
        cases ts with
        | nil => exact ih h
        | cons t ts => rfl
    | opt x =>
      rw [run] at h ⊢
      rw [run]
      cases h1 : run g n false x s with
      | timeout => rw [h1] at h; exact absurd rfl h
      | fail => rw [ih (by rw [h1]; simp), h1]
      | ok ts s' => rw [ih (by rw [h1]; simp), h1]
    | star x =>
      rw [run] at h ⊢
      rw [run]
      cases h1 : run g n false x s with
      | timeout => rw [h1] at h; exact absurd rfl h
      | fail => rw [ih (by rw [h1]; simp), h1]
      | ok ts s' =>
        rw [h1] at h
        rw [ih (by rw [h1]; simp), h1]
        cases ts with
        | nil => rfl
        | cons t ts =>
          simp only at h ⊢
          cases h2 : run g n false (.star x) s' with
          | timeout => rw [h2] at h; exact absurd rfl h
          | fail => rw [ih (by rw [h2]; simp), h2]
          | ok us s'' => rw [ih (by rw [h2]; simp), h2]
    | ref r =>
      rw [run] at h ⊢
      rw [run]
      cases h1 : run g n b (g r) s with
      | timeout => rw [h1] at h; exact absurd rfl h
      | fail => rw [ih (by rw [h1]; simp), h1]
      | ok ts s' => rw [ih (by rw [h1]; simp), h1]

theorem run_mono_le {g : Rule → Peg} {n m : Nat} (hnm : n ≤ m) {b : Bool} {e : Peg} {s : Str} (h : run g n b e s ≠ .timeout) :
    run g m b e s = run g n b e s := by
  induction hnm with
  | refl => rfl
  | step _ ih => rw [run_mono (by rw [ih]; exact h), ih]

/-! ### Consumption -/

/-- May succeed without consuming anything (conservative). -/
def nullable : Peg → Bool
  | .str t => t.isEmpty
  | .rx .body => true
  | .rx _ => false
  | .eof => true
  | .emp => true
  | .cat a b => nullable a && nullable b
  | .never => false
  | .alt a b => nullable a || nullable b
  | .opt _ => true
  | .star _ => true
  | .ref _ => false

theorem skipWs_le (s : Str) : (skipWs s).length ≤ s.length := by
  induction s with
  | nil => exact Nat.le_refl _
  | cons c r ih =>
    simp only [skipWs, List.dropWhile]
    split
    · simp only [List.length_cons]; exact Nat.le_succ_of_le ih
    · exact Nat.le_refl _

theorem scanExp_append (s : Str) : (scanExp s).1 ++ (scanExp s).2 = s := by
  unfold scanExp
  split
  · rfl
  · next c r =>
    split
    · split
      · rfl
      · next d r' =>
        split
        · split
          · rfl
          · next h => simp [List.takeWhile_append_dropWhile]
        · split
          · rfl
          · next h => simp [List.takeWhile_append_dropWhile]
    · rfl

theorem scanFrac_append (s : Str) : (scanFrac s).1 ++ (scanFrac s).2 = s := by
  unfold scanFrac
  split
  · rfl
  · split
    · simp [List.takeWhile_append_dropWhile]
    · rfl

theorem scanUnsigned_append {s t r : Str} (h : scanUnsigned s = some (t, r)) : s = t ++ r ∧ t ≠ [] := by
  unfold scanUnsigned at h
  split at h
  · cases h
  · next hne =>
    simp only [Option.some.injEq, Prod.mk.injEq] at h
    obtain ⟨rfl, rfl⟩ := h
    constructor
    · conv => lhs; rw [← List.takeWhile_append_dropWhile (p := isDig) (l := s)]
      rw [List.append_assoc, List.append_assoc, List.append_cancel_left_eq]
      conv => lhs; rw [← scanFrac_append (s.dropWhile isDig)]
      rw [List.append_cancel_left_eq]
      exact (scanExp_append _).symm
    · intro hc
      simp only [List.append_eq_nil_iff] at hc
      exact hne hc.1.1

theorem scanNumber_append {s t r : Str} (h : scanNumber s = some (t, r)) : s = t ++ r ∧ t ≠ [] := by
  unfold scanNumber at h
  split at h
  · cases h
  · split at h
    · next hc =>
      split at h
      · cases h
      · next hu =>
        cases h
        obtain ⟨e, _⟩ := scanUnsigned_append hu
        exact ⟨by simp [hc, e], by simp⟩
    · exact scanUnsigned_append h

theorem scanBody_append (s : Str) : (scanBody s).1 ++ (scanBody s).2 = s := by
  fun_induction scanBody s <;> simp_all

/-- A match splits the input. -/
theorem scan_append {r : Rx} {s t u : Str} (h : r.scan s = some (t, u)) : s = t ++ u := by
  cases r with
  | ident =>
    cases s with
    | nil => cases h
    | cons c r =>
      simp only [Rx.scan] at h
      split at h
      · cases h; simp [List.takeWhile_append_dropWhile]
      · cases h
  | number => exact (scanNumber_append h).1
  | body => simp only [Rx.scan, Option.some.injEq] at h; rw [← scanBody_append s, h]

theorem scan_nonempty {r : Rx} {s t u : Str} (h : r.scan s = some (t, u)) (hn : nullable (.rx r) = false) : t ≠ [] := by
  cases r with
  | ident =>
    cases s with
    | nil => cases h
    | cons c r =>
      simp only [Rx.scan] at h
      split at h
      · cases h; simp
      · cases h
  | number => exact (scanNumber_append h).2
  | body => cases hn

/-- Parsing never gains input, and uses some up unless the expression is nullable. -/
theorem run_consumes {g : Rule → Peg} (hg : ∀ r, nullable (g r) = false) {n : Nat} {b : Bool} {e : Peg} {s : Str} {ts : List Tree}
    {s' : Str} (h : run g n b e s = .ok ts s') : s'.length ≤ s.length ∧ (nullable e = false → s'.length < s.length) := by
  induction n generalizing b e s ts s' with
  | zero => cases h
  | succ n ih =>
    have hw := skipWs_le s
    cases e with
    | str t =>
      simp only [run] at h
      split at h
      · next hp =>
        cases h
        have := (List.isPrefixOf_iff_prefix.1 hp).length_le
        refine ⟨by rw [List.length_drop]; omega, fun hn => ?_⟩
        simp only [nullable] at hn
        cases t with
        | nil => cases hn
        | cons c t =>
          rw [List.length_drop]
          simp only [List.length_cons] at this ⊢
          omega
      · cases h
    | rx r =>
      simp only [run] at h
      cases hs : r.scan (skipWs s) with
      | none => rw [hs] at h; cases h
      | some p =>
        obtain ⟨t, u⟩ := p
        rw [hs] at h
        have happ := congrArg List.length (scan_append hs)
        rw [List.length_append] at happ
        have hu : s' = u := by cases t <;> (simp only at h; cases h; rfl)
        subst hu
        refine ⟨by omega, fun hn => ?_⟩
        have hne := scan_nonempty hs hn
        have := List.length_pos_iff.2 hne
        omega
    | eof =>
      simp only [run] at h
      split at h
      · cases h; exact ⟨by simp, fun hn => by cases hn⟩
      · cases h
    | emp => simp only [run] at h; cases h; exact ⟨Nat.le_refl _, fun hn => by cases hn⟩
    | never => simp only [run] at h; cases h
    | cat x y =>
      simp only [run] at h
      cases h1 : run g n true x s with
      | timeout => rw [h1] at h; cases h
      | fail => rw [h1] at h; cases h
      | ok us s1 =>
        rw [h1] at h
        simp only at h
        cases h2 : run g n true y s1 with
        | timeout => rw [h2] at h; cases h
        | fail => rw [h2] at h; cases h
        | ok vs s2 =>
          rw [h2] at h; cases h
          have i1 := ih h1
          have i2 := ih h2
          refine ⟨by omega, fun hn => ?_⟩
          simp only [nullable, Bool.and_eq_false_iff] at hn
          rcases hn with hn | hn
          · have := i1.2 hn; omega
          · have := i2.2 hn; omega
    | alt x y =>
      simp only [run] at h
      cases h1 : run g n false x s with
      | timeout => rw [h1] at h; cases h
      | fail =>
        rw [h1] at h
        have i := ih h
        exact ⟨i.1, fun hn => i.2 (by simp only [nullable, Bool.or_eq_false_iff] at hn; exact hn.2)⟩
      | ok us s1 =>
        rw [h1] at h
        cases us with
        | nil =>
          have i := ih h
          exact ⟨i.1, fun hn => i.2 (by simp only [nullable, Bool.or_eq_false_iff] at hn; exact hn.2)⟩
        | cons t us =>
          cases h
          have i := ih h1
          exact ⟨i.1, fun hn => i.2 (by simp only [nullable, Bool.or_eq_false_iff] at hn; exact hn.1)⟩
    | opt x =>
      simp only [run] at h
      cases h1 : run g n false x s with
      | timeout => rw [h1] at h; cases h
      | fail => rw [h1] at h; cases h; exact ⟨Nat.le_refl _, fun hn => by cases hn⟩
      | ok us s1 => rw [h1] at h; cases h; exact ⟨(ih h1).1, fun hn => by cases hn⟩
    | star x =>
      simp only [run] at h
      cases h1 : run g n false x s with
      | timeout => rw [h1] at h; cases h
      | fail => rw [h1] at h; cases h; exact ⟨Nat.le_refl _, fun hn => by cases hn⟩
      | ok us s1 =>
        rw [h1] at h
        cases us with
        | nil => cases h; exact ⟨(ih h1).1, fun hn => by cases hn⟩
        | cons t us =>
          simp only at h
          cases h2 : run g n false (.star x) s1 with
          | timeout => rw [h2] at h; cases h
          | fail => rw [h2] at h; cases h
          | ok vs s2 =>
            rw [h2] at h; cases h
            have i1 := ih h1
            have i2 := ih h2
            exact ⟨by omega, fun hn => by cases hn⟩
    | ref r =>
      simp only [run] at h
      cases h1 : run g n b (g r) s with
      | timeout => rw [h1] at h; cases h
      | fail => rw [h1] at h; cases h
      | ok us s1 =>
        rw [h1] at h; cases h
        exact ⟨(ih h1).1, fun _ => (ih h1).2 (hg r)⟩

/-! ### Termination -/

/-- Steps that `e` may take before any input is consumed, given such bounds for the rules. -/
def cost (rank : Rule → Nat) : Peg → Nat
  | .str _ | .rx _ | .eof | .emp | .never => 1
  | .cat a b => 1 + max (cost rank a) (if nullable a then cost rank b else 0)
  | .alt a b => 1 + max (cost rank a) (cost rank b)
  | .opt a => 1 + cost rank a
  | .star a => 1 + cost rank a
  | .ref r => rank r

/-- All sub-expressions cost at most `K`, and repetitions consume input. -/
def bounded (rank : Rule → Nat) (K : Nat) : Peg → Bool
  | .cat a b => bounded rank K a && bounded rank K b && decide (cost rank (.cat a b) ≤ K)
  | .alt a b => bounded rank K a && bounded rank K b && decide (cost rank (.alt a b) ≤ K)
  | .opt a => bounded rank K a && decide (cost rank (.opt a) ≤ K)
  | .star a => bounded rank K a && !nullable a && decide (cost rank (.star a) ≤ K)
  | e => decide (cost rank e ≤ K)

theorem bounded_cost {rank : Rule → Nat} {K : Nat} {e : Peg} (h : bounded rank K e = true) : cost rank e ≤ K := by
  cases e <;> simp_all [bounded]

/-- A grammar without left recursion, as witnessed by `rank` and `K`. -/
structure NoLeftRec (g : Rule → Peg) (rank : Rule → Nat) (K : Nat) : Prop where
  nonnull : ∀ r, nullable (g r) = false
  lt : ∀ r, cost rank (g r) < rank r
  bounded : ∀ r, bounded rank K (g r) = true

theorem cost_pos {g : Rule → Peg} {rank : Rule → Nat} {K : Nat} (hg : NoLeftRec g rank K) (e : Peg) : 0 < cost rank e := by
  cases e with
  | ref r => have := hg.lt r; simp only [cost]; omega
  | _ => simp only [cost]; omega

/-- `K` steps per remaining character suffice. -/
theorem run_terminates {g : Rule → Peg} {rank : Rule → Nat} {K : Nat} (hg : NoLeftRec g rank K) {n : Nat} {b : Bool} {e : Peg} {s : Str}
    (he : bounded rank K e = true) (hn : s.length * K + cost rank e ≤ n) : run g n b e s ≠ .timeout := by
  induction n generalizing b e s with
  | zero =>
    have hpos := cost_pos hg e
    omega
  | succ n ih =>
    -- after something was consumed any bounded expression is fine
    have hp := cost_pos hg e
    have later : ∀ {b : Bool} {e : Peg} {s' : Str}, bounded rank K e = true → s'.length < s.length → run g n b e s' ≠ .timeout := by
      intro b e s' he' hlt
      refine ih he' ?_
      have hc := bounded_cost he'
      have : (s'.length + 1) * K ≤ s.length * K := Nat.mul_le_mul_right K hlt
      rw [Nat.add_mul, Nat.one_mul] at this
      omega
    have same : ∀ {b : Bool} {e' : Peg} {s' : Str}, bounded rank K e' = true → s'.length ≤ s.length → cost rank e' < cost rank e →
        run g n b e' s' ≠ .timeout := by
      intro b e' s' he' hle hlt
      refine ih he' ?_
      have : s'.length * K ≤ s.length * K := Nat.mul_le_mul_right K hle
      omega
    cases e with
    | str t => simp only [run]; split <;> simp
    | rx r => simp only [run]; split <;> simp
    | eof => simp only [run]; split <;> simp
    | emp => simp [run]
    | never => simp [run]
    | cat x y =>
      simp only [bounded, Bool.and_eq_true] at he
      have hx := same (b := true) he.1.1 (Nat.le_refl _) (by simp only [cost]; omega)
      simp only [run]
      cases h1 : run g n true x s with
      | timeout => exact absurd h1 hx
      | fail => simp
      | ok ts s' =>
        have hc := run_consumes hg.nonnull h1
        have hy : run g n true y s' ≠ .timeout := by
          cases hnx : nullable x with
          | true => exact same he.1.2 hc.1 (by simp only [cost, hnx, if_true]; omega)
          | false => exact later he.1.2 (hc.2 hnx)
        simp only
        cases h2 : run g n true y s' with
        | timeout => exact absurd h2 hy
        | fail => simp
        | ok us s'' => simp
    | alt x y =>
      simp only [bounded, Bool.and_eq_true] at he
      have hx := same (b := false) he.1.1 (Nat.le_refl _) (by simp only [cost]; omega)
      have hy := same (b := false) he.1.2 (Nat.le_refl s.length) (by simp only [cost]; omega)
      simp only [run]
      split
      · next h1 => exact absurd h1 hx
      · simp
      · exact hy
    | opt x =>
      simp only [bounded, Bool.and_eq_true] at he
      have hx := same (b := false) he.1 (Nat.le_refl _) (by simp only [cost]; omega)
      simp only [run]
      split
      · next h1 => exact absurd h1 hx
      · simp
      · simp
    | star x =>
      have he' := he
      simp only [bounded, Bool.and_eq_true, Bool.not_eq_true'] at he
      have hx := same (b := false) he.1.1 (Nat.le_refl _) (by simp only [cost]; omega)
      simp only [run]
      cases h1 : run g n false x s with
      | timeout => exact absurd h1 hx
      | fail => simp
      | ok ts s' =>
        have hc := run_consumes hg.nonnull h1
        have hy : run g n false (.star x) s' ≠ .timeout := later he' (hc.2 he.1.2)
        cases ts with
        | nil => simp
        | cons t ts =>
          simp only
          cases h2 : run g n false (.star x) s' with
          | timeout => exact absurd h2 hy
          | fail => simp
          | ok us s'' => simp
    | ref r =>
      have hx := same (b := b) (hg.bounded r) (Nat.le_refl _) (by simp only [cost]; exact hg.lt r)
      simp only [run]
      cases h1 : run g n b (g r) s with
      | timeout => exact absurd h1 hx
      | fail => simp
      | ok ts s' => simp

end Whatami
