import Verif.ParseCost
import Verif.ParseLemmas

/-
Inversion of parser runs together with their cost.
Definitions here are vocabulary for statements and proofs: the code they are about is cited in the model modules.
-/
namespace Whatami

theorem tries_mono {g : Rule → Peg} {n : Nat} {b : Bool} {e : Peg} {s : Str} (h : run g n b e s ≠ .timeout) :
    tries g (n + 1) b e s = tries g n b e s := by
  induction n generalizing b e s with
  | zero => exact absurd rfl h
  | succ n ih =>
    cases e with
    | str t => rfl
    | rx r => rfl
    | eof => rfl
    | emp => rfl
    | never => rfl
    | cat x y =>
      rw [run] at h
      rw [tries, tries]
      cases h1 : run g n true x s with
      | timeout => rw [h1] at h; exact absurd rfl h
      | fail => rw [run_mono (by rw [h1]; simp), h1]; exact ih (by rw [h1]; simp)
      | ok ts s' =>
        rw [h1] at h
        rw [run_mono (by rw [h1]; simp), h1]
        simp only at h ⊢
        rw [ih (by rw [h1]; simp), ih]
        intro h2
        rw [h2] at h
        exact h rfl
    | alt x y =>
      rw [run] at h
      rw [tries, tries]
      cases h1 : run g n false x s with
      | timeout => rw [h1] at h; exact absurd rfl h
      | fail =>
        rw [h1] at h
        rw [run_mono (by rw [h1]; simp), h1]
        simp only at h ⊢
        rw [ih (by rw [h1]; simp), ih h]
      | ok ts s' =>
        rw [h1] at h
        rw [run_mono (by rw [h1]; simp), h1]
        cases ts with
        | nil => simp only at h ⊢; rw [ih (by rw [h1]; simp), ih h]
        | cons t ts => exact ih (by rw [h1]; simp)
    | opt x =>
      rw [run] at h
      rw [tries, tries]
      refine ih fun h1 => ?_
      rw [h1] at h
      exact h rfl
    | star x =>
      rw [run] at h
      rw [tries, tries]
      cases h1 : run g n false x s with
      | timeout => rw [h1] at h; exact absurd rfl h
      | fail => rw [run_mono (by rw [h1]; simp), h1]; exact ih (by rw [h1]; simp)
      | ok ts s' =>
        rw [h1] at h
        rw [run_mono (by rw [h1]; simp), h1]
        cases ts with
        | nil => exact ih (by rw [h1]; simp)
        | cons t ts =>
          simp only at h ⊢
          rw [ih (by rw [h1]; simp), ih]
          intro h2
          rw [h2] at h
          exact h rfl
    | ref r =>
      rw [run] at h
      rw [tries, tries]
      refine ih fun h1 => ?_
      rw [h1] at h
      exact h rfl

theorem tries_mono_le {g : Rule → Peg} {n m : Nat} (hnm : n ≤ m) {b : Bool} {e : Peg} {s : Str} (h : run g n b e s ≠ .timeout) :
    tries g m b e s = tries g n b e s := by
  induction hnm with
  | refl => rfl
  | step hm ih => rw [tries_mono (by rw [run_mono_le hm h]; exact h), ih]

/-- Parsing `e` at `s` has the outcome `o` after `k` tries. -/
def Took (g : Rule → Peg) (b : Bool) (e : Peg) (s : Str) (o : Out) (k : Nat) : Prop :=
  ∃ n, run g n b e s = o ∧ tries g n b e s = k ∧ o ≠ .timeout

variable {g : Rule → Peg} {b : Bool}

theorem Took.ev {e : Peg} {s : Str} {o : Out} {k : Nat} (h : Took g b e s o k) : Ev g b e s o := by
  obtain ⟨n, h1, _, h2⟩ := h
  exact ⟨h2, n, h1⟩

theorem Took.det {e : Peg} {s : Str} {o o' : Out} {k k' : Nat} (h : Took g b e s o k) (h' : Took g b e s o' k') : o = o' ∧ k = k' := by
  refine ⟨h.ev.det h'.ev, ?_⟩
  obtain ⟨n, h1, h2, h3⟩ := h
  obtain ⟨m, h1', h2', h3'⟩ := h'
  rw [← h2, ← h2', ← tries_mono_le (Nat.le_max_left n m) (by rw [h1]; exact h3),
    ← tries_mono_le (Nat.le_max_right n m) (by rw [h1']; exact h3')]

theorem took_str {t s : Str} {o : Out} {k : Nat} (h : Took g b (.str t) s o k) :
    k = 1 ∧ ((o = .fail ∧ ¬ t <+: skipWs s) ∨ ∃ u, skipWs s = t ++ u ∧ o = .ok [.term none b t] u) := by
  obtain ⟨n, h1, h2, h3⟩ := h
  cases n with
  | zero => exact absurd h1.symm h3
  | succ n =>
    simp only [tries] at h2
    simp only [run] at h1
    refine ⟨h2.symm, ?_⟩
    split at h1
    · next hp =>
      obtain ⟨u, hu⟩ := List.isPrefixOf_iff_prefix.1 hp
      exact .inr ⟨u, hu.symm, by rw [← h1, ← hu, List.drop_left]⟩
    · next hp => exact .inl ⟨h1.symm, fun h => hp (List.isPrefixOf_iff_prefix.2 h)⟩

theorem took_rx {r : Rx} {s : Str} {o : Out} {k : Nat} (h : Took g b (.rx r) s o k) :
    k = 1 ∧ ((o = .fail ∧ r.scan (skipWs s) = none) ∨ ∃ t u, r.scan (skipWs s) = some (t, u) ∧
      o = .ok (if t = [] then [] else [.term none false t]) u) := by
  obtain ⟨n, h1, h2, h3⟩ := h
  cases n with
  | zero => exact absurd h1.symm h3
  | succ n =>
    simp only [tries] at h2
    simp only [run] at h1
    refine ⟨h2.symm, ?_⟩
    cases hs : r.scan (skipWs s) with
    | none => rw [hs] at h1; exact .inl ⟨h1.symm, rfl⟩
    | some p =>
      obtain ⟨t, u⟩ := p
      rw [hs] at h1
      refine .inr ⟨t, u, rfl, ?_⟩
      cases t <;> (simp only at h1; rw [← h1]; simp)

theorem took_eof {s : Str} {o : Out} {k : Nat} (h : Took g b .eof s o k) : k = 1 := by
  obtain ⟨n, h1, h2, h3⟩ := h
  cases n with
  | zero => exact absurd h1.symm h3
  | succ n => simp only [tries] at h2; exact h2.symm

theorem took_emp {s : Str} {o : Out} {k : Nat} (h : Took g b .emp s o k) : k = 0 ∧ o = .ok [] s := by
  obtain ⟨n, h1, h2, h3⟩ := h
  cases n with
  | zero => exact absurd h1.symm h3
  | succ n => simp only [tries] at h2; simp only [run] at h1; exact ⟨h2.symm, h1.symm⟩

theorem took_never {s : Str} {o : Out} {k : Nat} (h : Took g b .never s o k) : k = 0 ∧ o = .fail := by
  obtain ⟨n, h1, h2, h3⟩ := h
  cases n with
  | zero => exact absurd h1.symm h3
  | succ n => simp only [tries] at h2; simp only [run] at h1; exact ⟨h2.symm, h1.symm⟩

theorem took_cat {x y : Peg} {s : Str} {o : Out} {k : Nat} (h : Took g b (.cat x y) s o k) :
    (o = .fail ∧ Took g true x s .fail k) ∨
    ∃ ts s' k1 k2, Took g true x s (.ok ts s') k1 ∧ k = k1 + k2 ∧
      ((o = .fail ∧ Took g true y s' .fail k2) ∨ ∃ us s'', Took g true y s' (.ok us s'') k2 ∧ o = .ok (ts ++ us) s'') := by
  obtain ⟨n, h1, h2, h3⟩ := h
  cases n with
  | zero => exact absurd h1.symm h3
  | succ n =>
    simp only [run] at h1
    simp only [tries] at h2
    cases hx : run g n true x s with
    | timeout => rw [hx] at h1; exact absurd h1.symm h3
    | fail => rw [hx] at h1 h2; exact .inl ⟨h1.symm, n, hx, h2, by simp⟩
    | ok ts s' =>
      rw [hx] at h1 h2
      simp only at h1 h2
      refine .inr ⟨ts, s', _, _, ⟨n, hx, rfl, by simp⟩, h2.symm, ?_⟩
      cases hy : run g n true y s' with
      | timeout => rw [hy] at h1; exact absurd h1.symm h3
      | fail => rw [hy] at h1; exact .inl ⟨h1.symm, n, hy, rfl, by simp⟩
      | ok us s'' => rw [hy] at h1; exact .inr ⟨us, s'', ⟨n, hy, rfl, by simp⟩, h1.symm⟩

theorem took_alt {x y : Peg} {s : Str} {o : Out} {k : Nat} (h : Took g b (.alt x y) s o k) :
    (∃ t ts s', o = .ok (t :: ts) s' ∧ Took g false x s o k) ∨
    ∃ o1 k1 k2, (o1 = .fail ∨ ∃ s', o1 = .ok [] s') ∧ Took g false x s o1 k1 ∧ Took g false y s o k2 ∧ k = k1 + k2 := by
  obtain ⟨n, h1, h2, h3⟩ := h
  cases n with
  | zero => exact absurd h1.symm h3
  | succ n =>
    simp only [run] at h1
    simp only [tries] at h2
    cases hx : run g n false x s with
    | timeout => rw [hx] at h1; exact absurd h1.symm h3
    | fail =>
      rw [hx] at h1 h2
      exact .inr ⟨.fail, _, _, .inl rfl, ⟨n, hx, rfl, by simp⟩, ⟨n, h1, rfl, h3⟩, h2.symm⟩
    | ok ts s' =>
      rw [hx] at h1 h2
      cases ts with
      | nil => exact .inr ⟨.ok [] s', _, _, .inr ⟨s', rfl⟩, ⟨n, hx, rfl, by simp⟩, ⟨n, h1, rfl, h3⟩, h2.symm⟩
      | cons t ts => exact .inl ⟨t, ts, s', h1.symm, n, by rw [hx]; exact h1, h2, h3⟩

theorem took_opt {x : Peg} {s : Str} {o : Out} {k : Nat} (h : Took g b (.opt x) s o k) :
    (o = .ok [] s ∧ Took g false x s .fail k) ∨ ∃ ts s', o = .ok ts s' ∧ Took g false x s (.ok ts s') k := by
  obtain ⟨n, h1, h2, h3⟩ := h
  cases n with
  | zero => exact absurd h1.symm h3
  | succ n =>
    simp only [run] at h1
    simp only [tries] at h2
    cases hx : run g n false x s with
    | timeout => rw [hx] at h1; exact absurd h1.symm h3
    | fail => rw [hx] at h1; exact .inl ⟨h1.symm, n, hx, h2, by simp⟩
    | ok ts s' => rw [hx] at h1; exact .inr ⟨ts, s', h1.symm, n, hx, h2, by simp⟩

theorem took_star {x : Peg} {s : Str} {o : Out} {k : Nat} (h : Took g b (.star x) s o k) :
    (o = .ok [] s ∧ Took g false x s .fail k) ∨ (∃ s', o = .ok [] s' ∧ Took g false x s (.ok [] s') k) ∨
    ∃ t ts s' k1 k2, Took g false x s (.ok (t :: ts) s') k1 ∧ k = k1 + k2 ∧
      ((o = .fail ∧ Took g false (.star x) s' .fail k2) ∨
        ∃ us s'', Took g false (.star x) s' (.ok us s'') k2 ∧ o = .ok (t :: ts ++ us) s'') := by
  obtain ⟨n, h1, h2, h3⟩ := h
  cases n with
  | zero => exact absurd h1.symm h3
  | succ n =>
    simp only [run] at h1
    simp only [tries] at h2
    cases hx : run g n false x s with
    | timeout => rw [hx] at h1; exact absurd h1.symm h3
    | fail => rw [hx] at h1 h2; exact .inl ⟨h1.symm, n, hx, h2, by simp⟩
    | ok ts s' =>
      rw [hx] at h1 h2
      cases ts with
      | nil => exact .inr (.inl ⟨s', h1.symm, n, hx, h2, by simp⟩)
      | cons t ts =>
        simp only at h1 h2
        refine .inr (.inr ⟨t, ts, s', _, _, ⟨n, hx, rfl, by simp⟩, h2.symm, ?_⟩)
        cases hy : run g n false (.star x) s' with
        | timeout => rw [hy] at h1; exact absurd h1.symm h3
        | fail => rw [hy] at h1; exact .inl ⟨h1.symm, n, hy, rfl, by simp⟩
        | ok us s'' => rw [hy] at h1; exact .inr ⟨us, s'', ⟨n, hy, rfl, by simp⟩, h1.symm⟩

theorem took_ref {r : Rule} {s : Str} {o : Out} {k : Nat} (h : Took g b (.ref r) s o k) :
    (o = .fail ∧ Took g b (g r) s .fail k) ∨ ∃ ts s', Took g b (g r) s (.ok ts s') k ∧ o = .ok (ruleResult r (g r) ts) s' := by
  obtain ⟨n, h1, h2, h3⟩ := h
  cases n with
  | zero => exact absurd h1.symm h3
  | succ n =>
    simp only [run] at h1
    simp only [tries] at h2
    cases hx : run g n b (g r) s with
    | timeout => rw [hx] at h1; exact absurd h1.symm h3
    | fail => rw [hx] at h1; exact .inl ⟨h1.symm, n, hx, h2, by simp⟩
    | ok ts s' => rw [hx] at h1; exact .inr ⟨ts, s', ⟨n, hx, h2, by simp⟩, h1.symm⟩

/-! ### What is consumed -/

mutual
/-- The matched texts of a tree, one after the other. -/
def leaves : Tree → Str
  | .term _ _ t => t
  | .node _ ts => leavesL ts
termination_by structural t => t
/-- The same for several trees. -/
def leavesL : List Tree → Str
  | [] => []
  | t :: ts => leaves t ++ leavesL ts
termination_by structural ts => ts
end

theorem leavesL_append (ts us : List Tree) : leavesL (ts ++ us) = leavesL ts ++ leavesL us := by
  induction ts with
  | nil => rfl
  | cons t ts ih => simp only [List.cons_append, leavesL, ih, List.append_assoc]

theorem leavesL_ruleResult (r : Rule) (e : Peg) (ts : List Tree) : leavesL (ruleResult r e ts) = leavesL ts := by
  unfold ruleResult
  split
  · induction ts with
    | nil => rfl
    | cons t ts ih =>
      simp only [List.map_cons, leavesL, ih]
      cases t <;> simp [leaves]
  · cases ts with
    | nil => rfl
    | cons t ts => simp [leavesL, leaves]

theorem skipWs_suffix (s : Str) : ∃ w, s = w ++ skipWs s := by
  exact ⟨s.takeWhile isWs, (List.takeWhile_append_dropWhile).symm⟩

/-- What is matched is part of what is used up. -/
theorem run_used {n : Nat} {e : Peg} {s : Str} {ts : List Tree} {s' : Str} (h : run g n b e s = .ok ts s') :
    ∃ used, s = used ++ s' ∧ (leavesL ts).Sublist used := by
  induction n generalizing b e s ts s' with
  | zero => cases h
  | succ n ih =>
    obtain ⟨w, hw⟩ := skipWs_suffix s
    cases e with
    | str t =>
      simp only [run] at h
      split at h
      · next hp =>
        cases h
        obtain ⟨u, hu⟩ := List.isPrefixOf_iff_prefix.1 hp
        refine ⟨w ++ t, ?_, ?_⟩
        · rw [← hu, List.drop_left, List.append_assoc, hu]; exact hw
        · simp [leavesL, leaves]
      · cases h
    | rx r =>
      simp only [run] at h
      cases hs : r.scan (skipWs s) with
      | none => rw [hs] at h; cases h
      | some p =>
        obtain ⟨t, u⟩ := p
        rw [hs] at h
        have ha := scan_append hs
        refine ⟨w ++ t, ?_, ?_⟩
        · have : s' = u := by cases t <;> (simp only at h; cases h; rfl)
          rw [this, List.append_assoc, ← ha]; exact hw
        · cases t <;> (simp only at h; cases h; simp [leavesL, leaves])
    | eof =>
      simp only [run] at h
      split at h
      · cases h; exact ⟨s, by simp, by simp [leavesL, leaves]⟩
      · cases h
    | emp => simp only [run] at h; cases h; exact ⟨[], rfl, by simp [leavesL]⟩
    | never => simp only [run] at h; cases h
    | cat x y =>
      simp only [run] at h
      cases h1 : run g n true x s with
      | timeout => rw [h1] at h; cases h
      | fail => rw [h1] at h; cases h
      | ok us s1 =>
        rw [h1] at h
        simp only at h
        cases h2 : run g n true y s1 with
        | timeout => rw [h2] at h; cases h
        | fail => rw [h2] at h; cases h
        | ok vs s2 =>
          rw [h2] at h; cases h
          obtain ⟨u1, e1, l1⟩ := ih h1
          obtain ⟨u2, e2, l2⟩ := ih h2
          exact ⟨u1 ++ u2, by rw [e1, e2, List.append_assoc], by rw [leavesL_append]; exact l1.append l2⟩
    | alt x y =>
      simp only [run] at h
      cases h1 : run g n false x s with
      | timeout => rw [h1] at h; cases h
      | fail => rw [h1] at h; exact ih h
      | ok us s1 =>
        rw [h1] at h
        cases us with
        | nil => exact ih h
        | cons t us => cases h; exact ih h1
    | opt x =>
      simp only [run] at h
      cases h1 : run g n false x s with
      | timeout => rw [h1] at h; cases h
      | fail => rw [h1] at h; cases h; exact ⟨[], rfl, by simp [leavesL]⟩
      | ok us s1 => rw [h1] at h; cases h; exact ih h1
    | star x =>
      simp only [run] at h
      cases h1 : run g n false x s with
      | timeout => rw [h1] at h; cases h
      | fail => rw [h1] at h; cases h; exact ⟨[], rfl, by simp [leavesL]⟩
      | ok us s1 =>
        rw [h1] at h
        cases us with
        | nil => cases h; exact ih h1
        | cons t us =>
          simp only at h
          cases h2 : run g n false (.star x) s1 with
          | timeout => rw [h2] at h; cases h
          | fail => rw [h2] at h; cases h
          | ok vs s2 =>
            rw [h2] at h; cases h
            obtain ⟨u1, e1, l1⟩ := ih h1
            obtain ⟨u2, e2, l2⟩ := ih h2
            exact ⟨u1 ++ u2, by rw [e1, e2, List.append_assoc], by
              rw [leavesL_append]; exact l1.append l2⟩
    | ref r =>
      simp only [run] at h
      cases h1 : run g n b (g r) s with
      | timeout => rw [h1] at h; cases h
      | fail => rw [h1] at h; cases h
      | ok us s1 =>
        rw [h1] at h; cases h
        rw [leavesL_ruleResult]
        exact ih h1

/-- The number of opening braces. -/
def braces (s : Str) : Nat := s.count '{'

theorem braces_append (s t : Str) : braces (s ++ t) = braces s + braces t := List.count_append

theorem Took.used {e : Peg} {s : Str} {ts : List Tree} {s' : Str} {k : Nat} (h : Took g b e s (.ok ts s') k) :
    (leavesL ts).length + s'.length ≤ s.length ∧ braces (leavesL ts) + braces s' ≤ braces s := by
  obtain ⟨n, h1, _⟩ := h
  obtain ⟨u, rfl, hs⟩ := run_used h1
  have h1 := hs.length_le
  have h2 : braces (leavesL ts) ≤ braces u := hs.count_le '{'
  rw [List.length_append, braces_append]
  omega

end Whatami
