import Verif.CostValue

/-
The ways in which collections, calls and values can be parsed, with their cost.
Definitions here are vocabulary for statements and proofs: the code they are about is cited in the model modules.
-/
namespace Whatami

variable {b : Bool}

/-- A comma and an item. -/
theorem took_sepItem {X : Peg} {s : Str} {o : Out} {k : Nat} (h : Took newGrammar b (seq [.ref .listSep, X]) s o k) :
    (¬ c!"," <+: skipWs s ∧ o = .fail ∧ k = 1) ∨
    ∃ s0 k1, skipWs s = ',' :: s0 ∧ k = k1 + 1 ∧ ((o = .fail ∧ Took newGrammar true X s0 .fail k1) ∨
      ∃ us s', Took newGrammar true X s0 (.ok us s') k1 ∧ o = .ok (.term (some .listSep) true c!"," :: us) s') := by
  simp only [seq, List.foldr] at h
  rcases took_cat h with ⟨rfl, h1⟩ | ⟨ts, s1, k1, k2, h1, rfl, h2⟩
  · rcases took_ref h1 with ⟨_, h1⟩ | ⟨_, _, _, hc⟩
    · obtain ⟨hk, h1 | ⟨u, _, h1⟩⟩ := took_str h1
      · exact .inl ⟨h1.2, rfl, hk⟩
      · cases h1
    · cases hc
  · rcases took_ref h1 with ⟨hc, _⟩ | ⟨us, s2, h1, e⟩
    · cases hc
    · obtain ⟨hk, h1 | ⟨u, hs, h1⟩⟩ := took_str h1
      · cases h1.1
      · cases h1
        cases e
        refine .inr ⟨s1, k2, hs, by omega, ?_⟩
        rcases h2 with ⟨rfl, h2⟩ | ⟨us, s2, h2, rfl⟩
        · rcases took_cat h2 with ⟨_, h3⟩ | ⟨ts, s3, k3, k4, h3, rfl, ⟨_, h4⟩ | ⟨us, s4, h4, hc⟩⟩
          · exact .inl ⟨rfl, h3⟩
          · have := (took_emp h4).2; cases this
          · cases hc
        · rcases took_cat h2 with ⟨hc, h3⟩ | ⟨ts, s3, k3, k4, h3, rfl, ⟨hc, h4⟩ | ⟨us, s4, h4, e⟩⟩
          · cases hc
          · cases hc
          · obtain ⟨h5, h6⟩ := took_emp h4
            cases h6
            cases e
            subst h5
            exact .inr ⟨ts, s2, h3, by simp [ruleResult, newGrammar, Peg.isMatch]⟩

/-- An item and more of them, each after a comma. -/
theorem took_elems {X : Peg} {s : Str} {o : Out} {k : Nat}
    (h : Took newGrammar b (seq [X, .star (seq [.ref .listSep, X])]) s o k) :
    (o = .fail ∧ Took newGrammar true X s .fail k) ∨
    ∃ ts s1 k1 k2 o2, Took newGrammar true X s (.ok ts s1) k1 ∧ k = k1 + k2 ∧
      Took newGrammar true (.star (seq [.ref .listSep, X])) s1 o2 k2 ∧
      ((o = .fail ∧ o2 = .fail) ∨ ∃ us s', o2 = .ok us s' ∧ o = .ok (ts ++ us) s') := by
  simp only [seq, List.foldr] at h
  rcases took_cat h with ⟨rfl, h1⟩ | ⟨ts, s1, k1, k2, h1, rfl, ⟨rfl, h2⟩ | ⟨us, s2, h2, rfl⟩⟩
  · exact .inl ⟨rfl, h1⟩
  · rcases took_cat h2 with ⟨_, h3⟩ | ⟨ts', s3, k3, k4, h3, rfl, ⟨_, h4⟩ | ⟨us, s4, h4, hc⟩⟩
    · exact .inr ⟨ts, s1, k1, k2, _, h1, rfl, h3, .inl ⟨rfl, rfl⟩⟩
    · have := (took_emp h4).2; cases this
    · cases hc
  · rcases took_cat h2 with ⟨hc, _⟩ | ⟨ts', s3, k3, k4, h3, rfl, ⟨hc, _⟩ | ⟨us, s4, h4, e⟩⟩
    · cases hc
    · cases hc
    · obtain ⟨h5, h6⟩ := took_emp h4
      cases h6
      cases e
      subst h5
      exact .inr ⟨ts, s1, k1, k3, _, h1, rfl, h3, .inr ⟨ts', s2, rfl, by simp⟩⟩

/-- The end of a bracket. -/
theorem took_close {cl : Str} {s : Str} {o : Out} {k : Nat} (h : Took newGrammar b (seq [.str cl]) s o k) :
    k = 1 ∧ ((o = .fail ∧ ¬ cl <+: skipWs s) ∨ ∃ u, skipWs s = cl ++ u ∧ o = .ok [tok cl] u) := by
  simp only [seq, List.foldr] at h
  rcases took_cat h with ⟨rfl, h1⟩ | ⟨ts, s1, k1, k2, h1, rfl, h2⟩
  · obtain ⟨hk, h1 | ⟨u, _, h1⟩⟩ := took_str h1
    · exact ⟨hk, .inl ⟨rfl, h1.2⟩⟩
    · cases h1
  · obtain ⟨hk, h1 | ⟨u, hs, h1⟩⟩ := took_str h1
    · cases h1.1
    · cases h1
      rcases h2 with ⟨rfl, h2⟩ | ⟨us, s2, h2, rfl⟩
      · have := (took_emp h2).2; cases this
      · obtain ⟨h3, h4⟩ := took_emp h2
        cases h4
        exact ⟨by omega, .inr ⟨_, hs, rfl⟩⟩

/-- Something between brackets. -/
theorem took_between {op cl : Str} {E : Peg} {s : Str} {o : Out} {k : Nat} (h : Took newGrammar b (seq [.str op, E, .str cl]) s o k) :
    (¬ op <+: skipWs s ∧ o = .fail ∧ k = 1) ∨
    ∃ s0 k1 oE, skipWs s = op ++ s0 ∧ Took newGrammar true E s0 oE k1 ∧
      ((oE = .fail ∧ o = .fail ∧ k = k1 + 1) ∨ ∃ us s1, oE = .ok us s1 ∧ k = k1 + 2 ∧
        ((¬ cl <+: skipWs s1 ∧ o = .fail) ∨ ∃ u, skipWs s1 = cl ++ u ∧ o = .ok (tok op :: us ++ [tok cl]) u)) := by
  simp only [seq, List.foldr] at h
  rcases took_cat h with ⟨rfl, h1⟩ | ⟨ts, s1, k1, k2, h1, rfl, h2⟩
  · obtain ⟨hk, h1 | ⟨u, _, h1⟩⟩ := took_str h1
    · exact .inl ⟨h1.2, rfl, hk⟩
    · cases h1
  · obtain ⟨hk, h1 | ⟨u, hs, h1⟩⟩ := took_str h1
    · cases h1.1
    · cases h1
      subst hk
      have h3 : ∃ o2, Took newGrammar true (.cat E (.cat (.str cl) .emp)) s1 o2 k2 ∧
          ((o2 = .fail ∧ o = .fail) ∨ ∃ us s2, o2 = .ok us s2 ∧ o = .ok (tok op :: us) s2) := by
        rcases h2 with ⟨rfl, h2⟩ | ⟨us, s2, h2, rfl⟩
        · exact ⟨_, h2, .inl ⟨rfl, rfl⟩⟩
        · exact ⟨_, h2, .inr ⟨us, s2, rfl, rfl⟩⟩
      obtain ⟨o2, h3, h4⟩ := h3
      refine .inr ?_
      rcases took_cat h3 with ⟨rfl, h5⟩ | ⟨ts, s3, k3, k4, h5, rfl, h6⟩
      · refine ⟨s1, k2, _, hs, h5, .inl ⟨rfl, ?_, by omega⟩⟩
        rcases h4 with h4 | ⟨_, _, hc, _⟩
        · exact h4.2
        · cases hc
      · refine ⟨s1, k3, _, hs, h5, .inr ⟨ts, s3, rfl, ?_⟩⟩
        rcases h6 with ⟨rfl, h6⟩ | ⟨us, s4, h6, rfl⟩
        · obtain ⟨hk, h7 | ⟨_, _, hc⟩⟩ := took_close (cl := cl) h6
          · refine ⟨by omega, .inl ⟨h7.2, ?_⟩⟩
            rcases h4 with h4 | ⟨_, _, hc, _⟩
            · exact h4.2
            · cases hc
          · cases hc
        · obtain ⟨hk, h7 | ⟨u, hs', h7⟩⟩ := took_close (cl := cl) h6
          · cases h7.1
          · cases h7
            refine ⟨by omega, .inr ⟨_, hs', ?_⟩⟩
            rcases h4 with ⟨hc, _⟩ | ⟨us, s5, e, rfl⟩
            · cases hc
            · cases e; rfl

/-- Elements between brackets that may be missing. -/
theorem took_bracket {op cl : Str} {E : Peg} {s : Str} {o : Out} {k : Nat} (h : Took newGrammar b (seq [.str op, .opt E, .str cl]) s o k) :
    (¬ op <+: skipWs s ∧ o = .fail ∧ k = 1) ∨
    ∃ s0 k1 oE, skipWs s = op ++ s0 ∧ Took newGrammar false E s0 oE k1 ∧ k = k1 + 2 ∧
      ∃ us s1, ((oE = .fail ∧ us = [] ∧ s1 = s0) ∨ oE = .ok us s1) ∧
        ((¬ cl <+: skipWs s1 ∧ o = .fail) ∨ ∃ u, skipWs s1 = cl ++ u ∧ o = .ok (tok op :: us ++ [tok cl]) u) := by
  rcases took_between h with h | ⟨s0, k1, oE, hs, hE, h1⟩
  · exact .inl h
  · refine .inr ?_
    rcases took_opt hE with ⟨rfl, hF⟩ | ⟨ts, s', rfl, hF⟩
    · rcases h1 with ⟨hc, _⟩ | ⟨us, s1, e, hk, h1⟩
      · cases hc
      · cases e
        exact ⟨s0, k1, _, hs, hF, hk, [], s0, .inl ⟨rfl, rfl, rfl⟩, h1⟩
    · rcases h1 with ⟨hc, _⟩ | ⟨us, s1, e, hk, h1⟩
      · cases hc
      · cases e
        exact ⟨s0, k1, _, hs, hF, hk, ts, s', .inr rfl, h1⟩

/-- A rule with a body of several parts. -/
theorem took_rule {r : Rule} {s : Str} {o : Out} {k : Nat} (hr : (newGrammar r).isMatch = false)
    (hn : ∀ ts s', Took newGrammar b (newGrammar r) s (.ok ts s') k → ts ≠ []) (h : Took newGrammar b (.ref r) s o k) :
    ∃ o1, Took newGrammar b (newGrammar r) s o1 k ∧ Wraps (.node r) o1 o := by
  rcases took_ref h with ⟨rfl, h1⟩ | ⟨ts, s', h1, rfl⟩
  · exact ⟨_, h1, .inl ⟨rfl, rfl⟩⟩
  · refine ⟨_, h1, .inr ⟨ts, s', rfl, ?_⟩⟩
    have := hn ts s' h1
    cases ts with
    | nil => exact absurd rfl this
    | cons t ts => simp [ruleResult, hr]

theorem between_ne {op cl : Str} {E : Peg} {s s' : Str} {ts : List Tree} {k : Nat}
    (h : Took newGrammar b (seq [.str op, E, .str cl]) s (.ok ts s') k) : ts ≠ [] := by
  rcases took_between h with ⟨_, hc, _⟩ | ⟨_, _, _, _, _, ⟨_, hc, _⟩ | ⟨us, s1, _, _, ⟨_, hc⟩ | ⟨u, _, e⟩⟩⟩
  · cases hc
  · cases hc
  · cases hc
  · cases e; simp

/-- An identifier. -/
theorem took_id {s : Str} {o : Out} {k : Nat} (h : Took newGrammar b (.ref .anId) s o k) :
    k = 1 ∧ ((o = .fail ∧ ∀ c u, skipWs s = c :: u → isIdStart c = false) ∨
      ∃ c x s', o = .ok [idTree (c :: x)] s' ∧ skipWs s = c :: x ++ s' ∧ isIdStart c = true ∧ x.all isIdChar = true ∧ EndsToken s') := by
  rcases took_ref h with ⟨rfl, h1⟩ | ⟨ts, s', h1, rfl⟩
  · obtain ⟨hk, h1 | ⟨t, u, _, h1⟩⟩ := took_rx h1
    · refine ⟨hk, .inl ⟨rfl, fun c u e => ?_⟩⟩
      have h1 := h1.2
      rw [e] at h1
      simp only [Rx.scan] at h1
      cases hc : isIdStart c with
      | false => rfl
      | true => rw [hc] at h1; cases h1
    · cases h1
  · obtain ⟨hk, h1 | ⟨t, u, hs, h1⟩⟩ := took_rx h1
    · cases h1.1
    · refine ⟨hk, .inr ?_⟩
      cases hsk : skipWs s with
      | nil => rw [hsk] at hs; cases hs
      | cons c r =>
        rw [hsk] at hs
        simp only [Rx.scan] at hs
        split at hs
        · next hc =>
          cases hs
          rw [if_neg (by simp)] at h1
          cases h1
          refine ⟨c, r.takeWhile isIdChar, r.dropWhile isIdChar, rfl, by simp [List.takeWhile_append_dropWhile], hc, ?_, ?_⟩
          · rw [List.all_eq_true]
            intro x hx
            exact List.all_eq_true.1 (List.all_takeWhile (p := isIdChar) (l := r)) x hx
          · intro d u e
            have hne : r.dropWhile isIdChar ≠ [] := by rw [e]; simp
            have := List.head_dropWhile_not isIdChar hne
            simpa [e] using this
        · cases hs

end Whatami
