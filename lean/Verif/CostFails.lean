import Verif.CostWins

/-
The cost of what is not accepted.
Definitions here are vocabulary for statements and proofs: the code they are about is cited in the model modules.
-/
namespace Whatami

variable {b : Bool}

/-- Items that are rejected cost at most `96 * 2 ^ β` for every character left and one more, where `β` bounds the braces left. -/
def ItemLose (X : Peg) (L : Nat) : Prop :=
  ∀ s : Str, s.length < L → ∀ β, braces s ≤ β → ∀ b k, Took newGrammar b X s .fail k → k ≤ 96 * 2 ^ β * (s.length + 1)

theorem win_spent {X : Peg} {L β : Nat} (hX : ItemWin X L) {s s' : Str} (hs : s.length < L) (hβ : braces s ≤ β) {ts : List Tree} {k : Nat}
    (h : Took newGrammar b X s (.ok ts s') k) :
    k + 96 * 2 ^ β * s'.length ≤ 96 * 2 ^ β * s.length ∧ s'.length ≤ s.length ∧ braces s' ≤ β := by
  obtain ⟨_, hk, hg⟩ := hX s hs _ _ _ _ h
  obtain ⟨h1, h2⟩ := h.used
  refine ⟨?_, by omega, by omega⟩
  unfold LoadOk at hg
  have hp : 2 ^ braces (leavesL ts) ≤ 2 ^ β := Nat.pow_le_pow_right (by decide) (by omega)
  have h3 : loadL ts ≤ (leavesL ts).length * 2 ^ β := Nat.le_trans hg (Nat.mul_le_mul_left _ hp)
  have h4 : ((leavesL ts).length + s'.length) * 2 ^ β ≤ s.length * 2 ^ β := Nat.mul_le_mul_right _ h1
  rw [Nat.add_mul] at h4
  have e1 : 96 * 2 ^ β * s'.length = 96 * (s'.length * 2 ^ β) := by rw [Nat.mul_assoc, Nat.mul_comm (2 ^ β)]
  have e2 : 96 * 2 ^ β * s.length = 96 * (s.length * 2 ^ β) := by rw [Nat.mul_assoc, Nat.mul_comm (2 ^ β)]
  rw [e1, e2]
  omega

theorem lose_star {X : Peg} {L β : Nat} (hW : ItemWin X L) (hX : ItemLose X L) (n : Nat) : ∀ (s : Str), s.length ≤ n → s.length < L → braces s ≤ β →
    ∀ b o k, Took newGrammar b (.star (seq [.ref .listSep, X])) s o k → k ≤ 96 * 2 ^ β * (s.length + 1) + 1 := by
  have hM : 1 ≤ 2 ^ β := Nat.pow_pos (by decide)
  induction n with
  | zero =>
    intro s hn _ _ b o k h
    have sep : ∀ {b : Bool} {o : Out} {k : Nat}, Took newGrammar b (seq [.ref .listSep, X]) s o k → k = 1 ∧ o = .fail := by
      intro b o k h1
      rcases took_sepItem h1 with ⟨_, h2, h3⟩ | ⟨s0, _, e, _⟩
      · exact ⟨h3, h2⟩
      · have := skipWs_len (t := c!",") e
        simp at this; omega
    rcases took_star h with ⟨_, h1⟩ | ⟨_, _, h1⟩ | ⟨_, _, _, _, _, h1, _⟩
    · have := (sep h1).1; omega
    · have := (sep h1).2; cases this
    · have := (sep h1).2; cases this
  | succ n ih =>
    intro s hn hL hβ b o k h
    have lost : ∀ {k : Nat}, Took newGrammar false (seq [.ref .listSep, X]) s .fail k → k ≤ 96 * 2 ^ β * (s.length + 1) + 1 := by
      intro k h1
      rcases took_sepItem h1 with ⟨_, _, rfl⟩ | ⟨s0, k1, e, rfl, ⟨_, h2⟩ | ⟨_, _, _, hc⟩⟩
      · omega
      · have hl := skipWs_len (t := c!",") e
        have hb := skipWs_braces (t := c!",") e
        simp only [List.length_cons, List.length_nil] at hl
        have h3 := hX s0 (by omega) β (by omega) _ _ h2
        have h4 : 96 * 2 ^ β * (s0.length + 1) ≤ 96 * 2 ^ β * (s.length + 1) := Nat.mul_le_mul_left _ (by omega)
        omega
      · cases hc
    rcases took_star h with ⟨_, h1⟩ | ⟨_, _, h1⟩ | ⟨t, us, s1, k1, k2, h1, rfl, h2⟩
    · exact lost h1
    · rcases took_sepItem h1 with ⟨_, hc, _⟩ | ⟨s0, _, _, _, ⟨hc, _⟩ | ⟨_, _, _, hc⟩⟩ <;> cases hc
    · rcases took_sepItem h1 with ⟨_, hc, _⟩ | ⟨s0, k3, e, rfl, ⟨hc, _⟩ | ⟨vs, s2, h3, e'⟩⟩
      · cases hc
      · cases hc
      · cases e'
        have hl := skipWs_len (t := c!",") e
        have hb := skipWs_braces (t := c!",") e
        simp only [List.length_cons, List.length_nil] at hl
        obtain ⟨h4, h5, h6⟩ := win_spent (β := β) hW (by omega) (by omega) h3
        have hk2 : k2 ≤ 96 * 2 ^ β * (s1.length + 1) + 1 := by
          rcases h2 with ⟨_, h2⟩ | ⟨_, _, h2, _⟩
          · exact ih s1 (by omega) (by omega) h6 _ _ _ h2
          · exact ih s1 (by omega) (by omega) h6 _ _ _ h2
        have h7 : 96 * 2 ^ β * (s0.length + 1) ≤ 96 * 2 ^ β * s.length := Nat.mul_le_mul_left _ (by omega)
        rw [Nat.mul_add] at hk2 h7 ⊢
        omega

theorem lose_elems {X : Peg} {rl : Rule} {L β : Nat} (hrl : newGrammar rl = seq [X, .star (seq [.ref .listSep, X])])
    (hW : ItemWin X L) (hX : ItemLose X L) {s : Str} (hs : s.length < L) (hβ : braces s ≤ β) {o : Out} {k : Nat}
    (h : Took newGrammar b (.ref rl) s o k) : k ≤ 96 * 2 ^ β * (s.length + 1) + 1 := by
  have body : ∀ {o : Out}, Took newGrammar b (newGrammar rl) s o k → k ≤ 96 * 2 ^ β * (s.length + 1) + 1 := by
    intro o h
    rw [hrl] at h
    rcases took_elems h with ⟨_, h1⟩ | ⟨ts1, s2, k1, k2, o2, h2, rfl, h3, _⟩
    · have := hX s hs β hβ _ _ h1; omega
    · obtain ⟨h4, h5, h6⟩ := win_spent hW hs hβ h2
      have := lose_star (β := β) hW hX s2.length s2 (Nat.le_refl _) (by omega) h6 _ _ _ h3
      rw [Nat.mul_add] at this ⊢
      omega
  rcases took_ref h with ⟨_, h1⟩ | ⟨_, _, h1, _⟩
  · exact body h1
  · exact body h1

theorem lose_bracket {X : Peg} {rl : Rule} {L β : Nat} {op cl : Str} (hrl : newGrammar rl = seq [X, .star (seq [.ref .listSep, X])])
    (hW : ItemWin X L) (hX : ItemLose X L) (hop : op ≠ []) {s : Str} (hs : s.length < L + 1) (hβ : braces s ≤ braces op + β)
    {o : Out} {k : Nat} (h : Took newGrammar b (seq [.str op, .opt (.ref rl), .str cl]) s o k) :
    k ≤ 96 * 2 ^ β * s.length + 3 := by
  rcases took_bracket h with ⟨_, _, rfl⟩ | ⟨s0, k1, oE, e, hE, rfl, _⟩
  · omega
  · have hl := skipWs_len e
    have hb := skipWs_braces e
    have := List.length_pos_iff.2 hop
    have h1 := lose_elems (β := β) hrl hW hX (by omega) (by omega) hE
    have h2 : 96 * 2 ^ β * (s0.length + 1) ≤ 96 * 2 ^ β * s.length := Nat.mul_le_mul_left _ (by omega)
    omega

theorem lose_between {X : Peg} {rl : Rule} {L β : Nat} {op cl : Str} (hrl : newGrammar rl = seq [X, .star (seq [.ref .listSep, X])])
    (hW : ItemWin X L) (hX : ItemLose X L) (hop : op ≠ []) {s : Str} (hs : s.length < L + 1) (hβ : braces s ≤ braces op + β)
    {o : Out} {k : Nat} (h : Took newGrammar b (seq [.str op, .ref rl, .str cl]) s o k) :
    k ≤ 96 * 2 ^ β * s.length + 3 := by
  rcases took_between h with ⟨_, _, rfl⟩ | ⟨s0, k1, oE, e, hE, h1⟩
  · omega
  · have hl := skipWs_len e
    have hb := skipWs_braces e
    have := List.length_pos_iff.2 hop
    have h2 := lose_elems (β := β) hrl hW hX (by omega) (by omega) hE
    have h3 : 96 * 2 ^ β * (s0.length + 1) ≤ 96 * 2 ^ β * s.length := Nat.mul_le_mul_left _ (by omega)
    rcases h1 with ⟨_, _, rfl⟩ | ⟨_, _, _, rfl, _⟩ <;> omega

/-- Two values with a mark in between. -/
theorem lose_mid {A B : Peg} {r : Rule} {m : Str} {L : Nat} (hr : newGrammar r = seq [A, .str m, B]) (hm : m ≠ [])
    (hA : ∀ s : Str, s.length < L → ∀ β, braces s ≤ β → ∀ b o k, Took newGrammar b A s o k →
      (o = .fail ∧ k ≤ 96 * 2 ^ β * (s.length + 1)) ∨
      ∃ ts s', o = .ok ts s' ∧ k + 96 * 2 ^ β * s'.length ≤ 96 * 2 ^ β * s.length ∧ s'.length ≤ s.length ∧ braces s' ≤ β)
    (hB : ItemLose B L) : ItemLose (.ref r) L := by
  intro s hs β hβ b k h
  have hM : 1 ≤ 2 ^ β := Nat.pow_pos (by decide)
  rcases took_ref h with ⟨_, h1⟩ | ⟨_, _, _, hc⟩
  · rw [hr] at h1
    rcases took_mid h1 with ⟨_, h2⟩ | ⟨ts, s1, k1, h2, h3⟩
    · rcases hA s hs β hβ _ _ _ h2 with h3 | ⟨_, _, hc, _⟩
      · exact h3.2
      · cases hc
    · rcases hA s hs β hβ _ _ _ h2 with ⟨hc, _⟩ | ⟨_, _, e, h4, h5, h6⟩
      · cases hc
      · cases e
        rw [Nat.mul_add]
        rcases h3 with ⟨_, _, rfl⟩ | ⟨s2, k2, o2, e, h7, rfl, ⟨rfl, _⟩ | ⟨_, _, _, hc⟩⟩
        · omega
        · have hl := skipWs_len e
          have hb := skipWs_braces e
          have := List.length_pos_iff.2 hm
          have h8 := hB s2 (by omega) β (by omega) _ _ h7
          have h9 : 96 * 2 ^ β * (s2.length + 1) ≤ 96 * 2 ^ β * s1.length := Nat.mul_le_mul_left _ (by omega)
          omega
        · cases hc
  · cases hc

theorem lose_dictkv {L : Nat} (hV : ItemLose (.ref .value) L) : ItemLose (.ref .dictkv) L := by
  refine lose_mid (A := .ref .value) (B := .ref .value) (m := c!":") rfl (by decide) ?_ hV
  intro s hs β hβ b o k h
  cases o with
  | timeout => exact absurd rfl h.ev.1
  | fail => exact .inl ⟨rfl, hV s hs β hβ _ _ h⟩
  | ok ts s' => exact .inr ⟨ts, s', rfl, win_spent (win_value L) hs hβ h⟩

theorem lose_kv {L : Nat} (hV : ItemLose (.ref .value) L) : ItemLose (.ref .kv) L := by
  refine lose_mid (A := .ref .anId) (B := .ref .value) (m := c!"=") rfl (by decide) ?_ hV
  intro s hs β hβ b o k h
  have hM : 1 ≤ 2 ^ β := Nat.pow_pos (by decide)
  obtain ⟨rfl, ⟨rfl, _⟩ | ⟨c, x, s', rfl, _⟩⟩ := took_id h
  · exact .inl ⟨rfl, by rw [Nat.mul_add]; omega⟩
  · obtain ⟨h1, h2⟩ := h.used
    simp only [leavesL, idTree, leaves, List.append_nil, List.length_cons] at h1
    have h3 : 96 * 2 ^ β * (s'.length + 1) ≤ 96 * 2 ^ β * s.length := Nat.mul_le_mul_left _ (by omega)
    rw [Nat.mul_add] at h3
    exact .inr ⟨_, s', rfl, by omega, by omega, by omega⟩

theorem lose_what {L β : Nat} (hV : ItemLose (.ref .value) L) {s : Str} (hs : s.length < L + 1) (hβ : braces s ≤ β) {o : Out} {k : Nat}
    (h : Took newGrammar b (newGrammar .whatamiId) s o k) : k ≤ 96 * 2 ^ β * s.length + 6 := by
  rcases took_what h with ⟨hk, _⟩ | ⟨pre, s1, k1, o1, _, _, hl, hb, h1, hk, _⟩
  · omega
  · have h2 := lose_bracket (rl := .kvs) (β := β) (op := c!"(") rfl (win_kv (win_value L)) (lose_kv hV) (by decide) (by omega) (by omega) h1
    have h3 : 96 * 2 ^ β * s1.length ≤ 96 * 2 ^ β * s.length := Nat.mul_le_mul_left _ (by omega)
    omega

theorem lose_value (L : Nat) : ItemLose (.ref .value) L := by
  induction L with
  | zero => intro s hs; omega
  | succ L ih =>
    intro s hs β hβ b k h
    have hM : 1 ≤ 2 ^ β := Nat.pow_pos (by decide)
    rw [Nat.mul_add, Nat.mul_one]
    cases took_value h with
    | small hk _ => omega
    | @bracket r op cl o1 _ k1 _ hr hp h1 hk hw =>
      have hop : op ≠ [] := by rcases hr with ⟨_, rfl, _⟩ | ⟨_, rfl, _⟩ <;> decide
      have := lose_bracket (rl := .listElements) (L := L) (β := β) rfl (win_value L) ih hop (by omega) (by omega) h1
      omega
    | @fset o1 _ k1 _ hp h1 hk hw =>
      have := lose_between (rl := .listElements) (L := L) (β := β) rfl (win_value L) ih (by decide) (by omega) (by omega) h1
      omega
    | @dict o2 _ k1 k2 _ hp h1 h2 hk hw =>
      have hb : 1 ≤ β := by
        obtain ⟨u, hu⟩ := hp
        have := skipWs_braces hu.symm
        have h1 : braces c!"{" = 1 := by decide
        omega
      obtain ⟨γ, rfl⟩ : ∃ γ, β = γ + 1 := ⟨β - 1, by omega⟩
      have hb1 : braces c!"{" = 1 := by decide
      have e1 := lose_between (rl := .listElements) (L := L) (β := γ) rfl (win_value L) ih (by decide) (by omega) (by omega) h1
      have e2 := lose_bracket (rl := .dictElements) (L := L) (β := γ) rfl (win_dictkv (win_value L)) (lose_dictkv ih) (by decide) (by omega) (by omega) h2
      have e3 : 96 * 2 ^ (γ + 1) * s.length = 2 * (96 * 2 ^ γ * s.length) := by
        rw [Nat.pow_succ]; simp only [Nat.mul_assoc, Nat.mul_left_comm, Nat.mul_comm]
      have e4 : 1 ≤ 2 ^ γ := Nat.pow_pos (by decide)
      rw [e3]
      omega
    | @what o1 _ k1 _ hid h1 hk hw =>
      have := lose_what (β := β) ih (by omega) hβ h1
      omega

/-- The parser as a whole. -/
theorem took_top {s : Str} {o : Out} {k : Nat} (h : Took newGrammar b (.ref .whatamiIdTop) s o k) :
    ∃ o1 k1, Took newGrammar true (newGrammar .whatamiId) s o1 k1 ∧ k ≤ k1 + 1 ∧
      (∀ ts s', o = .ok ts s' → ∃ us eof s1, o1 = .ok us s1 ∧ ts = [.node .whatamiIdTop [.node .whatamiId us, eof]] ∧ load eof = 0) := by
  have body : ∀ {o : Out}, Took newGrammar b (newGrammar .whatamiIdTop) s o k →
      ∃ o1 k1, Took newGrammar true (newGrammar .whatamiId) s o1 k1 ∧ k ≤ k1 + 1 ∧
      (∀ ts s', o = .ok ts s' → ∃ us eof s1, o1 = .ok us s1 ∧ ts = [.node .whatamiId us, eof] ∧ load eof = 0) := by
    intro o h
    simp only [newGrammar, seq, List.foldr] at h
    rcases took_cat h with ⟨rfl, h1⟩ | ⟨ts, s1, k1, k2, h1, rfl, h2⟩
    · obtain ⟨o1, h2, hw⟩ := what_rule h1
      exact ⟨o1, k, h2, by omega, fun _ _ hc => by cases hc⟩
    · obtain ⟨o1, h3, hw⟩ := what_rule h1
      rcases hw with ⟨_, hc⟩ | ⟨us, s2, rfl, e⟩
      · cases hc
      · cases e
        have : k2 = 1 ∧ (∀ vs s', Took newGrammar true (.cat .eof .emp) s1 (.ok vs s') k2 → ∃ e, vs = [e] ∧ load e = 0) := by
          refine ⟨?_, ?_⟩
          · rcases h2 with ⟨_, h2⟩ | ⟨_, _, h2, _⟩
            all_goals
              rcases took_cat h2 with ⟨_, h4⟩ | ⟨_, _, k3, k4, h4, rfl, ⟨_, h5⟩ | ⟨_, _, h5, _⟩⟩
              · exact took_eof h4
              · have := (took_emp h5).1; have := took_eof h4; omega
              · have := (took_emp h5).1; have := took_eof h4; omega
          · intro vs s' h2
            rcases took_cat h2 with ⟨hc, _⟩ | ⟨ws, _, k3, k4, h4, rfl, ⟨hc, _⟩ | ⟨xs, _, h5, e⟩⟩
            · cases hc
            · cases hc
            · obtain ⟨_, e5⟩ := took_emp h5
              cases e5
              cases e
              obtain ⟨n, hr, _⟩ := h4
              cases n with
              | zero => cases hr
              | succ n =>
                simp only [run] at hr
                split at hr
                · cases hr; exact ⟨_, rfl, by simp [load]⟩
                · cases hr
        refine ⟨_, k1, h3, by omega, ?_⟩
        intro ts s' e
        rcases h2 with ⟨hc, _⟩ | ⟨vs, s3, h2, e'⟩
        · rw [hc] at e; cases e
        · rw [e'] at e
          cases e
          obtain ⟨x, rfl, hx⟩ := this.2 _ _ h2
          exact ⟨us, x, s1, rfl, rfl, hx⟩
  rcases took_ref h with ⟨rfl, h1⟩ | ⟨ts, s', h1, rfl⟩
  · obtain ⟨o1, k1, h2, h3, _⟩ := body h1
    exact ⟨o1, k1, h2, h3, fun _ _ hc => by cases hc⟩
  · obtain ⟨o1, k1, h2, h3, h4⟩ := body h1
    refine ⟨o1, k1, h2, h3, ?_⟩
    intro us s1 e
    cases e
    obtain ⟨us, x, s2, rfl, rfl, hx⟩ := h4 _ _ rfl
    exact ⟨us, x, s2, rfl, by simp [ruleResult, newGrammar, seq, Peg.isMatch], hx⟩

end Whatami
