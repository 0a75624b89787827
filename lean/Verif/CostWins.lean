import Verif.CostRuns

/-
The cost of what is accepted: at most 96 tries per character matched, where the first key of every dict counts twice.
Definitions here are vocabulary for statements and proofs: the code they are about is cited in the model modules.
-/
namespace Whatami

variable {b : Bool}

/-- Two things with a mark in between. -/
theorem took_mid {A B : Peg} {m s : Str} {o : Out} {k : Nat} (h : Took newGrammar b (seq [A, .str m, B]) s o k) :
    (o = .fail ∧ Took newGrammar true A s .fail k) ∨
    ∃ ts s1 k1, Took newGrammar true A s (.ok ts s1) k1 ∧ ((¬ m <+: skipWs s1 ∧ o = .fail ∧ k = k1 + 1) ∨
      ∃ s2 k2 o2, skipWs s1 = m ++ s2 ∧ Took newGrammar true B s2 o2 k2 ∧ k = k1 + 1 + k2 ∧
        ((o2 = .fail ∧ o = .fail) ∨ ∃ us s', o2 = .ok us s' ∧ o = .ok (ts ++ tok m :: us) s')) := by
  simp only [seq, List.foldr] at h
  rcases took_cat h with ⟨rfl, h1⟩ | ⟨ts, s1, k1, k2, h1, rfl, h2⟩
  · exact .inl ⟨rfl, h1⟩
  · refine .inr ⟨ts, s1, k1, h1, ?_⟩
    have h3 : ∃ o2, Took newGrammar true (.cat (.str m) (.cat B .emp)) s1 o2 k2 ∧
        ((o2 = .fail ∧ o = .fail) ∨ ∃ us s2, o2 = .ok us s2 ∧ o = .ok (ts ++ us) s2) := by
      rcases h2 with ⟨rfl, h2⟩ | ⟨us, s2, h2, rfl⟩
      · exact ⟨_, h2, .inl ⟨rfl, rfl⟩⟩
      · exact ⟨_, h2, .inr ⟨us, s2, rfl, rfl⟩⟩
    obtain ⟨o2, h3, h4⟩ := h3
    rcases took_cat h3 with ⟨rfl, h5⟩ | ⟨us, s3, k3, k4, h5, rfl, h6⟩
    · left
      obtain ⟨e, h5 | ⟨_, _, hc⟩⟩ := took_str h5
      · refine ⟨h5.2, ?_, by omega⟩
        rcases h4 with h4 | ⟨_, _, hc, _⟩
        · exact h4.2
        · cases hc
      · cases hc
    · right
      obtain ⟨e, ⟨hc, _⟩ | ⟨u, hs, e'⟩⟩ := took_str h5
      · cases hc
      · cases e'
        have h7 : ∃ o4, Took newGrammar true B s3 o4 k4 ∧
            ((o4 = .fail ∧ o2 = .fail) ∨ ∃ vs s5, o4 = .ok vs s5 ∧ o2 = .ok (tok m :: vs) s5) := by
          rcases h6 with ⟨rfl, h6⟩ | ⟨us, s4, h6, rfl⟩
          · rcases took_cat h6 with ⟨_, h7⟩ | ⟨_, _, _, _, _, _, ⟨_, h7⟩ | ⟨_, _, _, hc⟩⟩
            · exact ⟨_, h7, .inl ⟨rfl, rfl⟩⟩
            · have := (took_emp h7).2; cases this
            · cases hc
          · rcases took_cat h6 with ⟨hc, _⟩ | ⟨vs, s5, k5, k6, h7, rfl, ⟨hc, _⟩ | ⟨us, s6, h8, e⟩⟩
            · cases hc
            · cases hc
            · cases e
              obtain ⟨e8, e9⟩ := took_emp h8
              cases e9
              subst e8
              exact ⟨_, h7, .inr ⟨vs, s4, rfl, by simp [tok]⟩⟩
        obtain ⟨o4, h7, h8⟩ := h7
        refine ⟨s3, k4, o4, hs, h7, by omega, ?_⟩
        rcases h8 with ⟨rfl, rfl⟩ | ⟨vs, s5, rfl, rfl⟩
        · left
          refine ⟨rfl, ?_⟩
          rcases h4 with h4 | ⟨_, _, hc, _⟩
          · exact h4.2
          · cases hc
        · right
          rcases h4 with ⟨hc, _⟩ | ⟨_, _, e, rfl⟩
          · cases hc
          · cases e
            exact ⟨vs, s5, rfl, rfl⟩

/-- The load is bounded by the length and the number of braces. -/
def LoadOk (ts : List Tree) : Prop := loadL ts ≤ (leavesL ts).length * 2 ^ braces (leavesL ts)

theorem loadok_append {ts us : List Tree} (h1 : LoadOk ts) (h2 : LoadOk us) : LoadOk (ts ++ us) := by
  unfold LoadOk at *
  rw [loadL_append, leavesL_append, List.length_append, braces_append, Nat.add_mul]
  refine Nat.add_le_add (Nat.le_trans h1 (Nat.mul_le_mul_left _ ?_)) (Nat.le_trans h2 (Nat.mul_le_mul_left _ ?_))
  · exact Nat.pow_le_pow_right (by decide) (Nat.le_add_right _ _)
  · exact Nat.pow_le_pow_right (by decide) (Nat.le_add_left _ _)

theorem loadok_flat {ts : List Tree} (h : NoDictL ts) : LoadOk ts := by
  unfold LoadOk
  rw [h]
  exact Nat.le_mul_of_pos_right _ (Nat.pow_pos (by decide))

theorem nodict_term (r : Option Rule) (x : Bool) (t : Str) : NoDictL [.term r x t] := by simp [NoDictL, loadL, leavesL, load, leaves]

theorem load_node {r : Rule} (hr : r ≠ .aDict) (ts : List Tree) : load (.node r ts) = loadL ts := by
  cases r <;> simp_all [load]

theorem loadok_node {r : Rule} (hr : r ≠ .aDict) {ts : List Tree} (h : LoadOk ts) : LoadOk [.node r ts] := by
  unfold LoadOk at *
  simpa [loadL, leavesL, leaves, load_node hr] using h

theorem loadL_single (t : Tree) : loadL [t] = load t := by simp [loadL]

/-- Items that are accepted are cheap. -/
def ItemWin (X : Peg) (L : Nat) : Prop :=
  ∀ s : Str, s.length < L → ∀ b ts s' k, Took newGrammar b X s (.ok ts s') k → (∃ t, ts = [t]) ∧ k ≤ 96 * loadL ts ∧ LoadOk ts

theorem skipWs_len {s t u : Str} (h : skipWs s = t ++ u) : t.length + u.length ≤ s.length := by
  have := skipWs_le s
  rw [h, List.length_append] at this
  exact this

theorem skipWs_braces {s t u : Str} (h : skipWs s = t ++ u) : braces t + braces u ≤ braces s := by
  obtain ⟨w, hw⟩ := skipWs_suffix s
  have h1 : braces s = braces w + (braces t + braces u) := by
    rw [← braces_append, ← braces_append, ← h, ← hw]
  omega

theorem win_star {X : Peg} {L : Nat} (hX : ItemWin X L) (n : Nat) : ∀ (s : Str), s.length ≤ n → s.length < L → ∀ b ts s' k,
    Took newGrammar b (.star (seq [.ref .listSep, X])) s (.ok ts s') k → ¬ c!"," <+: skipWs s' → k ≤ 96 * loadL ts + 1 ∧ LoadOk ts := by
  induction n with
  | zero =>
    intro s hn _ b ts s' k h hs'
    rcases took_star h with ⟨e, h1⟩ | ⟨_, _, h1⟩ | ⟨t, us, s1, k1, k2, h1, rfl, h2⟩
    · cases e
      rcases took_sepItem h1 with ⟨_, _, rfl⟩ | ⟨s0, _, e, _⟩
      · exact ⟨by simp [loadL], loadok_flat rfl⟩
      · exact absurd ⟨s0, e.symm⟩ hs'
    · rcases took_sepItem h1 with ⟨_, hc, _⟩ | ⟨s0, _, e, _⟩
      · cases hc
      · have := skipWs_len (t := c!",") e
        simp at this; omega
    · rcases took_sepItem h1 with ⟨_, hc, _⟩ | ⟨s0, _, e, _⟩
      · cases hc
      · have := skipWs_len (t := c!",") e
        simp at this; omega
  | succ n ih =>
    intro s hn hL b ts s' k h hs'
    rcases took_star h with ⟨e, h1⟩ | ⟨_, e, h1⟩ | ⟨t, us, s1, k1, k2, h1, rfl, h2⟩
    · cases e
      rcases took_sepItem h1 with ⟨_, _, rfl⟩ | ⟨s0, _, e, _⟩
      · exact ⟨by simp [loadL], loadok_flat rfl⟩
      · exact absurd ⟨s0, e.symm⟩ hs'
    · rcases took_sepItem h1 with ⟨_, hc, _⟩ | ⟨s0, _, _, _, ⟨hc, _⟩ | ⟨_, _, _, hc⟩⟩ <;> cases hc
    · rcases took_sepItem h1 with ⟨_, hc, _⟩ | ⟨s0, k3, e, rfl, ⟨hc, _⟩ | ⟨vs, s2, h3, e'⟩⟩
      · cases hc
      · cases hc
      · cases e'
        have hlen := skipWs_len (t := c!",") e
        simp only [List.length_cons, List.length_nil] at hlen
        have hu := h3.used
        obtain ⟨_, hk3, hg⟩ := hX s0 (by omega) _ _ _ _ h3
        rcases h2 with ⟨hc, _⟩ | ⟨ws, s3, h4, e'⟩
        · cases hc
        · cases e'
          obtain ⟨hk2, hg2⟩ := ih s1 (by omega) (by omega) _ _ _ _ h4 hs'
          have hsep : LoadOk [.term (some .listSep) true c!","] := loadok_flat (nodict_term _ _ _)
          refine ⟨?_, ?_⟩
          · simp only [List.cons_append, loadL, loadL_append, load, List.length_cons, List.length_nil]
            omega
          · exact loadok_append (ts := [_]) hsep (loadok_append hg hg2)

/-- A list of items. -/
theorem win_elems {X : Peg} {rl : Rule} {L : Nat} (hrl : newGrammar rl = seq [X, .star (seq [.ref .listSep, X])]) (hd : rl ≠ .aDict)
    (hX : ItemWin X L) {s : Str} (hs : s.length < L) {us : List Tree} {s' : Str} {k : Nat} (h : Took newGrammar b (.ref rl) s (.ok us s') k)
    (hc : ¬ c!"," <+: skipWs s') : k ≤ 96 * loadL us + 1 ∧ LoadOk us ∧
      ∃ t tr s1 k1, us = [.node rl (t :: tr)] ∧ Took newGrammar true X s (.ok [t] s1) k1 ∧ k1 ≤ 96 * load t := by
  rcases took_ref h with ⟨hf, _⟩ | ⟨ts, s1, h1, e⟩
  · cases hf
  · cases e
    have hm : (newGrammar rl).isMatch = false := by rw [hrl]; rfl
    rw [hrl] at h1
    rcases took_elems h1 with ⟨hf, _⟩ | ⟨ts1, s2, k1, k2, o2, h2, rfl, h3, ⟨hf, _⟩ | ⟨us, s3, rfl, e⟩⟩
    · cases hf
    · cases hf
    · cases e
      have hu := h2.used
      obtain ⟨⟨t, rfl⟩, hk1, hg1⟩ := hX s hs _ _ _ _ h2
      obtain ⟨hk2, hg2⟩ := win_star hX s2.length s2 (Nat.le_refl _) (by omega) _ _ _ _ h3 hc
      have he : ruleResult rl (newGrammar rl) ([t] ++ us) = [.node rl (t :: us)] := by simp [ruleResult, hm]
      rw [he, loadL_single, load_node hd]
      rw [loadL_single] at hk1
      refine ⟨by simp only [loadL]; omega, loadok_node hd (loadok_append (ts := [t]) hg1 hg2), t, us, s2, k1, rfl, h2, hk1⟩

theorem comma_not {c : Char} {u s : Str} (h : skipWs s = c :: u) (hc : c ≠ ',') : ¬ c!"," <+: skipWs s := not_prefix_head h (Ne.symm hc)

/-- What stands between brackets. -/
theorem win_between {X : Peg} {rl : Rule} {L : Nat} {op cl : Str} (hrl : newGrammar rl = seq [X, .star (seq [.ref .listSep, X])]) (hd : rl ≠ .aDict)
    (hX : ItemWin X L) (hop : op ≠ []) (hcl : ∃ c u, cl = c :: u ∧ c ≠ ',') {s : Str} (hs : s.length < L + 1) {ts : List Tree} {s' : Str} {k : Nat}
    (h : Took newGrammar b (seq [.str op, .ref rl, .str cl]) s (.ok ts s') k) :
    ∃ us, ts = tok op :: us ++ [tok cl] ∧ k ≤ 96 * loadL us + 62 ∧ LoadOk us := by
  rcases took_between h with ⟨_, hc, _⟩ | ⟨s0, k1, oE, e, hE, ⟨_, hc, _⟩ | ⟨us, s1, rfl, rfl, ⟨_, hc⟩ | ⟨u, e1, e2⟩⟩⟩
  · cases hc
  · cases hc
  · cases hc
  · cases e2
    have hl := skipWs_len e
    have := List.length_pos_iff.2 hop
    obtain ⟨c, v, rfl, hcc⟩ := hcl
    obtain ⟨hk, hg, _⟩ := win_elems hrl hd hX (by omega) hE (comma_not e1 hcc)
    exact ⟨us, rfl, by omega, hg⟩

theorem win_bracket {X : Peg} {rl : Rule} {L : Nat} {op cl : Str} (hrl : newGrammar rl = seq [X, .star (seq [.ref .listSep, X])]) (hd : rl ≠ .aDict)
    (hX : ItemWin X L) (hop : op ≠ []) (hcl : ∃ c u, cl = c :: u ∧ c ≠ ',')
    (hfail : ∀ s0 u k, skipWs s0 = cl ++ u → Took newGrammar false (.ref rl) s0 .fail k → k ≤ 60)
    {s : Str} (hs : s.length < L + 1) {ts : List Tree} {s' : Str} {k : Nat}
    (h : Took newGrammar b (seq [.str op, .opt (.ref rl), .str cl]) s (.ok ts s') k) :
    ∃ us, ts = tok op :: us ++ [tok cl] ∧ k ≤ 96 * loadL us + 62 ∧ LoadOk us ∧ ∃ s0, skipWs s = op ++ s0 ∧
      ((us = [] ∧ ∃ u, skipWs s0 = cl ++ u) ∨
        ∃ t tr s1 k1, us = [.node rl (t :: tr)] ∧ Took newGrammar true X s0 (.ok [t] s1) k1 ∧ k1 ≤ 96 * load t ∧ k ≤ 96 * loadL us + 3) := by
  rcases took_bracket h with ⟨_, hc, _⟩ | ⟨s0, k1, oE, e, hE, rfl, us, s1, h1, ⟨_, hc⟩ | ⟨u, e1, e2⟩⟩
  · cases hc
  · cases hc
  · cases e2
    rcases h1 with ⟨rfl, rfl, rfl⟩ | rfl
    · have := hfail _ _ _ e1 hE
      exact ⟨[], rfl, by omega, loadok_flat rfl, s1, e, .inl ⟨rfl, _, e1⟩⟩
    · have hl := skipWs_len e
      have := List.length_pos_iff.2 hop
      obtain ⟨c, v, rfl, hcc⟩ := hcl
      obtain ⟨hk, hg, t, tr, s2, k2, h2, h3, h4⟩ := win_elems hrl hd hX (by omega) hE (comma_not e1 hcc)
      exact ⟨us, rfl, by omega, hg, s0, e, .inr ⟨t, tr, s2, k2, h2, h3, h4, by omega⟩⟩

/-- Before a closing bracket there is no value, which is soon found out. -/
theorem value_closes {s u : Str} {c : Char} (hs : skipWs s = c :: u) (hc : c = ')' ∨ c = ']' ∨ c = '}') {o : Out} {k : Nat}
    (h : Took newGrammar b (.ref .value) s o k) : o = .fail ∧ k ≤ 60 := by
  have hf : Ev newGrammar b (.ref .value) s .fail := by
    have e : s = s.takeWhile isWs ++ c :: u := by
      rw [← hs]; exact (List.takeWhile_append_dropWhile).symm
    rw [e]
    exact value_fail_close (by rw [List.all_eq_true]; exact fun x hx => List.all_eq_true.1 (List.all_takeWhile (p := isWs) (l := s)) x hx) hc u
  obtain rfl := h.ev.det hf
  refine ⟨rfl, ?_⟩
  have np : ∀ {d : Char} {t : Str}, d ≠ ')' → d ≠ ']' → d ≠ '}' → ¬ (d :: t) <+: skipWs s := by
    intro d t h1 h2 h3
    refine not_prefix_head hs ?_
    rcases hc with rfl | rfl | rfl <;> assumption
  cases took_value h with
  | small hk _ => exact hk
  | bracket h1 h2 =>
    rcases h1 with ⟨_, rfl, _⟩ | ⟨_, rfl, _⟩
    · exact absurd h2 (np (by decide) (by decide) (by decide))
    · exact absurd h2 (np (by decide) (by decide) (by decide))
  | fset h1 => exact absurd h1 (np (by decide) (by decide) (by decide))
  | dict h1 => exact absurd h1 (np (by decide) (by decide) (by decide))
  | what h1 =>
    obtain ⟨d, v, e, hd⟩ := h1
    rw [hs] at e
    cases e
    rcases hc with rfl | rfl | rfl <;> exact absurd hd (by decide)

theorem listElements_dead {s u : Str} {c : Char} (hs : skipWs s = c :: u) (hc : c = ')' ∨ c = ']' ∨ c = '}') {o : Out} {k : Nat}
    (h : Took newGrammar b (.ref .listElements) s o k) : o = .fail ∧ k ≤ 60 := by
  rcases took_ref h with ⟨rfl, h1⟩ | ⟨ts, s1, h1, rfl⟩
  · rcases took_elems h1 with ⟨_, h2⟩ | ⟨_, _, _, _, _, h2, _⟩
    · exact ⟨rfl, (value_closes hs hc h2).2⟩
    · have := (value_closes hs hc h2).1; cases this
  · rcases took_elems h1 with ⟨hf, h2⟩ | ⟨_, _, _, _, _, h2, _⟩
    · cases hf
    · have := (value_closes hs hc h2).1; cases this

theorem dictElements_dead {s u : Str} {c : Char} (hs : skipWs s = c :: u) (hc : c = ')' ∨ c = ']' ∨ c = '}') {o : Out} {k : Nat}
    (h : Took newGrammar b (.ref .dictElements) s o k) : o = .fail ∧ k ≤ 60 := by
  have kv : ∀ {b : Bool} {o : Out} {k : Nat}, Took newGrammar b (.ref .dictkv) s o k → o = .fail ∧ k ≤ 60 := by
    intro b o k h
    rcases took_ref h with ⟨rfl, h1⟩ | ⟨ts, s1, h1, rfl⟩
    · rcases took_mid h1 with ⟨_, h2⟩ | ⟨_, _, _, h2, _⟩
      · exact ⟨rfl, (value_closes hs hc h2).2⟩
      · have := (value_closes hs hc h2).1; cases this
    · rcases took_mid h1 with ⟨hf, h2⟩ | ⟨_, _, _, h2, _⟩
      · cases hf
      · have := (value_closes hs hc h2).1; cases this
  rcases took_ref h with ⟨rfl, h1⟩ | ⟨ts, s1, h1, rfl⟩
  · rcases took_elems h1 with ⟨_, h2⟩ | ⟨_, _, _, _, _, h2, _⟩
    · exact ⟨rfl, (kv h2).2⟩
    · have := (kv h2).1; cases this
  · rcases took_elems h1 with ⟨hf, h2⟩ | ⟨_, _, _, _, _, h2, _⟩
    · cases hf
    · have := (kv h2).1; cases this

theorem kvs_dead {s u : Str} {c : Char} (hs : skipWs s = c :: u) (hc : isIdStart c = false) {o : Out} {k : Nat}
    (h : Took newGrammar b (.ref .kvs) s o k) : o = .fail ∧ k ≤ 60 := by
  have kv : ∀ {b : Bool} {o : Out} {k : Nat}, Took newGrammar b (.ref .kv) s o k → o = .fail ∧ k ≤ 60 := by
    intro b o k h
    have hid : ∀ {b : Bool} {o : Out} {k : Nat}, Took newGrammar b (.ref .anId) s o k → k = 1 ∧ o = .fail := by
      intro b o k h
      obtain ⟨hk, ⟨e, _⟩ | ⟨d, x, s', _, e, hd, _⟩⟩ := took_id h
      · exact ⟨hk, e⟩
      · rw [hs] at e; cases e; rw [hc] at hd; cases hd
    rcases took_ref h with ⟨rfl, h1⟩ | ⟨ts, s1, h1, rfl⟩
    · rcases took_mid h1 with ⟨_, h2⟩ | ⟨_, _, _, h2, _⟩
      · exact ⟨rfl, by have := (hid h2).1; omega⟩
      · have := (hid h2).2; cases this
    · rcases took_mid h1 with ⟨hf, h2⟩ | ⟨_, _, _, h2, _⟩
      · cases hf
      · have := (hid h2).2; cases this
  rcases took_ref h with ⟨rfl, h1⟩ | ⟨ts, s1, h1, rfl⟩
  · rcases took_elems h1 with ⟨_, h2⟩ | ⟨_, _, _, _, _, h2, _⟩
    · exact ⟨rfl, (kv h2).2⟩
    · have := (kv h2).1; cases this
  · rcases took_elems h1 with ⟨hf, h2⟩ | ⟨_, _, _, _, _, h2, _⟩
    · cases hf
    · have := (kv h2).1; cases this

theorem win_dictkv {L : Nat} (hV : ItemWin (.ref .value) L) : ItemWin (.ref .dictkv) L := by
  intro s hs b ts s' k h
  rcases took_ref h with ⟨hf, _⟩ | ⟨us, s1, h1, e⟩
  · cases hf
  · cases e
    rcases took_mid h1 with ⟨hf, _⟩ | ⟨t1, s1, k1, h2, ⟨_, hf, _⟩ | ⟨s2, k2, o2, e, h3, rfl, ⟨_, hf⟩ | ⟨vs, s3, rfl, e'⟩⟩⟩
    · cases hf
    · cases hf
    · cases hf
    · cases e'
      have hu := h2.used
      have hl := skipWs_len e
      obtain ⟨⟨t, rfl⟩, hk1, hg1⟩ := hV s hs _ _ _ _ h2
      obtain ⟨⟨v, rfl⟩, hk2, hg2⟩ := hV s2 (by omega) _ _ _ _ h3
      have he : ruleResult .dictkv (newGrammar .dictkv) ([t] ++ tok c!":" :: [v]) = [.node .dictkv [t, tok c!":", v]] := by
        simp [ruleResult, newGrammar, seq, Peg.isMatch]
      rw [he]
      refine ⟨⟨_, rfl⟩, ?_, loadok_node (by decide) (loadok_append (ts := [t]) hg1 (loadok_append (ts := [tok c!":"]) (loadok_flat (nodict_term _ _ _)) hg2))⟩
      rw [loadL_single, load_node (by decide)]
      simp only [loadL, tok, load, List.length_cons, List.length_nil] at hk1 hk2 ⊢
      omega

theorem win_kv {L : Nat} (hV : ItemWin (.ref .value) L) : ItemWin (.ref .kv) L := by
  intro s hs b ts s' k h
  rcases took_ref h with ⟨hf, _⟩ | ⟨us, s1, h1, e⟩
  · cases hf
  · cases e
    rcases took_mid h1 with ⟨hf, _⟩ | ⟨t1, s1, k1, h2, ⟨_, hf, _⟩ | ⟨s2, k2, o2, e, h3, rfl, ⟨_, hf⟩ | ⟨vs, s3, rfl, e'⟩⟩⟩
    · cases hf
    · cases hf
    · cases hf
    · cases e'
      have hu := h2.used
      have hl := skipWs_len e
      obtain ⟨hk1, ⟨hf, _⟩ | ⟨c, x, s', e1, _⟩⟩ := took_id h2
      · cases hf
      · cases e1
        obtain ⟨⟨v, rfl⟩, hk2, hg2⟩ := hV s2 (by omega) _ _ _ _ h3
        have he : ruleResult .kv (newGrammar .kv) ([idTree (c :: x)] ++ tok c!"=" :: [v]) = [.node .kv [idTree (c :: x), tok c!"=", v]] := by
          simp [ruleResult, newGrammar, seq, Peg.isMatch]
        rw [he]
        refine ⟨⟨_, rfl⟩, ?_, loadok_node (by decide) (loadok_append (ts := [_]) (loadok_flat (nodict_term _ _ _))
          (loadok_append (ts := [tok c!"="]) (loadok_flat (nodict_term _ _ _)) hg2))⟩
        rw [loadL_single, load_node (by decide)]
        simp only [loadL, tok, idTree, load, List.length_cons, List.length_nil] at hk1 hk2 ⊢
        omega

/-- The parts of a call that was accepted. -/
theorem win_what {L : Nat} (hV : ItemWin (.ref .value) L) {s : Str} (hs : s.length < L + 1) {ts : List Tree} {s' : Str} {k : Nat}
    (h : Took newGrammar b (newGrammar .whatamiId) s (.ok ts s') k) : k + 64 ≤ 96 * loadL ts ∧ LoadOk ts := by
  rcases took_what h with ⟨_, hf⟩ | ⟨pre, s1, k1, o1, hp1, hp2, hl, _, h1, hk, ⟨_, hf⟩ | ⟨us, s2, rfl, e⟩⟩
  · cases hf
  · cases hf
  · cases e
    obtain ⟨vs, rfl, hk1, hg, _⟩ := win_bracket (rl := .kvs) (L := L) rfl (by decide) (win_kv hV) (by decide) ⟨')', [], rfl, by decide⟩
      (fun s0 u k e h => (kvs_dead (c := ')') e (by decide) h).2) (by omega) h1
    refine ⟨?_, loadok_append (loadok_flat hp1) (loadok_append (ts := [tok c!"("]) (loadok_flat (nodict_term _ _ _))
      (loadok_append hg (loadok_flat (nodict_term _ _ _))))⟩
    simp only [loadL_append, loadL, List.cons_append, tok, load, List.length_cons, List.length_nil]
    omega

theorem keyLoads_append (ts us : List Tree) : keyLoads (ts ++ us) = keyLoads ts + keyLoads us := by
  induction ts with
  | nil => simp [keyLoads]
  | cons t ts ih => simp only [List.cons_append, keyLoads, ih]; omega

theorem win_value (L : Nat) : ItemWin (.ref .value) L := by
  induction L with
  | zero => intro s hs; omega
  | succ L ih =>
    intro s hs b ts s' k h
    have hv := took_value h
    have wrapOk : ∀ {op cl : Str} {us : List Tree}, LoadOk us → LoadOk (tok op :: us ++ [tok cl]) := fun hg =>
      loadok_append (ts := [tok _]) (loadok_flat (nodict_term _ _ _)) (loadok_append hg (loadok_flat (nodict_term _ _ _)))
    cases hv with
    | small hk hsm =>
      rcases hsm with hf | ⟨t, s1, e, h1, h2⟩
      · cases hf
      · cases e
        refine ⟨⟨t, rfl⟩, by rw [loadL_single]; omega, loadok_flat ?_⟩
        simp [NoDictL, loadL, leavesL, h1]
    | @bracket r op cl o1 _ k1 _ hr hp h1 hk hw =>
      rcases hw with ⟨_, hf⟩ | ⟨us, s1, rfl, e⟩
      · cases hf
      · cases e
        have hcl : ∃ c, cl = [c] ∧ (c = ')' ∨ c = ']' ∨ c = '}') ∧ c ≠ ',' := by
          rcases hr with ⟨_, _, rfl⟩ | ⟨_, _, rfl⟩ <;> exact ⟨_, rfl, by decide, by decide⟩
        have hop : op.length = 1 := by rcases hr with ⟨_, rfl, _⟩ | ⟨_, rfl, _⟩ <;> rfl
        have hrd : r ≠ .aDict := by rcases hr with ⟨rfl, _⟩ | ⟨rfl, _⟩ <;> decide
        obtain ⟨c, rfl, hc, hcc⟩ := hcl
        obtain ⟨vs, rfl, hk1, hg, _⟩ := win_bracket (rl := .listElements) (L := L) rfl (by decide) ih
          (by intro h0; rw [h0] at hop; simp at hop) ⟨c, [], rfl, hcc⟩
          (fun s0 u k e h => (listElements_dead e hc h).2) (by omega) h1
        refine ⟨⟨_, rfl⟩, ?_, loadok_node (by decide) (loadok_node hrd (wrapOk hg))⟩
        rw [loadL_single, load_node (by decide), loadL_single, load_node hrd]
        simp only [loadL_append, loadL, List.cons_append, tok, load, hop, List.length_cons, List.length_nil]
        omega
    | @fset o1 _ k1 _ hp h1 hk hw =>
      rcases hw with ⟨_, hf⟩ | ⟨us, s1, rfl, e⟩
      · cases hf
      · cases e
        obtain ⟨vs, rfl, hk1, hg⟩ := win_between (rl := .listElements) (L := L) rfl (by decide) ih (by decide) ⟨'}', [')'], rfl, by decide⟩ (by omega) h1
        refine ⟨⟨_, rfl⟩, ?_, loadok_node (by decide) (loadok_node (by decide) (loadok_node (by decide) (wrapOk hg)))⟩
        rw [loadL_single, load_node (by decide), loadL_single, load_node (by decide), loadL_single, load_node (by decide)]
        simp only [loadL_append, loadL, List.cons_append, tok, load, List.length_cons, List.length_nil]
        omega
    | @set us _ k1 _ hp h1 hk =>
      obtain ⟨vs, rfl, hk1, hg⟩ := win_between (rl := .listElements) (L := L) rfl (by decide) ih (by decide) ⟨'}', [], rfl, by decide⟩ (by omega) h1
      refine ⟨⟨_, rfl⟩, ?_, loadok_node (by decide) (loadok_node (by decide) (loadok_node (by decide) (wrapOk hg)))⟩
      rw [loadL_single, load_node (by decide), loadL_single, load_node (by decide), loadL_single, load_node (by decide)]
      simp only [loadL_append, loadL, List.cons_append, tok, load, List.length_cons, List.length_nil]
      omega
    | @dict o2 _ k1 k2 _ hp h1 h2 hk hw =>
      rcases hw with ⟨_, hf⟩ | ⟨us, s1, rfl, e⟩
      · cases hf
      · cases e
        obtain ⟨vs, rfl, hk2, hg, s0, e0, hcase⟩ := win_bracket (rl := .dictElements) (L := L) rfl (by decide) (win_dictkv ih) (by decide) ⟨'}', [], rfl, by decide⟩
          (fun s0 u k e h => (dictElements_dead (c := '}') e (.inr (.inr rfl)) h).2) (by omega) h2
        have hl := skipWs_len e0
        simp only [List.length_cons, List.length_nil] at hl
        -- the attempt to read a set
        have hset : ∃ kE oE, Took newGrammar true (.ref .listElements) s0 oE kE ∧ k1 ≤ kE + 2 := by
          rcases took_between h1 with ⟨hn, _⟩ | ⟨s0', kE, oE, e, hE, hrest⟩
          · exact absurd hp hn
          · rw [e0] at e
            have e' := List.append_cancel_left e
            subst e'
            refine ⟨kE, oE, hE, ?_⟩
            rcases hrest with ⟨_, _, rfl⟩ | ⟨_, _, _, rfl, _⟩ <;> omega
        obtain ⟨kE, oE, hE, hk1⟩ := hset
        have dictLoad : load (.node .aDict (tok c!"{" :: vs ++ [tok c!"}"])) = loadL vs + 2 + keyLoads vs := by
          simp only [load, loadL_append, loadL, List.cons_append, tok, keyLoads, keyLoad, List.length_cons, List.length_nil]
          rw [keyLoads_append]
          simp only [keyLoads, keyLoad]
          omega
        rcases hcase with ⟨rfl, u, eu⟩ | ⟨t, tr, s2, k3, rfl, h3, hk3, hk2'⟩
        · have := (listElements_dead eu (.inr (.inr rfl)) hE).2
          refine ⟨⟨_, rfl⟩, ?_, ?_⟩
          · rw [loadL_single, load_node (by decide), loadL_single, dictLoad]
            simp only [loadL, keyLoads] at hk2 ⊢
            omega
          · refine loadok_node (by decide) (loadok_flat ?_)
            simp only [NoDictL, loadL_single, dictLoad]
            simp [loadL, keyLoads, leavesL, leaves, tok]
        · -- the first item
          rcases took_ref h3 with ⟨hf, _⟩ | ⟨us, s3, h4, e⟩
          · cases hf
          · rcases took_mid h4 with ⟨hf, _⟩ | ⟨t1, s4, k4, h5, ⟨_, hf, _⟩ | ⟨s5, k5, o5, e5, h6, rfl, ⟨_, hf⟩ | ⟨ws, s6, rfl, e'⟩⟩⟩
            · cases hf
            · cases hf
            · cases hf
            · obtain ⟨⟨key, rfl⟩, hk4, hg4⟩ := ih s0 (by omega) _ _ _ _ h5
              have hkey : load key ≤ load t ∧ keyLoads [.node .dictElements (t :: tr)] = load key := by
                cases e'
                simp only [ruleResult, newGrammar, seq, List.foldr, Peg.isMatch, Bool.false_eq_true, if_false, List.cons_append, List.nil_append] at e
                cases e
                exact ⟨by rw [load_node (by decide)]; simp [loadL], by simp [keyLoads, keyLoad, firstLoad, headLoad]⟩
              have hnc : ¬ c!"," <+: skipWs s4 := comma_not (c := ':') e5 (by decide)
              have hkE : kE = k4 + 1 := by
                have list1 : ∀ {o : Out}, Took newGrammar true (newGrammar .listElements) s0 o kE → kE = k4 + 1 := by
                  intro o h
                  rcases took_elems h with ⟨_, h7⟩ | ⟨_, _, k7, k8, o8, h7, rfl, h8, _⟩
                  · have := (h5.det h7).1; cases this
                  · obtain ⟨e7, rfl⟩ := h5.det h7
                    cases e7
                    rcases took_star h8 with ⟨_, h9⟩ | ⟨_, _, h9⟩ | ⟨_, _, _, _, _, h9, _⟩
                    · rcases took_sepItem h9 with ⟨_, _, rfl⟩ | ⟨s9, _, e9, _⟩
                      · rfl
                      · exact absurd ⟨s9, e9.symm⟩ hnc
                    · rcases took_sepItem h9 with ⟨_, hf, _⟩ | ⟨s9, _, e9, _⟩
                      · cases hf
                      · exact absurd ⟨s9, e9.symm⟩ hnc
                    · rcases took_sepItem h9 with ⟨_, hf, _⟩ | ⟨s9, _, e9, _⟩
                      · cases hf
                      · exact absurd ⟨s9, e9.symm⟩ hnc
                rcases took_ref hE with ⟨_, h⟩ | ⟨_, _, h, _⟩
                · exact list1 h
                · exact list1 h
              rw [loadL_single] at hk4
              refine ⟨⟨_, rfl⟩, ?_, loadok_node (by decide) ?_⟩
              · rw [loadL_single, load_node (by decide), loadL_single, dictLoad, hkey.2]
                omega
              · unfold LoadOk at hg ⊢
                have hle : load key ≤ loadL [.node .dictElements (t :: tr)] := by
                  rw [loadL_single, load_node (by decide)]; simp only [loadL]; omega
                rw [loadL_single, dictLoad, hkey.2]
                simp only [leavesL, leaves, tok, List.cons_append, List.nil_append, List.append_nil] at hg ⊢
                generalize hx : leaves t ++ leavesL tr = x at hg ⊢
                have hb : braces ('{' :: (x ++ ['}'])) = braces x + 1 := by
                  simp [braces, List.count_append, List.count_cons]
                rw [hb]
                simp only [List.length_cons, List.length_append, List.length_nil]
                have hpow : 2 ^ (braces x + 1) = 2 * 2 ^ braces x := by rw [Nat.pow_succ]; omega
                rw [hpow]
                have h1 : 1 ≤ 2 ^ braces x := Nat.pow_pos (by decide)
                generalize 2 ^ braces x = p at hg h1 ⊢
                have : (x.length + (0 + 1) + 1) * (2 * p) = 2 * (x.length * p) + 4 * p := by
                  rw [Nat.add_mul, Nat.add_mul, Nat.mul_left_comm]; omega
                omega
    | @what o1 _ k1 _ hid h1 hk hw =>
      rcases hw with ⟨_, hf⟩ | ⟨us, s1, rfl, e⟩
      · cases hf
      · cases e
        obtain ⟨hk1, hg⟩ := win_what ih (by omega) h1
        refine ⟨⟨_, rfl⟩, ?_, loadok_node (by decide) (loadok_node (by decide) hg)⟩
        rw [loadL_single, load_node (by decide), loadL_single, load_node (by decide)]
        omega

end Whatami
