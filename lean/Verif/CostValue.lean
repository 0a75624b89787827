import Verif.CostLemmas

/-
The ways in which a value can be parsed, with their cost.
Definitions here are vocabulary for statements and proofs: the code they are about is cited in the model modules.
-/
namespace Whatami

variable {b : Bool}

mutual
/-- The length of what was matched, where the first key of every dict counts twice: it is read as an element of a set first. -/
def load : Tree → Nat
  | .term _ _ t => t.length
  | .node .aDict ts => loadL ts + keyLoads ts
  | .node _ ts => loadL ts
termination_by structural t => t
/-- The same for several trees. -/
def loadL : List Tree → Nat
  | [] => 0
  | t :: ts => load t + loadL ts
termination_by structural ts => ts
/-- The load of the first key in the items of a dict. -/
def keyLoad : Tree → Nat
  | .node .dictElements ts => firstLoad ts
  | .node .dictkv ts => headLoad ts
  | _ => 0
termination_by structural t => t
/-- The load of the first key in the children of a dict. -/
def keyLoads : List Tree → Nat
  | [] => 0
  | t :: ts => keyLoad t + keyLoads ts
termination_by structural ts => ts
/-- The load of the key in the first item. -/
def firstLoad : List Tree → Nat
  | [] => 0
  | t :: _ => keyLoad t
termination_by structural ts => ts
/-- The load of the first of several trees. -/
def headLoad : List Tree → Nat
  | [] => 0
  | t :: _ => load t
termination_by structural ts => ts
end

theorem loadL_append (ts us : List Tree) : loadL (ts ++ us) = loadL ts + loadL us := by
  induction ts with
  | nil => simp [loadL]
  | cons t ts ih => simp only [List.cons_append, loadL, ih]; omega

/-- The outcome of something that is given a node. -/
def Wraps (f : List Tree → Tree) (o1 o : Out) : Prop := (o1 = .fail ∧ o = .fail) ∨ ∃ us s', o1 = .ok us s' ∧ o = .ok [f us] s'

/-- A value without elements, or no value. -/
def Small (o : Out) : Prop := o = .fail ∨ ∃ t s', o = .ok [t] s' ∧ load t = (leaves t).length ∧ 1 ≤ load t

theorem small_not_nil {o : Out} {s' : Str} (h : Small o) : o ≠ .ok [] s' := by
  rintro rfl
  rcases h with h | ⟨t, s1, h, _⟩ <;> cases h

theorem took_term_rule {r : Rule} {t s : Str} {o : Out} {k : Nat} (hr : newGrammar r = .str t) (ht : t ≠ [])
    (h : Took newGrammar b (.ref r) s o k) : k = 1 ∧ Small o := by
  rcases took_ref h with ⟨rfl, hb⟩ | ⟨ts, s', hb, rfl⟩ <;> (clear h; rename Took _ _ _ _ _ _ => h)
  · rw [hr] at h; exact ⟨(took_str h).1, .inl rfl⟩
  · rw [hr] at h
    obtain ⟨hk, h | ⟨u, _, h⟩⟩ := took_str h
    · cases h.1
    · cases h
      refine ⟨hk, .inr ⟨.term (some r) b t, _, by simp only [ruleResult, hr, Peg.isMatch, if_true, List.map_cons, List.map_nil]; rfl, ?_, ?_⟩⟩
      · simp [load, leaves]
      · simp only [load]; exact List.length_pos_iff.2 ht

theorem took_none {s : Str} {o : Out} {k : Nat} (h : Took newGrammar b (.ref .aNone) s o k) : k = 1 ∧ Small o :=
  took_term_rule rfl (by decide) h

theorem small_node {r : Rule} {t : Tree} (hr : r ≠ .aDict) (h1 : load t = (leaves t).length) (h2 : 1 ≤ load t) :
    load (.node r [t]) = (leaves (.node r [t])).length ∧ 1 ≤ load (.node r [t]) := by
  have : load (.node r [t]) = load t := by cases r <;> simp_all [load, loadL]
  simp [this, leaves, leavesL, h1]
  omega

theorem took_bool {s : Str} {o : Out} {k : Nat} (h : Took newGrammar b (.ref .aBool) s o k) : k ≤ 2 ∧ Small o := by
  have body : ∀ {o : Out}, Took newGrammar b (newGrammar .aBool) s o k → k ≤ 2 ∧ Small o := by
    intro o h
    simp only [newGrammar, choice, List.foldr] at h
    rcases took_alt h with ⟨t, ts, s', rfl, h⟩ | ⟨o1, k1, k2, ho, h1, h2, rfl⟩
    · have := took_term_rule rfl (by decide) h; exact ⟨by omega, this.2⟩
    · have e1 := took_term_rule rfl (by decide) h1
      rcases took_alt h2 with ⟨t, ts, s', rfl, h⟩ | ⟨o3, k3, k4, ho, h3, h4, rfl⟩
      · have := took_term_rule rfl (by decide) h; exact ⟨by omega, this.2⟩
      · have e3 := took_term_rule rfl (by decide) h3
        have e4 := took_never h4
        exact ⟨by omega, .inl e4.2⟩
  rcases took_ref h with ⟨rfl, hb⟩ | ⟨ts, s', hb, rfl⟩ <;> (clear h; rename Took _ _ _ _ _ _ => h)
  · exact body h
  · obtain ⟨hk, h | ⟨t, s1, h, h1, h2⟩⟩ := body h
    · cases h
    · cases h
      have := small_node (r := .aBool) (by decide) h1 h2
      exact ⟨hk, .inr ⟨_, s', by simp [ruleResult, newGrammar, choice, Peg.isMatch], this⟩⟩

theorem took_str_small {t s : Str} {o : Out} {k : Nat} (ht : t ≠ []) (h : Took newGrammar b (.str t) s o k) : k = 1 ∧ Small o := by
  obtain ⟨hk, h | ⟨u, _, h⟩⟩ := took_str h
  · exact ⟨hk, .inl h.1⟩
  · exact ⟨hk, .inr ⟨_, _, h, by simp [load, leaves], by simp only [load]; exact List.length_pos_iff.2 ht⟩⟩

theorem took_rx_small {r : Rx} {s : Str} {o : Out} {k : Nat} (hr : nullable (.rx r) = false) (h : Took newGrammar b (.rx r) s o k) :
    k = 1 ∧ Small o := by
  obtain ⟨hk, h | ⟨t, u, hs, h⟩⟩ := took_rx h
  · exact ⟨hk, .inl h.1⟩
  · have hne := scan_nonempty hs hr
    rw [if_neg hne] at h
    exact ⟨hk, .inr ⟨_, _, h, by simp [load, leaves], by simp only [load]; exact List.length_pos_iff.2 hne⟩⟩

theorem small_choice {es : List Peg} {s : Str} {o : Out} {k : Nat} (he : ∀ e ∈ es, ∀ o k, Took newGrammar false e s o k → k ≤ 1 ∧ Small o)
    (h : Took newGrammar b (choice es) s o k) : k ≤ es.length ∧ Small o := by
  induction es generalizing b k with
  | nil =>
    have := took_never h
    exact ⟨by omega, .inl this.2⟩
  | cons e es ih =>
    rcases took_alt h with ⟨t, ts, s', rfl, h⟩ | ⟨o1, k1, k2, ho, h1, h2, rfl⟩
    · have := he e (by simp) _ _ h
      exact ⟨by simp only [List.length_cons]; omega, this.2⟩
    · have e1 := he e (by simp) _ _ h1
      have e2 := ih (fun e h => he e (by simp [h])) h2
      exact ⟨by simp only [List.length_cons]; omega, e2.2⟩

theorem small_rule {r : Rule} {s : Str} {o : Out} {k c : Nat} (hr : (newGrammar r).isMatch = false) (hd : r ≠ .aDict)
    (body : ∀ o, Took newGrammar b (newGrammar r) s o k → k ≤ c ∧ Small o) (h : Took newGrammar b (.ref r) s o k) : k ≤ c ∧ Small o := by
  rcases took_ref h with ⟨rfl, hb⟩ | ⟨ts, s', hb, rfl⟩ <;> (clear h; rename Took _ _ _ _ _ _ => h)
  · exact body _ h
  · obtain ⟨hk, h | ⟨t, s1, h, h1, h2⟩⟩ := body _ h
    · cases h
    · cases h
      exact ⟨hk, .inr ⟨_, s', by simp [ruleResult, hr], small_node hd h1 h2⟩⟩

theorem took_num {s : Str} {o : Out} {k : Nat} (h : Took newGrammar b (.ref .aNumber) s o k) : k ≤ 4 ∧ Small o := by
  refine small_rule rfl (by decide) (fun o h => ?_) h
  refine small_choice (es := [.rx .number, .str c!"-inf", .str c!"inf", .str c!"nan"]) ?_ h
  intro e he o k h
  simp only [List.mem_cons, List.not_mem_nil, or_false] at he
  rcases he with rfl | rfl | rfl | rfl
  · have := took_rx_small rfl h; exact ⟨by omega, this.2⟩
  all_goals exact (fun this => ⟨Nat.le_of_eq this.1, this.2⟩) (took_str_small (by decide) h)

theorem took_emptySet {s : Str} {o : Out} {k : Nat} (h : Took newGrammar b (.ref .anEmptySet) s o k) : k ≤ 2 ∧ Small o := by
  refine small_rule rfl (by decide) (fun o h => ?_) h
  refine small_choice (es := [.str c!"set()", .str c!"frozenset()"]) ?_ h
  intro e he o k h
  simp only [List.mem_cons, List.not_mem_nil, or_false] at he
  rcases he with rfl | rfl
  all_goals exact (fun this => ⟨Nat.le_of_eq this.1, this.2⟩) (took_str_small (by decide) h)

/-- Trees without dicts. -/
def NoDictL (ts : List Tree) : Prop := loadL ts = (leavesL ts).length

theorem nodict_append {ts us : List Tree} (h1 : NoDictL ts) (h2 : NoDictL us) : NoDictL (ts ++ us) := by
  simp only [NoDictL, loadL_append, leavesL_append, List.length_append] at *; omega

theorem nodict_node {r : Rule} {ts : List Tree} (hr : r ≠ .aDict) (h : NoDictL ts) :
    load (.node r ts) = (leaves (.node r ts)).length := by
  have : load (.node r ts) = loadL ts := by cases r <;> simp_all [load]
  rw [this, leaves]; exact h

theorem took_string {s : Str} {o : Out} {k : Nat} (h : Took newGrammar b (.ref .aString) s o k) : k ≤ 3 ∧ Small o := by
  rcases took_ref h with ⟨rfl, hb⟩ | ⟨ts, s', hb, rfl⟩ <;> (clear h; rename Took _ _ _ _ _ _ => h)
  · refine ⟨?_, .inl rfl⟩
    simp only [newGrammar, seq, List.foldr] at h
    rcases took_cat h with ⟨_, h⟩ | ⟨ts, s1, k1, k2, h1, rfl, h2⟩
    · have := (took_str h).1; omega
    · have e1 := (took_str h1).1
      rcases h2 with ⟨_, h2⟩ | ⟨us, s2, _, hc⟩
      · rcases took_cat h2 with ⟨_, h⟩ | ⟨ts, s3, k3, k4, h3, rfl, h4⟩
        · have := (took_rx h).1; omega
        · have e3 := (took_rx h3).1
          rcases h4 with ⟨_, h4⟩ | ⟨us, s2, _, hc⟩
          · rcases took_cat h4 with ⟨_, h⟩ | ⟨ts, s3, k3, k4, h5, rfl, h6⟩
            · have := (took_str h).1; omega
            · have e5 := (took_str h5).1
              rcases h6 with ⟨_, h6⟩ | ⟨us, s2, _, hc⟩
              · have := (took_emp h6).2; cases this
              · cases hc
          · cases hc
      · cases hc
  · simp only [newGrammar, seq, List.foldr] at h
    rcases took_cat h with ⟨hc, h⟩ | ⟨t1, s1, k1, k2, h1, rfl, ⟨hc, h2⟩ | ⟨us, s2, h2, e⟩⟩
    · cases hc
    · cases hc
    · obtain ⟨e1, h1 | ⟨u, _, h1⟩⟩ := took_str h1
      · cases h1.1
      · cases h1
        rcases took_cat h2 with ⟨hc, h⟩ | ⟨t3, s3, k3, k4, h3, rfl, ⟨hc, h4⟩ | ⟨vs, s4, h4, e'⟩⟩
        · cases hc
        · cases hc
        · obtain ⟨e3, h3 | ⟨t, u', _, h3⟩⟩ := took_rx h3
          · cases h3.1
          · cases h3
            rcases took_cat h4 with ⟨hc, h⟩ | ⟨t5, s5, k5, k6, h5, rfl, ⟨hc, h6⟩ | ⟨ws, s6, h6, e''⟩⟩
            · cases hc
            · cases hc
            · obtain ⟨e5, h5 | ⟨u'', _, h5⟩⟩ := took_str h5
              · cases h5.1
              · cases h5
                obtain ⟨e6, h6⟩ := took_emp h6
                cases h6
                cases e''
                cases e'
                cases e
                refine ⟨by omega, .inr ⟨_, _, by simp only [ruleResult, newGrammar, seq, List.foldr, Peg.isMatch]; rfl, ?_, ?_⟩⟩
                · refine nodict_node (by decide) ?_
                  simp only [NoDictL, List.cons_append, List.nil_append, loadL, leavesL, load, leaves, loadL_append, leavesL_append,
                    List.length_append]
                  split <;> simp [loadL, leavesL, load, leaves] <;> omega
                · simp only [load, List.cons_append, loadL]
                  exact Nat.le_trans (by decide : 1 ≤ (c!"'").length) (Nat.le_add_right _ _)

theorem took_class {s : Str} {o : Out} {k : Nat} (h : Took newGrammar b (.ref .aClass) s o k) : k ≤ 5 ∧ Small o := by
  rcases took_ref h with ⟨rfl, hb⟩ | ⟨ts, s', hb, rfl⟩ <;> (clear h; rename Took _ _ _ _ _ _ => h)
  · refine ⟨?_, .inl rfl⟩
    simp only [newGrammar, seq, List.foldr] at h
    rcases took_cat h with ⟨_, h⟩ | ⟨ts, s1, k1, k2, h1, rfl, h2⟩
    · have := (took_str h).1; omega
    · have e1 := (took_str h1).1
      rcases h2 with ⟨_, h2⟩ | ⟨us, s2, _, hc⟩
      · rcases took_cat h2 with ⟨_, h⟩ | ⟨ts, s3, k3, k4, h3, rfl, h4⟩
        · have := (took_string h).1; omega
        · have e3 := (took_string h3).1
          rcases h4 with ⟨_, h4⟩ | ⟨us, s2, _, hc⟩
          · rcases took_cat h4 with ⟨_, h⟩ | ⟨ts, s3, k3, k4, h5, rfl, h6⟩
            · have := (took_str h).1; omega
            · have e5 := (took_str h5).1
              rcases h6 with ⟨_, h6⟩ | ⟨us, s2, _, hc⟩
              · have := (took_emp h6).2; cases this
              · cases hc
          · cases hc
      · cases hc
  · simp only [newGrammar, seq, List.foldr] at h
    rcases took_cat h with ⟨hc, h⟩ | ⟨t1, s1, k1, k2, h1, rfl, ⟨hc, h2⟩ | ⟨us, s2, h2, e⟩⟩
    · cases hc
    · cases hc
    · obtain ⟨e1, h1 | ⟨u, _, h1⟩⟩ := took_str h1
      · cases h1.1
      · cases h1
        rcases took_cat h2 with ⟨hc, h⟩ | ⟨t3, s3, k3, k4, h3, rfl, ⟨hc, h4⟩ | ⟨vs, s4, h4, e'⟩⟩
        · cases hc
        · cases hc
        · obtain ⟨e3, h3 | ⟨t, u', h3, hl, _⟩⟩ := took_string h3
          · cases h3
          · cases h3
            rcases took_cat h4 with ⟨hc, h⟩ | ⟨t5, s5, k5, k6, h5, rfl, ⟨hc, h6⟩ | ⟨ws, s6, h6, e''⟩⟩
            · cases hc
            · cases hc
            · obtain ⟨e5, h5 | ⟨u'', _, h5⟩⟩ := took_str h5
              · cases h5.1
              · cases h5
                obtain ⟨e6, h6⟩ := took_emp h6
                cases h6
                cases e''
                cases e'
                cases e
                refine ⟨by omega, .inr ⟨_, _, by simp only [ruleResult, newGrammar, seq, List.foldr, Peg.isMatch]; rfl, ?_, ?_⟩⟩
                · refine nodict_node (by decide) ?_
                  simp [NoDictL, loadL, leavesL, load, leaves, hl]
                  omega
                · simp only [load, List.cons_append, loadL]
                  exact Nat.le_trans (by decide : 1 ≤ (c!"<class ").length) (Nat.le_add_right _ _)

end Whatami
