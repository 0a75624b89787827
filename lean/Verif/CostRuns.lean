import Verif.CostAlts

/-
The ways in which a value can be parsed, with their cost.
Definitions here are vocabulary for statements and proofs: the code they are about is cited in the model modules.
-/
namespace Whatami

variable {b : Bool}

/-- How a value is parsed: what remains to be counted is one attempt, or two for a dict (as a set and as a dict). -/
inductive ValueRun (s : Str) : Out → Nat → Prop
  | small {o : Out} {k : Nat} : k ≤ 60 → Small o → ValueRun s o k
  | bracket {r : Rule} {op cl : Str} {o1 o : Out} {k1 k : Nat} :
      ((r = .aTuple ∧ op = c!"(" ∧ cl = c!")") ∨ (r = .aList ∧ op = c!"[" ∧ cl = c!"]")) → op <+: skipWs s →
      Took newGrammar false (seq [.str op, .opt (.ref .listElements), .str cl]) s o1 k1 → k ≤ k1 + 60 →
      Wraps (fun us => .node .value [.node r us]) o1 o → ValueRun s o k
  | fset {o1 o : Out} {k1 k : Nat} : c!"frozenset({" <+: skipWs s →
      Took newGrammar false (seq [.str c!"frozenset({", .ref .listElements, .str c!"})"]) s o1 k1 → k ≤ k1 + 60 →
      Wraps (fun us => .node .value [.node .aSet [.node .aNonEmptySet us]]) o1 o → ValueRun s o k
  | set {us : List Tree} {s' : Str} {k1 k : Nat} : c!"{" <+: skipWs s →
      Took newGrammar false (seq [.str c!"{", .ref .listElements, .str c!"}"]) s (.ok us s') k1 → k ≤ k1 + 60 →
      ValueRun s (.ok [.node .value [.node .aSet [.node .aNonEmptySet us]]] s') k
  | dict {o2 o : Out} {k1 k2 k : Nat} : c!"{" <+: skipWs s →
      Took newGrammar false (seq [.str c!"{", .ref .listElements, .str c!"}"]) s .fail k1 →
      Took newGrammar false (seq [.str c!"{", .opt (.ref .dictElements), .str c!"}"]) s o2 k2 → k ≤ k1 + k2 + 60 →
      Wraps (fun us => .node .value [.node .aDict us]) o2 o → ValueRun s o k
  | what {o1 o : Out} {k1 k : Nat} : (∃ c u, skipWs s = c :: u ∧ isIdStart c = true) →
      Took newGrammar false (newGrammar .whatamiId) s o1 k1 → k ≤ k1 + 60 →
      Wraps (fun us => .node .value [.node .whatamiId us]) o1 o → ValueRun s o k

theorem choice_dead {es : List Peg} {s : Str} {o : Out} {k : Nat}
    (he : ∀ e ∈ es, ∀ o k, Took newGrammar false e s o k → o = .fail ∧ k ≤ 8) (h : Took newGrammar b (choice es) s o k) :
    o = .fail ∧ k ≤ 8 * es.length := by
  induction es generalizing b k with
  | nil => have := took_never h; exact ⟨this.2, by omega⟩
  | cons e es ih =>
    rcases took_alt h with ⟨t, ts, s', rfl, h⟩ | ⟨o1, k1, k2, ho, h1, h2, rfl⟩
    · have := (he e (by simp) _ _ h).1; cases this
    · have e1 := he e (by simp) _ _ h1
      have e2 := ih (fun e h => he e (by simp [h])) h2
      exact ⟨e2.1, by simp only [List.length_cons]; omega⟩

/-- The first alternative is the only one that may succeed. -/
theorem choice_live {e : Peg} {es : List Peg} {s : Str} {o : Out} {k : Nat} (hn : ∀ s' k, ¬ Took newGrammar false e s (.ok [] s') k)
    (he : ∀ e ∈ es, ∀ o k, Took newGrammar false e s o k → o = .fail ∧ k ≤ 8) (h : Took newGrammar b (choice (e :: es)) s o k) :
    ∃ k1, Took newGrammar false e s o k1 ∧ k ≤ k1 + 8 * es.length := by
  rcases took_alt h with ⟨t, ts, s', rfl, h⟩ | ⟨o1, k1, k2, ho, h1, h2, rfl⟩
  · exact ⟨k, h, by omega⟩
  · obtain ⟨rfl, hk⟩ := choice_dead he h2
    rcases ho with rfl | ⟨s', rfl⟩
    · exact ⟨k1, h1, by omega⟩
    · exact absurd h1 (hn _ _)

theorem rule_bracket {r : Rule} {op cl : Str} {E : Peg} {s : Str} {o : Out} {k : Nat} (hr : newGrammar r = seq [.str op, E, .str cl])
    (h : Took newGrammar b (.ref r) s o k) : ∃ o1, Took newGrammar b (seq [.str op, E, .str cl]) s o1 k ∧ Wraps (.node r) o1 o := by
  rw [← hr]
  exact took_rule (by rw [hr]; rfl) (fun ts s' h => by rw [hr] at h; exact between_ne h) h

theorem wraps_wraps {f g : List Tree → Tree} {o1 o2 o3 : Out} (h1 : Wraps f o1 o2) (h2 : Wraps g o2 o3) : Wraps (fun us => g [f us]) o1 o3 := by
  rcases h1 with ⟨rfl, rfl⟩ | ⟨us, s', rfl, rfl⟩
  · rcases h2 with ⟨_, rfl⟩ | ⟨_, _, hc, _⟩
    · exact .inl ⟨rfl, rfl⟩
    · cases hc
  · rcases h2 with ⟨hc, _⟩ | ⟨us', s1, e, rfl⟩
    · cases hc
    · cases e; exact .inr ⟨us, s', rfl, rfl⟩

theorem valueRun_more {s : Str} {o : Out} {k j : Nat} (hk : k ≤ j) (h : ValueRun s o j) : ValueRun s o k := by
  cases h with
  | small h1 h2 => exact .small (by omega) h2
  | bracket h1 h2 h3 h4 h5 => exact .bracket h1 h2 h3 (by omega) h5
  | fset h1 h2 h3 h4 => exact .fset h1 h2 (by omega) h4
  | set h1 h2 h3 => exact .set h1 h2 (by omega)
  | dict h1 h2 h3 h4 h5 => exact .dict h1 h2 h3 (by omega) h5
  | what h1 h2 h3 h4 => exact .what h1 h2 (by omega) h4

/-- The containers. -/
def containers : List Peg := [.ref .aTuple, .ref .aList, .ref .aSet, .ref .aDict, .ref .aClass, .ref .whatamiId]

theorem not_prefix_head {c : Char} {t u s : Str} {d : Char} (hs : skipWs s = d :: u) (h : c ≠ d) : ¬ (c :: t) <+: skipWs s := by
  rw [hs]; exact not_prefix h

/-- How containers are parsed; the node of the value is still missing. -/
theorem took_containers {s : Str} {o : Out} {k : Nat} (h : Took newGrammar b (choice containers) s o k) :
    ∀ o', Wraps (.node .value) o o' → ValueRun s o' (k + 12) := by
  intro o' hw
  have tupleD := fun (hs : ¬ c!"(" <+: skipWs s) (o : Out) (k : Nat) (h : Took newGrammar false (.ref .aTuple) s o k) => bracket_dead rfl h hs
  have listD := fun (hs : ¬ c!"[" <+: skipWs s) (o : Out) (k : Nat) (h : Took newGrammar false (.ref .aList) s o k) => bracket_dead rfl h hs
  have dictD := fun (hs : ¬ c!"{" <+: skipWs s) (o : Out) (k : Nat) (h : Took newGrammar false (.ref .aDict) s o k) => bracket_dead rfl h hs
  have classD := fun (hs : ¬ c!"<class " <+: skipWs s) (o : Out) (k : Nat) (h : Took newGrammar false (.ref .aClass) s o k) => bracket_dead rfl h hs
  have le8 : ∀ {o : Out} {k : Nat}, o = .fail ∧ k = 1 → o = .fail ∧ k ≤ 8 := fun h => ⟨h.1, by omega⟩
  have le8' : ∀ {o : Out} {k : Nat}, o = .fail ∧ k ≤ 2 → o = .fail ∧ k ≤ 8 := fun h => ⟨h.1, by omega⟩
  -- an empty set is not ruled out by its first character
  have setD : ∀ {d : Char} {u : Str}, skipWs s = d :: u → d ≠ '{' → d ≠ 'f' → d ≠ 's' → ∀ (o : Out) (k : Nat),
      Took newGrammar false (.ref .aSet) s o k → o = .fail ∧ k ≤ 8 := by
    intro d u hs h1 h2 h3 o k h
    have hf : Ev newGrammar false (.ref .aSet) s .fail := set_fail (not_prefix_head hs h3.symm) (not_prefix_head hs h2.symm)
      (not_prefix_head hs h1.symm) (not_prefix_head hs h2.symm)
    obtain rfl := h.ev.det hf
    rcases took_set h with ⟨hk, _⟩ | ⟨op, cl, o1, k1, hop, hp, _⟩
    · exact ⟨rfl, by omega⟩
    · exfalso
      rcases hop with ⟨rfl, _⟩ | ⟨rfl, _⟩
      · exact not_prefix_head hs h1.symm hp
      · exact not_prefix_head hs h2.symm hp
  -- the first character decides
  cases hs : skipWs s with
  | nil =>
    have np : ∀ {c : Char} {t : Str}, ¬ (c :: t) <+: skipWs s := by
      intro c t h; rw [hs] at h; exact absurd (List.prefix_nil.1 h) (by simp)
    have := choice_dead (es := containers) (fun e he o k h => by
      simp only [containers, List.mem_cons, List.not_mem_nil, or_false] at he
      rcases he with rfl | rfl | rfl | rfl | rfl | rfl
      · exact le8 (tupleD np o k h)
      · exact le8 (listD np o k h)
      · rcases took_set h with ⟨hk, ⟨rfl, _⟩ | ⟨t, s', rfl, _⟩⟩ | ⟨op, cl, o1, k1, hop, hp, _⟩
        · exact ⟨rfl, by omega⟩
        · exfalso
          have hf : Ev newGrammar false (.ref .aSet) s .fail := set_fail np np np np
          have := h.ev.det hf
          cases this
        · rcases hop with ⟨rfl, _⟩ | ⟨rfl, _⟩ <;> exact absurd hp np
      · exact le8 (dictD np o k h)
      · exact le8 (classD np o k h)
      · exact le8' (what_dead (fun c u e => by rw [hs] at e; cases e) h)) h
    obtain ⟨rfl, hk⟩ := this
    simp only [containers, List.length_cons, List.length_nil] at hk
    refine .small (by omega) (.inl ?_)
    rcases hw with ⟨_, e⟩ | ⟨_, _, hc, _⟩
    · exact e
    · cases hc
  | cons d u =>
    have np : ∀ {c : Char} {t : Str}, c ≠ d → ¬ (c :: t) <+: skipWs s := fun h => not_prefix_head hs h
    have whatD : isIdStart d = false → ∀ (o : Out) (k : Nat), Took newGrammar false (.ref .whatamiId) s o k → o = .fail ∧ k ≤ 8 :=
      fun hd o k h => le8' (what_dead (fun c u e => by rw [hs] at e; cases e; exact hd) h)
    by_cases h1 : d = '('
    · subst h1
      obtain ⟨k1, h2, hk⟩ := choice_live (e := .ref .aTuple)
        (fun s' k h => by obtain ⟨_, _, hw⟩ := rule_bracket rfl h; exact wraps_not_nil hw rfl)
        (fun e he o k h => by
          simp only [List.mem_cons, List.not_mem_nil, or_false] at he
          rcases he with rfl | rfl | rfl | rfl | rfl
          · exact le8 (listD (np (by decide)) o k h)
          · exact setD hs (by decide) (by decide) (by decide) o k h
          · exact le8 (dictD (np (by decide)) o k h)
          · exact le8 (classD (np (by decide)) o k h)
          · exact whatD (by decide) o k h) h
      obtain ⟨o1, h3, hw1⟩ := rule_bracket rfl h2
      simp only [List.length_cons, List.length_nil] at hk
      exact .bracket (r := .aTuple) (.inl ⟨rfl, rfl, rfl⟩) (by rw [hs]; exact ⟨u, rfl⟩) h3 (by omega) (wraps_wraps hw1 hw)
    -- not a tuple
    rcases took_alt h with ⟨t, ts, s', rfl, h⟩ | ⟨ot, kt, k2, _, ht, h2, rfl⟩
    · have := (tupleD (np (Ne.symm h1)) _ _ h).1; cases this
    have et := (tupleD (np (Ne.symm h1)) _ _ ht).2
    by_cases h3 : d = '['
    · subst h3
      obtain ⟨k1, h4, hk⟩ := choice_live (e := .ref .aList) (es := [.ref .aSet, .ref .aDict, .ref .aClass, .ref .whatamiId])
        (fun s' k h => by obtain ⟨_, _, hw⟩ := rule_bracket rfl h; exact wraps_not_nil hw rfl)
        (fun e he o k h => by
          simp only [List.mem_cons, List.not_mem_nil, or_false] at he
          rcases he with rfl | rfl | rfl | rfl
          · exact setD hs (by decide) (by decide) (by decide) o k h
          · exact le8 (dictD (np (by decide)) o k h)
          · exact le8 (classD (np (by decide)) o k h)
          · exact whatD (by decide) o k h) h2
      obtain ⟨o1, h5, hw1⟩ := rule_bracket rfl h4
      simp only [List.length_cons, List.length_nil] at hk
      exact .bracket (r := .aList) (.inr ⟨rfl, rfl, rfl⟩) (by rw [hs]; exact ⟨u, rfl⟩) h5 (by omega) (wraps_wraps hw1 hw)
    -- not a list
    rcases took_alt h2 with ⟨t, ts, s', rfl, h⟩ | ⟨ol, kl, k3, _, hl, h4, rfl⟩
    · have := (listD (np (Ne.symm h3)) _ _ h).1; cases this
    have el := (listD (np (Ne.symm h3)) _ _ hl).2
    rcases took_alt h4 with ⟨t, ts, s', rfl, h5⟩ | ⟨os, ks, k4, hos, h5, h6, rfl⟩
    · -- a set
      rcases took_set h5 with ⟨hk, ⟨hc, _⟩ | ⟨t', s1, e, hf⟩⟩ | ⟨op, cl, o1, k1, hop, hp, h6, hk, hw1⟩
      · cases hc
      · cases e
        refine .small (by omega) (.inr ?_)
        rcases hw with ⟨hc, _⟩ | ⟨us, s2, e, rfl⟩
        · cases hc
        · cases e
          exact ⟨_, _, rfl, small_node (by decide) hf.1 hf.2⟩
      · rcases hop with ⟨rfl, rfl⟩ | ⟨rfl, rfl⟩
        · rcases hw1 with ⟨_, hc⟩ | ⟨us, s2, rfl, e⟩
          · cases hc
          · cases e
            rcases hw with ⟨hc, _⟩ | ⟨us', s3, e, rfl⟩
            · cases hc
            · cases e
              exact .set hp h6 (by omega)
        · exact .fset hp h6 (by omega) (wraps_wraps hw1 hw)
    · rcases took_set h5 with ⟨hk, ⟨_, hnb, hnf⟩ | ⟨t', s1, rfl, _⟩⟩ | ⟨op, cl, o1, k1, hop, hp, h7, hk, hw1⟩
      · -- neither a set nor a dict
        rcases took_alt h6 with ⟨t, ts, s', rfl, h⟩ | ⟨od, kd, k5, _, hd, h7, rfl⟩
        · have := (dictD hnb _ _ h).1; cases this
        have ed := (dictD hnb _ _ hd).2
        rcases took_alt h7 with ⟨t, ts, s', rfl, h⟩ | ⟨oc, kc, k6, _, hc, h8, rfl⟩
        · obtain ⟨hk', hc | ⟨t', s1, e, hf⟩⟩ := took_class h
          · cases hc
          · cases e
            refine .small (by omega) (.inr ?_)
            rcases hw with ⟨hc, _⟩ | ⟨us, s2, e, rfl⟩
            · cases hc
            · cases e
              exact ⟨_, _, rfl, small_node (by decide) hf.1 hf.2⟩
        · have ec := (took_class hc).1
          have hlast : ∃ k7, Took newGrammar false (.ref .whatamiId) s o k7 ∧ k6 = k7 := by
            rcases took_alt h8 with ⟨t, ts, s', rfl, h⟩ | ⟨ow, kw, k7, how, h9, h10, rfl⟩
            · exact ⟨_, h, rfl⟩
            · obtain ⟨e10, rfl⟩ := took_never h10
              obtain ⟨o1, _, hw1⟩ := what_rule h9
              rcases how with rfl | ⟨s', rfl⟩
              · exact ⟨_, h9, by omega⟩
              · exact absurd rfl (wraps_not_nil hw1)
          obtain ⟨k7, h9, rfl⟩ := hlast
          cases hd' : isIdStart d with
          | true =>
            obtain ⟨o1, h10, hw1⟩ := what_rule h9
            exact .what ⟨d, u, hs, hd'⟩ h10 (by omega) (wraps_wraps hw1 hw)
          | false =>
            obtain ⟨rfl, hk'⟩ := whatD hd' _ _ h9
            refine .small (by omega) (.inl ?_)
            rcases hw with ⟨_, e⟩ | ⟨_, _, hc, _⟩
            · exact e
            · cases hc
      · rcases hos with hc | ⟨_, hc⟩ <;> cases hc
      · -- a set that failed
        have hfail : o1 = .fail ∧ os = .fail := by
          rcases hw1 with h | ⟨_, _, _, rfl⟩
          · exact h
          · rcases hos with hc | ⟨_, hc⟩ <;> cases hc
        obtain ⟨rfl, rfl⟩ := hfail
        rcases hop with ⟨rfl, rfl⟩ | ⟨rfl, rfl⟩
        · obtain ⟨v, hv⟩ := hp
          rw [hs] at hv
          cases hv
          obtain ⟨k5, h8, hk5⟩ := choice_live (e := .ref .aDict) (es := [.ref .aClass, .ref .whatamiId])
            (fun s' k h => by obtain ⟨_, _, hw⟩ := rule_bracket rfl h; exact wraps_not_nil hw rfl)
            (fun e he o k h => by
              simp only [List.mem_cons, List.not_mem_nil, or_false] at he
              rcases he with rfl | rfl
              · exact le8 (classD (np (by decide)) o k h)
              · exact whatD (by decide) o k h) h6
          obtain ⟨o2, h9, hw2⟩ := rule_bracket rfl h8
          simp only [List.length_cons, List.length_nil] at hk5
          exact .dict (by rw [hs]; exact ⟨v, rfl⟩) h7 h9 (by omega) (wraps_wraps hw2 hw)
        · obtain ⟨v, hv⟩ := hp
          have hsf := hv.symm
          rw [hs] at hv
          cases hv
          have := choice_dead (es := [.ref .aDict, .ref .aClass, .ref .whatamiId]) (fun e he o k h => by
            simp only [List.mem_cons, List.not_mem_nil, or_false] at he
            rcases he with rfl | rfl | rfl
            · exact le8 (dictD (np (by decide)) o k h)
            · exact le8 (classD (np (by decide)) o k h)
            · exact what_fset hsf h) h6
          obtain ⟨rfl, hk6⟩ := this
          simp only [List.length_cons, List.length_nil] at hk6
          refine .fset ⟨v, hsf.symm⟩ h7 (by omega) ?_
          rcases hw with ⟨_, e⟩ | ⟨_, _, hc, _⟩
          · exact .inl ⟨rfl, e⟩
          · cases hc

/-- How a value is parsed. -/
theorem took_value {s : Str} {o : Out} {k : Nat} (h : Took newGrammar b (.ref .value) s o k) : ValueRun s o k := by
  have leaf : ∀ {o1 : Out} {k : Nat}, k ≤ 60 → Small o1 → (∃ t ts s', o1 = .ok (t :: ts) s') → ∀ o', Wraps (.node .value) o1 o' → ValueRun s o' k := by
    intro o1 k hk h1 hne o' hw
    refine .small hk ?_
    rcases h1 with rfl | ⟨t, s', rfl, h1, h2⟩
    · obtain ⟨_, _, _, hc⟩ := hne; cases hc
    · rcases hw with ⟨hc, _⟩ | ⟨us, s1, e, rfl⟩
      · cases hc
      · cases e
        exact .inr ⟨_, _, rfl, small_node (by decide) h1 h2⟩
  have body : ∀ {o1 : Out}, Took newGrammar b (newGrammar .value) s o1 k → ∀ o', Wraps (.node .value) o1 o' → ValueRun s o' k := by
    intro o1 h o' hw
    change Took newGrammar b (.alt (.ref .aNone) (.alt (.ref .aBool) (.alt (.ref .aNumber) (.alt (.ref .aString) (choice containers))))) s o1 k at h
    rcases took_alt h with ⟨t, ts, s', rfl, h⟩ | ⟨_, k1, k2, _, h1, h2, rfl⟩
    · obtain ⟨hk, hs⟩ := took_none h; exact leaf (by omega) hs ⟨t, ts, s', rfl⟩ _ hw
    have e1 := (took_none h1).1
    rcases took_alt h2 with ⟨t, ts, s', rfl, h⟩ | ⟨_, k3, k4, _, h3, h4, rfl⟩
    · obtain ⟨hk, hs⟩ := took_bool h; exact leaf (by omega) hs ⟨t, ts, s', rfl⟩ _ hw
    have e3 := (took_bool h3).1
    rcases took_alt h4 with ⟨t, ts, s', rfl, h⟩ | ⟨_, k5, k6, _, h5, h6, rfl⟩
    · obtain ⟨hk, hs⟩ := took_num h; exact leaf (by omega) hs ⟨t, ts, s', rfl⟩ _ hw
    have e5 := (took_num h5).1
    rcases took_alt h6 with ⟨t, ts, s', rfl, h⟩ | ⟨_, k7, k8, _, h7, h8, rfl⟩
    · obtain ⟨hk, hs⟩ := took_string h; exact leaf (by omega) hs ⟨t, ts, s', rfl⟩ _ hw
    have e7 := (took_string h7).1
    exact valueRun_more (by omega) (took_containers h8 _ hw)
  rcases took_ref h with ⟨rfl, h1⟩ | ⟨ts, s', h1, rfl⟩
  · exact body h1 _ (.inl ⟨rfl, rfl⟩)
  · have hne : ts ≠ [] := by
      rintro rfl
      rcases body h1 (.ok [.node .value []] s') (.inr ⟨[], s', rfl, rfl⟩) with ⟨_, h⟩ | ⟨_, _, _, _, hw⟩ | ⟨_, _, _, hw⟩ | ⟨_, _, _⟩ | ⟨_, _, _, _, hw⟩ | ⟨_, _, _, hw⟩
      · rcases h with h | ⟨t, s1, h, h1, h2⟩
        · cases h
        · cases h; simp [load, loadL] at h2
      all_goals (rcases hw with ⟨_, hc⟩ | ⟨_, _, _, hc⟩ <;> cases hc)
    cases ts with
    | nil => exact absurd rfl hne
    | cons t ts => exact body h1 _ (.inr ⟨_, s', rfl, by simp [ruleResult, newGrammar, choice, Peg.isMatch]⟩)

end Whatami
