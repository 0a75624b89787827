import Verif.CostLinear

/-
Texts that take a long time: every opening brace is read twice, first as a set and then as a dict.
Definitions here are vocabulary for statements and proofs: the code they are about is cited in the model modules.
-/
namespace Whatami

variable {b : Bool}

mutual
/-- The number of terminals in a tree. -/
def terminals : Tree → Nat
  | .term _ _ _ => 1
  | .node _ ts => terminalsL ts
termination_by structural t => t
/-- The same for several trees. -/
def terminalsL : List Tree → Nat
  | [] => 0
  | t :: ts => terminals t + terminalsL ts
termination_by structural ts => ts
end

theorem terminalsL_append (ts us : List Tree) : terminalsL (ts ++ us) = terminalsL ts + terminalsL us := by
  induction ts with
  | nil => simp [terminalsL]
  | cons t ts ih => simp only [List.cons_append, terminalsL, ih]; omega

theorem terminalsL_rule {r : Rule} {e : Peg} {ts : List Tree} : terminalsL (ruleResult r e ts) ≤ terminalsL ts := by
  unfold ruleResult
  split
  · induction ts with
    | nil => simp [terminalsL]
    | cons t ts ih =>
      simp only [List.map_cons, terminalsL]
      cases t <;> simp only [terminals] <;> omega
  · cases ts with
    | nil => simp [terminalsL]
    | cons t ts => simp [terminalsL, terminals]

/-- Every terminal in the tree was matched once at least. -/
theorem terminals_le {g : Rule → Peg} {n : Nat} {b : Bool} {e : Peg} {s : Str} {ts : List Tree} {s' : Str} (h : run g n b e s = .ok ts s') :
    terminalsL ts ≤ tries g n b e s := by
  induction n generalizing b e s ts s' with
  | zero => cases h
  | succ n ih =>
    cases e with
    | str t =>
      simp only [run] at h
      split at h
      · cases h; simp [terminalsL, terminals, tries]
      · cases h
    | rx r =>
      simp only [run] at h
      cases hs : r.scan (skipWs s) with
      | none => rw [hs] at h; cases h
      | some p =>
        obtain ⟨t, u⟩ := p
        rw [hs] at h
        cases t <;> (simp only at h; cases h; simp [terminalsL, terminals, tries])
    | eof =>
      simp only [run] at h
      split at h
      · cases h; simp [terminalsL, terminals, tries]
      · cases h
    | emp => simp only [run] at h; cases h; simp [terminalsL]
    | never => simp only [run] at h; cases h
    | cat x y =>
      simp only [run] at h
      simp only [tries]
      cases h1 : run g n true x s with
      | timeout => rw [h1] at h; cases h
      | fail => rw [h1] at h; cases h
      | ok us s1 =>
        rw [h1] at h
        simp only at h ⊢
        cases h2 : run g n true y s1 with
        | timeout => rw [h2] at h; cases h
        | fail => rw [h2] at h; cases h
        | ok vs s2 =>
          rw [h2] at h; cases h
          have e1 := ih h1
          have e2 := ih h2
          rw [terminalsL_append]
          omega
    | alt x y =>
      simp only [run] at h
      simp only [tries]
      cases h1 : run g n false x s with
      | timeout => rw [h1] at h; cases h
      | fail => rw [h1] at h; simp only at h ⊢; have := ih h; omega
      | ok us s1 =>
        rw [h1] at h
        cases us with
        | nil => simp only at h ⊢; have := ih h; omega
        | cons t us => cases h; exact ih h1
    | opt x =>
      simp only [run] at h
      simp only [tries]
      cases h1 : run g n false x s with
      | timeout => rw [h1] at h; cases h
      | fail => rw [h1] at h; cases h; simp [terminalsL]
      | ok us s1 => rw [h1] at h; cases h; exact ih h1
    | star x =>
      simp only [run] at h
      simp only [tries]
      cases h1 : run g n false x s with
      | timeout => rw [h1] at h; cases h
      | fail => rw [h1] at h; cases h; simp [terminalsL]
      | ok us s1 =>
        rw [h1] at h
        cases us with
        | nil => cases h; simp [terminalsL]
        | cons t us =>
          simp only at h ⊢
          cases h2 : run g n false (.star x) s1 with
          | timeout => rw [h2] at h; cases h
          | fail => rw [h2] at h; cases h
          | ok vs s2 =>
            rw [h2] at h; cases h
            have e1 := ih h1
            have e2 := ih h2
            rw [terminalsL_append]
            omega
    | ref r =>
      simp only [run] at h
      simp only [tries]
      cases h1 : run g n b (g r) s with
      | timeout => rw [h1] at h; cases h
      | fail => rw [h1] at h; cases h
      | ok us s1 =>
        rw [h1] at h; cases h
        exact Nat.le_trans terminalsL_rule (ih h1)

theorem alt_skip {x y : Peg} {s : Str} {o : Out} {k : Nat} (hx : Ev newGrammar false x s .fail) (h : Took newGrammar b (.alt x y) s o k) :
    ∃ k1 k2, Took newGrammar false x s .fail k1 ∧ Took newGrammar false y s o k2 ∧ k = k1 + k2 := by
  rcases took_alt h with ⟨t, ts, s', rfl, h1⟩ | ⟨o1, k1, k2, _, h1, h2, rfl⟩
  · have := h1.ev.det hx; cases this
  · have := h1.ev.det hx
    subst this
    exact ⟨k1, k2, h1, h2, rfl⟩

theorem alt_skip' {x y : Peg} {s : Str} {o : Out} {k : Nat} (hx : Ev newGrammar false x s .fail) (h : Took newGrammar b (.alt x y) s o k) :
    ∃ k2, Took newGrammar false y s o k2 ∧ k2 ≤ k := by
  obtain ⟨k1, k2, _, h2, rfl⟩ := alt_skip hx h
  exact ⟨k2, h2, by omega⟩

/-- A run exists for everything that can be referred to. -/
theorem took_exists (r : Rule) (s : Str) : ∃ o k, Took newGrammar b (.ref r) s o k := by
  have h : run newGrammar (((s.length + 1) * stepsPerChar) + 0) b (.ref r) s ≠ .timeout := by
    refine run_terminates newGrammar_noLeftRec (by cases r <;> decide) ?_
    have : cost ruleRank (.ref r) ≤ 23 := by cases r <;> decide
    simp only [stepsPerChar] at this ⊢
    omega
  exact ⟨_, _, _, rfl, rfl, h⟩

theorem braces_value {n : Nat} : ∀ {b : Bool} {o : Out} {k : Nat}, Took newGrammar b (.ref .value) (List.replicate n '{') o k →
    o = .fail ∧ 2 ^ n ≤ k := by
  induction n with
  | zero =>
    intro b o k h
    have np : ∀ {c : Char} {t : Str}, ¬ (c :: t) <+: skipWs [] := by
      intro c t h; exact absurd (List.prefix_nil.1 h) (by simp)
    have hf : Ev newGrammar b (.ref .value) [] .fail := by
      refine .refFail (.altNext (none_fail np) (.altNext (bool_fail np np) (.altNext (num_fail rfl np np np) (.altNext (str_fail np)
        (.altNext (tuple_fail np) (.altNext (list_fail np) (.altNext (set_fail np np np np) (.altNext (dict_fail np)
        (.altNext (class_fail np) (.altNext (what_fail fun c u e => by cases e) (.never _)))))))))))
    have ho := h.ev.det hf
    subst ho
    refine ⟨rfl, ?_⟩
    rcases took_ref h with ⟨_, h1⟩ | ⟨_, _, _, hc⟩
    · obtain ⟨k1, k2, h2, _, rfl⟩ := alt_skip (none_fail np) h1
      have := (took_none h2).1
      simp only [Nat.pow_zero]
      omega
    · cases hc
  | succ n ih =>
    intro b o k h
    rw [List.replicate_succ] at h
    generalize hu : List.replicate n '{' = u at ih h
    have hs : skipWs ('{' :: u) = '{' :: u := skipWs_noWs (noWs_cons (by decide))
    have np : ∀ {c : Char} {t : Str}, c ≠ '{' → ¬ (c :: t) <+: skipWs ('{' :: u) := fun h => not_prefix_head hs h
    have hV : ∀ {b : Bool}, Ev newGrammar b (.ref .value) u .fail := by
      intro b
      obtain ⟨o, k, h⟩ := took_exists (b := b) .value u
      have := (ih h).1
      subst this
      exact h.ev
    have hopen : ∀ {b : Bool}, Ev newGrammar b (.str c!"{") ('{' :: u) (.ok [.term none b c!"{"] u) := .str (u := u) (by rw [hs]; rfl)
    have hset1 : ∀ {b : Bool}, Ev newGrammar b (seq [.str c!"{", .ref .listElements, .str c!"}"]) ('{' :: u) .fail :=
      .catFail2 hopen (.catFail (.refFail (.catFail hV)))
    have hset : ∀ {b : Bool}, Ev newGrammar b (.ref .aSet) ('{' :: u) .fail :=
      .refFail (.altNext (emptySet_fail (np (by decide)) (np (by decide))) (.altNext (.refFail (.altNext hset1
        (.altNext (.catFail (.strFail (np (by decide)))) (.never _)))) (.never _)))
    have hclose : ∀ {b : Bool}, Ev newGrammar b (.str c!"}") u .fail := by
      intro b
      refine .strFail ?_
      cases n with
      | zero => cases hu; exact fun h => absurd (List.prefix_nil.1 h) (by simp)
      | succ n =>
        rw [List.replicate_succ] at hu
        have : skipWs u = '{' :: List.replicate n '{' := by rw [← hu]; exact skipWs_noWs (noWs_cons (by decide))
        exact not_prefix_head this (by decide)
    have hdict : ∀ {b : Bool}, Ev newGrammar b (.ref .aDict) ('{' :: u) .fail :=
      .refFail (.catFail2 hopen (.catFail2 (.optNone (.refFail (.catFail (.refFail (.catFail hV))))) (.catFail hclose)))
    have hwhat : ∀ {b : Bool}, Ev newGrammar b (.ref .whatamiId) ('{' :: u) .fail :=
      what_fail fun c v e => by rw [hs] at e; cases e; decide
    have hclass : ∀ {b : Bool}, Ev newGrammar b (.ref .aClass) ('{' :: u) .fail := class_fail (np (by decide))
    have body : ∀ {o : Out}, Took newGrammar b (newGrammar .value) ('{' :: u) o k → o = .fail ∧ 2 ^ (n + 1) ≤ k := by
      intro o h
      obtain ⟨k1, h, e1⟩ := alt_skip' (none_fail (np (by decide))) h
      obtain ⟨k2, h, e2⟩ := alt_skip' (bool_fail (np (by decide)) (np (by decide))) h
      obtain ⟨k3, h, e3⟩ := alt_skip' (num_fail (by rw [hs]; exact scanNumber_none (by decide) (by decide)) (np (by decide)) (np (by decide)) (np (by decide))) h
      obtain ⟨k4, h, e4⟩ := alt_skip' (str_fail (np (by decide))) h
      obtain ⟨k5, h, e5⟩ := alt_skip' (tuple_fail (np (by decide))) h
      obtain ⟨k6, h, e6⟩ := alt_skip' (list_fail (np (by decide))) h
      obtain ⟨kS, k7, hS, h, e7⟩ := alt_skip hset h
      obtain ⟨kD, k8, hD, h, e8⟩ := alt_skip hdict h
      obtain ⟨k9, h, e9⟩ := alt_skip' hclass h
      obtain ⟨k10, h, e10⟩ := alt_skip' hwhat h
      refine ⟨(took_never h).2, ?_⟩
      -- as a set
      have c1 : 2 ^ n ≤ kS := by
        rcases took_ref hS with ⟨_, h1⟩ | ⟨_, _, _, hc⟩
        · obtain ⟨j1, h1, f1⟩ := alt_skip' (emptySet_fail (np (by decide)) (np (by decide))) h1
          rcases took_alt h1 with ⟨_, _, _, hc, _⟩ | ⟨o2, j2, j3, _, h2, _, rfl⟩
          · cases hc
          · have h2' : Took newGrammar false (newGrammar .aNonEmptySet) ('{' :: u) .fail j2 := by
              have hf : Ev newGrammar false (newGrammar .aNonEmptySet) ('{' :: u) .fail :=
                .altNext hset1 (.altNext (.catFail (.strFail (np (by decide)))) (.never _))
              rcases took_ref h2 with ⟨_, h3⟩ | ⟨_, _, h3, _⟩
              · exact h3
              · have := h3.ev.det hf; cases this
            obtain ⟨j4, j5, h3, _, rfl⟩ := alt_skip hset1 h2'
            rcases took_between h3 with ⟨hn, _⟩ | ⟨s0, j6, oE, e, hE, h4⟩
            · exact absurd ⟨u, by rw [hs]; rfl⟩ hn
            · rw [hs] at e
              have eu : u = s0 := by cases e; rfl
              subst eu
              have hj : j6 ≤ j4 := by rcases h4 with ⟨_, _, rfl⟩ | ⟨_, _, _, rfl, _⟩ <;> omega
              have hl : Ev newGrammar true (newGrammar .listElements) u .fail := .catFail hV
              have hE' : Took newGrammar true (newGrammar .listElements) u .fail j6 := by
                rcases took_ref hE with ⟨_, h5⟩ | ⟨_, _, h5, _⟩
                · exact h5
                · have := h5.ev.det hl; cases this
              rcases took_elems hE' with ⟨_, h5⟩ | ⟨_, _, _, _, _, h5, _⟩
              · have := (ih h5).2; omega
              · have := (ih h5).1; cases this
        · cases hc
      -- as a dict
      have c2 : 2 ^ n ≤ kD := by
        rcases took_ref hD with ⟨_, h1⟩ | ⟨_, _, _, hc⟩
        · rcases took_bracket h1 with ⟨hn, _⟩ | ⟨s0, j1, oE, e, hE, hk, _⟩
          · exact absurd ⟨u, by rw [hs]; rfl⟩ hn
          · rw [hs] at e
            have eu : u = s0 := by cases e; rfl
            subst eu
            have hl : Ev newGrammar false (newGrammar .dictElements) u .fail := .catFail (.refFail (.catFail hV))
            have hE' : Took newGrammar false (newGrammar .dictElements) u .fail j1 := by
              rcases took_ref hE with ⟨_, h5⟩ | ⟨_, _, h5, _⟩
              · exact h5
              · have := h5.ev.det hl; cases this
            have hkv : ∃ j2, Took newGrammar true (.ref .dictkv) u .fail j2 ∧ j2 = j1 := by
              rcases took_elems hE' with ⟨_, h5⟩ | ⟨_, _, _, _, _, h5, _⟩
              · exact ⟨_, h5, rfl⟩
              · have hf : Ev newGrammar true (.ref .dictkv) u .fail := .refFail (.catFail hV)
                have := h5.ev.det hf
                cases this
            obtain ⟨j2, h5, rfl⟩ := hkv
            rcases took_ref h5 with ⟨_, h6⟩ | ⟨_, _, _, hc⟩
            · rcases took_mid h6 with ⟨_, h7⟩ | ⟨_, _, _, h7, _⟩
              · have := (ih h7).2; omega
              · have := (ih h7).1; cases this
            · cases hc
        · cases hc
      rw [Nat.pow_succ]
      omega
    rcases took_ref h with ⟨rfl, h1⟩ | ⟨_, _, h1, _⟩
    · exact body h1
    · have := (body h1).1; cases this

/-- The text `a(b={{{...`. -/
theorem braces_top (n : Nat) : run newGrammar (((c!"a(b=" ++ List.replicate n '{').length + 1) * stepsPerChar) false (.ref .whatamiIdTop)
    (c!"a(b=" ++ List.replicate n '{') = .fail ∧ 2 ^ n ≤ parseTries newGrammar (c!"a(b=" ++ List.replicate n '{') := by
  generalize hu : List.replicate n '{' = u
  have ht := parse_took (c!"a(b=" ++ u)
  obtain ⟨k, hk⟩ : ∃ k, k = parseTries newGrammar (c!"a(b=" ++ u) := ⟨_, rfl⟩
  rw [← hk] at ht ⊢
  have hV : ∀ {b : Bool} {o : Out} {k : Nat}, Took newGrammar b (.ref .value) u o k → o = .fail ∧ 2 ^ n ≤ k := by
    rw [← hu]; exact braces_value
  have hVe : ∀ {b : Bool}, Ev newGrammar b (.ref .value) u .fail := by
    intro b
    obtain ⟨o, k, h⟩ := took_exists (b := b) .value u
    have := (hV h).1
    subst this
    exact h.ev
  have e1 : ∀ {b : Bool}, Ev newGrammar b (.ref .anId) (c!"a(b=" ++ u) (.ok [idTree c!"a"] (c!"(b=" ++ u)) := by
    intro b
    exact ev_id (ws := []) (x := c!"a") (rest := c!"(b=" ++ u) rfl ⟨'a', [], rfl, by decide, by decide⟩ (fun c v e => by cases e; decide)
  have hs2 : skipWs (c!"(b=" ++ u) = c!"(" ++ (c!"b=" ++ u) := skipWs_noWs (noWs_cons (by decide))
  have e2 : ∀ {b : Bool}, Ev newGrammar b (.str c!"(") (c!"(b=" ++ u) (.ok [.term none b c!"("] (c!"b=" ++ u)) := .str hs2
  have e3 : ∀ {b : Bool}, Ev newGrammar b (.ref .anId) (c!"b=" ++ u) (.ok [idTree c!"b"] (c!"=" ++ u)) := by
    intro b
    exact ev_id (ws := []) (x := c!"b") (rest := c!"=" ++ u) rfl ⟨'b', [], rfl, by decide, by decide⟩ (fun c v e => by cases e; decide)
  have hs4 : skipWs (c!"=" ++ u) = c!"=" ++ u := skipWs_noWs (noWs_cons (by decide))
  have e4 : ∀ {b : Bool}, Ev newGrammar b (.str c!"=") (c!"=" ++ u) (.ok [.term none b c!"="] u) := .str hs4
  have hkv : ∀ {b : Bool}, Ev newGrammar b (.ref .kv) (c!"b=" ++ u) .fail := .refFail (.catFail2 e3 (.catFail2 e4 (.catFail hVe)))
  have hkvs : ∀ {b : Bool}, Ev newGrammar b (.ref .kvs) (c!"b=" ++ u) .fail := .refFail (.catFail hkv)
  have hsb : skipWs (c!"b=" ++ u) = c!"b=" ++ u := skipWs_noWs (noWs_cons (by decide))
  have hout : Ev newGrammar true (.opt (seq [.ref .anId, .str c!"="])) (c!"a(b=" ++ u) (.ok [] (c!"a(b=" ++ u)) :=
    .optNone (.catFail2 e1 (.catFail (.strFail (by rw [hs2]; exact not_prefix (by decide)))))
  have hbr : ∀ {b : Bool}, Ev newGrammar b (seq [.str c!"(", .opt (.ref .kvs), .str c!")"]) (c!"(b=" ++ u) .fail :=
    .catFail2 e2 (.catFail2 (.optNone hkvs) (.catFail (.strFail (by rw [hsb]; exact not_prefix (by decide)))))
  have hw : ∀ {b : Bool}, Ev newGrammar b (newGrammar .whatamiId) (c!"a(b=" ++ u) .fail := .catFail2 hout (.catFail2 e1 hbr)
  have htop : Ev newGrammar false (.ref .whatamiIdTop) (c!"a(b=" ++ u) .fail := .refFail (.catFail (.refFail hw))
  have ho := ht.ev.det htop
  refine ⟨ho, ?_⟩
  rw [ho] at ht
  -- down to the value
  rcases took_ref ht with ⟨_, h1⟩ | ⟨_, _, _, hc⟩
  · rcases took_cat h1 with ⟨_, h2⟩ | ⟨_, _, _, _, h2, _⟩
    · rcases took_ref h2 with ⟨_, h3⟩ | ⟨_, _, _, hc⟩
      · change Took newGrammar true (.cat (.opt (seq [.ref .anId, .str c!"="])) (.cat (.ref .anId) (seq [.str c!"(", .opt (.ref .kvs), .str c!")"])))
          (c!"a(b=" ++ u) .fail k at h3
        rcases took_cat h3 with ⟨_, h4⟩ | ⟨_, _, k1, k2, h4, rfl, ⟨_, h5⟩ | ⟨_, _, _, hc⟩⟩
        · have := h4.ev.det hout; cases this
        · have := h4.ev.det hout
          cases this
          rcases took_cat h5 with ⟨_, h6⟩ | ⟨_, _, k3, k4, h6, rfl, ⟨_, h7⟩ | ⟨_, _, _, hc⟩⟩
          · have := h6.ev.det e1; cases this
          · have := h6.ev.det e1
            cases this
            rcases took_bracket h7 with ⟨hn, _⟩ | ⟨s0, k5, oE, e, hE, rfl, _⟩
            · rw [hs2] at hn; exact absurd ⟨_, rfl⟩ hn
            · rw [hs2] at e
              have e := List.append_cancel_left e
              subst e
              have hE' := hE.ev.det hkvs
              subst hE'
              rcases took_ref hE with ⟨_, h8⟩ | ⟨_, _, _, hc⟩
              · rcases took_elems h8 with ⟨_, h9⟩ | ⟨_, _, _, _, _, h9, _⟩
                · rcases took_ref h9 with ⟨_, h10⟩ | ⟨_, _, _, hc⟩
                  · rcases took_mid h10 with ⟨_, h11⟩ | ⟨_, _, k6, h11, ⟨hn, _⟩ | ⟨s2, k7, o2, e, h12, rfl, _⟩⟩
                    · have := h11.ev.det e3; cases this
                    · have := h11.ev.det e3
                      cases this
                      rw [hs4] at hn; exact absurd ⟨_, rfl⟩ hn
                    · have := h11.ev.det e3
                      cases this
                      rw [hs4] at e
                      have e := List.append_cancel_left e
                      subst e
                      have := (hV h12).2
                      omega
                  · cases hc
                · have := h9.ev.det hkv; cases this
              · cases hc
          · cases hc
        · cases hc
      · cases hc
    · rcases took_ref h2 with ⟨hc, _⟩ | ⟨_, _, h3, _⟩
      · cases hc
      · have := h3.ev.det hw; cases this
  · cases hc

end Whatami
