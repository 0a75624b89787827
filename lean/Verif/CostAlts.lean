import Verif.CostShape

/-
The ways in which a value can be parsed, with their cost.
Definitions here are vocabulary for statements and proofs: the code they are about is cited in the model modules.
-/
namespace Whatami

variable {b : Bool}

/-- Elements in brackets, with the opening bracket not there. -/
theorem bracket_dead {r : Rule} {op cl : Str} {E : Peg} {s : Str} {o : Out} {k : Nat} (hr : newGrammar r = seq [.str op, E, .str cl])
    (h : Took newGrammar b (.ref r) s o k) (hs : ¬ op <+: skipWs s) : o = .fail ∧ k = 1 := by
  rcases took_ref h with ⟨rfl, h1⟩ | ⟨ts, s', h1, rfl⟩
  · rw [hr] at h1
    rcases took_between h1 with ⟨_, _, hk⟩ | ⟨s0, _, _, e, _⟩
    · exact ⟨rfl, hk⟩
    · exact absurd ⟨s0, e.symm⟩ hs
  · rw [hr] at h1
    rcases took_between h1 with ⟨_, hc, _⟩ | ⟨s0, _, _, e, _⟩
    · cases hc
    · exact absurd ⟨s0, e.symm⟩ hs

/-- The name of a call, and what is left of it. -/
theorem took_what {s : Str} {o : Out} {k : Nat} (h : Took newGrammar b (newGrammar .whatamiId) s o k) :
    (k ≤ 4 ∧ o = .fail) ∨
    ∃ pre s1 k1 o1, NoDictL pre ∧ 1 ≤ loadL pre ∧ s1.length < s.length ∧ braces s1 ≤ braces s ∧
      Took newGrammar true (seq [.str c!"(", .opt (.ref .kvs), .str c!")"]) s1 o1 k1 ∧ k ≤ k1 + 3 ∧
      ((o1 = .fail ∧ o = .fail) ∨ ∃ us s', o1 = .ok us s' ∧ o = .ok (pre ++ us) s') := by
  have idFlat : ∀ x, NoDictL [idTree x] := fun x => by simp [NoDictL, idTree, loadL, leavesL, load, leaves]
  -- the name and the rest
  have second : ∀ {s : Str} {o : Out} {k : Nat}, Took newGrammar true (.cat (.ref .anId) (seq [.str c!"(", .opt (.ref .kvs), .str c!")"])) s o k →
      (k = 1 ∧ o = .fail) ∨ ∃ x s1 k1 o1, x ≠ [] ∧ s1.length < s.length ∧ braces s1 ≤ braces s ∧
        Took newGrammar true (seq [.str c!"(", .opt (.ref .kvs), .str c!")"]) s1 o1 k1 ∧ k = k1 + 1 ∧
        ((o1 = .fail ∧ o = .fail) ∨ ∃ us s', o1 = .ok us s' ∧ o = .ok (idTree x :: us) s') := by
    intro s o k h
    rcases took_cat h with ⟨rfl, h1⟩ | ⟨ts, s1, k1, k2, h1, rfl, h2⟩
    · exact .inl ⟨(took_id h1).1, rfl⟩
    · have hu := h1.used
      obtain ⟨hk, ⟨hc, _⟩ | ⟨c, x, s', e, _⟩⟩ := took_id h1
      · cases hc
      · cases e
        subst hk
        simp only [leavesL, idTree, leaves, List.append_nil, List.length_cons] at hu
        rcases h2 with ⟨rfl, h2⟩ | ⟨us, s2, h2, rfl⟩
        · exact .inr ⟨c :: x, s1, k2, _, by simp, by omega, by omega, h2, by omega, .inl ⟨rfl, rfl⟩⟩
        · exact .inr ⟨c :: x, s1, k2, _, by simp, by omega, by omega, h2, by omega, .inr ⟨us, s2, rfl, rfl⟩⟩
  have hpos : ∀ x : Str, x ≠ [] → 1 ≤ loadL [idTree x] := fun x hx => by
    simp only [loadL, idTree, load]; have := List.length_pos_iff.2 hx; omega
  simp only [newGrammar] at h
  change Took newGrammar b (.cat (.opt (seq [.ref .anId, .str c!"="])) (.cat (.ref .anId) (seq [.str c!"(", .opt (.ref .kvs), .str c!")"]))) s o k at h
  rcases took_cat h with ⟨rfl, h1⟩ | ⟨ts, s1, k1, k2, h1, rfl, h2⟩
  · rcases took_opt h1 with ⟨hc, _⟩ | ⟨_, _, hc, _⟩ <;> cases hc
  · have h3 : ∃ o2, Took newGrammar true (.cat (.ref .anId) (seq [.str c!"(", .opt (.ref .kvs), .str c!")"])) s1 o2 k2 ∧
        ((o2 = .fail ∧ o = .fail) ∨ ∃ us s2, o2 = .ok us s2 ∧ o = .ok (ts ++ us) s2) := by
      rcases h2 with ⟨rfl, h2⟩ | ⟨us, s2, h2, rfl⟩
      · exact ⟨_, h2, .inl ⟨rfl, rfl⟩⟩
      · exact ⟨_, h2, .inr ⟨us, s2, rfl, rfl⟩⟩
    obtain ⟨o2, h3, h4⟩ := h3
    -- the out name
    have hu := h1.used
    have hpre : k1 ≤ 2 ∧ NoDictL ts := by
      rcases took_opt h1 with ⟨e, h5⟩ | ⟨_, _, e, h5⟩
      · cases e
        refine ⟨?_, rfl⟩
        rcases took_cat h5 with ⟨_, h6⟩ | ⟨ts, s3, k3, k4, h6, rfl, ⟨_, h7⟩ | ⟨us, s4, h7, hc⟩⟩
        · have := (took_id h6).1; omega
        · have e6 := (took_id h6).1
          have := (took_close (cl := c!"=") h7).1
          omega
        · cases hc
      · cases e
        rcases took_cat h5 with ⟨hc, h6⟩ | ⟨ts, s3, k3, k4, h6, rfl, ⟨hc, h7⟩ | ⟨us, s4, h7, e⟩⟩
        · cases hc
        · cases hc
        · cases e
          obtain ⟨e6, ⟨hc, _⟩ | ⟨c, x, s', e, _⟩⟩ := took_id h6
          · cases hc
          · cases e
            obtain ⟨e7, ⟨hc, _⟩ | ⟨u, _, e⟩⟩ := took_close (cl := c!"=") h7
            · cases hc
            · cases e
              exact ⟨by omega, by simp [NoDictL, idTree, tok, loadL, leavesL, load, leaves]⟩
    rcases second h3 with ⟨hk, rfl⟩ | ⟨x, s3, k3, o3, hx, hl, hb, h5, hk, h6⟩
    · left
      refine ⟨by omega, ?_⟩
      rcases h4 with h4 | ⟨_, _, hc, _⟩
      · exact h4.2
      · cases hc
    · right
      refine ⟨ts ++ [idTree x], s3, k3, o3, nodict_append hpre.2 (idFlat x), ?_, by omega, by omega, h5, by omega, ?_⟩
      · rw [loadL_append]; have := hpos x hx; omega
      · rcases h6 with ⟨rfl, rfl⟩ | ⟨us, s', rfl, rfl⟩
        · left
          refine ⟨rfl, ?_⟩
          rcases h4 with h4 | ⟨_, _, hc, _⟩
          · exact h4.2
          · cases hc
        · right
          rcases h4 with ⟨hc, _⟩ | ⟨us', s2, e, rfl⟩
          · cases hc
          · cases e
            exact ⟨us, s', rfl, by simp⟩

/-- A call that does not begin with a name. -/
theorem what_dead {s : Str} {o : Out} {k : Nat} (hs : ∀ c u, skipWs s = c :: u → isIdStart c = false)
    (h : Took newGrammar b (.ref .whatamiId) s o k) : o = .fail ∧ k ≤ 2 := by
  have hid : ∀ {b : Bool} {o : Out} {k : Nat}, Took newGrammar b (.ref .anId) s o k → k = 1 ∧ o = .fail := by
    intro b o k h
    obtain ⟨hk, ⟨e, _⟩ | ⟨c, x, s', _, e, hc, _⟩⟩ := took_id h
    · exact ⟨hk, e⟩
    · rw [hs c _ (by rw [e]; rfl)] at hc; cases hc
  have body : ∀ {o : Out}, Took newGrammar b (newGrammar .whatamiId) s o k → o = .fail ∧ k ≤ 2 := by
    intro o h
    simp only [newGrammar, seq, List.foldr] at h
    rcases took_cat h with ⟨rfl, h1⟩ | ⟨ts, s1, k1, k2, h1, rfl, h2⟩
    · rcases took_opt h1 with ⟨hc, _⟩ | ⟨_, _, hc, _⟩ <;> cases hc
    · rcases took_opt h1 with ⟨e, h5⟩ | ⟨_, _, e, h5⟩
      · cases e
        have hk1 : k1 = 1 := by
          rcases took_cat h5 with ⟨_, h6⟩ | ⟨ts, s3, k3, k4, h6, rfl, _⟩
          · exact (hid h6).1
          · have := (hid h6).2; cases this
        rcases h2 with ⟨rfl, h2⟩ | ⟨us, s2, h2, rfl⟩
        · refine ⟨rfl, ?_⟩
          rcases took_cat h2 with ⟨_, h6⟩ | ⟨ts, s3, k3, k4, h6, rfl, _⟩
          · have := (hid h6).1; omega
          · have := (hid h6).2; cases this
        · rcases took_cat h2 with ⟨hc, h6⟩ | ⟨ts, s3, k3, k4, h6, rfl, _⟩
          · cases hc
          · have := (hid h6).2; cases this
      · cases e
        rcases took_cat h5 with ⟨hc, h6⟩ | ⟨ts, s3, k3, k4, h6, rfl, _⟩
        · cases hc
        · have := (hid h6).2; cases this
  rcases took_ref h with ⟨rfl, h1⟩ | ⟨ts, s', h1, rfl⟩
  · exact body h1
  · have := (body h1).1; cases this

theorem what_rule {s : Str} {o : Out} {k : Nat} (h : Took newGrammar b (.ref .whatamiId) s o k) :
    ∃ o1, Took newGrammar b (newGrammar .whatamiId) s o1 k ∧ Wraps (.node .whatamiId) o1 o := by
  refine took_rule rfl (fun ts s' h => ?_) h
  rcases took_what h with ⟨_, hc⟩ | ⟨pre, _, _, _, _, hp, _, _, _, _, ⟨_, hc⟩ | ⟨us, _, _, e⟩⟩
  · cases hc
  · cases hc
  · cases e
    rintro h0
    rw [List.append_eq_nil_iff] at h0
    rw [h0.1] at hp
    simp [loadL] at hp

/-- `frozenset({` is not the beginning of a call. -/
theorem what_fset {s u : Str} {o : Out} {k : Nat} (hs : skipWs s = c!"frozenset({" ++ u) (h : Took newGrammar b (.ref .whatamiId) s o k) :
    o = .fail ∧ k ≤ 8 := by
  have hid : ∀ {b : Bool} {o : Out} {k : Nat}, Took newGrammar b (.ref .anId) s o k → k = 1 ∧ ∃ t, o = .ok [t] (c!"({" ++ u) := by
    intro b o k h
    have e1 : Ev newGrammar b (.ref .anId) s (.ok [idTree c!"frozenset"] (c!"({" ++ u)) := by
      obtain ⟨w, hw⟩ := skipWs_suffix s
      have hall : w = s.takeWhile isWs := by
        have h1 : s = s.takeWhile isWs ++ skipWs s := (List.takeWhile_append_dropWhile).symm
        have h2 : w ++ skipWs s = s.takeWhile isWs ++ skipWs s := by rw [← hw, ← h1]
        exact List.append_cancel_right h2
      have e : s = s.takeWhile isWs ++ (c!"frozenset" ++ (c!"({" ++ u)) := by
        conv => lhs; rw [hw, hall, hs]
        rfl
      rw [e]
      exact ev_id (by rw [List.all_eq_true]; exact fun x hx => List.all_eq_true.1 (List.all_takeWhile (p := isWs) (l := s)) x hx)
        ⟨'f', c!"rozenset", rfl, by decide, by decide⟩ (fun c v e => by cases e; decide)
    exact ⟨(took_id h).1, _, (h.ev.det e1)⟩
  have tail : ∀ {b : Bool} {o : Out} {k : Nat}, Took newGrammar b (seq [.str c!"(", .opt (.ref .kvs), .str c!")"]) (c!"({" ++ u) o k → o = .fail ∧ k ≤ 4 := by
    intro b o k h
    have hsk : skipWs (c!"({" ++ u) = c!"(" ++ ('{' :: u) := skipWs_noWs (noWs_cons (by decide))
    have hsk2 : skipWs ('{' :: u) = '{' :: u := skipWs_noWs (noWs_cons (by decide))
    rcases took_bracket h with ⟨_, rfl, rfl⟩ | ⟨s0, k1, oE, e, hE, rfl, us, s1, h1, h2⟩
    · exact ⟨rfl, by omega⟩
    · rw [hsk] at e
      cases e
      have hkv : oE = .fail ∧ k1 = 1 := by
        have hidf : ∀ {b : Bool} {o : Out} {k : Nat}, Took newGrammar b (.ref .anId) ('{' :: u) o k → k = 1 ∧ o = .fail := by
          intro b o k h
          obtain ⟨hk, ⟨e, _⟩ | ⟨c, x, s', _, e, hc, _⟩⟩ := took_id h
          · exact ⟨hk, e⟩
          · rw [hsk2] at e; cases e; exact absurd hc (by decide)
        have hkvf : ∀ {b : Bool} {o : Out} {k : Nat}, Took newGrammar b (.ref .kv) ('{' :: u) o k → k = 1 ∧ o = .fail := by
          intro b o k h
          rcases took_ref h with ⟨rfl, h1⟩ | ⟨ts, s', h1, rfl⟩
          · rcases took_cat h1 with ⟨_, h6⟩ | ⟨ts, s3, k3, k4, h6, rfl, _⟩
            · exact ⟨(hidf h6).1, rfl⟩
            · have := (hidf h6).2; cases this
          · rcases took_cat h1 with ⟨hc, h6⟩ | ⟨ts, s3, k3, k4, h6, rfl, _⟩
            · cases hc
            · have := (hidf h6).2; cases this
        rcases took_ref hE with ⟨rfl, h9⟩ | ⟨ts, s', h9, rfl⟩
        · rcases took_elems h9 with ⟨_, h6⟩ | ⟨_, _, _, _, _, h6, _⟩
          · exact ⟨rfl, (hkvf h6).1⟩
          · have := (hkvf h6).2; cases this
        · rcases took_elems h9 with ⟨hc, h6⟩ | ⟨_, _, _, _, _, h6, _⟩
          · cases hc
          · have := (hkvf h6).2; cases this
      rcases h1 with ⟨_, rfl, rfl⟩ | h1
      · rcases h2 with ⟨_, rfl⟩ | ⟨v, e, _⟩
        · exact ⟨rfl, by omega⟩
        · rw [hsk2] at e; cases e
      · rw [hkv.1] at h1; cases h1
  have body : ∀ {o : Out}, Took newGrammar b (newGrammar .whatamiId) s o k → o = .fail ∧ k ≤ 8 := by
    intro o h
    change Took newGrammar b (.cat (.opt (seq [.ref .anId, .str c!"="])) (.cat (.ref .anId) (seq [.str c!"(", .opt (.ref .kvs), .str c!")"]))) s o k at h
    rcases took_cat h with ⟨rfl, h1⟩ | ⟨ts, s1, k1, k2, h1, rfl, h2⟩
    · rcases took_opt h1 with ⟨hc, _⟩ | ⟨_, _, hc, _⟩ <;> cases hc
    · have hout : ∀ {o : Out}, Took newGrammar false (seq [.ref .anId, .str c!"="]) s o k1 → o = .fail ∧ k1 = 2 := by
        intro o h
        rcases took_cat h with ⟨_, h6⟩ | ⟨ts, s3, k3, k4, h6, rfl, h7⟩
        · obtain ⟨_, t, hc⟩ := hid h6; cases hc
        · obtain ⟨e6, t, e⟩ := hid h6
          cases e
          have hsk : skipWs (c!"({" ++ u) = '(' :: '{' :: u := skipWs_noWs (noWs_cons (by decide))
          rcases h7 with ⟨rfl, h7⟩ | ⟨us, s4, h7, _⟩
          · exact ⟨rfl, by have := (took_close (cl := c!"=") h7).1; omega⟩
          · obtain ⟨_, ⟨hc, _⟩ | ⟨v, e, _⟩⟩ := took_close (cl := c!"=") h7
            · cases hc
            · rw [hsk] at e; cases e
      rcases took_opt h1 with ⟨e, h5⟩ | ⟨_, _, e, h5⟩
      · cases e
        have e5 := (hout h5).2
        rcases h2 with ⟨rfl, h2⟩ | ⟨us, s2, h2, rfl⟩
        · refine ⟨rfl, ?_⟩
          rcases took_cat h2 with ⟨_, h6⟩ | ⟨ts, s3, k3, k4, h6, rfl, h7⟩
          · obtain ⟨_, t, hc⟩ := hid h6; cases hc
          · obtain ⟨e6, t, e⟩ := hid h6
            cases e
            rcases h7 with ⟨_, h7⟩ | ⟨_, _, _, hc⟩
            · have := (tail h7).2; omega
            · cases hc
        · rcases took_cat h2 with ⟨hc, h6⟩ | ⟨ts, s3, k3, k4, h6, rfl, h7⟩
          · cases hc
          · obtain ⟨e6, t, e⟩ := hid h6
            cases e
            rcases h7 with ⟨hc, h7⟩ | ⟨_, _, h7, _⟩
            · cases hc
            · have := (tail h7).1; cases this
      · have := (hout h5).1; cases this
  rcases took_ref h with ⟨rfl, h1⟩ | ⟨ts, s', h1, rfl⟩
  · exact body h1
  · have := (body h1).1; cases this

theorem wraps_not_nil {f : List Tree → Tree} {o1 o : Out} {s' : Str} (h : Wraps f o1 o) : o ≠ .ok [] s' := by
  rintro rfl
  rcases h with ⟨_, h⟩ | ⟨_, _, _, h⟩ <;> cases h

/-- Sets. -/
theorem took_set {s : Str} {o : Out} {k : Nat} (h : Took newGrammar b (.ref .aSet) s o k) :
    (k ≤ 4 ∧ ((o = .fail ∧ ¬ c!"{" <+: skipWs s ∧ ¬ c!"frozenset({" <+: skipWs s) ∨
      ∃ t s', o = .ok [t] s' ∧ load t = (leaves t).length ∧ 1 ≤ load t)) ∨
    ∃ op cl o1 k1, ((op = c!"{" ∧ cl = c!"}") ∨ (op = c!"frozenset({" ∧ cl = c!"})")) ∧ op <+: skipWs s ∧
      Took newGrammar false (seq [.str op, .ref .listElements, .str cl]) s o1 k1 ∧ k ≤ k1 + 3 ∧
      Wraps (fun us => .node .aSet [.node .aNonEmptySet us]) o1 o := by
  -- sets with elements
  have two : ∀ {b : Bool} {o : Out} {k : Nat}, Took newGrammar b (.ref .aNonEmptySet) s o k →
      (k = 2 ∧ o = .fail ∧ ¬ c!"{" <+: skipWs s ∧ ¬ c!"frozenset({" <+: skipWs s) ∨
      ∃ op cl o1 k1, ((op = c!"{" ∧ cl = c!"}") ∨ (op = c!"frozenset({" ∧ cl = c!"})")) ∧ op <+: skipWs s ∧
        Took newGrammar false (seq [.str op, .ref .listElements, .str cl]) s o1 k1 ∧ k ≤ k1 + 1 ∧ Wraps (.node .aNonEmptySet) o1 o := by
    intro b o k h
    have body : ∀ {b : Bool} {o : Out} {k : Nat}, Took newGrammar b (newGrammar .aNonEmptySet) s o k →
        (∀ s', o ≠ .ok [] s') ∧ ((k = 2 ∧ o = .fail ∧ ¬ c!"{" <+: skipWs s ∧ ¬ c!"frozenset({" <+: skipWs s) ∨
        ∃ op cl k1, ((op = c!"{" ∧ cl = c!"}") ∨ (op = c!"frozenset({" ∧ cl = c!"})")) ∧ op <+: skipWs s ∧
          Took newGrammar false (seq [.str op, .ref .listElements, .str cl]) s o k1 ∧ k ≤ k1 + 1) := by
      intro b o k h
      change Took newGrammar b (.alt (seq [.str c!"{", .ref .listElements, .str c!"}"])
        (.alt (seq [.str c!"frozenset({", .ref .listElements, .str c!"})"]) .never)) s o k at h
      have np : ∀ {op cl : Str} {o : Out} {k : Nat}, Took newGrammar false (seq [.str op, .ref .listElements, .str cl]) s o k →
          (o = .fail ∧ k = 1 ∧ ¬ op <+: skipWs s) ∨ op <+: skipWs s := by
        intro op cl o k h
        rcases took_between h with ⟨h1, h2, h3⟩ | ⟨s0, _, _, h1, _⟩
        · exact .inl ⟨h2, h3, h1⟩
        · exact .inr ⟨s0, h1.symm⟩
      rcases took_alt h with ⟨t, ts, s', rfl, h⟩ | ⟨o1, k1, k2, ho, h1, h2, rfl⟩
      · refine ⟨by simp, .inr ⟨_, _, k, .inl ⟨rfl, rfl⟩, ?_, h, by omega⟩⟩
        rcases np h with ⟨hc, _⟩ | h
        · cases hc
        · exact h
      · have ho1 : o1 = .fail := by
          rcases ho with ho | ⟨s', rfl⟩
          · exact ho
          · exact absurd rfl (between_ne h1)
        subst ho1
        rcases took_alt h2 with ⟨t, ts, s', rfl, h⟩ | ⟨o3, k3, k4, ho, h3, h4, rfl⟩
        · refine ⟨by simp, .inr ⟨_, _, k2, .inr ⟨rfl, rfl⟩, ?_, h, ?_⟩⟩
          · rcases np h with ⟨hc, _⟩ | h
            · cases hc
            · exact h
          · rcases np h with ⟨hc, _⟩ | hp
            · cases hc
            · rcases np h1 with ⟨_, e, _⟩ | hp'
              · omega
              · exfalso
                obtain ⟨u, hu⟩ := hp
                rw [← hu] at hp'
                exact not_prefix (by decide) hp'
        · have ho3 : o3 = .fail := by
            rcases ho with ho | ⟨s', rfl⟩
            · exact ho
            · exact absurd rfl (between_ne h3)
          subst ho3
          obtain ⟨e4, rfl⟩ := took_never h4
          refine ⟨by simp, ?_⟩
          rcases np h1 with ⟨_, e1, hp1⟩ | hp1
          · rcases np h3 with ⟨_, e3, hp3⟩ | hp3
            · exact .inl ⟨by omega, rfl, hp1, hp3⟩
            · exact .inr ⟨_, _, k3, .inr ⟨rfl, rfl⟩, hp3, h3, by omega⟩
          · rcases np h3 with ⟨_, e3, hp3⟩ | hp3
            · exact .inr ⟨_, _, k1, .inl ⟨rfl, rfl⟩, hp1, h1, by omega⟩
            · exfalso
              obtain ⟨u, hu⟩ := hp1
              rw [← hu] at hp3
              exact not_prefix (by decide) hp3
    obtain ⟨o1, h1, hw⟩ := took_rule rfl (fun ts s' h e => (body h).1 s' (by rw [e])) h
    rcases (body h1).2 with ⟨hk, rfl, h2⟩ | ⟨op, cl, k1, h2, h3, h4, h5⟩
    · refine .inl ⟨hk, ?_, h2⟩
      rcases hw with ⟨_, e⟩ | ⟨_, _, hc, _⟩
      · exact e
      · cases hc
    · exact .inr ⟨op, cl, o1, k1, h2, h3, h4, h5, hw⟩
  have body : ∀ {b : Bool} {o : Out} {k : Nat}, Took newGrammar b (newGrammar .aSet) s o k →
      (∀ s', o ≠ .ok [] s') ∧ ((k ≤ 4 ∧ ((o = .fail ∧ ¬ c!"{" <+: skipWs s ∧ ¬ c!"frozenset({" <+: skipWs s) ∨
        ∃ t s', o = .ok [t] s' ∧ load t = (leaves t).length ∧ 1 ≤ load t)) ∨
      ∃ op cl o1 k1, ((op = c!"{" ∧ cl = c!"}") ∨ (op = c!"frozenset({" ∧ cl = c!"})")) ∧ op <+: skipWs s ∧
        Took newGrammar false (seq [.str op, .ref .listElements, .str cl]) s o1 k1 ∧ k ≤ k1 + 3 ∧ Wraps (.node .aNonEmptySet) o1 o) := by
    intro b o k h
    change Took newGrammar b (.alt (.ref .anEmptySet) (.alt (.ref .aNonEmptySet) .never)) s o k at h
    rcases took_alt h with ⟨t, ts, s', rfl, h⟩ | ⟨o1, k1, k2, ho, h1, h2, rfl⟩
    · obtain ⟨hk, hc | h⟩ := took_emptySet h
      · cases hc
      · exact ⟨by simp, .inl ⟨by omega, .inr h⟩⟩
    · obtain ⟨hk, _⟩ := took_emptySet h1
      rcases took_alt h2 with ⟨t, ts, s', rfl, h⟩ | ⟨o3, k3, k4, ho, h3, h4, rfl⟩
      · refine ⟨by simp, ?_⟩
        rcases two h with ⟨_, hc, _⟩ | ⟨op, cl, o4, k4, h5, h6, h7, h8, h9⟩
        · cases hc
        · exact .inr ⟨op, cl, o4, k4, h5, h6, h7, by omega, h9⟩
      · obtain ⟨e4, rfl⟩ := took_never h4
        refine ⟨by simp, ?_⟩
        rcases two h3 with ⟨e3, rfl, h5⟩ | ⟨op, cl, o4, k4, h5, h6, h7, h8, h9⟩
        · exact .inl ⟨by omega, .inl ⟨rfl, h5⟩⟩
        · refine .inr ⟨op, cl, o4, k4, h5, h6, h7, by omega, ?_⟩
          rcases h9 with ⟨rfl, rfl⟩ | ⟨us, s', rfl, rfl⟩
          · exact .inl ⟨rfl, rfl⟩
          · rcases ho with hc | ⟨_, hc⟩ <;> cases hc
  obtain ⟨o1, h1, hw⟩ := took_rule rfl (fun ts s' h e => (body h).1 s' (by rw [e])) h
  rcases (body h1).2 with ⟨hk, h2⟩ | ⟨op, cl, o2, k2, h2, h3, h4, h5, h6⟩
  · refine .inl ⟨hk, ?_⟩
    rcases h2 with ⟨rfl, h2⟩ | ⟨t, s', rfl, h2, h3⟩
    · left
      refine ⟨?_, h2⟩
      rcases hw with ⟨_, e⟩ | ⟨_, _, hc, _⟩
      · exact e
      · cases hc
    · right
      rcases hw with ⟨hc, _⟩ | ⟨us, s1, e, rfl⟩
      · cases hc
      · cases e
        exact ⟨_, s', rfl, small_node (by decide) h2 h3⟩
  · refine .inr ⟨op, cl, o2, k2, h2, h3, h4, h5, ?_⟩
    rcases h6 with ⟨rfl, rfl⟩ | ⟨us, s1, rfl, rfl⟩
    · rcases hw with ⟨_, rfl⟩ | ⟨_, _, hc, _⟩
      · exact .inl ⟨rfl, rfl⟩
      · cases hc
    · rcases hw with ⟨hc, _⟩ | ⟨us', s2, e, rfl⟩
      · cases hc
      · cases e
        exact .inr ⟨us, s1, rfl, rfl⟩

end Whatami
