import Verif.Old.Reads

/-
The converse: whatever the parser of old-style ids accepts is the spaced text of a well-formed old-style id.
Definitions here are vocabulary for statements and proofs: the code they are about is cited in the model modules.
-/
namespace Whatami.Old

variable {n : Nat} {b : Bool} {s r : Str} {ts : List Tree}

/-- A repetition ends where its body fails. -/
theorem ok_star' {g : Rule → Peg} {x : Peg} (h : run g n b (.star x) s = .ok ts r) :
    ∃ m < n, (ts = [] ∧ r = s ∧ run g m false x s = .fail) ∨ (ts = [] ∧ run g m false x s = .ok [] r) ∨
      ∃ t us vs s1, run g m false x s = .ok (t :: us) s1 ∧ run g m false (.star x) s1 = .ok vs r ∧ ts = t :: us ++ vs := by
  cases n with
  | zero => cases h
  | succ n =>
    refine ⟨n, Nat.lt_succ_self n, ?_⟩
    simp only [run] at h
    cases hx : run g n false x s with
    | timeout => rw [hx] at h; cases h
    | fail => rw [hx] at h; cases h; exact .inl ⟨rfl, rfl, rfl⟩
    | ok us s1 =>
      rw [hx] at h
      cases us with
      | nil => cases h; exact .inr (.inl ⟨rfl, rfl⟩)
      | cons t us =>
        simp only at h
        cases hy : run g n false (.star x) s1 with
        | timeout => rw [hy] at h; cases h
        | fail => rw [hy] at h; cases h
        | ok vs s2 =>
          rw [hy] at h
          cases h
          exact .inr (.inr ⟨t, us, vs, s1, rfl, hy, rfl⟩)

theorem owfL_of {xs : List OAst} (h : ∀ x ∈ xs, OWf x) : OWfL xs := by
  induction xs with
  | nil => simp [OWfL]
  | cons x xs ih => simp only [OWfL]; exact ⟨h x (by simp), ih fun y hy => h y (by simp [hy])⟩
theorem owfD_of {xs : List (OAst × OAst)} (h : ∀ x ∈ xs, OWf x.1 ∧ OWf x.2) : OWfD xs := by
  induction xs with
  | nil => simp [OWfD]
  | cons x xs ih => simp only [OWfD]; exact ⟨(h x (by simp)).1, (h x (by simp)).2, ih fun y hy => h y (by simp [hy])⟩
theorem otoksL_map (xs : List OAst) : otoksL xs = xs.map otoks := by
  induction xs with
  | nil => rfl
  | cons x xs ih => simp [otoksL, ih]
theorem otreeL_map (xs : List OAst) : otreeL xs = xs.map otree := by
  induction xs with
  | nil => rfl
  | cons x xs ih => simp [otreeL, ih]

/-- The tokens of an item of a dict. -/
def otoks2 (x : OAst × OAst) : List Str := otoks x.1 ++ c!":" :: otoks x.2
/-- The otree of an item of a dict. -/
def otree2 (x : OAst × OAst) : Tree := .node .dictkv [otree x.1, tok c!":", otree x.2]
/-- The tokens of a parameter. -/
def otoksKv (x : Str × OAst) : List Str := x.1 :: c!"=" :: otoks x.2
/-- The otree of a parameter. -/
def otreeKv (x : Str × OAst) : Tree := .node .kv [idTree x.1, tok c!"=", otree x.2]

theorem otoksD_map (xs : List (OAst × OAst)) : otoksD xs = xs.map otoks2 := by
  induction xs with
  | nil => rfl
  | cons x xs ih => simp [otoksD, ih, otoks2]
theorem otreeD_map (xs : List (OAst × OAst)) : otreeD xs = xs.map otree2 := by
  induction xs with
  | nil => rfl
  | cons x xs ih => simp [otreeD, ih, otree2]
theorem otoksA_map (xs : List (Str × OAst)) : otoksA xs = xs.map otoksKv := by
  induction xs with
  | nil => rfl
  | cons x xs ih => simp [otoksA, ih, otoksKv]
theorem otreeA_map (xs : List (Str × OAst)) : otreeA xs = xs.map otreeKv := by
  induction xs with
  | nil => rfl
  | cons x xs ih => simp [otreeA, ih, otreeKv]

/-- No further parameter starts here. -/
def NoMore (r : Str) : Prop := ∀ ts r', ¬ Ev oldGrammar false (seq [.str c!"#", .ref .kv]) r (.ok ts r')

/-- All runs with less fuel are sound. -/
def SoundBelow (N : Nat) : Prop := ∀ {m b s ts r}, m < N → run oldGrammar m b (.ref .value) s = .ok ts r →
  ∃ a, OWf a ∧ ts = [otree a] ∧ Spells (otoks a) s r ∧ (Open a → NoMore r)

theorem SoundBelow.elem {N : Nat} (h : SoundBelow N) : ∀ {m b s ts r}, m < N → run oldGrammar m b (.ref .value) s = .ok ts r →
    ∃ a, OWf a ∧ ts = [otree a] ∧ Spells (otoks a) s r := by
  intro m b s ts r hm hr
  obtain ⟨a, h1, h2, h3, _⟩ := h hm hr
  exact ⟨a, h1, h2, h3⟩

theorem sound_dictkv {N : Nat} (hV : SoundBelow N) (hn : n ≤ N) (h : run oldGrammar n b (.ref .dictkv) s = .ok ts r) :
    ∃ x : OAst × OAst, (OWf x.1 ∧ OWf x.2) ∧ ts = [otree2 x] ∧ Spells (otoks2 x) s r := by
  obtain ⟨_, _, us, h1, rfl⟩ := ok_ref h
  obtain ⟨_, _, t1, t2, s1, e1, e2, rfl⟩ := ok_cat h1
  obtain ⟨_, _, t3, t4, s2, e3, e4, rfl⟩ := ok_cat e2
  obtain ⟨_, _, t5, t6, s3, e5, e6, rfl⟩ := ok_cat e4
  obtain ⟨rfl, rfl⟩ := ok_emp e6
  obtain ⟨k, hk, rfl, hs1⟩ := hV.elem (by omega) e1
  obtain ⟨rfl, h3⟩ := ok_str e3
  obtain ⟨v, hv, rfl, hs2⟩ := hV.elem (by omega) e5
  refine ⟨(k, v), ⟨hk, hv⟩, by simp [ruleResult, oldGrammar, newGrammar, seq, Peg.isMatch, otree2, tok], ?_⟩
  exact hs1.append ((spells_tok h3).append hs2)

theorem sound_kv {N : Nat} (hV : SoundBelow N) (hn : n ≤ N) (h : run oldGrammar n b (.ref .kv) s = .ok ts r) :
    ∃ x : Str × OAst, (Ident x.1 ∧ OWf x.2) ∧ ts = [otreeKv x] ∧ Spells (otoksKv x) s r ∧ (Open x.2 → NoMore r) := by
  obtain ⟨_, _, us, h1, rfl⟩ := ok_ref h
  obtain ⟨_, _, t1, t2, s1, e1, e2, rfl⟩ := ok_cat h1
  obtain ⟨_, _, t3, t4, s2, e3, e4, rfl⟩ := ok_cat e2
  obtain ⟨_, _, t5, t6, s3, e5, e6, rfl⟩ := ok_cat e4
  obtain ⟨rfl, rfl⟩ := ok_emp e6
  obtain ⟨k, hk, rfl, hs1⟩ := sound_id rfl e1
  obtain ⟨rfl, h3⟩ := ok_str e3
  obtain ⟨v, hv, rfl, hs2, ho⟩ := hV (by omega) e5
  refine ⟨(k, v), ⟨hk, hv⟩, by simp [ruleResult, oldGrammar, newGrammar, seq, Peg.isMatch, otreeKv, tok], ?_, ho⟩
  exact hs1.append ((spells_tok h3).append hs2)

/-- Parameters after the first. -/
theorem sound_hashRest {N : Nat} (hV : SoundBelow N) (hn : n ≤ N) (h : run oldGrammar n b (.star (seq [.str c!"#", .ref .kv])) s = .ok ts r) :
    ∃ xs : List (Str × OAst), OWfA xs ∧ ts = hashRestTrees (otreeA xs) ∧ Spells (hashRest (otoksA xs)) s r ∧ NoMore r ∧
      (xs ≠ [] → ¬ NoMore s) := by
  induction n using Nat.strongRecOn generalizing b s ts with
  | ind n ih =>
    obtain ⟨m, hm, ⟨rfl, rfl, h1⟩ | ⟨rfl, h1⟩ | ⟨t, us, vs, s1, h1, h2, rfl⟩⟩ := ok_star' h
    · refine ⟨[], trivial, rfl, Spells.nil _, ?_, fun h => absurd rfl h⟩
      intro ts r' h'
      cases h'.det ⟨by simp, m, h1⟩
    · obtain ⟨_, _, t1, t2, s1, e1, e2, e3⟩ := ok_cat h1
      obtain ⟨rfl, _⟩ := ok_str e1
      simp at e3
    · have hmore : ¬ NoMore s := fun h' => h' _ _ ⟨by simp, m, h1⟩
      obtain ⟨m1, hm1, t1, t2, s2, e1, e2, e3⟩ := ok_cat h1
      obtain ⟨rfl, h4⟩ := ok_str e1
      obtain ⟨m2, hm2, t3, t4, s3, e4, e5, rfl⟩ := ok_cat e2
      obtain ⟨rfl, rfl⟩ := ok_emp e5
      obtain ⟨⟨k, v⟩, hq, rfl, h5, ho⟩ := sound_kv hV (by omega) e4
      obtain ⟨xs, hqs, rfl, h6, h7, h8⟩ := ih m hm (by omega) h2
      simp only [List.append_nil, List.cons_append, List.nil_append, List.cons.injEq] at e3
      obtain ⟨rfl, rfl⟩ := e3
      refine ⟨(k, v) :: xs, ?_, by simp [otreeA, hashRestTrees, tok, otreeKv], ?_, h7, fun _ => hmore⟩
      · simp only [OWfA]
        exact ⟨hq.1, hq.2, fun hne hop => h8 hne (ho hop), hqs⟩
      · have := ((spells_tok h4).append h5).append h6
        simpa [otoksA, hashRest, otoksKv] using this

/-- The optional parameters. -/
theorem sound_hash {N : Nat} (hV : SoundBelow N) (hn : n ≤ N) (h : run oldGrammar n b (.opt (.ref .kvs)) s = .ok ts r) :
    ∃ xs : List (Str × OAst), OWfA xs ∧ ts = hashElems (otreeA xs) ∧ Spells (hashToks (otoksA xs)) s r ∧ (xs ≠ [] → NoMore r) := by
  obtain ⟨m, hm, h1 | ⟨rfl, rfl⟩⟩ := ok_opt h
  · obtain ⟨m1, hm1, us, h2, rfl⟩ := ok_ref h1
    obtain ⟨m2, hm2, t1, t2, s1, e1, e2, rfl⟩ := ok_cat h2
    obtain ⟨m3, hm3, t3, t4, s2, e3, e4, rfl⟩ := ok_cat e2
    obtain ⟨rfl, rfl⟩ := ok_emp e4
    obtain ⟨⟨k, v⟩, hq, rfl, h5, ho⟩ := sound_kv hV (by omega) e1
    obtain ⟨xs, hqs, rfl, h6, h7, h8⟩ := sound_hashRest hV (by omega) e3
    refine ⟨(k, v) :: xs, ?_, ?_, ?_, fun _ => h7⟩
    · simp only [OWfA]
      exact ⟨hq.1, hq.2, fun hne hop => h8 hne (ho hop), hqs⟩
    · simp [ruleResult, oldGrammar, seq, Peg.isMatch, otreeA, hashElems, otreeKv]
    · have := h5.append h6
      simpa [otoksA, hashToks, otoksKv] using this
  · exact ⟨[], trivial, rfl, Spells.nil _, fun h => absurd rfl h⟩

/-- An id, nested or not. -/
theorem sound_what {N : Nat} (hV : SoundBelow N) (hn : n ≤ N) (h : run oldGrammar n b (.ref .whatamiId) s = .ok ts r) :
    ∃ (q : Bool) (nm : Str) (kvs : List (Str × OAst)), Ident nm ∧ OWfA kvs ∧ ts = [oidTree q nm (otreeA kvs)] ∧
      Spells (otoks (.what q nm kvs)) s r ∧ (Open (.what q nm kvs) → NoMore r) := by
  obtain ⟨_, _, us, h1, rfl⟩ := ok_ref h
  obtain ⟨_, _, k | ⟨_, k⟩⟩ := ok_alt h1
  · obtain ⟨_, _, t1, t2, s1, e1, e2, rfl⟩ := ok_cat k
    obtain ⟨_, _, t3, t4, s2, e3, e4, rfl⟩ := ok_cat e2
    obtain ⟨_, _, t5, t6, s3, e5, e6, rfl⟩ := ok_cat e4
    obtain ⟨rfl, rfl⟩ := ok_emp e6
    obtain ⟨nm, hnm, rfl, hs1⟩ := sound_id rfl e1
    obtain ⟨rfl, h3⟩ := ok_str e3
    obtain ⟨kvs, hk, rfl, hs3, hm⟩ := sound_hash hV (by omega) e5
    refine ⟨false, nm, kvs, hnm, hk, ?_, ?_, ?_⟩
    · simp [ruleResult, oldGrammar, choice, Peg.isMatch, oidTree, quoteTree, tok]
    · have := hs1.append ((spells_tok h3).append hs3)
      simpa [otoks, quoteTok] using this
    · intro ho
      cases kvs with
      | nil => exact ho.elim
      | cons x kvs => exact hm (by simp)
  obtain ⟨_, _, k | ⟨_, k⟩⟩ := ok_alt k
  · obtain ⟨_, _, t0, t0', s0, e0, e0', rfl⟩ := ok_cat k
    obtain ⟨_, _, t1, t2, s1, e1, e2, rfl⟩ := ok_cat e0'
    obtain ⟨_, _, t3, t4, s2, e3, e4, rfl⟩ := ok_cat e2
    obtain ⟨_, _, t5, t6, s3, e5, e6, rfl⟩ := ok_cat e4
    obtain ⟨_, _, t7, t8, s4, e7, e8, rfl⟩ := ok_cat e6
    obtain ⟨rfl, rfl⟩ := ok_emp e8
    obtain ⟨rfl, h0⟩ := ok_str e0
    obtain ⟨nm, hnm, rfl, hs1⟩ := sound_id rfl e1
    obtain ⟨rfl, h3⟩ := ok_str e3
    obtain ⟨kvs, hk, rfl, hs3, hm⟩ := sound_hash hV (by omega) e5
    obtain ⟨rfl, h7⟩ := ok_str e7
    refine ⟨true, nm, kvs, hnm, hk, ?_, ?_, fun ho => ho.elim⟩
    · simp [ruleResult, oldGrammar, choice, Peg.isMatch, oidTree, quoteTree, tok]
    · have := (((spells_tok h0).append hs1).append ((spells_tok h3).append hs3)).append (spells_tok h7)
      simpa [otoks, quoteTok] using this
  exact (ok_never k).elim

theorem result_str {t s u : Str} (h : skipWs s = t ++ u) : Ev oldGrammar b (.str t) s (.ok [.term none b t] u) := .str h

/-- What starts with a reserved word is read as that word. -/
theorem nestedStart_of {s x u : Str} (hs : skipWs s = x ++ u) (h1 : NoResult oldGrammar (.ref .aNone) s)
    (h2 : NoResult oldGrammar (.ref .aBool) s) (h3 : NoResult oldGrammar (.ref .aNumber) s) : NestedStart x := by
  intro w hw ⟨v, hv⟩
  have hs' : skipWs s = w ++ (v ++ u) := by rw [hs, ← hv]; simp
  simp only [reserved, List.mem_cons, List.not_mem_nil, or_false] at hw
  have np : ∀ {c d : Char} {t v : Str}, skipWs s = c :: t → d ≠ c → ¬ (d :: v) <+: skipWs s := fun e h => by rw [e]; exact not_prefix h
  rcases hw with rfl | rfl | rfl | rfl | rfl
  · exact h1 _ _ _ (Ev.ref (r := .aNone) (g := oldGrammar) (b := false) (ts := [.term none false c!"None"]) (result_str hs'))
  · exact h2 _ _ _ (Ev.ref (r := .aBool) (g := oldGrammar) (b := false) (.alt (Ev.ref (r := .aTrue) (ts := [.term none false c!"True"]) (result_str hs'))))
  · exact h2 _ _ _ (Ev.ref (r := .aBool) (g := oldGrammar) (b := false) (.altNext (.refFail (.strFail (np hs' (by decide))))
      (.alt (Ev.ref (r := .aFalse) (ts := [.term none false c!"False"]) (result_str hs')))))
  · have hn : Rx.number.scan (skipWs s) = none := by rw [hs']; exact scanNumber_none (c := 'i') (u := c!"nf" ++ (v ++ u)) (by decide) (by decide)
    exact h3 _ _ _ (Ev.ref (r := .aNumber) (g := oldGrammar) (b := false) (.altNext (.rxFail hn) (.altNext (.strFail (np hs' (by decide)))
      (.alt (result_str hs')))))
  · have hn : Rx.number.scan (skipWs s) = none := by rw [hs']; exact scanNumber_none (c := 'n') (u := c!"an" ++ (v ++ u)) (by decide) (by decide)
    exact h3 _ _ _ (Ev.ref (r := .aNumber) (g := oldGrammar) (b := false) (.altNext (.rxFail hn) (.altNext (.strFail (np hs' (by decide)))
      (.altNext (.strFail (np hs' (by decide))) (.alt (result_str hs'))))))

theorem soundBelow : ∀ N, SoundBelow N := by
  intro N
  induction N with
  | zero => intro m b s ts r hm; omega
  | succ N hV =>
    intro m b s ts r hm h
    obtain ⟨m0, hm0, us, h0, rfl⟩ := ok_ref h
    have hX : ∀ {m b s ts r}, m < N → run oldGrammar m b (.ref .value) s = .ok ts r → ∃ a, OWf a ∧ ts = [otree a] ∧ Spells (otoks a) s r := hV.elem
    have fin : ∀ {a : OAst} {t : Tree}, OWf a → us = [t] → otree a = .node .value [t] → Spells (otoks a) s r → (Open a → NoMore r) →
        ∃ a, OWf a ∧ ruleResult .value (oldGrammar .value) us = [otree a] ∧ Spells (otoks a) s r ∧ (Open a → NoMore r) := by
      intro a t h1 h2 h3 h4 h5
      subst h2
      exact ⟨a, h1, by rw [h3]; simp [ruleResult, oldGrammar, newGrammar, choice, Peg.isMatch], h4, h5⟩
    obtain ⟨m1, hm1, k | ⟨n1, k⟩⟩ := ok_alt h0
    · obtain ⟨_, _, vs, k1, k2⟩ := ok_ref k
      obtain ⟨rfl, k3⟩ := ok_str k1
      exact fin (a := .none) (by simp [OWf]) k2 (by simp [otree]) (spells_tok k3) (fun h => h.elim)
    obtain ⟨m2, hm2, k | ⟨n2, k⟩⟩ := ok_alt k
    · obtain ⟨_, _, vs, k1, rfl⟩ := ok_ref k
      obtain ⟨_, _, k | ⟨_, k⟩⟩ := ok_alt k1
      · obtain ⟨_, _, ws, k5, rfl⟩ := ok_ref k
        obtain ⟨rfl, k3⟩ := ok_str k5
        exact fin (a := .bool true) (by simp [OWf]) rfl (by simp only [otree]; rfl) (by simp only [otoks]; exact spells_tok k3) (fun h => h.elim)
      · obtain ⟨_, _, k | ⟨_, k⟩⟩ := ok_alt k
        · obtain ⟨_, _, ws, k5, rfl⟩ := ok_ref k
          obtain ⟨rfl, k3⟩ := ok_str k5
          exact fin (a := .bool false) (by simp [OWf]) rfl (by simp only [otree]; rfl) (by simp only [otoks]; exact spells_tok k3) (fun h => h.elim)
        · exact (ok_never k).elim
    obtain ⟨m3, hm3, k | ⟨n3, k⟩⟩ := ok_alt k
    · obtain ⟨_, _, vs, k1, rfl⟩ := ok_ref k
      have : ∃ t, NumShape t ∧ vs = [.term none false t] ∧ Spells [t] s r := by
        obtain ⟨_, _, k | ⟨_, k⟩⟩ := ok_alt k1
        · obtain ⟨t, h1, rfl⟩ := ok_rx k
          refine ⟨t, scanNumber_shape h1, ?_, spells_tok (scan_append h1)⟩
          have : t.isEmpty = false := by
            obtain ⟨c, u, rfl, _⟩ := numShape_start (scanNumber_shape h1)
            rfl
          simp [this]
        obtain ⟨_, _, k | ⟨_, k⟩⟩ := ok_alt k
        · obtain ⟨rfl, k3⟩ := ok_str k
          exact ⟨_, .minusInf, rfl, spells_tok k3⟩
        obtain ⟨_, _, k | ⟨_, k⟩⟩ := ok_alt k
        · obtain ⟨rfl, k3⟩ := ok_str k
          exact ⟨_, .inf, rfl, spells_tok k3⟩
        obtain ⟨_, _, k | ⟨_, k⟩⟩ := ok_alt k
        · obtain ⟨rfl, k3⟩ := ok_str k
          exact ⟨_, .nan, rfl, spells_tok k3⟩
        exact (ok_never k).elim
      obtain ⟨t, h1, rfl, h3⟩ := this
      exact fin (a := .num t) (by simpa only [OWf] using h1) rfl (by simp [otree]) (by simpa only [otoks] using h3) (fun h => h.elim)
    obtain ⟨m4, hm4, k | ⟨n4, k⟩⟩ := ok_alt k
    · obtain ⟨body, h1, rfl, h3⟩ := sound_string (g := oldGrammar) rfl k
      exact fin (a := .str body) (by simpa only [OWf] using h1) rfl (by simp [otree]) (by simpa only [otoks] using h3) (fun h => h.elim)
    obtain ⟨m5, hm5, k | ⟨n5, k⟩⟩ := ok_alt k
    · obtain ⟨_, _, vs, k1, rfl⟩ := ok_ref k
      obtain ⟨xs, hq, rfl, hs⟩ := sound_bracket (rl := .listElements) (X := .ref .value) (N := N) rfl rfl hX (by omega) k1
      refine fin (a := .tuple xs) (by simp only [OWf]; exact owfL_of hq) rfl ?_ (by simp only [otoks, otoksL_map]; exact hs) (fun h => h.elim)
      simp [otree, otreeL_map]
    obtain ⟨m6, hm6, k | ⟨n6, k⟩⟩ := ok_alt k
    · obtain ⟨_, _, vs, k1, rfl⟩ := ok_ref k
      obtain ⟨xs, hq, rfl, hs⟩ := sound_bracket (rl := .listElements) (X := .ref .value) (N := N) rfl rfl hX (by omega) k1
      refine fin (a := .list xs) (by simp only [OWf]; exact owfL_of hq) rfl ?_ (by simp only [otoks, otoksL_map]; exact hs) (fun h => h.elim)
      simp [otree, otreeL_map]
    obtain ⟨m7, hm7, k | ⟨n7, k⟩⟩ := ok_alt k
    · obtain ⟨_, _, vs, k1, rfl⟩ := ok_ref k
      obtain ⟨_, _, k | ⟨_, k⟩⟩ := ok_alt k1
      · obtain ⟨_, _, ws, k5, rfl⟩ := ok_ref k
        obtain ⟨rfl, k3⟩ := ok_str k5
        exact fin (a := .set []) (by simp [OWf, OWfL]) rfl (by simp only [otree]; rfl) (by simp only [otoks]; exact spells_tok k3) (fun h => h.elim)
      obtain ⟨_, _, k | ⟨_, k⟩⟩ := ok_alt k
      · obtain ⟨_, _, ws, k5, rfl⟩ := ok_ref k
        obtain ⟨xs, hq, rfl, hs⟩ := sound_bracket (rl := .listElements) (X := .ref .value) (N := N) rfl rfl hX (by omega) k5
        cases hxs : xs with
        | nil =>
          subst hxs
          exact fin (a := .braces) (by simp [OWf]) rfl (by simp only [otree]; rfl) (by simp only [otoks]; exact hs) (fun h => h.elim)
        | cons y ys =>
          have hemp : xs.isEmpty = false := by rw [hxs]; rfl
          rw [← hxs]
          refine fin (a := .set xs) (by simp only [OWf]; exact owfL_of hq) rfl ?_ (by simp only [otoks, otoksL_map, hemp]; exact hs) (fun h => h.elim)
          simp only [otree, otreeL_map, hemp]; rfl
      exact (ok_never k).elim
    obtain ⟨m8, hm8, k | ⟨n8, k⟩⟩ := ok_alt k
    · obtain ⟨_, _, vs, k1, rfl⟩ := ok_ref k
      obtain ⟨xs, hq, rfl, hs⟩ := sound_bracket (rl := .dictElements) (X := .ref .dictkv) (N := N) rfl rfl
        (fun hm hr => sound_dictkv hV (by omega) hr) (by omega) k1
      have hne : xs ≠ [] := by
        rintro rfl
        -- `{}` is read as a set
        have hp : Spells (otoks .braces) s r := hs
        obtain ⟨p, rfl, hp⟩ := hp
        simp only [otoks] at hp
        obtain ⟨ws, s1, hw, e, _⟩ := padded_cons_iff.1 hp
        have hs := skipWs_tok (r := r) hw e (by decide)
        have e2 : Ev oldGrammar false (oldGrammar .aNonEmptySet) (p ++ r) _ :=
          ev_bracket (rl := .listElements) (X := .ref .value) (items := []) rfl (fun h _ hc u => listElements_fail h hc u) (by simp) (by simp) (noWs_cons (by decide)) rfl (.inr (.inr rfl)) hp
        have e3 : Ev oldGrammar false (oldGrammar .aSet) (p ++ r) _ := .altNext (.refFail (.strFail
          (by rw [hs]; exact not_prefix (by decide)))) (.alt (Ev.ref e2))
        exact n7 _ _ _ (Ev.ref e3)
      refine fin (a := .dict xs) (by simp only [OWf]; exact ⟨hne, owfD_of hq⟩) rfl ?_ (by simp only [otoks, otoksD_map]; exact hs) (fun h => h.elim)
      simp [otree, otreeD_map]
    obtain ⟨m10, hm10, k | ⟨n10, k⟩⟩ := ok_alt k
    · obtain ⟨q, nm, kvs, hnm, hk, rfl, hs, ho⟩ := sound_what (N := N) hV (by omega) k
      refine fin (a := .what q nm kvs) ?_ rfl (by simp [otree]) hs ho
      simp only [OWf]
      refine ⟨hnm, ?_, hk⟩
      rintro rfl
      obtain ⟨u, hu⟩ : ∃ u, skipWs s = nm ++ u := spells_start (by simpa [otoks, quoteTok] using hs) (ident_ne hnm) (ident_noWs hnm)
      exact nestedStart_of hu n1 n2 n3
    exact (ok_never k).elim

/-- Whatever the parser accepts is the spaced text of a well-formed id. -/
theorem sound_top (h : run oldGrammar n b (.ref .whatamiIdTop) s = .ok ts r) :
    ∃ (q : Bool) (nm : Str) (kvs : List (Str × OAst)), OldWf nm kvs ∧ OldLayout q nm kvs s ∧ ts = [otopTree q nm kvs] := by
  obtain ⟨_, _, us, h1, rfl⟩ := ok_ref h
  obtain ⟨_, _, t1, t2, s1, e1, e2, rfl⟩ := ok_cat h1
  obtain ⟨_, _, t3, t4, s2, e3, e4, rfl⟩ := ok_cat e2
  obtain ⟨rfl, rfl⟩ := ok_emp e4
  obtain ⟨q, nm, kvs, hnm, hk, rfl, ⟨p, rfl, hp⟩, _⟩ := sound_what (soundBelow _) (Nat.le_refl _) e1
  obtain ⟨rfl, h3, rfl⟩ := ok_eof e3
  obtain ⟨ws, hw, e⟩ := skipWs_split s1
  rw [h3] at e
  refine ⟨q, nm, kvs, ⟨hnm, hk⟩, ⟨p, s1, rfl, hp, by rw [e]; simpa using hw⟩, ?_⟩
  simp [ruleResult, oldGrammar, newGrammar, seq, Peg.isMatch, otopTree, tok]

end Whatami.Old
