import Verif.ParseLemmas

/-
The parser reads every well-formed value, however spaced, and builds its tree.
Definitions here are vocabulary for statements and proofs: the code they are about is cited in the model modules.
-/
namespace Whatami

variable {b : Bool}

/-! ### The alternatives of `value` -/

/-- The alternatives from `a_number` on. -/
def altsNum : Peg := choice [.ref .aNumber, .ref .aString, .ref .aTuple, .ref .aList, .ref .aSet, .ref .aDict, .ref .aClass, .ref .whatamiId]
/-- The alternatives from `a_string` on. -/
def altsStr : Peg := choice [.ref .aString, .ref .aTuple, .ref .aList, .ref .aSet, .ref .aDict, .ref .aClass, .ref .whatamiId]
/-- The alternatives from `a_set` on. -/
def altsSet : Peg := choice [.ref .aSet, .ref .aDict, .ref .aClass, .ref .whatamiId]

theorem to_num {s : Str} {o : Out} (h0 : ¬ c!"None" <+: skipWs s) (h1 : ¬ c!"True" <+: skipWs s) (h2 : ¬ c!"False" <+: skipWs s)
    (h : Ev newGrammar false altsNum s o) : Ev newGrammar b (newGrammar .value) s o :=
  .altNext (none_fail h0) (.altNext (bool_fail h1 h2) h)

theorem to_str {s : Str} {o : Out} (h0 : scanNumber (skipWs s) = none) (h1 : ¬ c!"-inf" <+: skipWs s) (h2 : ¬ c!"inf" <+: skipWs s)
    (h3 : ¬ c!"nan" <+: skipWs s) (h : Ev newGrammar false altsStr s o) : Ev newGrammar b altsNum s o :=
  .altNext (num_fail h0 h1 h2 h3) h

theorem to_set {s : Str} {o : Out} (h0 : ¬ c!"'" <+: skipWs s) (h1 : ¬ c!"(" <+: skipWs s) (h2 : ¬ c!"[" <+: skipWs s)
    (h : Ev newGrammar false altsSet s o) : Ev newGrammar b altsStr s o :=
  .altNext (str_fail h0) (.altNext (tuple_fail h1) (.altNext (list_fail h2) h))

/-- First characters of neither keywords nor numbers. -/
def plainStart (c : Char) : Bool := !(c == 'N' || c == 'T' || c == 'F' || c == '-' || c == 'i' || c == 'n' || isDig c)

theorem plain_to_str {s u : Str} {c : Char} {o : Out} (hs : skipWs s = c :: u) (hc : plainStart c = true)
    (h : Ev newGrammar false altsStr s o) : Ev newGrammar b (newGrammar .value) s o := by
  simp only [plainStart, Bool.not_eq_true', Bool.or_eq_false_iff, beq_eq_false_iff_ne] at hc
  obtain ⟨⟨⟨⟨⟨⟨h1, h2⟩, h3⟩, h4⟩, h5⟩, h6⟩, h7⟩ := hc
  refine to_num ?_ ?_ ?_ (to_str ?_ ?_ ?_ ?_ h) <;> rw [hs]
  · exact not_prefix h1.symm
  · exact not_prefix h2.symm
  · exact not_prefix h3.symm
  · exact scanNumber_none h4 h7
  · exact not_prefix h4.symm
  · exact not_prefix h5.symm
  · exact not_prefix h6.symm

theorem plain_to_set {s u : Str} {c : Char} {o : Out} (hs : skipWs s = c :: u) (hc : plainStart c = true)
    (h1 : c ≠ '\'') (h2 : c ≠ '(') (h3 : c ≠ '[') (h : Ev newGrammar false altsSet s o) : Ev newGrammar b (newGrammar .value) s o := by
  refine plain_to_str hs hc (to_set ?_ ?_ ?_ h) <;> rw [hs] <;> exact not_prefix (Ne.symm (by assumption))

/-- A value consisting of one tree. -/
theorem ev_value {s r : Str} {t : Tree} (h : Ev newGrammar b (newGrammar .value) s (.ok [t] r)) :
    Ev newGrammar b (.ref .value) s (.ok [.node .value [t]] r) := Ev.ref h

/-! ### Leaves -/

theorem value_none {ws r : Str} (hw : ws.all isWs = true) :
    Ev newGrammar b (.ref .value) (ws ++ (c!"None" ++ r)) (.ok [tree .none] r) := by
  have h : Ev newGrammar false (newGrammar .aNone) (ws ++ (c!"None" ++ r)) (.ok [.term none false c!"None"] r) :=
    ev_tok hw (by simp) (noWs_cons (by decide))
  exact ev_value (.alt (Ev.ref h))

theorem value_bool {ws r : Str} (hw : ws.all isWs = true) (x : Bool) :
    Ev newGrammar b (.ref .value) (ws ++ ((if x then c!"True" else c!"False") ++ r)) (.ok [tree (.bool x)] r) := by
  cases x with
  | true =>
    have hs : skipWs (ws ++ (c!"True" ++ r)) = c!"True" ++ r := skipWs_pad hw (noWs_cons (by decide))
    have h : Ev newGrammar false (newGrammar .aTrue) (ws ++ (c!"True" ++ r)) (.ok [.term none false c!"True"] r) :=
      ev_tok hw (by simp) (noWs_cons (by decide))
    have h2 : Ev newGrammar false (newGrammar .aBool) (ws ++ (c!"True" ++ r)) _ := .alt (Ev.ref h)
    have h3 : Ev newGrammar b (newGrammar .value) _ _ := .altNext (none_fail (by rw [hs]; exact not_prefix (by decide))) (.alt (Ev.ref h2))
    exact ev_value h3
  | false =>
    have hs : skipWs (ws ++ (c!"False" ++ r)) = c!"False" ++ r := skipWs_pad hw (noWs_cons (by decide))
    have h : Ev newGrammar false (newGrammar .aFalse) (ws ++ (c!"False" ++ r)) (.ok [.term none false c!"False"] r) :=
      ev_tok hw (by simp) (noWs_cons (by decide))
    have h2 : Ev newGrammar false (newGrammar .aBool) (ws ++ (c!"False" ++ r)) _ :=
      .altNext (.refFail (.strFail (by rw [hs]; exact not_prefix (by decide)))) (.alt (Ev.ref h))
    have h3 : Ev newGrammar b (newGrammar .value) _ _ := .altNext (none_fail (by rw [hs]; exact not_prefix (by decide))) (.alt (Ev.ref h2))
    exact ev_value h3

theorem numShape_start {t : Str} (h : NumShape t) : ∃ c u, t = c :: u ∧ isWs c = false ∧ c ≠ 'N' ∧ c ≠ 'T' ∧ c ≠ 'F' := by
  cases h with
  | digits neg hd hf he =>
    obtain ⟨d, u, rfl, hdd, _⟩ := digits_cons hd
    cases neg with
    | true => exact ⟨'-', _, rfl, by decide, by decide, by decide, by decide⟩
    | false => exact ⟨d, _, rfl, isDig_noWs hdd, by rintro rfl; simp [isDig] at hdd, by rintro rfl; simp [isDig] at hdd, by rintro rfl; simp [isDig] at hdd⟩
  | inf => exact ⟨'i', _, rfl, by decide, by decide, by decide, by decide⟩
  | minusInf => exact ⟨'-', _, rfl, by decide, by decide, by decide, by decide⟩
  | nan => exact ⟨'n', _, rfl, by decide, by decide, by decide, by decide⟩

theorem num_ok {ws t r : Str} (hw : ws.all isWs = true) (ht : NumShape t) (hr : Delim r) :
    Ev newGrammar false (newGrammar .aNumber) (ws ++ (t ++ r)) (.ok [.term none false t] r) := by
  obtain ⟨c, u, e, hc, _⟩ := numShape_start ht
  have hs : skipWs (ws ++ (t ++ r)) = t ++ r := skipWs_pad hw (by rw [e]; exact noWs_cons hc)
  cases ht with
  | digits neg hd hf he => exact .alt (.rx (by rw [hs]; exact scanNumber_ok hd hf he (delim_num hr)) (by rw [e]; simp))
  | inf =>
    replace hs : skipWs (ws ++ (c!"inf" ++ r)) = 'i' :: (c!"nf" ++ r) := hs
    refine .altNext (.rxFail ?_) (.altNext (.strFail ?_) (.alt (ev_tok hw (by simp) (noWs_cons (by decide))))) <;> rw [hs]
    · exact scanNumber_none (c := 'i') (u := c!"nf" ++ r) (by decide) (by decide)
    · exact not_prefix (by decide)
  | minusInf =>
    refine .altNext (.rxFail ?_) (.alt (ev_tok hw (by simp) (noWs_cons (by decide)))); rw [hs]
    rfl
  | nan =>
    replace hs : skipWs (ws ++ (c!"nan" ++ r)) = 'n' :: (c!"an" ++ r) := hs
    refine .altNext (.rxFail ?_) (.altNext (.strFail ?_) (.altNext (.strFail ?_) (.alt (ev_tok hw (by simp) (noWs_cons (by decide)))))) <;> rw [hs]
    · exact scanNumber_none (c := 'n') (u := c!"an" ++ r) (by decide) (by decide)
    · exact not_prefix (by decide)
    · exact not_prefix (by decide)

theorem value_num {ws t r : Str} (hw : ws.all isWs = true) (ht : NumShape t) (hr : Delim r) :
    Ev newGrammar b (.ref .value) (ws ++ (t ++ r)) (.ok [tree (.num t)] r) := by
  obtain ⟨c, u, e, hc, h1, h2, h3⟩ := numShape_start ht
  have hs : skipWs (ws ++ (t ++ r)) = c :: (u ++ r) := by rw [e]; exact skipWs_pad hw (noWs_cons hc)
  refine ev_value (to_num ?_ ?_ ?_ (.alt (Ev.ref (num_ok hw ht hr)))) <;> rw [hs] <;> exact not_prefix (Ne.symm (by assumption))

theorem value_str {ws ws1 body r : Str} (hw : ws.all isWs = true) (hw1 : ws1.all isWs = true) (hb : GoodBody body) :
    Ev newGrammar b (.ref .value) (ws ++ (c!"'" ++ (ws1 ++ (body ++ c!"'" ++ r)))) (.ok [tree (.str body)] r) := by
  have hs : skipWs (ws ++ (c!"'" ++ (ws1 ++ (body ++ c!"'" ++ r)))) = '\'' :: (ws1 ++ (body ++ c!"'" ++ r)) := skipWs_pad hw (noWs_cons (by decide))
  exact ev_value (plain_to_str hs (by decide) (.alt (ev_string hw hw1 hb)))

theorem value_class {body s r : Str} (hp : Padded (toks (.cls body)) s) (hb : GoodBody body) :
    Ev newGrammar b (.ref .value) (s ++ r) (.ok [tree (.cls body)] r) := by
  simp only [toks] at hp
  obtain ⟨ws, s1, hw, rfl, hp1⟩ := padded_cons_iff.1 hp
  obtain ⟨ws1, s2, hw1, rfl, hp2⟩ := padded_cons_iff.1 hp1
  obtain ⟨ws2, s3, hw2, rfl, hp3⟩ := padded_cons_iff.1 hp2
  obtain ⟨ws3, s4, hw3, rfl, hp4⟩ := padded_cons_iff.1 hp3
  cases hp4
  generalize hin : ws1 ++ (c!"'" ++ (ws2 ++ (body ++ c!"'" ++ (ws3 ++ (c!">" ++ r))))) = tail
  have e1 : Ev newGrammar true (.str c!"<class ") (ws ++ (c!"<class " ++ tail)) (.ok [tok c!"<class "] tail) :=
    ev_tok hw (by simp) (noWs_cons (by decide))
  have e2 : Ev newGrammar true (.ref .aString) tail (.ok [strTree body] (ws3 ++ (c!">" ++ r))) := by rw [← hin]; exact ev_string hw1 hw2 hb
  have e3 : Ev newGrammar true (.str c!">") (ws3 ++ (c!">" ++ r)) (.ok [tok c!">"] r) := ev_tok hw3 (by simp) (noWs_cons (by decide))
  have e4 : Ev newGrammar false (newGrammar .aClass) (ws ++ (c!"<class " ++ tail)) _ := .cat e1 (.cat e2 (.cat e3 (.emp _)))
  have hs : skipWs (ws ++ (c!"<class " ++ tail)) = '<' :: (c!"class " ++ tail) := skipWs_pad hw (noWs_cons (by decide))
  have np : ∀ {d : Char} {t : Str}, d ≠ '<' → ¬ (d :: t) <+: skipWs (ws ++ (c!"<class " ++ tail)) :=
    fun h => by rw [hs]; exact not_prefix h
  have := ev_value (b := b) (plain_to_set hs (by decide) (by decide) (by decide) (by decide)
    (.altNext (set_fail (np (by decide)) (np (by decide)) (np (by decide)) (np (by decide))) (.altNext (dict_fail (np (by decide))) (.alt (Ev.ref e4)))))
  rw [← hin] at this
  simpa [tree, ruleResult, newGrammar, seq, Peg.isMatch, tok] using this

/-! ### Collections -/

/-- Bracketed elements. -/
theorem ev_bracket {rl : Rule} {X : Peg} {op cl : Str} (hrl : newGrammar rl = seq [X, .star (seq [.ref .listSep, X])])
    (hfail : ∀ {ws : Str}, ws.all isWs = true → ∀ {c : Char}, (c = ')' ∨ c = ']' ∨ c = '}') → ∀ u,
      Ev newGrammar false (.ref rl) (ws ++ c :: u) .fail)
    {items : List (List Str × Tree)}
    (hX : ∀ p ∈ items, ∀ s, Padded p.1 s → ∀ r, Delim r → ∀ b, Ev newGrammar b X (s ++ r) (.ok [p.2] r))
    (hop : op ≠ []) (hopw : NoWs op) {d : Char} {v : Str} (hcl : cl = d :: v) (hd : d = ')' ∨ d = ']' ∨ d = '}')
    {s r : Str} (hp : Padded (op :: sepToks (items.map Prod.fst) ++ [cl]) s) :
    Ev newGrammar b (seq [.str op, .opt (.ref rl), .str cl]) (s ++ r)
      (.ok (tok op :: elems rl (items.map Prod.snd) ++ [tok cl]) r) := by
  subst hcl
  simp only [List.cons_append] at hp
  obtain ⟨ws, s1, hw, rfl, hp1⟩ := padded_cons_iff.1 hp
  obtain ⟨s2, s3, rfl, hk, hp2⟩ := padded_append hp1
  obtain ⟨ws1, s4, hw1, rfl, hp3⟩ := padded_cons_iff.1 hp2
  cases hp3
  have hdw : isWs d = false := by rcases hd with rfl | rfl | rfl <;> decide
  have e1 : Ev newGrammar true (.str op) (ws ++ (op ++ (s2 ++ (ws1 ++ d :: (v ++ r))))) (.ok [tok op] _) := ev_tok hw hop hopw
  have e2 := ev_elems (b := true) hrl hfail hX hk ⟨ws1, d, v ++ r, hw1, rfl, hd⟩
  have e3 : Ev newGrammar true (.str (d :: v)) (ws1 ++ (d :: v ++ r)) (.ok [tok (d :: v)] r) := ev_tok hw1 (by simp) (noWs_cons hdw)
  have := Ev.cat (b := b) e1 (Ev.cat e2 (Ev.cat e3 (Ev.emp _)))
  simpa [seq] using this

/-- Bracketed elements, at least one. -/
theorem ev_bracket1 {X : Peg} {rl : Rule} {op cl : Str} (hrl : newGrammar rl = seq [X, .star (seq [.ref .listSep, X])])
    {items : List (List Str × Tree)} (hne : items ≠ [])
    (hX : ∀ p ∈ items, ∀ s, Padded p.1 s → ∀ r, Delim r → ∀ b, Ev newGrammar b X (s ++ r) (.ok [p.2] r))
    (hop : op ≠ []) (hopw : NoWs op) {d : Char} {v : Str} (hcl : cl = d :: v) (hd : d = ')' ∨ d = ']' ∨ d = '}')
    {s r : Str} (hp : Padded (op :: sepToks (items.map Prod.fst) ++ [cl]) s) :
    Ev newGrammar b (seq [.str op, .ref rl, .str cl]) (s ++ r)
      (.ok (tok op :: elems rl (items.map Prod.snd) ++ [tok cl]) r) := by
  subst hcl
  simp only [List.cons_append] at hp
  obtain ⟨ws, s1, hw, rfl, hp1⟩ := padded_cons_iff.1 hp
  obtain ⟨s2, s3, rfl, hk, hp2⟩ := padded_append hp1
  obtain ⟨ws1, s4, hw1, rfl, hp3⟩ := padded_cons_iff.1 hp2
  cases hp3
  have hdw : isWs d = false := by rcases hd with rfl | rfl | rfl <;> decide
  have e1 : Ev newGrammar true (.str op) (ws ++ (op ++ (s2 ++ (ws1 ++ d :: (v ++ r))))) (.ok [tok op] _) := ev_tok hw hop hopw
  have e2 := ev_sep (b := true) hne hX hk ⟨ws1, d, v ++ r, hw1, rfl, hd⟩
  rw [← hrl] at e2
  have e3 : Ev newGrammar true (.str (d :: v)) (ws1 ++ (d :: v ++ r)) (.ok [tok (d :: v)] r) := ev_tok hw1 (by simp) (noWs_cons hdw)
  have := Ev.cat (b := b) e1 (Ev.cat (Ev.ref e2) (Ev.cat e3 (Ev.emp _)))
  cases items with
  | nil => exact absurd rfl hne
  | cons p items =>
    simp only [ruleResult, hrl, seq, List.foldr, Peg.isMatch, List.map_cons, sepTrees_cons, elems] at this ⊢
    simpa using this

/-- What a list of syntax looks like to the lemmas on comma-separated lists. -/
def itemsL (xs : List Ast) : List (List Str × Tree) := xs.map fun x => (toks x, tree x)
/-- The same for the items of a dict. -/
def itemsD (xs : List (Ast × Ast)) : List (List Str × Tree) :=
  xs.map fun x => (toks x.1 ++ c!":" :: toks x.2, .node .dictkv [tree x.1, tok c!":", tree x.2])
/-- The same for parameters. -/
def itemsA (xs : List (Str × Ast)) : List (List Str × Tree) :=
  xs.map fun x => (x.1 :: c!"=" :: toks x.2, .node .kv [idTree x.1, tok c!"=", tree x.2])

theorem itemsL_toks (xs : List Ast) : (itemsL xs).map Prod.fst = toksL xs := by
  induction xs with
  | nil => rfl
  | cons x xs ih => simp only [itemsL, List.map_cons, toksL] at ih ⊢; rw [ih]
theorem itemsL_trees (xs : List Ast) : (itemsL xs).map Prod.snd = treeL xs := by
  induction xs with
  | nil => rfl
  | cons x xs ih => simp only [itemsL, List.map_cons, treeL] at ih ⊢; rw [ih]
theorem itemsD_toks (xs : List (Ast × Ast)) : (itemsD xs).map Prod.fst = toksD xs := by
  induction xs with
  | nil => rfl
  | cons x xs ih => simp only [itemsD, List.map_cons, toksD] at ih ⊢; rw [ih]
theorem itemsD_trees (xs : List (Ast × Ast)) : (itemsD xs).map Prod.snd = treeD xs := by
  induction xs with
  | nil => rfl
  | cons x xs ih => simp only [itemsD, List.map_cons, treeD] at ih ⊢; rw [ih]
theorem itemsA_toks (xs : List (Str × Ast)) : (itemsA xs).map Prod.fst = toksA xs := by
  induction xs with
  | nil => rfl
  | cons x xs ih => simp only [itemsA, List.map_cons, toksA] at ih ⊢; rw [ih]
theorem itemsA_trees (xs : List (Str × Ast)) : (itemsA xs).map Prod.snd = treeA xs := by
  induction xs with
  | nil => rfl
  | cons x xs ih => simp only [itemsA, List.map_cons, treeA] at ih ⊢; rw [ih]

/-- Reading `a` as a value. -/
def Reads (a : Ast) : Prop :=
  ∀ s, Padded (toks a) s → ∀ r, Delim r → ∀ b, Ev newGrammar b (.ref .value) (s ++ r) (.ok [tree a] r)

theorem skipWs_tok {ws s' s r : Str} (hw : ws.all isWs = true) {c : Char} {u : Str} (hs : s' = ws ++ (c :: u ++ s)) (hc : isWs c = false) :
    skipWs (s' ++ r) = c :: (u ++ s ++ r) := by
  subst hs
  have := skipWs_pad (s := c :: u ++ s ++ r) hw (noWs_cons hc)
  simpa using this

theorem value_tuple {xs : List Ast} (h : ∀ x ∈ xs, Reads x) : Reads (.tuple xs) := by
  intro s hp r _ b
  simp only [toks, ← itemsL_toks] at hp
  obtain ⟨ws, s1, hw, e, _⟩ := padded_cons_iff.1 hp
  have hs := skipWs_tok (r := r) hw e (by decide)
  have hX : ∀ p ∈ itemsL xs, ∀ s, Padded p.1 s → ∀ r, Delim r → ∀ b, Ev newGrammar b (.ref .value) (s ++ r) (.ok [p.2] r) := by
    intro p hpm
    obtain ⟨x, hx, rfl⟩ := List.mem_map.1 hpm
    exact h x hx
  have e1 : Ev newGrammar false (newGrammar .aTuple) (s ++ r) _ :=
    ev_bracket (rl := .listElements) rfl (fun h _ hc u => listElements_fail h hc u) hX (by simp) (noWs_cons (by decide)) rfl (.inl rfl) hp
  have := ev_value (b := b) (plain_to_str hs (by decide) (.altNext (str_fail (by rw [hs]; exact not_prefix (by decide))) (.alt (Ev.ref e1))))
  rw [itemsL_trees] at this
  simpa [tree, ruleResult, newGrammar, seq, Peg.isMatch] using this

theorem value_list {xs : List Ast} (h : ∀ x ∈ xs, Reads x) : Reads (.list xs) := by
  intro s hp r _ b
  simp only [toks, ← itemsL_toks] at hp
  obtain ⟨ws, s1, hw, e, _⟩ := padded_cons_iff.1 hp
  have hs := skipWs_tok (r := r) hw e (by decide)
  have hX : ∀ p ∈ itemsL xs, ∀ s, Padded p.1 s → ∀ r, Delim r → ∀ b, Ev newGrammar b (.ref .value) (s ++ r) (.ok [p.2] r) := by
    intro p hpm
    obtain ⟨x, hx, rfl⟩ := List.mem_map.1 hpm
    exact h x hx
  have e1 : Ev newGrammar false (newGrammar .aList) (s ++ r) _ :=
    ev_bracket (rl := .listElements) rfl (fun h _ hc u => listElements_fail h hc u) hX (by simp) (noWs_cons (by decide)) rfl (.inr (.inl rfl)) hp
  have := ev_value (b := b) (plain_to_str hs (by decide) (.altNext (str_fail (by rw [hs]; exact not_prefix (by decide)))
    (.altNext (tuple_fail (by rw [hs]; exact not_prefix (by decide))) (.alt (Ev.ref e1)))))
  rw [itemsL_trees] at this
  simpa [tree, ruleResult, newGrammar, seq, Peg.isMatch] using this

theorem value_set {xs : List Ast} (h : ∀ x ∈ xs, Reads x) : Reads (.set xs) := by
  intro s hp r _ b
  cases xs with
  | nil =>
    simp only [toks, List.isEmpty_nil, if_true] at hp
    obtain ⟨ws, s1, hw, rfl, hp1⟩ := padded_cons_iff.1 hp
    cases hp1
    have hs : skipWs (ws ++ (c!"set()" ++ []) ++ r) = _ := skipWs_tok hw rfl (by decide)
    have e1 : Ev newGrammar false (newGrammar .anEmptySet) (ws ++ (c!"set()" ++ []) ++ r) (.ok [.term none false c!"set()"] r) := by
      have : Ev newGrammar false (newGrammar .anEmptySet) (ws ++ (c!"set()" ++ r)) (.ok [.term none false c!"set()"] r) :=
        .alt (ev_tok hw (by simp) (noWs_cons (by decide)))
      simpa using this
    have e2 : Ev newGrammar false (newGrammar .aSet) (ws ++ (c!"set()" ++ []) ++ r) _ := .alt (Ev.ref e1)
    have := ev_value (b := b) (plain_to_set hs (by decide) (by decide) (by decide) (by decide) (.alt (Ev.ref e2)))
    simpa [tree, ruleResult, newGrammar, choice, Peg.isMatch] using this
  | cons x0 xs =>
    generalize hxs : x0 :: xs = ys at *
    have hne : ys ≠ [] := by rw [← hxs]; simp
    have hemp : ys.isEmpty = false := by rw [← hxs]; rfl
    simp only [toks, hemp, Bool.false_eq_true, if_false, ← itemsL_toks] at hp
    obtain ⟨ws, s1, hw, e, _⟩ := padded_cons_iff.1 hp
    have hs := skipWs_tok (r := r) hw e (by decide)
    have hX : ∀ p ∈ itemsL ys, ∀ s, Padded p.1 s → ∀ r, Delim r → ∀ b, Ev newGrammar b (.ref .value) (s ++ r) (.ok [p.2] r) := by
      intro p hpm
      obtain ⟨x, hx, rfl⟩ := List.mem_map.1 hpm
      exact h x hx
    have hne' : itemsL ys ≠ [] := by simpa [itemsL] using hne
    have e1 := ev_bracket1 (b := false) (r := r) (rl := .listElements) rfl hne' hX (by simp) (noWs_cons (by decide)) rfl (.inr (.inr rfl)) hp
    have e2 : Ev newGrammar false (newGrammar .aNonEmptySet) (s ++ r) _ := .alt e1
    have e3 : Ev newGrammar false (newGrammar .aSet) (s ++ r) _ := .altNext (emptySet_fail
      (by rw [hs]; exact not_prefix (by decide)) (by rw [hs]; exact not_prefix (by decide))) (.alt (Ev.ref e2))
    have := ev_value (b := b) (plain_to_set hs (by decide) (by decide) (by decide) (by decide) (.alt (Ev.ref e3)))
    rw [itemsL_trees] at this
    simpa [tree, hemp, hne, ruleResult, newGrammar, choice, Peg.isMatch] using this

theorem value_fset {xs : List Ast} (h : ∀ x ∈ xs, Reads x) : Reads (.fset xs) := by
  intro s hp r _ b
  cases xs with
  | nil =>
    simp only [toks, List.isEmpty_nil, if_true] at hp
    obtain ⟨ws, s1, hw, rfl, hp1⟩ := padded_cons_iff.1 hp
    cases hp1
    have hs : skipWs (ws ++ (c!"frozenset()" ++ []) ++ r) = _ := skipWs_tok hw rfl (by decide)
    have e1 : Ev newGrammar false (newGrammar .anEmptySet) (ws ++ (c!"frozenset()" ++ []) ++ r) (.ok [.term none false c!"frozenset()"] r) := by
      have : Ev newGrammar false (newGrammar .anEmptySet) (ws ++ (c!"frozenset()" ++ r)) (.ok [.term none false c!"frozenset()"] r) :=
        .altNext (.strFail (by simp only [List.append_nil, List.append_assoc] at hs; rw [hs]; exact not_prefix (by decide)))
          (.alt (ev_tok hw (by simp) (noWs_cons (by decide))))
      simpa using this
    have e2 : Ev newGrammar false (newGrammar .aSet) (ws ++ (c!"frozenset()" ++ []) ++ r) _ := .alt (Ev.ref e1)
    have := ev_value (b := b) (plain_to_set hs (by decide) (by decide) (by decide) (by decide) (.alt (Ev.ref e2)))
    simpa [tree, ruleResult, newGrammar, choice, Peg.isMatch] using this
  | cons x0 xs =>
    generalize hxs : x0 :: xs = ys at *
    have hne : ys ≠ [] := by rw [← hxs]; simp
    have hemp : ys.isEmpty = false := by rw [← hxs]; rfl
    simp only [toks, hemp, Bool.false_eq_true, if_false, ← itemsL_toks] at hp
    obtain ⟨ws, s1, hw, e, _⟩ := padded_cons_iff.1 hp
    have hs := skipWs_tok (r := r) hw e (by decide)
    have hX : ∀ p ∈ itemsL ys, ∀ s, Padded p.1 s → ∀ r, Delim r → ∀ b, Ev newGrammar b (.ref .value) (s ++ r) (.ok [p.2] r) := by
      intro p hpm
      obtain ⟨x, hx, rfl⟩ := List.mem_map.1 hpm
      exact h x hx
    have hne' : itemsL ys ≠ [] := by simpa [itemsL] using hne
    have e1 := ev_bracket1 (b := false) (r := r) (rl := .listElements) rfl hne' hX (by simp) (noWs_cons (by decide)) rfl (.inr (.inr rfl)) hp
    have e2 : Ev newGrammar false (newGrammar .aNonEmptySet) (s ++ r) _ :=
      .altNext (.catFail (.strFail (by rw [hs]; exact not_prefix (by decide)))) (.alt e1)
    have e3 : Ev newGrammar false (newGrammar .aSet) (s ++ r) _ := .altNext (emptySet_fail
      (by rw [hs]; exact not_prefix (by decide)) (by rw [hs]; simp [List.cons_prefix_cons])) (.alt (Ev.ref e2))
    have := ev_value (b := b) (plain_to_set hs (by decide) (by decide) (by decide) (by decide) (.alt (Ev.ref e3)))
    rw [itemsL_trees] at this
    simpa [tree, hemp, hne, ruleResult, newGrammar, choice, Peg.isMatch] using this

theorem ev_dictkv {k v : Ast} (hk : Reads k) (hv : Reads v) {s : Str} (hp : Padded (toks k ++ c!":" :: toks v) s) {r : Str} (hr : Delim r) :
    Ev newGrammar b (.ref .dictkv) (s ++ r) (.ok [.node .dictkv [tree k, tok c!":", tree v]] r) := by
  obtain ⟨s1, s2, rfl, h1, h2⟩ := padded_append hp
  obtain ⟨ws, s3, hw, rfl, h3⟩ := padded_cons_iff.1 h2
  have e1 := hk s1 h1 (ws ++ (c!":" ++ (s3 ++ r))) (delim_pad hw (by decide) _) true
  have e2 : Ev newGrammar true (.str c!":") (ws ++ (c!":" ++ (s3 ++ r))) (.ok [tok c!":"] _) := ev_tok hw (by simp) (noWs_cons (by decide))
  have e3 := hv s3 h3 r hr true
  have e4 : Ev newGrammar b (newGrammar .dictkv) (s1 ++ (ws ++ (c!":" ++ (s3 ++ r)))) _ := .cat e1 (.cat e2 (.cat e3 (.emp _)))
  have := Ev.ref e4
  simpa [ruleResult, newGrammar, seq, Peg.isMatch] using this

/-- A dict is not a set: after the first key comes a colon. -/
theorem dict_not_set {k v : Ast} {xs : List (Ast × Ast)} (hk : Reads k) {s : Str}
    (hp : Padded (c!"{" :: sepToks (toksD ((k, v) :: xs)) ++ [c!"}"]) s) (r : Str) :
    Ev newGrammar b (seq [.str c!"{", .ref .listElements, .str c!"}"]) (s ++ r) .fail := by
  simp only [toksD, sepToks_cons, List.cons_append, List.append_assoc] at hp
  obtain ⟨ws, s1, hw, rfl, hp1⟩ := padded_cons_iff.1 hp
  obtain ⟨s2, s3, rfl, h1, hp2⟩ := padded_append hp1
  obtain ⟨ws1, s4, hw1, rfl, hp3⟩ := padded_cons_iff.1 hp2
  have hsc : skipWs (ws1 ++ (c!":" ++ (s4 ++ r))) = ':' :: (s4 ++ r) := skipWs_pad hw1 (noWs_cons (by decide))
  have e1 : Ev newGrammar true (.str c!"{") (ws ++ (c!"{" ++ (s2 ++ (ws1 ++ (c!":" ++ (s4 ++ r)))))) (.ok [tok c!"{"] _) :=
    ev_tok hw (by simp) (noWs_cons (by decide))
  have e2 := hk s2 h1 (ws1 ++ (c!":" ++ (s4 ++ r))) (delim_pad hw1 (by decide) _) true
  have e3 : Ev newGrammar true (.star (seq [.ref .listSep, .ref .value])) (ws1 ++ (c!":" ++ (s4 ++ r))) (.ok [] _) :=
    .starEnd (.catFail (.refFail (.strFail (by rw [hsc]; exact not_prefix (by decide)))))
  have e4 : Ev newGrammar true (newGrammar .listElements) (s2 ++ (ws1 ++ (c!":" ++ (s4 ++ r)))) _ := .cat e2 (.cat e3 (.emp _))
  have e5 : Ev newGrammar true (seq [.str c!"}"]) (ws1 ++ (c!":" ++ (s4 ++ r))) .fail :=
    .catFail (.strFail (by rw [hsc]; exact not_prefix (by decide)))
  have := Ev.catFail2 (b := b) e1 (Ev.catFail2 (Ev.ref e4) e5)
  simpa [seq] using this

theorem value_dict {xs : List (Ast × Ast)} (h : ∀ x ∈ xs, Reads x.1 ∧ Reads x.2) : Reads (.dict xs) := by
  intro s hp r _ b
  have hp' := hp
  simp only [toks] at hp'
  simp only [toks, ← itemsD_toks] at hp
  obtain ⟨ws, s1, hw, e, _⟩ := padded_cons_iff.1 hp
  have hs := skipWs_tok (r := r) hw e (by decide)
  have hX : ∀ p ∈ itemsD xs, ∀ s, Padded p.1 s → ∀ r, Delim r → ∀ b, Ev newGrammar b (.ref .dictkv) (s ++ r) (.ok [p.2] r) := by
    intro p hpm
    obtain ⟨x, hx, rfl⟩ := List.mem_map.1 hpm
    exact fun s hp r hr b => ev_dictkv (h x hx).1 (h x hx).2 hp hr
  have e1 : Ev newGrammar false (newGrammar .aDict) (s ++ r) _ :=
    ev_bracket (rl := .dictElements) rfl (fun h _ hc u => dictElements_fail h hc u) hX (by simp) (noWs_cons (by decide)) rfl (.inr (.inr rfl)) hp
  have hset : Ev newGrammar false (seq [.str c!"{", .ref .listElements, .str c!"}"]) (s ++ r) .fail := by
    cases xs with
    | nil =>
      simp only [toksD, sepToks, List.cons_append, List.nil_append] at hp'
      obtain ⟨ws, s1, hw, rfl, hp1⟩ := padded_cons_iff.1 hp'
      obtain ⟨ws1, s2, hw1, rfl, hp2⟩ := padded_cons_iff.1 hp1
      cases hp2
      have e1 : Ev newGrammar true (.str c!"{") (ws ++ (c!"{" ++ (ws1 ++ (c!"}" ++ r)))) (.ok [tok c!"{"] _) :=
        ev_tok hw (by simp) (noWs_cons (by decide))
      have e2 : Ev newGrammar true (.ref .listElements) (ws1 ++ (c!"}" ++ r)) .fail := listElements_fail hw1 (.inr (.inr rfl)) r
      have := Ev.catFail2 (b := false) e1 (Ev.catFail (y := seq [.str c!"}"]) e2)
      simpa [seq] using this
    | cons x xs => exact dict_not_set (h x (by simp)).1 hp' r
  have np : ∀ {d : Char} {t : Str}, d ≠ '{' → ¬ (d :: t) <+: skipWs (s ++ r) := fun h => by rw [hs]; exact not_prefix h
  have e2 : Ev newGrammar false (.ref .aSet) (s ++ r) .fail :=
    .refFail (.altNext (emptySet_fail (np (by decide)) (np (by decide))) (.altNext (.refFail (.altNext hset
      (.altNext (.catFail (.strFail (np (by decide)))) (.never _)))) (.never _)))
  have := ev_value (b := b) (plain_to_set hs (by decide) (by decide) (by decide) (by decide) (.altNext e2 (.alt (Ev.ref e1))))
  rw [itemsD_trees] at this
  simpa [tree, ruleResult, newGrammar, seq, Peg.isMatch] using this

/-! ### Nested ids -/

theorem ev_kv {k : Str} {v : Ast} (hk : Ident k) (hv : Reads v) {s : Str} (hp : Padded (k :: c!"=" :: toks v) s) {r : Str} (hr : Delim r) :
    Ev newGrammar b (.ref .kv) (s ++ r) (.ok [.node .kv [idTree k, tok c!"=", tree v]] r) := by
  obtain ⟨ws, s1, hw, rfl, h1⟩ := padded_cons_iff.1 hp
  obtain ⟨ws1, s2, hw1, rfl, h2⟩ := padded_cons_iff.1 h1
  have e1 : Ev newGrammar true (.ref .anId) (ws ++ (k ++ (ws1 ++ '=' :: (s2 ++ r)))) _ := ev_id hw hk (endsToken_pad hw1 (by decide) _)
  have e2 : Ev newGrammar true (.str c!"=") (ws1 ++ (c!"=" ++ (s2 ++ r))) (.ok [tok c!"="] _) := ev_tok hw1 (by simp) (noWs_cons (by decide))
  have e3 := hv s2 h2 r hr true
  have e4 : Ev newGrammar b (newGrammar .kv) (ws ++ (k ++ (ws1 ++ (c!"=" ++ (s2 ++ r))))) _ := .cat e1 (.cat e2 (.cat e3 (.emp _)))
  have := Ev.ref e4
  simpa [ruleResult, newGrammar, seq, Peg.isMatch] using this

theorem hX_kv {kvs : List (Str × Ast)} (h : ∀ x ∈ kvs, Ident x.1 ∧ Reads x.2) :
    ∀ p ∈ itemsA kvs, ∀ s, Padded p.1 s → ∀ r, Delim r → ∀ b, Ev newGrammar b (.ref .kv) (s ++ r) (.ok [p.2] r) := by
  intro p hpm
  obtain ⟨x, hx, rfl⟩ := List.mem_map.1 hpm
  exact fun s hp r hr b => ev_kv (h x hx).1 (h x hx).2 hp hr

/-- After the first name of an id comes `=`, or `(`, which is directly followed by `)` only if there are no parameters. -/
theorem what_rest {o : Option Str} {n : Str} {kvs : List (Str × Ast)} (hk : ∀ x ∈ kvs, Ident x.1) {s : Str}
    (hp : Padded (outToks o ++ n :: c!"(" :: sepToks (toksA kvs) ++ [c!")"]) s) (r : Str) :
    ∃ ws rest, ws.all isWs = true ∧ s ++ r = ws ++ ((o.getD n) ++ rest) ∧ EndsToken rest ∧
      (∀ t, c!"()" ++ t = rest → o = none ∧ kvs = []) ∧ ¬ c!"({" <+: rest := by
  cases o with
  | some x =>
    simp only [outToks, List.cons_append, List.nil_append] at hp
    obtain ⟨ws, s1, hw, rfl, hp1⟩ := padded_cons_iff.1 hp
    obtain ⟨ws1, s2, hw1, rfl, hp2⟩ := padded_cons_iff.1 hp1
    have hno : ∀ t, '(' :: t ≠ ws1 ++ '=' :: (s2 ++ r) := by
      intro t e
      cases ws1 with
      | nil => simp at e
      | cons c ws1 =>
        simp only [List.all_cons, Bool.and_eq_true] at hw1
        simp only [List.cons_append, List.cons.injEq] at e
        rw [← e.1] at hw1
        exact absurd hw1.1 (by decide)
    refine ⟨ws, ws1 ++ '=' :: (s2 ++ r), hw, by simp, endsToken_pad hw1 (by decide) _, fun t e => absurd e (hno _), ?_⟩
    rintro ⟨t, e⟩
    exact hno _ e
  | none =>
    simp only [outToks, List.cons_append, List.nil_append] at hp
    obtain ⟨ws, s1, hw, rfl, hp1⟩ := padded_cons_iff.1 hp
    obtain ⟨ws1, s2, hw1, rfl, hp2⟩ := padded_cons_iff.1 hp1
    refine ⟨ws, ws1 ++ '(' :: (s2 ++ r), hw, by simp, endsToken_pad hw1 (by decide) _, ?_, ?_⟩
    · intro t e
      refine ⟨rfl, ?_⟩
      cases ws1 with
      | cons c ws1 =>
        simp only [List.all_cons, Bool.and_eq_true] at hw1
        simp only [List.cons_append, List.cons.injEq] at e
        rw [← e.1] at hw1
        exact absurd hw1.1 (by decide)
      | nil =>
        simp only [List.cons_append, List.nil_append, List.cons.injEq, true_and] at e
        cases kvs with
        | nil => rfl
        | cons x kvs =>
          simp only [toksA, sepToks_cons, List.cons_append] at hp2
          obtain ⟨ws2, s3, hw2, rfl, hp3⟩ := padded_cons_iff.1 hp2
          obtain ⟨c, u, hx, hc, _⟩ := hk x (by simp)
          rw [hx] at e
          cases ws2 with
          | nil =>
            simp only [List.cons_append, List.nil_append, List.cons.injEq] at e
            rw [← e.1] at hc
            exact absurd hc (by decide)
          | cons d ws2 =>
            simp only [List.all_cons, Bool.and_eq_true] at hw2
            simp only [List.cons_append, List.cons.injEq] at e
            rw [← e.1] at hw2
            exact absurd hw2.1 (by decide)
    · rintro ⟨t, e⟩
      cases ws1 with
      | cons c ws1 =>
        simp only [List.all_cons, Bool.and_eq_true] at hw1
        simp only [List.cons_append, List.cons.injEq] at e
        rw [← e.1] at hw1
        exact absurd hw1.1 (by decide)
      | nil =>
        simp only [List.cons_append, List.nil_append, List.cons.injEq, true_and] at e
        cases kvs with
        | nil =>
          simp only [toksA, sepToks, List.nil_append] at hp2
          obtain ⟨ws2, s3, hw2, rfl, hp3⟩ := padded_cons_iff.1 hp2
          cases ws2 with
          | nil => simp at e
          | cons d ws2 =>
            simp only [List.all_cons, Bool.and_eq_true] at hw2
            simp only [List.cons_append, List.cons.injEq] at e
            rw [← e.1] at hw2
            exact absurd hw2.1 (by decide)
        | cons x kvs =>
          simp only [toksA, sepToks_cons, List.cons_append] at hp2
          obtain ⟨ws2, s3, hw2, rfl, hp3⟩ := padded_cons_iff.1 hp2
          obtain ⟨c, u, hx, hc, _⟩ := hk x (by simp)
          rw [hx] at e
          cases ws2 with
          | nil =>
            simp only [List.cons_append, List.nil_append, List.cons.injEq] at e
            rw [← e.1] at hc
            exact absurd hc (by decide)
          | cons d ws2 =>
            simp only [List.all_cons, Bool.and_eq_true] at hw2
            simp only [List.cons_append, List.cons.injEq] at e
            rw [← e.1] at hw2
            exact absurd hw2.1 (by decide)

theorem idStart_not {c d : Char} (h : isIdStart c = true) (hd : isIdStart d = false) : d ≠ c := by
  rintro rfl; rw [h] at hd; cases hd

theorem idStart_not_dig {c : Char} (h : isIdStart c = true) : isDig c = false := by
  cases hd : isDig c with
  | false => rfl
  | true =>
    simp only [isDig, decide_eq_true_eq] at hd
    simp only [isIdStart, Bool.or_eq_true, beq_iff_eq, decide_eq_true_eq] at h
    rcases h with (rfl | h) | h
    · exact absurd hd (by decide)
    · omega
    · omega

theorem value_what {o : Option Str} {n : Str} {kvs : List (Str × Ast)} (ho : ∀ x, o = some x → Ident x) (hn : Ident n)
    (hst : NestedStart (o.getD n)) (hset : o = none → kvs = [] → n ≠ c!"set" ∧ n ≠ c!"frozenset")
    (hk : ∀ x ∈ kvs, Ident x.1 ∧ Reads x.2) : Reads (.what o n kvs) := by
  intro s hp r _ b
  simp only [toks] at hp
  obtain ⟨ws, rest, hw, e, hend, hcall, hbr⟩ := what_rest (r := r) (fun x hx => (hk x hx).1) hp
  have hst1 : Ident (o.getD n) := by cases o with | none => exact hn | some x => exact ho x rfl
  have hs : skipWs (s ++ r) = o.getD n ++ rest := by
    rw [e]; exact skipWs_pad hw (noWs_append (ident_ne hst1) (ident_noWs hst1))
  have hall := ident_all hst1
  obtain ⟨c, u, hcu, hc, _⟩ := hst1
  have hs2 : skipWs (s ++ r) = c :: (u ++ rest) := by rw [hs, hcu]; rfl
  have hres : ∀ w ∈ reserved, w.all isIdChar = true → ¬ w <+: skipWs (s ++ r) := by
    intro w hw hwa h
    rw [hs] at h
    exact hst w hw (prefix_name hwa hend h)
  have np : ∀ {d : Char} {t : Str}, isIdStart d = false → ¬ (d :: t) <+: skipWs (s ++ r) := fun h => by
    rw [hs2]; exact not_prefix (idStart_not hc h)
  have e1 := ev_what (b := false) (r := r) (items := itemsA kvs) ho hn (hX_kv hk) (by rw [itemsA_toks]; exact hp)
  rw [itemsA_trees] at e1
  have hsetfail : Ev newGrammar false (.ref .aSet) (s ++ r) .fail := by
    refine set_fail ?_ ?_ (np (by decide)) ?_
    · intro h
      rw [hs] at h
      obtain ⟨h1, t, h2⟩ := prefix_call (w := c!"set") (t := c!")") (by decide) hall hend h
      obtain ⟨rfl, h4⟩ := hcall t h2
      exact (hset rfl h4).1 h1
    · intro h
      rw [hs] at h
      obtain ⟨h1, t, h2⟩ := prefix_call (w := c!"frozenset") (t := c!")") (by decide) hall hend h
      obtain ⟨rfl, h4⟩ := hcall t h2
      exact (hset rfl h4).2 h1
    · intro h
      rw [hs] at h
      exact hbr (prefix_call (w := c!"frozenset") (t := c!"{") (by decide) hall hend h).2
  have hv : Ev newGrammar b (newGrammar .value) (s ++ r) _ :=
    to_num (hres _ (by simp [reserved]) (by decide)) (hres _ (by simp [reserved]) (by decide)) (hres _ (by simp [reserved]) (by decide))
      (to_str (by rw [hs2]; exact scanNumber_none (idStart_not hc (by decide)).symm (idStart_not_dig hc))
        (np (by decide)) (hres _ (by simp [reserved]) (by decide)) (hres _ (by simp [reserved]) (by decide))
        (to_set (np (by decide)) (np (by decide)) (np (by decide))
          (.altNext hsetfail (.altNext (dict_fail (np (by decide))) (.altNext (class_fail (np (by decide))) (.alt e1))))))
  exact ev_value hv

/-! ### All values -/

mutual
theorem reads : ∀ (a : Ast), Wf a → NoSetCall a → Reads a
  | .none, _, _ => fun s hp r _ b => by
      simp only [toks] at hp
      obtain ⟨ws, s1, hw, rfl, hp1⟩ := padded_cons_iff.1 hp
      cases hp1
      have := value_none (b := b) (r := r) hw
      simpa using this
  | .bool x, _, _ => fun s hp r _ b => by
      simp only [toks] at hp
      obtain ⟨ws, s1, hw, rfl, hp1⟩ := padded_cons_iff.1 hp
      cases hp1
      have := value_bool (b := b) (r := r) hw x
      simpa using this
  | .num t, h, _ => fun s hp r hr b => by
      simp only [toks] at hp
      obtain ⟨ws, s1, hw, rfl, hp1⟩ := padded_cons_iff.1 hp
      cases hp1
      have := value_num (b := b) (t := t) hw (by simpa only [Wf] using h) hr
      simpa using this
  | .str t, h, _ => fun s hp r _ b => by
      simp only [toks] at hp
      obtain ⟨ws, s1, hw, rfl, hp1⟩ := padded_cons_iff.1 hp
      obtain ⟨ws1, s2, hw1, rfl, hp2⟩ := padded_cons_iff.1 hp1
      cases hp2
      have := value_str (b := b) (r := r) hw hw1 (by simpa only [Wf] using h)
      simpa using this
  | .cls t, h, _ => fun s hp r _ b => value_class hp (by simpa only [Wf] using h)
  | .tuple xs, h, hs => value_tuple (readsL xs (by simpa only [Wf] using h) (by simpa only [NoSetCall] using hs))
  | .list xs, h, hs => value_list (readsL xs (by simpa only [Wf] using h) (by simpa only [NoSetCall] using hs))
  | .set xs, h, hs => value_set (readsL xs (by simpa only [Wf] using h) (by simpa only [NoSetCall] using hs))
  | .fset xs, h, hs => value_fset (readsL xs (by simpa only [Wf] using h) (by simpa only [NoSetCall] using hs))
  | .dict kvs, h, hs => value_dict (readsD kvs (by simpa only [Wf] using h) (by simpa only [NoSetCall] using hs))
  | .what o n kvs, h, hs => by
      simp only [Wf] at h
      simp only [NoSetCall] at hs
      exact value_what h.1 h.2.1 h.2.2.1 hs.1 (readsA kvs h.2.2.2 hs.2)
termination_by structural a => a
theorem readsL : ∀ (xs : List Ast), WfL xs → NoSetCallL xs → ∀ x ∈ xs, Reads x
  | [], _, _ => fun x hx => absurd hx (by simp)
  | y :: ys, h, hs => by
      simp only [WfL] at h
      simp only [NoSetCallL] at hs
      intro x hx
      rcases List.mem_cons.1 hx with e | hx
      · rw [e]; exact reads y h.1 hs.1
      · exact readsL ys h.2 hs.2 x hx
termination_by structural xs => xs
theorem readsD : ∀ (xs : List (Ast × Ast)), WfD xs → NoSetCallD xs → ∀ x ∈ xs, Reads x.1 ∧ Reads x.2
  | [], _, _ => fun x hx => absurd hx (by simp)
  | (k, v) :: ys, h, hs => by
      simp only [WfD] at h
      simp only [NoSetCallD] at hs
      intro x hx
      rcases List.mem_cons.1 hx with e | hx
      · rw [e]; exact ⟨reads k h.1 hs.1, reads v h.2.1 hs.2.1⟩
      · exact readsD ys h.2.2 hs.2.2 x hx
termination_by structural xs => xs
theorem readsA : ∀ (xs : List (Str × Ast)), WfA xs → NoSetCallA xs → ∀ x ∈ xs, Ident x.1 ∧ Reads x.2
  | [], _, _ => fun x hx => absurd hx (by simp)
  | (k, v) :: ys, h, hs => by
      simp only [WfA] at h
      simp only [NoSetCallA] at hs
      intro x hx
      rcases List.mem_cons.1 hx with e | hx
      · rw [e]; exact ⟨h.1, reads v h.2.1 hs.1⟩
      · exact readsA ys h.2.2 hs.2 x hx
termination_by structural xs => xs
end

/-- A whole id: any spacing before each token and at the end. -/
theorem reads_top {o : Option Str} {n : Str} {kvs : List (Str × Ast)} (ho : ∀ x, o = some x → Ident x) (hn : Ident n) (hk : WfA kvs)
    (hc : NoSetCallA kvs) {s ws : Str} (hp : Padded (toks (.what o n kvs)) s) (hw : ws.all isWs = true) :
    Ev newGrammar false (.ref .whatamiIdTop) (s ++ ws) (.ok [topTree o n kvs] []) := by
  simp only [toks] at hp
  have e1 := ev_what (b := true) (r := ws) (items := itemsA kvs) ho hn (hX_kv (readsA kvs hk hc)) (by rw [itemsA_toks]; exact hp)
  rw [itemsA_trees] at e1
  have e2 : Ev newGrammar true .eof ws (.ok [tok []] []) := Ev.eof (by
    have := skipWs_pad (s := []) hw (fun _ _ e => by cases e)
    simpa using this)
  have e3 : Ev newGrammar false (newGrammar .whatamiIdTop) (s ++ ws) _ := .cat e1 (.cat e2 (.emp _))
  exact Ev.ref e3

end Whatami
