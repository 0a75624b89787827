import Verif.Old.Ast

/-
The parser of old-style ids reads every well-formed id, however spaced, and builds its tree.
Definitions here are vocabulary for statements and proofs: the code they are about is cited in the model modules.
-/
namespace Whatami.Old

variable {b : Bool}

/-- What may follow a value. -/
def Follow (r : Str) : Prop := skipWs r = [] ∨ ∃ c u, skipWs r = c :: u ∧ c ∈ [',', ')', ']', '}', ':', '#', '"']

/-- What may follow an element of a collection. -/
def LFollow (r : Str) : Prop := ∃ c u, skipWs r = c :: u ∧ c ∈ [',', ')', ']', '}', ':']

/-- The first character is whitespace, or the first after whitespace. -/
theorem first_of {r : Str} {c : Char} {u : Str} (e : r = c :: u) : isWs c = true ∨ skipWs r = c :: u := by
  subst e
  cases h : isWs c with
  | true => exact .inl rfl
  | false => exact .inr (skipWs_noWs (noWs_cons h))

theorem follow_char {r : Str} (h : Follow r) {c : Char} {u : Str} (e : r = c :: u) :
    isWs c = true ∨ c ∈ [',', ')', ']', '}', ':', '#', '"'] := by
  rcases first_of e with hw | hs
  · exact .inl hw
  · rcases h with h | ⟨d, v, h, hd⟩
    · rw [hs] at h; cases h
    · rw [hs] at h; cases h; exact .inr hd

theorem follow_num {r : Str} (h : Follow r) : EndsNum r := by
  intro c u e
  rcases follow_char h e with h | h
  · rcases ws_cases h with rfl | rfl | rfl | rfl <;> decide
  · simp only [List.mem_cons, List.not_mem_nil, or_false] at h
    rcases h with rfl | rfl | rfl | rfl | rfl | rfl | rfl <;> decide

theorem lfollow {r : Str} (h : LFollow r) : Follow r := by
  obtain ⟨c, u, h, hc⟩ := h
  refine .inr ⟨c, u, h, ?_⟩
  simp only [List.mem_cons, List.not_mem_nil, or_false] at hc ⊢
  rcases hc with rfl | rfl | rfl | rfl | rfl <;> simp

theorem lfollow_hash {r : Str} (h : LFollow r) : ¬ c!"#" <+: skipWs r := by
  obtain ⟨c, u, h, hc⟩ := h
  rw [h]
  apply not_prefix
  simp only [List.mem_cons, List.not_mem_nil, or_false] at hc
  rcases hc with rfl | rfl | rfl | rfl | rfl <;> decide

/-- Whitespace and then one of the characters. -/
theorem lfollow_pad {ws : Str} (hw : ws.all isWs = true) {c : Char} (hc : c ∈ [',', ')', ']', '}', ':']) (u : Str) : LFollow (ws ++ c :: u) := by
  refine ⟨c, u, skipWs_pad hw (noWs_cons ?_), hc⟩
  simp only [List.mem_cons, List.not_mem_nil, or_false] at hc
  rcases hc with rfl | rfl | rfl | rfl | rfl <;> decide

theorem closes_lfollow {r : Str} (h : Closes r) : LFollow r := by
  obtain ⟨ws, c, u, hw, rfl, hc⟩ := h
  refine lfollow_pad hw ?_ u
  rcases hc with rfl | rfl | rfl <;> decide

/-- A token is read by the string match for it. -/
theorem ev_tok {ws t s : Str} (hw : ws.all isWs = true) (hne : t ≠ []) (ht : NoWs t) :
    Ev oldGrammar b (.str t) (ws ++ (t ++ s)) (.ok [.term none b t] s) :=
  .str (skipWs_pad hw (noWs_append hne ht))

/-! ### Alternatives that do not apply -/

theorem none_fail {s : Str} (h : ¬ c!"None" <+: skipWs s) : Ev oldGrammar b (.ref .aNone) s .fail := .refFail (.strFail h)

theorem bool_fail {s : Str} (h1 : ¬ c!"True" <+: skipWs s) (h2 : ¬ c!"False" <+: skipWs s) :
    Ev oldGrammar b (.ref .aBool) s .fail :=
  .refFail (.altNext (.refFail (.strFail h1)) (.altNext (.refFail (.strFail h2)) (.never _)))

theorem num_fail {s : Str} (h : scanNumber (skipWs s) = none) (h1 : ¬ c!"-inf" <+: skipWs s) (h2 : ¬ c!"inf" <+: skipWs s)
    (h3 : ¬ c!"nan" <+: skipWs s) : Ev oldGrammar b (.ref .aNumber) s .fail :=
  .refFail (.altNext (.rxFail h) (.altNext (.strFail h1) (.altNext (.strFail h2) (.altNext (.strFail h3) (.never _)))))

theorem str_fail {s : Str} (h : ¬ c!"'" <+: skipWs s) : Ev oldGrammar b (.ref .aString) s .fail := .refFail (.catFail (.strFail h))
theorem tuple_fail {s : Str} (h : ¬ c!"(" <+: skipWs s) : Ev oldGrammar b (.ref .aTuple) s .fail := .refFail (.catFail (.strFail h))
theorem list_fail {s : Str} (h : ¬ c!"[" <+: skipWs s) : Ev oldGrammar b (.ref .aList) s .fail := .refFail (.catFail (.strFail h))
theorem dict_fail {s : Str} (h : ¬ c!"{" <+: skipWs s) : Ev oldGrammar b (.ref .aDict) s .fail := .refFail (.catFail (.strFail h))
theorem set_fail {s : Str} (h1 : ¬ c!"set()" <+: skipWs s) (h3 : ¬ c!"{" <+: skipWs s) : Ev oldGrammar b (.ref .aSet) s .fail :=
  .refFail (.altNext (.refFail (.strFail h1)) (.altNext (.refFail (.catFail (.strFail h3))) (.never _)))

theorem id_fail {s : Str} (h : ∀ c u, skipWs s = c :: u → isIdStart c = false) : Ev oldGrammar b (.ref .anId) s .fail := by
  refine .refFail (.rxFail ?_)
  cases hs : skipWs s with
  | nil => rfl
  | cons c u => simp [Rx.scan, h c u hs]

theorem what_fail {s : Str} (h : ∀ c u, skipWs s = c :: u → isIdStart c = false ∧ c ≠ '"') : Ev oldGrammar b (.ref .whatamiId) s .fail := by
  refine .refFail (.altNext (.catFail (id_fail fun c u e => (h c u e).1)) (.altNext (.catFail (.strFail ?_)) (.never _)))
  cases hs : skipWs s with
  | nil => simp
  | cons c u => exact not_prefix (h c u hs).2.symm

/-- No value begins with a closing bracket. -/
theorem value_fail_close {ws : Str} (hw : ws.all isWs = true) {c : Char} (hc : c = ')' ∨ c = ']' ∨ c = '}') (u : Str) :
    Ev oldGrammar b (.ref .value) (ws ++ c :: u) .fail := by
  have hs : skipWs (ws ++ c :: u) = c :: u := skipWs_pad hw (noWs_cons (by rcases hc with rfl | rfl | rfl <;> decide))
  have np : ∀ d t, d ≠ ')' → d ≠ ']' → d ≠ '}' → ¬ (d :: t) <+: skipWs (ws ++ c :: u) := by
    intro d t h1 h2 h3
    rw [hs]
    apply not_prefix
    rcases hc with rfl | rfl | rfl <;> assumption
  refine .refFail (.altNext (none_fail ?_) (.altNext (bool_fail ?_ ?_) (.altNext (num_fail ?_ ?_ ?_ ?_) (.altNext (str_fail ?_)
    (.altNext (tuple_fail ?_) (.altNext (list_fail ?_) (.altNext (set_fail ?_ ?_) (.altNext (dict_fail ?_)
    (.altNext (what_fail ?_) (.never _))))))))))
  case refine_4 => rw [hs]; rcases hc with rfl | rfl | rfl <;> exact scanNumber_none (by decide) (by decide)
  case refine_14 =>
    intro d v e
    rw [hs] at e
    cases e
    rcases hc with rfl | rfl | rfl <;> decide
  all_goals exact np _ _ (by decide) (by decide) (by decide)

theorem listElements_fail {ws : Str} (hw : ws.all isWs = true) {c : Char} (hc : c = ')' ∨ c = ']' ∨ c = '}') (u : Str) :
    Ev oldGrammar b (.ref .listElements) (ws ++ c :: u) .fail := .refFail (.catFail (value_fail_close hw hc u))

theorem dictElements_fail {ws : Str} (hw : ws.all isWs = true) {c : Char} (hc : c = ')' ∨ c = ']' ∨ c = '}') (u : Str) :
    Ev oldGrammar b (.ref .dictElements) (ws ++ c :: u) .fail := .refFail (.catFail (.refFail (.catFail (value_fail_close hw hc u))))

theorem delim_star {ts : List (List Str)} {s r : Str} (hp : Padded (starToks ts) s) (hr : Closes r) : LFollow (s ++ r) := by
  cases ts with
  | nil => cases hp; exact closes_lfollow hr
  | cons t ts =>
    obtain ⟨ws, s', hw, rfl, _⟩ := padded_cons_iff.1 hp
    have := lfollow_pad hw (c := ',') (by decide) (s' ++ r)
    simpa using this

theorem sep_end {r : Str} (hr : Closes r) : Ev oldGrammar b (.ref .listSep) r .fail := by
  obtain ⟨ws, c, u, hw, rfl, hc⟩ := hr
  refine .refFail (.strFail ?_)
  rw [skipWs_pad hw (noWs_cons (by rcases hc with rfl | rfl | rfl <;> decide))]
  exact not_prefix (by rcases hc with rfl | rfl | rfl <;> decide)

theorem ev_star {X : Peg} {items : List (List Str × Tree)}
    (hX : ∀ p ∈ items, ∀ s, Padded p.1 s → ∀ r, LFollow r → ∀ b, Ev oldGrammar b X (s ++ r) (.ok [p.2] r))
    {s r : Str} (hp : Padded (starToks (items.map Prod.fst)) s) (hr : Closes r) :
    Ev oldGrammar b (.star (seq [.ref .listSep, X])) (s ++ r) (.ok (starTrees (items.map Prod.snd)) r) := by
  induction items generalizing s b with
  | nil => cases hp; exact .starEnd (.catFail (sep_end hr))
  | cons p items ih =>
    simp only [List.map_cons, starToks, List.cons_append] at hp
    obtain ⟨ws, s', hw, rfl, h'⟩ := padded_cons_iff.1 hp
    obtain ⟨s1, s2, rfl, h1, h2⟩ := padded_append h'
    have hd := delim_star h2 hr
    have e1 : Ev oldGrammar true (.ref .listSep) (ws ++ (c!"," ++ (s1 ++ s2 ++ r))) (.ok [.term (some .listSep) true c!","] (s1 ++ s2 ++ r)) :=
      Ev.ref (g := oldGrammar) (r := .listSep) (ts := [.term none true c!","]) (ev_tok (t := c!",") hw (by simp) (noWs_cons (by decide)))
    have e2 := hX p (by simp) s1 h1 (s2 ++ r) hd true
    have e3 := ih (b := false) (fun q hq => hX q (by simp [hq])) h2
    rw [List.append_assoc s1 s2 r] at e1
    have e4 : Ev oldGrammar false (seq [.ref .listSep, X]) (ws ++ (c!"," ++ (s1 ++ (s2 ++ r))))
        (.ok [.term (some .listSep) true c!",", p.2] (s2 ++ r)) := .cat e1 (.cat e2 (.emp _))
    have := Ev.star (b := b) e4 e3
    simpa [starTrees] using this

theorem ev_sep {X : Peg} {items : List (List Str × Tree)} (hne : items ≠ [])
    (hX : ∀ p ∈ items, ∀ s, Padded p.1 s → ∀ r, LFollow r → ∀ b, Ev oldGrammar b X (s ++ r) (.ok [p.2] r))
    {s r : Str} (hp : Padded (sepToks (items.map Prod.fst)) s) (hr : Closes r) :
    Ev oldGrammar b (seq [X, .star (seq [.ref .listSep, X])]) (s ++ r) (.ok (sepTrees (items.map Prod.snd)) r) := by
  cases items with
  | nil => exact absurd rfl hne
  | cons p items =>
    simp only [List.map_cons, sepToks_cons, sepTrees_cons] at hp ⊢
    obtain ⟨s1, s2, rfl, h1, h2⟩ := padded_append hp
    have e1 := hX p (by simp) s1 h1 (s2 ++ r) (delim_star h2 hr) true
    have e2 := ev_star (b := true) (fun q hq => hX q (by simp [hq])) h2 hr
    rw [List.append_assoc]
    have : Ev oldGrammar b (seq [X, .star (seq [.ref .listSep, X])]) (s1 ++ (s2 ++ r))
        (.ok ([p.2] ++ (starTrees (items.map Prod.snd) ++ [])) r) := .cat e1 (.cat e2 (.emp _))
    simpa using this

/-- The elements of a collection, if any, up to the closing bracket. -/
theorem ev_elems {rl : Rule} {X : Peg} (hrl : oldGrammar rl = seq [X, .star (seq [.ref .listSep, X])])
    (hfail : ∀ {ws : Str}, ws.all isWs = true → ∀ {c : Char}, (c = ')' ∨ c = ']' ∨ c = '}') → ∀ u,
      Ev oldGrammar false (.ref rl) (ws ++ c :: u) .fail)
    {items : List (List Str × Tree)}
    (hX : ∀ p ∈ items, ∀ s, Padded p.1 s → ∀ r, LFollow r → ∀ b, Ev oldGrammar b X (s ++ r) (.ok [p.2] r))
    {s r : Str} (hp : Padded (sepToks (items.map Prod.fst)) s) (hr : Closes r) :
    Ev oldGrammar b (.opt (.ref rl)) (s ++ r) (.ok (elems rl (items.map Prod.snd)) r) := by
  cases items with
  | nil =>
    cases hp
    obtain ⟨ws, c, u, hw, rfl, hc⟩ := hr
    exact .optNone (hfail hw hc u)
  | cons p items =>
    have h := ev_sep (b := false) (X := X) (items := p :: items) (by simp) hX hp hr
    rw [← hrl] at h
    have := Ev.opt (b := b) (Ev.ref h)
    simp only [ruleResult, hrl, seq, List.foldr, Peg.isMatch, List.map_cons, sepTrees_cons, elems] at this ⊢
    simpa using this

/-! ### String literals -/

theorem ev_string {ws ws1 body r : Str} (hw : ws.all isWs = true) (hw1 : ws1.all isWs = true) (hb : GoodBody body) :
    Ev oldGrammar b (.ref .aString) (ws ++ (c!"'" ++ (ws1 ++ (body ++ c!"'" ++ r)))) (.ok [strTree body] r) := by
  have h1 : Ev oldGrammar true (.str c!"'") (ws ++ (c!"'" ++ (ws1 ++ (body ++ (c!"'" ++ r))))) (.ok [tok c!"'"] (ws1 ++ (body ++ (c!"'" ++ r)))) :=
    ev_tok hw (by simp) (noWs_cons (by decide))
  have hnw : NoWs (body ++ (c!"'" ++ r)) := by
    cases hbd : body with
    | nil => exact noWs_cons (by decide)
    | cons c u => exact noWs_cons (hb.2 c u hbd)
  have hscan : Rx.body.scan (skipWs (ws1 ++ (body ++ (c!"'" ++ r)))) = some (body, c!"'" ++ r) := by
    rw [skipWs_pad hw1 hnw]
    simp only [Rx.scan]
    exact congrArg some (scanBody_ok hb.1 r)
  have h2 : Ev oldGrammar true (.rx .body) (ws1 ++ (body ++ (c!"'" ++ r)))
      (.ok (if body.isEmpty then [] else [.term none false body]) (c!"'" ++ r)) := by
    cases hbd : body with
    | nil => rw [hbd] at hscan; exact .rxNil hscan
    | cons c u => rw [hbd] at hscan; exact .rx hscan (by simp)
  have h3 : Ev oldGrammar true (.str c!"'") (c!"'" ++ r) (.ok [tok c!"'"] r) := ev_tok (ws := []) rfl (by simp) (noWs_cons (by decide))
  have := Ev.ref (r := .aString) (b := b) (Ev.cat h1 (Ev.cat h2 (Ev.cat h3 (Ev.emp _))))
  simp only [ruleResult, oldGrammar, newGrammar, seq, List.foldr, Peg.isMatch] at this
  simpa [strTree] using this

theorem ev_id {ws x rest : Str} (hw : ws.all isWs = true) (hx : Ident x) (hr : EndsToken rest) :
    Ev oldGrammar b (.ref .anId) (ws ++ (x ++ rest)) (.ok [idTree x] rest) := by
  have hs : skipWs (ws ++ (x ++ rest)) = x ++ rest := skipWs_pad hw (noWs_append (ident_ne hx) (ident_noWs hx))
  have h : Ev oldGrammar b (oldGrammar .anId) (ws ++ (x ++ rest)) (.ok [.term none false x] rest) :=
    Ev.rx (r := .ident) (by rw [hs]; exact scan_ident hx hr) (ident_ne hx)
  exact Ev.ref h

/-! ### The alternatives of `value` -/

/-- The alternatives from `a_number` on. -/
def altsNum : Peg := choice [.ref .aNumber, .ref .aString, .ref .aTuple, .ref .aList, .ref .aSet, .ref .aDict, .ref .whatamiId]
/-- The alternatives from `a_string` on. -/
def altsStr : Peg := choice [.ref .aString, .ref .aTuple, .ref .aList, .ref .aSet, .ref .aDict, .ref .whatamiId]
/-- The alternatives from `a_set` on. -/
def altsSet : Peg := choice [.ref .aSet, .ref .aDict, .ref .whatamiId]

theorem to_num {s : Str} {o : Out} (h0 : ¬ c!"None" <+: skipWs s) (h1 : ¬ c!"True" <+: skipWs s) (h2 : ¬ c!"False" <+: skipWs s)
    (h : Ev oldGrammar false altsNum s o) : Ev oldGrammar b (oldGrammar .value) s o :=
  .altNext (none_fail h0) (.altNext (bool_fail h1 h2) h)

theorem to_str {s : Str} {o : Out} (h0 : scanNumber (skipWs s) = none) (h1 : ¬ c!"-inf" <+: skipWs s) (h2 : ¬ c!"inf" <+: skipWs s)
    (h3 : ¬ c!"nan" <+: skipWs s) (h : Ev oldGrammar false altsStr s o) : Ev oldGrammar b altsNum s o :=
  .altNext (num_fail h0 h1 h2 h3) h

theorem to_set {s : Str} {o : Out} (h0 : ¬ c!"'" <+: skipWs s) (h1 : ¬ c!"(" <+: skipWs s) (h2 : ¬ c!"[" <+: skipWs s)
    (h : Ev oldGrammar false altsSet s o) : Ev oldGrammar b altsStr s o :=
  .altNext (str_fail h0) (.altNext (tuple_fail h1) (.altNext (list_fail h2) h))

theorem plain_to_str {s u : Str} {c : Char} {o : Out} (hs : skipWs s = c :: u) (hc : plainStart c = true)
    (h : Ev oldGrammar false altsStr s o) : Ev oldGrammar b (oldGrammar .value) s o := by
  simp only [plainStart, Bool.not_eq_true', Bool.or_eq_false_iff, beq_eq_false_iff_ne] at hc
  obtain ⟨⟨⟨⟨⟨⟨h1, h2⟩, h3⟩, h4⟩, h5⟩, h6⟩, h7⟩ := hc
  refine to_num ?_ ?_ ?_ (to_str ?_ ?_ ?_ ?_ h) <;> rw [hs]
  · exact not_prefix h1.symm
  · exact not_prefix h2.symm
  · exact not_prefix h3.symm
  · exact scanNumber_none h4 h7
  · exact not_prefix h4.symm
  · exact not_prefix h5.symm
  · exact not_prefix h6.symm

theorem plain_to_set {s u : Str} {c : Char} {o : Out} (hs : skipWs s = c :: u) (hc : plainStart c = true)
    (h1 : c ≠ '\'') (h2 : c ≠ '(') (h3 : c ≠ '[') (h : Ev oldGrammar false altsSet s o) : Ev oldGrammar b (oldGrammar .value) s o := by
  refine plain_to_str hs hc (to_set ?_ ?_ ?_ h) <;> rw [hs] <;> exact not_prefix (Ne.symm (by assumption))

/-- A value consisting of one tree. -/
theorem ev_value {s r : Str} {t : Tree} (h : Ev oldGrammar b (oldGrammar .value) s (.ok [t] r)) :
    Ev oldGrammar b (.ref .value) s (.ok [.node .value [t]] r) := Ev.ref h

/-! ### Leaves -/

theorem value_none {ws r : Str} (hw : ws.all isWs = true) :
    Ev oldGrammar b (.ref .value) (ws ++ (c!"None" ++ r)) (.ok [otree .none] r) := by
  have h : Ev oldGrammar false (oldGrammar .aNone) (ws ++ (c!"None" ++ r)) (.ok [.term none false c!"None"] r) :=
    ev_tok hw (by simp) (noWs_cons (by decide))
  exact ev_value (.alt (Ev.ref h))

theorem value_bool {ws r : Str} (hw : ws.all isWs = true) (x : Bool) :
    Ev oldGrammar b (.ref .value) (ws ++ ((if x then c!"True" else c!"False") ++ r)) (.ok [otree (.bool x)] r) := by
  cases x with
  | true =>
    have hs : skipWs (ws ++ (c!"True" ++ r)) = c!"True" ++ r := skipWs_pad hw (noWs_cons (by decide))
    have h : Ev oldGrammar false (oldGrammar .aTrue) (ws ++ (c!"True" ++ r)) (.ok [.term none false c!"True"] r) :=
      ev_tok hw (by simp) (noWs_cons (by decide))
    have h2 : Ev oldGrammar false (oldGrammar .aBool) (ws ++ (c!"True" ++ r)) _ := .alt (Ev.ref h)
    have h3 : Ev oldGrammar b (oldGrammar .value) _ _ := .altNext (none_fail (by rw [hs]; exact not_prefix (by decide))) (.alt (Ev.ref h2))
    exact ev_value h3
  | false =>
    have hs : skipWs (ws ++ (c!"False" ++ r)) = c!"False" ++ r := skipWs_pad hw (noWs_cons (by decide))
    have h : Ev oldGrammar false (oldGrammar .aFalse) (ws ++ (c!"False" ++ r)) (.ok [.term none false c!"False"] r) :=
      ev_tok hw (by simp) (noWs_cons (by decide))
    have h2 : Ev oldGrammar false (oldGrammar .aBool) (ws ++ (c!"False" ++ r)) _ :=
      .altNext (.refFail (.strFail (by rw [hs]; exact not_prefix (by decide)))) (.alt (Ev.ref h))
    have h3 : Ev oldGrammar b (oldGrammar .value) _ _ := .altNext (none_fail (by rw [hs]; exact not_prefix (by decide))) (.alt (Ev.ref h2))
    exact ev_value h3

theorem num_ok {ws t r : Str} (hw : ws.all isWs = true) (ht : NumShape t) (hr : Follow r) :
    Ev oldGrammar false (oldGrammar .aNumber) (ws ++ (t ++ r)) (.ok [.term none false t] r) := by
  obtain ⟨c, u, e, hc, _⟩ := numShape_start ht
  have hs : skipWs (ws ++ (t ++ r)) = t ++ r := skipWs_pad hw (by rw [e]; exact noWs_cons hc)
  cases ht with
  | digits neg hd hf he => exact .alt (.rx (by rw [hs]; exact scanNumber_ok hd hf he (follow_num hr)) (by rw [e]; simp))
  | inf =>
    replace hs : skipWs (ws ++ (c!"inf" ++ r)) = 'i' :: (c!"nf" ++ r) := hs
    refine .altNext (.rxFail ?_) (.altNext (.strFail ?_) (.alt (ev_tok hw (by simp) (noWs_cons (by decide))))) <;> rw [hs]
    · exact scanNumber_none (c := 'i') (u := c!"nf" ++ r) (by decide) (by decide)
    · exact not_prefix (by decide)
  | minusInf =>
    refine .altNext (.rxFail ?_) (.alt (ev_tok hw (by simp) (noWs_cons (by decide)))); rw [hs]
    rfl
  | nan =>
    replace hs : skipWs (ws ++ (c!"nan" ++ r)) = 'n' :: (c!"an" ++ r) := hs
    refine .altNext (.rxFail ?_) (.altNext (.strFail ?_) (.altNext (.strFail ?_) (.alt (ev_tok hw (by simp) (noWs_cons (by decide)))))) <;> rw [hs]
    · exact scanNumber_none (c := 'n') (u := c!"an" ++ r) (by decide) (by decide)
    · exact not_prefix (by decide)
    · exact not_prefix (by decide)

theorem value_num {ws t r : Str} (hw : ws.all isWs = true) (ht : NumShape t) (hr : Follow r) :
    Ev oldGrammar b (.ref .value) (ws ++ (t ++ r)) (.ok [otree (.num t)] r) := by
  obtain ⟨c, u, e, hc, h1, h2, h3⟩ := numShape_start ht
  have hs : skipWs (ws ++ (t ++ r)) = c :: (u ++ r) := by rw [e]; exact skipWs_pad hw (noWs_cons hc)
  refine ev_value (to_num ?_ ?_ ?_ (.alt (Ev.ref (num_ok hw ht hr)))) <;> rw [hs] <;> exact not_prefix (Ne.symm (by assumption))

theorem value_str {ws ws1 body r : Str} (hw : ws.all isWs = true) (hw1 : ws1.all isWs = true) (hb : GoodBody body) :
    Ev oldGrammar b (.ref .value) (ws ++ (c!"'" ++ (ws1 ++ (body ++ c!"'" ++ r)))) (.ok [otree (.str body)] r) := by
  have hs : skipWs (ws ++ (c!"'" ++ (ws1 ++ (body ++ c!"'" ++ r)))) = '\'' :: (ws1 ++ (body ++ c!"'" ++ r)) := skipWs_pad hw (noWs_cons (by decide))
  exact ev_value (plain_to_str hs (by decide) (.alt (ev_string hw hw1 hb)))

/-! ### Collections -/

/-- Bracketed elements. -/
theorem ev_bracket {rl : Rule} {X : Peg} {op cl : Str} (hrl : oldGrammar rl = seq [X, .star (seq [.ref .listSep, X])])
    (hfail : ∀ {ws : Str}, ws.all isWs = true → ∀ {c : Char}, (c = ')' ∨ c = ']' ∨ c = '}') → ∀ u,
      Ev oldGrammar false (.ref rl) (ws ++ c :: u) .fail)
    {items : List (List Str × Tree)}
    (hX : ∀ p ∈ items, ∀ s, Padded p.1 s → ∀ r, LFollow r → ∀ b, Ev oldGrammar b X (s ++ r) (.ok [p.2] r))
    (hop : op ≠ []) (hopw : NoWs op) {d : Char} {v : Str} (hcl : cl = d :: v) (hd : d = ')' ∨ d = ']' ∨ d = '}')
    {s r : Str} (hp : Padded (op :: sepToks (items.map Prod.fst) ++ [cl]) s) :
    Ev oldGrammar b (seq [.str op, .opt (.ref rl), .str cl]) (s ++ r)
      (.ok (tok op :: elems rl (items.map Prod.snd) ++ [tok cl]) r) := by
  subst hcl
  simp only [List.cons_append] at hp
  obtain ⟨ws, s1, hw, rfl, hp1⟩ := padded_cons_iff.1 hp
  obtain ⟨s2, s3, rfl, hk, hp2⟩ := padded_append hp1
  obtain ⟨ws1, s4, hw1, rfl, hp3⟩ := padded_cons_iff.1 hp2
  cases hp3
  have hdw : isWs d = false := by rcases hd with rfl | rfl | rfl <;> decide
  have e1 : Ev oldGrammar true (.str op) (ws ++ (op ++ (s2 ++ (ws1 ++ d :: (v ++ r))))) (.ok [tok op] _) := ev_tok hw hop hopw
  have e2 := ev_elems (b := true) hrl hfail hX hk ⟨ws1, d, v ++ r, hw1, rfl, hd⟩
  have e3 : Ev oldGrammar true (.str (d :: v)) (ws1 ++ (d :: v ++ r)) (.ok [tok (d :: v)] r) := ev_tok hw1 (by simp) (noWs_cons hdw)
  have := Ev.cat (b := b) e1 (Ev.cat e2 (Ev.cat e3 (Ev.emp _)))
  simpa [seq] using this

/-- Bracketed elements, at least one. -/
theorem ev_bracket1 {X : Peg} {rl : Rule} {op cl : Str} (hrl : oldGrammar rl = seq [X, .star (seq [.ref .listSep, X])])
    {items : List (List Str × Tree)} (hne : items ≠ [])
    (hX : ∀ p ∈ items, ∀ s, Padded p.1 s → ∀ r, LFollow r → ∀ b, Ev oldGrammar b X (s ++ r) (.ok [p.2] r))
    (hop : op ≠ []) (hopw : NoWs op) {d : Char} {v : Str} (hcl : cl = d :: v) (hd : d = ')' ∨ d = ']' ∨ d = '}')
    {s r : Str} (hp : Padded (op :: sepToks (items.map Prod.fst) ++ [cl]) s) :
    Ev oldGrammar b (seq [.str op, .ref rl, .str cl]) (s ++ r)
      (.ok (tok op :: elems rl (items.map Prod.snd) ++ [tok cl]) r) := by
  subst hcl
  simp only [List.cons_append] at hp
  obtain ⟨ws, s1, hw, rfl, hp1⟩ := padded_cons_iff.1 hp
  obtain ⟨s2, s3, rfl, hk, hp2⟩ := padded_append hp1
  obtain ⟨ws1, s4, hw1, rfl, hp3⟩ := padded_cons_iff.1 hp2
  cases hp3
  have hdw : isWs d = false := by rcases hd with rfl | rfl | rfl <;> decide
  have e1 : Ev oldGrammar true (.str op) (ws ++ (op ++ (s2 ++ (ws1 ++ d :: (v ++ r))))) (.ok [tok op] _) := ev_tok hw hop hopw
  have e2 := ev_sep (b := true) hne hX hk ⟨ws1, d, v ++ r, hw1, rfl, hd⟩
  rw [← hrl] at e2
  have e3 : Ev oldGrammar true (.str (d :: v)) (ws1 ++ (d :: v ++ r)) (.ok [tok (d :: v)] r) := ev_tok hw1 (by simp) (noWs_cons hdw)
  have := Ev.cat (b := b) e1 (Ev.cat (Ev.ref e2) (Ev.cat e3 (Ev.emp _)))
  cases items with
  | nil => exact absurd rfl hne
  | cons p items =>
    simp only [ruleResult, hrl, seq, List.foldr, Peg.isMatch, List.map_cons, sepTrees_cons, elems] at this ⊢
    simpa using this

/-- What a list of syntax looks like to the lemmas on comma-separated lists. -/
def itemsL (xs : List OAst) : List (List Str × Tree) := xs.map fun x => (otoks x, otree x)
/-- The same for the items of a dict. -/
def itemsD (xs : List (OAst × OAst)) : List (List Str × Tree) :=
  xs.map fun x => (otoks x.1 ++ c!":" :: otoks x.2, .node .dictkv [otree x.1, tok c!":", otree x.2])
/-- The same for parameters. -/
def itemsA (xs : List (Str × OAst)) : List (List Str × Tree) :=
  xs.map fun x => (x.1 :: c!"=" :: otoks x.2, .node .kv [idTree x.1, tok c!"=", otree x.2])

theorem itemsL_toks (xs : List OAst) : (itemsL xs).map Prod.fst = otoksL xs := by
  induction xs with
  | nil => rfl
  | cons x xs ih => simp only [itemsL, List.map_cons, otoksL] at ih ⊢; rw [ih]
theorem itemsL_trees (xs : List OAst) : (itemsL xs).map Prod.snd = otreeL xs := by
  induction xs with
  | nil => rfl
  | cons x xs ih => simp only [itemsL, List.map_cons, otreeL] at ih ⊢; rw [ih]
theorem itemsD_toks (xs : List (OAst × OAst)) : (itemsD xs).map Prod.fst = otoksD xs := by
  induction xs with
  | nil => rfl
  | cons x xs ih => simp only [itemsD, List.map_cons, otoksD] at ih ⊢; rw [ih]
theorem itemsD_trees (xs : List (OAst × OAst)) : (itemsD xs).map Prod.snd = otreeD xs := by
  induction xs with
  | nil => rfl
  | cons x xs ih => simp only [itemsD, List.map_cons, otreeD] at ih ⊢; rw [ih]
theorem itemsA_toks (xs : List (Str × OAst)) : (itemsA xs).map Prod.fst = otoksA xs := by
  induction xs with
  | nil => rfl
  | cons x xs ih => simp only [itemsA, List.map_cons, otoksA] at ih ⊢; rw [ih]
theorem itemsA_trees (xs : List (Str × OAst)) : (itemsA xs).map Prod.snd = otreeA xs := by
  induction xs with
  | nil => rfl
  | cons x xs ih => simp only [itemsA, List.map_cons, otreeA] at ih ⊢; rw [ih]

/-- Reading `a` as a value. -/
def Reads (a : OAst) : Prop :=
  ∀ s, Padded (otoks a) s → ∀ r, Follow r → (Open a → ¬ c!"#" <+: skipWs r) → ∀ b, Ev oldGrammar b (.ref .value) (s ++ r) (.ok [otree a] r)

theorem Reads.elem {a : OAst} (h : Reads a) : ∀ s, Padded (otoks a) s → ∀ r, LFollow r → ∀ b, Ev oldGrammar b (.ref .value) (s ++ r) (.ok [otree a] r) :=
  fun s hp r hr b => h s hp r (lfollow hr) (fun _ => lfollow_hash hr) b

theorem value_tuple {xs : List OAst} (h : ∀ x ∈ xs, Reads x) : Reads (.tuple xs) := by
  intro s hp r _ _ b
  simp only [otoks, ← itemsL_toks] at hp
  obtain ⟨ws, s1, hw, e, _⟩ := padded_cons_iff.1 hp
  have hs := skipWs_tok (r := r) hw e (by decide)
  have hX : ∀ p ∈ itemsL xs, ∀ s, Padded p.1 s → ∀ r, LFollow r → ∀ b, Ev oldGrammar b (.ref .value) (s ++ r) (.ok [p.2] r) := by
    intro p hpm
    obtain ⟨x, hx, rfl⟩ := List.mem_map.1 hpm
    exact (h x hx).elem
  have e1 : Ev oldGrammar false (oldGrammar .aTuple) (s ++ r) _ :=
    ev_bracket (rl := .listElements) rfl (fun h _ hc u => listElements_fail h hc u) hX (by simp) (noWs_cons (by decide)) rfl (.inl rfl) hp
  have := ev_value (b := b) (plain_to_str hs (by decide) (.altNext (str_fail (by rw [hs]; exact not_prefix (by decide))) (.alt (Ev.ref e1))))
  rw [itemsL_trees] at this
  simpa [otree, ruleResult, oldGrammar, newGrammar, seq, Peg.isMatch] using this

theorem value_list {xs : List OAst} (h : ∀ x ∈ xs, Reads x) : Reads (.list xs) := by
  intro s hp r _ _ b
  simp only [otoks, ← itemsL_toks] at hp
  obtain ⟨ws, s1, hw, e, _⟩ := padded_cons_iff.1 hp
  have hs := skipWs_tok (r := r) hw e (by decide)
  have hX : ∀ p ∈ itemsL xs, ∀ s, Padded p.1 s → ∀ r, LFollow r → ∀ b, Ev oldGrammar b (.ref .value) (s ++ r) (.ok [p.2] r) := by
    intro p hpm
    obtain ⟨x, hx, rfl⟩ := List.mem_map.1 hpm
    exact (h x hx).elem
  have e1 : Ev oldGrammar false (oldGrammar .aList) (s ++ r) _ :=
    ev_bracket (rl := .listElements) rfl (fun h _ hc u => listElements_fail h hc u) hX (by simp) (noWs_cons (by decide)) rfl (.inr (.inl rfl)) hp
  have := ev_value (b := b) (plain_to_str hs (by decide) (.altNext (str_fail (by rw [hs]; exact not_prefix (by decide)))
    (.altNext (tuple_fail (by rw [hs]; exact not_prefix (by decide))) (.alt (Ev.ref e1)))))
  rw [itemsL_trees] at this
  simpa [otree, ruleResult, oldGrammar, newGrammar, seq, Peg.isMatch] using this

theorem value_set {xs : List OAst} (h : ∀ x ∈ xs, Reads x) : Reads (.set xs) := by
  intro s hp r _ _ b
  cases xs with
  | nil =>
    simp only [otoks, List.isEmpty_nil, if_true] at hp
    obtain ⟨ws, s1, hw, rfl, hp1⟩ := padded_cons_iff.1 hp
    cases hp1
    have hs : skipWs (ws ++ (c!"set()" ++ []) ++ r) = _ := skipWs_tok hw rfl (by decide)
    have e1 : Ev oldGrammar false (oldGrammar .anEmptySet) (ws ++ (c!"set()" ++ []) ++ r) (.ok [.term none false c!"set()"] r) := by
      have : Ev oldGrammar false (oldGrammar .anEmptySet) (ws ++ (c!"set()" ++ r)) (.ok [.term none false c!"set()"] r) :=
        ev_tok hw (by simp) (noWs_cons (by decide))
      simpa using this
    have e2 : Ev oldGrammar false (oldGrammar .aSet) (ws ++ (c!"set()" ++ []) ++ r) _ := .alt (Ev.ref e1)
    have := ev_value (b := b) (plain_to_set hs (by decide) (by decide) (by decide) (by decide) (.alt (Ev.ref e2)))
    simpa [otree, ruleResult, oldGrammar, newGrammar, choice, Peg.isMatch] using this
  | cons x0 xs =>
    generalize hxs : x0 :: xs = ys at *
    have hne : ys ≠ [] := by rw [← hxs]; simp
    have hemp : ys.isEmpty = false := by rw [← hxs]; rfl
    simp only [otoks, hemp, Bool.false_eq_true, if_false, ← itemsL_toks] at hp
    obtain ⟨ws, s1, hw, e, _⟩ := padded_cons_iff.1 hp
    have hs := skipWs_tok (r := r) hw e (by decide)
    have hX : ∀ p ∈ itemsL ys, ∀ s, Padded p.1 s → ∀ r, LFollow r → ∀ b, Ev oldGrammar b (.ref .value) (s ++ r) (.ok [p.2] r) := by
      intro p hpm
      obtain ⟨x, hx, rfl⟩ := List.mem_map.1 hpm
      exact (h x hx).elem
    have e2 : Ev oldGrammar false (oldGrammar .aNonEmptySet) (s ++ r) _ :=
      ev_bracket (rl := .listElements) rfl (fun h _ hc u => listElements_fail h hc u) hX (by simp) (noWs_cons (by decide)) rfl (.inr (.inr rfl)) hp
    have e3 : Ev oldGrammar false (oldGrammar .aSet) (s ++ r) _ := .altNext (.refFail (.strFail
      (by rw [hs]; exact not_prefix (by decide)))) (.alt (Ev.ref e2))
    have := ev_value (b := b) (plain_to_set hs (by decide) (by decide) (by decide) (by decide) (.alt (Ev.ref e3)))
    rw [itemsL_trees] at this
    simpa [otree, hemp, hne, ruleResult, oldGrammar, newGrammar, seq, choice, Peg.isMatch] using this

theorem value_braces : Reads .braces := by
  intro s hp r _ _ b
  simp only [otoks] at hp
  obtain ⟨ws, s1, hw, e, _⟩ := padded_cons_iff.1 hp
  have hs := skipWs_tok (r := r) hw e (by decide)
  have e2 : Ev oldGrammar false (oldGrammar .aNonEmptySet) (s ++ r) _ :=
    ev_bracket (rl := .listElements) (X := .ref .value) (items := []) rfl (fun h _ hc u => listElements_fail h hc u) (by simp) (by simp) (noWs_cons (by decide)) rfl (.inr (.inr rfl)) hp
  have e3 : Ev oldGrammar false (oldGrammar .aSet) (s ++ r) _ := .altNext (.refFail (.strFail
    (by rw [hs]; exact not_prefix (by decide)))) (.alt (Ev.ref e2))
  have := ev_value (b := b) (plain_to_set hs (by decide) (by decide) (by decide) (by decide) (.alt (Ev.ref e3)))
  simpa [otree, elems, ruleResult, oldGrammar, newGrammar, seq, choice, Peg.isMatch] using this

theorem ev_dictkv {k v : OAst} (hk : Reads k) (hv : Reads v) {s : Str} (hp : Padded (otoks k ++ c!":" :: otoks v) s) {r : Str} (hr : LFollow r) :
    Ev oldGrammar b (.ref .dictkv) (s ++ r) (.ok [.node .dictkv [otree k, tok c!":", otree v]] r) := by
  obtain ⟨s1, s2, rfl, h1, h2⟩ := padded_append hp
  obtain ⟨ws, s3, hw, rfl, h3⟩ := padded_cons_iff.1 h2
  have e1 := hk.elem s1 h1 (ws ++ (c!":" ++ (s3 ++ r))) (lfollow_pad hw (by decide) _) true
  have e2 : Ev oldGrammar true (.str c!":") (ws ++ (c!":" ++ (s3 ++ r))) (.ok [tok c!":"] _) := ev_tok hw (by simp) (noWs_cons (by decide))
  have e3 := hv.elem s3 h3 r hr true
  have e4 : Ev oldGrammar b (oldGrammar .dictkv) (s1 ++ (ws ++ (c!":" ++ (s3 ++ r)))) _ := .cat e1 (.cat e2 (.cat e3 (.emp _)))
  have := Ev.ref e4
  simpa [ruleResult, oldGrammar, newGrammar, seq, Peg.isMatch] using this

/-- A dict is not a set: after the first key comes a colon. -/
theorem dict_not_set {k v : OAst} {xs : List (OAst × OAst)} (hk : Reads k) {s : Str}
    (hp : Padded (c!"{" :: sepToks (otoksD ((k, v) :: xs)) ++ [c!"}"]) s) (r : Str) :
    Ev oldGrammar b (seq [.str c!"{", .opt (.ref .listElements), .str c!"}"]) (s ++ r) .fail := by
  simp only [otoksD, sepToks_cons, List.cons_append, List.append_assoc] at hp
  obtain ⟨ws, s1, hw, rfl, hp1⟩ := padded_cons_iff.1 hp
  obtain ⟨s2, s3, rfl, h1, hp2⟩ := padded_append hp1
  obtain ⟨ws1, s4, hw1, rfl, hp3⟩ := padded_cons_iff.1 hp2
  have hsc : skipWs (ws1 ++ (c!":" ++ (s4 ++ r))) = ':' :: (s4 ++ r) := skipWs_pad hw1 (noWs_cons (by decide))
  have e1 : Ev oldGrammar true (.str c!"{") (ws ++ (c!"{" ++ (s2 ++ (ws1 ++ (c!":" ++ (s4 ++ r)))))) (.ok [tok c!"{"] _) :=
    ev_tok hw (by simp) (noWs_cons (by decide))
  have e2 := hk.elem s2 h1 (ws1 ++ (c!":" ++ (s4 ++ r))) (lfollow_pad hw1 (by decide) _) true
  have e3 : Ev oldGrammar true (.star (seq [.ref .listSep, .ref .value])) (ws1 ++ (c!":" ++ (s4 ++ r))) (.ok [] _) :=
    .starEnd (.catFail (.refFail (.strFail (by rw [hsc]; exact not_prefix (by decide)))))
  have e4 : Ev oldGrammar false (oldGrammar .listElements) (s2 ++ (ws1 ++ (c!":" ++ (s4 ++ r)))) _ := .cat e2 (.cat e3 (.emp _))
  have e5 : Ev oldGrammar true (seq [.str c!"}"]) (ws1 ++ (c!":" ++ (s4 ++ r))) .fail :=
    .catFail (.strFail (by rw [hsc]; exact not_prefix (by decide)))
  have := Ev.catFail2 (b := b) e1 (Ev.catFail2 (Ev.opt (Ev.ref e4)) e5)
  simpa [seq] using this

theorem value_dict {xs : List (OAst × OAst)} (hne : xs ≠ []) (h : ∀ x ∈ xs, Reads x.1 ∧ Reads x.2) : Reads (.dict xs) := by
  intro s hp r _ _ b
  have hp' := hp
  simp only [otoks] at hp'
  simp only [otoks, ← itemsD_toks] at hp
  obtain ⟨ws, s1, hw, e, _⟩ := padded_cons_iff.1 hp
  have hs := skipWs_tok (r := r) hw e (by decide)
  have hX : ∀ p ∈ itemsD xs, ∀ s, Padded p.1 s → ∀ r, LFollow r → ∀ b, Ev oldGrammar b (.ref .dictkv) (s ++ r) (.ok [p.2] r) := by
    intro p hpm
    obtain ⟨x, hx, rfl⟩ := List.mem_map.1 hpm
    exact fun s hp r hr b => ev_dictkv (h x hx).1 (h x hx).2 hp hr
  have e1 : Ev oldGrammar false (oldGrammar .aDict) (s ++ r) _ :=
    ev_bracket (rl := .dictElements) rfl (fun h _ hc u => dictElements_fail h hc u) hX (by simp) (noWs_cons (by decide)) rfl (.inr (.inr rfl)) hp
  have hset : Ev oldGrammar false (seq [.str c!"{", .opt (.ref .listElements), .str c!"}"]) (s ++ r) .fail := by
    cases xs with
    | nil => exact absurd rfl hne
    | cons x xs => exact dict_not_set (h x (by simp)).1 hp' r
  have np : ∀ {d : Char} {t : Str}, d ≠ '{' → ¬ (d :: t) <+: skipWs (s ++ r) := fun h => by rw [hs]; exact not_prefix h
  have e2 : Ev oldGrammar false (.ref .aSet) (s ++ r) .fail :=
    .refFail (.altNext (.refFail (.strFail (np (by decide)))) (.altNext (.refFail hset) (.never _)))
  have := ev_value (b := b) (plain_to_set hs (by decide) (by decide) (by decide) (by decide) (.altNext e2 (.alt (Ev.ref e1))))
  rw [itemsD_trees] at this
  simpa [otree, ruleResult, oldGrammar, newGrammar, seq, Peg.isMatch] using this

/-! ### Nested ids -/

theorem ev_kv {k : Str} {v : OAst} (hk : Ident k) (hv : Reads v) {s : Str} (hp : Padded (k :: c!"=" :: otoks v) s) {r : Str} (hr : Follow r)
    (ho : Open v → ¬ c!"#" <+: skipWs r) : Ev oldGrammar b (.ref .kv) (s ++ r) (.ok [.node .kv [idTree k, tok c!"=", otree v]] r) := by
  obtain ⟨ws, s1, hw, rfl, h1⟩ := padded_cons_iff.1 hp
  obtain ⟨ws1, s2, hw1, rfl, h2⟩ := padded_cons_iff.1 h1
  have e1 : Ev oldGrammar true (.ref .anId) (ws ++ (k ++ (ws1 ++ '=' :: (s2 ++ r)))) _ := ev_id hw hk (endsToken_pad hw1 (by decide) _)
  have e2 : Ev oldGrammar true (.str c!"=") (ws1 ++ (c!"=" ++ (s2 ++ r))) (.ok [tok c!"="] _) := ev_tok hw1 (by simp) (noWs_cons (by decide))
  have e3 := hv s2 h2 r hr ho true
  have e4 : Ev oldGrammar b (oldGrammar .kv) (ws ++ (k ++ (ws1 ++ (c!"=" ++ (s2 ++ r))))) _ := .cat e1 (.cat e2 (.cat e3 (.emp _)))
  have := Ev.ref e4
  simpa [ruleResult, oldGrammar, newGrammar, seq, Peg.isMatch] using this

theorem follow_hash {ts : List (List Str)} {s r : Str} (hp : Padded (hashRest ts) s) (hr : Follow r) : Follow (s ++ r) := by
  cases ts with
  | nil => cases hp; exact hr
  | cons t ts =>
    obtain ⟨ws, s', hw, rfl, _⟩ := padded_cons_iff.1 hp
    refine .inr ⟨'#', s' ++ r, ?_, by simp⟩
    have := skipWs_pad (s := '#' :: (s' ++ r)) hw (noWs_cons (by decide))
    simpa using this

/-- Parameters after the first. -/
theorem ev_hashRest {kvs : List (Str × OAst)} (hk : ∀ x ∈ kvs, Ident x.1 ∧ Reads x.2) (hw : OWfA kvs) {s r : Str}
    (hp : Padded (hashRest (otoksA kvs)) s) (hr : Follow r) (hh : ¬ c!"#" <+: skipWs r) :
    Ev oldGrammar b (.star (seq [.str c!"#", .ref .kv])) (s ++ r) (.ok (hashRestTrees (otreeA kvs)) r) := by
  induction kvs generalizing s b with
  | nil => cases hp; exact .starEnd (.catFail (.strFail hh))
  | cons x kvs ih =>
    obtain ⟨k, v⟩ := x
    simp only [OWfA] at hw
    simp only [otoksA, hashRest, List.cons_append] at hp
    obtain ⟨ws, s', hws, rfl, h'⟩ := padded_cons_iff.1 hp
    have h2' : (k :: c!"=" :: (otoks v ++ hashRest (otoksA kvs))) = (k :: c!"=" :: otoks v) ++ hashRest (otoksA kvs) := rfl
    rw [h2'] at h'
    obtain ⟨s1, s2, rfl, h1, h2⟩ := padded_append h'
    have e1 : Ev oldGrammar true (.str c!"#") (ws ++ (c!"#" ++ (s1 ++ (s2 ++ r)))) (.ok [tok c!"#"] (s1 ++ (s2 ++ r))) :=
      ev_tok hws (by simp) (noWs_cons (by decide))
    have hopen : Open v → ¬ c!"#" <+: skipWs (s2 ++ r) := by
      intro ho
      cases kvs with
      | nil => cases h2; exact hh
      | cons y kvs => exact absurd ho (hw.2.2.1 (by simp))
    have e2 := ev_kv (b := true) (hk (k, v) (by simp)).1 (hk (k, v) (by simp)).2 h1 (follow_hash h2 hr) hopen
    have e3 := ih (b := false) (fun q hq => hk q (by simp [hq])) hw.2.2.2 h2
    have e4 : Ev oldGrammar false (seq [.str c!"#", .ref .kv]) (ws ++ (c!"#" ++ (s1 ++ (s2 ++ r))))
        (.ok [tok c!"#", .node .kv [idTree k, tok c!"=", otree v]] (s2 ++ r)) := .cat e1 (.cat e2 (.emp _))
    have := Ev.star (b := b) e4 e3
    simpa [otreeA, hashRestTrees] using this

/-- The optional parameters. -/
theorem ev_hash {kvs : List (Str × OAst)} (hk : ∀ x ∈ kvs, Ident x.1 ∧ Reads x.2) (hw : OWfA kvs) {s r : Str}
    (hp : Padded (hashToks (otoksA kvs)) s) (hr : Follow r) (hh : kvs ≠ [] → ¬ c!"#" <+: skipWs r) :
    Ev oldGrammar b (.opt (.ref .kvs)) (s ++ r) (.ok (hashElems (otreeA kvs)) r) := by
  cases kvs with
  | nil =>
    cases hp
    refine .optNone (.refFail (.catFail (.refFail (.catFail (id_fail ?_)))))
    intro c u e
    rcases hr with hr | ⟨d, v, hr, hd⟩
    · rw [List.nil_append, hr] at e; cases e
    · rw [List.nil_append, hr] at e
      cases e
      simp only [List.mem_cons, List.not_mem_nil, or_false] at hd
      rcases hd with rfl | rfl | rfl | rfl | rfl | rfl | rfl <;> decide
  | cons x kvs =>
    obtain ⟨k, v⟩ := x
    simp only [OWfA] at hw
    simp only [otoksA, hashToks] at hp
    obtain ⟨s1, s2, rfl, h1, h2⟩ := padded_append hp
    have hopen : Open v → ¬ c!"#" <+: skipWs (s2 ++ r) := by
      intro ho
      cases kvs with
      | nil => cases h2; exact hh (by simp)
      | cons y kvs => exact absurd ho (hw.2.2.1 (by simp))
    have e2 := ev_kv (b := true) (hk (k, v) (by simp)).1 (hk (k, v) (by simp)).2 h1 (follow_hash h2 hr) hopen
    have e3 := ev_hashRest (b := true) (fun q hq => hk q (by simp [hq])) hw.2.2.2 h2 hr (hh (by simp))
    have e4 : Ev oldGrammar false (oldGrammar .kvs) (s1 ++ (s2 ++ r)) _ := .cat e2 (.cat e3 (.emp _))
    have := Ev.opt (b := b) (Ev.ref e4)
    simpa [otreeA, hashElems, ruleResult, oldGrammar, seq, Peg.isMatch] using this

/-- The body of an id. -/
theorem ev_body {q : Bool} {n : Str} {kvs : List (Str × OAst)} (hn : Ident n) (hk : ∀ x ∈ kvs, Ident x.1 ∧ Reads x.2) (hw : OWfA kvs)
    {s : Str} (hp : Padded (otoks (.what q n kvs)) s) {r : Str} (hr : Follow r) (ho : Open (.what q n kvs) → ¬ c!"#" <+: skipWs r) :
    Ev oldGrammar b (.ref .whatamiId) (s ++ r) (.ok [oidTree q n (otreeA kvs)] r) := by
  have main : ∀ {s : Str}, Padded (n :: c!"#" :: hashToks (otoksA kvs)) s → ∀ {r : Str}, Follow r → (kvs ≠ [] → ¬ c!"#" <+: skipWs r) →
      ∃ ws s1 ws1 s2, ws.all isWs = true ∧ ws1.all isWs = true ∧ s ++ r = ws ++ (n ++ (ws1 ++ (c!"#" ++ (s2 ++ r)))) ∧ s1 = ws1 ++ (c!"#" ++ s2) ∧
      Ev oldGrammar true (.ref .anId) (ws ++ (n ++ (ws1 ++ (c!"#" ++ (s2 ++ r))))) (.ok [idTree n] (ws1 ++ (c!"#" ++ (s2 ++ r)))) ∧
      Ev oldGrammar true (.str c!"#") (ws1 ++ (c!"#" ++ (s2 ++ r))) (.ok [tok c!"#"] (s2 ++ r)) ∧
      Ev oldGrammar true (.opt (.ref .kvs)) (s2 ++ r) (.ok (hashElems (otreeA kvs)) r) := by
    intro s hp r hr hh
    obtain ⟨ws, s1, hws, rfl, hp1⟩ := padded_cons_iff.1 hp
    obtain ⟨ws1, s2, hws1, rfl, hp2⟩ := padded_cons_iff.1 hp1
    refine ⟨ws, _, ws1, s2, hws, hws1, by simp, rfl, ?_, ?_, ev_hash hk hw hp2 hr hh⟩
    · exact ev_id hws hn (endsToken_pad (c := '#') hws1 (by decide) _)
    · exact ev_tok hws1 (by simp) (noWs_cons (by decide))
  simp only [otoks] at hp
  cases q with
  | false =>
    have hp' : Padded (n :: c!"#" :: hashToks (otoksA kvs)) s := by simpa [quoteTok] using hp
    obtain ⟨ws, s1, ws1, s2, _, _, e, _, e1, e2, e3⟩ := main hp' hr (fun h => ho (by cases kvs with | nil => exact absurd rfl h | cons _ _ => trivial))
    rw [e]
    have e4 : Ev oldGrammar false (seq [.ref .anId, .str c!"#", .opt (.ref .kvs)]) (ws ++ (n ++ (ws1 ++ (c!"#" ++ (s2 ++ r)))))
        (.ok (idTree n :: tok c!"#" :: (hashElems (otreeA kvs) ++ [])) r) := .cat e1 (.cat e2 (.cat e3 (.emp _)))
    have e5 : Ev oldGrammar b (oldGrammar .whatamiId) (ws ++ (n ++ (ws1 ++ (c!"#" ++ (s2 ++ r))))) _ := .alt e4
    have := Ev.ref e5
    simpa [oidTree, quoteTree, ruleResult, oldGrammar, choice, Peg.isMatch] using this
  | true =>
    have hp' : Padded (c!"\"" :: ((n :: c!"#" :: hashToks (otoksA kvs)) ++ [c!"\""])) s := by simpa [quoteTok] using hp
    obtain ⟨wq, s0, hwq, rfl, hp1⟩ := padded_cons_iff.1 hp'
    obtain ⟨s3, s4, rfl, hp2, hp3⟩ := padded_append hp1
    obtain ⟨wr, s5, hwr, rfl, hp4⟩ := padded_cons_iff.1 hp3
    cases hp4
    have hsq : skipWs (wr ++ (c!"\"" ++ r)) = '"' :: r := skipWs_pad hwr (noWs_cons (by decide))
    obtain ⟨ws, s1, ws1, s2, _, _, e, _, e1, e2, e3⟩ := main (r := wr ++ (c!"\"" ++ r)) hp2 (.inr ⟨'"', r, hsq, by simp⟩)
      (fun _ => by rw [hsq]; exact not_prefix (by decide))
    have e6 : Ev oldGrammar true (.str c!"\"") (wr ++ (c!"\"" ++ r)) (.ok [tok c!"\""] r) := ev_tok hwr (by simp) (noWs_cons (by decide))
    have e0 : Ev oldGrammar true (.str c!"\"") (wq ++ (c!"\"" ++ (s3 ++ (wr ++ (c!"\"" ++ r))))) (.ok [tok c!"\""] (s3 ++ (wr ++ (c!"\"" ++ r)))) :=
      ev_tok hwq (by simp) (noWs_cons (by decide))
    have e4 : Ev oldGrammar false (seq [.str c!"\"", .ref .anId, .str c!"#", .opt (.ref .kvs), .str c!"\""])
        (wq ++ (c!"\"" ++ (s3 ++ (wr ++ (c!"\"" ++ r))))) (.ok (tok c!"\"" :: idTree n :: tok c!"#" :: (hashElems (otreeA kvs) ++ [tok c!"\""])) r) := by
      have e7 := Ev.cat (b := true) e1 (Ev.cat e2 (Ev.cat e3 (Ev.cat e6 (.emp _))))
      rw [← e] at e7
      exact Ev.cat e0 e7
    have hid : Ev oldGrammar false (seq [.ref .anId, .str c!"#", .opt (.ref .kvs)]) (wq ++ (c!"\"" ++ (s3 ++ (wr ++ (c!"\"" ++ r))))) .fail := by
      refine .catFail (id_fail ?_)
      intro c u e
      have hq : skipWs (wq ++ (c!"\"" ++ (s3 ++ (wr ++ (c!"\"" ++ r))))) = '"' :: (s3 ++ (wr ++ (c!"\"" ++ r))) := skipWs_pad hwq (noWs_cons (by decide))
      rw [hq] at e
      cases e
      decide
    have e5 : Ev oldGrammar b (oldGrammar .whatamiId) (wq ++ (c!"\"" ++ (s3 ++ (wr ++ (c!"\"" ++ r))))) _ := .altNext hid (.alt e4)
    have := Ev.ref e5
    simpa [oidTree, quoteTree, ruleResult, oldGrammar, choice, Peg.isMatch] using this

theorem value_what {q : Bool} {n : Str} {kvs : List (Str × OAst)} (hn : Ident n) (hst : q = false → NestedStart n)
    (hk : ∀ x ∈ kvs, Ident x.1 ∧ Reads x.2) (hw : OWfA kvs) : Reads (.what q n kvs) := by
  intro s hp r hr ho b
  have e1 := ev_body (b := false) hn hk hw hp hr ho
  simp only [otoks] at hp
  cases q with
  | true =>
    simp only [quoteTok, if_true, List.cons_append, List.nil_append] at hp
    obtain ⟨wq, s0, hwq, rfl, _⟩ := padded_cons_iff.1 hp
    have hs : skipWs (wq ++ (c!"\"" ++ s0) ++ r) = _ := skipWs_tok hwq rfl (by decide)
    have np : ∀ {d : Char} {t : Str}, d ≠ '"' → ¬ (d :: t) <+: skipWs (wq ++ (c!"\"" ++ s0) ++ r) := fun h => by rw [hs]; exact not_prefix h
    exact ev_value (plain_to_set hs (by decide) (by decide) (by decide) (by decide)
      (.altNext (set_fail (np (by decide)) (np (by decide))) (.altNext (dict_fail (np (by decide))) (.alt e1))))
  | false =>
    simp only [quoteTok, Bool.false_eq_true, if_false, List.nil_append, List.append_nil] at hp
    obtain ⟨ws, s1, hws, rfl, hp1⟩ := padded_cons_iff.1 hp
    obtain ⟨ws1, s2, hws1, rfl, _⟩ := padded_cons_iff.1 hp1
    have hend : EndsToken (ws1 ++ '#' :: (s2 ++ r)) := endsToken_pad hws1 (by decide) _
    have hs : skipWs (ws ++ (n ++ (ws1 ++ (c!"#" ++ s2))) ++ r) = n ++ (ws1 ++ '#' :: (s2 ++ r)) := by
      have := skipWs_pad (s := n ++ (ws1 ++ '#' :: (s2 ++ r))) hws (noWs_append (ident_ne hn) (ident_noWs hn))
      simpa using this
    have hst := hst rfl
    have hall := ident_all hn
    obtain ⟨c, u, hcu, hc, _⟩ := hn
    generalize ws ++ (n ++ (ws1 ++ (c!"#" ++ s2))) ++ r = inp at hs e1 ⊢
    have hs2 : skipWs inp = c :: (u ++ (ws1 ++ '#' :: (s2 ++ r))) := by rw [hs, hcu]; rfl
    have hres : ∀ w ∈ reserved, w.all isIdChar = true → ¬ w <+: skipWs inp := by
      intro w hw hwa h
      rw [hs] at h
      exact hst w hw (prefix_name hwa hend h)
    have np : ∀ {d : Char} {t : Str}, isIdStart d = false → ¬ (d :: t) <+: skipWs inp := fun h => by
      rw [hs2]; exact not_prefix (idStart_not hc h)
    have hset : ¬ c!"set()" <+: skipWs inp := by
      intro h
      rw [hs] at h
      obtain ⟨_, t, h2⟩ := prefix_call (w := c!"set") (t := c!")") (by decide) hall hend h
      cases ws1 with
      | nil => simp at h2
      | cons d ws1 =>
        simp only [List.all_cons, Bool.and_eq_true] at hws1
        simp only [List.cons_append, List.cons.injEq] at h2
        rw [← h2.1] at hws1
        exact absurd hws1.1 (by decide)
    have hv : Ev oldGrammar b (oldGrammar .value) inp _ :=
      to_num (hres _ (by simp [reserved]) (by decide)) (hres _ (by simp [reserved]) (by decide)) (hres _ (by simp [reserved]) (by decide))
        (to_str (by rw [hs2]; exact scanNumber_none (idStart_not hc (by decide)).symm (idStart_not_dig hc))
          (np (by decide)) (hres _ (by simp [reserved]) (by decide)) (hres _ (by simp [reserved]) (by decide))
          (to_set (np (by decide)) (np (by decide)) (np (by decide))
            (.altNext (set_fail hset (np (by decide))) (.altNext (dict_fail (np (by decide))) (.alt e1)))))
    exact ev_value hv

/-! ### All values -/

mutual
theorem reads : ∀ (a : OAst), OWf a → Reads a
  | .none, _ => fun s hp r _ _ b => by
      simp only [otoks] at hp
      obtain ⟨ws, s1, hw, rfl, hp1⟩ := padded_cons_iff.1 hp
      cases hp1
      have := value_none (b := b) (r := r) hw
      simpa using this
  | .bool x, _ => fun s hp r _ _ b => by
      simp only [otoks] at hp
      obtain ⟨ws, s1, hw, rfl, hp1⟩ := padded_cons_iff.1 hp
      cases hp1
      have := value_bool (b := b) (r := r) hw x
      simpa using this
  | .num t, h => fun s hp r hr _ b => by
      simp only [otoks] at hp
      obtain ⟨ws, s1, hw, rfl, hp1⟩ := padded_cons_iff.1 hp
      cases hp1
      have := value_num (b := b) (t := t) hw (by simpa only [OWf] using h) hr
      simpa using this
  | .str t, h => fun s hp r _ _ b => by
      simp only [otoks] at hp
      obtain ⟨ws, s1, hw, rfl, hp1⟩ := padded_cons_iff.1 hp
      obtain ⟨ws1, s2, hw1, rfl, hp2⟩ := padded_cons_iff.1 hp1
      cases hp2
      have := value_str (b := b) (r := r) hw hw1 (by simpa only [OWf] using h)
      simpa using this
  | .tuple xs, h => value_tuple (readsL xs (by simpa only [OWf] using h))
  | .list xs, h => value_list (readsL xs (by simpa only [OWf] using h))
  | .set xs, h => value_set (readsL xs (by simpa only [OWf] using h))
  | .braces, _ => value_braces
  | .dict kvs, h => by
      simp only [OWf] at h
      exact value_dict h.1 (readsD kvs h.2)
  | .what q n kvs, h => by
      simp only [OWf] at h
      exact value_what h.1 h.2.1 (readsA kvs h.2.2) h.2.2
termination_by structural a => a
theorem readsL : ∀ (xs : List OAst), OWfL xs → ∀ x ∈ xs, Reads x
  | [], _ => fun x hx => absurd hx (by simp)
  | y :: ys, h => by
      simp only [OWfL] at h
      intro x hx
      rcases List.mem_cons.1 hx with e | hx
      · rw [e]; exact reads y h.1
      · exact readsL ys h.2 x hx
termination_by structural xs => xs
theorem readsD : ∀ (xs : List (OAst × OAst)), OWfD xs → ∀ x ∈ xs, Reads x.1 ∧ Reads x.2
  | [], _ => fun x hx => absurd hx (by simp)
  | (k, v) :: ys, h => by
      simp only [OWfD] at h
      intro x hx
      rcases List.mem_cons.1 hx with e | hx
      · rw [e]; exact ⟨reads k h.1, reads v h.2.1⟩
      · exact readsD ys h.2.2 x hx
termination_by structural xs => xs
theorem readsA : ∀ (xs : List (Str × OAst)), OWfA xs → ∀ x ∈ xs, Ident x.1 ∧ Reads x.2
  | [], _ => fun x hx => absurd hx (by simp)
  | (k, v) :: ys, h => by
      simp only [OWfA] at h
      intro x hx
      rcases List.mem_cons.1 hx with e | hx
      · rw [e]; exact ⟨h.1, reads v h.2.1⟩
      · exact readsA ys h.2.2.2 x hx
termination_by structural xs => xs
end

/-- A whole id: any spacing before each token and at the end. -/
theorem reads_top {q : Bool} {n : Str} {kvs : List (Str × OAst)} (hn : Ident n) (hk : OWfA kvs) {s ws : Str}
    (hp : Padded (otoks (.what q n kvs)) s) (hw : ws.all isWs = true) :
    Ev oldGrammar false (.ref .whatamiIdTop) (s ++ ws) (.ok [otopTree q n kvs] []) := by
  have hs : skipWs ws = [] := by
    have := skipWs_pad (s := []) hw (fun _ _ e => by cases e)
    simpa using this
  have e1 := ev_body (b := true) (r := ws) hn (readsA kvs hk) hk hp (.inl hs) (fun _ => by rw [hs]; simp)
  have e2 : Ev oldGrammar true .eof ws (.ok [tok []] []) := Ev.eof hs
  have e3 : Ev oldGrammar false (oldGrammar .whatamiIdTop) (s ++ ws) _ := .cat e1 (.cat e2 (.emp _))
  exact Ev.ref e3

end Whatami.Old
