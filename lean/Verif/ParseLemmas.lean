import Verif.Ev

/-
Every well-formed piece of syntax, however spaced, is parsed into its tree.
Definitions here are vocabulary for statements and proofs: the code they are about is cited in the model modules.
-/
namespace Whatami

variable {b : Bool}

/-- What may follow a value. -/
def Delim (r : Str) : Prop := ∀ c u, r = c :: u → isWs c = true ∨ c ∈ [',', ')', ']', '}', ':']

/-- What follows the last element of a collection. -/
def Closes (r : Str) : Prop := ∃ ws c u, ws.all isWs = true ∧ r = ws ++ c :: u ∧ (c = ')' ∨ c = ']' ∨ c = '}')

theorem ws_cases {c : Char} (h : isWs c = true) : c = ' ' ∨ c = '\t' ∨ c = '\n' ∨ c = '\r' := by
  simp only [isWs, Bool.or_eq_true, beq_iff_eq] at h
  rcases h with ((h | h) | h) | h <;> simp [h]

theorem delim_num {r : Str} (h : Delim r) : EndsNum r := by
  intro c u e
  rcases h c u e with h | h
  · rcases ws_cases h with rfl | rfl | rfl | rfl <;> decide
  · simp only [List.mem_cons, List.not_mem_nil, or_false] at h
    rcases h with rfl | rfl | rfl | rfl | rfl <;> decide

theorem delim_token {r : Str} (h : Delim r) : EndsToken r := by
  intro c u e
  rcases h c u e with h | h
  · rcases ws_cases h with rfl | rfl | rfl | rfl <;> decide
  · simp only [List.mem_cons, List.not_mem_nil, or_false] at h
    rcases h with rfl | rfl | rfl | rfl | rfl <;> decide

/-- Whitespace and then one of the characters: a delimiter. -/
theorem delim_pad {ws : Str} (hw : ws.all isWs = true) {c : Char} (hc : c ∈ [',', ')', ']', '}', ':']) (u : Str) :
    Delim (ws ++ c :: u) := by
  intro d v e
  cases ws with
  | nil => simp only [List.nil_append, List.cons.injEq] at e; exact .inr (e.1 ▸ hc)
  | cons x ws =>
    simp only [List.all_cons, Bool.and_eq_true] at hw
    simp only [List.cons_append, List.cons.injEq] at e
    exact .inl (e.1 ▸ hw.1)

theorem endsToken_pad {ws : Str} (hw : ws.all isWs = true) {c : Char} (hc : isIdChar c = false) (u : Str) :
    EndsToken (ws ++ c :: u) := by
  intro d v e
  cases ws with
  | nil => simp only [List.nil_append, List.cons.injEq] at e; exact e.1 ▸ hc
  | cons x ws =>
    simp only [List.all_cons, Bool.and_eq_true] at hw
    simp only [List.cons_append, List.cons.injEq] at e
    rw [← e.1]
    rcases ws_cases hw.1 with rfl | rfl | rfl | rfl <;> decide

theorem closes_delim {r : Str} (h : Closes r) : Delim r := by
  obtain ⟨ws, c, u, hw, rfl, hc⟩ := h
  refine delim_pad hw ?_ u
  rcases hc with rfl | rfl | rfl <;> decide

theorem not_prefix {c d : Char} {t v : Str} (h : c ≠ d) : ¬ (c :: t) <+: (d :: v) := by
  rw [List.cons_prefix_cons]; exact fun h' => h h'.1

/-- A token is read by the string match for it. -/
theorem ev_tok {ws t s : Str} (hw : ws.all isWs = true) (hne : t ≠ []) (ht : NoWs t) :
    Ev newGrammar b (.str t) (ws ++ (t ++ s)) (.ok [.term none b t] s) :=
  .str (skipWs_pad hw (noWs_append hne ht))

/-! ### Alternatives that do not apply -/

theorem none_fail {s : Str} (h : ¬ c!"None" <+: skipWs s) : Ev newGrammar b (.ref .aNone) s .fail := .refFail (.strFail h)

theorem bool_fail {s : Str} (h1 : ¬ c!"True" <+: skipWs s) (h2 : ¬ c!"False" <+: skipWs s) :
    Ev newGrammar b (.ref .aBool) s .fail :=
  .refFail (.altNext (.refFail (.strFail h1)) (.altNext (.refFail (.strFail h2)) (.never _)))

theorem num_fail {s : Str} (h : scanNumber (skipWs s) = none) (h1 : ¬ c!"-inf" <+: skipWs s) (h2 : ¬ c!"inf" <+: skipWs s)
    (h3 : ¬ c!"nan" <+: skipWs s) : Ev newGrammar b (.ref .aNumber) s .fail :=
  .refFail (.altNext (.rxFail h) (.altNext (.strFail h1) (.altNext (.strFail h2) (.altNext (.strFail h3) (.never _)))))

theorem str_fail {s : Str} (h : ¬ c!"'" <+: skipWs s) : Ev newGrammar b (.ref .aString) s .fail := .refFail (.catFail (.strFail h))
theorem tuple_fail {s : Str} (h : ¬ c!"(" <+: skipWs s) : Ev newGrammar b (.ref .aTuple) s .fail := .refFail (.catFail (.strFail h))
theorem list_fail {s : Str} (h : ¬ c!"[" <+: skipWs s) : Ev newGrammar b (.ref .aList) s .fail := .refFail (.catFail (.strFail h))
theorem dict_fail {s : Str} (h : ¬ c!"{" <+: skipWs s) : Ev newGrammar b (.ref .aDict) s .fail := .refFail (.catFail (.strFail h))
theorem class_fail {s : Str} (h : ¬ c!"<class " <+: skipWs s) : Ev newGrammar b (.ref .aClass) s .fail :=
  .refFail (.catFail (.strFail h))

theorem emptySet_fail {s : Str} (h1 : ¬ c!"set()" <+: skipWs s) (h2 : ¬ c!"frozenset()" <+: skipWs s) :
    Ev newGrammar b (.ref .anEmptySet) s .fail :=
  .refFail (.altNext (.strFail h1) (.altNext (.strFail h2) (.never _)))

theorem set_fail {s : Str} (h1 : ¬ c!"set()" <+: skipWs s) (h2 : ¬ c!"frozenset()" <+: skipWs s) (h3 : ¬ c!"{" <+: skipWs s)
    (h4 : ¬ c!"frozenset({" <+: skipWs s) : Ev newGrammar b (.ref .aSet) s .fail :=
  .refFail (.altNext (emptySet_fail h1 h2) (.altNext (.refFail (.altNext (.catFail (.strFail h3)) (.altNext (.catFail (.strFail h4))
    (.never _)))) (.never _)))

theorem id_fail {s : Str} (h : ∀ c u, skipWs s = c :: u → isIdStart c = false) : Ev newGrammar b (.ref .anId) s .fail := by
  refine .refFail (.rxFail ?_)
  cases hs : skipWs s with
  | nil => rfl
  | cons c u => simp [Rx.scan, h c u hs]

theorem what_fail {s : Str} (h : ∀ c u, skipWs s = c :: u → isIdStart c = false) : Ev newGrammar b (.ref .whatamiId) s .fail :=
  .refFail (.catFail2 (.optNone (.catFail (id_fail h))) (.catFail (id_fail h)))

theorem scanNumber_none {c : Char} {u : Str} (h1 : c ≠ '-') (h2 : isDig c = false) : scanNumber (c :: u) = none := by
  simp [scanNumber, scanUnsigned, h1, h2]

/-- No value begins with a closing bracket. -/
theorem value_fail_close {ws : Str} (hw : ws.all isWs = true) {c : Char} (hc : c = ')' ∨ c = ']' ∨ c = '}') (u : Str) :
    Ev newGrammar b (.ref .value) (ws ++ c :: u) .fail := by
  have hs : skipWs (ws ++ c :: u) = c :: u := skipWs_pad hw (noWs_cons (by rcases hc with rfl | rfl | rfl <;> decide))
  have np : ∀ d t, d ≠ ')' → d ≠ ']' → d ≠ '}' → ¬ (d :: t) <+: skipWs (ws ++ c :: u) := by
    intro d t h1 h2 h3
    rw [hs]
    apply not_prefix
    rcases hc with rfl | rfl | rfl <;> assumption
  refine .refFail (.altNext (none_fail ?_) (.altNext (bool_fail ?_ ?_) (.altNext (num_fail ?_ ?_ ?_ ?_) (.altNext (str_fail ?_)
    (.altNext (tuple_fail ?_) (.altNext (list_fail ?_) (.altNext (set_fail ?_ ?_ ?_ ?_) (.altNext (dict_fail ?_)
    (.altNext (class_fail ?_) (.altNext (what_fail ?_) (.never _)))))))))))
  case refine_4 => rw [hs]; rcases hc with rfl | rfl | rfl <;> exact scanNumber_none (by decide) (by decide)
  case refine_17 =>
    intro d v e
    rw [hs] at e
    cases e
    rcases hc with rfl | rfl | rfl <;> decide
  all_goals exact np _ _ (by decide) (by decide) (by decide)

theorem listElements_fail {ws : Str} (hw : ws.all isWs = true) {c : Char} (hc : c = ')' ∨ c = ']' ∨ c = '}') (u : Str) :
    Ev newGrammar b (.ref .listElements) (ws ++ c :: u) .fail := .refFail (.catFail (value_fail_close hw hc u))

theorem dictElements_fail {ws : Str} (hw : ws.all isWs = true) {c : Char} (hc : c = ')' ∨ c = ']' ∨ c = '}') (u : Str) :
    Ev newGrammar b (.ref .dictElements) (ws ++ c :: u) .fail := .refFail (.catFail (.refFail (.catFail (value_fail_close hw hc u))))

theorem kvs_fail {ws : Str} (hw : ws.all isWs = true) {c : Char} (hc : c = ')' ∨ c = ']' ∨ c = '}') (u : Str) :
    Ev newGrammar b (.ref .kvs) (ws ++ c :: u) .fail := by
  refine .refFail (.catFail (.refFail (.catFail (id_fail ?_))))
  intro d v e
  rw [skipWs_pad hw (noWs_cons (by rcases hc with rfl | rfl | rfl <;> decide))] at e
  cases e
  rcases hc with rfl | rfl | rfl <;> decide

/-! ### Comma-separated lists -/

/-- Tokens after the first element. -/
def starToks : List (List Str) → List Str
  | [] => []
  | t :: ts => c!"," :: t ++ starToks ts

/-- Trees after the first element. -/
def starTrees : List Tree → List Tree
  | [] => []
  | t :: ts => .term (some .listSep) true c!"," :: t :: starTrees ts

theorem sepToks_cons (t : List Str) (ts : List (List Str)) : sepToks (t :: ts) = t ++ starToks ts := by
  induction ts generalizing t with
  | nil => simp [sepToks, starToks]
  | cons u ts ih => simp [sepToks, starToks, ih]

theorem sepTrees_cons (t : Tree) (ts : List Tree) : sepTrees (t :: ts) = t :: starTrees ts := by
  induction ts generalizing t with
  | nil => simp [sepTrees, starTrees]
  | cons u ts ih => simp [sepTrees, starTrees, ih]

theorem delim_star {ts : List (List Str)} {s r : Str} (hp : Padded (starToks ts) s) (hr : Closes r) : Delim (s ++ r) := by
  cases ts with
  | nil => cases hp; exact closes_delim hr
  | cons t ts =>
    obtain ⟨ws, s', hw, rfl, _⟩ := padded_cons_iff.1 hp
    have := delim_pad hw (c := ',') (by decide) (s' ++ r)
    simpa using this

theorem sep_end {r : Str} (hr : Closes r) : Ev newGrammar b (.ref .listSep) r .fail := by
  obtain ⟨ws, c, u, hw, rfl, hc⟩ := hr
  refine .refFail (.strFail ?_)
  rw [skipWs_pad hw (noWs_cons (by rcases hc with rfl | rfl | rfl <;> decide))]
  exact not_prefix (by rcases hc with rfl | rfl | rfl <;> decide)

theorem ev_star {X : Peg} {items : List (List Str × Tree)}
    (hX : ∀ p ∈ items, ∀ s, Padded p.1 s → ∀ r, Delim r → ∀ b, Ev newGrammar b X (s ++ r) (.ok [p.2] r))
    {s r : Str} (hp : Padded (starToks (items.map Prod.fst)) s) (hr : Closes r) :
    Ev newGrammar b (.star (seq [.ref .listSep, X])) (s ++ r) (.ok (starTrees (items.map Prod.snd)) r) := by
  induction items generalizing s b with
  | nil => cases hp; exact .starEnd (.catFail (sep_end hr))
  | cons p items ih =>
    simp only [List.map_cons, starToks, List.cons_append] at hp
    obtain ⟨ws, s', hw, rfl, h'⟩ := padded_cons_iff.1 hp
    obtain ⟨s1, s2, rfl, h1, h2⟩ := padded_append h'
    have hd := delim_star h2 hr
    have e1 : Ev newGrammar true (.ref .listSep) (ws ++ (c!"," ++ (s1 ++ s2 ++ r))) (.ok [.term (some .listSep) true c!","] (s1 ++ s2 ++ r)) :=
      Ev.ref (g := newGrammar) (r := .listSep) (ts := [.term none true c!","]) (ev_tok (t := c!",") hw (by simp) (noWs_cons (by decide)))
    have e2 := hX p (by simp) s1 h1 (s2 ++ r) hd true
    have e3 := ih (b := false) (fun q hq => hX q (by simp [hq])) h2
    rw [List.append_assoc s1 s2 r] at e1
    have e4 : Ev newGrammar false (seq [.ref .listSep, X]) (ws ++ (c!"," ++ (s1 ++ (s2 ++ r))))
        (.ok [.term (some .listSep) true c!",", p.2] (s2 ++ r)) := .cat e1 (.cat e2 (.emp _))
    have := Ev.star (b := b) e4 e3
    simpa [starTrees] using this

theorem ev_sep {X : Peg} {items : List (List Str × Tree)} (hne : items ≠ [])
    (hX : ∀ p ∈ items, ∀ s, Padded p.1 s → ∀ r, Delim r → ∀ b, Ev newGrammar b X (s ++ r) (.ok [p.2] r))
    {s r : Str} (hp : Padded (sepToks (items.map Prod.fst)) s) (hr : Closes r) :
    Ev newGrammar b (seq [X, .star (seq [.ref .listSep, X])]) (s ++ r) (.ok (sepTrees (items.map Prod.snd)) r) := by
  cases items with
  | nil => exact absurd rfl hne
  | cons p items =>
    simp only [List.map_cons, sepToks_cons, sepTrees_cons] at hp ⊢
    obtain ⟨s1, s2, rfl, h1, h2⟩ := padded_append hp
    have e1 := hX p (by simp) s1 h1 (s2 ++ r) (delim_star h2 hr) true
    have e2 := ev_star (b := true) (fun q hq => hX q (by simp [hq])) h2 hr
    rw [List.append_assoc]
    have : Ev newGrammar b (seq [X, .star (seq [.ref .listSep, X])]) (s1 ++ (s2 ++ r))
        (.ok ([p.2] ++ (starTrees (items.map Prod.snd) ++ [])) r) := .cat e1 (.cat e2 (.emp _))
    simpa using this

/-- The elements of a collection, if any, up to the closing bracket. -/
theorem ev_elems {rl : Rule} {X : Peg} (hrl : newGrammar rl = seq [X, .star (seq [.ref .listSep, X])])
    (hfail : ∀ {ws : Str}, ws.all isWs = true → ∀ {c : Char}, (c = ')' ∨ c = ']' ∨ c = '}') → ∀ u,
      Ev newGrammar false (.ref rl) (ws ++ c :: u) .fail)
    {items : List (List Str × Tree)}
    (hX : ∀ p ∈ items, ∀ s, Padded p.1 s → ∀ r, Delim r → ∀ b, Ev newGrammar b X (s ++ r) (.ok [p.2] r))
    {s r : Str} (hp : Padded (sepToks (items.map Prod.fst)) s) (hr : Closes r) :
    Ev newGrammar b (.opt (.ref rl)) (s ++ r) (.ok (elems rl (items.map Prod.snd)) r) := by
  cases items with
  | nil =>
    cases hp
    obtain ⟨ws, c, u, hw, rfl, hc⟩ := hr
    exact .optNone (hfail hw hc u)
  | cons p items =>
    have h := ev_sep (b := false) (X := X) (items := p :: items) (by simp) hX hp hr
    rw [← hrl] at h
    have := Ev.opt (b := b) (Ev.ref h)
    simp only [ruleResult, hrl, seq, List.foldr, Peg.isMatch, List.map_cons, sepTrees_cons, elems] at this ⊢
    simpa using this

/-! ### String literals -/

theorem ev_string {ws ws1 body r : Str} (hw : ws.all isWs = true) (hw1 : ws1.all isWs = true) (hb : GoodBody body) :
    Ev newGrammar b (.ref .aString) (ws ++ (c!"'" ++ (ws1 ++ (body ++ c!"'" ++ r)))) (.ok [strTree body] r) := by
  have h1 : Ev newGrammar true (.str c!"'") (ws ++ (c!"'" ++ (ws1 ++ (body ++ (c!"'" ++ r))))) (.ok [tok c!"'"] (ws1 ++ (body ++ (c!"'" ++ r)))) :=
    ev_tok hw (by simp) (noWs_cons (by decide))
  have hnw : NoWs (body ++ (c!"'" ++ r)) := by
    cases hbd : body with
    | nil => exact noWs_cons (by decide)
    | cons c u => exact noWs_cons (hb.2 c u hbd)
  have hscan : Rx.body.scan (skipWs (ws1 ++ (body ++ (c!"'" ++ r)))) = some (body, c!"'" ++ r) := by
    rw [skipWs_pad hw1 hnw]
    simp only [Rx.scan]
    exact congrArg some (scanBody_ok hb.1 r)
  have h2 : Ev newGrammar true (.rx .body) (ws1 ++ (body ++ (c!"'" ++ r)))
      (.ok (if body.isEmpty then [] else [.term none false body]) (c!"'" ++ r)) := by
    cases hbd : body with
    | nil => rw [hbd] at hscan; exact .rxNil hscan
    | cons c u => rw [hbd] at hscan; exact .rx hscan (by simp)
  have h3 : Ev newGrammar true (.str c!"'") (c!"'" ++ r) (.ok [tok c!"'"] r) := ev_tok (ws := []) rfl (by simp) (noWs_cons (by decide))
  have := Ev.ref (r := .aString) (b := b) (Ev.cat h1 (Ev.cat h2 (Ev.cat h3 (Ev.emp _))))
  simp only [ruleResult, newGrammar, seq, List.foldr, Peg.isMatch] at this
  simpa [strTree] using this

/-! ### Names -/

/-- A word of name characters before a token is a prefix of the token's name. -/
theorem prefix_name {w x rest : Str} (hw : w.all isIdChar = true) (hr : EndsToken rest) (h : w <+: x ++ rest) : w <+: x := by
  induction w generalizing x with
  | nil => exact List.nil_prefix
  | cons c w ih =>
    simp only [List.all_cons, Bool.and_eq_true] at hw
    cases x with
    | nil =>
      cases rest with
      | nil => simp at h
      | cons d rest =>
        simp only [List.nil_append, List.cons_prefix_cons] at h
        have := hr d rest rfl
        rw [← h.1, hw.1] at this
        cases this
    | cons d x =>
      simp only [List.cons_append, List.cons_prefix_cons] at h ⊢
      exact ⟨h.1, ih hw.2 h.2⟩

/-- A word of name characters followed by `(`: the name is the word. -/
theorem prefix_call {w x rest t : Str} (hw : w.all isIdChar = true) (hx : x.all isIdChar = true) (hr : EndsToken rest)
    (h : w ++ '(' :: t <+: x ++ rest) : x = w ∧ '(' :: t <+: rest := by
  induction w generalizing x with
  | nil =>
    cases x with
    | nil => exact ⟨rfl, h⟩
    | cons d x =>
      simp only [List.nil_append, List.cons_append, List.cons_prefix_cons] at h
      simp only [List.all_cons, Bool.and_eq_true] at hx
      rw [← h.1] at hx
      exact absurd hx.1 (by decide)
  | cons c w ih =>
    simp only [List.all_cons, Bool.and_eq_true] at hw
    cases x with
    | nil =>
      cases rest with
      | nil => simp at h
      | cons d rest =>
        simp only [List.nil_append, List.cons_append, List.cons_prefix_cons] at h
        have := hr d rest rfl
        rw [← h.1, hw.1] at this
        cases this
    | cons d x =>
      simp only [List.cons_append, List.cons_prefix_cons] at h
      simp only [List.all_cons, Bool.and_eq_true] at hx
      obtain ⟨e1, e2⟩ := ih hw.2 hx.2 h.2
      exact ⟨by rw [h.1, e1], e2⟩

theorem ident_all {x : Str} (h : Ident x) : x.all isIdChar = true := by
  obtain ⟨c, u, rfl, hc, hu⟩ := h
  simp only [List.all_cons, Bool.and_eq_true]
  exact ⟨by simp [isIdChar, hc], hu⟩

theorem ev_id {ws x rest : Str} (hw : ws.all isWs = true) (hx : Ident x) (hr : EndsToken rest) :
    Ev newGrammar b (.ref .anId) (ws ++ (x ++ rest)) (.ok [idTree x] rest) := by
  have hs : skipWs (ws ++ (x ++ rest)) = x ++ rest := skipWs_pad hw (noWs_append (ident_ne hx) (ident_noWs hx))
  have h : Ev newGrammar b (newGrammar .anId) (ws ++ (x ++ rest)) (.ok [.term none false x] rest) :=
    Ev.rx (r := .ident) (by rw [hs]; exact scan_ident hx hr) (ident_ne hx)
  exact Ev.ref h

/-- The body of an id, from the optional out_name on. -/
theorem ev_what {o : Option Str} {n : Str} {items : List (List Str × Tree)} (ho : ∀ x, o = some x → Ident x) (hn : Ident n)
    (hX : ∀ p ∈ items, ∀ s, Padded p.1 s → ∀ r, Delim r → ∀ b, Ev newGrammar b (.ref .kv) (s ++ r) (.ok [p.2] r))
    {s : Str} (hp : Padded (outToks o ++ n :: c!"(" :: sepToks (items.map Prod.fst) ++ [c!")"]) s) (r : Str) :
    Ev newGrammar b (.ref .whatamiId) (s ++ r)
      (.ok [.node .whatamiId (outTrees o ++ idTree n :: tok c!"(" :: elems .kvs (items.map Prod.snd) ++ [tok c!")"])] r) := by
  -- the part after the out_name
  have tail : ∀ {s : Str}, Padded (n :: c!"(" :: sepToks (items.map Prod.fst) ++ [c!")"]) s →
      Ev newGrammar true (seq [.ref .anId, .str c!"(", .opt (.ref .kvs), .str c!")"]) (s ++ r)
        (.ok (idTree n :: tok c!"(" :: elems .kvs (items.map Prod.snd) ++ [tok c!")"]) r) ∧
      Ev newGrammar false (seq [.ref .anId, .str c!"="]) (s ++ r) .fail := by
    intro s hp
    simp only [List.cons_append] at hp
    obtain ⟨ws, s1, hw, rfl, hp1⟩ := padded_cons_iff.1 hp
    obtain ⟨ws1, s2, hw1, rfl, hp2⟩ := padded_cons_iff.1 hp1
    obtain ⟨s3, s4, rfl, hk, hp3⟩ := padded_append hp2
    obtain ⟨ws2, s5, hw2, rfl, hp4⟩ := padded_cons_iff.1 hp3
    cases hp4
    have hend : EndsToken (ws1 ++ '(' :: (s3 ++ (ws2 ++ ([')'] ++ [])) ++ r)) := endsToken_pad hw1 (by decide) _
    have e1 : Ev newGrammar true (.ref .anId) (ws ++ (n ++ (ws1 ++ '(' :: (s3 ++ (ws2 ++ ([')'] ++ [])) ++ r)))) _ := ev_id hw hn hend
    have e1' : Ev newGrammar true (.ref .anId) (ws ++ (n ++ (ws1 ++ '(' :: (s3 ++ (ws2 ++ ([')'] ++ [])) ++ r)))) _ := ev_id hw hn hend
    have e2 : Ev newGrammar true (.str c!"(") (ws1 ++ (c!"(" ++ (s3 ++ (ws2 ++ ([')'] ++ [])) ++ r))) (.ok [tok c!"("] _) :=
      ev_tok hw1 (by simp) (noWs_cons (by decide))
    have hcl : Closes (ws2 ++ ')' :: r) := ⟨ws2, ')', r, hw2, rfl, .inl rfl⟩
    have e3 := ev_elems (b := true) (rl := .kvs) (X := .ref .kv) rfl (fun h _ hc u => kvs_fail h hc u) hX hk hcl
    have e4 : Ev newGrammar true (.str c!")") (ws2 ++ (c!")" ++ r)) (.ok [tok c!")"] r) := ev_tok hw2 (by simp) (noWs_cons (by decide))
    have heq : s3 ++ (ws2 ++ ([')'] ++ [])) ++ r = s3 ++ (ws2 ++ ')' :: r) := by simp
    constructor
    · rw [heq] at e1 e2
      have := Ev.cat (b := true) e1 (Ev.cat e2 (Ev.cat e3 (Ev.cat e4 (Ev.emp _))))
      simpa [seq] using this
    · have hfail : Ev newGrammar true (.str c!"=") (ws1 ++ '(' :: (s3 ++ (ws2 ++ ([')'] ++ [])) ++ r)) .fail := by
        refine .strFail ?_
        rw [skipWs_pad hw1 (noWs_cons (by decide))]
        exact not_prefix (by decide)
      have := Ev.catFail2 (b := false) e1' (Ev.catFail (y := .emp) hfail)
      simpa [seq] using this
  cases o with
  | none =>
    obtain ⟨h1, h2⟩ := tail (s := s) hp
    have h : Ev newGrammar b (newGrammar .whatamiId) (s ++ r) _ := .cat (.optNone h2) h1
    exact Ev.ref h
  | some x =>
    have hx := ho x rfl
    simp only [outToks, List.cons_append, List.nil_append] at hp
    obtain ⟨ws, s1, hw, rfl, hp1⟩ := padded_cons_iff.1 hp
    obtain ⟨ws1, s2, hw1, rfl, hp2⟩ := padded_cons_iff.1 hp1
    obtain ⟨h1, _⟩ := tail (s := s2) hp2
    have e1 : Ev newGrammar true (.ref .anId) (ws ++ (x ++ (ws1 ++ '=' :: (s2 ++ r)))) _ := ev_id hw hx (endsToken_pad hw1 (by decide) _)
    have e2 : Ev newGrammar true (.str c!"=") (ws1 ++ (c!"=" ++ (s2 ++ r))) (.ok [tok c!"="] (s2 ++ r)) :=
      ev_tok hw1 (by simp) (noWs_cons (by decide))
    have e3 : Ev newGrammar true (.opt (seq [.ref .anId, .str c!"="])) (ws ++ (x ++ (ws1 ++ (c!"=" ++ (s2 ++ r))))) (.ok [idTree x, tok c!"="] (s2 ++ r)) :=
      .opt (.cat e1 (.cat e2 (.emp _)))
    have h : Ev newGrammar b (newGrammar .whatamiId) (ws ++ (x ++ (ws1 ++ (c!"=" ++ (s2 ++ r))))) _ := .cat e3 h1
    have := Ev.ref h
    simpa [ruleResult, newGrammar, seq, Peg.isMatch, outTrees] using this

end Whatami
