import Verif.QuoteScan

/-
Nested ids with a name that starts like None, True, False, inf or nan: the parser takes the word for a value and does not get any further.
Definitions here are vocabulary for statements and proofs: the code they are about is cited in the model modules.
-/
namespace Whatami

variable {b : Bool}

/-- The first character that is not whitespace. -/
def Starts (P : Char → Prop) (s : Str) : Prop := ∃ c u, skipWs s = c :: u ∧ P c

/-- What comes after the word: the rest of the name, or what follows names. -/
def Sticks (c : Char) : Prop := isIdChar c = true ∨ c = '(' ∨ c = '='

/-- Anything but a closing bracket. -/
def NotClose (c : Char) : Prop := c ≠ ')' ∧ c ≠ ']' ∧ c ≠ '}'

theorem sticks_ne {c d : Char} (h : Sticks c) (h1 : isIdChar d = false) (h2 : d ≠ '(') (h3 : d ≠ '=') : d ≠ c := by
  rintro rfl
  rcases h with h | h | h
  · rw [h] at h1; cases h1
  · exact h2 h
  · exact h3 h

theorem sticks_notClose {c : Char} (h : Sticks c) : NotClose c :=
  ⟨(sticks_ne h (by decide) (by decide) (by decide)).symm, (sticks_ne h (by decide) (by decide) (by decide)).symm,
    (sticks_ne h (by decide) (by decide) (by decide)).symm⟩

theorem starts_imp {P Q : Char → Prop} {s : Str} (h : Starts P s) (hpq : ∀ c, P c → Q c) : Starts Q s := by
  obtain ⟨c, u, e, hc⟩ := h
  exact ⟨c, u, e, hpq c hc⟩

theorem starts_pad {P : Char → Prop} {ws : Str} (hw : ws.all isWs = true) {c : Char} (hc : isWs c = false) (hP : P c) (u : Str) : Starts P (ws ++ c :: u) :=
  ⟨c, u, skipWs_pad hw (noWs_cons hc), hP⟩

theorem str_stop {P : Char → Prop} {s : Str} (h : Starts P s) {d : Char} {t : Str} (hd : ∀ c, P c → d ≠ c) : Ev newGrammar b (.str (d :: t)) s .fail := by
  obtain ⟨c, u, e, hc⟩ := h
  exact .strFail (by rw [e]; exact not_prefix (hd c hc))

/-- These tokens are read, and something is left after them that goes with what was read. -/
def Reading (X : Peg) (ts : List Str) : Prop :=
  ∃ t, ∀ s, Padded ts s → ∀ r, Delim r → ∀ b, Ev newGrammar b X (s ++ r) (.ok [t] r)

/-- These tokens are not read, or not up to their end. -/
def Stuck (X : Peg) (ts : List Str) : Prop :=
  ∀ s, Padded ts s → ∀ r, Delim r → ∀ b, Ev newGrammar b X (s ++ r) .fail ∨
    ∃ t us rest, Ev newGrammar b X (s ++ r) (.ok (t :: us) rest) ∧ Starts Sticks rest

/-- The first token starts with neither whitespace nor punctuation. -/
def Opens (ts : List Str) : Prop := ∃ c u us, ts = (c :: u) :: us ∧ isWs c = false ∧ NotClose c

theorem opens_starts {ts : List Str} (h : Opens ts) {s : Str} (hp : Padded ts s) (r : Str) : Starts NotClose (s ++ r) := by
  obtain ⟨c, u, us, rfl, hw, hc⟩ := h
  obtain ⟨ws, s1, h1, rfl, -⟩ := padded_cons_iff.1 hp
  have := starts_pad (P := NotClose) h1 hw hc (u ++ s1 ++ r)
  simpa using this

/-! ### Comma-separated lists -/

theorem stuck_star {X : Peg} {items : List (List Str)} (h : ∀ ts ∈ items, Reading X ts ∨ Stuck X ts) (hs : ∃ ts ∈ items, Stuck X ts)
    {s r : Str} (hp : Padded (starToks items) s) (hr : Closes r) :
    ∃ us rest, Ev newGrammar b (.star (seq [.ref .listSep, X])) (s ++ r) (.ok us rest) ∧ Starts NotClose rest := by
  induction items generalizing s b with
  | nil => obtain ⟨ts, hm, -⟩ := hs; cases hm
  | cons ts items ih =>
    simp only [starToks, List.cons_append] at hp
    obtain ⟨ws, s', hw, rfl, h'⟩ := padded_cons_iff.1 hp
    obtain ⟨s1, s2, rfl, h1, h2⟩ := padded_append h'
    have hd := delim_star h2 hr
    have hcomma : Starts NotClose (ws ++ (c!"," ++ (s1 ++ s2)) ++ r) := by
      have := starts_pad (P := NotClose) hw (c := ',') (by decide) (by unfold NotClose; decide) (s1 ++ s2 ++ r)
      simpa using this
    have e1 : Ev newGrammar true (.ref .listSep) (ws ++ (c!"," ++ (s1 ++ (s2 ++ r)))) (.ok [.term (some .listSep) true c!","] (s1 ++ (s2 ++ r))) :=
      Ev.ref (g := newGrammar) (r := .listSep) (ts := [.term none true c!","]) (ev_tok (t := c!",") hw (by simp) (noWs_cons (by decide)))
    have e0 : ws ++ (c!"," ++ (s1 ++ s2)) ++ r = ws ++ (c!"," ++ (s1 ++ (s2 ++ r))) := by simp
    by_cases hst : Stuck X ts
    · rcases hst s1 h1 (s2 ++ r) hd true with hf | ⟨t, us, rest, ho, hrest⟩
      · refine ⟨[], _, .starEnd ?_, hcomma⟩
        rw [e0]
        have := Ev.catFail2 (b := false) e1 (Ev.catFail (y := .emp) hf)
        simpa [seq] using this
      · have e4 : Ev newGrammar false (seq [.ref .listSep, X]) (ws ++ (c!"," ++ (s1 ++ (s2 ++ r)))) (.ok (.term (some .listSep) true c!"," :: (t :: us ++ [])) rest) :=
          .cat e1 (.cat ho (.emp _))
        have e5 : Ev newGrammar false (.star (seq [.ref .listSep, X])) rest (.ok [] rest) :=
          .starEnd (.catFail (.refFail (str_stop hrest fun c hc => sticks_ne hc (by decide) (by decide) (by decide))))
        rw [e0]
        exact ⟨_, rest, Ev.star (b := b) e4 e5, starts_imp hrest fun c => sticks_notClose⟩
    · obtain ⟨t, ht⟩ := (h ts (by simp)).resolve_right hst
      obtain ⟨us, hm, hu⟩ := hs
      have hm' : us ∈ items := by
        rcases List.mem_cons.1 hm with rfl | hm
        · exact absurd hu hst
        · exact hm
      obtain ⟨vs, rest, hv, hrest⟩ := ih (b := false) (fun q hq => h q (by simp [hq])) ⟨us, hm', hu⟩ h2
      have e4 : Ev newGrammar false (seq [.ref .listSep, X]) (ws ++ (c!"," ++ (s1 ++ (s2 ++ r)))) (.ok [.term (some .listSep) true c!",", t] (s2 ++ r)) :=
        .cat e1 (.cat (ht s1 h1 (s2 ++ r) hd true) (.emp _))
      rw [e0]
      exact ⟨_, rest, Ev.star (b := b) e4 hv, hrest⟩

theorem stuck_sep {X : Peg} {items : List (List Str)} (h : ∀ ts ∈ items, Reading X ts ∨ Stuck X ts) (hs : ∃ ts ∈ items, Stuck X ts)
    {s r : Str} (hp : Padded (sepToks items) s) (hr : Closes r) :
    Ev newGrammar b (seq [X, .star (seq [.ref .listSep, X])]) (s ++ r) .fail ∨
    ∃ us rest, Ev newGrammar b (seq [X, .star (seq [.ref .listSep, X])]) (s ++ r) (.ok us rest) ∧ Starts NotClose rest := by
  cases items with
  | nil => obtain ⟨ts, hm, -⟩ := hs; cases hm
  | cons ts items =>
    simp only [sepToks_cons] at hp
    obtain ⟨s1, s2, rfl, h1, h2⟩ := padded_append hp
    have hd := delim_star h2 hr
    rw [List.append_assoc]
    by_cases hst : Stuck X ts
    · rcases hst s1 h1 (s2 ++ r) hd true with hf | ⟨t, us, rest, ho, hrest⟩
      · exact .inl (.catFail hf)
      · have e5 : Ev newGrammar true (.star (seq [.ref .listSep, X])) rest (.ok [] rest) :=
          .starEnd (.catFail (.refFail (str_stop hrest fun c hc => sticks_ne hc (by decide) (by decide) (by decide))))
        exact .inr ⟨_, rest, .cat ho (.cat e5 (.emp _)), starts_imp hrest fun c => sticks_notClose⟩
    · obtain ⟨t, ht⟩ := (h ts (by simp)).resolve_right hst
      obtain ⟨us, hm, hu⟩ := hs
      have hm' : us ∈ items := by
        rcases List.mem_cons.1 hm with rfl | hm
        · exact absurd hu hst
        · exact hm
      obtain ⟨vs, rest, hv, hrest⟩ := stuck_star (b := true) (fun q hq => h q (by simp [hq])) ⟨us, hm', hu⟩ h2 hr
      exact .inr ⟨_, rest, .cat (ht s1 h1 (s2 ++ r) hd true) (.cat hv (.emp _)), hrest⟩

theorem stuck_ref {rl : Rule} {X : Peg} (hrl : newGrammar rl = seq [X, .star (seq [.ref .listSep, X])])
    {items : List (List Str)} (h : ∀ ts ∈ items, Reading X ts ∨ Stuck X ts) (hs : ∃ ts ∈ items, Stuck X ts)
    {s r : Str} (hp : Padded (sepToks items) s) (hr : Closes r) :
    Ev newGrammar b (.ref rl) (s ++ r) .fail ∨ ∃ us rest, Ev newGrammar b (.ref rl) (s ++ r) (.ok us rest) ∧ Starts NotClose rest := by
  have := stuck_sep (b := b) h hs hp hr
  rw [← hrl] at this
  rcases this with hf | ⟨us, rest, ho, hrest⟩
  · exact .inl (.refFail hf)
  · exact .inr ⟨_, rest, Ev.ref ho, hrest⟩

/-- After the elements comes something that does not close the brackets. -/
theorem stuck_opt {rl : Rule} {X : Peg} (hrl : newGrammar rl = seq [X, .star (seq [.ref .listSep, X])])
    {items : List (List Str)} (h : ∀ ts ∈ items, Reading X ts ∨ Stuck X ts) (hop : ∀ ts ∈ items, Opens ts) (hs : ∃ ts ∈ items, Stuck X ts)
    {s r : Str} (hp : Padded (sepToks items) s) (hr : Closes r) :
    ∃ us rest, Ev newGrammar b (.opt (.ref rl)) (s ++ r) (.ok us rest) ∧ Starts NotClose rest := by
  rcases stuck_ref (b := false) hrl h hs hp hr with hf | ⟨us, rest, ho, hrest⟩
  · refine ⟨[], _, .optNone hf, ?_⟩
    cases items with
    | nil => obtain ⟨ts, hm, -⟩ := hs; cases hm
    | cons ts items =>
      simp only [sepToks_cons] at hp
      obtain ⟨s1, s2, rfl, h1, h2⟩ := padded_append hp
      rw [List.append_assoc]
      exact opens_starts (hop ts (by simp)) h1 _
  · exact ⟨us, rest, .opt ho, hrest⟩

theorem close_stop {d : Char} {v : Str} (hd : d = ')' ∨ d = ']' ∨ d = '}') {s : Str} (h : Starts NotClose s) {y : Peg} :
    Ev newGrammar b (.cat (.str (d :: v)) y) s .fail :=
  .catFail (str_stop h fun c hc => by
    rcases hd with rfl | rfl | rfl
    · exact hc.1.symm
    · exact hc.2.1.symm
    · exact hc.2.2.symm)

theorem stuck_bracket {rl : Rule} {X : Peg} {op cl : Str} (hrl : newGrammar rl = seq [X, .star (seq [.ref .listSep, X])])
    {items : List (List Str)} (h : ∀ ts ∈ items, Reading X ts ∨ Stuck X ts) (hopn : ∀ ts ∈ items, Opens ts) (hs : ∃ ts ∈ items, Stuck X ts)
    (hop : op ≠ []) (hopw : NoWs op) {d : Char} {v : Str} (hcl : cl = d :: v) (hd : d = ')' ∨ d = ']' ∨ d = '}')
    {s : Str} (r : Str) (hp : Padded (op :: sepToks items ++ [cl]) s) :
    Ev newGrammar b (seq [.str op, .opt (.ref rl), .str cl]) (s ++ r) .fail ∧ Ev newGrammar b (seq [.str op, .ref rl, .str cl]) (s ++ r) .fail := by
  subst hcl
  simp only [List.cons_append] at hp
  obtain ⟨ws, s1, hw, rfl, hp1⟩ := padded_cons_iff.1 hp
  obtain ⟨s2, s3, rfl, hk, hp2⟩ := padded_append hp1
  obtain ⟨ws1, s4, hw1, rfl, hp3⟩ := padded_cons_iff.1 hp2
  cases hp3
  have hr : Closes (ws1 ++ (d :: v ++ r)) := ⟨ws1, d, v ++ r, hw1, rfl, hd⟩
  have e1 : Ev newGrammar true (.str op) (ws ++ (op ++ (s2 ++ (ws1 ++ (d :: v ++ r))))) (.ok [tok op] _) := ev_tok hw hop hopw
  have e0 : ws ++ (op ++ (s2 ++ (ws1 ++ (d :: v ++ [])))) ++ r = ws ++ (op ++ (s2 ++ (ws1 ++ (d :: v ++ r)))) := by simp
  rw [e0]
  constructor
  · obtain ⟨us, rest, ho, hrest⟩ := stuck_opt (b := true) hrl h hopn hs hk hr
    exact .catFail2 e1 (.catFail2 ho (close_stop hd hrest))
  · rcases stuck_ref (b := true) hrl h hs hk hr with hf | ⟨us, rest, ho, hrest⟩
    · exact .catFail2 e1 (.catFail hf)
    · exact .catFail2 e1 (.catFail2 ho (close_stop hd hrest))

/-! ### Keys and values -/

theorem stuck_dictkv {t u : List Str} (hk : Reading (.ref .value) t ∨ Stuck (.ref .value) t) (hv : Stuck (.ref .value) t ∨ Stuck (.ref .value) u) :
    Stuck (.ref .dictkv) (t ++ c!":" :: u) := by
  intro s hp r hr b
  obtain ⟨s1, s2, rfl, h1, h2⟩ := padded_append hp
  obtain ⟨ws, s3, hw, rfl, h3⟩ := padded_cons_iff.1 h2
  have e0 : s1 ++ (ws ++ (c!":" ++ s3)) ++ r = s1 ++ (ws ++ (c!":" ++ (s3 ++ r))) := by simp
  rw [e0]
  have hd : Delim (ws ++ (c!":" ++ (s3 ++ r))) := delim_pad hw (by decide) _
  by_cases hst : Stuck (.ref .value) t
  · rcases hst s1 h1 _ hd true with hf | ⟨t', us, rest, ho, hrest⟩
    · exact .inl (.refFail (.catFail hf))
    · exact .inl (.refFail (.catFail2 ho (.catFail (str_stop hrest fun c hc => sticks_ne hc (by decide) (by decide) (by decide)))))
  · obtain ⟨k, hk⟩ := hk.resolve_right hst
    have e1 := hk s1 h1 _ hd true
    have e2 : Ev newGrammar true (.str c!":") (ws ++ (c!":" ++ (s3 ++ r))) (.ok [tok c!":"] _) := ev_tok hw (by simp) (noWs_cons (by decide))
    rcases (hv.resolve_left hst) s3 h3 r hr true with hf | ⟨t', us, rest, ho, hrest⟩
    · exact .inl (.refFail (.catFail2 e1 (.catFail2 e2 (.catFail hf))))
    · refine .inr ?_
      have e4 : Ev newGrammar b (newGrammar .dictkv) (s1 ++ (ws ++ (c!":" ++ (s3 ++ r)))) (.ok ([k] ++ ([tok c!":"] ++ (t' :: us ++ []))) rest) :=
        .cat e1 (.cat e2 (.cat ho (.emp _)))
      have := Ev.ref e4
      simp only [ruleResult, newGrammar, seq, List.foldr, Peg.isMatch] at this
      exact ⟨_, _, rest, this, hrest⟩

theorem stuck_kv {k : Str} {u : List Str} (hk : Ident k) (hv : Stuck (.ref .value) u) : Stuck (.ref .kv) (k :: c!"=" :: u) := by
  intro s hp r hr b
  obtain ⟨ws, s1, hw, rfl, h1⟩ := padded_cons_iff.1 hp
  obtain ⟨ws1, s2, hw1, rfl, h2⟩ := padded_cons_iff.1 h1
  have e0 : ws ++ (k ++ (ws1 ++ (c!"=" ++ s2))) ++ r = ws ++ (k ++ (ws1 ++ (c!"=" ++ (s2 ++ r)))) := by simp
  rw [e0]
  have e1 : Ev newGrammar true (.ref .anId) (ws ++ (k ++ (ws1 ++ '=' :: (s2 ++ r)))) _ := ev_id hw hk (endsToken_pad hw1 (by decide) _)
  have e2 : Ev newGrammar true (.str c!"=") (ws1 ++ (c!"=" ++ (s2 ++ r))) (.ok [tok c!"="] _) := ev_tok hw1 (by simp) (noWs_cons (by decide))
  rcases hv s2 h2 r hr true with hf | ⟨t', us, rest, ho, hrest⟩
  · exact .inl (.refFail (.catFail2 e1 (.catFail2 e2 (.catFail hf))))
  · refine .inr ?_
    have e4 : Ev newGrammar b (newGrammar .kv) (ws ++ (k ++ (ws1 ++ (c!"=" ++ (s2 ++ r))))) (.ok ([idTree k] ++ ([tok c!"="] ++ (t' :: us ++ []))) rest) :=
      .cat e1 (.cat e2 (.cat ho (.emp _)))
    have := Ev.ref e4
    simp only [ruleResult, newGrammar, seq, List.foldr, Peg.isMatch] at this
    exact ⟨_, _, rest, this, hrest⟩

/-- A set is not a dict: after its first element comes no colon. -/
theorem set_not_dict {t : List Str} {tss : List (List Str)} (ht : Reading (.ref .value) t ∨ Stuck (.ref .value) t) (ho : Opens t) {s : Str} (r : Str)
    (hp : Padded (c!"{" :: sepToks (t :: tss) ++ [c!"}"]) s) : Ev newGrammar b (.ref .aDict) (s ++ r) .fail := by
  simp only [sepToks_cons, List.cons_append, List.append_assoc] at hp
  obtain ⟨ws, s1, hw, rfl, hp1⟩ := padded_cons_iff.1 hp
  obtain ⟨s2, s3, rfl, h1, hp2⟩ := padded_append hp1
  obtain ⟨s4, s5, rfl, h2, hp3⟩ := padded_append hp2
  obtain ⟨ws1, s6, hw1, rfl, hp4⟩ := padded_cons_iff.1 hp3
  cases hp4
  have hr : Closes (ws1 ++ ('}' :: r)) := ⟨ws1, '}', r, hw1, rfl, .inr (.inr rfl)⟩
  have hd : Delim (s4 ++ (ws1 ++ ('}' :: r))) := delim_star h2 hr
  have hcol : Starts (fun c => ':' ≠ c) (s4 ++ (ws1 ++ ('}' :: r))) := by
    cases tss with
    | nil => cases h2; exact starts_pad hw1 (by decide) (by decide) _
    | cons u tss =>
      obtain ⟨ws, s', hw, rfl, _⟩ := padded_cons_iff.1 h2
      have := starts_pad (P := fun c => ':' ≠ c) (c := ',') hw (by decide) (by decide) (s' ++ (ws1 ++ ('}' :: r)))
      simpa using this
  have e0 : ws ++ (c!"{" ++ (s2 ++ (s4 ++ (ws1 ++ (c!"}" ++ []))))) ++ r = ws ++ (c!"{" ++ (s2 ++ (s4 ++ (ws1 ++ ('}' :: r))))) := by simp
  rw [e0]
  have e1 : Ev newGrammar true (.str c!"{") (ws ++ (c!"{" ++ (s2 ++ (s4 ++ (ws1 ++ ('}' :: r)))))) (.ok [tok c!"{"] _) :=
    ev_tok hw (by simp) (noWs_cons (by decide))
  have e2 : Ev newGrammar true (.ref .dictkv) (s2 ++ (s4 ++ (ws1 ++ ('}' :: r)))) .fail := by
    rcases ht with ⟨k, hk⟩ | hst
    · exact .refFail (.catFail2 (hk s2 h1 _ hd true) (.catFail (str_stop hcol fun c hc => hc)))
    · rcases hst s2 h1 _ hd true with hf | ⟨t', us, rest, ho, hrest⟩
      · exact .refFail (.catFail hf)
      · exact .refFail (.catFail2 ho (.catFail (str_stop hrest fun c hc => sticks_ne hc (by decide) (by decide) (by decide))))
  exact .refFail (.catFail2 e1 (.catFail2 (.optNone (.refFail (.catFail e2))) (close_stop (.inr (.inr rfl)) (opens_starts ho h1 _))))

/-- A dict is not a set: after the first key comes a colon. -/
theorem stuck_not_set {t u : List Str} {tss : List (List Str)} (ht : Reading (.ref .value) t ∨ Stuck (.ref .value) t) {s : Str}
    (hp : Padded (c!"{" :: sepToks ((t ++ c!":" :: u) :: tss) ++ [c!"}"]) s) (r : Str) :
    Ev newGrammar b (seq [.str c!"{", .ref .listElements, .str c!"}"]) (s ++ r) .fail := by
  rcases ht with ⟨k, hk⟩ | hst
  · exact dict_not_set_as (k := k) (fun s hp r hr b => hk s hp r hr b) hp r
  simp only [sepToks_cons, List.cons_append, List.append_assoc] at hp
  obtain ⟨ws, s1, hw, rfl, hp1⟩ := padded_cons_iff.1 hp
  obtain ⟨s2, s3, rfl, h1, hp2⟩ := padded_append hp1
  obtain ⟨ws1, s4, hw1, rfl, hp3⟩ := padded_cons_iff.1 hp2
  have hd : Delim (ws1 ++ (c!":" ++ (s4 ++ r))) := delim_pad hw1 (by decide) _
  have e1 : Ev newGrammar true (.str c!"{") (ws ++ (c!"{" ++ (s2 ++ (ws1 ++ (c!":" ++ (s4 ++ r)))))) (.ok [tok c!"{"] _) :=
    ev_tok hw (by simp) (noWs_cons (by decide))
  have e0 : ws ++ (c!"{" ++ (s2 ++ (ws1 ++ (c!":" ++ s4)))) ++ r = ws ++ (c!"{" ++ (s2 ++ (ws1 ++ (c!":" ++ (s4 ++ r))))) := by simp
  rw [e0]
  rcases hst s2 h1 _ hd true with hf | ⟨t', us, rest, ho, hrest⟩
  · exact .catFail2 e1 (.catFail (.refFail (.catFail hf)))
  · have e3 : Ev newGrammar true (.star (seq [.ref .listSep, .ref .value])) rest (.ok [] rest) :=
      .starEnd (.catFail (.refFail (str_stop hrest fun c hc => sticks_ne hc (by decide) (by decide) (by decide))))
    have e4 : Ev newGrammar true (newGrammar .listElements) (s2 ++ (ws1 ++ (c!":" ++ (s4 ++ r)))) _ := .cat ho (.cat e3 (.emp _))
    exact .catFail2 e1 (.catFail2 (Ev.ref e4) (close_stop (.inr (.inr rfl)) (starts_imp hrest fun c => sticks_notClose)))

/-! ### Ids -/

theorem stuck_what {o : Option Str} {n : Str} {items : List (List Str)} (ho : ∀ x, o = some x → Ident x) (hn : Ident n)
    (h : ∀ ts ∈ items, Reading (.ref .kv) ts ∨ Stuck (.ref .kv) ts) (hop : ∀ ts ∈ items, Opens ts) (hs : ∃ ts ∈ items, Stuck (.ref .kv) ts)
    {s : Str} (hp : Padded (outToks o ++ n :: c!"(" :: sepToks items ++ [c!")"]) s) (r : Str) :
    Ev newGrammar b (.ref .whatamiId) (s ++ r) .fail := by
  have tail : ∀ {s : Str}, Padded (n :: c!"(" :: sepToks items ++ [c!")"]) s →
      Ev newGrammar true (seq [.ref .anId, .str c!"(", .opt (.ref .kvs), .str c!")"]) (s ++ r) .fail ∧
      Ev newGrammar false (seq [.ref .anId, .str c!"="]) (s ++ r) .fail := by
    intro s hp
    simp only [List.cons_append] at hp
    obtain ⟨ws, s1, hw, rfl, hp1⟩ := padded_cons_iff.1 hp
    have hb := (stuck_bracket (b := true) (rl := .kvs) (X := .ref .kv) rfl h hop hs (by simp) (noWs_cons (by decide)) (cl := c!")") rfl (.inl rfl) r hp1).1
    obtain ⟨ws1, s2, hw1, rfl, hp2⟩ := padded_cons_iff.1 hp1
    have e0 : ws ++ (n ++ (ws1 ++ (c!"(" ++ s2))) ++ r = ws ++ (n ++ (ws1 ++ '(' :: (s2 ++ r))) := by simp
    have e00 : ws1 ++ (c!"(" ++ s2) ++ r = ws1 ++ '(' :: (s2 ++ r) := by simp
    rw [e00] at hb
    rw [e0]
    have e1 : ∀ b, Ev newGrammar b (.ref .anId) (ws ++ (n ++ (ws1 ++ '(' :: (s2 ++ r)))) _ := fun b => ev_id hw hn (endsToken_pad hw1 (by decide) _)
    exact ⟨.catFail2 (e1 true) hb, .catFail2 (e1 true) (.catFail (str_stop (P := fun c => '=' ≠ c) (starts_pad hw1 (by decide) (by decide) _) fun c hc => hc))⟩
  cases o with
  | none =>
    obtain ⟨h1, h2⟩ := tail (s := s) hp
    exact .refFail (.catFail2 (.optNone h2) h1)
  | some x =>
    have hx := ho x rfl
    simp only [outToks, List.cons_append, List.nil_append] at hp
    obtain ⟨ws, s1, hw, rfl, hp1⟩ := padded_cons_iff.1 hp
    obtain ⟨ws1, s2, hw1, rfl, hp2⟩ := padded_cons_iff.1 hp1
    obtain ⟨h1, _⟩ := tail (s := s2) hp2
    have e0 : ws ++ (x ++ (ws1 ++ (c!"=" ++ s2))) ++ r = ws ++ (x ++ (ws1 ++ (c!"=" ++ (s2 ++ r)))) := by simp
    rw [e0]
    have e1 : Ev newGrammar true (.ref .anId) (ws ++ (x ++ (ws1 ++ '=' :: (s2 ++ r)))) _ := ev_id hw hx (endsToken_pad hw1 (by decide) _)
    have e2 : Ev newGrammar true (.str c!"=") (ws1 ++ (c!"=" ++ (s2 ++ r))) (.ok [tok c!"="] (s2 ++ r)) :=
      ev_tok hw1 (by simp) (noWs_cons (by decide))
    have e3 : Ev newGrammar true (.opt (seq [.ref .anId, .str c!"="])) (ws ++ (x ++ (ws1 ++ (c!"=" ++ (s2 ++ r))))) (.ok [idTree x, tok c!"="] (s2 ++ r)) :=
      .opt (.cat e1 (.cat e2 (.emp _)))
    exact .refFail (.catFail2 e3 h1)

/-- What is left of the name, or what follows it. -/
theorem rest_sticks {o : Option Str} {n u : Str} {tss : List (List Str)} {w : Str} (hu : w ++ u = o.getD n) (hid : Ident (o.getD n))
    {s : Str} (hp : Padded (outToks o ++ n :: c!"(" :: sepToks tss ++ [c!")"]) s) (r : Str) :
    ∃ ws rest, ws.all isWs = true ∧ s ++ r = ws ++ (w ++ rest) ∧ Starts Sticks rest := by
  have key : ∀ {ws : Str} {c : Char} (t : Str), ws.all isWs = true → isWs c = false → Sticks c → Starts Sticks (u ++ (ws ++ c :: t)) := by
    intro ws c t hw hc hs
    cases u with
    | nil => exact starts_pad hw hc hs t
    | cons d u =>
      have hd : isIdChar d = true := List.all_eq_true.1 (ident_all hid) d (by rw [← hu]; simp)
      have hdw : isWs d = false := by
        cases hh : isWs d with
        | false => rfl
        | true => rcases ws_cases hh with rfl | rfl | rfl | rfl <;> exact absurd hd (by decide)
      exact ⟨d, _, skipWs_noWs (noWs_cons hdw), .inl hd⟩
  cases o with
  | some x =>
    simp only [Option.getD] at hu
    simp only [outToks, List.cons_append, List.nil_append] at hp
    obtain ⟨ws, s1, hw, rfl, hp1⟩ := padded_cons_iff.1 hp
    obtain ⟨ws1, s2, hw1, rfl, hp2⟩ := padded_cons_iff.1 hp1
    refine ⟨ws, u ++ (ws1 ++ '=' :: (s2 ++ r)), hw, by rw [← hu]; simp, key _ hw1 (by decide) (.inr (.inr rfl))⟩
  | none =>
    simp only [Option.getD] at hu
    simp only [outToks, List.cons_append, List.nil_append] at hp
    obtain ⟨ws, s1, hw, rfl, hp1⟩ := padded_cons_iff.1 hp
    obtain ⟨ws1, s2, hw1, rfl, hp2⟩ := padded_cons_iff.1 hp1
    exact ⟨ws, u ++ (ws1 ++ '(' :: (s2 ++ r)), hw, by rw [← hu]; simp, key _ hw1 (by decide) (.inr (.inl rfl))⟩

/-- The reserved words are read as values whatever comes after them. -/
theorem reserved_read {w : Str} (h : w ∈ reserved) {ws : Str} (hw : ws.all isWs = true) (rest : Str) :
    ∃ t, Ev newGrammar b (.ref .value) (ws ++ (w ++ rest)) (.ok [t] rest) := by
  have num : ∀ {w : Str} {c : Char} {u : Str}, w = c :: u → isWs c = false → ¬ c!"None" <+: w ++ rest → ¬ c!"True" <+: w ++ rest → ¬ c!"False" <+: w ++ rest →
      Ev newGrammar false (newGrammar .aNumber) (ws ++ (w ++ rest)) (.ok [.term none false w] rest) →
      ∃ t, Ev newGrammar b (.ref .value) (ws ++ (w ++ rest)) (.ok [t] rest) := by
    intro w c u e hc h1 h2 h3 h
    have hs : skipWs (ws ++ (w ++ rest)) = w ++ rest := by subst e; exact skipWs_pad hw (noWs_cons hc)
    have := ev_value (b := b) (to_num (by rw [hs]; exact h1) (by rw [hs]; exact h2) (by rw [hs]; exact h3) (.alt (Ev.ref h)))
    exact ⟨_, this⟩
  simp only [reserved, List.mem_cons, List.not_mem_nil, or_false] at h
  rcases h with rfl | rfl | rfl | rfl | rfl
  · exact ⟨_, value_none hw⟩
  · exact ⟨_, value_bool hw true⟩
  · exact ⟨_, value_bool hw false⟩
  · refine num rfl (by decide) (not_prefix (by decide)) (not_prefix (by decide)) (not_prefix (by decide)) ?_
    have hs : skipWs (ws ++ (c!"inf" ++ rest)) = 'i' :: (c!"nf" ++ rest) := skipWs_pad hw (noWs_cons (by decide))
    exact .altNext (.rxFail (show scanNumber _ = none by rw [hs]; exact scanNumber_none (by decide) (by decide))) (.altNext (.strFail (by rw [hs]; exact not_prefix (by decide))) (.alt (.str hs)))
  · refine num rfl (by decide) (not_prefix (by decide)) (not_prefix (by decide)) (not_prefix (by decide)) ?_
    have hs : skipWs (ws ++ (c!"nan" ++ rest)) = 'n' :: (c!"an" ++ rest) := skipWs_pad hw (noWs_cons (by decide))
    exact .altNext (.rxFail (show scanNumber _ = none by rw [hs]; exact scanNumber_none (by decide) (by decide))) (.altNext (.strFail (by rw [hs]; exact not_prefix (by decide)))
      (.altNext (.strFail (by rw [hs]; exact not_prefix (by decide))) (.alt (.str hs))))

end Whatami
