import Verif.ParseSem
import Verif.Spec.Meaning

/-
The exact texts of syntax: the tokens of `toks`, with whitespace, except that a nested `set ( )` or `frozenset ( )` must have whitespace
inside to be a call and not the empty set.  The parser accepts exactly these texts.
Definitions here are vocabulary for statements and proofs: the code they are about is cited in the model modules.
-/
namespace Whatami

variable {b : Bool}

/-! ### Reading -/

/-- Reading these tokens as a value gives this tree. -/
def ReadsAs (ts : List Str) (t : Tree) : Prop :=
  ∀ s, Padded ts s → ∀ r, Delim r → ∀ b, Ev newGrammar b (.ref .value) (s ++ r) (.ok [t] r)

theorem readsAs_tuple {items : List (List Str × Tree)} (h : ∀ p ∈ items, ReadsAs p.1 p.2) :
    ReadsAs (c!"(" :: sepToks (items.map Prod.fst) ++ [c!")"])
      (.node .value [.node .aTuple (tok c!"(" :: elems .listElements (items.map Prod.snd) ++ [tok c!")"])]) := by
  intro s hp r _ b
  obtain ⟨ws, s1, hw, e, _⟩ := padded_cons_iff.1 hp
  have hs := skipWs_tok (r := r) hw e (by decide)
  have e1 : Ev newGrammar false (newGrammar .aTuple) (s ++ r) _ :=
    ev_bracket (rl := .listElements) rfl (fun h _ hc u => listElements_fail h hc u) h (by simp) (noWs_cons (by decide)) rfl (.inl rfl) hp
  have := ev_value (b := b) (plain_to_str hs (by decide) (.altNext (str_fail (by rw [hs]; exact not_prefix (by decide))) (.alt (Ev.ref e1))))
  simpa [ruleResult, newGrammar, seq, Peg.isMatch] using this

theorem readsAs_list {items : List (List Str × Tree)} (h : ∀ p ∈ items, ReadsAs p.1 p.2) :
    ReadsAs (c!"[" :: sepToks (items.map Prod.fst) ++ [c!"]"])
      (.node .value [.node .aList (tok c!"[" :: elems .listElements (items.map Prod.snd) ++ [tok c!"]"])]) := by
  intro s hp r _ b
  obtain ⟨ws, s1, hw, e, _⟩ := padded_cons_iff.1 hp
  have hs := skipWs_tok (r := r) hw e (by decide)
  have e1 : Ev newGrammar false (newGrammar .aList) (s ++ r) _ :=
    ev_bracket (rl := .listElements) rfl (fun h _ hc u => listElements_fail h hc u) h (by simp) (noWs_cons (by decide)) rfl (.inr (.inl rfl)) hp
  have := ev_value (b := b) (plain_to_str hs (by decide) (.altNext (str_fail (by rw [hs]; exact not_prefix (by decide)))
    (.altNext (tuple_fail (by rw [hs]; exact not_prefix (by decide))) (.alt (Ev.ref e1)))))
  simpa [ruleResult, newGrammar, seq, Peg.isMatch] using this

theorem readsAs_set {items : List (List Str × Tree)} (hne : items ≠ []) (h : ∀ p ∈ items, ReadsAs p.1 p.2) :
    ReadsAs (c!"{" :: sepToks (items.map Prod.fst) ++ [c!"}"])
      (.node .value [.node .aSet [.node .aNonEmptySet (tok c!"{" :: elems .listElements (items.map Prod.snd) ++ [tok c!"}"])]]) := by
  intro s hp r _ b
  obtain ⟨ws, s1, hw, e, _⟩ := padded_cons_iff.1 hp
  have hs := skipWs_tok (r := r) hw e (by decide)
  have e1 := ev_bracket1 (b := false) (r := r) (rl := .listElements) rfl hne h (by simp) (noWs_cons (by decide)) rfl (.inr (.inr rfl)) hp
  have e2 : Ev newGrammar false (newGrammar .aNonEmptySet) (s ++ r) _ := .alt e1
  have e3 : Ev newGrammar false (newGrammar .aSet) (s ++ r) _ := .altNext (emptySet_fail
    (by rw [hs]; exact not_prefix (by decide)) (by rw [hs]; exact not_prefix (by decide))) (.alt (Ev.ref e2))
  have := ev_value (b := b) (plain_to_set hs (by decide) (by decide) (by decide) (by decide) (.alt (Ev.ref e3)))
  simpa [ruleResult, newGrammar, choice, Peg.isMatch] using this

theorem readsAs_fset {items : List (List Str × Tree)} (hne : items ≠ []) (h : ∀ p ∈ items, ReadsAs p.1 p.2) :
    ReadsAs (c!"frozenset({" :: sepToks (items.map Prod.fst) ++ [c!"})"])
      (.node .value [.node .aSet [.node .aNonEmptySet (tok c!"frozenset({" :: elems .listElements (items.map Prod.snd) ++ [tok c!"})"])]]) := by
  intro s hp r _ b
  obtain ⟨ws, s1, hw, e, _⟩ := padded_cons_iff.1 hp
  have hs := skipWs_tok (r := r) hw e (by decide)
  have e1 := ev_bracket1 (b := false) (r := r) (rl := .listElements) rfl hne h (by simp) (noWs_cons (by decide)) rfl (.inr (.inr rfl)) hp
  have e2 : Ev newGrammar false (newGrammar .aNonEmptySet) (s ++ r) _ :=
    .altNext (.catFail (.strFail (by rw [hs]; exact not_prefix (by decide)))) (.alt e1)
  have e3 : Ev newGrammar false (newGrammar .aSet) (s ++ r) _ := .altNext (emptySet_fail
    (by rw [hs]; exact not_prefix (by decide)) (by rw [hs]; simp [List.cons_prefix_cons])) (.alt (Ev.ref e2))
  have := ev_value (b := b) (plain_to_set hs (by decide) (by decide) (by decide) (by decide) (.alt (Ev.ref e3)))
  simpa [ruleResult, newGrammar, choice, Peg.isMatch] using this

theorem ev_dictkv_as {t u : List Str} {k v : Tree} (hk : ReadsAs t k) (hv : ReadsAs u v) {s : Str} (hp : Padded (t ++ c!":" :: u) s) {r : Str} (hr : Delim r) :
    Ev newGrammar b (.ref .dictkv) (s ++ r) (.ok [.node .dictkv [k, tok c!":", v]] r) := by
  obtain ⟨s1, s2, rfl, h1, h2⟩ := padded_append hp
  obtain ⟨ws, s3, hw, rfl, h3⟩ := padded_cons_iff.1 h2
  have e1 := hk s1 h1 (ws ++ (c!":" ++ (s3 ++ r))) (delim_pad hw (by decide) _) true
  have e2 : Ev newGrammar true (.str c!":") (ws ++ (c!":" ++ (s3 ++ r))) (.ok [tok c!":"] _) := ev_tok hw (by simp) (noWs_cons (by decide))
  have e3 := hv s3 h3 r hr true
  have e4 : Ev newGrammar b (newGrammar .dictkv) (s1 ++ (ws ++ (c!":" ++ (s3 ++ r)))) _ := .cat e1 (.cat e2 (.cat e3 (.emp _)))
  have := Ev.ref e4
  simpa [ruleResult, newGrammar, seq, Peg.isMatch] using this

theorem dict_not_set_as {t u : List Str} {k : Tree} {tss : List (List Str)} (hk : ReadsAs t k) {s : Str}
    (hp : Padded (c!"{" :: sepToks ((t ++ c!":" :: u) :: tss) ++ [c!"}"]) s) (r : Str) :
    Ev newGrammar b (seq [.str c!"{", .ref .listElements, .str c!"}"]) (s ++ r) .fail := by
  simp only [sepToks_cons, List.cons_append, List.append_assoc] at hp
  obtain ⟨ws, s1, hw, rfl, hp1⟩ := padded_cons_iff.1 hp
  obtain ⟨s2, s3, rfl, h1, hp2⟩ := padded_append hp1
  obtain ⟨ws1, s4, hw1, rfl, hp3⟩ := padded_cons_iff.1 hp2
  have hsc : skipWs (ws1 ++ (c!":" ++ (s4 ++ r))) = ':' :: (s4 ++ r) := skipWs_pad hw1 (noWs_cons (by decide))
  have e1 : Ev newGrammar true (.str c!"{") (ws ++ (c!"{" ++ (s2 ++ (ws1 ++ (c!":" ++ (s4 ++ r)))))) (.ok [tok c!"{"] _) :=
    ev_tok hw (by simp) (noWs_cons (by decide))
  have e2 := hk s2 h1 (ws1 ++ (c!":" ++ (s4 ++ r))) (delim_pad hw1 (by decide) _) true
  have e3 : Ev newGrammar true (.star (seq [.ref .listSep, .ref .value])) (ws1 ++ (c!":" ++ (s4 ++ r))) (.ok [] _) :=
    .starEnd (.catFail (.refFail (.strFail (by rw [hsc]; exact not_prefix (by decide)))))
  have e4 : Ev newGrammar true (newGrammar .listElements) (s2 ++ (ws1 ++ (c!":" ++ (s4 ++ r)))) _ := .cat e2 (.cat e3 (.emp _))
  have e5 : Ev newGrammar true (seq [.str c!"}"]) (ws1 ++ (c!":" ++ (s4 ++ r))) .fail :=
    .catFail (.strFail (by rw [hsc]; exact not_prefix (by decide)))
  have := Ev.catFail2 (b := b) e1 (Ev.catFail2 (Ev.ref e4) e5)
  simpa [seq] using this

/-- Key and value: their tokens and trees. -/
def kvItem (p : (List Str × Tree) × (List Str × Tree)) : List Str × Tree :=
  (p.1.1 ++ c!":" :: p.2.1, .node .dictkv [p.1.2, tok c!":", p.2.2])

theorem readsAs_dict {ps : List ((List Str × Tree) × (List Str × Tree))} (h : ∀ p ∈ ps, ReadsAs p.1.1 p.1.2 ∧ ReadsAs p.2.1 p.2.2) :
    ReadsAs (c!"{" :: sepToks ((ps.map kvItem).map Prod.fst) ++ [c!"}"])
      (.node .value [.node .aDict (tok c!"{" :: elems .dictElements ((ps.map kvItem).map Prod.snd) ++ [tok c!"}"])]) := by
  intro s hp r _ b
  obtain ⟨ws, s1, hw, e, _⟩ := padded_cons_iff.1 hp
  have hs := skipWs_tok (r := r) hw e (by decide)
  have hX : ∀ p ∈ ps.map kvItem, ∀ s, Padded p.1 s → ∀ r, Delim r → ∀ b, Ev newGrammar b (.ref .dictkv) (s ++ r) (.ok [p.2] r) := by
    intro p hpm
    obtain ⟨x, hx, rfl⟩ := List.mem_map.1 hpm
    exact fun s hp r hr b => ev_dictkv_as (h x hx).1 (h x hx).2 hp hr
  have e1 : Ev newGrammar false (newGrammar .aDict) (s ++ r) _ :=
    ev_bracket (rl := .dictElements) rfl (fun h _ hc u => dictElements_fail h hc u) hX (by simp) (noWs_cons (by decide)) rfl (.inr (.inr rfl)) hp
  have hset : Ev newGrammar false (seq [.str c!"{", .ref .listElements, .str c!"}"]) (s ++ r) .fail := by
    cases ps with
    | nil =>
      have hp' := hp
      simp only [List.map_nil, sepToks, List.cons_append, List.nil_append] at hp'
      obtain ⟨ws, s1, hw, rfl, hp1⟩ := padded_cons_iff.1 hp'
      obtain ⟨ws1, s2, hw1, rfl, hp2⟩ := padded_cons_iff.1 hp1
      cases hp2
      have e1 : Ev newGrammar true (.str c!"{") (ws ++ (c!"{" ++ (ws1 ++ (c!"}" ++ r)))) (.ok [tok c!"{"] _) :=
        ev_tok hw (by simp) (noWs_cons (by decide))
      have e2 : Ev newGrammar true (.ref .listElements) (ws1 ++ (c!"}" ++ r)) .fail := listElements_fail hw1 (.inr (.inr rfl)) r
      have := Ev.catFail2 (b := false) e1 (Ev.catFail (y := seq [.str c!"}"]) e2)
      simpa [seq] using this
    | cons x xs => exact dict_not_set_as (h x (by simp)).1 hp r
  have np : ∀ {d : Char} {t : Str}, d ≠ '{' → ¬ (d :: t) <+: skipWs (s ++ r) := fun h => by rw [hs]; exact not_prefix h
  have e2 : Ev newGrammar false (.ref .aSet) (s ++ r) .fail :=
    .refFail (.altNext (emptySet_fail (np (by decide)) (np (by decide))) (.altNext (.refFail (.altNext hset
      (.altNext (.catFail (.strFail (np (by decide)))) (.never _)))) (.never _)))
  have := ev_value (b := b) (plain_to_set hs (by decide) (by decide) (by decide) (by decide) (.altNext e2 (.alt (Ev.ref e1))))
  simpa [ruleResult, newGrammar, seq, Peg.isMatch] using this

/-- A parameter: its tokens and tree. -/
def argItem (p : Str × (List Str × Tree)) : List Str × Tree := (p.1 :: c!"=" :: p.2.1, .node .kv [idTree p.1, tok c!"=", p.2.2])

theorem hX_args {ps : List (Str × (List Str × Tree))} (h : ∀ p ∈ ps, Ident p.1 ∧ ReadsAs p.2.1 p.2.2) :
    ∀ p ∈ ps.map argItem, ∀ s, Padded p.1 s → ∀ r, Delim r → ∀ b, Ev newGrammar b (.ref .kv) (s ++ r) (.ok [p.2] r) := by
  intro p hpm
  obtain ⟨⟨k, t, v⟩, hx, rfl⟩ := List.mem_map.1 hpm
  obtain ⟨hk, hv⟩ := h _ hx
  intro s hp r hr b
  obtain ⟨ws, s1, hw, rfl, h1⟩ := padded_cons_iff.1 hp
  obtain ⟨ws1, s2, hw1, rfl, h2⟩ := padded_cons_iff.1 h1
  have e1 : Ev newGrammar true (.ref .anId) (ws ++ (k ++ (ws1 ++ '=' :: (s2 ++ r)))) _ := ev_id hw hk (endsToken_pad hw1 (by decide) _)
  have e2 : Ev newGrammar true (.str c!"=") (ws1 ++ (c!"=" ++ (s2 ++ r))) (.ok [tok c!"="] _) := ev_tok hw1 (by simp) (noWs_cons (by decide))
  have e3 := hv s2 h2 r hr true
  have e4 : Ev newGrammar b (newGrammar .kv) (ws ++ (k ++ (ws1 ++ (c!"=" ++ (s2 ++ r))))) _ := .cat e1 (.cat e2 (.cat e3 (.emp _)))
  have := Ev.ref e4
  simpa [ruleResult, newGrammar, seq, Peg.isMatch, argItem] using this

theorem ws_ne {c d : Char} (hc : isWs c = true) (hd : isWs d = false) : c ≠ d := by
  rintro rfl; rw [hc] at hd; cases hd

/-- After the first name of an id comes `=`, or `(`, which is directly followed by `)` only if there are no parameters and no spaces. -/
theorem call_rest {o : Option Str} {n : Str} {ps : List (Str × (List Str × Tree))} (hk : ∀ p ∈ ps, Ident p.1) {s : Str}
    (hp : Padded (outToks o ++ n :: c!"(" :: sepToks ((ps.map argItem).map Prod.fst) ++ [c!")"]) s) (r : Str) :
    ∃ ws rest, ws.all isWs = true ∧ s ++ r = ws ++ ((o.getD n) ++ rest) ∧ EndsToken rest ∧
      (∀ t, c!"()" ++ t = rest → o = none ∧ ps = [] ∧ s = ws ++ (n ++ c!"()")) ∧ ¬ c!"({" <+: rest := by
  have blank : ∀ {ws : Str} {c d : Char} {u v : Str}, ws.all isWs = true → isWs c = false → c :: u = ws ++ d :: v → ws = [] ∧ c = d ∧ u = v := by
    intro ws c d u v hw hc e
    cases ws with
    | nil => simp only [List.nil_append, List.cons.injEq] at e; exact ⟨rfl, e⟩
    | cons x ws =>
      simp only [List.all_cons, Bool.and_eq_true] at hw
      simp only [List.cons_append, List.cons.injEq] at e
      rw [← e.1] at hw
      rw [hw.1] at hc
      cases hc
  cases o with
  | some x =>
    simp only [outToks, List.cons_append, List.nil_append] at hp
    obtain ⟨ws, s1, hw, rfl, hp1⟩ := padded_cons_iff.1 hp
    obtain ⟨ws1, s2, hw1, rfl, hp2⟩ := padded_cons_iff.1 hp1
    have hno : ∀ t, '(' :: t ≠ ws1 ++ '=' :: (s2 ++ r) := fun t e => absurd (blank hw1 (by decide) e).2.1 (by decide)
    refine ⟨ws, ws1 ++ '=' :: (s2 ++ r), hw, by simp, endsToken_pad hw1 (by decide) _, fun t e => absurd e (hno _), ?_⟩
    rintro ⟨t, e⟩
    exact hno _ e
  | none =>
    simp only [outToks, List.cons_append, List.nil_append] at hp
    obtain ⟨ws, s1, hw, rfl, hp1⟩ := padded_cons_iff.1 hp
    obtain ⟨ws1, s2, hw1, rfl, hp2⟩ := padded_cons_iff.1 hp1
    refine ⟨ws, ws1 ++ '(' :: (s2 ++ r), hw, by simp, endsToken_pad hw1 (by decide) _, ?_, ?_⟩
    · intro t e
      obtain ⟨rfl, -, e⟩ := blank hw1 (by decide) e
      cases ps with
      | nil =>
        simp only [List.map_nil, sepToks, List.nil_append] at hp2
        obtain ⟨ws2, s3, hw2, rfl, hp3⟩ := padded_cons_iff.1 hp2
        cases hp3
        have e' : ')' :: t = ws2 ++ ')' :: r := by simpa using e
        obtain ⟨rfl, -, -⟩ := blank hw2 (by decide) e'
        exact ⟨rfl, rfl, by simp⟩
      | cons x ps =>
        simp only [List.map_cons, argItem, sepToks_cons, List.cons_append] at hp2
        obtain ⟨ws2, s3, hw2, rfl, hp3⟩ := padded_cons_iff.1 hp2
        obtain ⟨c, u, hx, hc, _⟩ := hk x (by simp)
        rw [hx] at e
        have e' : ')' :: t = ws2 ++ c :: (u ++ s3 ++ r) := by simpa using e
        obtain ⟨-, rfl, -⟩ := blank hw2 (by decide) e'
        exact absurd hc (by decide)
    · rintro ⟨t, e⟩
      obtain ⟨rfl, -, e⟩ := blank hw1 (by decide) e
      cases ps with
      | nil =>
        simp only [List.map_nil, sepToks, List.nil_append] at hp2
        obtain ⟨ws2, s3, hw2, rfl, hp3⟩ := padded_cons_iff.1 hp2
        have e' : '{' :: t = ws2 ++ ')' :: (s3 ++ r) := by simpa using e
        exact absurd (blank hw2 (by decide) e').2.1 (by decide)
      | cons x ps =>
        simp only [List.map_cons, argItem, sepToks_cons, List.cons_append] at hp2
        obtain ⟨ws2, s3, hw2, rfl, hp3⟩ := padded_cons_iff.1 hp2
        obtain ⟨c, u, hx, hc, _⟩ := hk x (by simp)
        rw [hx] at e
        have e' : '{' :: t = ws2 ++ c :: (u ++ s3 ++ r) := by simpa using e
        obtain ⟨-, rfl, -⟩ := blank hw2 (by decide) e'
        exact absurd hc (by decide)

/-- A nested call that is not the empty set. -/
theorem reads_what_at {o : Option Str} {n : Str} {ps : List (Str × (List Str × Tree))} (ho : ∀ x, o = some x → Ident x) (hn : Ident n)
    (hst : NestedStart (o.getD n)) (hk : ∀ p ∈ ps, Ident p.1 ∧ ReadsAs p.2.1 p.2.2) {s : Str}
    (hp : Padded (outToks o ++ n :: c!"(" :: sepToks ((ps.map argItem).map Prod.fst) ++ [c!")"]) s)
    (hset : o = none → ps = [] → (n = c!"set" ∨ n = c!"frozenset") → ∀ ws, ws.all isWs = true → s ≠ ws ++ (n ++ c!"()")) (r : Str) (b : Bool) :
    Ev newGrammar b (.ref .value) (s ++ r)
      (.ok [.node .value [.node .whatamiId (outTrees o ++ idTree n :: tok c!"(" :: elems .kvs ((ps.map argItem).map Prod.snd) ++ [tok c!")"])]] r) := by
  obtain ⟨ws, rest, hw, e, hend, hcall, hbr⟩ := call_rest (r := r) (fun x hx => (hk x hx).1) hp
  have hst1 : Ident (o.getD n) := by cases o with | none => exact hn | some x => exact ho x rfl
  have hs : skipWs (s ++ r) = o.getD n ++ rest := by
    rw [e]; exact skipWs_pad hw (noWs_append (ident_ne hst1) (ident_noWs hst1))
  have hall := ident_all hst1
  obtain ⟨c, u, hcu, hc, _⟩ := hst1
  have hs2 : skipWs (s ++ r) = c :: (u ++ rest) := by rw [hs, hcu]; rfl
  have hres : ∀ w ∈ reserved, w.all isIdChar = true → ¬ w <+: skipWs (s ++ r) := by
    intro w hw hwa h
    rw [hs] at h
    exact hst w hw (prefix_name hwa hend h)
  have np : ∀ {d : Char} {t : Str}, isIdStart d = false → ¬ (d :: t) <+: skipWs (s ++ r) := fun h => by
    rw [hs2]; exact not_prefix (idStart_not hc h)
  have e1 := ev_what (b := false) (r := r) (items := ps.map argItem) ho hn (hX_args hk) hp
  have hsetfail : Ev newGrammar false (.ref .aSet) (s ++ r) .fail := by
    refine set_fail ?_ ?_ (np (by decide)) ?_
    · intro h
      rw [hs] at h
      obtain ⟨h1, t, h2⟩ := prefix_call (w := c!"set") (t := c!")") (by decide) hall hend h
      obtain ⟨rfl, h4, h5⟩ := hcall t h2
      exact hset rfl h4 (.inl h1) ws hw h5
    · intro h
      rw [hs] at h
      obtain ⟨h1, t, h2⟩ := prefix_call (w := c!"frozenset") (t := c!")") (by decide) hall hend h
      obtain ⟨rfl, h4, h5⟩ := hcall t h2
      exact hset rfl h4 (.inr h1) ws hw h5
    · intro h
      rw [hs] at h
      exact hbr (prefix_call (w := c!"frozenset") (t := c!"{") (by decide) hall hend h).2
  have hv : Ev newGrammar b (newGrammar .value) (s ++ r) _ :=
    to_num (hres _ (by simp [reserved]) (by decide)) (hres _ (by simp [reserved]) (by decide)) (hres _ (by simp [reserved]) (by decide))
      (to_str (by rw [hs2]; exact scanNumber_none (idStart_not hc (by decide)).symm (idStart_not_dig hc))
        (np (by decide)) (hres _ (by simp [reserved]) (by decide)) (hres _ (by simp [reserved]) (by decide))
        (to_set (np (by decide)) (np (by decide)) (np (by decide))
          (.altNext hsetfail (.altNext (dict_fail (np (by decide))) (.altNext (class_fail (np (by decide))) (.alt e1))))))
  exact ev_value hv

/-- Whitespace at the end of a token can go before the next. -/
theorem padded_shift {t : Str} {c : Char} (hc : isWs c = true) {u : Str} {ts : List Str} {s : Str} (h : Padded ((t ++ [c]) :: u :: ts) s) :
    Padded (t :: u :: ts) s := by
  obtain ⟨ws, s1, hw, rfl, hp1⟩ := padded_cons_iff.1 h
  obtain ⟨ws1, s2, hw1, rfl, hp2⟩ := padded_cons_iff.1 hp1
  have : ws ++ (t ++ [c] ++ (ws1 ++ (u ++ s2))) = ws ++ (t ++ ((c :: ws1) ++ (u ++ s2))) := by simp
  rw [this]
  exact .cons hw (.cons (by simp [hc, hw1]) hp2)

/-- A spaced call of `set` is a call, and not written together. -/
theorem setCall_text {n : Str} (hn : Ident n) {ts : List Str} {s : Str} (h : ∃ c, isWs c = true ∧ (ts = [n ++ [c], c!"(", c!")"] ∨ ts = [n, ['(', c], c!")"]))
    (hp : Padded ts s) : Padded [n, c!"(", c!")"] s ∧ ∀ ws, ws.all isWs = true → s ≠ ws ++ (n ++ c!"()") := by
  obtain ⟨c, hc, rfl | rfl⟩ := h
  · refine ⟨padded_shift hc hp, fun ws hw e => ?_⟩
    obtain ⟨ws0, s1, hw0, rfl, hp1⟩ := padded_cons_iff.1 hp
    have h0 : skipWs (ws0 ++ (n ++ [c] ++ s1)) = n ++ ([c] ++ s1) := by
      have := skipWs_pad (s := n ++ ([c] ++ s1)) hw0 (noWs_append (ident_ne hn) (ident_noWs hn))
      simpa using this
    rw [e, skipWs_pad hw (noWs_append (ident_ne hn) (ident_noWs hn))] at h0
    have := List.append_cancel_left h0
    simp only [List.cons_append, List.nil_append, List.cons.injEq] at this
    exact ws_ne hc (by decide) this.1.symm
  · have hp' : Padded [n, c!"(" ++ [c], c!")"] s := hp
    obtain ⟨ws0, s1, hw0, rfl, hp1⟩ := padded_cons_iff.1 hp'
    refine ⟨.cons hw0 (padded_shift hc hp1), fun ws hw e => ?_⟩
    obtain ⟨ws1, s2, hw1, rfl, hp2⟩ := padded_cons_iff.1 hp1
    have h0 := skipWs_pad (s := n ++ (ws1 ++ (c!"(" ++ [c] ++ s2))) hw0 (noWs_append (ident_ne hn) (ident_noWs hn))
    rw [e, skipWs_pad hw (noWs_append (ident_ne hn) (ident_noWs hn))] at h0
    have h1 := List.append_cancel_left h0
    cases ws1 with
    | nil =>
      simp only [List.cons_append, List.nil_append, List.cons.injEq, true_and] at h1
      exact ws_ne hc (by decide) h1.1.symm
    | cons d ws1 =>
      simp only [List.all_cons, Bool.and_eq_true] at hw1
      simp only [List.cons_append, List.cons.injEq] at h1
      exact ws_ne hw1.1 (by decide) h1.1.symm

mutual
theorem spelt_reads : ∀ (a : Ast) (ts : List Str), Wf a → Spelt a ts → ReadsAs ts (tree a)
  | .none, ts, h, hs => by simp only [Spelt] at hs; subst hs; exact reads .none h (by simp only [NoSetCall])
  | .bool x, ts, h, hs => by simp only [Spelt] at hs; subst hs; exact reads (.bool x) h (by simp only [NoSetCall])
  | .num t, ts, h, hs => by simp only [Spelt] at hs; subst hs; exact reads (.num t) h (by simp only [NoSetCall])
  | .str t, ts, h, hs => by simp only [Spelt] at hs; subst hs; exact reads (.str t) h (by simp only [NoSetCall])
  | .cls t, ts, h, hs => by simp only [Spelt] at hs; subst hs; exact reads (.cls t) h (by simp only [NoSetCall])
  | .tuple xs, ts, h, hs => by
    simp only [Spelt] at hs
    obtain ⟨tss, hs, rfl⟩ := hs
    obtain ⟨items, rfl, h2, h3⟩ := spelt_readsL xs tss (by simpa only [Wf] using h) hs
    have := readsAs_tuple h3
    rw [h2] at this
    simpa only [tree] using this
  | .list xs, ts, h, hs => by
    simp only [Spelt] at hs
    obtain ⟨tss, hs, rfl⟩ := hs
    obtain ⟨items, rfl, h2, h3⟩ := spelt_readsL xs tss (by simpa only [Wf] using h) hs
    have := readsAs_list h3
    rw [h2] at this
    simpa only [tree] using this
  | .set xs, ts, h, hs => by
    simp only [Spelt] at hs
    obtain ⟨tss, hs, rfl⟩ := hs
    obtain ⟨items, rfl, h2, h3⟩ := spelt_readsL xs tss (by simpa only [Wf] using h) hs
    cases xs with
    | nil => exact reads (.set []) h (by simp only [NoSetCall, NoSetCallL])
    | cons x xs =>
      have := readsAs_set (by rintro rfl; simp [treeL] at h2) h3
      rw [h2] at this
      simpa only [tree, List.isEmpty_cons, Bool.false_eq_true, if_false] using this
  | .fset xs, ts, h, hs => by
    simp only [Spelt] at hs
    obtain ⟨tss, hs, rfl⟩ := hs
    obtain ⟨items, rfl, h2, h3⟩ := spelt_readsL xs tss (by simpa only [Wf] using h) hs
    cases xs with
    | nil => exact reads (.fset []) h (by simp only [NoSetCall, NoSetCallL])
    | cons x xs =>
      have := readsAs_fset (by rintro rfl; simp [treeL] at h2) h3
      rw [h2] at this
      simpa only [tree, List.isEmpty_cons, Bool.false_eq_true, if_false] using this
  | .dict kvs, ts, h, hs => by
    simp only [Spelt] at hs
    obtain ⟨tss, hs, rfl⟩ := hs
    obtain ⟨ps, rfl, h2, h3⟩ := spelt_readsD kvs tss (by simpa only [Wf] using h) hs
    have := readsAs_dict h3
    rw [h2] at this
    simpa only [tree] using this
  | .what o n kvs, ts, h, hs => by
    simp only [Spelt] at hs
    simp only [Wf] at h
    obtain ⟨tss, hs, hcase⟩ := hs
    obtain ⟨ps, rfl, h2, h3, h4⟩ := spelt_readsA kvs tss h.2.2.2 hs
    intro s hp r _ b
    have key : Padded (outToks o ++ n :: c!"(" :: sepToks ((ps.map argItem).map Prod.fst) ++ [c!")"]) s ∧
        (o = none → ps = [] → (n = c!"set" ∨ n = c!"frozenset") → ∀ ws, ws.all isWs = true → s ≠ ws ++ (n ++ c!"()")) := by
      rcases hcase with ⟨hc, rfl⟩ | ⟨hc, hts⟩
      · refine ⟨hp, fun h1 h5 h6 => absurd ⟨h1, ?_, h6⟩ hc⟩
        rw [h5] at h4
        exact List.length_eq_zero_iff.1 h4.symm
      · obtain ⟨h5, h6⟩ := setCall_text h.2.1 hts hp
        obtain ⟨rfl, rfl, -⟩ := hc
        have : ps = [] := List.length_eq_zero_iff.1 (by simpa using h4)
        subst this
        exact ⟨h5, fun _ _ _ => h6⟩
    have := reads_what_at h.1 h.2.1 h.2.2.1 h3 key.1 key.2 r b
    rw [h2] at this
    simpa only [tree] using this
termination_by structural a => a
theorem spelt_readsL : ∀ (xs : List Ast) (tss : List (List Str)), WfL xs → SpeltL xs tss →
    ∃ items : List (List Str × Tree), items.map Prod.fst = tss ∧ items.map Prod.snd = treeL xs ∧ ∀ p ∈ items, ReadsAs p.1 p.2
  | [], tss, _, hs => by
    simp only [SpeltL] at hs
    subst hs
    exact ⟨[], rfl, rfl, by simp⟩
  | x :: xs, tss, h, hs => by
    simp only [SpeltL] at hs
    simp only [WfL] at h
    obtain ⟨t, ts, h1, h2, rfl⟩ := hs
    obtain ⟨items, rfl, h3, h4⟩ := spelt_readsL xs ts h.2 h2
    refine ⟨(t, tree x) :: items, rfl, by simp [treeL, h3], fun p hp => ?_⟩
    rcases List.mem_cons.1 hp with rfl | hp
    · exact spelt_reads x t h.1 h1
    · exact h4 p hp
termination_by structural xs => xs
theorem spelt_readsD : ∀ (xs : List (Ast × Ast)) (tss : List (List Str)), WfD xs → SpeltD xs tss →
    ∃ ps : List ((List Str × Tree) × (List Str × Tree)), (ps.map kvItem).map Prod.fst = tss ∧ (ps.map kvItem).map Prod.snd = treeD xs ∧
      ∀ p ∈ ps, ReadsAs p.1.1 p.1.2 ∧ ReadsAs p.2.1 p.2.2
  | [], tss, _, hs => by
    simp only [SpeltD] at hs
    subst hs
    exact ⟨[], rfl, rfl, by simp⟩
  | (k, v) :: xs, tss, h, hs => by
    simp only [SpeltD] at hs
    simp only [WfD] at h
    obtain ⟨t, u, ts, h1, h1', h2, rfl⟩ := hs
    obtain ⟨ps, rfl, h3, h4⟩ := spelt_readsD xs ts h.2.2 h2
    refine ⟨((t, tree k), (u, tree v)) :: ps, rfl, by simp [treeD, kvItem, ← h3], fun p hp => ?_⟩
    rcases List.mem_cons.1 hp with rfl | hp
    · exact ⟨spelt_reads k t h.1 h1, spelt_reads v u h.2.1 h1'⟩
    · exact h4 p hp
termination_by structural xs => xs
theorem spelt_readsA : ∀ (xs : List (Str × Ast)) (tss : List (List Str)), WfA xs → SpeltA xs tss →
    ∃ ps : List (Str × (List Str × Tree)), (ps.map argItem).map Prod.fst = tss ∧ (ps.map argItem).map Prod.snd = treeA xs ∧
      (∀ p ∈ ps, Ident p.1 ∧ ReadsAs p.2.1 p.2.2) ∧ ps.length = xs.length
  | [], tss, _, hs => by
    simp only [SpeltA] at hs
    subst hs
    exact ⟨[], rfl, rfl, by simp, rfl⟩
  | (k, v) :: xs, tss, h, hs => by
    simp only [SpeltA] at hs
    simp only [WfA] at h
    obtain ⟨t, ts, h1, h2, rfl⟩ := hs
    obtain ⟨ps, rfl, h3, h4, h5⟩ := spelt_readsA xs ts h.2.2 h2
    refine ⟨(k, (t, tree v)) :: ps, rfl, by simp [treeA, argItem, ← h3], fun p hp => ?_, by simp [h5]⟩
    rcases List.mem_cons.1 hp with rfl | hp
    · exact ⟨h.1, spelt_reads v t h.2.1 h1⟩
    · exact h4 p hp
termination_by structural xs => xs
end

/-- A text of an id is read as that id: the tree. -/
theorem ev_text {s : Str} {o : Option Str} {n : Str} {kvs : List (Str × Ast)} (hw : WellFormed o n kvs) (ht : IsText s o n kvs) :
    Ev newGrammar false (.ref .whatamiIdTop) s (.ok [topTree o n kvs] []) := by
  obtain ⟨tss, p, ws, hs, hp, hws, rfl⟩ := ht
  obtain ⟨ps, rfl, h2, h3, h4⟩ := spelt_readsA kvs tss hw.2.2 hs
  have e1 := ev_what (b := true) (r := ws) (items := ps.map argItem) hw.1 hw.2.1 (hX_args h3) hp
  rw [h2] at e1
  have e2 : Ev newGrammar true .eof ws (.ok [tok []] []) := Ev.eof (by
    have := skipWs_pad (s := []) hws (fun _ _ e => by cases e)
    simpa using this)
  have e3 : Ev newGrammar false (newGrammar .whatamiIdTop) (p ++ ws) _ := .cat e1 (.cat e2 (.emp _))
  exact Ev.ref e3

/-- A text of an id is read as that id. -/
theorem parse_spelt {E : Env} {s : Str} {o : Option Str} {n : Str} {kvs : List (Str × Ast)} (hw : WellFormed o n kvs) (ht : IsText s o n kvs) :
    parseWhatid E s = semTop E o n kvs := by
  have h2 : Ev newGrammar false (.ref .whatamiIdTop) s (run newGrammar ((s.length + 1) * stepsPerChar) false (.ref .whatamiIdTop) s) :=
    ⟨top_terminates newGrammar_noLeftRec (Nat.le_refl _), _, rfl⟩
  have h3 := h2.det (ev_text hw ht)
  simp only [parseWhatid, parseWith, parseTree, h3]
  exact visit_top hw.2.1 hw.2.2

/-! ### Accepting -/

/-- All runs with less fuel are sound, exactly. -/
def ExactBelow (N : Nat) : Prop := ∀ {m b s ts r}, m < N → run newGrammar m b (.ref .value) s = .ok ts r →
  ∃ a : Ast × List Str, (Wf a.1 ∧ Spelt a.1 a.2) ∧ ts = [tree a.1] ∧ Spells a.2 s r

theorem exact_dictkv {n : Nat} {s r : Str} {ts : List Tree} {N : Nat} (hV : ExactBelow N) (hn : n ≤ N) (h : run newGrammar n b (.ref .dictkv) s = .ok ts r) :
    ∃ x : (Ast × List Str) × (Ast × List Str), ((Wf x.1.1 ∧ Spelt x.1.1 x.1.2) ∧ (Wf x.2.1 ∧ Spelt x.2.1 x.2.2)) ∧
      ts = [tree2 (x.1.1, x.2.1)] ∧ Spells (x.1.2 ++ c!":" :: x.2.2) s r := by
  obtain ⟨_, _, us, h1, rfl⟩ := ok_ref h
  obtain ⟨_, _, t1, t2, s1, e1, e2, rfl⟩ := ok_cat h1
  obtain ⟨_, _, t3, t4, s2, e3, e4, rfl⟩ := ok_cat e2
  obtain ⟨_, _, t5, t6, s3, e5, e6, rfl⟩ := ok_cat e4
  obtain ⟨rfl, rfl⟩ := ok_emp e6
  obtain ⟨k, hk, rfl, hs1⟩ := hV (by omega) e1
  obtain ⟨rfl, h3⟩ := ok_str e3
  obtain ⟨v, hv, rfl, hs2⟩ := hV (by omega) e5
  refine ⟨(k, v), ⟨hk, hv⟩, by simp [ruleResult, newGrammar, seq, Peg.isMatch, tree2, tok], ?_⟩
  exact hs1.append ((spells_tok h3).append hs2)

theorem exact_kv {n : Nat} {s r : Str} {ts : List Tree} {N : Nat} (hV : ExactBelow N) (hn : n ≤ N) (h : run newGrammar n b (.ref .kv) s = .ok ts r) :
    ∃ x : Str × (Ast × List Str), (Ident x.1 ∧ Wf x.2.1 ∧ Spelt x.2.1 x.2.2) ∧ ts = [treeKv (x.1, x.2.1)] ∧ Spells (x.1 :: c!"=" :: x.2.2) s r := by
  obtain ⟨_, _, us, h1, rfl⟩ := ok_ref h
  obtain ⟨_, _, t1, t2, s1, e1, e2, rfl⟩ := ok_cat h1
  obtain ⟨_, _, t3, t4, s2, e3, e4, rfl⟩ := ok_cat e2
  obtain ⟨_, _, t5, t6, s3, e5, e6, rfl⟩ := ok_cat e4
  obtain ⟨rfl, rfl⟩ := ok_emp e6
  obtain ⟨k, hk, rfl, hs1⟩ := sound_id rfl e1
  obtain ⟨rfl, h3⟩ := ok_str e3
  obtain ⟨v, hv, rfl, hs2⟩ := hV (by omega) e5
  refine ⟨(k, v), ⟨hk, hv⟩, by simp [ruleResult, newGrammar, seq, Peg.isMatch, treeKv, tok], ?_⟩
  exact hs1.append ((spells_tok h3).append hs2)

theorem speltL_of {xs : List (Ast × List Str)} (h : ∀ x ∈ xs, Wf x.1 ∧ Spelt x.1 x.2) :
    WfL (xs.map Prod.fst) ∧ SpeltL (xs.map Prod.fst) (xs.map Prod.snd) ∧ treeL (xs.map Prod.fst) = xs.map fun x => tree x.1 := by
  induction xs with
  | nil => simp [WfL, SpeltL, treeL]
  | cons x xs ih =>
    obtain ⟨h1, h2, h3⟩ := ih fun y hy => h y (by simp [hy])
    have hx := h x (by simp)
    simp only [List.map_cons, WfL, SpeltL, treeL]
    exact ⟨⟨hx.1, h1⟩, ⟨x.2, _, hx.2, h2, rfl⟩, by rw [h3]⟩

theorem speltD_of {xs : List ((Ast × List Str) × (Ast × List Str))}
    (h : ∀ x ∈ xs, (Wf x.1.1 ∧ Spelt x.1.1 x.1.2) ∧ (Wf x.2.1 ∧ Spelt x.2.1 x.2.2)) :
    WfD (xs.map fun x => (x.1.1, x.2.1)) ∧ SpeltD (xs.map fun x => (x.1.1, x.2.1)) (xs.map fun x => x.1.2 ++ c!":" :: x.2.2) ∧
      treeD (xs.map fun x => (x.1.1, x.2.1)) = xs.map fun x => tree2 (x.1.1, x.2.1) := by
  induction xs with
  | nil => simp [WfD, SpeltD, treeD]
  | cons x xs ih =>
    obtain ⟨h1, h2, h3⟩ := ih fun y hy => h y (by simp [hy])
    have hx := h x (by simp)
    simp only [List.map_cons, WfD, SpeltD, treeD]
    exact ⟨⟨hx.1.1, hx.2.1, h1⟩, ⟨x.1.2, x.2.2, _, hx.1.2, hx.2.2, h2, rfl⟩, by rw [h3]; rfl⟩

theorem speltA_of {xs : List (Str × (Ast × List Str))} (h : ∀ x ∈ xs, Ident x.1 ∧ Wf x.2.1 ∧ Spelt x.2.1 x.2.2) :
    WfA (xs.map fun x => (x.1, x.2.1)) ∧ SpeltA (xs.map fun x => (x.1, x.2.1)) (xs.map fun x => x.1 :: c!"=" :: x.2.2) ∧
      treeA (xs.map fun x => (x.1, x.2.1)) = xs.map fun x => treeKv (x.1, x.2.1) := by
  induction xs with
  | nil => simp [WfA, SpeltA, treeA]
  | cons x xs ih =>
    obtain ⟨h1, h2, h3⟩ := ih fun y hy => h y (by simp [hy])
    have hx := h x (by simp)
    simp only [List.map_cons, WfA, SpeltA, treeA]
    exact ⟨⟨hx.1, hx.2.1, h1⟩, ⟨x.2.2, _, hx.2.2, h2, rfl⟩, by rw [h3]; rfl⟩

/-- An id, nested or not. -/
theorem exact_what {n : Nat} {s r : Str} {ts : List Tree} {N : Nat} (hV : ExactBelow N) (hn : n ≤ N) (h : run newGrammar n b (.ref .whatamiId) s = .ok ts r) :
    ∃ (o : Option Str) (nm : Str) (kvs : List (Str × Ast)) (tss : List (List Str)), (∀ x, o = some x → Ident x) ∧ Ident nm ∧ WfA kvs ∧ SpeltA kvs tss ∧
      ts = [.node .whatamiId (outTrees o ++ idTree nm :: tok c!"(" :: elems .kvs (treeA kvs) ++ [tok c!")"])] ∧
      Spells (outToks o ++ nm :: c!"(" :: sepToks tss ++ [c!")"]) s r := by
  obtain ⟨_, _, us, h1, rfl⟩ := ok_ref h
  obtain ⟨_, _, t1, t2, s1, e1, e2, rfl⟩ := ok_cat h1
  obtain ⟨_, _, t3, t4, s2, e3, e4, rfl⟩ := ok_cat e2
  obtain ⟨nm, hnm, rfl, hs2⟩ := sound_id rfl e3
  obtain ⟨xs, hk, rfl, hs3⟩ := sound_bracket (rl := .kvs) (X := .ref .kv) (op := c!"(") (cl := c!")") (N := N) rfl rfl
    (fun hm hr => exact_kv hV (by omega) hr) (by omega) e4
  have hout : ∃ o : Option Str, (∀ x, o = some x → Ident x) ∧ t1 = outTrees o ∧ Spells (outToks o) s s1 := by
    obtain ⟨_, _, h2 | ⟨rfl, rfl⟩⟩ := ok_opt e1
    · obtain ⟨_, _, t5, t6, s5, e5, e6, rfl⟩ := ok_cat h2
      obtain ⟨_, _, t7, t8, s6, e7, e8, rfl⟩ := ok_cat e6
      obtain ⟨rfl, rfl⟩ := ok_emp e8
      obtain ⟨rfl, h7⟩ := ok_str e7
      obtain ⟨x, hx, rfl, hs5⟩ := sound_id rfl e5
      exact ⟨some x, fun y hy => by cases hy; exact hx, rfl, hs5.append (spells_tok h7)⟩
    · exact ⟨none, fun _ hy => (by cases hy), rfl, Spells.nil _⟩
  obtain ⟨o, ho, rfl, hs1⟩ := hout
  obtain ⟨w1, w2, w3⟩ := speltA_of hk
  refine ⟨o, nm, _, _, ho, hnm, w1, w2, ?_, ?_⟩
  · rw [w3]
    cases o <;> simp [ruleResult, newGrammar, seq, Peg.isMatch, outTrees, tok]
  · have := hs1.append (hs2.append hs3)
    simpa using this

/-- A call of `set` that was not read as the empty set has a space in it. -/
theorem spaced_setCall {n s r : Str} (hs : Spells [n, c!"(", c!")"] s r) (hn : NoWs n) (hne : n ≠ []) (hnot : ¬ n ++ c!"()" <+: skipWs s) :
    ∃ ts, (∃ c, isWs c = true ∧ (ts = [n ++ [c], c!"(", c!")"] ∨ ts = [n, ['(', c], c!")"])) ∧ Spells ts s r := by
  obtain ⟨p, rfl, hp⟩ := hs
  obtain ⟨ws, s1, hw, rfl, hp1⟩ := padded_cons_iff.1 hp
  obtain ⟨ws1, s2, hw1, rfl, hp2⟩ := padded_cons_iff.1 hp1
  obtain ⟨ws2, s3, hw2, rfl, hp3⟩ := padded_cons_iff.1 hp2
  cases hp3
  cases ws1 with
  | cons c ws1 =>
    simp only [List.all_cons, Bool.and_eq_true] at hw1
    refine ⟨_, ⟨c, hw1.1, .inl rfl⟩, ws ++ ((n ++ [c]) ++ (ws1 ++ (c!"(" ++ (ws2 ++ (c!")" ++ []))))), by simp, ?_⟩
    exact .cons hw (.cons hw1.2 (.cons hw2 .nil))
  | nil =>
    cases ws2 with
    | cons c ws2 =>
      simp only [List.all_cons, Bool.and_eq_true] at hw2
      refine ⟨_, ⟨c, hw2.1, .inr rfl⟩, ws ++ (n ++ ([] ++ (['(', c] ++ (ws2 ++ (c!")" ++ []))))), by simp, ?_⟩
      exact .cons hw (.cons rfl (.cons hw2.2 .nil))
    | nil =>
      exfalso
      apply hnot
      have := skipWs_pad (s := n ++ (c!"()" ++ r)) hw (noWs_append hne hn)
      simp only [List.nil_append, List.append_nil, List.append_assoc] at *
      have e : ws ++ (n ++ (c!"(" ++ (c!")" ++ r))) = ws ++ (n ++ (c!"()" ++ r)) := by simp
      rw [e, this]
      exact ⟨r, by simp⟩

theorem exactBelow : ∀ N, ExactBelow N := by
  intro N
  induction N with
  | zero => intro m b s ts r hm; omega
  | succ N hV =>
    intro m b s ts r hm h
    obtain ⟨m0, hm0, us, h0, rfl⟩ := ok_ref h
    have hX : ∀ {m b s ts r}, m < N → run newGrammar m b (.ref .value) s = .ok ts r →
      ∃ a : Ast × List Str, (Wf a.1 ∧ Spelt a.1 a.2) ∧ ts = [tree a.1] ∧ Spells a.2 s r := hV
    have fin : ∀ {a : Ast} {tk : List Str} {t : Tree}, Wf a → Spelt a tk → us = [t] → tree a = .node .value [t] → Spells tk s r →
        ∃ a : Ast × List Str, (Wf a.1 ∧ Spelt a.1 a.2) ∧ ruleResult .value (newGrammar .value) us = [tree a.1] ∧ Spells a.2 s r := by
      intro a tk t h1 h2 h3 h4 h5
      subst h3
      exact ⟨(a, tk), ⟨h1, h2⟩, by rw [h4]; simp [ruleResult, newGrammar, choice, Peg.isMatch], h5⟩
    obtain ⟨m1, hm1, k | ⟨n1, k⟩⟩ := ok_alt h0
    · obtain ⟨_, _, vs, k1, k2⟩ := ok_ref k
      obtain ⟨rfl, k3⟩ := ok_str k1
      exact fin (a := .none) (by simp [Wf]) (by simp only [Spelt, toks]) k2 (by simp [tree]) (spells_tok k3)
    obtain ⟨m2, hm2, k | ⟨n2, k⟩⟩ := ok_alt k
    · obtain ⟨_, _, vs, k1, rfl⟩ := ok_ref k
      obtain ⟨_, _, k | ⟨_, k⟩⟩ := ok_alt k1
      · obtain ⟨_, _, ws, k5, rfl⟩ := ok_ref k
        obtain ⟨rfl, k3⟩ := ok_str k5
        exact fin (a := .bool true) (by simp [Wf]) (by simp [Spelt, toks]) rfl (by simp only [tree]; rfl) (spells_tok k3)
      · obtain ⟨_, _, k | ⟨_, k⟩⟩ := ok_alt k
        · obtain ⟨_, _, ws, k5, rfl⟩ := ok_ref k
          obtain ⟨rfl, k3⟩ := ok_str k5
          exact fin (a := .bool false) (by simp [Wf]) (by simp [Spelt, toks]) rfl (by simp only [tree]; rfl) (spells_tok k3)
        · exact (ok_never k).elim
    obtain ⟨m3, hm3, k | ⟨n3, k⟩⟩ := ok_alt k
    · obtain ⟨_, _, vs, k1, rfl⟩ := ok_ref k
      have : ∃ t, NumShape t ∧ vs = [.term none false t] ∧ Spells [t] s r := by
        obtain ⟨_, _, k | ⟨_, k⟩⟩ := ok_alt k1
        · obtain ⟨t, h1, rfl⟩ := ok_rx k
          refine ⟨t, scanNumber_shape h1, ?_, spells_tok (scan_append h1)⟩
          have : t.isEmpty = false := by
            obtain ⟨c, u, rfl, _⟩ := numShape_start (scanNumber_shape h1)
            rfl
          simp [this]
        obtain ⟨_, _, k | ⟨_, k⟩⟩ := ok_alt k
        · obtain ⟨rfl, k3⟩ := ok_str k
          exact ⟨_, .minusInf, rfl, spells_tok k3⟩
        obtain ⟨_, _, k | ⟨_, k⟩⟩ := ok_alt k
        · obtain ⟨rfl, k3⟩ := ok_str k
          exact ⟨_, .inf, rfl, spells_tok k3⟩
        obtain ⟨_, _, k | ⟨_, k⟩⟩ := ok_alt k
        · obtain ⟨rfl, k3⟩ := ok_str k
          exact ⟨_, .nan, rfl, spells_tok k3⟩
        exact (ok_never k).elim
      obtain ⟨t, h1, rfl, h3⟩ := this
      exact fin (a := .num t) (by simpa only [Wf] using h1) (by simp only [Spelt, toks]) rfl (by simp [tree]) h3
    obtain ⟨m4, hm4, k | ⟨n4, k⟩⟩ := ok_alt k
    · obtain ⟨body, h1, rfl, h3⟩ := sound_string rfl k
      exact fin (a := .str body) (by simpa only [Wf] using h1) (by simp only [Spelt, toks]) rfl (by simp [tree]) h3
    obtain ⟨m5, hm5, k | ⟨n5, k⟩⟩ := ok_alt k
    · obtain ⟨_, _, vs, k1, rfl⟩ := ok_ref k
      obtain ⟨xs, hq, rfl, hs⟩ := sound_bracket (rl := .listElements) (X := .ref .value) (N := N) rfl rfl hX (by omega) k1
      obtain ⟨w1, w2, w3⟩ := speltL_of hq
      refine fin (a := .tuple (xs.map Prod.fst)) (by simpa only [Wf] using w1) (by simp only [Spelt]; exact ⟨_, w2, rfl⟩) rfl ?_ hs
      simp [tree, w3]
    obtain ⟨m6, hm6, k | ⟨n6, k⟩⟩ := ok_alt k
    · obtain ⟨_, _, vs, k1, rfl⟩ := ok_ref k
      obtain ⟨xs, hq, rfl, hs⟩ := sound_bracket (rl := .listElements) (X := .ref .value) (N := N) rfl rfl hX (by omega) k1
      obtain ⟨w1, w2, w3⟩ := speltL_of hq
      refine fin (a := .list (xs.map Prod.fst)) (by simpa only [Wf] using w1) (by simp only [Spelt]; exact ⟨_, w2, rfl⟩) rfl ?_ hs
      simp [tree, w3]
    obtain ⟨m7, hm7, k | ⟨n7, k⟩⟩ := ok_alt k
    · obtain ⟨_, _, vs, k1, rfl⟩ := ok_ref k
      obtain ⟨_, _, k | ⟨_, k⟩⟩ := ok_alt k1
      · obtain ⟨_, _, ws, k5, rfl⟩ := ok_ref k
        obtain ⟨_, _, k6 | ⟨_, k6⟩⟩ := ok_alt k5
        · obtain ⟨rfl, k3⟩ := ok_str k6
          exact fin (a := .set []) (by simp [Wf, WfL]) (by simp only [Spelt, SpeltL]; exact ⟨[], rfl, rfl⟩) rfl (by simp only [tree]; rfl) (spells_tok k3)
        obtain ⟨_, _, k7 | ⟨_, k7⟩⟩ := ok_alt k6
        · obtain ⟨rfl, k3⟩ := ok_str k7
          exact fin (a := .fset []) (by simp [Wf, WfL]) (by simp only [Spelt, SpeltL]; exact ⟨[], rfl, rfl⟩) rfl (by simp only [tree]; rfl) (spells_tok k3)
        exact (ok_never k7).elim
      obtain ⟨_, _, k | ⟨_, k⟩⟩ := ok_alt k
      · obtain ⟨_, _, ws, k5, rfl⟩ := ok_ref k
        obtain ⟨_, _, k6 | ⟨_, k6⟩⟩ := ok_alt k5
        · obtain ⟨xs, hne, hq, rfl, hs⟩ := sound_bracket1 (rl := .listElements) (X := .ref .value) (N := N) rfl rfl hX (by omega) k6
          obtain ⟨w1, w2, w3⟩ := speltL_of hq
          have hemp : (xs.map Prod.fst).isEmpty = false := by cases xs with | nil => exact absurd rfl hne | cons _ _ => rfl
          refine fin (a := .set (xs.map Prod.fst)) (by simpa only [Wf] using w1) (by simp only [Spelt, hemp]; exact ⟨_, w2, rfl⟩) rfl ?_ hs
          simp only [tree, w3, hemp]; rfl
        obtain ⟨_, _, k7 | ⟨_, k7⟩⟩ := ok_alt k6
        · obtain ⟨xs, hne, hq, rfl, hs⟩ := sound_bracket1 (rl := .listElements) (X := .ref .value) (N := N) rfl rfl hX (by omega) k7
          obtain ⟨w1, w2, w3⟩ := speltL_of hq
          have hemp : (xs.map Prod.fst).isEmpty = false := by cases xs with | nil => exact absurd rfl hne | cons _ _ => rfl
          refine fin (a := .fset (xs.map Prod.fst)) (by simpa only [Wf] using w1) (by simp only [Spelt, hemp]; exact ⟨_, w2, rfl⟩) rfl ?_ hs
          simp only [tree, w3, hemp]; rfl
        exact (ok_never k7).elim
      exact (ok_never k).elim
    obtain ⟨m8, hm8, k | ⟨n8, k⟩⟩ := ok_alt k
    · obtain ⟨_, _, vs, k1, rfl⟩ := ok_ref k
      obtain ⟨xs, hq, rfl, hs⟩ := sound_bracket (rl := .dictElements) (X := .ref .dictkv) (N := N) rfl rfl
        (fun hm hr => exact_dictkv hV (by omega) hr) (by omega) k1
      obtain ⟨w1, w2, w3⟩ := speltD_of hq
      refine fin (a := .dict (xs.map fun x => (x.1.1, x.2.1))) (by simpa only [Wf] using w1) (by simp only [Spelt]; exact ⟨_, w2, rfl⟩) rfl ?_ hs
      simp [tree, w3]
    obtain ⟨m9, hm9, k | ⟨n9, k⟩⟩ := ok_alt k
    · obtain ⟨_, _, vs, k1, rfl⟩ := ok_ref k
      obtain ⟨_, _, t1, t2, s1, e1, e2, rfl⟩ := ok_cat k1
      obtain ⟨_, _, t3, t4, s2, e3, e4, rfl⟩ := ok_cat e2
      obtain ⟨_, _, t5, t6, s3, e5, e6, rfl⟩ := ok_cat e4
      obtain ⟨rfl, rfl⟩ := ok_emp e6
      obtain ⟨rfl, h5⟩ := ok_str e5
      obtain ⟨rfl, h1⟩ := ok_str e1
      obtain ⟨body, hb, rfl, hs⟩ := sound_string rfl e3
      refine fin (a := .cls body) (tk := toks (.cls body)) (by simpa only [Wf] using hb) (by simp only [Spelt]) rfl (by simp [tree, tok]) ?_
      have := ((spells_tok h1).append hs).append (spells_tok h5)
      simpa [toks] using this
    obtain ⟨m10, hm10, k | ⟨n10, k⟩⟩ := ok_alt k
    · obtain ⟨o, nm, kvs, tss, ho, hnm, hk, hsp, rfl, hs⟩ := exact_what (N := N) hV (by omega) k
      have hid : Ident (o.getD nm) := by cases o with | none => exact hnm | some x => exact ho x rfl
      obtain ⟨u, hu⟩ : ∃ u, skipWs s = o.getD nm ++ u := by
        cases o with
        | none => exact spells_start (by simpa [outToks] using hs) (ident_ne hid) (ident_noWs hid)
        | some x => exact spells_start (by simpa [outToks] using hs) (ident_ne hid) (ident_noWs hid)
      have hwf : Wf (.what o nm kvs) := by simp only [Wf]; exact ⟨ho, hnm, nestedStart_of hu n1 n2 n3, hk⟩
      by_cases hc : SetCall o nm kvs
      · have hc' := hc
        obtain ⟨rfl, rfl, hset⟩ := hc'
        have htss : tss = [] := by simpa only [SpeltA] using hsp
        subst htss
        have hnot : ¬ nm ++ c!"()" <+: skipWs s := by
          rintro ⟨v, hv⟩
          rcases hset with rfl | rfl
          · exact n7 _ _ _ (Ev.ref (r := .aSet) (g := newGrammar) (b := false) (.alt (Ev.ref (r := .anEmptySet) (ts := [.term none false c!"set()"])
              (.alt (result_str hv.symm)))))
          · refine n7 _ _ _ (Ev.ref (r := .aSet) (g := newGrammar) (b := false) (.alt (Ev.ref (r := .anEmptySet) (ts := [.term none false c!"frozenset()"])
              (.altNext (.strFail ?_) (.alt (result_str hv.symm))))))
            rw [← hv]
            exact not_prefix (by decide)
        obtain ⟨tk, h1, h2⟩ := spaced_setCall (n := nm) hs (ident_noWs hnm) (ident_ne hnm) hnot
        exact fin (a := .what none nm []) hwf (by simp only [Spelt]; exact ⟨[], hsp, .inr ⟨hc, h1⟩⟩) rfl (by simp [tree]) h2
      · exact fin (a := .what o nm kvs) hwf (by simp only [Spelt]; exact ⟨tss, hsp, .inl ⟨hc, rfl⟩⟩) rfl (by simp [tree]) hs
    exact (ok_never k).elim

/-- Whatever is not rejected as syntax is a text of some well-formed id. -/
theorem parse_spelt_cases {E : Env} (s : Str) : parseWhatid E s = .error .noMatch ∨
    ∃ o n kvs, WellFormed o n kvs ∧ IsText s o n kvs := by
  cases h : run newGrammar ((s.length + 1) * stepsPerChar) false (.ref .whatamiIdTop) s with
  | timeout => exact absurd h (top_terminates newGrammar_noLeftRec (Nat.le_refl _))
  | fail => exact .inl (by simp only [parseWhatid, parseWith, parseTree, h])
  | ok ts r =>
    obtain ⟨_, _, us, h1, rfl⟩ := ok_ref h
    obtain ⟨_, _, t1, t2, s1, e1, e2, rfl⟩ := ok_cat h1
    obtain ⟨_, _, t3, t4, s2, e3, e4, rfl⟩ := ok_cat e2
    obtain ⟨rfl, rfl⟩ := ok_emp e4
    obtain ⟨o, nm, kvs, tss, ho, hnm, hk, hsp, rfl, p, rfl, hp⟩ := exact_what (exactBelow _) (Nat.le_refl _) e1
    obtain ⟨rfl, h3, rfl⟩ := ok_eof e3
    obtain ⟨ws, hw, e⟩ := skipWs_split s1
    rw [h3] at e
    exact .inr ⟨o, nm, kvs, ⟨ho, hnm, hk⟩, tss, p, s1, hsp, hp, by rw [e]; simpa using hw, rfl⟩

end Whatami
