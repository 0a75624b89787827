import Verif.ParseValue

/-
The converse of reading: whatever the parser accepts is the spaced text of some well-formed syntax, and the tree
it builds is the tree of that syntax.
Definitions here are vocabulary for statements and proofs: the code they are about is cited in the model modules.
-/
namespace Whatami

variable {g : Rule → Peg} {n : Nat} {b : Bool} {s r : Str} {ts : List Tree}

/-! ### Inversion of `run` -/

theorem ok_str {t : Str} (h : run g n b (.str t) s = .ok ts r) : ts = [.term none b t] ∧ skipWs s = t ++ r := by
  cases n with
  | zero => cases h
  | succ n =>
    simp only [run] at h
    split at h
    · rename_i hp
      cases h
      obtain ⟨u, hu⟩ := List.isPrefixOf_iff_prefix.1 hp
      rw [← hu]
      simp
    · cases h

theorem ok_rx {x : Rx} (h : run g n b (.rx x) s = .ok ts r) :
    ∃ t, x.scan (skipWs s) = some (t, r) ∧ ts = if t.isEmpty then [] else [.term none false t] := by
  cases n with
  | zero => cases h
  | succ n =>
    simp only [run] at h
    split at h
    · cases h
    · rename_i hs; cases h; exact ⟨[], hs, rfl⟩
    · rename_i t rest hne hs
      cases h
      refine ⟨t, hs, ?_⟩
      cases t with
      | nil => exact (hne rfl).elim
      | cons c t => rfl

theorem ok_eof (h : run g n b .eof s = .ok ts r) : ts = [.term none true []] ∧ skipWs s = [] ∧ r = [] := by
  cases n with
  | zero => cases h
  | succ n =>
    simp only [run] at h
    split at h
    · cases h; exact ⟨rfl, by assumption, rfl⟩
    · cases h

theorem ok_emp (h : run g n b .emp s = .ok ts r) : ts = [] ∧ r = s := by
  cases n with
  | zero => cases h
  | succ n => simp only [run] at h; cases h; exact ⟨rfl, rfl⟩

theorem ok_never (h : run g n b .never s = .ok ts r) : False := by
  cases n with
  | zero => cases h
  | succ n => simp only [run] at h; cases h

theorem ok_cat {x y : Peg} (h : run g n b (.cat x y) s = .ok ts r) :
    ∃ m < n, ∃ t1 t2 s1, run g m true x s = .ok t1 s1 ∧ run g m true y s1 = .ok t2 r ∧ ts = t1 ++ t2 := by
  cases n with
  | zero => cases h
  | succ n =>
    simp only [run] at h
    split at h
    · cases h
    · cases h
    · rename_i t1 s1 h1
      split at h
      · cases h
      · cases h
      · rename_i t2 s2 h2
        cases h
        exact ⟨n, Nat.lt_succ_self n, t1, t2, s1, h1, h2, rfl⟩

/-- The alternative has no result at this place. -/
def NoResult (g : Rule → Peg) (x : Peg) (s : Str) : Prop := ∀ t us r, ¬ Ev g false x s (.ok (t :: us) r)

theorem ok_alt {x y : Peg} (h : run g n b (.alt x y) s = .ok ts r) :
    ∃ m < n, (run g m false x s = .ok ts r ∨ (NoResult g x s ∧ run g m false y s = .ok ts r)) := by
  cases n with
  | zero => cases h
  | succ n =>
    refine ⟨n, Nat.lt_succ_self n, ?_⟩
    simp only [run] at h
    cases hx : run g n false x s with
    | timeout => rw [hx] at h; cases h
    | fail =>
      rw [hx] at h
      refine .inr ⟨fun t us r h' => ?_, h⟩
      cases h'.det ⟨by simp, n, hx⟩
    | ok us s1 =>
      rw [hx] at h
      cases us with
      | nil =>
        refine .inr ⟨fun t us r h' => ?_, h⟩
        cases h'.det ⟨by simp, n, hx⟩
      | cons t us => exact .inl h

theorem ok_opt {x : Peg} (h : run g n b (.opt x) s = .ok ts r) :
    ∃ m < n, (run g m false x s = .ok ts r ∨ (ts = [] ∧ r = s)) := by
  cases n with
  | zero => cases h
  | succ n =>
    refine ⟨n, Nat.lt_succ_self n, ?_⟩
    simp only [run] at h
    cases hx : run g n false x s with
    | timeout => rw [hx] at h; cases h
    | fail => rw [hx] at h; cases h; exact .inr ⟨rfl, rfl⟩
    | ok us s1 => rw [hx] at h; cases h; exact .inl rfl

theorem ok_star {x : Peg} (h : run g n b (.star x) s = .ok ts r) :
    ∃ m < n, (ts = [] ∧ r = s) ∨ (ts = [] ∧ run g m false x s = .ok [] r) ∨
      ∃ t us vs s1, run g m false x s = .ok (t :: us) s1 ∧ run g m false (.star x) s1 = .ok vs r ∧ ts = t :: us ++ vs := by
  cases n with
  | zero => cases h
  | succ n =>
    refine ⟨n, Nat.lt_succ_self n, ?_⟩
    simp only [run] at h
    cases hx : run g n false x s with
    | timeout => rw [hx] at h; cases h
    | fail => rw [hx] at h; cases h; exact .inl ⟨rfl, rfl⟩
    | ok us s1 =>
      rw [hx] at h
      cases us with
      | nil => cases h; exact .inr (.inl ⟨rfl, rfl⟩)
      | cons t us =>
        simp only at h
        cases hy : run g n false (.star x) s1 with
        | timeout => rw [hy] at h; cases h
        | fail => rw [hy] at h; cases h
        | ok vs s2 =>
          rw [hy] at h
          cases h
          exact .inr (.inr ⟨t, us, vs, s1, rfl, hy, rfl⟩)

theorem ok_ref {x : Rule} (h : run g n b (.ref x) s = .ok ts r) :
    ∃ m < n, ∃ us, run g m b (g x) s = .ok us r ∧ ts = ruleResult x (g x) us := by
  cases n with
  | zero => cases h
  | succ n =>
    simp only [run] at h
    split at h
    · cases h
    · cases h
    · rename_i us s1 h1; cases h; exact ⟨n, Nat.lt_succ_self n, us, h1, rfl⟩

/-! ### Spacing -/

/-- The input `s`, up to `r`, spells the tokens. -/
def Spells (tks : List Str) (s r : Str) : Prop := ∃ p, s = p ++ r ∧ Padded tks p

theorem padded_join {ts us : List Str} {s t : Str} (h : Padded ts s) (h' : Padded us t) : Padded (ts ++ us) (s ++ t) := by
  induction h with
  | nil => exact h'
  | cons hw _ ih => simpa using Padded.cons hw ih

theorem Spells.append {t1 t2 : List Str} {s s1 r : Str} (h1 : Spells t1 s s1) (h2 : Spells t2 s1 r) : Spells (t1 ++ t2) s r := by
  obtain ⟨p, rfl, hp⟩ := h1
  obtain ⟨q, rfl, hq⟩ := h2
  exact ⟨p ++ q, by simp, padded_join hp hq⟩

theorem Spells.nil (s : Str) : Spells [] s s := ⟨[], rfl, .nil⟩

theorem skipWs_split (s : Str) : ∃ ws, ws.all isWs = true ∧ s = ws ++ skipWs s :=
  ⟨s.takeWhile isWs, by simp, (List.takeWhile_append_dropWhile).symm⟩

theorem skipWs_start (s : Str) : NoWs (skipWs s) := by
  intro c u e
  have := List.head?_dropWhile_not isWs s
  rw [show s.dropWhile isWs = c :: u from e] at this
  simpa using this

theorem spells_tok {t s r : Str} (h : skipWs s = t ++ r) : Spells [t] s r := by
  obtain ⟨ws, hw, e⟩ := skipWs_split s
  refine ⟨ws ++ (t ++ []), ?_, .cons hw .nil⟩
  rw [e, h]; simp

/-! ### Tokens -/

theorem scanExp_shape (s : Str) : (scanExp s).1 = [] ∨
    ∃ c sg e, (scanExp s).1 = c :: (sg ++ e) ∧ (c = 'e' ∨ c = 'E') ∧ (sg = [] ∨ sg = ['+'] ∨ sg = ['-']) ∧ Digits e := by
  have dg : ∀ {r : Str} {d : Char} {ds : Str}, r.takeWhile isDig = d :: ds → Digits (d :: ds) := by
    intro r d ds h
    refine ⟨by simp, ?_⟩
    rw [← h]; simp
  unfold scanExp
  cases s with
  | nil => exact .inl rfl
  | cons c r =>
    dsimp only
    split
    · rename_i hc
      cases r with
      | nil => exact .inl rfl
      | cons d r =>
        dsimp only
        split
        · rename_i hd
          cases hx : r.takeWhile isDig with
          | nil => exact .inl rfl
          | cons d' ds' => exact .inr ⟨c, [d], d' :: ds', rfl, hc, by rcases hd with rfl | rfl <;> simp, dg hx⟩
        · cases hx : (d :: r).takeWhile isDig with
          | nil => exact .inl rfl
          | cons d' ds' => exact .inr ⟨c, [], d' :: ds', rfl, hc, .inl rfl, dg hx⟩
    · exact .inl rfl

theorem scanFrac_shape (s : Str) : (scanFrac s).1 = [] ∨ ∃ f, (scanFrac s).1 = '.' :: f ∧ f.all isDig = true := by
  unfold scanFrac
  cases s with
  | nil => exact .inl rfl
  | cons c r =>
    dsimp only
    split
    · rename_i h; subst h; exact .inr ⟨_, rfl, by simp⟩
    · exact .inl rfl

theorem scanUnsigned_shape {s t r : Str} (h : scanUnsigned s = some (t, r)) : ∃ ds fr ex, t = ds ++ fr ++ ex ∧ Digits ds ∧
    (fr = [] ∨ ∃ f, fr = '.' :: f ∧ f.all isDig = true) ∧
    (ex = [] ∨ ∃ c sg e, ex = c :: (sg ++ e) ∧ (c = 'e' ∨ c = 'E') ∧ (sg = [] ∨ sg = ['+'] ∨ sg = ['-']) ∧ Digits e) := by
  unfold scanUnsigned at h
  cases hd : s.takeWhile isDig with
  | nil => rw [hd] at h; cases h
  | cons d ds =>
    rw [hd] at h
    simp only [Option.some.injEq, Prod.mk.injEq] at h
    refine ⟨d :: ds, _, _, h.1.symm, ⟨by simp, by rw [← hd]; simp⟩, scanFrac_shape _, scanExp_shape _⟩

theorem scanNumber_shape {s t r : Str} (h : scanNumber s = some (t, r)) : NumShape t := by
  cases s with
  | nil => cases h
  | cons c u =>
    simp only [scanNumber] at h
    split at h
    · cases hu : scanUnsigned u with
      | none => rw [hu] at h; cases h
      | some p =>
        obtain ⟨t', r'⟩ := p
        rw [hu] at h
        simp only [Option.some.injEq, Prod.mk.injEq] at h
        obtain ⟨ds, fr, ex, rfl, h1, h2, h3⟩ := scanUnsigned_shape hu
        rw [← h.1]
        have := NumShape.digits true h1 h2 h3
        simpa using this
    · obtain ⟨ds, fr, ex, rfl, h1, h2, h3⟩ := scanUnsigned_shape h
      have := NumShape.digits false h1 h2 h3
      simpa using this

theorem scanBody_stop (s : Str) : (scanBody s).2 = [] ∨ ∃ r, (scanBody s).2 = '\'' :: r ∧ Units (scanBody s).1 := by
  induction h : s.length using Nat.strongRecOn generalizing s with
  | ind n ih =>
    subst h
    cases s with
    | nil => exact .inl (by rw [scanBody.eq_def])
    | cons c r =>
      rw [scanBody.eq_def]
      dsimp only
      split
      · rename_i hc; subst hc; exact .inr ⟨r, rfl, .nil⟩
      · rename_i hc
        split
        · rename_i hb
          subst hb
          cases r with
          | nil => exact .inl rfl
          | cons d r =>
            dsimp only
            split
            · rename_i hd
              subst hd
              have := ih r.length (by simp; omega) r rfl
              rw [scanBody.eq_def]
              simp only [show ('\n' = '\'') = False by decide, show ('\n' = '\\') = False by decide, if_false]
              rcases this with h | ⟨u, h1, h2⟩
              · exact .inl h
              · exact .inr ⟨u, h1, .backslashNl h2⟩
            · rename_i hd
              rcases ih r.length (by simp; omega) r rfl with h | ⟨u, h1, h2⟩
              · exact .inl h
              · exact .inr ⟨u, h1, .esc hd h2⟩
        · rename_i hb
          rcases ih r.length (by simp) r rfl with h | ⟨u, h1, h2⟩
          · exact .inl h
          · exact .inr ⟨u, h1, .char hc hb h2⟩

theorem scan_ident_shape {s t r : Str} (h : Rx.ident.scan s = some (t, r)) : Ident t := by
  cases s with
  | nil => cases h
  | cons c u =>
    simp only [Rx.scan] at h
    split at h
    · rename_i hc
      simp only [Option.some.injEq, Prod.mk.injEq] at h
      rw [← h.1]
      exact ⟨c, _, rfl, hc, by simp⟩
    · cases h

/-! ### Rules -/

theorem sound_id (hg : g .anId = .rx .ident) (h : run g n b (.ref .anId) s = .ok ts r) : ∃ x, Ident x ∧ ts = [idTree x] ∧ Spells [x] s r := by
  obtain ⟨m, _, us, h1, rfl⟩ := ok_ref h
  rw [hg] at h1 ⊢
  obtain ⟨t, h2, rfl⟩ := ok_rx h1
  have hi := scan_ident_shape h2
  refine ⟨t, hi, ?_, spells_tok (scan_append h2)⟩
  have : t.isEmpty = false := by cases t with | nil => exact absurd rfl (ident_ne hi) | cons _ _ => rfl
  simp [this, ruleResult, Peg.isMatch, idTree]

theorem sound_string (hg : g .aString = newGrammar .aString) (h : run g n b (.ref .aString) s = .ok ts r) :
    ∃ body, GoodBody body ∧ ts = [strTree body] ∧ Spells [c!"'", body ++ c!"'"] s r := by
  obtain ⟨m, _, us, h1, rfl⟩ := ok_ref h
  rw [hg] at h1 ⊢
  obtain ⟨_, _, t1, t2, s1, e1, e2, rfl⟩ := ok_cat h1
  obtain ⟨_, _, t3, t4, s2, e3, e4, rfl⟩ := ok_cat e2
  obtain ⟨_, _, t5, t6, s3, e5, e6, rfl⟩ := ok_cat e4
  obtain ⟨rfl, rfl⟩ := ok_emp e6
  obtain ⟨rfl, h5⟩ := ok_str e5
  obtain ⟨rfl, h6⟩ := ok_str e1
  obtain ⟨body, h7, rfl⟩ := ok_rx e3
  simp only [Rx.scan, Option.some.injEq] at h7
  have happ := scanBody_append (skipWs s1)
  rw [h7] at happ
  simp only at happ
  have hstop := scanBody_stop (skipWs s1)
  rw [h7] at hstop
  simp only at hstop
  rcases hstop with h8 | ⟨u, rfl, hu⟩
  · subst h8; simp [skipWs] at h5
  · have hr : u = r := by
      rw [skipWs_noWs (noWs_cons (by decide))] at h5
      simpa using h5
    subst hr
    have hgb : GoodBody body := by
      refine ⟨hu, fun c v e => skipWs_start s1 c (v ++ '\'' :: u) ?_⟩
      rw [← happ, e]; rfl
    refine ⟨body, hgb, ?_, (spells_tok h6).append (spells_tok (t := body ++ c!"'") (by rw [← happ]; simp))⟩
    cases body with
    | nil => simp [ruleResult, newGrammar, seq, Peg.isMatch, strTree, tok]
    | cons c v => simp [ruleResult, newGrammar, seq, Peg.isMatch, strTree, tok]

/-- Repetitions of a separated element. -/
theorem sound_star {α : Type} {X sep : Peg} {tr : α → Tree} {tk : α → List Str} {Q : α → Prop} {st : Tree} {N : Nat}
    (hsep : ∀ {m s ts r}, run g m true sep s = .ok ts r → ts = [st] ∧ Spells [c!","] s r)
    (hX : ∀ {m b s ts r}, m < N → run g m b X s = .ok ts r → ∃ x, Q x ∧ ts = [tr x] ∧ Spells (tk x) s r)
    (hn : n ≤ N) (h : run g n b (.star (seq [sep, X])) s = .ok ts r) :
    ∃ xs : List α, (∀ x ∈ xs, Q x) ∧ ts = (xs.map fun x => [st, tr x]).flatten ∧ Spells (starToks (xs.map tk)) s r := by
  induction n using Nat.strongRecOn generalizing b s ts with
  | ind n ih =>
    obtain ⟨m, hm, h1 | ⟨rfl, h1⟩ | ⟨t, us, vs, s1, h1, h2, rfl⟩⟩ := ok_star h
    · obtain ⟨rfl, rfl⟩ := h1
      exact ⟨[], by simp, rfl, Spells.nil _⟩
    · obtain ⟨_, _, t1, t2, s1, e1, e2, e3⟩ := ok_cat h1
      obtain ⟨rfl, _⟩ := hsep e1
      simp at e3
    · obtain ⟨m1, hm1, t1, t2, s2, e1, e2, e3⟩ := ok_cat h1
      obtain ⟨rfl, h4⟩ := hsep e1
      obtain ⟨m2, hm2, t3, t4, s3, e4, e5, rfl⟩ := ok_cat e2
      obtain ⟨rfl, rfl⟩ := ok_emp e5
      obtain ⟨x, hq, rfl, h5⟩ := hX (by omega) e4
      obtain ⟨xs, hqs, rfl, h6⟩ := ih m hm (by omega) h2
      simp only [List.append_nil, List.cons_append, List.nil_append, List.cons.injEq] at e3
      obtain ⟨rfl, rfl⟩ := e3
      refine ⟨x :: xs, ?_, by simp, ?_⟩
      · intro y hy
        rcases List.mem_cons.1 hy with rfl | hy
        · exact hq
        · exact hqs y hy
      · have := (h4.append h5).append h6
        simpa [starToks] using this

/-- A separated list of at least one element. -/
theorem sound_sep {α : Type} {X sep : Peg} {tr : α → Tree} {tk : α → List Str} {Q : α → Prop} {st : Tree} {N : Nat}
    (hsep : ∀ {m s ts r}, run g m true sep s = .ok ts r → ts = [st] ∧ Spells [c!","] s r)
    (hX : ∀ {m b s ts r}, m < N → run g m b X s = .ok ts r → ∃ x, Q x ∧ ts = [tr x] ∧ Spells (tk x) s r)
    (hn : n ≤ N) (h : run g n b (seq [X, .star (seq [sep, X])]) s = .ok ts r) :
    ∃ x xs, (∀ y ∈ x :: xs, Q y) ∧ ts = tr x :: (xs.map fun x => [st, tr x]).flatten ∧ Spells (sepToks ((x :: xs).map tk)) s r := by
  obtain ⟨m1, hm1, t1, t2, s2, e1, e2, rfl⟩ := ok_cat h
  obtain ⟨m2, hm2, t3, t4, s3, e3, e4, rfl⟩ := ok_cat e2
  obtain ⟨rfl, rfl⟩ := ok_emp e4
  obtain ⟨x, hq, rfl, h5⟩ := hX (by omega) e1
  obtain ⟨xs, hqs, rfl, h6⟩ := sound_star hsep hX (by omega) e3
  refine ⟨x, xs, ?_, by simp, ?_⟩
  · intro y hy
    rcases List.mem_cons.1 hy with rfl | hy
    · exact hq
    · exact hqs y hy
  · rw [List.map_cons, sepToks_cons]
    exact h5.append h6

theorem starTrees_flat {α : Type} (tr : α → Tree) (xs : List α) :
    (xs.map fun x => [.term (some .listSep) true c!",", tr x]).flatten = starTrees (xs.map tr) := by
  induction xs with
  | nil => rfl
  | cons x xs ih => simp [starTrees, ih]

theorem sound_comma (hg : g .listSep = .str c!",") {m : Nat} (h : run g m true (.ref .listSep) s = .ok ts r) :
    ts = [.term (some .listSep) true c!","] ∧ Spells [c!","] s r := by
  obtain ⟨_, _, us, h1, rfl⟩ := ok_ref h
  rw [hg] at h1 ⊢
  obtain ⟨rfl, h2⟩ := ok_str h1
  exact ⟨rfl, spells_tok h2⟩

/-- A rule for a comma-separated list. -/
theorem sound_elems {α : Type} {rl : Rule} {X : Peg} {tr : α → Tree} {tk : α → List Str} {Q : α → Prop} {N : Nat}
    (hg : g .listSep = .str c!",") (hrl : g rl = seq [X, .star (seq [.ref .listSep, X])])
    (hX : ∀ {m b s ts r}, m < N → run g m b X s = .ok ts r → ∃ x, Q x ∧ ts = [tr x] ∧ Spells (tk x) s r)
    (hn : n ≤ N) (h : run g n b (.ref rl) s = .ok ts r) :
    ∃ xs : List α, xs ≠ [] ∧ (∀ y ∈ xs, Q y) ∧ ts = elems rl (xs.map tr) ∧ Spells (sepToks (xs.map tk)) s r := by
  obtain ⟨m, hm, us, h1, rfl⟩ := ok_ref h
  rw [hrl] at h1 ⊢
  obtain ⟨x, xs, hq, rfl, hs⟩ := sound_sep (sound_comma hg) hX (by omega) h1
  refine ⟨x :: xs, by simp, hq, ?_, hs⟩
  rw [starTrees_flat]
  simp only [ruleResult, seq, List.foldr, Peg.isMatch, List.map_cons, elems, sepTrees_cons]
  simp

/-- Brackets around an optional list. -/
theorem sound_bracket {α : Type} {rl : Rule} {X : Peg} {op cl : Str} {tr : α → Tree} {tk : α → List Str} {Q : α → Prop} {N : Nat}
    (hg : g .listSep = .str c!",") (hrl : g rl = seq [X, .star (seq [.ref .listSep, X])])
    (hX : ∀ {m b s ts r}, m < N → run g m b X s = .ok ts r → ∃ x, Q x ∧ ts = [tr x] ∧ Spells (tk x) s r)
    (hn : n ≤ N) (h : run g n b (seq [.str op, .opt (.ref rl), .str cl]) s = .ok ts r) :
    ∃ xs : List α, (∀ y ∈ xs, Q y) ∧ ts = tok op :: elems rl (xs.map tr) ++ [tok cl] ∧ Spells (op :: sepToks (xs.map tk) ++ [cl]) s r := by
  obtain ⟨_, _, t1, t2, s1, e1, e2, rfl⟩ := ok_cat h
  obtain ⟨_, _, t3, t4, s2, e3, e4, rfl⟩ := ok_cat e2
  obtain ⟨_, _, t5, t6, s3, e5, e6, rfl⟩ := ok_cat e4
  obtain ⟨rfl, rfl⟩ := ok_emp e6
  obtain ⟨rfl, h5⟩ := ok_str e5
  obtain ⟨rfl, h1⟩ := ok_str e1
  obtain ⟨m, hm, h3 | ⟨rfl, rfl⟩⟩ := ok_opt e3
  · obtain ⟨xs, _, hq, rfl, hs⟩ := sound_elems hg hrl hX (by omega) h3
    refine ⟨xs, hq, by simp [tok], ?_⟩
    have := ((spells_tok h1).append hs).append (spells_tok h5)
    simpa using this
  · refine ⟨[], by simp, by simp [tok, elems], ?_⟩
    have := (spells_tok h1).append (spells_tok h5)
    simpa [sepToks] using this

/-- Brackets around a list. -/
theorem sound_bracket1 {α : Type} {rl : Rule} {X : Peg} {op cl : Str} {tr : α → Tree} {tk : α → List Str} {Q : α → Prop} {N : Nat}
    (hg : g .listSep = .str c!",") (hrl : g rl = seq [X, .star (seq [.ref .listSep, X])])
    (hX : ∀ {m b s ts r}, m < N → run g m b X s = .ok ts r → ∃ x, Q x ∧ ts = [tr x] ∧ Spells (tk x) s r)
    (hn : n ≤ N) (h : run g n b (seq [.str op, .ref rl, .str cl]) s = .ok ts r) :
    ∃ xs : List α, xs ≠ [] ∧ (∀ y ∈ xs, Q y) ∧ ts = tok op :: elems rl (xs.map tr) ++ [tok cl] ∧ Spells (op :: sepToks (xs.map tk) ++ [cl]) s r := by
  obtain ⟨_, _, t1, t2, s1, e1, e2, rfl⟩ := ok_cat h
  obtain ⟨_, _, t3, t4, s2, e3, e4, rfl⟩ := ok_cat e2
  obtain ⟨_, _, t5, t6, s3, e5, e6, rfl⟩ := ok_cat e4
  obtain ⟨rfl, rfl⟩ := ok_emp e6
  obtain ⟨rfl, h5⟩ := ok_str e5
  obtain ⟨rfl, h1⟩ := ok_str e1
  obtain ⟨xs, hne, hq, rfl, hs⟩ := sound_elems hg hrl hX (by omega) e3
  refine ⟨xs, hne, hq, by simp [tok], ?_⟩
  have := ((spells_tok h1).append hs).append (spells_tok h5)
  simpa using this

/-! ### Values -/

theorem wfL_of {xs : List Ast} (h : ∀ x ∈ xs, Wf x) : WfL xs := by
  induction xs with
  | nil => simp [WfL]
  | cons x xs ih => simp only [WfL]; exact ⟨h x (by simp), ih fun y hy => h y (by simp [hy])⟩
theorem wfD_of {xs : List (Ast × Ast)} (h : ∀ x ∈ xs, Wf x.1 ∧ Wf x.2) : WfD xs := by
  induction xs with
  | nil => simp [WfD]
  | cons x xs ih => simp only [WfD]; exact ⟨(h x (by simp)).1, (h x (by simp)).2, ih fun y hy => h y (by simp [hy])⟩
theorem wfA_of {xs : List (Str × Ast)} (h : ∀ x ∈ xs, Ident x.1 ∧ Wf x.2) : WfA xs := by
  induction xs with
  | nil => simp [WfA]
  | cons x xs ih => simp only [WfA]; exact ⟨(h x (by simp)).1, (h x (by simp)).2, ih fun y hy => h y (by simp [hy])⟩

theorem toksL_map (xs : List Ast) : toksL xs = xs.map toks := by
  induction xs with
  | nil => rfl
  | cons x xs ih => simp [toksL, ih]
theorem treeL_map (xs : List Ast) : treeL xs = xs.map tree := by
  induction xs with
  | nil => rfl
  | cons x xs ih => simp [treeL, ih]

/-- The tokens of an item of a dict. -/
def toks2 (x : Ast × Ast) : List Str := toks x.1 ++ c!":" :: toks x.2
/-- The tree of an item of a dict. -/
def tree2 (x : Ast × Ast) : Tree := .node .dictkv [tree x.1, tok c!":", tree x.2]
/-- The tokens of a parameter. -/
def toksKv (x : Str × Ast) : List Str := x.1 :: c!"=" :: toks x.2
/-- The tree of a parameter. -/
def treeKv (x : Str × Ast) : Tree := .node .kv [idTree x.1, tok c!"=", tree x.2]

theorem toksD_map (xs : List (Ast × Ast)) : toksD xs = xs.map toks2 := by
  induction xs with
  | nil => rfl
  | cons x xs ih => simp [toksD, ih, toks2]
theorem treeD_map (xs : List (Ast × Ast)) : treeD xs = xs.map tree2 := by
  induction xs with
  | nil => rfl
  | cons x xs ih => simp [treeD, ih, tree2]
theorem toksA_map (xs : List (Str × Ast)) : toksA xs = xs.map toksKv := by
  induction xs with
  | nil => rfl
  | cons x xs ih => simp [toksA, ih, toksKv]
theorem treeA_map (xs : List (Str × Ast)) : treeA xs = xs.map treeKv := by
  induction xs with
  | nil => rfl
  | cons x xs ih => simp [treeA, ih, treeKv]

/-- All runs with less fuel are sound. -/
def SoundBelow (N : Nat) : Prop := ∀ {m b s ts r}, m < N → run newGrammar m b (.ref .value) s = .ok ts r →
  ∃ a, Wf a ∧ ts = [tree a] ∧ Spells (toks a) s r

theorem SoundBelow.le {N M : Nat} (h : SoundBelow N) (hm : M ≤ N) : SoundBelow M := fun hm' hr => h (by omega) hr

theorem sound_dictkv {N : Nat} (hV : SoundBelow N) (hn : n ≤ N) (h : run newGrammar n b (.ref .dictkv) s = .ok ts r) :
    ∃ x : Ast × Ast, (Wf x.1 ∧ Wf x.2) ∧ ts = [tree2 x] ∧ Spells (toks2 x) s r := by
  obtain ⟨_, _, us, h1, rfl⟩ := ok_ref h
  obtain ⟨_, _, t1, t2, s1, e1, e2, rfl⟩ := ok_cat h1
  obtain ⟨_, _, t3, t4, s2, e3, e4, rfl⟩ := ok_cat e2
  obtain ⟨_, _, t5, t6, s3, e5, e6, rfl⟩ := ok_cat e4
  obtain ⟨rfl, rfl⟩ := ok_emp e6
  obtain ⟨k, hk, rfl, hs1⟩ := hV (by omega) e1
  obtain ⟨rfl, h3⟩ := ok_str e3
  obtain ⟨v, hv, rfl, hs2⟩ := hV (by omega) e5
  refine ⟨(k, v), ⟨hk, hv⟩, by simp [ruleResult, newGrammar, seq, Peg.isMatch, tree2, tok], ?_⟩
  exact hs1.append ((spells_tok h3).append hs2)

theorem sound_kv {N : Nat} (hV : SoundBelow N) (hn : n ≤ N) (h : run newGrammar n b (.ref .kv) s = .ok ts r) :
    ∃ x : Str × Ast, (Ident x.1 ∧ Wf x.2) ∧ ts = [treeKv x] ∧ Spells (toksKv x) s r := by
  obtain ⟨_, _, us, h1, rfl⟩ := ok_ref h
  obtain ⟨_, _, t1, t2, s1, e1, e2, rfl⟩ := ok_cat h1
  obtain ⟨_, _, t3, t4, s2, e3, e4, rfl⟩ := ok_cat e2
  obtain ⟨_, _, t5, t6, s3, e5, e6, rfl⟩ := ok_cat e4
  obtain ⟨rfl, rfl⟩ := ok_emp e6
  obtain ⟨k, hk, rfl, hs1⟩ := sound_id rfl e1
  obtain ⟨rfl, h3⟩ := ok_str e3
  obtain ⟨v, hv, rfl, hs2⟩ := hV (by omega) e5
  refine ⟨(k, v), ⟨hk, hv⟩, by simp [ruleResult, newGrammar, seq, Peg.isMatch, treeKv, tok], ?_⟩
  exact hs1.append ((spells_tok h3).append hs2)

/-- An id, nested or not. -/
theorem sound_what {N : Nat} (hV : SoundBelow N) (hn : n ≤ N) (h : run newGrammar n b (.ref .whatamiId) s = .ok ts r) :
    ∃ (o : Option Str) (nm : Str) (kvs : List (Str × Ast)), (∀ x, o = some x → Ident x) ∧ Ident nm ∧ WfA kvs ∧
      ts = [.node .whatamiId (outTrees o ++ idTree nm :: tok c!"(" :: elems .kvs (treeA kvs) ++ [tok c!")"])] ∧
      Spells (toks (.what o nm kvs)) s r := by
  obtain ⟨_, _, us, h1, rfl⟩ := ok_ref h
  obtain ⟨_, _, t1, t2, s1, e1, e2, rfl⟩ := ok_cat h1
  obtain ⟨_, _, t3, t4, s2, e3, e4, rfl⟩ := ok_cat e2
  obtain ⟨nm, hnm, rfl, hs2⟩ := sound_id rfl e3
  obtain ⟨kvs, hk, rfl, hs3⟩ := sound_bracket (rl := .kvs) (X := .ref .kv) (op := c!"(") (cl := c!")") (N := N) rfl rfl
    (fun hm hr => sound_kv hV (by omega) hr) (by omega) e4
  have hout : ∃ o : Option Str, (∀ x, o = some x → Ident x) ∧ t1 = outTrees o ∧ Spells (outToks o) s s1 := by
    obtain ⟨_, _, h2 | ⟨rfl, rfl⟩⟩ := ok_opt e1
    · obtain ⟨_, _, t5, t6, s5, e5, e6, rfl⟩ := ok_cat h2
      obtain ⟨_, _, t7, t8, s6, e7, e8, rfl⟩ := ok_cat e6
      obtain ⟨rfl, rfl⟩ := ok_emp e8
      obtain ⟨rfl, h7⟩ := ok_str e7
      obtain ⟨x, hx, rfl, hs5⟩ := sound_id rfl e5
      exact ⟨some x, fun y hy => by cases hy; exact hx, rfl, hs5.append (spells_tok h7)⟩
    · exact ⟨none, fun _ hy => (by cases hy), rfl, Spells.nil _⟩
  obtain ⟨o, ho, rfl, hs1⟩ := hout
  refine ⟨o, nm, kvs, ho, hnm, wfA_of hk, ?_, ?_⟩
  · rw [treeA_map]
    cases o <;> simp [ruleResult, newGrammar, seq, Peg.isMatch, outTrees, tok]
  · simp only [toks, toksA_map]
    have := hs1.append (hs2.append hs3)
    simpa using this

theorem spells_start {tks : List Str} {t s r : Str} (h : Spells (t :: tks) s r) (hne : t ≠ []) (ht : NoWs t) : ∃ u, skipWs s = t ++ u := by
  obtain ⟨p, rfl, hp⟩ := h
  obtain ⟨ws, s1, hw, rfl, _⟩ := padded_cons_iff.1 hp
  refine ⟨s1 ++ r, ?_⟩
  have := skipWs_pad (s := t ++ (s1 ++ r)) hw (noWs_append hne ht)
  simpa using this

theorem result_str {t s u : Str} (h : skipWs s = t ++ u) : Ev newGrammar b (.str t) s (.ok [.term none b t] u) := .str h

/-- What starts with a reserved word is read as that word. -/
theorem nestedStart_of {s x u : Str} (hs : skipWs s = x ++ u) (h1 : NoResult newGrammar (.ref .aNone) s)
    (h2 : NoResult newGrammar (.ref .aBool) s) (h3 : NoResult newGrammar (.ref .aNumber) s) : NestedStart x := by
  intro w hw ⟨v, hv⟩
  have hs' : skipWs s = w ++ (v ++ u) := by rw [hs, ← hv]; simp
  simp only [reserved, List.mem_cons, List.not_mem_nil, or_false] at hw
  have np : ∀ {c d : Char} {t v : Str}, skipWs s = c :: t → d ≠ c → ¬ (d :: v) <+: skipWs s := fun e h => by rw [e]; exact not_prefix h
  rcases hw with rfl | rfl | rfl | rfl | rfl
  · exact h1 _ _ _ (Ev.ref (r := .aNone) (g := newGrammar) (b := false) (ts := [.term none false c!"None"]) (result_str hs'))
  · exact h2 _ _ _ (Ev.ref (r := .aBool) (g := newGrammar) (b := false) (.alt (Ev.ref (r := .aTrue) (ts := [.term none false c!"True"]) (result_str hs'))))
  · exact h2 _ _ _ (Ev.ref (r := .aBool) (g := newGrammar) (b := false) (.altNext (.refFail (.strFail (np hs' (by decide))))
      (.alt (Ev.ref (r := .aFalse) (ts := [.term none false c!"False"]) (result_str hs')))))
  · have hn : Rx.number.scan (skipWs s) = none := by rw [hs']; exact scanNumber_none (c := 'i') (u := c!"nf" ++ (v ++ u)) (by decide) (by decide)
    exact h3 _ _ _ (Ev.ref (r := .aNumber) (g := newGrammar) (b := false) (.altNext (.rxFail hn) (.altNext (.strFail (np hs' (by decide)))
      (.alt (result_str hs')))))
  · have hn : Rx.number.scan (skipWs s) = none := by rw [hs']; exact scanNumber_none (c := 'n') (u := c!"an" ++ (v ++ u)) (by decide) (by decide)
    exact h3 _ _ _ (Ev.ref (r := .aNumber) (g := newGrammar) (b := false) (.altNext (.rxFail hn) (.altNext (.strFail (np hs' (by decide)))
      (.altNext (.strFail (np hs' (by decide))) (.alt (result_str hs'))))))

theorem soundBelow : ∀ N, SoundBelow N := by
  intro N
  induction N with
  | zero => intro m b s ts r hm; omega
  | succ N hV =>
    intro m b s ts r hm h
    obtain ⟨m0, hm0, us, h0, rfl⟩ := ok_ref h
    have hX : ∀ {m b s ts r}, m < N → run newGrammar m b (.ref .value) s = .ok ts r → ∃ a, Wf a ∧ ts = [tree a] ∧ Spells (toks a) s r := hV
    have fin : ∀ {a : Ast} {t : Tree}, Wf a → us = [t] → tree a = .node .value [t] → Spells (toks a) s r →
        ∃ a, Wf a ∧ ruleResult .value (newGrammar .value) us = [tree a] ∧ Spells (toks a) s r := by
      intro a t h1 h2 h3 h4
      subst h2
      exact ⟨a, h1, by rw [h3]; simp [ruleResult, newGrammar, choice, Peg.isMatch], h4⟩
    obtain ⟨m1, hm1, k | ⟨n1, k⟩⟩ := ok_alt h0
    · obtain ⟨_, _, vs, k1, k2⟩ := ok_ref k
      obtain ⟨rfl, k3⟩ := ok_str k1
      exact fin (a := .none) (by simp [Wf]) k2 (by simp [tree]) (spells_tok k3)
    obtain ⟨m2, hm2, k | ⟨n2, k⟩⟩ := ok_alt k
    · obtain ⟨_, _, vs, k1, rfl⟩ := ok_ref k
      obtain ⟨_, _, k | ⟨_, k⟩⟩ := ok_alt k1
      · obtain ⟨_, _, ws, k5, rfl⟩ := ok_ref k
        obtain ⟨rfl, k3⟩ := ok_str k5
        exact fin (a := .bool true) (by simp [Wf]) rfl (by simp only [tree]; rfl) (by simp only [toks]; exact spells_tok k3)
      · obtain ⟨_, _, k | ⟨_, k⟩⟩ := ok_alt k
        · obtain ⟨_, _, ws, k5, rfl⟩ := ok_ref k
          obtain ⟨rfl, k3⟩ := ok_str k5
          exact fin (a := .bool false) (by simp [Wf]) rfl (by simp only [tree]; rfl) (by simp only [toks]; exact spells_tok k3)
        · exact (ok_never k).elim
    obtain ⟨m3, hm3, k | ⟨n3, k⟩⟩ := ok_alt k
    · obtain ⟨_, _, vs, k1, rfl⟩ := ok_ref k
      have : ∃ t, NumShape t ∧ vs = [.term none false t] ∧ Spells [t] s r := by
        obtain ⟨_, _, k | ⟨_, k⟩⟩ := ok_alt k1
        · obtain ⟨t, h1, rfl⟩ := ok_rx k
          refine ⟨t, scanNumber_shape h1, ?_, spells_tok (scan_append h1)⟩
          have : t.isEmpty = false := by
            obtain ⟨c, u, rfl, _⟩ := numShape_start (scanNumber_shape h1)
            rfl
          simp [this]
        obtain ⟨_, _, k | ⟨_, k⟩⟩ := ok_alt k
        · obtain ⟨rfl, k3⟩ := ok_str k
          exact ⟨_, .minusInf, rfl, spells_tok k3⟩
        obtain ⟨_, _, k | ⟨_, k⟩⟩ := ok_alt k
        · obtain ⟨rfl, k3⟩ := ok_str k
          exact ⟨_, .inf, rfl, spells_tok k3⟩
        obtain ⟨_, _, k | ⟨_, k⟩⟩ := ok_alt k
        · obtain ⟨rfl, k3⟩ := ok_str k
          exact ⟨_, .nan, rfl, spells_tok k3⟩
        exact (ok_never k).elim
      obtain ⟨t, h1, rfl, h3⟩ := this
      exact fin (a := .num t) (by simpa only [Wf] using h1) rfl (by simp [tree]) (by simpa only [toks] using h3)
    obtain ⟨m4, hm4, k | ⟨n4, k⟩⟩ := ok_alt k
    · obtain ⟨body, h1, rfl, h3⟩ := sound_string rfl k
      exact fin (a := .str body) (by simpa only [Wf] using h1) rfl (by simp [tree]) (by simpa only [toks] using h3)
    obtain ⟨m5, hm5, k | ⟨n5, k⟩⟩ := ok_alt k
    · obtain ⟨_, _, vs, k1, rfl⟩ := ok_ref k
      obtain ⟨xs, hq, rfl, hs⟩ := sound_bracket (rl := .listElements) (X := .ref .value) (N := N) rfl rfl hX (by omega) k1
      refine fin (a := .tuple xs) (by simp only [Wf]; exact wfL_of hq) rfl ?_ (by simp only [toks, toksL_map]; exact hs)
      simp [tree, treeL_map]
    obtain ⟨m6, hm6, k | ⟨n6, k⟩⟩ := ok_alt k
    · obtain ⟨_, _, vs, k1, rfl⟩ := ok_ref k
      obtain ⟨xs, hq, rfl, hs⟩ := sound_bracket (rl := .listElements) (X := .ref .value) (N := N) rfl rfl hX (by omega) k1
      refine fin (a := .list xs) (by simp only [Wf]; exact wfL_of hq) rfl ?_ (by simp only [toks, toksL_map]; exact hs)
      simp [tree, treeL_map]
    obtain ⟨m7, hm7, k | ⟨n7, k⟩⟩ := ok_alt k
    · obtain ⟨_, _, vs, k1, rfl⟩ := ok_ref k
      obtain ⟨_, _, k | ⟨_, k⟩⟩ := ok_alt k1
      · obtain ⟨_, _, ws, k5, rfl⟩ := ok_ref k
        obtain ⟨_, _, k6 | ⟨_, k6⟩⟩ := ok_alt k5
        · obtain ⟨rfl, k3⟩ := ok_str k6
          exact fin (a := .set []) (by simp [Wf, WfL]) rfl (by simp only [tree]; rfl) (by simp only [toks]; exact spells_tok k3)
        obtain ⟨_, _, k7 | ⟨_, k7⟩⟩ := ok_alt k6
        · obtain ⟨rfl, k3⟩ := ok_str k7
          exact fin (a := .fset []) (by simp [Wf, WfL]) rfl (by simp only [tree]; rfl) (by simp only [toks]; exact spells_tok k3)
        exact (ok_never k7).elim
      obtain ⟨_, _, k | ⟨_, k⟩⟩ := ok_alt k
      · obtain ⟨_, _, ws, k5, rfl⟩ := ok_ref k
        obtain ⟨_, _, k6 | ⟨_, k6⟩⟩ := ok_alt k5
        · obtain ⟨xs, hne, hq, rfl, hs⟩ := sound_bracket1 (rl := .listElements) (X := .ref .value) (N := N) rfl rfl hX (by omega) k6
          have hemp : xs.isEmpty = false := by cases xs with | nil => exact absurd rfl hne | cons _ _ => rfl
          refine fin (a := .set xs) (by simp only [Wf]; exact wfL_of hq) rfl ?_ (by simp only [toks, toksL_map, hemp]; exact hs)
          simp only [tree, treeL_map, hemp]; rfl
        obtain ⟨_, _, k7 | ⟨_, k7⟩⟩ := ok_alt k6
        · obtain ⟨xs, hne, hq, rfl, hs⟩ := sound_bracket1 (rl := .listElements) (X := .ref .value) (N := N) rfl rfl hX (by omega) k7
          have hemp : xs.isEmpty = false := by cases xs with | nil => exact absurd rfl hne | cons _ _ => rfl
          refine fin (a := .fset xs) (by simp only [Wf]; exact wfL_of hq) rfl ?_ (by simp only [toks, toksL_map, hemp]; exact hs)
          simp only [tree, treeL_map, hemp]; rfl
        exact (ok_never k7).elim
      exact (ok_never k).elim
    obtain ⟨m8, hm8, k | ⟨n8, k⟩⟩ := ok_alt k
    · obtain ⟨_, _, vs, k1, rfl⟩ := ok_ref k
      obtain ⟨xs, hq, rfl, hs⟩ := sound_bracket (rl := .dictElements) (X := .ref .dictkv) (N := N) rfl rfl
        (fun hm hr => sound_dictkv hV (by omega) hr) (by omega) k1
      refine fin (a := .dict xs) (by simp only [Wf]; exact wfD_of hq) rfl ?_ (by simp only [toks, toksD_map]; exact hs)
      simp [tree, treeD_map]
    obtain ⟨m9, hm9, k | ⟨n9, k⟩⟩ := ok_alt k
    · obtain ⟨_, _, vs, k1, rfl⟩ := ok_ref k
      obtain ⟨_, _, t1, t2, s1, e1, e2, rfl⟩ := ok_cat k1
      obtain ⟨_, _, t3, t4, s2, e3, e4, rfl⟩ := ok_cat e2
      obtain ⟨_, _, t5, t6, s3, e5, e6, rfl⟩ := ok_cat e4
      obtain ⟨rfl, rfl⟩ := ok_emp e6
      obtain ⟨rfl, h5⟩ := ok_str e5
      obtain ⟨rfl, h1⟩ := ok_str e1
      obtain ⟨body, hb, rfl, hs⟩ := sound_string rfl e3
      refine fin (a := .cls body) (by simpa only [Wf] using hb) rfl (by simp [tree, tok]) ?_
      have := ((spells_tok h1).append hs).append (spells_tok h5)
      simpa [toks] using this
    obtain ⟨m10, hm10, k | ⟨n10, k⟩⟩ := ok_alt k
    · obtain ⟨o, nm, kvs, ho, hnm, hk, rfl, hs⟩ := sound_what (N := N) hV (by omega) k
      have hid : Ident (o.getD nm) := by cases o with | none => exact hnm | some x => exact ho x rfl
      obtain ⟨u, hu⟩ : ∃ u, skipWs s = o.getD nm ++ u := by
        cases o with
        | none => exact spells_start (by simpa [toks, outToks] using hs) (ident_ne hid) (ident_noWs hid)
        | some x => exact spells_start (by simpa [toks, outToks] using hs) (ident_ne hid) (ident_noWs hid)
      exact fin (a := .what o nm kvs) (by simp only [Wf]; exact ⟨ho, hnm, nestedStart_of hu n1 n2 n3, hk⟩) rfl (by simp [tree]) hs
    exact (ok_never k).elim

/-- Whatever the parser accepts is the spaced text of a well-formed id. -/
theorem sound_top (h : run newGrammar n b (.ref .whatamiIdTop) s = .ok ts r) :
    ∃ (o : Option Str) (nm : Str) (kvs : List (Str × Ast)) (p ws : Str), (∀ x, o = some x → Ident x) ∧ Ident nm ∧ WfA kvs ∧
      s = p ++ ws ∧ Padded (toks (.what o nm kvs)) p ∧ ws.all isWs = true ∧ ts = [topTree o nm kvs] := by
  obtain ⟨_, _, us, h1, rfl⟩ := ok_ref h
  obtain ⟨_, _, t1, t2, s1, e1, e2, rfl⟩ := ok_cat h1
  obtain ⟨_, _, t3, t4, s2, e3, e4, rfl⟩ := ok_cat e2
  obtain ⟨rfl, rfl⟩ := ok_emp e4
  obtain ⟨o, nm, kvs, ho, hnm, hk, rfl, p, rfl, hp⟩ := sound_what (soundBelow _) (Nat.le_refl _) e1
  obtain ⟨rfl, h3, rfl⟩ := ok_eof e3
  obtain ⟨ws, hw, e⟩ := skipWs_split s1
  rw [h3] at e
  refine ⟨o, nm, kvs, p, s1, ho, hnm, hk, rfl, hp, by rw [e]; simpa using hw, ?_⟩
  simp [ruleResult, newGrammar, seq, Peg.isMatch, topTree, tok]

end Whatami
