import Verif.QuoteScan

/-
Texts with their literals marked: the text alone tells which of its characters are in literals, whatever is in these.
Definitions here are vocabulary for statements and proofs: the code they are about is cited in the model modules.
-/
namespace Whatami

/-- Characters, each with whether it is in a literal. -/
abbrev MStr := List (Char × Bool)

/-- Text outside of literals. -/
def pl (s : Str) : MStr := s.map fun c => (c, false)
/-- Text in literals. -/
def ql (s : Str) : MStr := s.map fun c => (c, true)

/-- Commas in between. -/
def mjoin : List MStr → MStr
  | [] => []
  | [t] => t
  | t :: u :: ts => t ++ (',', false) :: mjoin (u :: ts)

/-- `out_name=`. -/
def outText : Option Str → Str
  | .none => []
  | some o => o ++ c!"="

mutual
/-- The marked text of a value. -/
def mtext : Ast → MStr
  | .none => pl c!"None"
  | .bool b => pl (if b then c!"True" else c!"False")
  | .num t => pl t
  | .str b => pl c!"'" ++ (ql b ++ pl c!"'")
  | .cls b => pl c!"<class '" ++ (ql b ++ pl c!"'>")
  | .tuple xs => pl c!"(" ++ (mjoin (mtextL xs) ++ pl c!")")
  | .list xs => pl c!"[" ++ (mjoin (mtextL xs) ++ pl c!"]")
  | .set xs => if xs.isEmpty then pl c!"set()" else pl c!"{" ++ (mjoin (mtextL xs) ++ pl c!"}")
  | .fset xs => if xs.isEmpty then pl c!"frozenset()" else pl c!"frozenset({" ++ (mjoin (mtextL xs) ++ pl c!"})")
  | .dict kvs => pl c!"{" ++ (mjoin (mtextD kvs) ++ pl c!"}")
  | .what o n kvs => pl (outText o) ++ (pl n ++ (pl c!"(" ++ (mjoin (mtextA kvs) ++ pl c!")")))
termination_by structural a => a
/-- Of the elements. -/
def mtextL : List Ast → List MStr
  | [] => []
  | x :: xs => mtext x :: mtextL xs
termination_by structural xs => xs
/-- Of the items. -/
def mtextD : List (Ast × Ast) → List MStr
  | [] => []
  | (k, v) :: xs => (mtext k ++ (pl c!":" ++ mtext v)) :: mtextD xs
termination_by structural xs => xs
/-- Of the parameters. -/
def mtextA : List (Str × Ast) → List MStr
  | [] => []
  | (k, v) :: xs => (pl k ++ (pl c!"=" ++ mtext v)) :: mtextA xs
termination_by structural xs => xs
end

theorem mtextL_map (xs : List Ast) : mtextL xs = xs.map mtext := by
  induction xs with | nil => rfl | cons x xs ih => simp only [mtextL, ih, List.map_cons]
theorem mtextD_map (xs : List (Ast × Ast)) : mtextD xs = xs.map fun x => mtext x.1 ++ (pl c!":" ++ mtext x.2) := by
  induction xs with | nil => rfl | cons x xs ih => obtain ⟨k, v⟩ := x; simp only [mtextD, ih, List.map_cons]
theorem mtextA_map (xs : List (Str × Ast)) : mtextA xs = xs.map fun x => pl x.1 ++ (pl c!"=" ++ mtext x.2) := by
  induction xs with | nil => rfl | cons x xs ih => obtain ⟨k, v⟩ := x; simp only [mtextA, ih, List.map_cons]

/-! ### The characters -/

/-- Without the marks. -/
def bare (l : MStr) : Str := l.map Prod.fst

theorem bare_append (l m : MStr) : bare (l ++ m) = bare l ++ bare m := List.map_append
theorem bare_pl (s : Str) : bare (pl s) = s := by simp [bare, pl, Function.comp_def]
theorem bare_ql (s : Str) : bare (ql s) = s := by simp [bare, ql, Function.comp_def]

theorem bare_mjoin {ms : List MStr} {ts : List (List Str)} (h : ms.map bare = ts.map List.flatten) : bare (mjoin ms) = (sepToks ts).flatten := by
  induction ms generalizing ts with
  | nil => cases ts with | nil => rfl | cons _ _ => cases h
  | cons m ms ih =>
    cases ts with
    | nil => cases h
    | cons t ts =>
      simp only [List.map_cons, List.cons.injEq] at h
      cases ms with
      | nil =>
        cases ts with
        | nil => exact h.1
        | cons _ _ => cases h.2
      | cons m' ms =>
        cases ts with
        | nil => cases h.2
        | cons t' ts =>
          simp only [mjoin, sepToks, bare_append, h.1, List.flatten_append, List.flatten_cons, ← ih h.2]
          rfl

theorem bare_out (o : Option Str) : (outToks o).flatten = outText o := by cases o <;> simp [outToks, outText]

mutual
theorem bare_mtext : ∀ a : Ast, bare (mtext a) = text a
  | .none => rfl
  | .bool b => by simp only [mtext, bare_pl, text, toks]; simp
  | .num t => by simp only [mtext, bare_pl, text, toks]; simp
  | .str b => by simp only [mtext, bare_append, bare_pl, bare_ql, text, toks]; simp
  | .cls b => by simp only [mtext, bare_append, bare_pl, bare_ql, text, toks]; simp
  | .tuple xs => by
      have := bare_mjoin (bare_mtextL xs)
      simp only [mtext, bare_append, bare_pl, text, toks, this]; simp
  | .list xs => by
      have := bare_mjoin (bare_mtextL xs)
      simp only [mtext, bare_append, bare_pl, text, toks, this]; simp
  | .set xs => by
      have := bare_mjoin (bare_mtextL xs)
      simp only [mtext, text, toks]
      split
      · simp only [bare_pl]; simp
      · simp only [bare_append, bare_pl, this]; simp
  | .fset xs => by
      have := bare_mjoin (bare_mtextL xs)
      simp only [mtext, text, toks]
      split
      · simp only [bare_pl]; simp
      · simp only [bare_append, bare_pl, this]; simp
  | .dict kvs => by
      have := bare_mjoin (bare_mtextD kvs)
      simp only [mtext, bare_append, bare_pl, text, toks, this]; simp
  | .what o n kvs => by
      have := bare_mjoin (bare_mtextA kvs)
      simp only [mtext, bare_append, bare_pl, text, toks, this]; simp [← bare_out]
termination_by structural a => a
theorem bare_mtextL : ∀ xs : List Ast, (mtextL xs).map bare = (toksL xs).map List.flatten
  | [] => rfl
  | x :: xs => by simp only [mtextL, toksL, List.map_cons, bare_mtext x, bare_mtextL xs]; rfl
termination_by structural xs => xs
theorem bare_mtextD : ∀ xs : List (Ast × Ast), (mtextD xs).map bare = (toksD xs).map List.flatten
  | [] => rfl
  | (k, v) :: xs => by
      have h1 := bare_mtext k
      have h2 := bare_mtext v
      simp only [mtextD, toksD, List.map_cons, bare_append, bare_pl, h1, h2, bare_mtextD xs]
      simp [text]
termination_by structural xs => xs
theorem bare_mtextA : ∀ xs : List (Str × Ast), (mtextA xs).map bare = (toksA xs).map List.flatten
  | [] => rfl
  | (k, v) :: xs => by
      have h2 := bare_mtext v
      simp only [mtextA, toksA, List.map_cons, bare_append, bare_pl, h2, bare_mtextA xs]
      simp [text]
termination_by structural xs => xs
end

/-! ### The marks -/

/-- Outside of literals, or in one (and whether after a backslash). -/
inductive TState where
  | out
  | inn (p : Bool)

/-- One character: no backslashes outside of literals, and quotes in literals come after one. -/
def tstep : TState → Char × Bool → Option TState
  | .out, (_, true) => none
  | .out, (c, false) => if c = '\\' then none else if c = '\'' then some (.inn false) else some .out
  | .inn p, (c, true) => if c = '\'' ∧ p = false then none else some (.inn (c == '\\'))
  | .inn _, (c, false) => if c = '\'' then some .out else none

/-- A text. -/
def trun : TState → MStr → Option TState
  | q, [] => some q
  | q, x :: l => (tstep q x).bind fun q' => trun q' l

theorem trun_append {q q' : TState} {l m : MStr} (h : trun q l = some q') : trun q (l ++ m) = trun q' m := by
  induction l generalizing q with
  | nil => cases h; rfl
  | cons x l ih =>
    simp only [List.cons_append, trun] at h ⊢
    cases hs : tstep q x with
    | none => rw [hs] at h; cases h
    | some s => rw [hs] at h; exact ih h

/-- From outside to outside. -/
def Balanced (l : MStr) : Prop := trun .out l = some .out

theorem balanced_append {l m : MStr} (h1 : Balanced l) (h2 : Balanced m) : Balanced (l ++ m) := by
  rw [Balanced, trun_append h1]; exact h2

theorem balanced_clean {s : Str} (h : Clean s) : Balanced (pl s) := by
  induction s with
  | nil => rfl
  | cons c s ih =>
    have := h c (by simp)
    show (tstep .out (c, false)).bind _ = _
    simp only [tstep, this.1, this.2, if_false]
    exact ih fun d hd => h d (by simp [hd])

theorem trun_ql {b : Str} {p : Bool} (h : QuotedFrom p b) : trun (.inn p) (ql b ++ pl c!"'") = some .out := by
  induction b generalizing p with
  | nil => rfl
  | cons c b ih =>
    obtain ⟨h1, h2⟩ := h
    show (tstep (.inn p) (c, true)).bind _ = _
    have : ¬ (c = '\'' ∧ p = false) := fun ⟨e, hp⟩ => by rw [h1 e] at hp; cases hp
    simp only [tstep, this, if_false]
    exact ih h2

theorem balanced_ql {b : Str} (h : QuotedFrom false b) : Balanced (pl c!"'" ++ (ql b ++ pl c!"'")) := trun_ql h

theorem balanced_mjoin {ms : List MStr} (h : ∀ m ∈ ms, Balanced m) : Balanced (mjoin ms) := by
  match ms with
  | [] => rfl
  | [m] => exact h m (by simp)
  | m :: m' :: ms =>
    refine balanced_append (h m (by simp)) ?_
    exact balanced_append (l := pl c!",") (balanced_clean (clean_of_all (by decide))) (balanced_mjoin (ms := m' :: ms) fun x hx => h x (by simp [hx]))
termination_by ms.length

theorem balanced_bracket {op cl : Str} {l : MStr} (h1 : Clean op) (h2 : Clean cl) (h : Balanced l) : Balanced (pl op ++ (l ++ pl cl)) :=
  balanced_append (balanced_clean h1) (balanced_append h (balanced_clean h2))

theorem clean_out {o : Option Str} (h : ∀ x, o = some x → Ident x) : Clean (outText o) := by
  cases o with
  | none => exact fun c hc => by cases hc
  | some x => exact clean_append (clean_ident (h x rfl)) (clean_of_all (by decide))

theorem quotedFrom_class {b : Str} (h : ClassName b) : QuotedFrom false b := by
  have : ∀ p, QuotedFrom p b := by
    induction b with
    | nil => exact fun _ => trivial
    | cons c b ih =>
      intro p
      exact ⟨fun e => absurd e (h c (by simp)).1, ih (fun d hd => h d (by simp [hd])) _⟩
  exact this false

mutual
theorem balanced_mtext : ∀ a : Ast, Loose a → Balanced (mtext a)
  | .none, _ => balanced_clean (clean_of_all (by decide))
  | .bool b, _ => by cases b <;> exact balanced_clean (clean_of_all (by decide))
  | .num t, h => balanced_clean (clean_num h)
  | .str b, h => balanced_ql (quotedFrom_false h)
  | .cls b, h => by
      have h1 := balanced_clean (s := c!"<class ") (clean_of_all (by decide))
      have h2 := balanced_clean (s := c!">") (clean_of_all (by decide))
      have := balanced_append h1 (balanced_append (balanced_ql (quotedFrom_class h)) h2)
      simpa [mtext, pl] using this
  | .tuple xs, h => balanced_bracket (clean_of_all (by decide)) (clean_of_all (by decide)) (balanced_mjoin (balanced_mtextL xs h))
  | .list xs, h => balanced_bracket (clean_of_all (by decide)) (clean_of_all (by decide)) (balanced_mjoin (balanced_mtextL xs h))
  | .set xs, h => by
      have := balanced_mjoin (balanced_mtextL xs h)
      simp only [mtext]
      split
      · exact balanced_clean (clean_of_all (by decide))
      · exact balanced_bracket (clean_of_all (by decide)) (clean_of_all (by decide)) this
  | .fset xs, h => by
      have := balanced_mjoin (balanced_mtextL xs h)
      simp only [mtext]
      split
      · exact balanced_clean (clean_of_all (by decide))
      · exact balanced_bracket (clean_of_all (by decide)) (clean_of_all (by decide)) this
  | .dict kvs, h => balanced_bracket (clean_of_all (by decide)) (clean_of_all (by decide)) (balanced_mjoin (balanced_mtextD kvs h))
  | .what o n kvs, h => balanced_append (balanced_clean (clean_out h.1)) (balanced_append (balanced_clean (clean_ident h.2.1))
      (balanced_bracket (clean_of_all (by decide)) (clean_of_all (by decide)) (balanced_mjoin (balanced_mtextA kvs h.2.2))))
termination_by structural a => a
theorem balanced_mtextL : ∀ xs : List Ast, LooseL xs → ∀ m ∈ mtextL xs, Balanced m
  | [], _, m, hm => by cases hm
  | x :: xs, h, m, hm => by
      have h1 := balanced_mtext x h.1
      have h2 := balanced_mtextL xs h.2
      rcases List.mem_cons.1 hm with e | hm
      · rw [e]; exact h1
      · exact h2 m hm
termination_by structural xs => xs
theorem balanced_mtextD : ∀ xs : List (Ast × Ast), LooseD xs → ∀ m ∈ mtextD xs, Balanced m
  | [], _, m, hm => by cases hm
  | (k, v) :: xs, h, m, hm => by
      have h0 := balanced_mtext k h.1
      have h1 := balanced_mtext v h.2.1
      have h2 := balanced_mtextD xs h.2.2
      rcases List.mem_cons.1 hm with e | hm
      · rw [e]; exact balanced_append h0 (balanced_append (balanced_clean (clean_of_all (by decide))) h1)
      · exact h2 m hm
termination_by structural xs => xs
theorem balanced_mtextA : ∀ xs : List (Str × Ast), LooseA xs → ∀ m ∈ mtextA xs, Balanced m
  | [], _, m, hm => by cases hm
  | (k, v) :: xs, h, m, hm => by
      have h0 := balanced_clean (clean_ident h.1)
      have h1 := balanced_mtext v h.2.1
      have h2 := balanced_mtextA xs h.2.2
      rcases List.mem_cons.1 hm with e | hm
      · rw [e]; exact balanced_append h0 (balanced_append (balanced_clean (clean_of_all (by decide))) h1)
      · exact h2 m hm
termination_by structural xs => xs
end

/-- Two markings of a text cannot be in and out of literals at the same place. -/
theorem out_of_step {l m : MStr} (e : bare l = bare m) (h1 : trun (.inn false) l = some .out) (h2 : trun .out m = some .out) : False := by
  match l, m with
  | [], _ => cases h1
  | x :: l, [] => cases e
  | (c, b) :: l, (c', b') :: m =>
    simp only [bare, List.map_cons, List.cons.injEq] at e
    obtain ⟨rfl, e⟩ := e
    simp only [trun] at h1 h2
    cases b' with
    | true => simp [tstep] at h2
    | false =>
      by_cases hb : c = '\\'
      · simp [tstep, hb] at h2
      · cases b with
        | true =>
          by_cases hq : c = '\''
          · simp [tstep, hq] at h1
          · have hb' : (c == '\\') = false := by simpa using hb
            simp only [tstep, hq, hb, hb', if_false, false_and, Option.bind_some] at h1 h2
            exact out_of_step e h1 h2
        | false =>
          by_cases hq : c = '\''
          · subst hq
            simp [tstep] at h1 h2
            exact out_of_step e.symm h2 h1
          · simp [tstep, hq] at h1
termination_by l.length + m.length
decreasing_by all_goals (simp only [List.length_cons]; omega)

theorem marks_of_run {q : TState} {l m : MStr} (e : bare l = bare m) (h1 : trun q l = some .out) (h2 : trun q m = some .out) : l = m := by
  induction l generalizing q m with
  | nil => cases m with | nil => rfl | cons _ _ => cases e
  | cons x l ih =>
    cases m with
    | nil => cases e
    | cons y m =>
      obtain ⟨c, b⟩ := x
      obtain ⟨c', b'⟩ := y
      simp only [bare, List.map_cons, List.cons.injEq] at e
      obtain ⟨rfl, e⟩ := e
      simp only [trun] at h1 h2
      by_cases hb : b = b'
      · subst hb
        cases hs : tstep q (c, b) with
        | none => rw [hs] at h1; cases h1
        | some s =>
          rw [hs] at h1 h2
          rw [ih e h1 h2]
      · exfalso
        cases q with
        | out => cases b <;> cases b' <;> simp [tstep] at h1 h2 hb
        | inn p =>
          by_cases hq : c = '\''
          · subst hq
            cases p with
            | false => cases b <;> cases b' <;> simp [tstep] at h1 h2 hb
            | true =>
              cases b <;> cases b' <;> simp [tstep] at h1 h2 hb
              · exact out_of_step e.symm h2 h1
              · exact out_of_step e h1 h2
          · cases b <;> cases b' <;> simp [tstep, hq] at h1 h2 hb

/-- The text tells the marks. -/
theorem mtext_of_text {a b : Ast} (ha : Loose a) (hb : Loose b) (e : text a = text b) : mtext a = mtext b :=
  marks_of_run (by rw [bare_mtext, bare_mtext, e]) (balanced_mtext a ha) (balanced_mtext b hb)

end Whatami
