import Verif.PegLemmas
import Verif.Ast

/-
Big-step rules for `run`, and what each kind of token does.
Definitions here are vocabulary for statements and proofs: the code they are about is cited in the model modules.
-/
namespace Whatami

/-- Parsing `e` at `s` has the outcome `o`. -/
def Ev (g : Rule → Peg) (b : Bool) (e : Peg) (s : Str) (o : Out) : Prop := o ≠ .timeout ∧ ∃ n, run g n b e s = o

variable {g : Rule → Peg} {b : Bool}

theorem Ev.at {e : Peg} {s : Str} {o : Out} (h : Ev g b e s o) : ∃ n, ∀ m, n ≤ m → run g m b e s = o := by
  obtain ⟨ho, n, hn⟩ := h
  exact ⟨n, fun m hm => by rw [run_mono_le hm (by rw [hn]; exact ho), hn]⟩

theorem Ev.det {e : Peg} {s : Str} {o o' : Out} (h : Ev g b e s o) (h' : Ev g b e s o') : o = o' := by
  obtain ⟨n, hn⟩ := h.at
  obtain ⟨m, hm⟩ := h'.at
  rw [← hn (max n m) (Nat.le_max_left _ _), ← hm (max n m) (Nat.le_max_right _ _)]

theorem Ev.emp (s : Str) : Ev g b .emp s (.ok [] s) := ⟨by simp, 1, rfl⟩
theorem Ev.never (s : Str) : Ev g b .never s .fail := ⟨by simp, 1, rfl⟩

theorem Ev.str {t s u : Str} (h : skipWs s = t ++ u) : Ev g b (.str t) s (.ok [.term none b t] u) := by
  refine ⟨by simp, 1, ?_⟩
  simp only [run, h, List.isPrefixOf_iff_prefix.2 (List.prefix_append t u), if_true, List.drop_left]

theorem Ev.strFail {t s : Str} (h : ¬ t <+: skipWs s) : Ev g b (.str t) s .fail := by
  refine ⟨by simp, 1, ?_⟩
  have : t.isPrefixOf (skipWs s) = false := by
    cases hb : t.isPrefixOf (skipWs s) with
    | false => rfl
    | true => exact absurd (List.isPrefixOf_iff_prefix.1 hb) h
  simp [run, this]

theorem Ev.rx {r : Rx} {s t u : Str} (h : r.scan (skipWs s) = some (t, u)) (hne : t ≠ []) :
    Ev g b (.rx r) s (.ok [.term none false t] u) := by
  refine ⟨by simp, 1, ?_⟩
  cases t with
  | nil => exact absurd rfl hne
  | cons c t => simp only [run, h]

theorem Ev.rxNil {r : Rx} {s u : Str} (h : r.scan (skipWs s) = some ([], u)) : Ev g b (.rx r) s (.ok [] u) :=
  ⟨by simp, 1, by simp only [run, h]⟩

theorem Ev.rxFail {r : Rx} {s : Str} (h : r.scan (skipWs s) = none) : Ev g b (.rx r) s .fail :=
  ⟨by simp, 1, by simp only [run, h]⟩

theorem Ev.eof {s : Str} (h : skipWs s = []) : Ev g b .eof s (.ok [.term none true []] []) :=
  ⟨by simp, 1, by simp only [run, h, if_true]⟩

theorem Ev.eofFail {s : Str} (h : skipWs s ≠ []) : Ev g b .eof s .fail := ⟨by simp, 1, by simp only [run, h, if_false]⟩

theorem Ev.cat {x y : Peg} {s s' s'' : Str} {ts us : List Tree} (h1 : Ev g true x s (.ok ts s')) (h2 : Ev g true y s' (.ok us s'')) :
    Ev g b (.cat x y) s (.ok (ts ++ us) s'') := by
  obtain ⟨n, hn⟩ := h1.at
  obtain ⟨m, hm⟩ := h2.at
  refine ⟨by simp, max n m + 1, ?_⟩
  simp only [run, hn (max n m) (Nat.le_max_left _ _), hm (max n m) (Nat.le_max_right _ _)]

theorem Ev.catFail {x y : Peg} {s : Str} (h1 : Ev g true x s .fail) : Ev g b (.cat x y) s .fail := by
  obtain ⟨n, hn⟩ := h1.at
  exact ⟨by simp, n + 1, by simp only [run, hn n (Nat.le_refl _)]⟩

theorem Ev.catFail2 {x y : Peg} {s s' : Str} {ts : List Tree} (h1 : Ev g true x s (.ok ts s')) (h2 : Ev g true y s' .fail) :
    Ev g b (.cat x y) s .fail := by
  obtain ⟨n, hn⟩ := h1.at
  obtain ⟨m, hm⟩ := h2.at
  refine ⟨by simp, max n m + 1, ?_⟩
  simp only [run, hn (max n m) (Nat.le_max_left _ _), hm (max n m) (Nat.le_max_right _ _)]

theorem Ev.alt {x y : Peg} {s s' : Str} {t : Tree} {ts : List Tree} (h : Ev g false x s (.ok (t :: ts) s')) :
    Ev g b (.alt x y) s (.ok (t :: ts) s') := by
  obtain ⟨n, hn⟩ := h.at
  exact ⟨by simp, n + 1, by simp only [run, hn n (Nat.le_refl _)]⟩

theorem Ev.altNext {x y : Peg} {s : Str} {o : Out} (h1 : Ev g false x s .fail) (h2 : Ev g false y s o) : Ev g b (.alt x y) s o := by
  obtain ⟨n, hn⟩ := h1.at
  obtain ⟨m, hm⟩ := h2.at
  refine ⟨h2.1, max n m + 1, ?_⟩
  simp only [run, hn (max n m) (Nat.le_max_left _ _), hm (max n m) (Nat.le_max_right _ _)]

theorem Ev.opt {x : Peg} {s s' : Str} {ts : List Tree} (h : Ev g false x s (.ok ts s')) : Ev g b (.opt x) s (.ok ts s') := by
  obtain ⟨n, hn⟩ := h.at
  exact ⟨by simp, n + 1, by simp only [run, hn n (Nat.le_refl _)]⟩

theorem Ev.optNone {x : Peg} {s : Str} (h : Ev g false x s .fail) : Ev g b (.opt x) s (.ok [] s) := by
  obtain ⟨n, hn⟩ := h.at
  exact ⟨by simp, n + 1, by simp only [run, hn n (Nat.le_refl _)]⟩

theorem Ev.starEnd {x : Peg} {s : Str} (h : Ev g false x s .fail) : Ev g b (.star x) s (.ok [] s) := by
  obtain ⟨n, hn⟩ := h.at
  exact ⟨by simp, n + 1, by simp only [run, hn n (Nat.le_refl _)]⟩

theorem Ev.star {x : Peg} {s s' s'' : Str} {t : Tree} {ts us : List Tree} (h1 : Ev g false x s (.ok (t :: ts) s'))
    (h2 : Ev g false (.star x) s' (.ok us s'')) : Ev g b (.star x) s (.ok (t :: ts ++ us) s'') := by
  obtain ⟨n, hn⟩ := h1.at
  obtain ⟨m, hm⟩ := h2.at
  refine ⟨by simp, max n m + 1, ?_⟩
  simp only [run, hn (max n m) (Nat.le_max_left _ _), hm (max n m) (Nat.le_max_right _ _)]

theorem Ev.ref {r : Rule} {s s' : Str} {ts : List Tree} (h : Ev g b (g r) s (.ok ts s')) :
    Ev g b (.ref r) s (.ok (ruleResult r (g r) ts) s') := by
  obtain ⟨n, hn⟩ := h.at
  exact ⟨by simp, n + 1, by simp only [run, hn n (Nat.le_refl _)]⟩

theorem Ev.refFail {r : Rule} {s : Str} (h : Ev g b (g r) s .fail) : Ev g b (.ref r) s .fail := by
  obtain ⟨n, hn⟩ := h.at
  exact ⟨by simp, n + 1, by simp only [run, hn n (Nat.le_refl _)]⟩

/-! ### Whitespace and tokens -/

/-- The input does not start with whitespace. -/
def NoWs (s : Str) : Prop := ∀ c r, s = c :: r → isWs c = false

theorem skipWs_noWs {s : Str} (h : NoWs s) : skipWs s = s := by
  cases s with
  | nil => rfl
  | cons c r => simp [skipWs, List.dropWhile, h c r rfl]

theorem skipWs_pad {ws s : Str} (hw : ws.all isWs = true) (h : NoWs s) : skipWs (ws ++ s) = s := by
  induction ws with
  | nil => exact skipWs_noWs h
  | cons c ws ih =>
    simp only [List.all_cons, Bool.and_eq_true] at hw
    simp only [skipWs, List.cons_append, List.dropWhile, hw.1]
    exact ih hw.2

theorem noWs_cons {c : Char} {r : Str} (h : isWs c = false) : NoWs (c :: r) := fun _ _ e => by cases e; exact h

theorem noWs_append {s t : Str} (hs : s ≠ []) (h : NoWs s) : NoWs (s ++ t) := by
  cases s with
  | nil => exact absurd rfl hs
  | cons c r => exact noWs_cons (h c r rfl)

theorem padded_cons_iff {t : Str} {ts : List Str} {s : Str} :
    Padded (t :: ts) s ↔ ∃ ws s', ws.all isWs = true ∧ s = ws ++ (t ++ s') ∧ Padded ts s' := by
  constructor
  · intro h
    cases h with
    | cons hw h => exact ⟨_, _, hw, rfl, h⟩
  · rintro ⟨ws, s', hw, rfl, h⟩
    exact .cons hw h

theorem padded_append {ts us : List Str} {s : Str} (h : Padded (ts ++ us) s) :
    ∃ s1 s2, s = s1 ++ s2 ∧ Padded ts s1 ∧ Padded us s2 := by
  induction ts generalizing s with
  | nil => exact ⟨[], s, rfl, .nil, h⟩
  | cons t ts ih =>
    obtain ⟨ws, s', hw, rfl, h'⟩ := padded_cons_iff.1 h
    obtain ⟨s1, s2, rfl, h1, h2⟩ := ih h'
    exact ⟨ws ++ (t ++ s1), s2, by simp, .cons hw h1, h2⟩

theorem padded_flatten (ts : List Str) : Padded ts ts.flatten := by
  induction ts with
  | nil => exact .nil
  | cons t ts ih => exact Padded.cons (ws := []) rfl ih

theorem isIdStart_noWs {c : Char} (h : isIdStart c = true) : isWs c = false := by
  cases hw : isWs c with
  | false => rfl
  | true =>
    simp only [isWs, Bool.or_eq_true, beq_iff_eq] at hw
    rcases hw with ((rfl | rfl) | rfl) | rfl <;> exact absurd h (by decide)

theorem isDig_noWs {c : Char} (h : isDig c = true) : isWs c = false := by
  cases hw : isWs c with
  | false => rfl
  | true =>
    simp only [isWs, Bool.or_eq_true, beq_iff_eq] at hw
    rcases hw with ((rfl | rfl) | rfl) | rfl <;> exact absurd h (by decide)

theorem takeWhile_all {p : Char → Bool} {s r : Str} (hs : s.all p = true) (hr : ∀ c u, r = c :: u → p c = false) :
    (s ++ r).takeWhile p = s ∧ (s ++ r).dropWhile p = r := by
  induction s with
  | nil =>
    cases r with
    | nil => exact ⟨rfl, rfl⟩
    | cons c u => simp [hr c u rfl]
  | cons c s ih =>
    simp only [List.all_cons, Bool.and_eq_true] at hs
    simp [hs.1, ih hs.2]

/-- Characters that can follow a name or a value. -/
def EndsToken (r : Str) : Prop := ∀ c u, r = c :: u → isIdChar c = false

theorem scan_ident {s r : Str} (hs : Ident s) (hr : EndsToken r) : Rx.ident.scan (s ++ r) = some (s, r) := by
  obtain ⟨c, u, rfl, hc, hu⟩ := hs
  obtain ⟨h1, h2⟩ := takeWhile_all (r := r) hu hr
  simp only [List.cons_append, Rx.scan, hc, if_true, h1, h2]

theorem ident_noWs {s : Str} (hs : Ident s) : NoWs s := by
  obtain ⟨c, u, rfl, hc, _⟩ := hs
  exact noWs_cons (isIdStart_noWs hc)

theorem ident_ne {s : Str} (hs : Ident s) : s ≠ [] := by
  obtain ⟨c, u, rfl, _⟩ := hs; simp

/-! ### Numbers -/

/-- Characters that can follow a number. -/
def EndsNum (r : Str) : Prop := ∀ c u, r = c :: u → isDig c = false ∧ c ≠ '.' ∧ c ≠ 'e' ∧ c ≠ 'E'

theorem scanExp_none {r : Str} (hr : EndsNum r) : scanExp r = ([], r) := by
  cases r with
  | nil => rfl
  | cons c u =>
    have := hr c u rfl
    simp [scanExp, this]

theorem digits_cons {s : Str} (h : Digits s) : ∃ c u, s = c :: u ∧ isDig c = true ∧ u.all isDig = true := by
  cases s with
  | nil => exact absurd rfl h.1
  | cons c u =>
    have := h.2
    simp only [List.all_cons, Bool.and_eq_true] at this
    exact ⟨c, u, rfl, this⟩

theorem scanExp_some {c : Char} {sg e r : Str} (hc : c = 'e' ∨ c = 'E') (hs : sg = [] ∨ sg = ['+'] ∨ sg = ['-']) (he : Digits e)
    (hr : ∀ c u, r = c :: u → isDig c = false) : scanExp (c :: (sg ++ e) ++ r) = (c :: (sg ++ e), r) := by
  obtain ⟨h1, h2⟩ := takeWhile_all (r := r) he.2 hr
  obtain ⟨d, u, rfl, hd, hu⟩ := digits_cons he
  rcases hs with rfl | rfl | rfl
  · have hd1 : ¬ (d = '+' ∨ d = '-') := by rintro (rfl | rfl) <;> exact absurd hd (by decide)
    simp only [List.nil_append, List.cons_append] at h1 h2 ⊢
    simp only [scanExp, hc, if_true, hd1, if_false, h1, h2]
  · simp only [List.cons_append, List.nil_append] at h1 h2 ⊢
    simp [scanExp, hc, h1, h2]
  · simp only [List.cons_append, List.nil_append] at h1 h2 ⊢
    simp [scanExp, hc, h1, h2]

theorem scanUnsigned_ok {ds fr ex r : Str} (hd : Digits ds) (hf : fr = [] ∨ ∃ f, fr = '.' :: f ∧ f.all isDig = true)
    (he : ex = [] ∨ ∃ c sg e, ex = c :: (sg ++ e) ∧ (c = 'e' ∨ c = 'E') ∧ (sg = [] ∨ sg = ['+'] ∨ sg = ['-']) ∧ Digits e)
    (hr : EndsNum r) : scanUnsigned (ds ++ fr ++ ex ++ r) = some (ds ++ fr ++ ex, r) := by
  have hexp : scanExp (ex ++ r) = (ex, r) := by
    rcases he with rfl | ⟨c, sg, e, rfl, hc, hs, hdig⟩
    · exact scanExp_none hr
    · exact scanExp_some hc hs hdig fun c u e => (hr c u e).1
  have hnd : ∀ c u, ex ++ r = c :: u → isDig c = false ∧ c ≠ '.' := by
    intro c u e
    rcases he with rfl | ⟨c', sg, e', rfl, hc, _⟩
    · exact ⟨(hr c u e).1, (hr c u e).2.1⟩
    · simp only [List.cons_append, List.cons.injEq] at e
      obtain ⟨rfl, _⟩ := e
      rcases hc with rfl | rfl <;> decide
  have hfrac : scanFrac (fr ++ (ex ++ r)) = (fr, ex ++ r) := by
    rcases hf with rfl | ⟨f, rfl, hf⟩
    · simp only [List.nil_append]
      cases hx : ex ++ r with
      | nil => rfl
      | cons c u =>
        have := (hnd c u hx).2
        simp [scanFrac, this]
    · obtain ⟨h1, h2⟩ := takeWhile_all (r := ex ++ r) hf fun c u e => (hnd c u e).1
      simp [scanFrac, h1, h2]
  have hnd2 : ∀ c u, fr ++ (ex ++ r) = c :: u → isDig c = false := by
    intro c u e
    rcases hf with rfl | ⟨f, rfl, hf⟩
    · exact (hnd c u e).1
    · simp only [List.cons_append, List.cons.injEq] at e
      obtain ⟨rfl, _⟩ := e
      decide
  obtain ⟨h1, h2⟩ := takeWhile_all (r := fr ++ (ex ++ r)) hd.2 hnd2
  obtain ⟨d, u, rfl, hdd, hu⟩ := digits_cons hd
  simp only [List.append_assoc]
  simp only [scanUnsigned, h1, h2, hfrac, hexp]
  simp

/-- Every well-shaped number is read as one, up to where it ends. -/
theorem scanNumber_ok {neg : Bool} {ds fr ex r : Str} (hd : Digits ds) (hf : fr = [] ∨ ∃ f, fr = '.' :: f ∧ f.all isDig = true)
    (he : ex = [] ∨ ∃ c sg e, ex = c :: (sg ++ e) ∧ (c = 'e' ∨ c = 'E') ∧ (sg = [] ∨ sg = ['+'] ∨ sg = ['-']) ∧ Digits e)
    (hr : EndsNum r) :
    scanNumber ((if neg then ['-'] else []) ++ ds ++ fr ++ ex ++ r) = some ((if neg then ['-'] else []) ++ ds ++ fr ++ ex, r) := by
  have h := scanUnsigned_ok hd hf he hr
  cases neg with
  | true =>
    simp only [if_true, List.cons_append, List.nil_append]
    simp only [scanNumber, if_true, h]
  | false =>
    obtain ⟨d, u, rfl, hdd, hu⟩ := digits_cons hd
    have hd1 : d ≠ '-' := by rintro rfl; exact absurd hdd (by decide)
    simp only [Bool.false_eq_true, if_false, List.nil_append, List.cons_append] at h ⊢
    simp only [scanNumber, hd1, if_false, h]

/-! ### String literals -/

theorem scanBody_ok {b : Str} (h : Units b) (r : Str) : scanBody (b ++ '\'' :: r) = (b, '\'' :: r) := by
  induction h with
  | nil => rw [List.nil_append, scanBody.eq_def]; simp
  | char h1 h2 _ ih => rw [List.cons_append, scanBody.eq_def]; simp [h1, h2, ih]
  | esc h1 _ ih => rw [List.cons_append, List.cons_append, scanBody.eq_def]; simp [h1, ih]
  | backslashNl hu ih =>
    rw [List.cons_append, List.cons_append, scanBody.eq_def]
    simp only [if_true]
    rw [scanBody.eq_def]
    simp [ih]

end Whatami
