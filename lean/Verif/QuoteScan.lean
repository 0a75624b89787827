import Verif.ParseExact
import Verif.Spec.Legible
import Verif.Spec.Text

/-
Where string literals begin and end: a scanner for quotes and backslashes.  The texts of well-formed syntax leave it outside of literals; texts
with a literal that is not made of units never do.
Definitions here are vocabulary for statements and proofs: the code they are about is cited in the model modules.
-/
namespace Whatami

/-- Outside of literals, in one, in one after a backslash, and lost (a backslash outside of literals). -/
inductive QState where
  | out
  | inn
  | esc
  | err
deriving DecidableEq

/-- One character. -/
def qstep : QState → Char → QState
  | .out, c => if c = '\'' then .inn else if c = '\\' then .err else .out
  | .inn, c => if c = '\'' then .out else if c = '\\' then .esc else .inn
  | .esc, _ => .inn
  | .err, _ => .err

/-- A text. -/
def qscan (q : QState) (s : Str) : QState := s.foldl qstep q

theorem qscan_append (q : QState) (s t : Str) : qscan q (s ++ t) = qscan (qscan q s) t := List.foldl_append
theorem qscan_cons (q : QState) (c : Char) (t : Str) : qscan q (c :: t) = qscan (qstep q c) t := rfl

/-- Not where a text can end. -/
def Lost (q : QState) : Prop := q = .inn ∨ q = .err

theorem qscan_err (s : Str) : qscan .err s = .err := by
  induction s with
  | nil => rfl
  | cons c s ih => rw [qscan_cons]; exact ih

/-- No quotes and no backslashes. -/
def Clean (t : Str) : Prop := ∀ c ∈ t, c ≠ '\'' ∧ c ≠ '\\'

theorem qscan_clean {t : Str} (h : Clean t) : qscan .out t = .out ∧ qscan .inn t = .inn := by
  induction t with
  | nil => exact ⟨rfl, rfl⟩
  | cons c t ih =>
    have hc := h c (by simp)
    have := ih fun d hd => h d (by simp [hd])
    simp only [qscan_cons, qstep, hc.1, hc.2, if_false]
    exact this

theorem clean_ws {t : Str} (h : t.all isWs = true) : Clean t := by
  intro c hc
  have := List.all_eq_true.1 h c hc
  rcases ws_cases this with rfl | rfl | rfl | rfl <;> decide

theorem idChar_clean {c : Char} (h : isIdChar c = true) : c ≠ '\'' ∧ c ≠ '\\' := by
  constructor <;> rintro rfl <;> exact absurd h (by decide)

theorem clean_ident {t : Str} (h : Ident t) : Clean t := fun c hc => idChar_clean (List.all_eq_true.1 (ident_all h) c hc)

theorem clean_append {s t : Str} (hs : Clean s) (ht : Clean t) : Clean (s ++ t) := fun c hc => by
  rcases List.mem_append.1 hc with h | h
  · exact hs c h
  · exact ht c h

theorem clean_dig {t : Str} (h : t.all isDig = true) : Clean t := fun c hc => by
  have := List.all_eq_true.1 h c hc
  constructor <;> rintro rfl <;> exact absurd this (by decide)

theorem clean_num {t : Str} (h : NumShape t) : Clean t := by
  cases h with
  | @digits neg ds fr ex hd hf he =>
    refine clean_append (clean_append (clean_append ?_ (clean_dig hd.2)) ?_) ?_
    · cases neg <;> simp [Clean]
    · rcases hf with rfl | ⟨f, rfl, hf⟩
      · simp [Clean]
      · exact clean_append (s := ['.']) (by simp [Clean]) (clean_dig hf)
    · rcases he with rfl | ⟨c, sg, e, rfl, hc, hs, he⟩
      · simp [Clean]
      · refine clean_append (s := [c]) ?_ (clean_append ?_ (clean_dig he.2))
        · rcases hc with rfl | rfl <;> simp [Clean]
        · rcases hs with rfl | rfl | rfl <;> simp [Clean]
  | inf => simp [Clean]
  | minusInf => simp [Clean]
  | nan => simp [Clean]

/-! ### Literals -/

theorem qscan_units {b : Str} (h : Units b) : qscan .inn b = .inn := by
  induction h with
  | nil => rfl
  | char h1 h2 _ ih => simp only [qscan_cons, qstep, h1, h2, if_false]; exact ih
  | esc _ _ ih => simp only [qscan_cons, qstep]; exact ih
  | backslashNl _ ih => simp only [qscan_cons, qstep]; exact ih

/-- Every quote but (if `p`) one in front has a backslash before it. -/
def QuotedFrom : Bool → Str → Prop
  | _, [] => True
  | p, c :: r => (c = '\'' → p = true) ∧ QuotedFrom (c == '\\') r

theorem quotedFrom_of {p : Bool} {l b : Str} (h : QuotesEscaped (l ++ b)) (hp : p = true ↔ ∃ l', l = l' ++ ['\\']) : QuotedFrom p b := by
  induction b generalizing l p with
  | nil => exact trivial
  | cons c r ih =>
    refine ⟨fun hc => ?_, ?_⟩
    · subst hc
      exact hp.2 (h l r rfl)
    · refine ih (l := l ++ [c]) (by simpa using h) ?_
      simp only [beq_iff_eq]
      constructor
      · rintro rfl; exact ⟨l, rfl⟩
      · rintro ⟨l', e⟩
        have := congrArg List.getLast? e
        simpa using this

theorem quotedFrom_false {b : Str} (h : QuotesEscaped b) : QuotedFrom false b := by
  refine quotedFrom_of (l := []) h ?_
  simp

/-- From outside. -/
theorem qscan_out_body {b : Str} (h : QuotedFrom false b) : Lost (qscan .out (b ++ ['\''])) := by
  induction b with
  | nil => exact .inl rfl
  | cons c r ih =>
    obtain ⟨h1, h2⟩ := h
    have hc : c ≠ '\'' := fun e => by cases h1 e
    rw [List.cons_append, qscan_cons]
    by_cases hb : c = '\\'
    · simp only [qstep, hb]
      exact .inr (qscan_err _)
    · simp only [qstep, hc, hb, if_false]
      have e : (c == '\\') = false := by simpa using hb
      rw [e] at h2
      exact ih h2

theorem qscan_body {b : Str} : (∀ p, QuotedFrom p b → qscan .inn (b ++ ['\'']) = .out ∧ Units b ∨ Lost (qscan .inn (b ++ ['\''])) ∧ ¬ Units b) ∧
    (QuotedFrom true b → qscan .esc (b ++ ['\'']) = .out ∧ Units ('\\' :: b) ∨ Lost (qscan .esc (b ++ ['\''])) ∧ ¬ Units ('\\' :: b)) := by
  induction b with
  | nil =>
    refine ⟨fun p _ => .inl ⟨rfl, .nil⟩, fun _ => .inr ⟨.inl rfl, ?_⟩⟩
    intro h
    cases h with
    | char _ h _ => exact h rfl
  | cons c r ih =>
    refine ⟨fun p h => ?_, fun h => ?_⟩
    · obtain ⟨-, h2⟩ := h
      rw [List.cons_append, qscan_cons]
      by_cases hq : c = '\''
      · subst hq
        refine .inr ⟨qscan_out_body h2, ?_⟩
        intro h
        cases h with
        | char h _ _ => exact h rfl
      · by_cases hb : c = '\\'
        · subst hb
          exact ih.2 h2
        · simp only [qstep, hq, hb, if_false]
          rcases ih.1 _ h2 with ⟨e, u⟩ | ⟨e, u⟩
          · exact .inl ⟨e, .char hq hb u⟩
          · refine .inr ⟨e, fun h => ?_⟩
            cases h with
            | char _ _ h => exact u h
            | esc _ _ => exact hb rfl
            | backslashNl _ => exact hb rfl
    · obtain ⟨-, h2⟩ := h
      rw [List.cons_append, qscan_cons]
      simp only [qstep]
      rcases ih.1 _ h2 with ⟨e, u⟩ | ⟨e, u⟩
      · refine .inl ⟨e, ?_⟩
        by_cases hn : c = '\n'
        · subst hn; exact .backslashNl u
        · exact .esc hn u
      · refine .inr ⟨e, fun h => ?_⟩
        cases h with
        | char _ h _ => exact h rfl
        | esc _ h => exact u h
        | backslashNl h => exact u h

/-! ### Texts of well-formed syntax -/

/-- Whatever whitespace there is before the tokens, they leave the scanner where it was. -/
def Neutral (ts : List Str) : Prop := ∀ s, Padded ts s → qscan .out s = .out

theorem neutral_nil : Neutral [] := by intro s h; cases h; rfl

theorem neutral_append {ts us : List Str} (h1 : Neutral ts) (h2 : Neutral us) : Neutral (ts ++ us) := by
  intro s h
  obtain ⟨s1, s2, rfl, a, b⟩ := padded_append h
  rw [qscan_append, h1 _ a, h2 _ b]

theorem neutral_clean {t : Str} (h : Clean t) : Neutral [t] := by
  intro s hp
  obtain ⟨ws, s1, hw, rfl, h1⟩ := padded_cons_iff.1 hp
  cases h1
  exact (qscan_clean (clean_append (clean_ws hw) (clean_append h (by simp [Clean])))).1

theorem neutral_cons {t : Str} {ts : List Str} (h : Clean t) (h2 : Neutral ts) : Neutral (t :: ts) := neutral_append (neutral_clean h) h2

theorem neutral_str {b : Str} (h : Units b) : Neutral [c!"'", b ++ c!"'"] := by
  intro s hp
  obtain ⟨ws, s1, hw, rfl, h1⟩ := padded_cons_iff.1 hp
  obtain ⟨ws1, s2, hw1, rfl, h2⟩ := padded_cons_iff.1 h1
  cases h2
  simp only [qscan_append, (qscan_clean (clean_ws hw)).1]
  have : qscan .out c!"'" = .inn := rfl
  simp only [this, (qscan_clean (clean_ws hw1)).2, qscan_units h]
  rfl

theorem neutral_sep {tss : List (List Str)} (h : ∀ ts ∈ tss, Neutral ts) : Neutral (sepToks tss) := by
  cases tss with
  | nil => exact neutral_nil
  | cons t tss =>
    rw [sepToks_cons]
    refine neutral_append (h t (by simp)) ?_
    have : ∀ tss : List (List Str), (∀ ts ∈ tss, Neutral ts) → Neutral (starToks tss) := by
      intro tss
      induction tss with
      | nil => intro _; exact neutral_nil
      | cons u us ih =>
        intro h
        exact neutral_cons (by simp [Clean]) (neutral_append (h u (by simp)) (ih fun ts hm => h ts (by simp [hm])))
    exact this tss fun ts hm => h ts (by simp [hm])

theorem neutral_bracket {op cl : Str} {ts : List Str} (h1 : Clean op) (h2 : Clean cl) (h : Neutral ts) : Neutral (op :: ts ++ [cl]) :=
  neutral_append (neutral_cons h1 h) (neutral_clean h2)

theorem neutral_out {o : Option Str} (h : ∀ x, o = some x → Ident x) : Neutral (outToks o) := by
  cases o with
  | none => exact neutral_nil
  | some x => exact neutral_cons (clean_ident (h x rfl)) (neutral_clean (by simp [Clean]))

theorem neutral_call {o : Option Str} {n : Str} {tss : List (List Str)} (ho : ∀ x, o = some x → Ident x) (hn : Ident n)
    (h : ∀ ts ∈ tss, Neutral ts) : Neutral (outToks o ++ n :: c!"(" :: sepToks tss ++ [c!")"]) := by
  have := neutral_append (neutral_out ho) (neutral_cons (clean_ident hn) (neutral_bracket (op := c!"(") (cl := c!")") (by simp [Clean]) (by simp [Clean]) (neutral_sep h)))
  simpa using this

theorem clean_of_all {t : Str} (h : t.all (fun c => !(c == '\'') && !(c == '\\')) = true) : Clean t := by
  intro c hc
  have := List.all_eq_true.1 h c hc
  simpa using this

mutual
theorem neutral_spelt : ∀ (a : Ast) (tk : List Str), Wf a → Spelt a tk → Neutral tk
  | .none, tk, _, h => by
      simp only [Spelt, toks] at h; subst h; exact neutral_clean (clean_of_all (by decide))
  | .bool b, tk, _, h => by
      simp only [Spelt, toks] at h; subst h; cases b <;> exact neutral_clean (clean_of_all (by decide))
  | .num t, tk, hw, h => by
      simp only [Wf] at hw
      simp only [Spelt, toks] at h; subst h; exact neutral_clean (clean_num hw)
  | .str b, tk, hw, h => by
      simp only [Wf] at hw
      simp only [Spelt, toks] at h; subst h; exact neutral_str hw.1
  | .cls b, tk, hw, h => by
      simp only [Wf] at hw
      simp only [Spelt, toks] at h; subst h
      exact neutral_cons (clean_of_all (by decide)) (neutral_append (neutral_str hw.1) (neutral_clean (clean_of_all (by decide))))
  | .tuple xs, tk, hw, h => by
      simp only [Wf] at hw
      simp only [Spelt] at h
      obtain ⟨tss, h1, rfl⟩ := h
      exact neutral_bracket (clean_of_all (by decide)) (clean_of_all (by decide)) (neutral_sep (neutral_speltL xs tss hw h1))
  | .list xs, tk, hw, h => by
      simp only [Wf] at hw
      simp only [Spelt] at h
      obtain ⟨tss, h1, rfl⟩ := h
      exact neutral_bracket (clean_of_all (by decide)) (clean_of_all (by decide)) (neutral_sep (neutral_speltL xs tss hw h1))
  | .set xs, tk, hw, h => by
      simp only [Wf] at hw
      simp only [Spelt] at h
      obtain ⟨tss, h1, rfl⟩ := h
      have := neutral_sep (neutral_speltL xs tss hw h1)
      split
      · exact neutral_clean (clean_of_all (by decide))
      · exact neutral_bracket (clean_of_all (by decide)) (clean_of_all (by decide)) this
  | .fset xs, tk, hw, h => by
      simp only [Wf] at hw
      simp only [Spelt] at h
      obtain ⟨tss, h1, rfl⟩ := h
      have := neutral_sep (neutral_speltL xs tss hw h1)
      split
      · exact neutral_clean (clean_of_all (by decide))
      · exact neutral_bracket (clean_of_all (by decide)) (clean_of_all (by decide)) this
  | .dict kvs, tk, hw, h => by
      simp only [Wf] at hw
      simp only [Spelt] at h
      obtain ⟨tss, h1, rfl⟩ := h
      exact neutral_bracket (clean_of_all (by decide)) (clean_of_all (by decide)) (neutral_sep (neutral_speltD kvs tss hw h1))
  | .what o n kvs, tk, hw, h => by
      simp only [Wf] at hw
      simp only [Spelt] at h
      obtain ⟨tss, h1, ⟨-, rfl⟩ | ⟨-, c, hc, rfl | rfl⟩⟩ := h
      · exact neutral_call hw.1 hw.2.1 (neutral_speltA kvs tss hw.2.2.2 h1)
      · exact neutral_cons (clean_append (clean_ident hw.2.1) (clean_ws (by simpa using hc)))
          (neutral_cons (clean_of_all (by decide)) (neutral_clean (clean_of_all (by decide))))
      · exact neutral_cons (clean_ident hw.2.1) (neutral_cons (clean_append (s := ['(']) (clean_of_all (by decide)) (clean_ws (by simpa using hc)))
          (neutral_clean (clean_of_all (by decide))))
termination_by structural a => a
theorem neutral_speltL : ∀ (xs : List Ast) (tss : List (List Str)), WfL xs → SpeltL xs tss → ∀ ts ∈ tss, Neutral ts
  | [], tss, _, h => by simp only [SpeltL] at h; subst h; intro ts hm; cases hm
  | x :: xs, tss, hw, h => by
      simp only [WfL] at hw
      simp only [SpeltL] at h
      obtain ⟨t, us, h1, h2, rfl⟩ := h
      have a := neutral_spelt x t hw.1 h1
      have b := neutral_speltL xs us hw.2 h2
      intro ts hm
      rcases List.mem_cons.1 hm with rfl | hm
      · exact a
      · exact b ts hm
termination_by structural xs => xs
theorem neutral_speltD : ∀ (xs : List (Ast × Ast)) (tss : List (List Str)), WfD xs → SpeltD xs tss → ∀ ts ∈ tss, Neutral ts
  | [], tss, _, h => by simp only [SpeltD] at h; subst h; intro ts hm; cases hm
  | (k, v) :: xs, tss, hw, h => by
      simp only [WfD] at hw
      simp only [SpeltD] at h
      obtain ⟨t, u, us, h1, h1', h2, rfl⟩ := h
      have a := neutral_spelt k t hw.1 h1
      have a' := neutral_spelt v u hw.2.1 h1'
      have b := neutral_speltD xs us hw.2.2 h2
      intro ts hm
      rcases List.mem_cons.1 hm with rfl | hm
      · exact neutral_append a (neutral_cons (clean_of_all (by decide)) a')
      · exact b ts hm
termination_by structural xs => xs
theorem neutral_speltA : ∀ (xs : List (Str × Ast)) (tss : List (List Str)), WfA xs → SpeltA xs tss → ∀ ts ∈ tss, Neutral ts
  | [], tss, _, h => by simp only [SpeltA] at h; subst h; intro ts hm; cases hm
  | (k, v) :: xs, tss, hw, h => by
      simp only [WfA] at hw
      simp only [SpeltA] at h
      obtain ⟨t, us, h1, h2, rfl⟩ := h
      have a := neutral_spelt v t hw.2.1 h1
      have b := neutral_speltA xs us hw.2.2 h2
      intro ts hm
      rcases List.mem_cons.1 hm with rfl | hm
      · exact neutral_cons (clean_ident hw.1) (neutral_cons (clean_of_all (by decide)) a)
      · exact b ts hm
termination_by structural xs => xs
end

/-- A text on which the scanner does not end outside of literals is refused. -/
theorem refused_of_scan {E : Env} {s : Str} (h : qscan .out s ≠ .out) : parseWhatid E s = .error .noMatch := by
  rcases parse_spelt_cases (E := E) s with h' | ⟨o, n, kvs, ⟨ho, hn, hk⟩, tss, p, ws, h1, h2, h3, rfl⟩
  · exact h'
  · refine absurd ?_ h
    rw [qscan_append, neutral_call ho hn (neutral_speltA kvs tss hk h1) p h2]
    exact (qscan_clean (clean_ws h3)).1

/-! ### Texts with any literals -/

mutual
/-- Well-formed syntax, but for the names of nested ids and the bodies of string literals: quotes in these come after a backslash. -/
def Loose : Ast → Prop
  | .none | .bool _ => True
  | .num t => NumShape t
  | .str b => QuotesEscaped b
  | .cls b => ClassName b
  | .tuple xs | .list xs | .set xs | .fset xs => LooseL xs
  | .dict kvs => LooseD kvs
  | .what o n kvs => (∀ x, o = some x → Ident x) ∧ Ident n ∧ LooseA kvs
termination_by structural a => a
/-- All elements are. -/
def LooseL : List Ast → Prop
  | [] => True
  | x :: xs => Loose x ∧ LooseL xs
termination_by structural xs => xs
/-- All keys and values are. -/
def LooseD : List (Ast × Ast) → Prop
  | [] => True
  | (k, v) :: xs => Loose k ∧ Loose v ∧ LooseD xs
termination_by structural xs => xs
/-- All keys are identifiers, all values loosely well-formed. -/
def LooseA : List (Str × Ast) → Prop
  | [] => True
  | (k, v) :: xs => Ident k ∧ Loose v ∧ LooseA xs
termination_by structural xs => xs
end

mutual
/-- All string literals are made of units. -/
def Whole : Ast → Prop
  | .str b => Units b
  | .tuple xs | .list xs | .set xs | .fset xs => WholeL xs
  | .dict kvs => WholeD kvs
  | .what _ _ kvs => WholeA kvs
  | _ => True
termination_by structural a => a
/-- Those of all elements. -/
def WholeL : List Ast → Prop
  | [] => True
  | x :: xs => Whole x ∧ WholeL xs
termination_by structural xs => xs
/-- Those of all keys and values. -/
def WholeD : List (Ast × Ast) → Prop
  | [] => True
  | (k, v) :: xs => Whole k ∧ Whole v ∧ WholeD xs
termination_by structural xs => xs
/-- Those of all parameters. -/
def WholeA : List (Str × Ast) → Prop
  | [] => True
  | (_, v) :: xs => Whole v ∧ WholeA xs
termination_by structural xs => xs
end

/-- A piece of text that keeps the scanner outside if `P`, and loses it otherwise; it never brings it back. -/
def Seg (P : Prop) (t : Str) : Prop := (P → qscan .out t = .out) ∧ (¬ P → Lost (qscan .out t)) ∧ Lost (qscan .inn t)

theorem seg_lost {P : Prop} {t : Str} (h : Seg P t) {q : QState} (hq : Lost q) : Lost (qscan q t) := by
  rcases hq with rfl | rfl
  · exact h.2.2
  · exact .inr (qscan_err t)

theorem seg_append {P Q : Prop} {s t : Str} (h1 : Seg P s) (h2 : Seg Q t) : Seg (P ∧ Q) (s ++ t) := by
  refine ⟨fun ⟨p, q⟩ => ?_, fun h => ?_, ?_⟩
  · rw [qscan_append, h1.1 p, h2.1 q]
  · rw [qscan_append]
    by_cases p : P
    · rw [h1.1 p]
      exact h2.2.1 fun q => h ⟨p, q⟩
    · exact seg_lost h2 (h1.2.1 p)
  · rw [qscan_append]
    exact seg_lost h2 h1.2.2

theorem seg_clean {t : Str} (h : Clean t) : Seg True t := ⟨fun _ => (qscan_clean h).1, fun h => absurd trivial h, .inl (qscan_clean h).2⟩

theorem seg_iff {P Q : Prop} {t : Str} (h : Seg P t) (e : P ↔ Q) : Seg Q t := by rw [← propext e]; exact h

theorem seg_pre {Q : Prop} {s t : Str} (h1 : Clean s) (h2 : Seg Q t) : Seg Q (s ++ t) := seg_iff (seg_append (seg_clean h1) h2) (by simp)
theorem seg_post {Q : Prop} {s t : Str} (h1 : Seg Q s) (h2 : Clean t) : Seg Q (s ++ t) := seg_iff (seg_append h1 (seg_clean h2)) (by simp)

theorem seg_str {b : Str} (h : QuotesEscaped b) : Seg (Units b) (c!"'" ++ (b ++ c!"'")) := by
  have hq := quotedFrom_false h
  have h1 : ∀ q, qscan q (c!"'" ++ (b ++ c!"'")) = qscan (qscan q c!"'") (b ++ c!"'") := fun q => qscan_append _ _ _
  have e1 : qscan .out c!"'" = .inn := rfl
  have e2 : qscan .inn c!"'" = .out := rfl
  refine ⟨fun hu => ?_, fun hu => ?_, ?_⟩
  · rw [h1, e1, qscan_append, qscan_units hu]; rfl
  · rw [h1, e1]
    rcases (qscan_body.1 _ hq) with ⟨-, u⟩ | ⟨e, -⟩
    · exact absurd u hu
    · exact e
  · rw [h1, e2]
    exact qscan_out_body hq

/-- The texts of comma-separated items. -/
theorem seg_sep {P : α → Prop} {f : α → List Str} {xs : List α} (h : ∀ x ∈ xs, Seg (P x) (f x).flatten) :
    Seg (∀ x ∈ xs, P x) (sepToks (xs.map f)).flatten := by
  cases xs with
  | nil => exact seg_iff (seg_clean (t := []) (by simp [Clean])) (by simp)
  | cons x xs =>
    rw [List.map_cons, sepToks_cons, List.flatten_append]
    have : ∀ xs : List α, (∀ x ∈ xs, Seg (P x) (f x).flatten) → Seg (∀ x ∈ xs, P x) (starToks (xs.map f)).flatten := by
      intro xs
      induction xs with
      | nil => intro _; exact seg_iff (seg_clean (t := []) (by simp [Clean])) (by simp)
      | cons y ys ih =>
        intro h
        simp only [List.map_cons, starToks, List.cons_append, List.flatten_cons, List.flatten_append]
        exact seg_iff (seg_pre (clean_of_all (by decide)) (seg_append (h y (by simp)) (ih fun z hz => h z (by simp [hz])))) (by simp)
    exact seg_iff (seg_append (h x (by simp)) (this xs fun z hz => h z (by simp [hz]))) (by simp)

theorem wholeL_iff {xs : List Ast} : WholeL xs ↔ ∀ x ∈ xs, Whole x := by
  induction xs with | nil => simp [WholeL] | cons x xs ih => simp [WholeL, ih]
theorem wholeD_iff {xs : List (Ast × Ast)} : WholeD xs ↔ ∀ x ∈ xs, Whole x.1 ∧ Whole x.2 := by
  induction xs with | nil => simp [WholeD] | cons x xs ih => simp [WholeD, ih, and_assoc]
theorem wholeA_iff {xs : List (Str × Ast)} : WholeA xs ↔ ∀ x ∈ xs, Whole x.2 := by
  induction xs with | nil => simp [WholeA] | cons x xs ih => simp [WholeA, ih]

theorem seg_call {o : Option Str} {n : Str} {kvs : List (Str × Ast)} (ho : ∀ x, o = some x → Ident x) (hn : Ident n)
    (hk : ∀ x ∈ kvs, Ident x.1 ∧ Seg (Whole x.2) (text x.2)) : Seg (WholeA kvs) (text (.what o n kvs)) := by
  have ho' : Clean (outToks o).flatten := by
    cases o with
    | none => simp [outToks, Clean]
    | some x =>
      simp only [outToks, List.flatten_cons, List.flatten_nil, List.append_nil]
      exact clean_append (clean_ident (ho x rfl)) (clean_of_all (by decide))
  simp only [text, toks, toksA_map, List.flatten_append, List.flatten_cons, List.flatten_nil, List.append_nil, List.append_assoc]
  refine seg_iff (seg_pre ho' (seg_pre (clean_ident hn) (seg_pre (clean_of_all (by decide)) (seg_post (seg_sep (P := fun x => Whole x.2) fun x hx => ?_) (clean_of_all (by decide)))))) wholeA_iff.symm
  simp only [toksKv, List.flatten_cons]
  exact seg_pre (clean_ident (hk x hx).1) (seg_pre (clean_of_all (by decide)) (hk x hx).2)

mutual
theorem seg_text : ∀ a : Ast, Loose a → Seg (Whole a) (text a)
  | .none, _ => seg_iff (seg_clean (clean_of_all (by decide))) (by simp only [Whole])
  | .bool true, _ => seg_iff (seg_clean (clean_of_all (by decide))) (by simp only [Whole])
  | .bool false, _ => seg_iff (seg_clean (clean_of_all (by decide))) (by simp only [Whole])
  | .num t, h => by
      simp only [Loose] at h
      simp only [text, toks, List.flatten_cons, List.flatten_nil, List.append_nil]
      exact seg_iff (seg_clean (clean_num h)) (by simp only [Whole])
  | .str b, h => by
      simp only [Loose] at h
      simp only [text, toks, List.flatten_cons, List.flatten_nil, List.append_nil, Whole]
      exact seg_str h
  | .cls b, h => by
      simp only [Loose] at h
      simp only [text, toks, List.flatten_cons, List.flatten_nil, List.append_nil]
      have hu : Units b := by
        have : ∀ c ∈ b, c ≠ '\'' ∧ c ≠ '\\' := fun c hc => ⟨(h c hc).1, (h c hc).2.1⟩
        clear h
        induction b with
        | nil => exact .nil
        | cons c b ih => exact .char (this c (by simp)).1 (this c (by simp)).2 (ih fun d hd => this d (by simp [hd]))
      have hq : QuotesEscaped b := by
        intro l r e
        exact absurd rfl (h '\'' (by rw [e]; simp)).1
      have := seg_pre (s := c!"<class ") (clean_of_all (by decide)) (seg_post (t := c!">") (seg_str hq) (clean_of_all (by decide)))
      simp only [List.append_assoc] at this ⊢
      exact seg_iff this (by simp only [Whole, hu])
  | .tuple xs, h => by
      simp only [Loose] at h
      simp only [text, toks, toksL_map, List.flatten_append, List.flatten_cons, List.flatten_nil, List.append_nil, Whole]
      exact seg_iff (seg_post (seg_pre (clean_of_all (by decide)) (seg_sep (P := Whole) (seg_textL xs h))) (clean_of_all (by decide))) wholeL_iff.symm
  | .list xs, h => by
      simp only [Loose] at h
      simp only [text, toks, toksL_map, List.flatten_append, List.flatten_cons, List.flatten_nil, List.append_nil, Whole]
      exact seg_iff (seg_post (seg_pre (clean_of_all (by decide)) (seg_sep (P := Whole) (seg_textL xs h))) (clean_of_all (by decide))) wholeL_iff.symm
  | .set xs, h => by
      simp only [Loose] at h
      have := seg_sep (P := Whole) (seg_textL xs h)
      simp only [text, toks, Whole]
      cases xs with
      | nil => exact seg_iff (seg_clean (clean_of_all (by decide))) (by simp [WholeL])
      | cons x xs =>
        simp only [List.isEmpty_cons, Bool.false_eq_true, if_false, toksL_map, List.flatten_append, List.flatten_cons, List.flatten_nil, List.append_nil]
        exact seg_iff (seg_post (seg_pre (clean_of_all (by decide)) this) (clean_of_all (by decide))) wholeL_iff.symm
  | .fset xs, h => by
      simp only [Loose] at h
      have := seg_sep (P := Whole) (seg_textL xs h)
      simp only [text, toks, Whole]
      cases xs with
      | nil => exact seg_iff (seg_clean (clean_of_all (by decide))) (by simp [WholeL])
      | cons x xs =>
        simp only [List.isEmpty_cons, Bool.false_eq_true, if_false, toksL_map, List.flatten_append, List.flatten_cons, List.flatten_nil, List.append_nil]
        exact seg_iff (seg_post (seg_pre (clean_of_all (by decide)) this) (clean_of_all (by decide))) wholeL_iff.symm
  | .dict kvs, h => by
      simp only [Loose] at h
      have ih := seg_textD kvs h
      simp only [text, toks, toksD_map, List.flatten_append, List.flatten_cons, List.flatten_nil, List.append_nil, Whole]
      refine seg_iff (seg_post (seg_pre (clean_of_all (by decide)) (seg_sep (P := fun x => Whole x.1 ∧ Whole x.2) fun x hx => ?_)) (clean_of_all (by decide))) wholeD_iff.symm
      simp only [toks2, List.flatten_append, List.flatten_cons]
      exact seg_append (ih x hx).1 (seg_pre (clean_of_all (by decide)) (ih x hx).2)
  | .what o n kvs, h => by
      simp only [Loose] at h
      simp only [Whole]
      exact seg_call h.1 h.2.1 (seg_textA kvs h.2.2)
termination_by structural a => a
theorem seg_textL : ∀ xs : List Ast, LooseL xs → ∀ x ∈ xs, Seg (Whole x) (text x)
  | [], _, x, hx => by cases hx
  | y :: ys, h, x, hx => by
      simp only [LooseL] at h
      have h1 := seg_text y h.1
      have h2 := seg_textL ys h.2
      rcases List.mem_cons.1 hx with rfl | hx
      · exact h1
      · exact h2 x hx
termination_by structural xs => xs
theorem seg_textD : ∀ xs : List (Ast × Ast), LooseD xs → ∀ x ∈ xs, Seg (Whole x.1) (text x.1) ∧ Seg (Whole x.2) (text x.2)
  | [], _, x, hx => by cases hx
  | (k, v) :: ys, h, x, hx => by
      simp only [LooseD] at h
      have h0 := seg_text k h.1
      have h1 := seg_text v h.2.1
      have h2 := seg_textD ys h.2.2
      rcases List.mem_cons.1 hx with rfl | hx
      · exact ⟨h0, h1⟩
      · exact h2 x hx
termination_by structural xs => xs
theorem seg_textA : ∀ xs : List (Str × Ast), LooseA xs → ∀ x ∈ xs, Ident x.1 ∧ Seg (Whole x.2) (text x.2)
  | [], _, x, hx => by cases hx
  | (k, v) :: ys, h, x, hx => by
      simp only [LooseA] at h
      have h1 := seg_text v h.2.1
      have h2 := seg_textA ys h.2.2
      rcases List.mem_cons.1 hx with rfl | hx
      · exact ⟨h.1, h1⟩
      · exact h2 x hx
termination_by structural xs => xs
end

/-- A whole id with a string literal that is not made of units is refused. -/
theorem refused_of_string {E : Env} {o : Option Str} {n : Str} {kvs : List (Str × Ast)} (ho : ∀ x, o = some x → Ident x) (hn : Ident n)
    (hk : LooseA kvs) (h : ¬ WholeA kvs) : parseWhatid E (text (.what o n kvs)) = .error .noMatch := by
  apply refused_of_scan
  have := (seg_call ho hn (seg_textA kvs hk)).2.1 h
  rintro e
  rw [e] at this
  rcases this with h | h <;> cases h

/-! ### Which strings -/

theorem ends_iff {u : Str} : (∃ u', u = u' ++ ['\\']) ↔ u.getLast? = some '\\' := by
  constructor
  · rintro ⟨u', rfl⟩; simp
  · intro h
    obtain ⟨u', e⟩ := List.getLast?_eq_some_iff.1 h
    exact ⟨u', e⟩

theorem bs_succ (n : Nat) (s : Str) : backslashes n ++ '\\' :: s = backslashes (n + 1) ++ s := by
  simp only [backslashes, List.replicate_succ', List.append_assoc, List.cons_append, List.nil_append]

theorem mem_bs {n : Nat} {c : Char} (h : c ∈ backslashes n) : c = '\\' := (List.mem_replicate.1 h).2

theorem ends_bs {n : Nat} (h : 0 < n) : ∃ u', backslashes n = u' ++ ['\\'] := by
  obtain ⟨m, rfl⟩ : ∃ m, n = m + 1 := ⟨n - 1, by omega⟩
  exact ⟨backslashes m, by simp only [backslashes, List.replicate_succ']⟩

/-- The runs of backslashes, one after the other; `n` is the length of the present one. -/
def FineFrom : Nat → Str → Prop
  | n, [] => n % 2 = 0
  | n, c :: r => if c = '\\' then FineFrom (n + 1) r else (c = '\'' → n = 0 ∨ n % 2 = 1) ∧ FineFrom 0 r

theorem units_bs (n : Nat) : Units (backslashes n) ↔ n % 2 = 0 := by
  induction n using Nat.strongRecOn with
  | _ n ih =>
    match n with
    | 0 => exact ⟨fun _ => rfl, fun _ => .nil⟩
    | 1 =>
      refine ⟨fun h => ?_, fun h => by omega⟩
      cases h with
      | char _ h _ => exact absurd rfl h
    | n + 2 =>
      have e : backslashes (n + 2) = '\\' :: '\\' :: backslashes n := rfl
      rw [e]
      have := ih n (by omega)
      constructor
      · intro h
        cases h with
        | char _ h _ => exact absurd rfl h
        | esc _ h => have := this.1 h; omega
      · intro h
        exact .esc (by decide) (this.2 (by omega))

theorem units_bs_cons {n : Nat} {c : Char} {x : Str} (hc : c ≠ '\\') :
    Units (backslashes n ++ c :: x) ↔ (c = '\'' → n % 2 = 1) ∧ Units x := by
  induction n using Nat.strongRecOn with
  | _ n ih =>
    match n with
    | 0 =>
      simp only [backslashes, List.replicate_zero, List.nil_append]
      constructor
      · intro h
        cases h with
        | char h1 _ h => exact ⟨fun e => absurd e h1, h⟩
        | esc _ _ => exact absurd rfl hc
        | backslashNl _ => exact absurd rfl hc
      · rintro ⟨h1, h⟩
        exact .char (fun e => by have := h1 e; omega) hc h
    | 1 =>
      have e : backslashes 1 ++ c :: x = '\\' :: c :: x := rfl
      rw [e]
      constructor
      · intro h
        cases h with
        | char _ h _ => exact absurd rfl h
        | esc _ h => exact ⟨fun _ => rfl, h⟩
        | backslashNl h => exact ⟨fun _ => rfl, h⟩
      · rintro ⟨-, h⟩
        by_cases hn : c = '\n'
        · subst hn; exact .backslashNl h
        · exact .esc hn h
    | n + 2 =>
      have e : backslashes (n + 2) ++ c :: x = '\\' :: '\\' :: (backslashes n ++ c :: x) := rfl
      rw [e]
      have := ih n (by omega)
      rw [show (n + 2) % 2 = n % 2 by omega, ← this]
      constructor
      · intro h
        cases h with
        | char _ h _ => exact absurd rfl h
        | esc _ h => exact h
      · intro h
        exact .esc (by decide) h

theorem units_fineFrom (s : Str) : ∀ n, Units (backslashes n ++ escFrom (decide (0 < n)) s) ↔ FineFrom n s := by
  induction s with
  | nil => intro n; simp only [escFrom, List.append_nil, FineFrom]; exact units_bs n
  | cons c r ih =>
    intro n
    by_cases hb : c = '\\'
    · subst hb
      have := ih (n + 1)
      simp only [FineFrom, if_true, ← this, escFrom]
      rw [if_neg (by decide), bs_succ, show decide (0 < n + 1) = true by simp]
      rfl
    · simp only [FineFrom, hb, if_false]
      have h0 := ih 0
      simp only [backslashes, List.replicate_zero, List.nil_append, Nat.lt_irrefl, decide_false] at h0
      have hcb : (c == '\\') = false := by simpa using hb
      by_cases hq : c = '\''
      · subst hq
        simp only [escFrom, if_true]
        by_cases hn : 0 < n
        · simp only [hn, decide_true, if_true, List.cons_append, List.nil_append]
          rw [units_bs_cons hb]
          rw [h0]
          constructor
          · rintro ⟨h1, h2⟩; exact ⟨fun _ => .inr (h1 rfl), h2⟩
          · rintro ⟨h1, h2⟩; exact ⟨fun _ => (h1 trivial).resolve_left (by omega), h2⟩
        · have : n = 0 := by omega
          subst this
          simp only [Nat.lt_irrefl, decide_false, Bool.false_eq_true, if_false, backslashes, List.replicate_zero, List.nil_append, List.cons_append]
          have := units_bs_cons (n := 1) (x := escFrom false r) hb
          rw [show backslashes 1 ++ '\'' :: escFrom false r = '\\' :: '\'' :: escFrom false r from rfl] at this
          rw [this, h0]
          simp
      · simp only [escFrom, hq, if_false, hcb]
        rw [units_bs_cons hb, h0]
        simp [hq]

theorem legible_bs (n : Nat) : StrLegible (backslashes n) ↔ n % 2 = 0 := by
  constructor
  · intro h
    by_cases hn : n % 2 = 0
    · exact hn
    · obtain ⟨u', e⟩ := h.1 [] (n / 2) (by rw [show 2 * (n / 2) + 1 = n by omega]; rfl)
      simp at e
  · intro hn
    refine ⟨fun u m e => ?_, fun u m v e => ?_⟩
    · have hl := congrArg List.length e
      simp only [backslashes, List.length_append, List.length_replicate] at hl
      have hu : u = backslashes u.length := List.eq_replicate_of_mem fun b hb => mem_bs (by rw [e]; exact List.mem_append_left _ hb)
      rw [hu]
      exact ends_bs (by omega)
    · have : '\'' ∈ backslashes n := by rw [e]; simp
      exact absurd (mem_bs this) (by decide)

theorem legible_cons {n : Nat} {c : Char} {r : Str} (hc : c ≠ '\\') :
    StrLegible (backslashes n ++ c :: r) ↔ (c = '\'' → n = 0 ∨ n % 2 = 1) ∧ StrLegible r := by
  have lift : ∀ u : Str, (∃ u', backslashes n ++ c :: u = u' ++ ['\\']) → ∃ u', u = u' ++ ['\\'] := by
    intro u h
    rw [ends_iff] at h ⊢
    cases u with
    | nil => simp at h; exact absurd h hc
    | cons d u => simpa using h
  have drop : ∀ u : Str, (∃ u', u = u' ++ ['\\']) → ∃ u', backslashes n ++ c :: u = u' ++ ['\\'] := by
    rintro u ⟨u', rfl⟩
    exact ⟨backslashes n ++ c :: u', by simp⟩
  constructor
  · intro h
    refine ⟨?_, fun u m e => lift u (h.1 _ m (by rw [e]; simp)), fun u m v e => lift u (h.2 _ m v (by rw [e]; simp))⟩
    rintro rfl
    by_cases h0 : n = 0
    · exact .inl h0
    · by_cases h1 : n % 2 = 1
      · exact .inr h1
      · obtain ⟨u', e⟩ := h.2 [] ((n - 2) / 2) r (by rw [show 2 * ((n - 2) / 2) + 2 = n by omega]; rfl)
        simp at e
  · rintro ⟨hq, h1, h2⟩
    refine ⟨fun u m e => ?_, fun u m v e => ?_⟩
    · rcases List.append_eq_append_iff.1 e with ⟨a, rfl, e'⟩ | ⟨a, e1, e2⟩
      · cases a with
        | nil =>
          exact absurd (mem_bs (n := 2 * m + 1) (by rw [← List.nil_append (backslashes _), ← e']; simp)) hc
        | cons d a =>
          simp only [List.cons_append, List.cons.injEq] at e'
          obtain ⟨rfl, rfl⟩ := e'
          exact drop _ (h1 _ m rfl)
      · exact absurd (mem_bs (n := 2 * m + 1) (by rw [e2]; simp)) hc
    · rw [List.append_assoc] at e
      rcases List.append_eq_append_iff.1 e with ⟨a, rfl, e'⟩ | ⟨a, e1, e2⟩
      · cases a with
        | nil =>
          rw [show backslashes (2 * m + 2) = '\\' :: backslashes (2 * m + 1) from rfl] at e'
          simp only [List.nil_append, List.cons_append, List.cons.injEq] at e'
          exact absurd e'.1 hc
        | cons d a =>
          simp only [List.cons_append, List.cons.injEq] at e'
          obtain ⟨rfl, rfl⟩ := e'
          exact drop _ (h2 _ m v (by simp))
      · have ha : a = backslashes a.length := List.eq_replicate_of_mem fun b hb => mem_bs (by rw [e1]; exact List.mem_append_right _ hb)
        have hu : u = backslashes u.length := List.eq_replicate_of_mem fun b hb => mem_bs (by rw [e1]; exact List.mem_append_left _ hb)
        have hl := congrArg List.length e1
        simp only [backslashes, List.length_append, List.length_replicate] at hl
        have hk : ∀ i j : Nat, backslashes i ++ '\'' :: v = backslashes j ++ c :: r → i = j ∧ c = '\'' := by
          intro i
          induction i with
          | zero =>
            intro j e
            cases j with
            | zero => simp [backslashes] at e; exact ⟨rfl, e.1.symm⟩
            | succ j => simp [backslashes, List.replicate_succ] at e
          | succ i ih =>
            intro j e
            cases j with
            | zero => simp [backslashes, List.replicate_succ] at e; exact absurd e.1.symm hc
            | succ j =>
              simp only [backslashes, List.replicate_succ, List.cons_append, List.cons.injEq, true_and] at e
              obtain ⟨h1, h2⟩ := ih j e
              exact ⟨by omega, h2⟩
        rw [ha] at e2
        obtain ⟨h3, rfl⟩ := hk _ _ e2
        rw [hu]
        refine ends_bs ?_
        have := hq rfl
        omega

theorem legible_fineFrom (s : Str) : ∀ n, StrLegible (backslashes n ++ s) ↔ FineFrom n s := by
  induction s with
  | nil => intro n; simp only [List.append_nil, FineFrom]; exact legible_bs n
  | cons c r ih =>
    intro n
    by_cases hb : c = '\\'
    · subst hb
      simp only [FineFrom, if_true, ← ih (n + 1), bs_succ]
    · simp only [FineFrom, hb, if_false]
      rw [legible_cons hb, ← ih 0]
      rfl

/-- The literal of a string is made of units if and only if the string is legible. -/
theorem units_strBody (s : Str) : Units (strBody s) ↔ StrLegible s := by
  have h1 := units_fineFrom s 0
  have h2 := legible_fineFrom s 0
  simp only [backslashes, List.replicate_zero, List.nil_append, Nat.lt_irrefl, decide_false] at h1 h2
  rw [strBody_eq, h1, h2]

end Whatami
