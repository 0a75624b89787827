import Verif.Old.Sem
import Verif.ParseSound

/-
Counting quotes: why a new-style id is never taken for an old-style one.
Definitions here are vocabulary for statements and proofs: the code they are about is cited in the model modules.
-/
namespace Whatami.Old
open Whatami

/-- Reading a character: (inside of a literal, after an escaping backslash). -/
def qstep (st : Bool × Bool) (c : Char) : Bool × Bool :=
  if st.2 then (st.1, false) else if c = '\\' then (st.1, true) else if c = '\'' then (!st.1, false) else st

/-- Reading a text. -/
def qscan (st : Bool × Bool) (s : Str) : Bool × Bool := s.foldl qstep st

theorem qscan_append (st : Bool × Bool) (a b : Str) : qscan st (a ++ b) = qscan (qscan st a) b := by
  simp only [qscan, List.foldl_append]

theorem qscan_flip (p e : Bool) (s : Str) : qscan (!p, e) s = (!(qscan (p, e) s).1, (qscan (p, e) s).2) := by
  induction s generalizing p e with
  | nil => rfl
  | cons c s ih =>
    have h : qstep (!p, e) c = (!(qstep (p, e) c).1, (qstep (p, e) c).2) := by
      simp only [qstep]
      split
      · rfl
      · split
        · rfl
        · split <;> rfl
    simp only [qscan, List.foldl_cons] at ih ⊢
    rw [h]
    exact ih _ _

/-- Neither a quote nor a backslash. -/
abbrev QPlain (s : Str) : Prop := ∀ c ∈ s, c ≠ '\\' ∧ c ≠ '\''

theorem qscan_plain {s : Str} (h : QPlain s) (p : Bool) : qscan (p, false) s = (p, false) := by
  induction s with
  | nil => rfl
  | cons c s ih =>
    have h1 := h c (.head _)
    simp only [qscan, List.foldl_cons] at ih ⊢
    rw [show qstep (p, false) c = (p, false) by simp [qstep, h1.1, h1.2]]
    exact ih fun d hd => h d (.tail _ hd)

theorem qscan_units {b : Str} (h : Units b) (p : Bool) : qscan (p, false) b = (p, false) := by
  induction h with
  | nil => rfl
  | char h1 h2 _ ih =>
    simp only [qscan, List.foldl_cons] at ih ⊢
    rw [show qstep (p, false) _ = (p, false) by simp [qstep, h1, h2]]
    exact ih
  | @esc d r _ _ ih =>
    simp only [qscan, List.foldl_cons] at ih ⊢
    rw [show qstep (qstep (p, false) '\\') d = (p, false) by simp [qstep]]
    exact ih
  | @backslashNl r _ ih =>
    simp only [qscan, List.foldl_cons] at ih ⊢
    rw [show qstep (qstep (p, false) '\\') '\n' = (p, false) by simp [qstep]]
    exact ih

/-- Balanced, and every `#` is inside of a literal. -/
def QIn (s : Str) : Prop := qscan (false, false) s = (false, false) ∧
  ∀ a r, s = a ++ '#' :: r → qscan (false, false) (a ++ ['#']) = (true, false)

/-- Balanced. -/
def QBal (s : Str) : Prop := qscan (false, false) s = (false, false)

theorem QIn.append {s t : Str} (h : QIn s) (h' : QIn t) : QIn (s ++ t) := by
  refine ⟨by rw [qscan_append, h.1, h'.1], ?_⟩
  intro a r e
  rcases List.append_eq_append_iff.1 e with ⟨x, h1, h2⟩ | ⟨x, h1, h2⟩
  · -- the `#` is in `t`
    rw [h1, List.append_assoc, qscan_append, h.1]
    exact h'.2 x r h2
  · cases x with
    | nil =>
      simp only [List.append_nil] at h1
      simp only [List.nil_append] at h2
      rw [← h1, qscan_append, h.1]
      exact h'.2 [] r h2.symm
    | cons c x =>
      simp only [List.cons_append, List.cons.injEq] at h2
      obtain ⟨rfl, h2⟩ := h2
      exact h.2 a x h1

theorem QIn.plain {s : Str} (h : QPlain s) (h' : '#' ∉ s) : QIn s := by
  refine ⟨qscan_plain h false, ?_⟩
  rintro a r rfl
  exact absurd (by simp) h'

theorem ws_plain {ws : Str} (h : ws.all isWs = true) : QPlain ws ∧ '#' ∉ ws := by
  refine ⟨fun c hc => ?_, fun hm => ?_⟩
  · have := List.all_eq_true.1 h c hc
    refine ⟨?_, ?_⟩ <;> rintro rfl <;> revert this <;> decide
  · have := List.all_eq_true.1 h _ hm
    revert this; decide

theorem QIn.ws {ws : Str} (h : ws.all isWs = true) : QIn ws := .plain (ws_plain h).1 (ws_plain h).2

theorem units_hash {b : Str} (h : Units b) : ∀ x y, b = x ++ '#' :: y → qscan (true, false) (x ++ ['#']) = (true, false) := by
  induction h with
  | nil => intro x y e; cases x <;> cases e
  | @char c r h1 h2 _ ih =>
    intro x y e
    cases x with
    | nil => rfl
    | cons d x =>
      simp only [List.cons_append, List.cons.injEq] at e
      simp only [List.cons_append, qscan, List.foldl_cons] at ih ⊢
      rw [show qstep (true, false) d = (true, false) by simp [qstep, ← e.1, h1, h2]]
      exact ih x y e.2
  | @esc d r _ _ ih =>
    intro x y e
    cases x with
    | nil => cases e
    | cons c x =>
      simp only [List.cons_append, List.cons.injEq] at e
      obtain ⟨rfl, e⟩ := e
      cases x with
      | nil => rfl
      | cons c x =>
        simp only [List.cons_append, List.cons.injEq] at e
        obtain ⟨rfl, e⟩ := e
        simp only [List.cons_append, qscan, List.foldl_cons] at ih ⊢
        rw [show qstep (qstep (true, false) '\\') d = (true, false) by simp [qstep]]
        exact ih x y e
  | @backslashNl r _ ih =>
    intro x y e
    cases x with
    | nil => cases e
    | cons c x =>
      simp only [List.cons_append, List.cons.injEq] at e
      obtain ⟨rfl, e⟩ := e
      cases x with
      | nil => rfl
      | cons c x =>
        simp only [List.cons_append, List.cons.injEq] at e
        obtain ⟨rfl, e⟩ := e
        simp only [List.cons_append, qscan, List.foldl_cons] at ih ⊢
        rw [show qstep (qstep (true, false) '\\') '\n' = (true, false) by simp [qstep]]
        exact ih x y e

/-- A literal. -/
theorem QIn.literal {b : Str} (ws : Str) (hw : ws.all isWs = true) (h : Units b) : QIn ('\'' :: (ws ++ (b ++ ['\'']))) := by
  have h0 : qscan (false, false) ['\''] = (true, false) := rfl
  have h1 : qscan (false, false) ('\'' :: (ws ++ b)) = (true, false) := by
    rw [show '\'' :: (ws ++ b) = ['\''] ++ (ws ++ b) from rfl, qscan_append, h0, qscan_append, qscan_plain (ws_plain hw).1, qscan_units h]
  refine ⟨?_, ?_⟩
  · rw [show '\'' :: (ws ++ (b ++ ['\''])) = ('\'' :: (ws ++ b)) ++ ['\''] by simp, qscan_append, h1]; rfl
  · intro a r e
    have hu : Units (ws ++ b) := by
      clear h0 h1 e
      induction ws with
      | nil => exact h
      | cons c ws ih =>
        have hc := (ws_plain hw).1 c (.head _)
        simp only [List.all_cons, Bool.and_eq_true] at hw
        exact .char hc.2 hc.1 (ih hw.2)
    cases a with
    | nil => cases e
    | cons c a =>
      simp only [List.cons_append, List.cons.injEq] at e
      obtain ⟨rfl, e⟩ := e
      have e' : (ws ++ b) ++ ['\''] = a ++ '#' :: r := by rw [← e]; simp
      rcases List.append_eq_append_iff.1 e' with ⟨x, h1, h2⟩ | ⟨x, h1, h2⟩
      · cases x with
        | nil => cases h2
        | cons c x => simp only [List.cons_append, List.cons.injEq] at h2; cases x <;> cases h2.2
      · cases x with
        | nil => cases h2
        | cons c x =>
          simp only [List.cons_append, List.cons.injEq] at h2
          obtain ⟨rfl, h2⟩ := h2
          show qscan (true, false) (a ++ ['#']) = _
          exact units_hash hu a x h1

/-! ### Texts of new-style ids -/

theorem QIn.nil : QIn [] := .plain (by intro c hc; cases hc) (by simp)

/-- One token of the text that contains no quotes, backslashes and hashes. -/
theorem qin_cons {t : Str} {ts : List Str} {s : Str} (ht : QPlain t ∧ '#' ∉ t) (hs : ∀ s', Padded ts s' → QIn s') (hp : Padded (t :: ts) s) : QIn s := by
  obtain ⟨ws, s', hw, rfl, hp'⟩ := padded_cons_iff.1 hp
  exact (QIn.ws hw).append ((QIn.plain ht.1 ht.2).append (hs s' hp'))

theorem qin_app {ts us : List Str} {s : Str} (ht : ∀ s', Padded ts s' → QIn s') (hu : ∀ s', Padded us s' → QIn s') (hp : Padded (ts ++ us) s) : QIn s := by
  obtain ⟨s1, s2, rfl, h1, h2⟩ := padded_append hp
  exact (ht s1 h1).append (hu s2 h2)

theorem qin_nil {s : Str} (hp : Padded [] s) : QIn s := by cases hp; exact .nil

theorem qin_one {t : Str} {s : Str} (ht : QPlain t ∧ '#' ∉ t) (hp : Padded [t] s) : QIn s := qin_cons ht (fun _ => qin_nil) hp

theorem qin_sep {tss : List (List Str)} (h : ∀ ts ∈ tss, ∀ s, Padded ts s → QIn s) {s : Str} (hp : Padded (sepToks tss) s) : QIn s := by
  induction tss generalizing s with
  | nil => exact qin_nil hp
  | cons t tss ih =>
    cases tss with
    | nil => exact h t (.head _) s hp
    | cons u tss =>
      simp only [sepToks] at hp
      exact qin_app (h t (.head _)) (fun s' => qin_cons (by decide) fun s'' h'' => ih (fun ts ht => h ts (.tail _ ht)) h'') hp

theorem qin_str {b : Str} (h : Units b) {rest : List Str} (hr : ∀ s', Padded rest s' → QIn s') {s : Str}
    (hp : Padded (c!"'" :: (b ++ c!"'") :: rest) s) : QIn s := by
  obtain ⟨ws, s1, hw, rfl, hp1⟩ := padded_cons_iff.1 hp
  obtain ⟨ws', s2, hw', rfl, hp2⟩ := padded_cons_iff.1 hp1
  have := ((QIn.ws hw).append (QIn.literal ws' hw' h)).append (hr s2 hp2)
  simpa using this

theorem ident_plain {n : Str} (h : Ident n) : QPlain n ∧ '#' ∉ n := by
  obtain ⟨c, r, rfl, hc, hr⟩ := h
  have key : ∀ d ∈ c :: r, isIdChar d = true := by
    intro d hd
    cases hd with
    | head => simp only [isIdChar, hc, Bool.true_or]
    | tail _ hd => exact List.all_eq_true.1 hr d hd
  refine ⟨fun d hd => ?_, fun hm => ?_⟩
  · have := key d hd
    refine ⟨?_, ?_⟩ <;> rintro rfl <;> revert this <;> decide
  · have := key _ hm
    revert this; decide

theorem num_plain {t : Str} (h : NumShape t) : QPlain t ∧ '#' ∉ t := by
  have dig : ∀ d : Str, d.all isDig = true → ∀ c ∈ d, c ≠ '\\' ∧ c ≠ '\'' ∧ c ≠ '#' := by
    intro d hd c hc
    have := List.all_eq_true.1 hd c hc
    refine ⟨?_, ?_, ?_⟩ <;> rintro rfl <;> revert this <;> decide
  suffices hs : ∀ c ∈ t, c ≠ '\\' ∧ c ≠ '\'' ∧ c ≠ '#' from ⟨fun c hc => ⟨(hs c hc).1, (hs c hc).2.1⟩, fun hm => (hs _ hm).2.2 rfl⟩
  cases h with
  | inf => decide
  | minusInf => decide
  | nan => decide
  | digits neg hd hf he =>
    intro c hc
    simp only [List.mem_append] at hc
    rcases hc with ((hc | hc) | hc) | hc
    · cases neg <;> simp at hc
      subst hc; decide
    · exact dig _ hd.2 c hc
    · rcases hf with rfl | ⟨f, rfl, hf⟩
      · cases hc
      · cases hc with
        | head => decide
        | tail _ hc => exact dig _ hf c hc
    · rcases he with rfl | ⟨x, sg, e, rfl, hx, hsg, he⟩
      · cases hc
      · rcases List.mem_cons.1 hc with rfl | hc
        · rcases hx with rfl | rfl <;> decide
        · rcases List.mem_append.1 hc with hc | hc
          · rcases hsg with rfl | rfl | rfl <;> simp at hc <;> subst hc <;> decide
          · exact dig _ he.2 c hc

mutual
theorem qin_toks : ∀ a : Ast, Wf a → ∀ s, Padded (toks a) s → QIn s
  | .none, _, s, hp => qin_one (by decide) hp
  | .bool b, _, s, hp => by
    cases b
    · exact qin_one (t := c!"False") (by decide) hp
    · exact qin_one (t := c!"True") (by decide) hp
  | .num t, h, s, hp => qin_one (num_plain (by simpa only [Wf] using h)) hp
  | .str b, h, s, hp => by
    simp only [Wf] at h
    exact qin_str h.1 (fun _ => qin_nil) hp
  | .cls b, h, s, hp => by
    simp only [Wf] at h
    exact qin_cons (by decide) (fun s' => qin_str h.1 fun s'' => qin_one (by decide)) hp
  | .tuple xs, h, s, hp => by
    simp only [Wf] at h
    simp only [toks] at hp
    exact qin_app (fun s' => qin_cons (by decide) fun s'' => qin_sep (qin_toksL xs h)) (fun s' => qin_one (by decide)) hp
  | .list xs, h, s, hp => by
    simp only [Wf] at h
    simp only [toks] at hp
    exact qin_app (fun s' => qin_cons (by decide) fun s'' => qin_sep (qin_toksL xs h)) (fun s' => qin_one (by decide)) hp
  | .set xs, h, s, hp => by
    simp only [Wf] at h
    simp only [toks] at hp
    split at hp
    · exact qin_one (by decide) hp
    · exact qin_app (fun s' => qin_cons (by decide) fun s'' => qin_sep (qin_toksL xs h)) (fun s' => qin_one (by decide)) hp
  | .fset xs, h, s, hp => by
    simp only [Wf] at h
    simp only [toks] at hp
    split at hp
    · exact qin_one (by decide) hp
    · exact qin_app (fun s' => qin_cons (by decide) fun s'' => qin_sep (qin_toksL xs h)) (fun s' => qin_one (by decide)) hp
  | .dict kvs, h, s, hp => by
    simp only [Wf] at h
    simp only [toks] at hp
    exact qin_app (fun s' => qin_cons (by decide) fun s'' => qin_sep (qin_toksD kvs h)) (fun s' => qin_one (by decide)) hp
  | .what o n kvs, h, s, hp => by
    simp only [Wf] at h
    simp only [toks] at hp
    refine qin_app (ts := outToks o ++ n :: c!"(" :: sepToks (toksA kvs)) (fun s' => ?_) (fun s' => qin_one (by decide)) hp
    refine qin_app (fun s' => ?_) (fun s' => ?_)
    · cases o with
      | none => exact qin_nil
      | some o => exact qin_cons (ident_plain (h.1 o rfl)) fun s' => qin_one (by decide)
    · exact qin_cons (ident_plain h.2.1) fun s' => qin_cons (by decide) fun s'' => qin_sep (qin_toksA kvs h.2.2.2)
termination_by structural a => a
theorem qin_toksL : ∀ xs : List Ast, WfL xs → ∀ ts ∈ toksL xs, ∀ s, Padded ts s → QIn s
  | [], _, ts, hm => by cases hm
  | x :: xs, h, ts, hm => by
    simp only [WfL] at h
    simp only [toksL] at hm
    rcases List.mem_cons.1 hm with e | hm
    · rw [e]; exact qin_toks x h.1
    · exact qin_toksL xs h.2 ts hm
termination_by structural xs => xs
theorem qin_toksD : ∀ xs : List (Ast × Ast), WfD xs → ∀ ts ∈ toksD xs, ∀ s, Padded ts s → QIn s
  | [], _, ts, hm => by cases hm
  | (k, v) :: xs, h, ts, hm => by
    simp only [WfD] at h
    simp only [toksD] at hm
    rcases List.mem_cons.1 hm with e | hm
    · rw [e]; exact fun s => qin_app (qin_toks k h.1) fun s' => qin_cons (by decide) (qin_toks v h.2.1)
    · exact qin_toksD xs h.2.2 ts hm
termination_by structural xs => xs
theorem qin_toksA : ∀ xs : List (Str × Ast), WfA xs → ∀ ts ∈ toksA xs, ∀ s, Padded ts s → QIn s
  | [], _, ts, hm => by cases hm
  | (k, v) :: xs, h, ts, hm => by
    simp only [WfA] at h
    simp only [toksA] at hm
    rcases List.mem_cons.1 hm with e | hm
    · rw [e]; exact fun s => qin_cons (ident_plain h.1) fun s' => qin_cons (by decide) (qin_toks v h.2.1)
    · exact qin_toksA xs h.2.2 ts hm
termination_by structural xs => xs
end

theorem qin_id {o : Option Str} {n : Str} {kvs : List (Str × Ast)} {s : Str} (ho : ∀ x, o = some x → Ident x) (hn : Ident n) (hk : WfA kvs)
    (hp : Padded (toks (.what o n kvs)) s) : QIn s := by
  simp only [toks] at hp
  refine qin_app (ts := outToks o ++ n :: c!"(" :: sepToks (toksA kvs)) (fun s' => ?_) (fun s' => qin_one (by decide)) hp
  refine qin_app (fun s' => ?_) (fun s' => ?_)
  · cases o with
    | none => exact qin_nil
    | some o => exact qin_cons (ident_plain (ho o rfl)) fun s' => qin_one (by decide)
  · exact qin_cons (ident_plain hn) fun s' => qin_cons (by decide) fun s'' => qin_sep (qin_toksA kvs hk)

/-! ### Texts of old-style ids -/

theorem QBal.append {s t : Str} (h : QBal s) (h' : QBal t) : QBal (s ++ t) := by
  simp only [QBal] at *
  rw [qscan_append, h, h']

theorem bal_cons {t : Str} {ts : List Str} {s : Str} (ht : QPlain t) (hs : ∀ s', Padded ts s' → QBal s') (hp : Padded (t :: ts) s) : QBal s := by
  obtain ⟨ws, s', hw, rfl, hp'⟩ := padded_cons_iff.1 hp
  exact QBal.append (QIn.ws hw).1 (QBal.append (qscan_plain ht false) (hs s' hp'))

theorem bal_app {ts us : List Str} {s : Str} (ht : ∀ s', Padded ts s' → QBal s') (hu : ∀ s', Padded us s' → QBal s') (hp : Padded (ts ++ us) s) : QBal s := by
  obtain ⟨s1, s2, rfl, h1, h2⟩ := padded_append hp
  exact (ht s1 h1).append (hu s2 h2)

theorem bal_nil {s : Str} (hp : Padded [] s) : QBal s := by cases hp; exact rfl

theorem bal_one {t : Str} {s : Str} (ht : QPlain t) (hp : Padded [t] s) : QBal s := bal_cons ht (fun _ => bal_nil) hp

theorem bal_sep {tss : List (List Str)} (h : ∀ ts ∈ tss, ∀ s, Padded ts s → QBal s) {s : Str} (hp : Padded (sepToks tss) s) : QBal s := by
  induction tss generalizing s with
  | nil => exact bal_nil hp
  | cons t tss ih =>
    cases tss with
    | nil => exact h t (.head _) s hp
    | cons u tss =>
      simp only [sepToks] at hp
      exact bal_app (h t (.head _)) (fun s' => bal_cons (by decide) fun s'' h'' => ih (fun ts ht => h ts (.tail _ ht)) h'') hp

theorem bal_hashRest {tss : List (List Str)} (h : ∀ ts ∈ tss, ∀ s, Padded ts s → QBal s) {s : Str} (hp : Padded (hashRest tss) s) : QBal s := by
  induction tss generalizing s with
  | nil => exact bal_nil hp
  | cons t tss ih =>
    simp only [hashRest] at hp
    exact bal_cons (by decide) (fun s' => bal_app (h t (.head _)) fun s'' h'' => ih (fun ts ht => h ts (.tail _ ht)) h'') hp

theorem bal_hash {tss : List (List Str)} (h : ∀ ts ∈ tss, ∀ s, Padded ts s → QBal s) {s : Str} (hp : Padded (hashToks tss) s) : QBal s := by
  cases tss with
  | nil => exact bal_nil hp
  | cons t tss =>
    simp only [hashToks] at hp
    exact bal_app (h t (.head _)) (fun s' => bal_hashRest fun ts ht => h ts (.tail _ ht)) hp

theorem bal_quote (q : Bool) {s : Str} (hp : Padded (quoteTok q) s) : QBal s := by
  cases q
  · exact bal_nil hp
  · exact bal_one (t := c!"\"") (by decide) hp

mutual
theorem bal_toks : ∀ a : OAst, OWf a → ∀ s, Padded (otoks a) s → QBal s
  | .none, _, s, hp => bal_one (by decide) hp
  | .bool b, _, s, hp => by
    cases b
    · exact bal_one (t := c!"False") (by decide) hp
    · exact bal_one (t := c!"True") (by decide) hp
  | .num t, h, s, hp => bal_one (num_plain (by simpa only [OWf] using h)).1 hp
  | .str b, h, s, hp => by
    simp only [OWf] at h
    exact (qin_str h.1 (fun _ => qin_nil) hp).1
  | .braces, _, s, hp => bal_cons (by decide) (fun s' => bal_one (by decide)) hp
  | .tuple xs, h, s, hp => by
    simp only [OWf] at h
    simp only [otoks] at hp
    exact bal_app (fun s' => bal_cons (by decide) fun s'' => bal_sep (bal_toksL xs h)) (fun s' => bal_one (by decide)) hp
  | .list xs, h, s, hp => by
    simp only [OWf] at h
    simp only [otoks] at hp
    exact bal_app (fun s' => bal_cons (by decide) fun s'' => bal_sep (bal_toksL xs h)) (fun s' => bal_one (by decide)) hp
  | .set xs, h, s, hp => by
    simp only [OWf] at h
    simp only [otoks] at hp
    split at hp
    · exact bal_one (by decide) hp
    · exact bal_app (fun s' => bal_cons (by decide) fun s'' => bal_sep (bal_toksL xs h)) (fun s' => bal_one (by decide)) hp
  | .dict kvs, h, s, hp => by
    simp only [OWf] at h
    simp only [otoks] at hp
    exact bal_app (fun s' => bal_cons (by decide) fun s'' => bal_sep (bal_toksD kvs h.2)) (fun s' => bal_one (by decide)) hp
  | .what q n kvs, h, s, hp => by
    simp only [OWf] at h
    simp only [otoks] at hp
    refine bal_app (fun s' => bal_app (fun s' => bal_quote q) fun s'' => ?_) (fun s' => bal_quote q) hp
    exact bal_cons (ident_plain h.1).1 fun s' => bal_cons (by decide) fun s'' => bal_hash (bal_toksA kvs h.2.2)
termination_by structural a => a
theorem bal_toksL : ∀ xs : List OAst, OWfL xs → ∀ ts ∈ otoksL xs, ∀ s, Padded ts s → QBal s
  | [], _, ts, hm => by cases hm
  | x :: xs, h, ts, hm => by
    simp only [OWfL] at h
    simp only [otoksL] at hm
    rcases List.mem_cons.1 hm with e | hm
    · rw [e]; exact bal_toks x h.1
    · exact bal_toksL xs h.2 ts hm
termination_by structural xs => xs
theorem bal_toksD : ∀ xs : List (OAst × OAst), OWfD xs → ∀ ts ∈ otoksD xs, ∀ s, Padded ts s → QBal s
  | [], _, ts, hm => by cases hm
  | (k, v) :: xs, h, ts, hm => by
    simp only [OWfD] at h
    simp only [otoksD] at hm
    rcases List.mem_cons.1 hm with e | hm
    · rw [e]; exact fun s => bal_app (bal_toks k h.1) fun s' => bal_cons (by decide) (bal_toks v h.2.1)
    · exact bal_toksD xs h.2.2 ts hm
termination_by structural xs => xs
theorem bal_toksA : ∀ xs : List (Str × OAst), OWfA xs → ∀ ts ∈ otoksA xs, ∀ s, Padded ts s → QBal s
  | [], _, ts, hm => by cases hm
  | (k, v) :: xs, h, ts, hm => by
    simp only [OWfA] at h
    simp only [otoksA] at hm
    rcases List.mem_cons.1 hm with e | hm
    · rw [e]; exact fun s => bal_cons (ident_plain h.1).1 fun s' => bal_cons (by decide) (bal_toks v h.2.1)
    · exact bal_toksA xs h.2.2.2 ts hm
termination_by structural xs => xs
end

theorem bal_layout {q : Bool} {n : Str} {kvs : List (Str × OAst)} {s : Str} (hw : OldWf n kvs) (h : OldLayout q n kvs s) : QBal s := by
  obtain ⟨p, ws, rfl, hp, hws⟩ := h
  refine QBal.append ?_ (QIn.ws hws).1
  simp only [otoks] at hp
  refine bal_app (fun s' => bal_app (fun s' => bal_quote q) fun s'' => ?_) (fun s' => bal_quote q) hp
  exact bal_cons (ident_plain hw.1).1 fun s' => bal_cons (by decide) fun s'' => bal_hash (bal_toksA kvs hw.2)

end Whatami.Old
