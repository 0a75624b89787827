import Verif.ParseSem
import Verif.Spec.Within
import Verif.Spec.Same
import Verif.BasicLemmas

/-
Properties of `parse_whatid` on arbitrary strings: C10, C11, C12.
-/
namespace Whatami

/-! ### C10 -/

/-- C10. For every input the recursion of both grammars is bounded: with `24 * (length + 1)` steps of nesting
or more the parser does not run out of steps, and the outcome does not depend on how many more it gets. -/
theorem c10_terminates (s : Str) (n : Nat) (hn : 24 * (s.length + 1) ≤ n) :
    (run newGrammar n false (.ref .whatamiIdTop) s ≠ .timeout ∧
      run newGrammar n false (.ref .whatamiIdTop) s = run newGrammar (24 * (s.length + 1)) false (.ref .whatamiIdTop) s) ∧
    (run oldGrammar n false (.ref .whatamiIdTop) s ≠ .timeout ∧
      run oldGrammar n false (.ref .whatamiIdTop) s = run oldGrammar (24 * (s.length + 1)) false (.ref .whatamiIdTop) s) := by
  have hm : (s.length + 1) * stepsPerChar ≤ 24 * (s.length + 1) := by simp only [stepsPerChar]; omega
  exact ⟨⟨top_terminates newGrammar_noLeftRec (by omega), run_mono_le hn (top_terminates newGrammar_noLeftRec hm)⟩,
    ⟨top_terminates oldGrammar_noLeftRec (by omega), run_mono_le hn (top_terminates oldGrammar_noLeftRec hm)⟩⟩

/-- C10. The same at every rule and every position reached while parsing: the depth is bounded by the number of
characters left. -/
theorem c10_terminates_rule (r : Rule) (s : Str) (inSeq : Bool) (n : Nat) (hn : 24 * (s.length + 1) ≤ n) :
    run newGrammar n inSeq (.ref r) s ≠ .timeout ∧ run oldGrammar n inSeq (.ref r) s ≠ .timeout := by
  have hc : cost ruleRank (.ref r) ≤ 24 := by cases r <;> decide
  constructor
  · exact run_terminates newGrammar_noLeftRec (by cases r <;> decide) (by simp only [stepsPerChar]; omega)
  · exact run_terminates oldGrammar_noLeftRec (by cases r <;> decide) (by simp only [stepsPerChar]; omega)

/-- C10. A rule that succeeds has consumed input, so that no repetition can go on for ever. -/
theorem c10_progress (r : Rule) (inSeq : Bool) (s rest : Str) (ts : List Tree) (n : Nat) :
    (run newGrammar n inSeq (.ref r) s = .ok ts rest → rest.length < s.length) ∧
    (run oldGrammar n inSeq (.ref r) s = .ok ts rest → rest.length < s.length) := by
  constructor
  · intro h; exact (run_consumes newGrammar_noLeftRec.nonnull h).2 rfl
  · intro h; exact (run_consumes oldGrammar_noLeftRec.nonnull h).2 rfl

/-- The exceptions that parsing can raise: no match, an unhashable set element or dict key, an out_name without
parameters; and whatever importing a class raises, or IndexError if it gives None. -/
def ParseErr (E : Env) (e : Err) : Prop :=
  e = .noMatch ∨ e = .typeError ∨ e = .valueError ∨ (∃ m n, E.imp m n = .error e) ∨
    (e = .indexError ∧ ∃ m n, E.imp m n = .ok .none)

theorem rbind_error {α β : Type} {x : R α} {f : α → R β} {e : Err} (h : x.bind f = .error e) :
    x = .error e ∨ ∃ a, x = .ok a ∧ f a = .error e := by
  cases x with
  | error e' => cases h; exact .inl rfl
  | ok a => exact .inr ⟨a, rfl, h⟩

theorem rmap_error {α β : Type} {x : R α} {f : α → β} {e : Err} (h : x.map f = .error e) : x = .error e := by
  cases x with
  | error e' => cases h; rfl
  | ok a => cases h

theorem rbind_ok {α β : Type} {x : R α} {f : α → R β} {b : β} (h : x.bind f = .ok b) :
    ∃ a, x = .ok a ∧ f a = .ok b := by
  cases x with
  | error e' => cases h
  | ok a => exact ⟨a, rfl, h⟩

theorem rmap_ok {α β : Type} {x : R α} {f : α → β} {b : β} (h : x.map f = .ok b) : ∃ a, x = .ok a ∧ f a = b := by
  cases x with
  | error e' => cases h
  | ok a => cases h; exact ⟨a, rfl, rfl⟩

theorem setFrom_error {fi : Str → Option Int} {l acc : List Val} {e : Err} (h : setFrom fi acc l = .error e) : e = .typeError := by
  induction l generalizing acc with
  | nil => cases h
  | cons v l ih =>
    simp only [setFrom] at h
    split at h
    · exact ih h
    · cases h; rfl

theorem dictFrom_error {fi : Str → Option Int} {l acc : List (Val × Val)} {e : Err} (h : dictFrom fi acc l = .error e) :
    e = .typeError := by
  induction l generalizing acc with
  | nil => cases h
  | cons v l ih =>
    obtain ⟨k, v⟩ := v
    simp only [dictFrom] at h
    split at h
    · exact ih h
    · cases h; rfl

/-- The exceptions that well-formed syntax can raise. -/
def SemErr (E : Env) (e : Err) : Prop :=
  e = .typeError ∨ e = .valueError ∨ (∃ m n, E.imp m n = .error e) ∨ (e = .indexError ∧ ∃ m n, E.imp m n = .ok .none)

theorem clsVal_error {E : Env} {b : Str} {e : Err} (h : clsVal E b = .error e) : SemErr E e := by
  simp only [clsVal] at h
  split at h <;> rename_i hi
  · cases h; exact .inr (.inr (.inr ⟨rfl, _, _, hi⟩))
  · cases h
  · cases h
  · cases h
  · cases h; exact .inr (.inr (.inl ⟨_, _, hi⟩))

mutual
theorem sem_error {E : Env} {e : Err} : ∀ a : Ast, sem E a = .error e → SemErr E e
  | .none, h => by simp only [sem] at h; cases h
  | .bool b, h => by simp only [sem] at h; cases h
  | .num t, h => by simp only [sem] at h; cases h
  | .str b, h => by simp only [sem] at h; cases h
  | .cls b, h => clsVal_error (by simpa only [sem] using h)
  | .tuple xs, h => semL_error xs (rmap_error (by simpa only [sem] using h))
  | .list xs, h => semL_error xs (rmap_error (by simpa only [sem] using h))
  | .set xs, h => by
      simp only [sem] at h
      rcases rbind_error h with h | ⟨l, _, h⟩
      · exact semL_error xs h
      · exact .inl (setFrom_error (rmap_error h))
  | .fset xs, h => by
      simp only [sem] at h
      rcases rbind_error h with h | ⟨l, _, h⟩
      · exact semL_error xs h
      · exact .inl (setFrom_error (rmap_error h))
  | .dict kvs, h => by
      simp only [sem] at h
      rcases rbind_error h with h | ⟨l, _, h⟩
      · exact semD_error kvs h
      · exact .inl (dictFrom_error (rmap_error h))
  | .what o n kvs, h => by
      simp only [sem] at h
      rcases rbind_error h with h | ⟨l, _, h⟩
      · exact semA_error kvs h
      · split at h
        · cases h; exact .inr (.inl rfl)
        · cases h
termination_by structural a => a
theorem semL_error {E : Env} {e : Err} : ∀ xs : List Ast, semL E xs = .error e → SemErr E e
  | [], h => by simp only [semL] at h; cases h
  | x :: xs, h => by
      simp only [semL] at h
      rcases rbind_error h with h | ⟨v, _, h⟩
      · exact sem_error x h
      · exact semL_error xs (rmap_error h)
termination_by structural xs => xs
theorem semD_error {E : Env} {e : Err} : ∀ xs : List (Ast × Ast), semD E xs = .error e → SemErr E e
  | [], h => by simp only [semD] at h; cases h
  | (k, v) :: xs, h => by
      simp only [semD] at h
      rcases rbind_error h with h | ⟨k', _, h⟩
      · exact sem_error k h
      · rcases rbind_error h with h | ⟨v', _, h⟩
        · exact sem_error v h
        · exact semD_error xs (rmap_error h)
termination_by structural xs => xs
theorem semA_error {E : Env} {e : Err} : ∀ xs : List (Str × Ast), semA E xs = .error e → SemErr E e
  | [], h => by simp only [semA] at h; cases h
  | (k, v) :: xs, h => by
      simp only [semA] at h
      rcases rbind_error h with h | ⟨v', _, h⟩
      · exact sem_error v h
      · exact semA_error xs (rmap_error h)
termination_by structural xs => xs
end

/-- C10. Every string is either parsed or makes `parse_whatid` raise one of the exceptions above; in particular
the tree visitor never meets a tree it has no case for. -/
theorem c10_no_shape_error (E : Env) (s : Str) (e : Err) (h : parseWhatid E s = .error e) : ParseErr E e := by
  rcases parse_cases (E := E) s with h' | ⟨o, n, kvs, p, ws, _, _, _, _, _, _, h'⟩
  · rw [h'] at h; cases h; exact .inl rfl
  · rw [h'] at h
    simp only [semTop] at h
    rcases rbind_error h with h | ⟨l, _, h⟩
    · exact .inr (semA_error kvs h)
    · split at h
      · cases h; exact .inr (.inr (.inl rfl))
      · cases h

/-- An environment in which `collections.OrderedDict` is the only class that can be imported. -/
def exEnv : Env where
  floatOf t := t
  fi t := if t = c!"1.0" then some 1 else none
  imp m n := if m = c!"collections" ∧ n = c!"OrderedDict" then .ok (.cls c!"collections.OrderedDict") else .error .importError

example : parseWhatid exEnv c!"f(a=1" = .error .noMatch := by rfl
example : parseWhatid exEnv c!"f(a={[]})" = .error .typeError := by rfl
example : parseWhatid exEnv c!"o=f()" = .error .valueError := by rfl
example : parseWhatid exEnv c!"f( a =-1.5e3,\tb={'k':[1,(None,True)]})" =
  .ok ⟨c!"f", [(c!"a", .float c!"-1.5e3"), (c!"b", .dict [(.str c!"k", .list [.int 1, .tuple [.none, .bool true]])])], [], none⟩ := by rfl
example : (24 * (c!"f(a=1").length.succ = 144) := by rfl

/-! ### C12 -/

/-- The letters (and underscore) and digits of ASCII identifiers. -/
def letters : Str := c!"abcdefghijklmnopqrstuvwxyzABCDEFGHIJKLMNOPQRSTUVWXYZ_"
def digits : Str := c!"0123456789"

/-- An ASCII identifier: a letter, then letters and digits. -/
def AsciiIdent (s : Str) : Prop := ∃ c r, s = c :: r ∧ c ∈ letters ∧ ∀ d ∈ r, d ∈ letters ∨ d ∈ digits

theorem letters_iff (c : Char) : isIdStart c = true ↔ c ∈ letters := by
  constructor
  · intro h
    have hb : c.toNat < 123 := by
      simp only [isIdStart, Bool.or_eq_true, beq_iff_eq, decide_eq_true_eq] at h
      rcases h with (rfl | h) | h
      · decide
      · omega
      · omega
    have key : ∀ n, n < 123 → isIdStart (Char.ofNat n) = true → Char.ofNat n ∈ letters := by decide
    have := key c.toNat hb
    rw [Char.ofNat_toNat] at this
    exact this h
  · have key : ∀ c ∈ letters, isIdStart c = true := by decide
    exact key c

theorem digits_iff (c : Char) : isDig c = true ↔ c ∈ digits := by
  constructor
  · intro h
    have hb : c.toNat < 58 := by
      simp only [isDig, decide_eq_true_eq] at h
      omega
    have key : ∀ n, n < 58 → isDig (Char.ofNat n) = true → Char.ofNat n ∈ digits := by decide
    have := key c.toNat hb
    rw [Char.ofNat_toNat] at this
    exact this h
  · have key : ∀ c ∈ digits, isDig c = true := by decide
    exact key c

theorem ident_iff (s : Str) : Ident s ↔ AsciiIdent s := by
  simp only [Ident, AsciiIdent, isIdChar, List.all_eq_true, Bool.or_eq_true, letters_iff, digits_iff]

/-- What the parser guarantees of a What. -/
def WellNamed (name : Str) (conf : Conf) (out : Option Str) : Prop :=
  AsciiIdent name ∧ (∀ x, out = some x → AsciiIdent x) ∧ UniqueKeys conf ∧ ∀ k v, (k, v) ∈ conf → AsciiIdent k

/-- Every What in the value is well named and has no non-id keys, or belongs to something that was imported. -/
def NamedIn (E : Env) (v : Val) : Prop :=
  ∀ n c nk o, Within (.what n c nk o) v →
    (WellNamed n c o ∧ nk = []) ∨ ∃ m x u, E.imp m x = .ok u ∧ Within (.what n c nk o) u

theorem within_inv {x v : Val} (h : Within x v) : x = v ∨ ∃ y, Child y v ∧ Within x y := by
  cases h with
  | refl => exact .inl rfl
  | step h c => exact .inr ⟨_, c, h⟩

/-- A value that is not a What is fine if its components are. -/
theorem namedIn_of {E : Env} {v : Val} (hv : ∀ n c nk o, v ≠ .what n c nk o) (h : ∀ y, Child y v → NamedIn E y) : NamedIn E v := by
  intro n c nk o hw
  rcases within_inv hw with e | ⟨y, hy, hw⟩
  · exact absurd e.symm (hv n c nk o)
  · exact h y hy n c nk o hw

theorem mem_setFrom {fi : Str → Option Int} {l acc out : List Val} {x : Val} (h : setFrom fi acc l = .ok out) (hx : x ∈ out) :
    x ∈ acc ∨ x ∈ l := by
  induction l generalizing acc with
  | nil => cases h; exact .inl hx
  | cons v l ih =>
    simp only [setFrom] at h
    split at h
    · rcases ih h with h | h
      · split at h
        · exact .inl h
        · rcases List.mem_append.1 h with h | h
          · exact .inl h
          · exact .inr (by simp at h; simp [h])
      · exact .inr (by simp [h])
    · cases h

/-- The keys and values of a dict come from the pairs (not necessarily from the same pair). -/
theorem mem_vput {fi : Str → Option Int} {acc : List (Val × Val)} {k v : Val} {x : Val × Val} (h : x ∈ vput fi acc k v) :
    (x.1 = k ∨ ∃ y ∈ acc, x.1 = y.1) ∧ (x.2 = v ∨ ∃ y ∈ acc, x.2 = y.2) := by
  induction acc with
  | nil => simp only [vput, List.mem_singleton] at h; subst h; exact ⟨.inl rfl, .inl rfl⟩
  | cons y acc ih =>
    obtain ⟨k', v'⟩ := y
    simp only [vput] at h
    split at h
    · rcases List.mem_cons.1 h with e | h
      · subst e; exact ⟨.inr ⟨(k', v'), by simp, rfl⟩, .inl rfl⟩
      · exact ⟨.inr ⟨x, by simp [h], rfl⟩, .inr ⟨x, by simp [h], rfl⟩⟩
    · rcases List.mem_cons.1 h with e | h
      · subst e; exact ⟨.inr ⟨(k', v'), by simp, rfl⟩, .inr ⟨(k', v'), by simp, rfl⟩⟩
      · obtain ⟨h1, h2⟩ := ih h
        refine ⟨h1.imp id ?_, h2.imp id ?_⟩ <;> (rintro ⟨y, hy, e⟩; exact ⟨y, by simp [hy], e⟩)

theorem mem_dictFrom {fi : Str → Option Int} {l acc out : List (Val × Val)} {x : Val × Val} (h : dictFrom fi acc l = .ok out) (hx : x ∈ out) :
    (∃ y, (y ∈ acc ∨ y ∈ l) ∧ x.1 = y.1) ∧ (∃ y, (y ∈ acc ∨ y ∈ l) ∧ x.2 = y.2) := by
  induction l generalizing acc with
  | nil => cases h; exact ⟨⟨x, .inl hx, rfl⟩, ⟨x, .inl hx, rfl⟩⟩
  | cons p l ih =>
    obtain ⟨k, v⟩ := p
    simp only [dictFrom] at h
    split at h
    · have step : ∀ (f : Val × Val → Val), (f = Prod.fst ∨ f = Prod.snd) → (∃ y, (y ∈ vput fi acc k v ∨ y ∈ l) ∧ f x = f y) →
          ∃ y, (y ∈ acc ∨ y ∈ (k, v) :: l) ∧ f x = f y := by
        rintro f hf ⟨y, hy | hy, e⟩
        · have hm := mem_vput hy
          rcases hf with rfl | rfl
          · rcases hm.1 with e' | ⟨z, hz, e'⟩
            · exact ⟨(k, v), .inr (by simp), e.trans e'⟩
            · exact ⟨z, .inl hz, e.trans e'⟩
          · rcases hm.2 with e' | ⟨z, hz, e'⟩
            · exact ⟨(k, v), .inr (by simp), e.trans e'⟩
            · exact ⟨z, .inl hz, e.trans e'⟩
        · exact ⟨y, .inr (by simp [hy]), e⟩
      exact ⟨step Prod.fst (.inl rfl) (ih h).1, step Prod.snd (.inr rfl) (ih h).2⟩
    · cases h

theorem clsVal_named {E : Env} {b : Str} {v : Val} (h : clsVal E b = .ok v) : NamedIn E v := by
  have hd : NamedIn E (.dict [(.str c!"class", .str b)]) := by
    refine namedIn_of (by intros; simp) fun y hy => ?_
    have : ∃ s, y = .str s := by
      cases hy with
      | dictKey h => simp at h; exact ⟨_, h.1⟩
      | dictVal h => simp at h; exact ⟨_, h.2⟩
    obtain ⟨s, rfl⟩ := this
    exact namedIn_of (by intros; simp) fun z hz => nomatch hz
  simp only [clsVal] at h
  split at h <;> rename_i hi
  · cases h
  · cases h
    intro n c nk o hw
    exact .inr ⟨_, _, _, hi, hw⟩
  · cases h; exact hd
  · cases h; exact hd
  · cases h

theorem what_named {E : Env} {n : Str} {o : Option Str} {l : List (Str × Val)} (ho : ∀ x, o = some x → Ident x) (hn : Ident n)
    (hl : ∀ k v, (k, v) ∈ l → Ident k ∧ NamedIn E v) : NamedIn E (.what n (dictOf l) [] o) := by
  intro n' c nk o' hw
  rcases within_inv hw with e | ⟨y, hy, hw⟩
  · cases e
    refine .inl ⟨⟨(ident_iff _).1 hn, fun x hx => (ident_iff _).1 (ho x hx), nodup_dictOf l, ?_⟩, rfl⟩
    intro k v hkv
    exact (ident_iff _).1 (hl k v (mem_dictOf hkv)).1
  · cases hy with
    | what k _ _ _ h => exact (hl k y (mem_dictOf h)).2 _ _ _ _ hw

mutual
theorem sem_named {E : Env} : ∀ (a : Ast), Wf a → ∀ v, sem E a = .ok v → NamedIn E v
  | .none, _, v, h => by
      simp only [sem] at h; cases h
      exact namedIn_of (by intros; simp) fun y hy => nomatch hy
  | .bool b, _, v, h => by
      simp only [sem] at h; cases h
      exact namedIn_of (by intros; simp) fun y hy => nomatch hy
  | .num t, _, v, h => by
      simp only [sem, numberOf] at h; cases h
      cases pyInt t <;> exact namedIn_of (by intros; simp) fun y hy => nomatch hy
  | .str b, _, v, h => by
      simp only [sem] at h; cases h
      exact namedIn_of (by intros; simp) fun y hy => nomatch hy
  | .cls b, _, v, h => clsVal_named (by simpa only [sem] using h)
  | .tuple xs, hw, v, h => by
      simp only [sem] at h
      obtain ⟨l, hl, e⟩ := rmap_ok h
      have := semL_named xs (by simpa only [Wf] using hw) l hl
      rw [← e]
      exact namedIn_of (by intros; simp) fun y hy => by cases hy with | tuple hm => exact this y hm
  | .list xs, hw, v, h => by
      simp only [sem] at h
      obtain ⟨l, hl, e⟩ := rmap_ok h
      have := semL_named xs (by simpa only [Wf] using hw) l hl
      rw [← e]
      exact namedIn_of (by intros; simp) fun y hy => by cases hy with | list hm => exact this y hm
  | .set xs, hw, v, h => by
      simp only [sem] at h
      obtain ⟨l, hl, h⟩ := rbind_ok h
      obtain ⟨l', hl', e⟩ := rmap_ok h
      have := semL_named xs (by simpa only [Wf] using hw) l hl
      rw [← e]
      exact namedIn_of (by intros; simp) fun y hy => by
        cases hy with
        | set hm =>
          rcases mem_setFrom hl' hm with hm | hm
          · cases hm
          · exact this y hm
  | .fset xs, hw, v, h => by
      simp only [sem] at h
      obtain ⟨l, hl, h⟩ := rbind_ok h
      obtain ⟨l', hl', e⟩ := rmap_ok h
      have := semL_named xs (by simpa only [Wf] using hw) l hl
      rw [← e]
      exact namedIn_of (by intros; simp) fun y hy => by
        cases hy with
        | set hm =>
          rcases mem_setFrom hl' hm with hm | hm
          · cases hm
          · exact this y hm
  | .dict kvs, hw, v, h => by
      simp only [sem] at h
      obtain ⟨l, hl, h⟩ := rbind_ok h
      obtain ⟨l', hl', e⟩ := rmap_ok h
      have := semD_named kvs (by simpa only [Wf] using hw) l hl
      rw [← e]
      exact namedIn_of (by intros; simp) fun y hy => by
        cases hy with
        | dictKey hm =>
          obtain ⟨z, hz, e⟩ := (mem_dictFrom hl' hm).1
          rcases hz with hz | hz
          · cases hz
          · exact (show y = z.1 from e) ▸ (this z hz).1
        | dictVal hm =>
          obtain ⟨z, hz, e⟩ := (mem_dictFrom hl' hm).2
          rcases hz with hz | hz
          · cases hz
          · exact (show y = z.2 from e) ▸ (this z hz).2
  | .what o n kvs, hw, v, h => by
      simp only [sem] at h
      simp only [Wf] at hw
      obtain ⟨l, hl, h⟩ := rbind_ok h
      have := semA_named kvs hw.2.2.2 l hl
      split at h
      · cases h
      · cases h
        exact what_named hw.1 hw.2.1 this
termination_by structural a => a
theorem semL_named {E : Env} : ∀ (xs : List Ast), WfL xs → ∀ l, semL E xs = .ok l → ∀ v ∈ l, NamedIn E v
  | [], _, l, h => by simp only [semL] at h; cases h; intro v hv; cases hv
  | x :: xs, hw, l, h => by
      simp only [semL] at h
      simp only [WfL] at hw
      obtain ⟨v', hv, h⟩ := rbind_ok h
      obtain ⟨l', hl, e⟩ := rmap_ok h
      have h1 := sem_named x hw.1 v' hv
      have h2 := semL_named xs hw.2 l' hl
      intro v hm
      rw [← e] at hm
      rcases List.mem_cons.1 hm with e | hm
      · rw [e]; exact h1
      · exact h2 v hm
termination_by structural xs => xs
theorem semD_named {E : Env} : ∀ (xs : List (Ast × Ast)), WfD xs → ∀ l, semD E xs = .ok l → ∀ p ∈ l, NamedIn E p.1 ∧ NamedIn E p.2
  | [], _, l, h => by simp only [semD] at h; cases h; intro v hv; cases hv
  | (k, v) :: xs, hw, l, h => by
      simp only [semD] at h
      simp only [WfD] at hw
      obtain ⟨k', hk, h⟩ := rbind_ok h
      obtain ⟨v', hv, h⟩ := rbind_ok h
      obtain ⟨l', hl, e⟩ := rmap_ok h
      have h0 := sem_named k hw.1 k' hk
      have h1 := sem_named v hw.2.1 v' hv
      have h2 := semD_named xs hw.2.2 l' hl
      intro p hm
      rw [← e] at hm
      rcases List.mem_cons.1 hm with e | hm
      · rw [e]; exact ⟨h0, h1⟩
      · exact h2 p hm
termination_by structural xs => xs
theorem semA_named {E : Env} : ∀ (xs : List (Str × Ast)), WfA xs → ∀ l, semA E xs = .ok l → ∀ k v, (k, v) ∈ l → Ident k ∧ NamedIn E v
  | [], _, l, h => by simp only [semA] at h; cases h; intro k v hv; cases hv
  | (k, v) :: xs, hw, l, h => by
      simp only [semA] at h
      simp only [WfA] at hw
      obtain ⟨v', hv, h⟩ := rbind_ok h
      obtain ⟨l', hl, e⟩ := rmap_ok h
      have h1 := sem_named v hw.2.1 v' hv
      have h2 := semA_named xs hw.2.2 l' hl
      intro k1 v1 hm
      rw [← e] at hm
      rcases List.mem_cons.1 hm with e | hm
      · cases e; exact ⟨hw.1, h1⟩
      · exact h2 k1 v1 hm
termination_by structural xs => xs
end

/-- C12. The returned What, and every What nested anywhere in it, has an ASCII identifier for a name, out_name and
keys, each key once, and no non-id keys.  The only exception are Whats inside objects that a `<class '...'>` made
the parser import. -/
theorem c12_well_named (E : Env) (s : Str) (w : What) (h : parseWhatid E s = .ok w) :
    WellNamed w.name w.conf w.out ∧ w.nonids = [] ∧
    ∀ n c nk o, Within (.what n c nk o) w.toVal →
      (WellNamed n c o ∧ nk = []) ∨ ∃ m x u, E.imp m x = .ok u ∧ Within (.what n c nk o) u := by
  rcases parse_cases (E := E) s with h' | ⟨o, n, kvs, p, ws, ho, hn, hk, _, _, _, h'⟩
  · rw [h'] at h; cases h
  · rw [h'] at h
    simp only [semTop] at h
    obtain ⟨l, hl, h⟩ := rbind_ok h
    split at h
    · cases h
    · cases h
      have := semA_named kvs hk l hl
      refine ⟨⟨(ident_iff _).1 hn, fun x hx => (ident_iff _).1 (ho x hx), nodup_dictOf l, ?_⟩, rfl, what_named ho hn this⟩
      intro k v hkv
      exact (ident_iff _).1 (this k v (mem_dictOf hkv)).1

/-- C12 when importing gives classes only (no Whats inside). -/
theorem c12_well_named_classes (E : Env) (hE : ∀ m x u, E.imp m x = .ok u → ∃ f, u = .cls f) (s : Str) (w : What)
    (h : parseWhatid E s = .ok w) (n : Str) (c : Conf) (nk : List Str) (o : Option Str) (hw : Within (.what n c nk o) w.toVal) :
    WellNamed n c o ∧ nk = [] := by
  rcases (c12_well_named E s w h).2.2 n c nk o hw with h | ⟨m, x, u, hi, hu⟩
  · exact h
  · obtain ⟨f, rfl⟩ := hE m x u hi
    rcases within_inv hu with e | ⟨y, hy, _⟩
    · cases e
    · cases hy

/-- Repeated keys: the last value wins. -/
example : parseWhatid exEnv c!"y=f(a=1,b=[g(c=2,c=3)],a=2)" =
    .ok ⟨c!"f", [(c!"a", .int 2), (c!"b", .list [.what c!"g" [(c!"c", .int 3)] [] none])], [], some c!"y"⟩ := by rfl
example : Within (.what c!"g" [(c!"c", .int 3)] [] none)
    (What.toVal ⟨c!"f", [(c!"a", .int 2), (c!"b", .list [.what c!"g" [(c!"c", .int 3)] [] none])], [], some c!"y"⟩) :=
  .step (y := .list [.what c!"g" [(c!"c", .int 3)] [] none]) (.step (.refl _) (.list (by simp))) (.what c!"b" _ _ _ (by simp))
example : ∀ m x u, exEnv.imp m x = .ok u → ∃ f, u = .cls f := by
  intro m x u h
  simp only [exEnv] at h
  split at h
  · cases h; exact ⟨_, rfl⟩
  · cases h

/-! ### C11 -/

/-- The punctuation and the keywords of ids. -/
def symbols : List Str := [c!"(", c!")", c!"[", c!"]", c!"{", c!"}", c!",", c!"=", c!":", c!"'", c!">", c!"<class ", c!"set()",
  c!"frozenset()", c!"frozenset({", c!"})", c!"None", c!"True", c!"False"]

/-- A token: a symbol, an identifier, a number, or what follows the opening quote of a string literal. -/
def Token (t : Str) : Prop := t ∈ symbols ∨ AsciiIdent t ∨ NumShape t ∨ ∃ b, t = b ++ c!"'"

theorem sepToks_tokens {l : List (List Str)} (h : ∀ x ∈ l, ∀ t ∈ x, Token t) : ∀ t ∈ sepToks l, Token t := by
  induction l with
  | nil => intro t ht; cases ht
  | cons x l ih =>
    cases l with
    | nil => intro t ht; exact h x (by simp) t ht
    | cons y l =>
      intro t ht
      simp only [sepToks, List.mem_append, List.mem_cons] at ht
      rcases ht with ht | rfl | ht
      · exact h x (by simp) t ht
      · exact .inl (by decide)
      · exact ih (fun z hz => h z (by simp [hz])) t ht

theorem bracket_tokens {op cl : Str} {l : List (List Str)} (ho : op ∈ symbols) (hc : cl ∈ symbols)
    (h : ∀ x ∈ l, ∀ t ∈ x, Token t) : ∀ t ∈ op :: sepToks l ++ [cl], Token t := by
  intro t ht
  simp only [List.cons_append, List.mem_cons, List.mem_append, List.not_mem_nil, or_false] at ht
  rcases ht with rfl | ht | rfl
  · exact .inl ho
  · exact sepToks_tokens h t ht
  · exact .inl hc

theorem what_tokens {o : Option Str} {n : Str} {l : List (List Str)} (ho : ∀ x, o = some x → Ident x) (hn : Ident n)
    (h : ∀ x ∈ l, ∀ t ∈ x, Token t) : ∀ t ∈ outToks o ++ n :: c!"(" :: sepToks l ++ [c!")"], Token t := by
  intro t ht
  rw [List.append_assoc, List.cons_append] at ht
  rcases List.mem_append.1 ht with ht | ht
  · cases o with
    | none => cases ht
    | some x =>
      simp only [outToks, List.mem_cons, List.not_mem_nil, or_false] at ht
      rcases ht with rfl | rfl
      · exact .inr (.inl ((ident_iff _).1 (ho _ rfl)))
      · exact .inl (by decide)
  · rcases List.mem_cons.1 ht with rfl | ht
    · exact .inr (.inl ((ident_iff _).1 hn))
    · exact bracket_tokens (by decide) (by decide) h t ht

mutual
theorem toks_tokens : ∀ (a : Ast), Wf a → ∀ t ∈ toks a, Token t
  | .none, _, t, ht => by simp only [toks, List.mem_singleton] at ht; rw [ht]; exact .inl (by decide)
  | .bool b, _, t, ht => by
      simp only [toks, List.mem_singleton] at ht; rw [ht]
      cases b <;> exact .inl (by decide)
  | .num u, h, t, ht => by simp only [toks, List.mem_singleton] at ht; rw [ht]; exact .inr (.inr (.inl (by simpa only [Wf] using h)))
  | .str b, _, t, ht => by
      simp only [toks, List.mem_cons, List.not_mem_nil, or_false] at ht
      rcases ht with ht | ht <;> rw [ht]
      · exact .inl (by decide)
      · exact .inr (.inr (.inr ⟨b, rfl⟩))
  | .cls b, _, t, ht => by
      simp only [toks, List.mem_cons, List.not_mem_nil, or_false] at ht
      rcases ht with ht | ht | ht | ht <;> rw [ht]
      · exact .inl (by decide)
      · exact .inl (by decide)
      · exact .inr (.inr (.inr ⟨b, rfl⟩))
      · exact .inl (by decide)
  | .tuple xs, h, t, ht => by
      simp only [toks] at ht
      exact bracket_tokens (by decide) (by decide) (toksL_tokens xs (by simpa only [Wf] using h)) t ht
  | .list xs, h, t, ht => by
      simp only [toks] at ht
      exact bracket_tokens (by decide) (by decide) (toksL_tokens xs (by simpa only [Wf] using h)) t ht
  | .set xs, h, t, ht => by
      simp only [toks] at ht
      have hx := toksL_tokens xs (by simpa only [Wf] using h)
      split at ht
      · simp only [List.mem_singleton] at ht; rw [ht]; exact .inl (by decide)
      · exact bracket_tokens (by decide) (by decide) hx t ht
  | .fset xs, h, t, ht => by
      simp only [toks] at ht
      have hx := toksL_tokens xs (by simpa only [Wf] using h)
      split at ht
      · simp only [List.mem_singleton] at ht; rw [ht]; exact .inl (by decide)
      · exact bracket_tokens (by decide) (by decide) hx t ht
  | .dict kvs, h, t, ht => by
      simp only [toks] at ht
      exact bracket_tokens (by decide) (by decide) (toksD_tokens kvs (by simpa only [Wf] using h)) t ht
  | .what o n kvs, h, t, ht => by
      simp only [toks] at ht
      simp only [Wf] at h
      exact what_tokens h.1 h.2.1 (toksA_tokens kvs h.2.2.2) t ht
termination_by structural a => a
theorem toksL_tokens : ∀ (xs : List Ast), WfL xs → ∀ x ∈ toksL xs, ∀ t ∈ x, Token t
  | [], _, x, hx => by simp only [toksL] at hx; cases hx
  | y :: ys, h, x, hx => by
      simp only [WfL] at h
      have h1 := toks_tokens y h.1
      have h2 := toksL_tokens ys h.2
      simp only [toksL] at hx
      rcases List.mem_cons.1 hx with e | hx
      · rw [e]; exact h1
      · exact h2 x hx
termination_by structural xs => xs
theorem toksD_tokens : ∀ (xs : List (Ast × Ast)), WfD xs → ∀ x ∈ toksD xs, ∀ t ∈ x, Token t
  | [], _, x, hx => by simp only [toksD] at hx; cases hx
  | (k, v) :: ys, h, x, hx => by
      simp only [WfD] at h
      have h0 := toks_tokens k h.1
      have h1 := toks_tokens v h.2.1
      have h2 := toksD_tokens ys h.2.2
      simp only [toksD] at hx
      rcases List.mem_cons.1 hx with e | hx
      · rw [e]
        intro t ht
        rcases List.mem_append.1 ht with ht | ht
        · exact h0 t ht
        · rcases List.mem_cons.1 ht with e | ht
          · rw [e]; exact .inl (by decide)
          · exact h1 t ht
      · exact h2 x hx
termination_by structural xs => xs
theorem toksA_tokens : ∀ (xs : List (Str × Ast)), WfA xs → ∀ x ∈ toksA xs, ∀ t ∈ x, Token t
  | [], _, x, hx => by simp only [toksA] at hx; cases hx
  | (k, v) :: ys, h, x, hx => by
      simp only [WfA] at h
      have h1 := toks_tokens v h.2.1
      have h2 := toksA_tokens ys h.2.2
      simp only [toksA] at hx
      rcases List.mem_cons.1 hx with e | hx
      · rw [e]
        intro t ht
        rcases List.mem_cons.1 ht with e | ht
        · rw [e]; exact .inr (.inl ((ident_iff _).1 h.1))
        · rcases List.mem_cons.1 ht with e | ht
          · rw [e]; exact .inl (by decide)
          · exact h1 t ht
      · exact h2 x hx
termination_by structural xs => xs
end

/-- The tokens of `set()` and `frozenset()` as a nested id do not occur. -/
def NoSetTokens (ts : List Str) : Prop := ¬ [c!"set", c!"(", c!")"] <:+: ts ∧ ¬ [c!"frozenset", c!"(", c!")"] <:+: ts

theorem NoSetTokens.mono {ts us : List Str} (h : NoSetTokens us) (hi : ts <:+: us) : NoSetTokens ts :=
  ⟨fun k => h.1 (k.trans hi), fun k => h.2 (k.trans hi)⟩

theorem infix_sepToks {l : List (List Str)} {x : List Str} (h : x ∈ l) : x <:+: sepToks l := by
  induction l with
  | nil => cases h
  | cons y l ih =>
    cases l with
    | nil => simp only [List.mem_singleton] at h; subst h; exact List.infix_refl _
    | cons z l =>
      rcases List.mem_cons.1 h with rfl | h
      · exact (List.prefix_append _ _).isInfix
      · exact (ih h).trans ((List.suffix_cons _ _).trans (List.suffix_append _ _)).isInfix

theorem infix_bracket {op cl : Str} {l : List Str} : l <:+: op :: l ++ [cl] := ⟨[op], [cl], by simp⟩

mutual
theorem noSetCall_of : ∀ a : Ast, NoSetTokens (toks a) → NoSetCall a
  | .none, _ => by simp only [NoSetCall]
  | .bool b, _ => by simp only [NoSetCall]
  | .num t, _ => by simp only [NoSetCall]
  | .str b, _ => by simp only [NoSetCall]
  | .cls b, _ => by simp only [NoSetCall]
  | .tuple xs, h => by
      simp only [toks] at h
      simp only [NoSetCall]
      exact noSetCallL_of xs (h.mono infix_bracket)
  | .list xs, h => by
      simp only [toks] at h
      simp only [NoSetCall]
      exact noSetCallL_of xs (h.mono infix_bracket)
  | .set [], _ => by simp only [NoSetCall, NoSetCallL]
  | .set (x :: xs), h => by
      simp only [toks, List.isEmpty_cons] at h
      simp only [NoSetCall]
      exact noSetCallL_of (x :: xs) (h.mono infix_bracket)
  | .fset [], _ => by simp only [NoSetCall, NoSetCallL]
  | .fset (x :: xs), h => by
      simp only [toks, List.isEmpty_cons] at h
      simp only [NoSetCall]
      exact noSetCallL_of (x :: xs) (h.mono infix_bracket)
  | .dict kvs, h => by
      simp only [toks] at h
      simp only [NoSetCall]
      exact noSetCallD_of kvs (h.mono infix_bracket)
  | .what o n kvs, h => by
      simp only [toks] at h
      simp only [NoSetCall]
      refine ⟨?_, noSetCallA_of kvs (h.mono ?_)⟩
      · intro _ hk
        rw [hk] at h
        have hi : [n, c!"(", c!")"] <:+: outToks o ++ n :: c!"(" :: sepToks (toksA []) ++ [c!")"] :=
          ⟨outToks o, [], by simp [toksA, sepToks]⟩
        exact ⟨fun e => h.1 (e ▸ hi), fun e => h.2 (e ▸ hi)⟩
      · exact ⟨outToks o ++ [n, c!"("], [c!")"], by simp⟩
termination_by structural a => a
theorem noSetCallL_of : ∀ xs : List Ast, NoSetTokens (sepToks (toksL xs)) → NoSetCallL xs
  | [], _ => by simp only [NoSetCallL]
  | x :: xs, h => by
      simp only [NoSetCallL]
      refine ⟨noSetCall_of x (h.mono (infix_sepToks (by simp [toksL]))), noSetCallL_of xs (h.mono ?_)⟩
      simp only [toksL]
      cases toksL xs with
      | nil => exact List.nil_infix
      | cons y l => exact ((List.suffix_cons _ _).trans (List.suffix_append _ _)).isInfix
termination_by structural xs => xs
theorem noSetCallD_of : ∀ xs : List (Ast × Ast), NoSetTokens (sepToks (toksD xs)) → NoSetCallD xs
  | [], _ => by simp only [NoSetCallD]
  | (k, v) :: xs, h => by
      simp only [NoSetCallD]
      have hi : toks k ++ c!":" :: toks v <:+: sepToks (toksD ((k, v) :: xs)) := infix_sepToks (by simp [toksD])
      refine ⟨noSetCall_of k (h.mono ((List.prefix_append _ _).isInfix.trans hi)),
        noSetCall_of v (h.mono (((List.suffix_cons _ _).trans (List.suffix_append _ _)).isInfix.trans hi)), noSetCallD_of xs (h.mono ?_)⟩
      simp only [toksD]
      cases toksD xs with
      | nil => exact List.nil_infix
      | cons y l => exact ((List.suffix_cons _ _).trans (List.suffix_append _ _)).isInfix
termination_by structural xs => xs
theorem noSetCallA_of : ∀ xs : List (Str × Ast), NoSetTokens (sepToks (toksA xs)) → NoSetCallA xs
  | [], _ => by simp only [NoSetCallA]
  | (k, v) :: xs, h => by
      simp only [NoSetCallA]
      have hi : k :: c!"=" :: toks v <:+: sepToks (toksA ((k, v) :: xs)) := infix_sepToks (by simp [toksA])
      refine ⟨noSetCall_of v (h.mono (((List.suffix_cons _ _).trans (List.suffix_cons _ _)).isInfix.trans hi)), noSetCallA_of xs (h.mono ?_)⟩
      simp only [toksA]
      cases toksA xs with
      | nil => exact List.nil_infix
      | cons y l => exact ((List.suffix_cons _ _).trans (List.suffix_append _ _)).isInfix
termination_by structural xs => xs
end

/-- Blanks: spaces, tabs, newlines and carriage returns. -/
def Blanks (ws : Str) : Prop := ∀ c ∈ ws, c = ' ' ∨ c = '\t' ∨ c = '\n' ∨ c = '\r'

/-- The text is these tokens in this order, each with any amount of blanks before it. -/
inductive Spaced : List Str → Str → Prop
  | nil : Spaced [] []
  | cons {ws t : Str} {ts : List Str} {s : Str} : Blanks ws → Spaced ts s → Spaced (t :: ts) (ws ++ (t ++ s))

theorem blanks_iff {ws : Str} : Blanks ws ↔ ws.all isWs = true := by
  simp only [Blanks, List.all_eq_true, isWs, Bool.or_eq_true, beq_iff_eq, or_assoc]

theorem spaced_iff {ts : List Str} {s : Str} : Spaced ts s ↔ Padded ts s := by
  constructor
  · intro h
    induction h with
    | nil => exact .nil
    | cons hw _ ih => exact .cons (blanks_iff.1 hw) ih
  · intro h
    induction h with
    | nil => exact .nil
    | cons hw _ ih => exact .cons (blanks_iff.2 hw) ih

/-- C11. Every accepted string is a sequence of tokens with whitespace between them, and every other string with
the same tokens in the same order, whatever the whitespace, parses to the same What (provided `set ( )` and
`frozenset ( )` do not occur: written without blanks these are the empty set instead). -/
theorem c11_whitespace (E : Env) (s : Str) (w : What) (h : parseWhatid E s = .ok w) :
    ∃ (ts : List Str) (p ws : Str), s = p ++ ws ∧ Spaced ts p ∧ Blanks ws ∧ (∀ t ∈ ts, Token t) ∧
      (NoSetTokens ts → ∀ p' ws', Spaced ts p' → Blanks ws' → parseWhatid E (p' ++ ws') = .ok w) := by
  rcases parse_cases (E := E) s with h' | ⟨o, n, kvs, p, ws, ho, hn, hk, hs, hp, hw, h'⟩
  · rw [h'] at h; cases h
  · rw [h'] at h
    refine ⟨toks (.what o n kvs), p, ws, hs, spaced_iff.2 hp, blanks_iff.2 hw, ?_, ?_⟩
    · intro t ht
      simp only [toks] at ht
      exact what_tokens ho hn (toksA_tokens kvs hk) t ht
    · intro hc p' ws' hp' hw'
      rw [parse_padded ho hn hk (noSetCallA_of kvs (hc.mono ?_)) (spaced_iff.1 hp') (blanks_iff.1 hw'), h]
      exact ⟨outToks o ++ [n, c!"("], [c!")"], by simp [toks]⟩

/-- C11 from the syntax: any two layouts of the same tokens give the same result, be it a What or an exception. -/
theorem c11_layouts (E : Env) {o : Option Str} {n : Str} {kvs : List (Str × Ast)} (ho : ∀ x, o = some x → Ident x) (hn : Ident n)
    (hk : WfA kvs) (hc : NoSetCallA kvs) {p p' ws ws' : Str} (hp : Spaced (toks (.what o n kvs)) p) (hp' : Spaced (toks (.what o n kvs)) p')
    (hw : Blanks ws) (hw' : Blanks ws') : parseWhatid E (p ++ ws) = parseWhatid E (p' ++ ws') := by
  rw [parse_padded ho hn hk hc (spaced_iff.1 hp) (blanks_iff.1 hw), parse_padded ho hn hk hc (spaced_iff.1 hp') (blanks_iff.1 hw')]

example : Spaced [c!"f", c!"(", c!"a", c!"=", c!"1", c!")"] c!" f (\n\ta = 1)" :=
  spaced_iff.2 (.cons (ws := c!" ") rfl (.cons (ws := c!" ") rfl (.cons (ws := c!"\n\t") rfl (.cons (ws := c!" ") rfl (.cons (ws := c!" ") rfl
    (.cons (ws := []) rfl .nil))))))
example : parseWhatid exEnv c!" f (\n\ta = 1)" = parseWhatid exEnv c!"f(a=1)" := by rfl
/-- The proviso is needed. -/
example : parseWhatid exEnv c!"f(a=set ())" = .ok ⟨c!"f", [(c!"a", .what c!"set" [] [] none)], [], none⟩ ∧
    parseWhatid exEnv c!"f(a=set())" = .ok ⟨c!"f", [(c!"a", .set [])], [], none⟩ := ⟨by rfl, by rfl⟩

end Whatami
