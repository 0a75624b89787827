import Verif.Calm
import Verif.QuoteScan
import Verif.Props.Accepts

/-
Every text with whole literals is a text of well-formed syntax, but for the names of nested ids: literals lose the whitespace they begin with, and
nested calls `set()` and `frozenset()` are empty sets.
Definitions here are vocabulary for statements and proofs: the code they are about is cited in the model modules.
-/
namespace Whatami

mutual
/-- The syntax that is read from the text of another. -/
def calm : Ast → Ast
  | .none => .none
  | .bool b => .bool b
  | .num t => .num t
  | .str b => .str (skipWs b)
  | .cls b => .cls b
  | .tuple xs => .tuple (calmL xs)
  | .list xs => .list (calmL xs)
  | .set xs => .set (calmL xs)
  | .fset xs => .fset (calmL xs)
  | .dict kvs => .dict (calmD kvs)
  | .what o n kvs => if o.isNone && kvs.isEmpty && n == c!"set" then .set [] else if o.isNone && kvs.isEmpty && n == c!"frozenset" then .fset [] else .what o n (calmA kvs)
termination_by structural a => a
/-- Of all elements. -/
def calmL : List Ast → List Ast
  | [] => []
  | x :: xs => calm x :: calmL xs
termination_by structural xs => xs
/-- Of all items. -/
def calmD : List (Ast × Ast) → List (Ast × Ast)
  | [] => []
  | (k, v) :: xs => (calm k, calm v) :: calmD xs
termination_by structural xs => xs
/-- Of all parameters. -/
def calmA : List (Str × Ast) → List (Str × Ast)
  | [] => []
  | (k, v) :: xs => (k, calm v) :: calmA xs
termination_by structural xs => xs
end

mutual
/-- No nested id goes by a name that starts like a value. -/
def Nameable : Ast → Prop
  | .tuple xs | .list xs | .set xs | .fset xs => NameableL xs
  | .dict kvs => NameableD kvs
  | .what o n kvs => NestedStart (o.getD n) ∧ NameableA kvs
  | _ => True
termination_by structural a => a
/-- None in the elements. -/
def NameableL : List Ast → Prop
  | [] => True
  | x :: xs => Nameable x ∧ NameableL xs
termination_by structural xs => xs
/-- None in the keys and values. -/
def NameableD : List (Ast × Ast) → Prop
  | [] => True
  | (k, v) :: xs => Nameable k ∧ Nameable v ∧ NameableD xs
termination_by structural xs => xs
/-- None in the parameters. -/
def NameableA : List (Str × Ast) → Prop
  | [] => True
  | (_, v) :: xs => Nameable v ∧ NameableA xs
termination_by structural xs => xs
end

theorem calmL_map (xs : List Ast) : calmL xs = xs.map calm := by
  induction xs with | nil => rfl | cons x xs ih => simp only [calmL, ih, List.map_cons]
theorem calmD_map (xs : List (Ast × Ast)) : calmD xs = xs.map fun x => (calm x.1, calm x.2) := by
  induction xs with | nil => rfl | cons x xs ih => obtain ⟨k, v⟩ := x; simp only [calmD, ih, List.map_cons]
theorem calmA_map (xs : List (Str × Ast)) : calmA xs = xs.map fun x => (x.1, calm x.2) := by
  induction xs with | nil => rfl | cons x xs ih => obtain ⟨k, v⟩ := x; simp only [calmA, ih, List.map_cons]

theorem nameableL_iff {xs : List Ast} : NameableL xs ↔ ∀ x ∈ xs, Nameable x := by
  induction xs with | nil => simp [NameableL] | cons x xs ih => simp [NameableL, ih]
theorem nameableD_iff {xs : List (Ast × Ast)} : NameableD xs ↔ ∀ x ∈ xs, Nameable x.1 ∧ Nameable x.2 := by
  induction xs with | nil => simp [NameableD] | cons x xs ih => simp [NameableD, ih, and_assoc]
theorem nameableA_iff {xs : List (Str × Ast)} : NameableA xs ↔ ∀ x ∈ xs, Nameable x.2 := by
  induction xs with | nil => simp [NameableA] | cons x xs ih => simp [NameableA, ih]
theorem noSetCallL_iff {xs : List Ast} : NoSetCallL xs ↔ ∀ x ∈ xs, NoSetCall x := by
  induction xs with | nil => simp [NoSetCallL] | cons x xs ih => simp [NoSetCallL, ih]
theorem noSetCallD_iff {xs : List (Ast × Ast)} : NoSetCallD xs ↔ ∀ x ∈ xs, NoSetCall x.1 ∧ NoSetCall x.2 := by
  induction xs with | nil => simp [NoSetCallD] | cons x xs ih => simp [NoSetCallD, ih, and_assoc]
theorem noSetCallA_iff {xs : List (Str × Ast)} : NoSetCallA xs ↔ ∀ x ∈ xs, NoSetCall x.2 := by
  induction xs with | nil => simp [NoSetCallA] | cons x xs ih => simp [NoSetCallA, ih]

theorem units_skip {b : Str} (h : Units b) : Units (skipWs b) := by
  induction h with
  | nil => exact .nil
  | @char c r h1 h2 h ih =>
    simp only [skipWs, List.dropWhile]
    split
    · exact ih
    · exact .char h1 h2 h
  | esc h1 h _ => exact .esc h1 h
  | backslashNl h _ => exact .backslashNl h

theorem skip_head {b : Str} : ∀ c r, skipWs b = c :: r → isWs c = false := by
  induction b with
  | nil => intro c r h; cases h
  | cons d b ih =>
    intro c r h
    simp only [skipWs, List.dropWhile] at h
    split at h
    · exact ih c r h
    · next hd => cases h; simpa using hd

theorem good_skip {b : Str} (h : Units b) : GoodBody (skipWs b) := ⟨units_skip h, skip_head⟩

theorem good_class {b : Str} (h : ClassName b) : GoodBody b := by
  refine ⟨?_, fun c r e => (h c (by rw [e]; simp)).2.2⟩
  induction b with
  | nil => exact .nil
  | cons c b ih => exact .char (h c (by simp)).1 (h c (by simp)).2.1 (ih fun d hd => h d (by simp [hd]))

theorem padded_one (t : Str) : Padded [t] t := by simpa using padded_flatten [t]

theorem padded_pre (t : Str) {ts : List Str} {s : Str} (h : Padded ts s) : Padded (t :: ts) (t ++ s) := by
  simpa using Padded.cons (ws := []) (t := t) rfl h

theorem padded_str (b : Str) : Padded (toks (.str (skipWs b))) (text (.str b)) := by
  have e : text (.str b) = c!"'" ++ (b.takeWhile isWs ++ ((skipWs b ++ c!"'") ++ [])) := by
    simp [text, toks, skipWs, ← List.append_assoc]
  rw [e]
  simp only [toks]
  exact padded_pre _ (.cons (by simp) .nil)

theorem padded_sep {α : Type} {f g : α → List Str} {xs : List α} (h : ∀ x ∈ xs, Padded (f x) (g x).flatten) :
    Padded (sepToks (xs.map f)) (sepToks (xs.map g)).flatten := by
  match xs with
  | [] => exact .nil
  | [x] => exact h x (by simp)
  | x :: y :: ys =>
    have ih := padded_sep (f := f) (g := g) (xs := y :: ys) fun z hz => h z (by simp [hz])
    have := padded_join (h x (by simp)) (padded_pre c!"," ih)
    simpa [sepToks] using this
termination_by xs.length

theorem padded_bracket (op cl : Str) {ts us : List Str} (h : Padded ts us.flatten) : Padded (op :: ts ++ [cl]) (op :: us ++ [cl]).flatten := by
  have := padded_pre op (padded_join h (padded_one cl))
  simpa using this

/-- `c` is what is read from the text of `a`. -/
structure Calms (a c : Ast) : Prop where
  padded : Padded (toks c) (text a)
  free : NoSetCall c
  soft : Soft c
  wf : Wf c ↔ Nameable a
  any : ∀ E : Env, Any E c ↔ Any E a
  hashed : ∀ E : Env, Hashed E c ↔ Hashed E a

theorem calms_refl {a : Ast} (h1 : NoSetCall a) (h2 : Soft a) (h3 : Wf a ↔ Nameable a) : Calms a a :=
  ⟨padded_text a, h1, h2, h3, fun _ => Iff.rfl, fun _ => Iff.rfl⟩

section
variable {xs : List Ast} (h : ∀ x ∈ xs, Calms x (calm x))
include h

theorem calmsL_padded : Padded (sepToks (toksL (calmL xs))) (sepToks (toksL xs)).flatten := by
  rw [toksL_map, toksL_map, calmL_map, List.map_map]
  exact padded_sep fun x hx => (h x hx).padded
theorem calmsL_free : NoSetCallL (calmL xs) := by
  rw [noSetCallL_iff, calmL_map]
  intro x hx; obtain ⟨y, hy, rfl⟩ := List.mem_map.1 hx; exact (h y hy).free
theorem calmsL_soft : SoftL (calmL xs) := by
  rw [softL_iff, calmL_map]
  intro x hx; obtain ⟨y, hy, rfl⟩ := List.mem_map.1 hx; exact (h y hy).soft
theorem calmsL_wf : WfL (calmL xs) ↔ NameableL xs := by
  rw [wfL_all, calmL_map, nameableL_iff]
  exact ⟨fun k x hx => (h x hx).wf.1 (k _ (List.mem_map_of_mem hx)), fun k x hx => by obtain ⟨y, hy, rfl⟩ := List.mem_map.1 hx; exact (h y hy).wf.2 (k y hy)⟩
theorem calmsL_any (E : Env) : (∀ x ∈ calmL xs, Any E x) ↔ ∀ x ∈ xs, Any E x := by
  rw [calmL_map]
  exact ⟨fun k x hx => ((h x hx).any E).1 (k _ (List.mem_map_of_mem hx)),
    fun k x hx => by obtain ⟨y, hy, rfl⟩ := List.mem_map.1 hx; exact ((h y hy).any E).2 (k y hy)⟩
theorem calmsL_hashed (E : Env) : (∀ x ∈ calmL xs, Hashed E x) ↔ ∀ x ∈ xs, Hashed E x := by
  rw [calmL_map]
  exact ⟨fun k x hx => ((h x hx).hashed E).1 (k _ (List.mem_map_of_mem hx)),
    fun k x hx => by obtain ⟨y, hy, rfl⟩ := List.mem_map.1 hx; exact ((h y hy).hashed E).2 (k y hy)⟩
theorem calmsL_empty : (calmL xs).isEmpty = xs.isEmpty := by rw [calmL_map]; cases xs <;> rfl
end

section
variable {xs : List (Ast × Ast)} (h : ∀ x ∈ xs, Calms x.1 (calm x.1) ∧ Calms x.2 (calm x.2))
include h

theorem calmsD_padded : Padded (sepToks (toksD (calmD xs))) (sepToks (toksD xs)).flatten := by
  rw [toksD_map, toksD_map, calmD_map, List.map_map]
  refine padded_sep fun x hx => ?_
  have := padded_join (h x hx).1.padded (padded_pre c!":" (h x hx).2.padded)
  simpa [toks2, text] using this
theorem calmsD_free : NoSetCallD (calmD xs) := by
  rw [noSetCallD_iff, calmD_map]
  intro x hx; obtain ⟨y, hy, rfl⟩ := List.mem_map.1 hx; exact ⟨(h y hy).1.free, (h y hy).2.free⟩
theorem calmsD_soft : SoftD (calmD xs) := by
  rw [softD_iff, calmD_map]
  intro x hx; obtain ⟨y, hy, rfl⟩ := List.mem_map.1 hx; exact ⟨(h y hy).1.soft, (h y hy).2.soft⟩
theorem calmsD_wf : WfD (calmD xs) ↔ NameableD xs := by
  rw [wfD_all, calmD_map, nameableD_iff]
  constructor
  · intro k x hx
    have := k _ (List.mem_map_of_mem hx)
    exact ⟨(h x hx).1.wf.1 this.1, (h x hx).2.wf.1 this.2⟩
  · intro k x hx; obtain ⟨y, hy, rfl⟩ := List.mem_map.1 hx
    exact ⟨(h y hy).1.wf.2 (k y hy).1, (h y hy).2.wf.2 (k y hy).2⟩
theorem calmsD_reads (E : Env) : (∀ x ∈ calmD xs, Hashed E x.1 ∧ Any E x.2) ↔ ∀ x ∈ xs, Hashed E x.1 ∧ Any E x.2 := by
  rw [calmD_map]
  constructor
  · intro k x hx
    have := k _ (List.mem_map_of_mem hx)
    exact ⟨((h x hx).1.hashed E).1 this.1, ((h x hx).2.any E).1 this.2⟩
  · intro k x hx; obtain ⟨y, hy, rfl⟩ := List.mem_map.1 hx
    exact ⟨((h y hy).1.hashed E).2 (k y hy).1, ((h y hy).2.any E).2 (k y hy).2⟩
end

section
variable {xs : List (Str × Ast)} (h : ∀ x ∈ xs, Ident x.1 ∧ Calms x.2 (calm x.2))
include h

theorem calmsA_padded : Padded (sepToks (toksA (calmA xs))) (sepToks (toksA xs)).flatten := by
  rw [toksA_map, toksA_map, calmA_map, List.map_map]
  refine padded_sep fun x hx => ?_
  have := padded_pre x.1 (padded_pre c!"=" (h x hx).2.padded)
  simpa [toksKv, text] using this
theorem calmsA_free : NoSetCallA (calmA xs) := by
  rw [noSetCallA_iff, calmA_map]
  intro x hx; obtain ⟨y, hy, rfl⟩ := List.mem_map.1 hx; exact (h y hy).2.free
theorem calmsA_soft : SoftA (calmA xs) := by
  rw [softA_iff, calmA_map]
  intro x hx; obtain ⟨y, hy, rfl⟩ := List.mem_map.1 hx; exact ⟨(h y hy).1, (h y hy).2.soft⟩
theorem calmsA_wf : WfA (calmA xs) ↔ NameableA xs := by
  rw [wfA_all, calmA_map, nameableA_iff]
  constructor
  · intro k x hx
    exact (h x hx).2.wf.1 (k _ (List.mem_map_of_mem hx)).2
  · intro k x hx; obtain ⟨y, hy, rfl⟩ := List.mem_map.1 hx
    exact ⟨(h y hy).1, (h y hy).2.wf.2 (k y hy)⟩
theorem calmsA_any (E : Env) : (∀ x ∈ calmA xs, Any E x.2) ↔ ∀ x ∈ xs, Any E x.2 := by
  rw [calmA_map]
  constructor
  · intro k x hx
    exact ((h x hx).2.any E).1 (k _ (List.mem_map_of_mem hx))
  · intro k x hx; obtain ⟨y, hy, rfl⟩ := List.mem_map.1 hx
    exact ((h y hy).2.any E).2 (k y hy)
end

theorem calmA_empty (xs : List (Str × Ast)) : (calmA xs).isEmpty = xs.isEmpty := by rw [calmA_map]; cases xs <;> rfl

/-- Whether there is a value for a call. -/
theorem reads_call {E : Env} {o : Option Str} {n : Str} {kvs : List (Str × Ast)} :
    Any E (.what o n kvs) ↔ (∀ x ∈ kvs, Any E x.2) ∧ (o ≠ none → kvs ≠ []) := by
  rw [← semA_reads]
  simp only [Any, ReadsTo, sem]
  constructor
  · rintro ⟨v, hv, -⟩
    obtain ⟨l, hl, hv⟩ := except_bind_ok hv
    refine ⟨⟨l, hl⟩, fun ho hk => ?_⟩
    subst hk
    cases o with
    | none => exact ho rfl
    | some o => simp at hv
  · rintro ⟨⟨l, hl⟩, ho⟩
    refine ⟨.what n (dictOf l) [] o, ?_, trivial⟩
    have : (o.isSome && kvs.isEmpty) = false := by
      cases o with
      | none => rfl
      | some o => cases kvs with
        | nil => exact absurd rfl (ho (by simp))
        | cons _ _ => rfl
    simp only [hl, Except.bind, this]
    rfl

theorem call_unhashed {E : Env} {o : Option Str} {n : Str} {kvs : List (Str × Ast)} : ¬ Hashed E (.what o n kvs) := by
  simp only [Hashed, ReadsTo, sem]
  rintro ⟨v, hv, hh⟩
  obtain ⟨l, -, hv⟩ := except_bind_ok hv
  split at hv
  · cases hv
  · cases hv; cases hh

theorem calm_call {o : Option Str} {n : Str} {kvs : List (Str × Ast)} (ho : ∀ x, o = some x → Ident x) (hn : Ident n)
    (h : ∀ x ∈ kvs, Ident x.1 ∧ Calms x.2 (calm x.2)) : Calms (.what o n kvs) (calm (.what o n kvs)) := by
  have hp : Padded (toks (.what o n (calmA kvs))) (text (.what o n kvs)) := by
    have := padded_join (padded_flatten (outToks o)) (padded_pre n (padded_bracket c!"(" c!")" (calmsA_padded h)))
    simpa [toks, text] using this
  simp only [calm]
  split
  · next hc =>
    simp only [Bool.and_eq_true, Option.isNone_iff_eq_none, List.isEmpty_iff, beq_iff_eq] at hc
    obtain ⟨⟨rfl, rfl⟩, rfl⟩ := hc
    refine ⟨padded_one c!"set()", by simp only [NoSetCall, NoSetCallL], by simp only [Soft, SoftL], ?_, fun E => ?_, fun E => ?_⟩
    · simp only [Wf, WfL, Nameable, NameableA, and_true, true_iff]; unfold NestedStart; decide
    · refine iff_of_true ⟨.set [], ?_, trivial⟩ (reads_call.2 ⟨by simp, by simp⟩)
      simp only [sem, semL, Except.bind, setFrom, Except.map]
    · refine iff_of_false ?_ call_unhashed
      rintro ⟨v, hv, hh⟩
      simp only [sem, semL, Except.bind, setFrom, Except.map] at hv
      cases hv; cases hh
  split
  · next hc =>
    simp only [Bool.and_eq_true, Option.isNone_iff_eq_none, List.isEmpty_iff, beq_iff_eq] at hc
    obtain ⟨⟨rfl, rfl⟩, rfl⟩ := hc
    refine ⟨padded_one c!"frozenset()", by simp only [NoSetCall, NoSetCallL], by simp only [Soft, SoftL], ?_, fun E => ?_, fun E => ?_⟩
    · simp only [Wf, WfL, Nameable, NameableA, and_true, true_iff]; unfold NestedStart; decide
    · refine iff_of_true ⟨.set [], ?_, trivial⟩ (reads_call.2 ⟨by simp, by simp⟩)
      simp only [sem, semL, Except.bind, setFrom, Except.map]
    · refine iff_of_false ?_ call_unhashed
      rintro ⟨v, hv, hh⟩
      simp only [sem, semL, Except.bind, setFrom, Except.map] at hv
      cases hv; cases hh
  · next h1 h2 =>
    refine ⟨hp, ?_, ?_, ?_, fun E => ?_, fun E => iff_of_false call_unhashed call_unhashed⟩
    · simp only [NoSetCall]
      refine ⟨fun e1 e2 => ?_, calmsA_free h⟩
      have e3 : kvs.isEmpty = true := by rw [← calmA_empty, e2]; rfl
      subst e1
      simp only [Option.isNone_none, e3, Bool.true_and, beq_iff_eq] at h1 h2
      exact ⟨h1, h2⟩
    · simp only [Soft]; exact ⟨ho, hn, calmsA_soft h⟩
    · simp only [Wf, Nameable, calmsA_wf h]
      exact ⟨fun k => k.2.2, fun k => ⟨ho, hn, k⟩⟩
    · rw [reads_call, reads_call, calmsA_any h E]
      have : calmA kvs ≠ [] ↔ kvs ≠ [] := by rw [calmA_map]; simp
      rw [this]

mutual
theorem calms : ∀ a : Ast, Loose a → Whole a → Calms a (calm a)
  | .none, _, _ => calms_refl trivial trivial Iff.rfl
  | .bool _, _, _ => calms_refl trivial trivial Iff.rfl
  | .num t, h, _ => by
      simp only [Loose] at h
      exact calms_refl trivial (by simpa only [Soft] using h) (by simp only [Wf, Nameable, h])
  | .str b, _, hw => by
      simp only [Whole] at hw
      have hg := good_skip hw
      refine ⟨padded_str b, trivial, by simpa only [Soft, calm] using hg, by simp only [Wf, Nameable, calm, hg], fun E => ?_, fun E => ?_⟩
      · exact iff_of_true ⟨_, rfl, trivial⟩ ⟨_, rfl, trivial⟩
      · exact iff_of_true ⟨_, rfl, rfl⟩ ⟨_, rfl, rfl⟩
  | .cls b, h, _ => by
      simp only [Loose] at h
      have hg := good_class h
      exact calms_refl trivial (by simpa only [Soft] using hg) (by simp only [Wf, Nameable, hg])
  | .tuple xs, h, hw => by
      simp only [Loose, Whole] at h hw
      have ih := calms_L xs h hw
      refine ⟨?_, by simpa only [calm, NoSetCall] using calmsL_free ih, by simpa only [calm, Soft] using calmsL_soft ih,
        by simpa only [calm, Wf, Nameable] using calmsL_wf ih, fun E => ?_, fun E => ?_⟩
      · simp only [calm, toks, text]; exact padded_bracket _ _ (calmsL_padded ih)
      · simp only [calm, Any, ReadsTo, sem]; rw [reads_list, reads_list]; exact calmsL_any ih E
      · simp only [calm, Hashed, ReadsTo, sem]; rw [reads_tuple, reads_tuple]; exact calmsL_hashed ih E
  | .list xs, h, hw => by
      simp only [Loose, Whole] at h hw
      have ih := calms_L xs h hw
      refine ⟨?_, by simpa only [calm, NoSetCall] using calmsL_free ih, by simpa only [calm, Soft] using calmsL_soft ih,
        by simpa only [calm, Wf, Nameable] using calmsL_wf ih, fun E => ?_, fun E => iff_of_false ?_ ?_⟩
      · simp only [calm, toks, text]; exact padded_bracket _ _ (calmsL_padded ih)
      · simp only [calm, Any, ReadsTo, sem]; rw [reads_list, reads_list]; exact calmsL_any ih E
      all_goals
        simp only [calm, Hashed, ReadsTo, sem]
        rintro ⟨v, hv, hh⟩
        obtain ⟨l, -, rfl⟩ := except_map_ok hv
        cases hh
  | .set xs, h, hw => by
      simp only [Loose, Whole] at h hw
      have ih := calms_L xs h hw
      have hs := fun (E : Env) ys => reads_set (E := E) (xs := ys) (P := fun v => hashable v = true) (fun l e => by cases e)
      refine ⟨?_, by simpa only [calm, NoSetCall] using calmsL_free ih, by simpa only [calm, Soft] using calmsL_soft ih,
        by simpa only [calm, Wf, Nameable] using calmsL_wf ih, fun E => ?_, fun E => iff_of_false ?_ ?_⟩
      · simp only [calm, toks, text, calmsL_empty ih]
        split
        · exact padded_flatten _
        · exact padded_bracket _ _ (calmsL_padded ih)
      · simp only [calm, Any, ReadsTo, sem, and_true]; rw [(hs E _).1, (hs E _).1]; exact calmsL_hashed ih E
      all_goals
        simp only [calm, Hashed, ReadsTo, sem]
        exact (hs E _).2
  | .fset xs, h, hw => by
      simp only [Loose, Whole] at h hw
      have ih := calms_L xs h hw
      have hs := fun (E : Env) ys => reads_set (E := E) (xs := ys) (P := fun v => hashable v = true) (fun l e => by cases e)
      refine ⟨?_, by simpa only [calm, NoSetCall] using calmsL_free ih, by simpa only [calm, Soft] using calmsL_soft ih,
        by simpa only [calm, Wf, Nameable] using calmsL_wf ih, fun E => ?_, fun E => iff_of_false ?_ ?_⟩
      · simp only [calm, toks, text, calmsL_empty ih]
        split
        · exact padded_flatten _
        · exact padded_bracket _ _ (calmsL_padded ih)
      · simp only [calm, Any, ReadsTo, sem, and_true]; rw [(hs E _).1, (hs E _).1]; exact calmsL_hashed ih E
      all_goals
        simp only [calm, Hashed, ReadsTo, sem]
        exact (hs E _).2
  | .dict kvs, h, hw => by
      simp only [Loose, Whole] at h hw
      have ih := calms_D kvs h hw
      refine ⟨?_, by simpa only [calm, NoSetCall] using calmsD_free ih, by simpa only [calm, Soft] using calmsD_soft ih,
        by simpa only [calm, Wf, Nameable] using calmsD_wf ih, fun E => ?_, fun E => iff_of_false ?_ ?_⟩
      · simp only [calm, toks, text]; exact padded_bracket _ _ (calmsD_padded ih)
      · simp only [calm, Any, ReadsTo, sem]; rw [reads_dict, reads_dict]; exact calmsD_reads ih E
      all_goals
        simp only [calm, Hashed, ReadsTo, sem]
        rintro ⟨v, hv, hh⟩
        obtain ⟨l, -, hv⟩ := except_bind_ok hv
        obtain ⟨d, -, rfl⟩ := except_map_ok hv
        cases hh
  | .what o n kvs, h, hw => by
      simp only [Loose, Whole] at h hw
      exact calm_call h.1 h.2.1 (calms_A kvs h.2.2 hw)
termination_by structural a => a
theorem calms_L : ∀ xs : List Ast, LooseL xs → WholeL xs → ∀ x ∈ xs, Calms x (calm x)
  | [], _, _ => by intro x hx; cases hx
  | y :: ys, h, hw => by
      simp only [LooseL, WholeL] at h hw
      have h1 := calms y h.1 hw.1
      have h2 := calms_L ys h.2 hw.2
      intro x hx
      rcases List.mem_cons.1 hx with rfl | hx
      · exact h1
      · exact h2 x hx
termination_by structural xs => xs
theorem calms_D : ∀ xs : List (Ast × Ast), LooseD xs → WholeD xs → ∀ x ∈ xs, Calms x.1 (calm x.1) ∧ Calms x.2 (calm x.2)
  | [], _, _ => by intro x hx; cases hx
  | (k, v) :: ys, h, hw => by
      simp only [LooseD, WholeD] at h hw
      have h0 := calms k h.1 hw.1
      have h1 := calms v h.2.1 hw.2.1
      have h2 := calms_D ys h.2.2 hw.2.2
      intro x hx
      rcases List.mem_cons.1 hx with rfl | hx
      · exact ⟨h0, h1⟩
      · exact h2 x hx
termination_by structural xs => xs
theorem calms_A : ∀ xs : List (Str × Ast), LooseA xs → WholeA xs → ∀ x ∈ xs, Ident x.1 ∧ Calms x.2 (calm x.2)
  | [], _, _ => by intro x hx; cases hx
  | (k, v) :: ys, h, hw => by
      simp only [LooseA, WholeA] at h hw
      have h1 := calms v h.2.1 hw.1
      have h2 := calms_A ys h.2.2 hw.2
      intro x hx
      rcases List.mem_cons.1 hx with rfl | hx
      · exact ⟨h.1, h1⟩
      · exact h2 x hx
termination_by structural xs => xs
end

/-- What a whole id with any literals and names is read as. -/
theorem parse_loose {E : Env} {o : Option Str} {n : Str} {kvs : List (Str × Ast)} (ho : ∀ x, o = some x → Ident x) (hn : Ident n) (hk : LooseA kvs) :
    (¬ (WholeA kvs ∧ NameableA kvs) ∧ parseWhatid E (text (.what o n kvs)) = .error .noMatch) ∨
    (WholeA kvs ∧ NameableA kvs ∧ parseWhatid E (text (.what o n kvs)) = semTop E o n (calmA kvs) ∧
      ((∃ w, semTop E o n (calmA kvs) = .ok w) ↔ (∀ x ∈ kvs, Any E x.2) ∧ (o ≠ none → kvs ≠ []))) := by
  by_cases hw : WholeA kvs
  · have ih := calms_A kvs hk hw
    have hp : Padded (toks (.what o n (calmA kvs))) (text (.what o n kvs)) := by
      have := padded_join (padded_flatten (outToks o)) (padded_pre n (padded_bracket c!"(" c!")" (calmsA_padded ih)))
      simpa [toks, text] using this
    by_cases hm : NameableA kvs
    · refine .inr ⟨hw, hm, ?_, ?_⟩
      · have := parse_padded (E := E) ho hn ((calmsA_wf ih).2 hm) (calmsA_free ih) hp (ws := []) rfl
        simpa using this
      · have h1 := reads_call (E := E) (o := o) (n := n) (kvs := calmA kvs)
        rw [calmsA_any ih E] at h1
        have : calmA kvs ≠ [] ↔ kvs ≠ [] := by rw [calmA_map]; simp
        rw [this] at h1
        rw [← h1]
        simp only [Any, ReadsTo, sem, semTop]
        constructor
        · rintro ⟨w, hw⟩
          obtain ⟨l, hl, hw⟩ := except_bind_ok hw
          split at hw
          · cases hw
          · next hc => exact ⟨.what n (dictOf l) [] o, by simp only [hl, Except.bind, hc]; rfl, trivial⟩
        · rintro ⟨w, hw, -⟩
          obtain ⟨l, hl, hw⟩ := except_bind_ok hw
          split at hw
          · cases hw
          · next hc => exact ⟨⟨n, dictOf l, [], o⟩, by simp only [hl, Except.bind, hc]; rfl⟩
    · exact .inl ⟨fun h => hm h.2, refused_of_name ho hn (calmsA_soft ih) (calmsA_free ih) (fun h => hm ((calmsA_wf ih).1 h)) hp⟩
  · exact .inl ⟨fun h => hw h.1, refused_of_string ho hn hk hw⟩

end Whatami
