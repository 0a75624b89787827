import Verif.Stuck
import Verif.TreeInj
import Verif.Encode

/-
Every id that is generated, read: with the names that start like a value the parser gets stuck; otherwise the text is that of some well-formed
syntax, where nested calls `set()` and `frozenset()` are empty sets and strings have lost their leading whitespace.
Definitions here are vocabulary for statements and proofs: the code they are about is cited in the model modules.
-/
namespace Whatami

mutual
/-- Well-formed syntax, but for the names of nested ids. -/
def Soft : Ast → Prop
  | .none | .bool _ => True
  | .num t => NumShape t
  | .str b | .cls b => GoodBody b
  | .tuple xs | .list xs | .set xs | .fset xs => SoftL xs
  | .dict kvs => SoftD kvs
  | .what o n kvs => (∀ x, o = some x → Ident x) ∧ Ident n ∧ SoftA kvs
termination_by structural a => a
/-- All elements are. -/
def SoftL : List Ast → Prop
  | [] => True
  | x :: xs => Soft x ∧ SoftL xs
termination_by structural xs => xs
/-- All keys and values are. -/
def SoftD : List (Ast × Ast) → Prop
  | [] => True
  | (k, v) :: xs => Soft k ∧ Soft v ∧ SoftD xs
termination_by structural xs => xs
/-- All keys are identifiers, all values are. -/
def SoftA : List (Str × Ast) → Prop
  | [] => True
  | (k, v) :: xs => Ident k ∧ Soft v ∧ SoftA xs
termination_by structural xs => xs
end

theorem softL_iff {xs : List Ast} : SoftL xs ↔ ∀ x ∈ xs, Soft x := by
  induction xs with | nil => simp [SoftL] | cons x xs ih => simp [SoftL, ih]
theorem softD_iff {xs : List (Ast × Ast)} : SoftD xs ↔ ∀ x ∈ xs, Soft x.1 ∧ Soft x.2 := by
  induction xs with | nil => simp [SoftD] | cons x xs ih => simp [SoftD, ih, and_assoc]
theorem softA_iff {xs : List (Str × Ast)} : SoftA xs ↔ ∀ x ∈ xs, Ident x.1 ∧ Soft x.2 := by
  induction xs with | nil => simp [SoftA] | cons x xs ih => simp [SoftA, ih, and_assoc]
theorem wfL_all {xs : List Ast} : WfL xs ↔ ∀ x ∈ xs, Wf x := by
  induction xs with | nil => simp [WfL] | cons x xs ih => simp [WfL, ih]
theorem wfD_all {xs : List (Ast × Ast)} : WfD xs ↔ ∀ x ∈ xs, Wf x.1 ∧ Wf x.2 := by
  induction xs with | nil => simp [WfD] | cons x xs ih => simp [WfD, ih, and_assoc]
theorem wfA_all {xs : List (Str × Ast)} : WfA xs ↔ ∀ x ∈ xs, Ident x.1 ∧ Wf x.2 := by
  induction xs with | nil => simp [WfA] | cons x xs ih => simp [WfA, ih, and_assoc]

theorem opens_head {c : Char} {u : Str} {us : List Str} (h1 : isWs c = false) (h2 : c ≠ ')' ∧ c ≠ ']' ∧ c ≠ '}') : Opens ((c :: u) :: us) :=
  ⟨c, u, us, rfl, h1, h2⟩

theorem opens_ident {x : Str} (h : Ident x) (us : List Str) : Opens (x :: us) := by
  obtain ⟨c, u, rfl, hc, -⟩ := h
  refine opens_head (isIdStart_noWs hc) ⟨?_, ?_, ?_⟩ <;> rintro rfl <;> exact absurd hc (by decide)

theorem opens_num {t : Str} (h : NumShape t) (us : List Str) : Opens (t :: us) := by
  cases h with
  | @digits neg ds fr ex hd _ _ =>
    obtain ⟨c, u, rfl, hc, -⟩ := digits_cons hd
    cases neg with
    | true => exact opens_head (c := '-') (by decide) (by decide)
    | false =>
      simp only [Bool.false_eq_true, if_false, List.nil_append, List.cons_append]
      refine opens_head (isDig_noWs hc) ⟨?_, ?_, ?_⟩ <;> rintro rfl <;> exact absurd hc (by decide)
  | inf => exact opens_head (by decide) (by decide)
  | minusInf => exact opens_head (by decide) (by decide)
  | nan => exact opens_head (by decide) (by decide)

theorem opens_toks (a : Ast) (h : Soft a) : Opens (toks a) := by
  cases a with
  | none => exact opens_head (by decide) (by decide)
  | bool b => cases b <;> exact opens_head (by decide) (by decide)
  | num t => exact opens_num (by simpa only [Soft] using h) _
  | str b => exact opens_head (by decide) (by decide)
  | cls b => exact opens_head (by decide) (by decide)
  | tuple xs => exact opens_head (by decide) (by decide)
  | list xs => exact opens_head (by decide) (by decide)
  | set xs => simp only [toks]; split <;> exact opens_head (by decide) (by decide)
  | fset xs => simp only [toks]; split <;> exact opens_head (by decide) (by decide)
  | dict kvs => exact opens_head (by decide) (by decide)
  | what o n kvs =>
    simp only [Soft] at h
    simp only [toks]
    cases o with
    | none => exact opens_ident h.2.1 _
    | some x => exact opens_ident (h.1 x rfl) _

theorem opens_append {ts us : List Str} (h : Opens ts) : Opens (ts ++ us) := by
  obtain ⟨c, u, vs, rfl, h1, h2⟩ := h
  exact opens_head h1 h2

/-- Well-formed and read, or neither. -/
def Decided (a : Ast) : Prop := (Wf a ∧ Reads a) ∨ (¬ Wf a ∧ Stuck (.ref .value) (toks a))

theorem Decided.cases {a : Ast} (h : Decided a) : Reading (.ref .value) (toks a) ∨ Stuck (.ref .value) (toks a) :=
  h.imp (fun h => ⟨tree a, h.2⟩) (fun h => h.2)

theorem Decided.stuck {a : Ast} (h : Decided a) (hw : ¬ Wf a) : Stuck (.ref .value) (toks a) := (h.resolve_left fun h => hw h.1).2

theorem itemsL_stuck {xs : List Ast} (h : ∀ x ∈ xs, Decided x) (hs : ∀ x ∈ xs, Soft x) (hw : ¬ WfL xs) :
    (∀ ts ∈ toksL xs, Reading (.ref .value) ts ∨ Stuck (.ref .value) ts) ∧ (∀ ts ∈ toksL xs, Opens ts) ∧ ∃ ts ∈ toksL xs, Stuck (.ref .value) ts := by
  rw [toksL_map]
  refine ⟨fun ts hm => ?_, fun ts hm => ?_, ?_⟩
  · obtain ⟨x, hx, rfl⟩ := List.mem_map.1 hm
    exact (h x hx).cases
  · obtain ⟨x, hx, rfl⟩ := List.mem_map.1 hm
    exact opens_toks x (hs x hx)
  · rw [wfL_all] at hw
    simp only [Classical.not_forall] at hw
    obtain ⟨x, hx, hw⟩ := hw
    exact ⟨toks x, List.mem_map.2 ⟨x, hx, rfl⟩, (h x hx).stuck hw⟩

theorem itemsD_stuck {xs : List (Ast × Ast)} (h : ∀ x ∈ xs, Decided x.1 ∧ Decided x.2) (hs : ∀ x ∈ xs, Soft x.1 ∧ Soft x.2) (hw : ¬ WfD xs) :
    (∀ ts ∈ toksD xs, Reading (.ref .dictkv) ts ∨ Stuck (.ref .dictkv) ts) ∧ (∀ ts ∈ toksD xs, Opens ts) ∧ ∃ ts ∈ toksD xs, Stuck (.ref .dictkv) ts := by
  have key : ∀ x ∈ xs, ¬ (Wf x.1 ∧ Wf x.2) → Stuck (.ref .dictkv) (toks2 x) := by
    intro x hx hn
    refine stuck_dictkv (h x hx).1.cases ?_
    by_cases h1 : Wf x.1
    · exact .inr ((h x hx).2.stuck fun h2 => hn ⟨h1, h2⟩)
    · exact .inl ((h x hx).1.stuck h1)
  rw [toksD_map]
  refine ⟨fun ts hm => ?_, fun ts hm => ?_, ?_⟩
  · obtain ⟨x, hx, rfl⟩ := List.mem_map.1 hm
    by_cases hc : Wf x.1 ∧ Wf x.2
    · have h1 := ((h x hx).1.resolve_right fun h => h.1 hc.1).2
      have h2 := ((h x hx).2.resolve_right fun h => h.1 hc.2).2
      exact .inl ⟨_, fun s hp r hr b => ev_dictkv h1 h2 hp hr⟩
    · exact .inr (key x hx hc)
  · obtain ⟨x, hx, rfl⟩ := List.mem_map.1 hm
    exact opens_append (opens_toks x.1 (hs x hx).1)
  · rw [wfD_all] at hw
    simp only [Classical.not_forall] at hw
    obtain ⟨x, hx, hw⟩ := hw
    exact ⟨toks2 x, List.mem_map.2 ⟨x, hx, rfl⟩, key x hx hw⟩

theorem itemsA_stuck {xs : List (Str × Ast)} (h : ∀ x ∈ xs, Ident x.1 ∧ Decided x.2) (hw : ¬ WfA xs) :
    (∀ ts ∈ toksA xs, Reading (.ref .kv) ts ∨ Stuck (.ref .kv) ts) ∧ (∀ ts ∈ toksA xs, Opens ts) ∧ ∃ ts ∈ toksA xs, Stuck (.ref .kv) ts := by
  rw [toksA_map]
  refine ⟨fun ts hm => ?_, fun ts hm => ?_, ?_⟩
  · obtain ⟨x, hx, rfl⟩ := List.mem_map.1 hm
    rcases (h x hx).2 with h1 | h1
    · exact .inl ⟨_, fun s hp r hr b => ev_kv (h x hx).1 h1.2 hp hr⟩
    · exact .inr (stuck_kv (h x hx).1 h1.2)
  · obtain ⟨x, hx, rfl⟩ := List.mem_map.1 hm
    exact opens_ident (h x hx).1 _
  · rw [wfA_all] at hw
    simp only [Classical.not_forall] at hw
    obtain ⟨x, hx, hw⟩ := hw
    exact ⟨toksKv x, List.mem_map.2 ⟨x, hx, rfl⟩, stuck_kv (h x hx).1 ((h x hx).2.stuck fun h2 => hw ⟨(h x hx).1, h2⟩)⟩

/-- The alternatives after the sets, when the text does not start with a name. -/
theorem value_fail_tail {s u : Str} {c : Char} (hs : skipWs s = c :: u) (h1 : c ≠ '{') (h2 : c ≠ '<') (h3 : isIdStart c = false) :
    Ev newGrammar false (choice [.ref .aDict, .ref .aClass, .ref .whatamiId]) s .fail :=
  .altNext (dict_fail (by rw [hs]; exact not_prefix h1.symm)) (.altNext (class_fail (by rw [hs]; exact not_prefix h2.symm))
    (.altNext (what_fail fun d v e => by rw [hs] at e; cases e; exact h3) (.never _)))

theorem stuck_tuple {xs : List Ast} (h : ∀ x ∈ xs, Decided x) (hs : ∀ x ∈ xs, Soft x) (hw : ¬ WfL xs) : Stuck (.ref .value) (toks (.tuple xs)) := by
  intro s hp r _ b
  obtain ⟨i1, i2, i3⟩ := itemsL_stuck h hs hw
  simp only [toks] at hp
  have e1 := (stuck_bracket (b := false) (rl := .listElements) rfl i1 i2 i3 (by simp) (noWs_cons (by decide)) (cl := c!")") rfl (.inl rfl) r hp).1
  obtain ⟨ws, s1, hw, e, _⟩ := padded_cons_iff.1 hp
  have hsk := skipWs_tok (r := r) hw e (by decide)
  have np : ∀ {d : Char} {t : Str}, d ≠ '(' → ¬ (d :: t) <+: skipWs (s ++ r) := fun h => by rw [hsk]; exact not_prefix h
  refine .inl (.refFail (plain_to_str hsk (by decide) (.altNext (str_fail (np (by decide))) (.altNext (.refFail e1) (.altNext (list_fail (np (by decide)))
    (.altNext (set_fail (np (by decide)) (np (by decide)) (np (by decide)) (np (by decide))) (value_fail_tail hsk (by decide) (by decide) (by decide))))))))

theorem stuck_list {xs : List Ast} (h : ∀ x ∈ xs, Decided x) (hs : ∀ x ∈ xs, Soft x) (hw : ¬ WfL xs) : Stuck (.ref .value) (toks (.list xs)) := by
  intro s hp r _ b
  obtain ⟨i1, i2, i3⟩ := itemsL_stuck h hs hw
  simp only [toks] at hp
  have e1 := (stuck_bracket (b := false) (rl := .listElements) rfl i1 i2 i3 (by simp) (noWs_cons (by decide)) (cl := c!"]") rfl (.inr (.inl rfl)) r hp).1
  obtain ⟨ws, s1, hw, e, _⟩ := padded_cons_iff.1 hp
  have hsk := skipWs_tok (r := r) hw e (by decide)
  have np : ∀ {d : Char} {t : Str}, d ≠ '[' → ¬ (d :: t) <+: skipWs (s ++ r) := fun h => by rw [hsk]; exact not_prefix h
  refine .inl (.refFail (plain_to_str hsk (by decide) (.altNext (str_fail (np (by decide))) (.altNext (tuple_fail (np (by decide))) (.altNext (.refFail e1)
    (.altNext (set_fail (np (by decide)) (np (by decide)) (np (by decide)) (np (by decide))) (value_fail_tail hsk (by decide) (by decide) (by decide))))))))

theorem stuck_set {xs : List Ast} (h : ∀ x ∈ xs, Decided x) (hs : ∀ x ∈ xs, Soft x) (hw : ¬ WfL xs) : Stuck (.ref .value) (toks (.set xs)) := by
  intro s hp r _ b
  obtain ⟨i1, i2, i3⟩ := itemsL_stuck h hs hw
  cases xs with
  | nil => exact absurd trivial hw
  | cons x xs =>
    simp only [toks, List.isEmpty_cons, Bool.false_eq_true, if_false] at hp
    have e1 := (stuck_bracket (b := false) (rl := .listElements) rfl i1 i2 i3 (by simp) (noWs_cons (by decide)) (cl := c!"}") rfl (.inr (.inr rfl)) r hp).2
    have e2 : Ev newGrammar false (.ref .aDict) (s ++ r) .fail := set_not_dict (h x (by simp)).cases (opens_toks x (hs x (by simp))) r hp
    obtain ⟨ws, s1, hw, e, _⟩ := padded_cons_iff.1 hp
    have hsk := skipWs_tok (r := r) hw e (by decide)
    have np : ∀ {d : Char} {t : Str}, d ≠ '{' → ¬ (d :: t) <+: skipWs (s ++ r) := fun h => by rw [hsk]; exact not_prefix h
    have e3 : Ev newGrammar false (.ref .aSet) (s ++ r) .fail :=
      .refFail (.altNext (emptySet_fail (np (by decide)) (np (by decide))) (.altNext (.refFail (.altNext e1
        (.altNext (.catFail (.strFail (np (by decide)))) (.never _)))) (.never _)))
    exact .inl (.refFail (plain_to_set hsk (by decide) (by decide) (by decide) (by decide) (.altNext e3 (.altNext e2 (.altNext (class_fail (np (by decide)))
      (.altNext (what_fail fun d v e => by rw [hsk] at e; cases e; decide) (.never _)))))))

theorem stuck_fset {xs : List Ast} (h : ∀ x ∈ xs, Decided x) (hs : ∀ x ∈ xs, Soft x) (hw : ¬ WfL xs) : Stuck (.ref .value) (toks (.fset xs)) := by
  intro s hp r _ b
  obtain ⟨i1, i2, i3⟩ := itemsL_stuck h hs hw
  cases xs with
  | nil => exact absurd trivial hw
  | cons x xs =>
    simp only [toks, List.isEmpty_cons, Bool.false_eq_true, if_false] at hp
    have e1 := (stuck_bracket (b := false) (rl := .listElements) rfl i1 i2 i3 (by simp) (noWs_cons (by decide)) (cl := c!"})") rfl (.inr (.inr rfl)) r hp).2
    obtain ⟨ws, s1, hw, e, _⟩ := padded_cons_iff.1 hp
    have hsk := skipWs_tok (r := r) hw e (by decide)
    have np : ∀ {d : Char} {t : Str}, d ≠ 'f' → ¬ (d :: t) <+: skipWs (s ++ r) := fun h => by rw [hsk]; exact not_prefix h
    have e3 : Ev newGrammar false (.ref .aSet) (s ++ r) .fail :=
      .refFail (.altNext (emptySet_fail (np (by decide)) (by rw [hsk]; simp [List.cons_prefix_cons])) (.altNext (.refFail (.altNext
        (.catFail (.strFail (np (by decide)))) (.altNext e1 (.never _)))) (.never _)))
    have e0 : s ++ r = ws ++ (c!"frozenset" ++ ([] ++ '(' :: ('{' :: (s1 ++ r)))) := by rw [e]; simp
    have hid : Ident c!"frozenset" := ⟨'f', c!"rozenset", rfl, by decide, by decide⟩
    have i1 : ∀ b, Ev newGrammar b (.ref .anId) (s ++ r) (.ok [idTree c!"frozenset"] ('(' :: ('{' :: (s1 ++ r)))) := by
      intro b
      rw [e0]
      exact ev_id hw hid (endsToken_pad (ws := []) rfl (by decide) _)
    have hb : Starts (fun c => ')' ≠ c) ('{' :: (s1 ++ r)) := starts_pad (ws := []) rfl (by decide) (by decide) _
    have i2 : Ev newGrammar true (.str c!"(") ('(' :: ('{' :: (s1 ++ r))) (.ok [tok c!"("] ('{' :: (s1 ++ r))) := ev_tok (ws := []) rfl (by simp) (noWs_cons (by decide))
    have i3 : Ev newGrammar false (.ref .kvs) ('{' :: (s1 ++ r)) .fail := .refFail (.catFail (.refFail (.catFail (id_fail fun c u e => by
      rw [skipWs_noWs (noWs_cons (by decide))] at e; cases e; decide))))
    have e4 : Ev newGrammar false (.ref .whatamiId) (s ++ r) .fail :=
      .refFail (.catFail2 (.optNone (.catFail2 (i1 true) (.catFail (str_stop (P := fun c => '=' ≠ c) (starts_pad (ws := []) rfl (by decide) (by decide) _) fun c hc => hc))))
        (.catFail2 (i1 true) (.catFail2 i2 (.catFail2 (.optNone i3) (.catFail (str_stop hb fun c hc => hc))))))
    exact .inl (.refFail (plain_to_set hsk (by decide) (by decide) (by decide) (by decide) (.altNext e3 (.altNext (dict_fail (np (by decide)))
      (.altNext (class_fail (np (by decide))) (.altNext e4 (.never _)))))))

theorem stuck_dict {xs : List (Ast × Ast)} (h : ∀ x ∈ xs, Decided x.1 ∧ Decided x.2) (hs : ∀ x ∈ xs, Soft x.1 ∧ Soft x.2) (hw : ¬ WfD xs) :
    Stuck (.ref .value) (toks (.dict xs)) := by
  intro s hp r _ b
  obtain ⟨i1, i2, i3⟩ := itemsD_stuck h hs hw
  cases xs with
  | nil => exact absurd trivial hw
  | cons x xs =>
    simp only [toks] at hp
    have e1 := (stuck_bracket (b := false) (rl := .dictElements) rfl i1 i2 i3 (by simp) (noWs_cons (by decide)) (cl := c!"}") rfl (.inr (.inr rfl)) r hp).1
    have e2 : Ev newGrammar false (seq [.str c!"{", .ref .listElements, .str c!"}"]) (s ++ r) .fail := by
      refine stuck_not_set (u := toks x.2) (tss := toksD xs) (h x (by simp)).1.cases ?_ r
      exact hp
    obtain ⟨ws, s1, hw, e, _⟩ := padded_cons_iff.1 hp
    have hsk := skipWs_tok (r := r) hw e (by decide)
    have np : ∀ {d : Char} {t : Str}, d ≠ '{' → ¬ (d :: t) <+: skipWs (s ++ r) := fun h => by rw [hsk]; exact not_prefix h
    have e3 : Ev newGrammar false (.ref .aSet) (s ++ r) .fail :=
      .refFail (.altNext (emptySet_fail (np (by decide)) (np (by decide))) (.altNext (.refFail (.altNext e2
        (.altNext (.catFail (.strFail (np (by decide)))) (.never _)))) (.never _)))
    exact .inl (.refFail (plain_to_set hsk (by decide) (by decide) (by decide) (by decide) (.altNext e3 (.altNext (.refFail e1) (.altNext (class_fail (np (by decide)))
      (.altNext (what_fail fun d v e => by rw [hsk] at e; cases e; decide) (.never _)))))))

/-- A name that starts like a value. -/
theorem stuck_name {o : Option Str} {n : Str} {kvs : List (Str × Ast)} (ho : ∀ x, o = some x → Ident x) (hn : Ident n)
    (hst : ¬ NestedStart (o.getD n)) : Stuck (.ref .value) (toks (.what o n kvs)) := by
  intro s hp r _ b
  have hid : Ident (o.getD n) := by cases o with | none => exact hn | some x => exact ho x rfl
  simp only [NestedStart, Classical.not_forall, Classical.not_not] at hst
  obtain ⟨w, hw, u, hu⟩ := hst
  simp only [toks] at hp
  obtain ⟨ws, rest, hws, e, hrest⟩ := rest_sticks hu hid hp r
  rw [e]
  obtain ⟨t, ht⟩ := reserved_read (b := b) hw hws rest
  exact .inr ⟨t, [], rest, ht, hrest⟩

/-- A good name, and parameters that are not read. -/
theorem stuck_params {o : Option Str} {n : Str} {kvs : List (Str × Ast)} (ho : ∀ x, o = some x → Ident x) (hn : Ident n)
    (hst : NestedStart (o.getD n)) (h : ∀ x ∈ kvs, Ident x.1 ∧ Decided x.2) (hw : ¬ WfA kvs) : Stuck (.ref .value) (toks (.what o n kvs)) := by
  intro s hp r _ b
  obtain ⟨i1, i2, i3⟩ := itemsA_stuck h hw
  simp only [toks] at hp
  have e1 : Ev newGrammar false (.ref .whatamiId) (s ++ r) .fail := stuck_what ho hn i1 i2 i3 hp r
  obtain ⟨ws, rest, hw', e, hend, hcall, hbr⟩ := what_rest (r := r) (fun x hx => (h x hx).1) hp
  have hst1 : Ident (o.getD n) := by cases o with | none => exact hn | some x => exact ho x rfl
  have hs : skipWs (s ++ r) = o.getD n ++ rest := by
    rw [e]; exact skipWs_pad hw' (noWs_append (ident_ne hst1) (ident_noWs hst1))
  have hall := ident_all hst1
  obtain ⟨c, u, hcu, hc, _⟩ := hst1
  have hs2 : skipWs (s ++ r) = c :: (u ++ rest) := by rw [hs, hcu]; rfl
  have hres : ∀ w ∈ reserved, w.all isIdChar = true → ¬ w <+: skipWs (s ++ r) := by
    intro w hw hwa h
    rw [hs] at h
    exact hst w hw (prefix_name hwa hend h)
  have np : ∀ {d : Char} {t : Str}, isIdStart d = false → ¬ (d :: t) <+: skipWs (s ++ r) := fun h => by
    rw [hs2]; exact not_prefix (idStart_not hc h)
  have hne : kvs ≠ [] := by rintro rfl; exact hw trivial
  have hsetfail : Ev newGrammar false (.ref .aSet) (s ++ r) .fail := by
    refine set_fail ?_ ?_ (np (by decide)) ?_
    · intro h
      rw [hs] at h
      obtain ⟨h1, t, h2⟩ := prefix_call (w := c!"set") (t := c!")") (by decide) hall hend h
      exact hne (hcall t h2).2
    · intro h
      rw [hs] at h
      obtain ⟨h1, t, h2⟩ := prefix_call (w := c!"frozenset") (t := c!")") (by decide) hall hend h
      exact hne (hcall t h2).2
    · intro h
      rw [hs] at h
      exact hbr (prefix_call (w := c!"frozenset") (t := c!"{") (by decide) hall hend h).2
  refine .inl (.refFail ?_)
  exact to_num (hres _ (by simp [reserved]) (by decide)) (hres _ (by simp [reserved]) (by decide)) (hres _ (by simp [reserved]) (by decide))
      (to_str (by rw [hs2]; exact scanNumber_none (idStart_not hc (by decide)).symm (idStart_not_dig hc))
        (np (by decide)) (hres _ (by simp [reserved]) (by decide)) (hres _ (by simp [reserved]) (by decide))
        (to_set (np (by decide)) (np (by decide)) (np (by decide))
          (.altNext hsetfail (.altNext (dict_fail (np (by decide))) (.altNext (class_fail (np (by decide))) (.altNext e1 (.never _)))))))

theorem decided_of {a : Ast} (hn : NoSetCall a) (h : ¬ Wf a → Stuck (.ref .value) (toks a)) : Decided a := by
  by_cases hw : Wf a
  · exact .inl ⟨hw, reads a hw hn⟩
  · exact .inr ⟨hw, h hw⟩

mutual
theorem decided : ∀ a : Ast, Soft a → NoSetCall a → Decided a
  | .none, _, hn => decided_of hn fun h => absurd trivial h
  | .bool _, _, hn => decided_of hn fun h => absurd trivial h
  | .num t, h, hn => decided_of hn fun hw => absurd (by simpa only [Soft, Wf] using h) hw
  | .str t, h, hn => decided_of hn fun hw => absurd (by simpa only [Soft, Wf] using h) hw
  | .cls t, h, hn => decided_of hn fun hw => absurd (by simpa only [Soft, Wf] using h) hw
  | .tuple xs, h, hn => decided_of hn fun hw => by
      simp only [Soft, NoSetCall, Wf] at h hn hw
      exact stuck_tuple (decidedL xs h hn) (softL_iff.1 h) hw
  | .list xs, h, hn => decided_of hn fun hw => by
      simp only [Soft, NoSetCall, Wf] at h hn hw
      exact stuck_list (decidedL xs h hn) (softL_iff.1 h) hw
  | .set xs, h, hn => decided_of hn fun hw => by
      simp only [Soft, NoSetCall, Wf] at h hn hw
      exact stuck_set (decidedL xs h hn) (softL_iff.1 h) hw
  | .fset xs, h, hn => decided_of hn fun hw => by
      simp only [Soft, NoSetCall, Wf] at h hn hw
      exact stuck_fset (decidedL xs h hn) (softL_iff.1 h) hw
  | .dict kvs, h, hn => decided_of hn fun hw => by
      simp only [Soft, NoSetCall, Wf] at h hn hw
      exact stuck_dict (decidedD kvs h hn) (softD_iff.1 h) hw
  | .what o n kvs, h, hn => decided_of hn fun hw => by
      simp only [Soft, NoSetCall, Wf] at h hn hw
      have ih := decidedA kvs h.2.2 hn.2
      by_cases hst : NestedStart (o.getD n)
      · exact stuck_params h.1 h.2.1 hst ih fun hk => hw ⟨h.1, h.2.1, hst, hk⟩
      · exact stuck_name h.1 h.2.1 hst
termination_by structural a => a
theorem decidedL : ∀ xs : List Ast, SoftL xs → NoSetCallL xs → ∀ x ∈ xs, Decided x
  | [], _, _, x, hx => by cases hx
  | y :: ys, h, hn, x, hx => by
      simp only [SoftL] at h
      simp only [NoSetCallL] at hn
      have h1 := decided y h.1 hn.1
      have h2 := decidedL ys h.2 hn.2
      rcases List.mem_cons.1 hx with rfl | hx
      · exact h1
      · exact h2 x hx
termination_by structural xs => xs
theorem decidedD : ∀ xs : List (Ast × Ast), SoftD xs → NoSetCallD xs → ∀ x ∈ xs, Decided x.1 ∧ Decided x.2
  | [], _, _, x, hx => by cases hx
  | (k, v) :: ys, h, hn, x, hx => by
      simp only [SoftD] at h
      simp only [NoSetCallD] at hn
      have h0 := decided k h.1 hn.1
      have h1 := decided v h.2.1 hn.2.1
      have h2 := decidedD ys h.2.2 hn.2.2
      rcases List.mem_cons.1 hx with rfl | hx
      · exact ⟨h0, h1⟩
      · exact h2 x hx
termination_by structural xs => xs
theorem decidedA : ∀ xs : List (Str × Ast), SoftA xs → NoSetCallA xs → ∀ x ∈ xs, Ident x.1 ∧ Decided x.2
  | [], _, _, x, hx => by cases hx
  | (k, v) :: ys, h, hn, x, hx => by
      simp only [SoftA] at h
      simp only [NoSetCallA] at hn
      have h1 := decided v h.2.1 hn.1
      have h2 := decidedA ys h.2.2 hn.2
      rcases List.mem_cons.1 hx with rfl | hx
      · exact ⟨h.1, h1⟩
      · exact h2 x hx
termination_by structural xs => xs
end

/-- A whole id with a nested name that starts like a value is refused. -/
theorem refused_of_name {E : Env} {o : Option Str} {n : Str} {kvs : List (Str × Ast)} (ho : ∀ x, o = some x → Ident x) (hn : Ident n)
    (hk : SoftA kvs) (hc : NoSetCallA kvs) (hw : ¬ WfA kvs) {s : Str} (hp : Padded (toks (.what o n kvs)) s) : parseWhatid E s = .error .noMatch := by
  obtain ⟨i1, i2, i3⟩ := itemsA_stuck (decidedA kvs hk hc) hw
  simp only [toks] at hp
  have e1 : Ev newGrammar true (.ref .whatamiId) (s ++ []) .fail := stuck_what ho hn i1 i2 i3 hp []
  rw [List.append_nil] at e1
  have h1 : Ev newGrammar false (.ref .whatamiIdTop) s .fail := .refFail (.catFail e1)
  have h2 : Ev newGrammar false (.ref .whatamiIdTop) s (run newGrammar ((s.length + 1) * stepsPerChar) false (.ref .whatamiIdTop) s) :=
    ⟨top_terminates newGrammar_noLeftRec (Nat.le_refl _), _, rfl⟩
  have h3 := h2.det h1
  simp only [parseWhatid, parseWith, parseTree, h3]

end Whatami
