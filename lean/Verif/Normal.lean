import Verif.Parsed
import Verif.Props.RoundTrip

/-
What the parser returns can be written and read back.
Definitions here are vocabulary for statements and proofs: the code they are about is cited in the model modules.
-/
set_option linter.unusedSectionVars false

namespace Whatami

/-! ### Equality of hashable plain data is symmetric -/

theorem numEq_symm (b : Bool) (m n : Int ⊕ Str) : numEq b m n = numEq b n m := by
  cases m <;> cases n <;> simp only [numEq]
  · exact BEq.comm
  · rename_i x y
    by_cases h : x = y
    · subst h; rfl
    · have h1 : (x == y) = false := beq_false_of_ne h
      have h2 : (y == x) = false := beq_false_of_ne (Ne.symm h)
      rw [h1, h2]; rfl

mutual
theorem flat_eq_symm (fi : Str → Option Int) (b : Bool) : ∀ x : Val, Flat x → ∀ y, Flat y → pyEq fi b x y = pyEq fi b y x
  | .none, _, y, hy => by cases y <;> simp_all [pyEq, numKey, Flat] <;> cases fi _ <;> rfl
  | .bool u, _, y, hy => by
    cases y with
    | float t => simp only [pyEq, numKey]; cases fi t <;> simp only [numEq_symm]
    | _ => first | (simp only [pyEq, numKey, numEq_symm]; done) | (simp [pyEq, numKey, Flat] at *)
  | .int u, _, y, hy => by
    cases y with
    | float t => simp only [pyEq, numKey]; cases fi t <;> simp only [numEq_symm]
    | _ => first | (simp only [pyEq, numKey, numEq_symm]; done) | (simp [pyEq, numKey, Flat] at *)
  | .float u, _, y, hy => by
    cases y with
    | float t => simp only [pyEq, numKey]; cases fi t <;> cases fi u <;> simp only [numEq_symm]
    | bool t => simp only [pyEq, numKey]; cases fi u <;> simp only [numEq_symm]
    | int t => simp only [pyEq, numKey]; cases fi u <;> simp only [numEq_symm]
    | _ => simp [pyEq, numKey, Flat] at * <;> cases fi u <;> rfl
  | .str u, _, y, hy => by
    cases y with
    | str t => simp only [pyEq]; exact BEq.comm
    | float t => simp only [pyEq, numKey]; cases fi t <;> rfl
    | _ => simp [pyEq, numKey, Flat] at *
  | .cls u, _, y, hy => by
    cases y with
    | cls t => simp only [pyEq]; exact BEq.comm
    | float t => simp only [pyEq, numKey]; cases fi t <;> rfl
    | _ => simp [pyEq, numKey, Flat] at *
  | .tuple xs, h, y, hy => by
    cases y with
    | tuple ys => simp only [pyEq]; simp only [Flat] at h hy; exact flatL_eq_symm fi b xs h ys hy
    | float t => simp only [pyEq, numKey]; cases fi t <;> rfl
    | _ => simp [pyEq, numKey, Flat] at *
termination_by structural x => x
theorem flatL_eq_symm (fi : Str → Option Int) (b : Bool) : ∀ xs : List Val, FlatL xs → ∀ ys, FlatL ys → pyEqL fi b xs ys = pyEqL fi b ys xs
  | [], _, [], _ => rfl
  | [], _, _ :: _, _ => rfl
  | _ :: _, _, [], _ => rfl
  | x :: xs, h, y :: ys, hy => by
    simp only [FlatL] at h hy
    simp only [pyEqL, flat_eq_symm fi b x h.1 y hy.1, flatL_eq_symm fi b xs h.2 ys hy.2]
termination_by structural xs => xs
end

/-! ### Sets and dicts that the parser builds have different elements and keys -/

/-- Different in both directions. -/
def Differ (fi : Str → Option Int) (x y : Val) : Prop := pyEq fi false x y = false ∧ pyEq fi false y x = false

theorem setFrom_differ {fi : Str → Option Int} {l acc d : List Val} (h : setFrom fi acc l = .ok d) (ha : acc.Pairwise (Differ fi))
    (hf : ∀ x ∈ acc, Flat x) (hl : ∀ x ∈ l, hashable x = true → Flat x) : d.Pairwise (Differ fi) := by
  induction l generalizing acc with
  | nil => cases h; exact ha
  | cons v r ih =>
    simp only [setFrom] at h
    split at h
    · rename_i hh
      have hv := hl v (.head _) hh
      refine ih h ?_ ?_ fun x hx => hl x (.tail _ hx)
      · split
        · exact ha
        · rename_i hn
          rw [List.pairwise_append]
          refine ⟨ha, by simp, fun x hx y hy => ?_⟩
          rw [List.mem_singleton] at hy
          subst hy
          have h1 : pyEq fi false x y = false := by
            cases hxy : pyEq fi false x y with
            | false => rfl
            | true => exact absurd (List.any_eq_true.2 ⟨x, hx, hxy⟩) hn
          exact ⟨h1, by rw [← flat_eq_symm fi false x (hf x hx) y hv]; exact h1⟩
      · split
        · exact hf
        · intro x hx
          rcases List.mem_append.1 hx with hx | hx
          · exact hf x hx
          · rw [List.mem_singleton] at hx; subst hx; exact hv
    · cases h

theorem vput_keys {fi : Str → Option Int} {d : List (Val × Val)} {k v : Val} :
    (vput fi d k v).map Prod.fst = d.map Prod.fst ∨
      ((vput fi d k v).map Prod.fst = d.map Prod.fst ++ [k] ∧ ∀ x ∈ d.map Prod.fst, pyEq fi false x k = false) := by
  induction d with
  | nil => exact .inr ⟨rfl, by simp⟩
  | cons e r ih =>
    obtain ⟨a, b⟩ := e
    simp only [vput]
    split
    · exact .inl rfl
    · rename_i hn
      rcases ih with ih | ⟨ih, hk⟩
      · exact .inl (by simp only [List.map_cons, ih])
      · refine .inr ⟨by simp only [List.map_cons, ih, List.cons_append], ?_⟩
        intro x hx
        cases hx with
        | head => simpa using hn
        | tail _ hx => exact hk x hx

theorem dictFrom_differ {fi : Str → Option Int} {l acc d : List (Val × Val)} (h : dictFrom fi acc l = .ok d)
    (ha : (acc.map Prod.fst).Pairwise (Differ fi)) (hf : ∀ x ∈ acc.map Prod.fst, Flat x)
    (hl : ∀ k v, (k, v) ∈ l → hashable k = true → Flat k) : (d.map Prod.fst).Pairwise (Differ fi) ∧ ∀ x ∈ d.map Prod.fst, Flat x := by
  induction l generalizing acc with
  | nil => cases h; exact ⟨ha, hf⟩
  | cons e r ih =>
    obtain ⟨k, v⟩ := e
    simp only [dictFrom] at h
    split at h
    · rename_i hh
      have hk := hl k v (.head _) hh
      have hkeys := vput_keys (fi := fi) (d := acc) (k := k) (v := v)
      refine ih h ?_ ?_ fun k v hm => hl k v (.tail _ hm)
      · rcases hkeys with e | ⟨e, hne⟩
        · rw [e]; exact ha
        · rw [e, List.pairwise_append]
          refine ⟨ha, by simp, fun x hx y hy => ?_⟩
          rw [List.mem_singleton] at hy
          subst hy
          exact ⟨hne x hx, by rw [← flat_eq_symm fi false x (hf x hx) y hk]; exact hne x hx⟩
      · rcases hkeys with e | ⟨e, _⟩
        · rw [e]; exact hf
        · rw [e]
          intro x hx
          rcases List.mem_append.1 hx with hx | hx
          · exact hf x hx
          · rw [List.mem_singleton] at hx; subst hx; exact hk
    · cases h

theorem mem_dictFrom' {fi : Str → Option Int} {l acc d : List (Val × Val)} (h : dictFrom fi acc l = .ok d) {k v : Val} (hm : (k, v) ∈ d) :
    ((∃ u, (k, u) ∈ acc) ∨ ∃ u, (k, u) ∈ l) ∧ ((∃ u, (u, v) ∈ acc) ∨ ∃ u, (u, v) ∈ l) := by
  induction l generalizing acc with
  | nil => cases h; exact ⟨.inl ⟨v, hm⟩, .inl ⟨k, hm⟩⟩
  | cons e r ih =>
    obtain ⟨a, b⟩ := e
    simp only [dictFrom] at h
    split at h
    · obtain ⟨h1, h2⟩ := ih h
      constructor
      · rcases h1 with ⟨u, hu⟩ | ⟨u, hu⟩
        · rcases (vput_mem hu).1 with rfl | h
          · exact .inr ⟨b, .head _⟩
          · exact .inl h
        · exact .inr ⟨u, .tail _ hu⟩
      · rcases h2 with ⟨u, hu⟩ | ⟨u, hu⟩
        · rcases (vput_mem hu).2 with rfl | h
          · exact .inr ⟨a, .head _⟩
          · exact .inl h
        · exact .inr ⟨u, .tail _ hu⟩
    · cases h

/-! ### Everything parsed can be written and read -/

/-- Python's floats and classes: the `repr` of a float is not an integer and reads as the same float; whatever `<class '...'>`
finds is a class that can be found under its own dotted name. -/
structure SaneEnv (E : Env) : Prop where
  float : ∀ t, NumShape t → pyInt t = none → FloatText (E.floatOf t) ∧ E.floatOf (E.floatOf t) = E.floatOf t
  cls : ∀ m n v, E.imp m n = .ok v → ∃ f, v = .cls f ∧ Dotted f ∧ E.imp (rpartition f '.').1 (rpartition f '.').2 = .ok (.cls f)

/-- Neither this value nor anything in it is a What that would be written `set()` or `frozenset()`. -/
def NoSetWhat (v : Val) : Prop := ∀ n nk, Within (.what n [] nk none) v → n ≠ c!"set" ∧ n ≠ c!"frozenset"

theorem NoSetWhat.child {v x : Val} (h : NoSetWhat v) (hc : Child x v) : NoSetWhat x :=
  fun n nk hw => h n nk (.step hw hc)

theorem printableL_iff {F : Frag} {xs : List Val} : PrintableL F xs ↔ ∀ x ∈ xs, Printable F x := by
  induction xs with
  | nil => simp [PrintableL]
  | cons x xs ih => simp [PrintableL, ih]

theorem loadableL_iff {F : Frag} {E : Env} {xs : List Val} : LoadableL F E xs ↔ ∀ x ∈ xs, Loadable F E x := by
  induction xs with
  | nil => simp [LoadableL]
  | cons x xs ih => simp [LoadableL, ih]

theorem printableD_of {F : Frag} {xs : List (Val × Val)} (h : ∀ k v, (k, v) ∈ xs → Printable F k ∧ Printable F v) : PrintableD F xs := by
  induction xs with
  | nil => trivial
  | cons x xs ih => exact ⟨(h _ _ (.head _)).1, (h _ _ (.head _)).2, ih fun k v hm => h k v (.tail _ hm)⟩

theorem loadableD_of {F : Frag} {E : Env} {xs : List (Val × Val)} (h : ∀ k v, (k, v) ∈ xs → Loadable F E k ∧ Loadable F E v) : LoadableD F E xs := by
  induction xs with
  | nil => trivial
  | cons x xs ih => exact ⟨(h _ _ (.head _)).1, (h _ _ (.head _)).2, ih fun k v hm => h k v (.tail _ hm)⟩

theorem printableA_of {F : Frag} {nk : List Str} {xs : List (Str × Val)} (h : ∀ k v, (k, v) ∈ xs → Printable F v) : PrintableA F nk xs := by
  induction xs with
  | nil => trivial
  | cons x xs ih => exact ⟨fun _ => h _ _ (.head _), ih fun k v hm => h k v (.tail _ hm)⟩

theorem loadableA_of {F : Frag} {E : Env} {nk : List Str} {xs : List (Str × Val)} (h : ∀ k v, (k, v) ∈ xs → Loadable F E v) : LoadableA F E nk xs := by
  induction xs with
  | nil => trivial
  | cons x xs ih => exact ⟨fun _ => h _ _ (.head _), ih fun k v hm => h k v (.tail _ hm)⟩

section
variable {E : Env} (hE : SaneEnv E)
include hE

mutual
theorem sem_flat : ∀ (a : Ast) (v : Val), sem E a = .ok v → hashable v = true → Flat v
  | .none, v, h, _ => by cases h; trivial
  | .bool _, v, h, _ => by cases h; trivial
  | .num t, v, h, _ => by
    cases h
    simp only [numberOf]
    cases pyInt t <;> trivial
  | .str _, v, h, _ => by cases h; trivial
  | .cls b, v, h, hh => by
    simp only [sem, clsVal] at h
    split at h
    · cases h
    · cases h
      rename_i _ hi
      obtain ⟨f, rfl, _⟩ := hE.cls _ _ _ hi
      trivial
    · cases h; simp [hashable] at hh
    · cases h; simp [hashable] at hh
    · cases h
  | .tuple xs, v, h, hh => by
    obtain ⟨l, h1, h2⟩ := except_map_ok h
    rw [← h2] at hh ⊢
    simp only [hashable] at hh
    simp only [Flat]
    exact sem_flatL xs l h1 hh
  | .list xs, v, h, hh => by
    obtain ⟨l, h1, h2⟩ := except_map_ok h
    rw [← h2] at hh
    simp [hashable] at hh
  | .set xs, v, h, hh => by
    obtain ⟨l, h1, h2⟩ := except_bind_ok h
    obtain ⟨d, h3, h4⟩ := except_map_ok h2
    rw [← h4] at hh
    simp [hashable] at hh
  | .fset xs, v, h, hh => by
    obtain ⟨l, h1, h2⟩ := except_bind_ok h
    obtain ⟨d, h3, h4⟩ := except_map_ok h2
    rw [← h4] at hh
    simp [hashable] at hh
  | .dict kvs, v, h, hh => by
    obtain ⟨l, h1, h2⟩ := except_bind_ok h
    obtain ⟨d, h3, h4⟩ := except_map_ok h2
    rw [← h4] at hh
    simp [hashable] at hh
  | .what o n kvs, v, h, hh => by
    obtain ⟨l, h1, h2⟩ := except_bind_ok h
    split at h2
    · cases h2
    · cases h2
      simp [hashable] at hh
termination_by structural a => a
theorem sem_flatL : ∀ (xs : List Ast) (l : List Val), semL E xs = .ok l → hashableL l = true → FlatL l
  | [], l, h, _ => by cases h; trivial
  | x :: xs, l, h, hh => by
    obtain ⟨v, h1, h2⟩ := except_bind_ok h
    obtain ⟨r, h3, h4⟩ := except_map_ok h2
    rw [← h4] at hh ⊢
    simp only [hashableL, Bool.and_eq_true] at hh
    exact ⟨sem_flat x v h1 hh.1, sem_flatL xs r h3 hh.2⟩
termination_by structural xs => xs
end

theorem sem_flat_mem : ∀ (xs : List Ast) (l : List Val), semL E xs = .ok l → ∀ x ∈ l, hashable x = true → Flat x
  | [], l, h => by cases h; intro x hx; cases hx
  | a :: xs, l, h => by
    obtain ⟨v, h1, h2⟩ := except_bind_ok h
    obtain ⟨r, h3, h4⟩ := except_map_ok h2
    rw [← h4]
    intro x hx hh
    cases hx with
    | head => exact sem_flat hE a v h1 hh
    | tail _ hx => exact sem_flat_mem xs r h3 x hx hh

theorem sem_flat_key : ∀ (xs : List (Ast × Ast)) (l : List (Val × Val)), semD E xs = .ok l → ∀ k v, (k, v) ∈ l → hashable k = true → Flat k
  | [], l, h => by cases h; intro k v hx; cases hx
  | (a, b) :: xs, l, h => by
    obtain ⟨k, h1, h2⟩ := except_bind_ok h
    obtain ⟨v, h3, h4⟩ := except_bind_ok h2
    obtain ⟨r, h5, h6⟩ := except_map_ok h4
    rw [← h6]
    intro k' v' hx hh
    cases hx with
    | head => exact sem_flat hE a k h1 hh
    | tail _ hx => exact sem_flat_key xs r h5 k' v' hx hh

/-- Both. -/
def Fine (F : Frag) (E : Env) (v : Val) : Prop := Printable F v ∧ Loadable F E v

omit hE in
theorem semA_keys : ∀ (xs : List (Str × Ast)) (l : List (Str × Val)), semA E xs = .ok l → l.map Prod.fst = xs.map Prod.fst
  | [], l, h => by cases h; rfl
  | (a, b) :: xs, l, h => by
    obtain ⟨v, h1, h2⟩ := except_bind_ok h
    obtain ⟨r, h3, h4⟩ := except_map_ok h2
    rw [← h4]
    simp only [List.map_cons, semA_keys xs r h3]

omit hE in
theorem dupdate_ne_nil {d e : List (Str × Val)} (h : d ≠ []) : dupdate d e ≠ [] := by
  unfold dupdate
  induction e generalizing d with
  | nil => exact h
  | cons x r ih =>
    simp only [List.foldl_cons]
    apply ih
    cases d with
    | nil => exact absurd rfl h
    | cons y d => obtain ⟨a, b⟩ := y; simp only [dset]; split <;> simp

omit hE in
theorem dictOf_nil {l : List (Str × Val)} (h : dictOf l = []) : l = [] := by
  cases l with
  | nil => rfl
  | cons e r => exact absurd h (dupdate_ne_nil (d := dset [] e.1 e.2) (e := r) (by simp [dset]))

omit hE in
theorem wfA_keys : ∀ {xs : List (Str × Ast)}, WfA xs → ∀ k ∈ xs.map Prod.fst, Ident k
  | [], _, k, hk => by cases hk
  | (a, b) :: xs, h, k, hk => by
    simp only [WfA] at h
    cases hk with
    | head => exact h.1
    | tail _ hk => exact wfA_keys h.2.2 k hk

omit hE in
/-- The parameters of a parsed What. -/
theorem conf_keys {kvs : List (Str × Ast)} {l : List (Str × Val)} (h : semA E kvs = .ok l) (hw : WfA kvs) :
    ∀ k ∈ (dictOf l).map Prod.fst, Ident k := by
  intro k hk
  obtain ⟨⟨k', v⟩, hm, rfl⟩ := List.mem_map.1 hk
  have := mem_dictOf hm
  exact wfA_keys hw _ (semA_keys kvs l h ▸ List.mem_map.2 ⟨_, this, rfl⟩)

variable {F : Frag} (hq : ¬ F.quotes)
include hq

omit hE in
theorem fine_set {l d : List Val} (hl : ∀ x ∈ l, NoSetWhat x → Fine F E x) (hf : ∀ x ∈ l, hashable x = true → Flat x)
    (h : setFrom E.fi [] l = .ok d) (hn : NoSetWhat (.set d)) : Fine F E (.set d) := by
  have hd : ∀ x ∈ d, Fine F E x ∧ Flat x := by
    intro x hx
    rcases setFrom_mem h x hx with hx' | ⟨hx', hh⟩
    · cases hx'
    · exact ⟨hl x hx' (hn.child (.set hx)), hf x hx' hh⟩
  refine ⟨?_, ?_⟩
  · simp only [Printable]
    exact printableL_iff.2 fun x hx => (hd x hx).1.1
  · simp only [Loadable]
    refine ⟨loadableL_iff.2 fun x hx => (hd x hx).1.2, fun x hx => (hd x hx).2, ?_⟩
    exact (setFrom_differ h .nil (fun x hx => by cases hx) hf).imp fun h => apart_of hq h.1 h.2

omit hE in
theorem fine_dict {l d : List (Val × Val)} (hl : ∀ k v, (k, v) ∈ l → (NoSetWhat k → Fine F E k) ∧ (NoSetWhat v → Fine F E v))
    (hf : ∀ k v, (k, v) ∈ l → hashable k = true → Flat k)
    (h : dictFrom E.fi [] l = .ok d) (hn : NoSetWhat (.dict d)) : Fine F E (.dict d) := by
  have hd : ∀ k v, (k, v) ∈ d → Fine F E k ∧ Fine F E v := by
    intro k v hm
    obtain ⟨h1, h2⟩ := mem_dictFrom' h hm
    constructor
    · rcases h1 with ⟨u, hu⟩ | ⟨u, hu⟩
      · cases hu
      · exact (hl k u hu).1 (hn.child (.dictKey hm))
    · rcases h2 with ⟨u, hu⟩ | ⟨u, hu⟩
      · cases hu
      · exact (hl u v hu).2 (hn.child (.dictVal hm))
  obtain ⟨h1, h2⟩ := dictFrom_differ h .nil (fun x hx => by cases hx) hf
  refine ⟨?_, ?_⟩
  · simp only [Printable]
    exact printableD_of fun k v hm => ⟨(hd k v hm).1.1, (hd k v hm).2.1⟩
  · simp only [Loadable]
    refine ⟨loadableD_of fun k v hm => ⟨(hd k v hm).1.2, (hd k v hm).2.2⟩, ?_, h1.imp fun h => apart_of hq h.1 h.2⟩
    rintro ⟨k, v⟩ hm
    exact h2 k (List.mem_map.2 ⟨_, hm, rfl⟩)

mutual
theorem sem_fine : ∀ (a : Ast), Wf a → ∀ v, sem E a = .ok v → NoSetWhat v → Fine F E v
  | .none, _, v, h, _ => by cases h; exact ⟨trivial, trivial⟩
  | .bool _, _, v, h, _ => by cases h; exact ⟨trivial, trivial⟩
  | .num t, hw, v, h, _ => by
    cases h
    simp only [Wf] at hw
    simp only [numberOf]
    cases hp : pyInt t with
    | some i => exact ⟨trivial, trivial⟩
    | none =>
      obtain ⟨h1, h2⟩ := hE.float t hw hp
      exact ⟨by simpa only [Printable] using h1, by simpa only [Loadable] using h2⟩
  | .str b, hw, v, h, _ => by
    cases h
    simp only [Wf] at hw
    exact ⟨by simp only [Printable]; exact .inl hw, trivial⟩
  | .cls b, hw, v, h, _ => by
    simp only [Wf] at hw
    have hd : Fine F E (.dict [(.str c!"class", .str b)]) := by
      refine ⟨?_, ?_⟩
      · simp only [Printable, PrintableD, and_true]
        exact ⟨.inl (goodBody_plain (by decide) (by rintro c r h; cases h; decide)), .inl hw⟩
      · simp only [Loadable, LoadableD, List.mem_singleton, forall_eq, Flat, List.map_cons, List.map_nil, and_true]
        exact ⟨trivial, trivial, .cons (fun x hx => by cases hx) .nil⟩
    simp only [sem, clsVal] at h
    split at h
    · cases h
    · cases h
      rename_i _ hi
      obtain ⟨f, rfl, h1, h2⟩ := hE.cls _ _ _ hi
      exact ⟨by simpa only [Printable] using h1, by simpa only [Loadable] using h2⟩
    · cases h; exact hd
    · cases h; exact hd
    · cases h
  | .tuple xs, hw, v, h, hn => by
    obtain ⟨l, h1, h2⟩ := except_map_ok h
    simp only [Wf] at hw
    rw [← h2] at hn ⊢
    have hl := sem_fineL xs hw l h1
    refine ⟨?_, ?_⟩
    · simp only [Printable]; exact printableL_iff.2 fun x hx => (hl x hx (hn.child (.tuple hx))).1
    · simp only [Loadable]; exact loadableL_iff.2 fun x hx => (hl x hx (hn.child (.tuple hx))).2
  | .list xs, hw, v, h, hn => by
    obtain ⟨l, h1, h2⟩ := except_map_ok h
    simp only [Wf] at hw
    rw [← h2] at hn ⊢
    have hl := sem_fineL xs hw l h1
    refine ⟨?_, ?_⟩
    · simp only [Printable]; exact printableL_iff.2 fun x hx => (hl x hx (hn.child (.list hx))).1
    · simp only [Loadable]; exact loadableL_iff.2 fun x hx => (hl x hx (hn.child (.list hx))).2
  | .set xs, hw, v, h, hn => by
    obtain ⟨l, h1, h2⟩ := except_bind_ok h
    obtain ⟨d, h3, h4⟩ := except_map_ok h2
    simp only [Wf] at hw
    rw [← h4] at hn ⊢
    exact fine_set hq (sem_fineL xs hw l h1) (sem_flat_mem hE xs l h1) h3 hn
  | .fset xs, hw, v, h, hn => by
    obtain ⟨l, h1, h2⟩ := except_bind_ok h
    obtain ⟨d, h3, h4⟩ := except_map_ok h2
    simp only [Wf] at hw
    rw [← h4] at hn ⊢
    exact fine_set hq (sem_fineL xs hw l h1) (sem_flat_mem hE xs l h1) h3 hn
  | .dict kvs, hw, v, h, hn => by
    obtain ⟨l, h1, h2⟩ := except_bind_ok h
    obtain ⟨d, h3, h4⟩ := except_map_ok h2
    simp only [Wf] at hw
    rw [← h4] at hn ⊢
    exact fine_dict hq (sem_fineD kvs hw l h1) (sem_flat_key hE kvs l h1) h3 hn
  | .what o n kvs, hw, v, h, hn => by
    obtain ⟨l, h1, h2⟩ := except_bind_ok h
    simp only [Wf] at hw
    split at h2
    · cases h2
    · rename_i ho
      cases h2
      have hl := sem_fineA kvs hw.2.2.2 l h1
      have hf : ∀ k v, (k, v) ∈ dictOf l → Fine F E v := fun k v hm => hl k v (mem_dictOf hm) (hn.child (.what k n [] o hm))
      refine ⟨?_, ?_⟩
      · simp only [Printable]
        refine ⟨⟨hw.1, hw.2.1, conf_keys h1 hw.2.2.2⟩, ⟨hw.2.2.1, ?_⟩, nodup_dictOf l, .inl trivial, printableA_of fun k v hm => (hf k v hm).1⟩
        intro hon hk
        have he : dictOf l = [] := by
          cases hd : dictOf l with
          | nil => rfl
          | cons e r => rw [hd] at hk; exact absurd (hk e.1 (.head _)) (by simp)
        rw [he, hon] at hn
        exact hn n [] (.refl _)
      · simp only [Loadable]
        refine ⟨fun hon => ?_, loadableA_of fun k v hm => (hf k v hm).2⟩
        cases hd : dictOf l with
        | cons e r => exact ⟨e.1, .head _, by simp⟩
        | nil =>
          exfalso
          have : l = [] := dictOf_nil hd
          have hk := semA_keys kvs l h1
          rw [this] at hk
          cases kvs with
          | cons a b => cases hk
          | nil => cases o with
            | none => exact hon rfl
            | some o => exact ho rfl
termination_by structural a => a
theorem sem_fineL : ∀ (xs : List Ast), WfL xs → ∀ l, semL E xs = .ok l → ∀ x ∈ l, NoSetWhat x → Fine F E x
  | [], _, l, h => by cases h; intro x hx; cases hx
  | a :: xs, hw, l, h => by
    obtain ⟨v, h1, h2⟩ := except_bind_ok h
    obtain ⟨r, h3, h4⟩ := except_map_ok h2
    simp only [WfL] at hw
    rw [← h4]
    intro x hx hn
    cases hx with
    | head => exact sem_fine a hw.1 v h1 hn
    | tail _ hx => exact sem_fineL xs hw.2 r h3 x hx hn
termination_by structural xs => xs
theorem sem_fineD : ∀ (xs : List (Ast × Ast)), WfD xs → ∀ l, semD E xs = .ok l → ∀ k v, (k, v) ∈ l →
    (NoSetWhat k → Fine F E k) ∧ (NoSetWhat v → Fine F E v)
  | [], _, l, h => by cases h; intro k v hm; cases hm
  | (a, b) :: xs, hw, l, h => by
    obtain ⟨k, h1, h2⟩ := except_bind_ok h
    obtain ⟨v, h3, h4⟩ := except_bind_ok h2
    obtain ⟨r, h5, h6⟩ := except_map_ok h4
    simp only [WfD] at hw
    rw [← h6]
    intro k' v' hm
    cases hm with
    | head => exact ⟨sem_fine a hw.1 k h1, sem_fine b hw.2.1 v h3⟩
    | tail _ hm => exact sem_fineD xs hw.2.2 r h5 k' v' hm
termination_by structural xs => xs
theorem sem_fineA : ∀ (xs : List (Str × Ast)), WfA xs → ∀ l, semA E xs = .ok l → ∀ k v, (k, v) ∈ l → NoSetWhat v → Fine F E v
  | [], _, l, h => by cases h; intro k v hm; cases hm
  | (a, b) :: xs, hw, l, h => by
    obtain ⟨v, h1, h2⟩ := except_bind_ok h
    obtain ⟨r, h3, h4⟩ := except_map_ok h2
    simp only [WfA] at hw
    rw [← h4]
    intro k' v' hm hn
    cases hm with
    | head => exact sem_fine b hw.2.1 v h1 hn
    | tail _ hm => exact sem_fineA xs hw.2.2 r h3 k' v' hm hn
termination_by structural xs => xs
end

/-- The What of a whole id. -/
theorem semTop_fine {o : Option Str} {n : Str} {kvs : List (Str × Ast)} {w : What} (ho : ∀ x, o = some x → Ident x) (hn : Ident n)
    (hk : WfA kvs) (h : semTop E o n kvs = .ok w) (hs : ∀ k v, (k, v) ∈ w.conf → NoSetWhat v) : PrintableWhat F w ∧ LoadableWhat F E w := by
  obtain ⟨l, h1, h2⟩ := except_bind_ok h
  split at h2
  · cases h2
  · rename_i hov
    cases h2
    have hl := sem_fineA hE hq kvs hk l h1
    have hf : ∀ k v, (k, v) ∈ dictOf l → Fine F E v := fun k v hm => hl k v (mem_dictOf hm) (hs k v hm)
    refine ⟨⟨⟨ho, hn, conf_keys h1 hk⟩, nodup_dictOf l, .inl rfl, fun k v hm _ => (hf k v hm).1⟩, ?_, fun k v hm _ => (hf k v hm).2⟩
    intro hon
    cases hd : dictOf l with
    | cons e r => exact ⟨e.1, by simp, by simp⟩
    | nil =>
      exfalso
      have : l = [] := dictOf_nil hd
      have hk := semA_keys kvs l h1
      rw [this] at hk
      cases kvs with
      | cons a b => cases hk
      | nil => cases o with
        | none => exact hon rfl
        | some o => exact hov rfl

theorem parse_fine {s : Str} {w : What} (h : parseWhatid E s = .ok w) (hs : ∀ k v, (k, v) ∈ w.conf → NoSetWhat v) :
    PrintableWhat F w ∧ LoadableWhat F E w := by
  rcases parse_cases (E := E) s with h' | ⟨o, n, kvs, p, ws, ho, hn, hk, _, _, _, h'⟩
  · rw [h] at h'; cases h'
  · rw [h] at h'
    exact semTop_fine hE hq ho hn hk h'.symm hs

end

end Whatami
