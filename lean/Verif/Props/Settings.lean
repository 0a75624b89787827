import Verif.Props.Recorder
import Verif.Props.Calls

/-
C51: the settings of a recorder over a history of calls; which records a call of `add` is about (C33); `curry2partial` (C27).
-/
namespace Whatami

variable (fi : Str → Option Int)

/-! ### C51 -/

/-- The call sets a default for this column. -/
def SetsDefault (c : Str) : RecOp → Prop
  | .addDefaults cs => c ∈ cs.map Prod.fst
  | _ => False

/-- The call removes the default of this column. -/
def DropsDefault (c : Str) : RecOp → Prop
  | .removeDefaults cs => c ∈ cs
  | _ => False

/-- The postprocessors the call appends. -/
def appended : RecOp → List Post
  | .addPosts ps => ps
  | _ => []

theorem recRun_append (r : Recorder) (h1 h2 : List RecOp) : recRun fi r (h1 ++ h2) = recRun fi (recRun fi r h1) h2 := by
  simp [recRun, List.foldl_append]

theorem dget_ddel_other {d : Conf} {c k : Str} (h : k ≠ c) : dget (ddel d c) k = dget d k := by
  induction d with
  | nil => rfl
  | cons e d ih =>
    obtain ⟨k', v⟩ := e
    simp only [ddel]
    split
    · rename_i e; subst e; simp [dget, h.symm]
    · simp only [dget, ih]

theorem nodup_ddel_conf {d : Conf} (h : UniqueKeys d) (c : Str) : UniqueKeys (ddel d c) ∧ dget (ddel d c) c = none := by
  induction d with
  | nil => exact ⟨h, rfl⟩
  | cons e d ih =>
    obtain ⟨k, v⟩ := e
    simp only [UniqueKeys, List.map_cons, List.nodup_cons] at h
    obtain ⟨h1, h2⟩ := ih h.2
    simp only [ddel]
    split
    · rename_i e; subst e
      exact ⟨h.2, dget_none_iff.2 h.1⟩
    · rename_i hne
      refine ⟨?_, by simp [dget, hne, h2]⟩
      simp only [UniqueKeys, List.map_cons, List.nodup_cons]
      refine ⟨?_, h1⟩
      intro hm
      have := dget_none_iff.2 h.1
      have e := dget_ddel_other (d := d) hne
      rw [this] at e
      exact (dget_none_iff.1 e) hm

theorem removeDefaults_spec {d : Conf} (h : UniqueKeys d) (cs : List Str) :
    UniqueKeys (removeDefaults d cs) ∧ ∀ k, dget (removeDefaults d cs) k = if k ∈ cs then none else dget d k := by
  induction cs generalizing d with
  | nil => exact ⟨h, by simp [removeDefaults]⟩
  | cons c cs ih =>
    simp only [removeDefaults]
    have hu : UniqueKeys (if dhas d c = true then ddel d c else d) ∧
        ∀ k, dget (if dhas d c = true then ddel d c else d) k = if k = c then none else dget d k := by
      split
      · refine ⟨(nodup_ddel_conf h c).1, fun k => ?_⟩
        split
        · rename_i e; subst e; exact (nodup_ddel_conf h k).2
        · rename_i e; exact dget_ddel_other e
      · rename_i hd
        refine ⟨h, fun k => ?_⟩
        split
        · rename_i e; subst e
          simpa [dhas] using hd
        · rfl
    obtain ⟨h1, h2⟩ := ih hu.1
    refine ⟨h1, fun k => ?_⟩
    rw [h2, hu.2]
    by_cases e1 : k = c <;> by_cases e2 : k ∈ cs <;> simp [e1, e2]

/-- What a call does to the defaults and the postprocessors. -/
theorem recStep_defaults {r : Recorder} (hu : UniqueKeys r.defaults) (op : RecOp) :
    UniqueKeys (recStep fi r op).defaults ∧
    ∀ c, (¬ SetsDefault c op → ¬ DropsDefault c op → dget (recStep fi r op).defaults c = dget r.defaults c) ∧
      (DropsDefault c op → dget (recStep fi r op).defaults c = none) := by
  cases op with
  | add a =>
    have hd : (recStep fi r (.add a)).defaults = r.defaults := by
      simp only [recStep, Recorder.add]
      repeat' split
      all_goals rfl
    rw [hd]
    exact ⟨hu, fun c => ⟨fun _ _ => rfl, fun h => h.elim⟩⟩
  | addDefaults cs =>
    refine ⟨nodup_dupdate hu cs, fun c => ⟨fun h _ => ?_, fun h => h.elim⟩⟩
    simp only [recStep, dget_dupdate]
    have : dget cs.reverse c = none := dget_none_iff.2 (by
      intro hm
      apply h
      simpa [SetsDefault, dkeys] using hm)
    rw [this]
  | removeDefaults cs =>
    obtain ⟨h1, h2⟩ := removeDefaults_spec hu cs
    refine ⟨h1, fun c => ⟨fun _ h => ?_, fun h => ?_⟩⟩
    · simp only [recStep, h2]; exact if_neg h
    · simp only [recStep, h2]; exact if_pos h
  | addPosts ps => exact ⟨hu, fun c => ⟨fun _ _ => rfl, fun h => h.elim⟩⟩
  | overridePosts ps => exact ⟨hu, fun c => ⟨fun _ _ => rfl, fun h => h.elim⟩⟩

theorem recRun_defaults {r : Recorder} (hu : UniqueKeys r.defaults) (ops : List RecOp) :
    UniqueKeys (recRun fi r ops).defaults ∧
    ∀ c, (∀ op ∈ ops, ¬ SetsDefault c op ∧ ¬ DropsDefault c op) → dget (recRun fi r ops).defaults c = dget r.defaults c := by
  induction ops generalizing r with
  | nil => exact ⟨hu, fun _ _ => rfl⟩
  | cons op ops ih =>
    obtain ⟨h1, h2⟩ := recStep_defaults fi hu op
    obtain ⟨h3, h4⟩ := ih h1
    refine ⟨h3, fun c h => ?_⟩
    have := h4 c fun op' hm => h op' (.tail _ hm)
    rw [show recRun fi r (op :: ops) = recRun fi (recStep fi r op) ops from rfl, this]
    exact (h2 c).1 (h op (.head _)).1 (h op (.head _)).2

/-- C51.  The default of a column, after any history of calls (failing `add`s included): what the last call about that column
left; that is the value it set (the last one, should it name the column twice), or no default if it removed it. -/
theorem c51_defaults (r : Recorder) (hu : UniqueKeys r.defaults) (c : Str) (before after : List RecOp)
    (quiet : ∀ op ∈ after, ¬ SetsDefault c op ∧ ¬ DropsDefault c op) :
    dget (recRun fi r after).defaults c = dget r.defaults c ∧
    (∀ cs v, dget cs.reverse c = some v → dget (recRun fi r (before ++ .addDefaults cs :: after)).defaults c = some v) ∧
    (∀ cs, c ∈ cs → dget (recRun fi r (before ++ .removeDefaults cs :: after)).defaults c = none) := by
  refine ⟨(recRun_defaults fi hu after).2 c quiet, ?_, ?_⟩
  · intro cs v hv
    have hb := (recRun_defaults fi hu before).1
    have hs := recStep_defaults fi hb (.addDefaults cs)
    rw [recRun_append, show ∀ q : Recorder, recRun fi q (RecOp.addDefaults cs :: after) = recRun fi (recStep fi q (.addDefaults cs)) after from fun _ => rfl,
      (recRun_defaults fi hs.1 after).2 c quiet]
    simp only [recStep, dget_dupdate, hv]
  · intro cs hc
    have hb := (recRun_defaults fi hu before).1
    have hs := recStep_defaults fi hb (.removeDefaults cs)
    rw [recRun_append, show ∀ q : Recorder, recRun fi q (RecOp.removeDefaults cs :: after) = recRun fi (recStep fi q (.removeDefaults cs)) after from fun _ => rfl,
      (recRun_defaults fi hs.1 after).2 c quiet]
    exact (hs.2 c).2 hc

/-- C51.  The postprocessors of a recorder: those it started with, or those of the last `override_postprocessors`, followed by
all those added since, in order. -/
theorem c51_posts (r : Recorder) (before after : List RecOp) (quiet : ∀ op ∈ after, ∀ ps, op ≠ .overridePosts ps) :
    (recRun fi r after).posts = r.posts ++ after.flatMap appended ∧
    ∀ ps, (recRun fi r (before ++ .overridePosts ps :: after)).posts = ps ++ after.flatMap appended := by
  have key : ∀ (ops : List RecOp) (r : Recorder), (∀ op ∈ ops, ∀ ps, op ≠ .overridePosts ps) →
      (recRun fi r ops).posts = r.posts ++ ops.flatMap appended := by
    intro ops
    induction ops with
    | nil => intro r _; simp [recRun]
    | cons op ops ih =>
      intro r h
      rw [show recRun fi r (op :: ops) = recRun fi (recStep fi r op) ops from rfl, ih _ fun op' hm => h op' (.tail _ hm)]
      rw [List.flatMap_cons, ← List.append_assoc]
      congr 1
      cases op with
      | add a =>
        simp only [recStep, Recorder.add, appended, List.append_nil]
        repeat' split
        all_goals rfl
      | addDefaults cs => simp [recStep, appended]
      | removeDefaults cs => simp [recStep, appended]
      | addPosts ps => simp [recStep, appended]
      | overridePosts ps => exact absurd rfl (h _ (.head _) ps)
  refine ⟨key after r quiet, fun ps => ?_⟩
  rw [recRun_append, show ∀ q : Recorder, recRun fi q (RecOp.overridePosts ps :: after) = recRun fi (recStep fi q (.overridePosts ps)) after from fun _ => rfl,
    key after _ quiet]
  rfl

/-! ### C33: which ids -/

/-- What is iterated over: lists, tuples, sets, frozensets and instances of their subclasses; dicts (their keys). -/
inductive Batch : Val → List Val → Prop where
  | list (xs : List Val) : Batch (.list xs) xs
  | tuple (xs : List Val) : Batch (.tuple xs) xs
  | set (xs : List Val) : Batch (.set xs) xs
  | fset (xs : List Val) : Batch (.fset xs) xs
  | sub (b : Kind) (c : Str) (a : Conf) (xs : List Val) : Batch (.sub b c a xs) xs
  | dict (kvs : List (Val × Val)) : Batch (.dict kvs) (kvs.map Prod.fst)

theorem extractIds_ok {extract : Nat → Val → R Rid} {k : Nat} {vs : List Val} {ids : List Rid} (h : extractIds extract k vs = .ok ids) :
    ids.length = vs.length ∧ ∀ (j : Nat) v i, vs[j]? = some v → ids[j]? = some i → extract (k + j) v = .ok i := by
  induction vs generalizing k ids with
  | nil => cases h; simp
  | cons v vs ih =>
    simp only [extractIds] at h
    cases he : extract k v with
    | error e => rw [he] at h; cases h
    | ok i =>
      rw [he] at h
      cases hr : extractIds extract (k + 1) vs with
      | error e => simp only [hr, Except.map] at h; cases h
      | ok l =>
        simp only [hr, Except.map] at h; cases h
        obtain ⟨h1, h2⟩ := ih hr
        refine ⟨by simp [h1], fun j v' i' hv hi => ?_⟩
        cases j with
        | zero => cases hv; cases hi; exact he
        | succ j =>
          have := h2 j v' i' hv hi
          rwa [show k + (j + 1) = k + 1 + j by omega]

/-- C33.  A string, or anything that is no batch (here: None, booleans, numbers and classes), stands for one record, with the id the
extractor gives it. -/
theorem c33_single (r r' : Recorder) (a : AddCall) (records : List (Rid × Record)) (h : r.add fi a = (r', .ok records))
    (hs : (∃ s, a.ids = .str s) ∨ a.ids = .none ∨ (∃ b, a.ids = .bool b) ∨ (∃ i, a.ids = .int i) ∨ (∃ x, a.ids = .float x) ∨ ∃ c, a.ids = .cls c) :
    ∃ i rec, records = [(i, rec)] ∧ a.extract 0 a.ids = .ok i := by
  have hc := (c33_add fi r r' a records h).2.1
  have hx : callIds a.extract a.ids = extractIds a.extract 0 [a.ids] := by
    rcases hs with ⟨s, e⟩ | e | ⟨b, e⟩ | ⟨i, e⟩ | ⟨x, e⟩ | ⟨c, e⟩ <;> rw [e] <;> rfl
  rw [hx] at hc
  obtain ⟨h1, h2⟩ := extractIds_ok hc
  simp only [List.length_map, List.length_cons, List.length_nil] at h1
  match records, h1 with
  | [(i, rec)], _ => exact ⟨i, rec, rfl, h2 0 a.ids i rfl rfl⟩

/-- C33.  A batch stands for one record per element, in order, each with the id the extractor gives it. -/
theorem c33_batch (r r' : Recorder) (a : AddCall) (records : List (Rid × Record)) (h : r.add fi a = (r', .ok records))
    (xs : List Val) (hs : Batch a.ids xs) :
    records.length = xs.length ∧ ∀ (k : Nat) x i rec, xs[k]? = some x → records[k]? = some (i, rec) → a.extract k x = .ok i := by
  have hc := (c33_add fi r r' a records h).2.1
  have hx : callIds a.extract a.ids = extractIds a.extract 0 xs := by
    generalize a.ids = v at hs
    cases hs <;> rfl
  rw [hx] at hc
  obtain ⟨h1, h2⟩ := extractIds_ok hc
  refine ⟨by simpa using h1, fun k x i rec hk hr => ?_⟩
  have := h2 k x i hk (by simp [hr])
  simpa using this

/-! ### C27: `curry2partial` -/

theorem calls_congr {f g : Val} {pos pos' : List Val} {kw kw' kw2 : Str → Option Val} (h : Calls f pos kw g pos' kw') (e : kw = kw2) :
    Calls f pos kw2 g pos' kw' := e ▸ h

/-- C27.  `curry2partial` turns a curried function, or a partial of one, into a partial that makes the same call. -/
theorem c27_curry2partial (v g : Val) (hd : KwDicts v) (pos pos' : List Val) (kw kw' : Str → Option Val) :
    Calls (curry2partial v) pos kw g pos' kw' ↔ Calls v pos kw g pos' kw' := by
  unfold curry2partial
  split
  · rename_i b f a k args kws
    have hk : ∀ x : Str, (kw x).or (dget (dupdate k kws) x) = ((kw x).or (dget kws x)).or (dget k x) := by
      intro x
      rw [dget_dupdate, dget_reverse hd.1]
      cases kw x <;> cases dget kws x <;> rfl
    constructor
    · rintro ⟨⟩
      rename_i h
      refine .part _ _ _ (.part _ _ _ ?_)
      rw [List.append_assoc] at h
      exact calls_congr h (funext hk)
    · rintro ⟨⟩
      rename_i h
      cases h
      rename_i h
      refine .part _ _ _ ?_
      rw [List.append_assoc]
      exact calls_congr h (funext fun x => (hk x).symm)
  · constructor
    · rintro ⟨⟩; rename_i h; exact .part _ _ _ h
    · rintro ⟨⟩; rename_i h; exact .part _ _ _ h
  · exact Iff.rfl

/-- `curry(partial(f, 1, c=5), 2, c=6)`. -/
def exCurry : Val := .part false (.part true (.func c!"f" exArgs []) [.int 1] [(c!"c", .int 5)]) [.int 2] [(c!"c", .int 6)]
example : curry2partial exCurry = .part true (.func c!"f" exArgs []) [.int 1, .int 2] [(c!"c", .int 6)] := rfl
example : KwDicts exCurry := by simp [exCurry, KwDicts]

/-! ### Examples -/

example : (recRun noFi {} [.addDefaults [(c!"a", .int 1), (c!"b", .int 2)], .add exAdd, .addDefaults [(c!"a", .int 3)],
    .removeDefaults [c!"b", c!"z"]]).defaults = [(c!"a", .int 3)] := by rfl
example : UniqueKeys ({} : Recorder).defaults := by simp [UniqueKeys]
example : ∀ op ∈ [RecOp.add exAdd, .addDefaults [(c!"a", .int 3)]], ¬ SetsDefault c!"b" op ∧ ¬ DropsDefault c!"b" op := by
  intro op h
  simp only [List.mem_cons, List.not_mem_nil, or_false] at h
  rcases h with rfl | rfl <;> simp [SetsDefault, DropsDefault]
example : Batch exAdd.ids [.str c!"a", .str c!"b"] := .list _

end Whatami
