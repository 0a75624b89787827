import Verif.ToDf
import Verif.Props.Recorder
import Verif.Props.Columns

/-
C68: Recorder.to_df.

Specification: `CellIs`, what a cell of a data frame shows.
-/
namespace Whatami

/-- The frame has a row labelled `i` and a column named `c`, and the cell in both shows `x`; `none` is NaN. -/
def CellIs (df : DataFrame) (i : Rid) (c : Str) (x : Option Val) : Prop :=
  ∃ cells, (i, cells) ∈ df.rows ∧ ∃ j : Nat, df.columns[j]? = some c ∧ cells[j]? = some x

variable {orderCols : List Str → List Str} {orderRows : List Rid → List Rid}

theorem dictOf_units_keys {l : List (Str × Unit)} {k : Str} : k ∈ (dictOf l).map Prod.fst ↔ k ∈ l.map Prod.fst := by
  have h1 : k ∈ (dictOf l).map Prod.fst ↔ dget (dictOf l) k ≠ none := by rw [Ne, dget_none_iff]; simp [dkeys]
  rw [h1, dictOf, dget_dupdate]
  have h2 : k ∈ l.map Prod.fst ↔ dget l.reverse k ≠ none := by rw [Ne, dget_none_iff]; simp [dkeys]
  rw [h2]
  cases dget l.reverse k <;> simp [dget]

theorem fromDict_columns (hc : ∀ l, (orderCols l).Perm l) {reg : List (Rid × Record)} {c : Str} :
    (fromDict orderCols orderRows reg).columns.Nodup ∧
    (c ∈ (fromDict orderCols orderRows reg).columns ↔ ∃ i rec v, (i, rec) ∈ reg ∧ (c, v) ∈ rec) := by
  constructor
  · refine (hc _).nodup_iff.2 ?_
    exact nodup_dictOf (κ := Str) _
  · simp only [fromDict]
    rw [(hc _).mem_iff, dictOf_units_keys]
    constructor
    · intro h
      obtain ⟨⟨k, u⟩, hm, rfl⟩ := List.mem_map.1 h
      obtain ⟨⟨i, rec⟩, hr, hm⟩ := List.mem_flatMap.1 hm
      obtain ⟨⟨k', v⟩, hv, e⟩ := List.mem_map.1 hm
      cases e
      exact ⟨i, rec, v, hr, hv⟩
    · rintro ⟨i, rec, v, hr, hv⟩
      exact List.mem_map.2 ⟨(c, ()), List.mem_flatMap.2 ⟨_, hr, List.mem_map.2 ⟨_, hv, rfl⟩⟩, rfl⟩

theorem fromDict_row (hr : ∀ l, (orderRows l).Perm l) {reg : List (Rid × Record)} (hn : (reg.map Prod.fst).Nodup) {i : Rid} {rec : Record}
    (hm : (i, rec) ∈ reg) :
    dget (fromDict orderCols orderRows reg).rows i =
      if rec = [] then none else some ((fromDict orderCols orderRows reg).columns.map fun c => dget rec c) := by
  have key : ∀ (cells : Rid → List (Option Val)) (ids : List Rid), dget (ids.map fun i => (i, cells i)) i = if i ∈ ids then some (cells i) else none := by
    intro cells ids
    induction ids with
    | nil => rfl
    | cons a ids ih =>
      by_cases e : a = i
      · subst e; simp [dget]
      · have e' : ¬ i = a := fun h => e h.symm
        simp only [List.map_cons, dget, if_neg e, ih, List.mem_cons, e', false_or]
  simp only [fromDict]
  rw [key]
  simp only [(hr _).mem_iff]
  have hg : dget reg i = some rec := dget_eq_some_of_mem hn hm
  have hin : i ∈ (reg.filter fun r => !r.2.isEmpty).map Prod.fst ↔ ¬ rec = [] := by
    constructor
    · intro h
      obtain ⟨⟨i', rec'⟩, h', rfl⟩ := List.mem_map.1 h
      obtain ⟨h1, h2⟩ := List.mem_filter.1 h'
      have h3 := dget_eq_some_of_mem hn h1
      simp only at hg
      rw [hg] at h3
      cases h3
      simpa using h2
    · intro h
      exact List.mem_map.2 ⟨_, List.mem_filter.2 ⟨hm, by simpa using h⟩, rfl⟩
  by_cases e : rec = []
  · simp [hin, e]
  · simp [hin, e, hg]

/-- **C68**: `to_df` raises (KeyError) exactly if some record has no columns at all. -/
theorem c68_defined (hr : ∀ l, (orderRows l).Perm l) (r : Recorder) (hn : (r.registry.map Prod.fst).Nodup) :
    (∃ df, r.toDf orderCols orderRows = .ok df) ↔ ∀ i, (i, []) ∉ r.registry := by
  have h1 : (∃ df, r.toDf orderCols orderRows = .ok df) ↔ ∃ rows, mapR (fun i => match dget (fromDict orderCols orderRows r.registry).rows i with
      | some cells => .ok (i, cells) | none => .error Err.keyError) (r.registry.map Prod.fst) = .ok rows := by
    simp only [Recorder.toDf, DataFrame.loc]
    generalize mapR _ _ = z
    cases z with
    | error e => constructor <;> rintro ⟨_, h⟩ <;> cases h
    | ok rows => exact ⟨fun _ => ⟨_, rfl⟩, fun _ => ⟨_, rfl⟩⟩
  rw [h1, mapR_ok_iff]
  constructor
  · intro h i hm
    obtain ⟨y, hy⟩ := h i (List.mem_map.2 ⟨_, hm, rfl⟩)
    rw [fromDict_row hr hn hm] at hy
    simp at hy
  · intro h i hi
    obtain ⟨⟨i', rec⟩, hm, rfl⟩ := List.mem_map.1 hi
    have : rec ≠ [] := by rintro rfl; exact h _ hm
    exact ⟨_, by simp only; rw [fromDict_row hr hn hm, if_neg this]⟩

theorem toDf_spec (hr : ∀ l, (orderRows l).Perm l) {r : Recorder} (hn : (r.registry.map Prod.fst).Nodup) {df : DataFrame}
    (h : r.toDf orderCols orderRows = .ok df) :
    df.columns = (fromDict orderCols orderRows r.registry).columns ∧
      df.rows = r.registry.map fun p => (p.1, df.columns.map fun c => dget p.2 c) := by
  simp only [Recorder.toDf, DataFrame.loc] at h
  generalize hz : mapR _ _ = z at h
  cases z with
  | error e => cases h
  | ok rows =>
    cases h
    refine ⟨rfl, ?_⟩
    have hl := mapR_length hz
    refine List.ext_getElem? fun j => ?_
    simp only [List.getElem?_map]
    cases hj : r.registry[j]? with
    | none =>
      have : r.registry.length ≤ j := by simpa using hj
      simp only [Option.map_none, List.getElem?_eq_none_iff]
      rw [hl]; simpa using this
    | some p =>
      obtain ⟨i, rec⟩ := p
      have hlt : j < rows.length := by
        have := List.getElem?_eq_some_iff.1 hj
        rw [hl]; simpa using this.1
      have hy : rows[j]? = some rows[j] := List.getElem?_eq_getElem hlt
      have hg := mapR_get hz (i := j) (x := i) (by simp [hj]) hy
      rw [fromDict_row hr hn (List.mem_of_getElem? hj)] at hg
      by_cases e : rec = []
      · simp [e] at hg
      · simp only [if_neg e, Except.ok.injEq] at hg
        rw [hy, ← hg]
        rfl

/-- **C68**: in whatever order pandas puts the rows and columns of `from_dict`, `to_df` has one row for each record, in the order in which the
records were added, -/
theorem c68_rows (hr : ∀ l, (orderRows l).Perm l) {r : Recorder} (hn : (r.registry.map Prod.fst).Nodup) {df : DataFrame}
    (h : r.toDf orderCols orderRows = .ok df) : df.rows.map Prod.fst = r.registry.map Prod.fst := by
  rw [(toDf_spec hr hn h).2]
  simp

/-- **C68**: one column for each name that some record has, -/
theorem c68_columns (hc : ∀ l, (orderCols l).Perm l) (hr : ∀ l, (orderRows l).Perm l) {r : Recorder} (hn : (r.registry.map Prod.fst).Nodup)
    {df : DataFrame} (h : r.toDf orderCols orderRows = .ok df) :
    df.columns.Nodup ∧ ∀ c, c ∈ df.columns ↔ ∃ i rec v, (i, rec) ∈ r.registry ∧ (c, v) ∈ rec := by
  rw [(toDf_spec hr hn h).1]
  exact ⟨(fromDict_columns (c := []) hc).1, fun c => (fromDict_columns hc).2⟩

/-- **C68**: and in the row of a record and the column `c` exactly its value for `c`, or NaN if it has none. -/
theorem c68_cells (hc : ∀ l, (orderCols l).Perm l) (hr : ∀ l, (orderRows l).Perm l) {r : Recorder} (hn : (r.registry.map Prod.fst).Nodup)
    {df : DataFrame} (h : r.toDf orderCols orderRows = .ok df) {i : Rid} {rec : Record} (hm : (i, rec) ∈ r.registry) (hu : (rec.map Prod.fst).Nodup)
    {c : Str} (hcol : c ∈ df.columns) :
    (∀ v, CellIs df i c (some v) ↔ (c, v) ∈ rec) ∧ (CellIs df i c none ↔ ∀ v, (c, v) ∉ rec) := by
  obtain ⟨hcols, hrows⟩ := toDf_spec hr hn h
  have hnd : df.columns.Nodup := (c68_columns hc hr hn h).1
  have key : ∀ x, CellIs df i c x ↔ x = dget rec c := by
    intro x
    constructor
    · rintro ⟨cells, hm', j, hj, hx⟩
      rw [hrows] at hm'
      obtain ⟨⟨i', rec'⟩, hr', e⟩ := List.mem_map.1 hm'
      simp only [Prod.mk.injEq] at e
      obtain ⟨rfl, rfl⟩ := e
      have h1 := dget_eq_some_of_mem hn hm
      have h2 := dget_eq_some_of_mem hn hr'
      rw [h1] at h2
      cases h2
      simpa [hj] using hx.symm
    · rintro rfl
      obtain ⟨j, hj⟩ := List.getElem?_of_mem hcol
      refine ⟨df.columns.map fun c => dget rec c, ?_, j, hj, by simp [hj]⟩
      rw [hrows]
      exact List.mem_map.2 ⟨_, hm, rfl⟩
  refine ⟨fun v => ?_, ?_⟩
  · rw [key]
    exact ⟨fun h => mem_of_dget h.symm, fun h => (dget_eq_some_of_mem hu h).symm⟩
  · rw [key]
    constructor
    · intro h v hv
      have := dget_eq_some_of_mem hu hv
      rw [← h] at this
      cases this
    · intro h
      refine (dget_none_iff.2 fun hk => ?_).symm
      obtain ⟨⟨k, v⟩, hv, rfl⟩ := List.mem_map.1 hk
      exact h v hv

/-- **C68**: over any history of calls, failing ones included, the rows already there stay first, in their order, and keep their cells. -/
theorem c68_history (fi : Str → Option Int) (hr : ∀ l, (orderRows l).Perm l) {r : Recorder}
    (hn : (r.registry.map Prod.fst).Nodup) (ops : List RecOp) {df df' : DataFrame} (h : r.toDf orderCols orderRows = .ok df)
    (h' : (recRun fi r ops).toDf orderCols orderRows = .ok df') :
    df.rows.map Prod.fst <+: df'.rows.map Prod.fst ∧
      ∀ i c x, CellIs df i c x → c ∈ df'.columns → CellIs df' i c x := by
  obtain ⟨hp, hnd⟩ := c33_history fi r ops
  have hn' := hnd hn
  refine ⟨?_, ?_⟩
  · rw [c68_rows hr hn h, c68_rows hr hn' h']
    exact hp.map _
  · rintro i c x ⟨cells, hm, j, hj, hx⟩ hc'
    rw [(toDf_spec hr hn h).2] at hm
    obtain ⟨⟨i', rec⟩, hreg, e⟩ := List.mem_map.1 hm
    simp only [Prod.mk.injEq] at e
    obtain ⟨rfl, rfl⟩ := e
    obtain ⟨j', hj'⟩ := List.getElem?_of_mem hc'
    refine ⟨df'.columns.map fun c => dget rec c, ?_, j', hj', ?_⟩
    · rw [(toDf_spec hr hn' h').2]
      exact List.mem_map.2 ⟨_, hp.subset hreg, rfl⟩
    · simpa [hj, hj'] using hx

/-- Three records with different columns, given back by pandas in reverse order. -/
def exTable : Recorder := { registry := [(.str c!"b", [(c!"id", .str c!"b"), (c!"x", .int 1)]), (.str c!"a", [(c!"id", .str c!"a"), (c!"y", .none)]),
  (.int 3, [(c!"id", .int 3)])] }
example : ∃ df, exTable.toDf List.reverse List.reverse = .ok df ∧
    df.columns = [c!"y", c!"x", c!"id"] ∧ df.rows.map Prod.fst = [.str c!"b", .str c!"a", .int 3] := ⟨_, rfl, by decide, by decide⟩
example : ∀ l : List Str, l.reverse.Perm l := List.reverse_perm
example : (exTable.registry.map Prod.fst).Nodup ∧ ∀ i, (i, []) ∉ exTable.registry := by
  refine ⟨by decide, fun i => ?_⟩
  simp [exTable]

end Whatami
