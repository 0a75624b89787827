import Verif.Columns
import Verif.Props.Ops
import Verif.Props.Misc
import Verif.Props.Sort
import Verif.Props.Match

/-
C49: `whatid2columns`.
-/
namespace Whatami

/-! ### Specification -/

/-- The name of the column for a requested key: the key itself, or the elements of a path, joined by `_`. -/
inductive ColumnNamed (pre post : Str) : Val → Str → Prop where
  | str (s : Str) : ColumnNamed pre post (.str s) (pre ++ s ++ post)
  | tuple (ks : List Val) : ColumnNamed pre post (.tuple ks) (pre ++ pyJoin c!"_" (ks.map pyStr) ++ post)
  | list (ks : List Val) : ColumnNamed pre post (.list ks) (pre ++ pyJoin c!"_" (ks.map pyStr) ++ post)

/-- What is looked up for a requested key: a list stands for the path of its elements. -/
inductive LooksUp : Val → Val → Prop where
  | path (ks : List Val) : LooksUp (.list ks) (.tuple ks)
  | key {k : Val} : (∀ ks, k ≠ .list ks) → LooksUp k k

/-- The value of a parameter of the `What` an id stands for: `parse_whatid(cell)[key]`, or None if there is none. -/
def CellValue (E : Env) (key cell v : Val) : Prop :=
  ∃ s w k, cell = .str s ∧ parseWhatid E s = .ok w ∧ LooksUp key k ∧
    (getItem E.fi k w.conf = .ok v ∨ (getItem E.fi k w.conf = .error .keyError ∧ v = .none))

/-- The paths of the parameters of a `What`: its own, and those of a `What` that is the value of one. -/
inductive ParamPath (nonIdsToo : Bool) : Conf → List Str → List Str → Prop where
  | here {conf : Conf} {nonids : List Str} {k : Str} {v : Val} :
      (k, v) ∈ conf → (nonIdsToo = true ∨ k ∉ nonids) → ParamPath nonIdsToo conf nonids [k]
  | inner {conf : Conf} {nonids : List Str} {k : Str} {n : Str} {c : Conf} {ni : List Str} {o : Option Str} {p : List Str} :
      (k, .what n c ni o) ∈ conf → (nonIdsToo = true ∨ k ∉ nonids) → ParamPath nonIdsToo c ni p →
      ParamPath nonIdsToo conf nonids (k :: p)

/-- The key for a path: a string for a parameter of the `What` itself, else a tuple of strings. -/
def pathOf : List Str → Val
  | [k] => .str k
  | p => .tuple (p.map .str)

/-! ### Lemmas -/

theorem looksUp_iff {key k : Val} : LooksUp key k ↔ k = asTuple key := by
  constructor
  · intro h
    cases h with
    | path => rfl
    | key h => cases key <;> first | rfl | exact absurd rfl (h _)
  · rintro rfl
    cases key with
    | list ks => exact .path ks
    | _ => exact .key (by simp)

theorem colName_named {pre post : Str} {k : Val} {n : Str} :
    ColumnNamed pre post k n ↔ ∃ m, colName k = .ok m ∧ n = pre ++ m ++ post := by
  constructor
  · intro h; cases h <;> exact ⟨_, rfl, rfl⟩
  · rintro ⟨m, h, rfl⟩
    cases k <;> cases h
    · exact .str _
    · exact .tuple _
    · exact .list _

theorem mapR_get {α β : Type} {f : α → R β} {l : List α} {ys : List β} (h : mapR f l = .ok ys) {i : Nat} {x : α} {y : β}
    (hx : l[i]? = some x) (hy : ys[i]? = some y) : f x = .ok y := by
  induction l generalizing ys i with
  | nil => cases hx
  | cons a l ih =>
    simp only [mapR] at h
    cases hf : f a with
    | error e => rw [hf] at h; cases h
    | ok b =>
      rw [hf] at h
      cases hr : mapR f l with
      | error e => rw [hr] at h; cases h
      | ok bs =>
        rw [hr] at h; cases h
        cases i with
        | zero => cases hx; cases hy; exact hf
        | succ i => exact ih hr hx hy

theorem mem_uniqueIds {cells : List Val} {s : Str} : s ∈ uniqueIds cells ↔ .str s ∈ cells := by
  simp only [uniqueIds, List.mem_eraseDups, List.mem_filterMap]
  constructor
  · rintro ⟨v, hv, h⟩
    cases v <;> cases h
    exact hv
  · exact fun h => ⟨_, h, rfl⟩

theorem parseAll_get {E : Env} {ids : List Str} {whats : List (Str × What)} (h : parseAll E ids = .ok whats) :
    (∀ s ∈ ids, ∃ w, dget whats s = some w ∧ parseWhatid E s = .ok w) ∧
    (∀ s w, (s, w) ∈ whats → s ∈ ids ∧ parseWhatid E s = .ok w) := by
  induction ids generalizing whats with
  | nil => cases h; exact ⟨nofun, nofun⟩
  | cons a l ih =>
    simp only [parseAll, mapR] at h
    cases hp : parseWhatid E a with
    | error e => rw [hp] at h; cases h
    | ok w0 =>
      rw [hp] at h
      cases hr : mapR (fun s => (parseWhatid E s).map fun w => (s, w)) l with
      | error e => rw [hr] at h; cases h
      | ok ws =>
        rw [hr] at h; cases h
        obtain ⟨h1, h2⟩ := ih hr
        constructor
        · intro s hs
          by_cases e : a = s
          · subst e; exact ⟨w0, by simp [dget], hp⟩
          · rcases List.mem_cons.1 hs with rfl | hs
            · exact absurd rfl e
            · obtain ⟨w, hw, hw'⟩ := h1 s hs
              exact ⟨w, by simp [dget, e, hw], hw'⟩
        · intro s w hm
          rcases List.mem_cons.1 hm with e | hm
          · cases e; exact ⟨.head _, hp⟩
          · exact ⟨.tail _ (h2 s w hm).1, (h2 s w hm).2⟩

/-- The cache and parsing agree, on the cells it was made for. -/
theorem cellFor_eq {E : Env} {cells : List Val} {whats : List (Str × What)} (hp : parseAll E (uniqueIds cells) = .ok whats)
    {key cell : Val} (hc : cell ∈ cells) (hs : ∃ w, parseCell E cell = .ok w) :
    ∃ s w, cell = .str s ∧ parseWhatid E s = .ok w ∧ cellFor E.fi whats key cell = getOrNone E.fi w key := by
  obtain ⟨w, hw⟩ := hs
  cases cell <;> simp only [parseCell, reduceCtorEq] at hw
  rename_i s
  obtain ⟨w', h1, h2⟩ := (parseAll_get hp).1 s (mem_uniqueIds.2 hc)
  rw [hw] at h2; cases h2
  exact ⟨s, w, rfl, hw, by simp only [cellFor, cachedWhat, h1]⟩

theorem getOrNone_ok {fi : Str → Option Int} {w : What} {key v : Val} :
    getOrNone fi w key = .ok v ↔
      (getItem fi key w.conf = .ok v ∨ (getItem fi key w.conf = .error .keyError ∧ v = .none)) := by
  unfold getOrNone
  cases h : getItem fi key w.conf with
  | ok x => simp
  | error e =>
    cases e <;> simp
    exact eq_comm

theorem cellFor_value {E : Env} {cells : List Val} {whats : List (Str × What)} (hp : parseAll E (uniqueIds cells) = .ok whats)
    {key cell v : Val} (hc : cell ∈ cells) (hs : ∃ w, parseCell E cell = .ok w) :
    cellFor E.fi whats (asTuple key) cell = .ok v ↔ CellValue E key cell v := by
  obtain ⟨s, w, rfl, hw, he⟩ := cellFor_eq (key := asTuple key) hp hc hs
  rw [he, getOrNone_ok]
  constructor
  · exact fun h => ⟨s, w, _, rfl, hw, looksUp_iff.2 rfl, h⟩
  · rintro ⟨s', w', k, e, hw', hk, h⟩
    cases e
    cases looksUp_iff.1 hk
    rw [hw] at hw'; cases hw'
    exact h

/-- Columns before and after: those that were there stay in place. -/
theorem dset_keys {β : Type} (d : List (Str × β)) (k : Str) (v : β) :
    (k ∈ d.map Prod.fst ∧ (dset d k v).map Prod.fst = d.map Prod.fst) ∨
    (k ∉ d.map Prod.fst ∧ (dset d k v).map Prod.fst = d.map Prod.fst ++ [k]) := by
  induction d with
  | nil => exact .inr ⟨by simp, rfl⟩
  | cons e d ih =>
    obtain ⟨k', v'⟩ := e
    by_cases h : k' = k
    · subst h; left; simp [dset]
    · simp only [dset, h, if_false, List.map_cons, List.mem_cons, List.cons_append]
      rcases ih with ⟨h1, h2⟩ | ⟨h1, h2⟩
      · exact .inl ⟨.inr h1, by rw [h2]⟩
      · refine .inr ⟨?_, by rw [h2]⟩
        rintro (e | e)
        · exact h e.symm
        · exact h1 e

/-- What one requested column needs: a value for every cell, and a name. -/
def ColumnOk (E : Env) (cells : List Val) (key : Val) : Prop :=
  (∀ cell ∈ cells, ∃ v, CellValue E key cell v) ∧ ∃ n, ColumnNamed [] [] key n

theorem named_nil {k : Val} : (∃ n, ColumnNamed [] [] k n) ↔ ∃ n, colName k = .ok n := by
  constructor
  · rintro ⟨n, h⟩; obtain ⟨m, h, _⟩ := colName_named.1 h; exact ⟨m, h⟩
  · rintro ⟨n, h⟩; exact ⟨_, colName_named.2 ⟨n, h, rfl⟩⟩

theorem addColumn_ok {E : Env} {cells : List Val} {whats : List (Str × What)} {col pre post : Str} {key : Val} {df : Df}
    (hp : parseAll E (uniqueIds cells) = .ok whats) (hs : ∀ c ∈ cells, ∃ w, parseCell E c = .ok w) (hc : dget df col = some cells) :
    (∃ df', addColumn E.fi whats col pre post key df = .ok df') ↔ ColumnOk E cells key := by
  simp only [addColumn, hc, ColumnOk]
  have hm : (∃ ys, mapR (cellFor E.fi whats (asTuple key)) cells = .ok ys) ↔ ∀ cell ∈ cells, ∃ v, CellValue E key cell v := by
    rw [mapR_ok_iff]
    constructor
    · intro h c hc'
      obtain ⟨v, hv⟩ := h c hc'
      exact ⟨v, (cellFor_value hp hc' (hs c hc')).1 hv⟩
    · intro h c hc'
      obtain ⟨v, hv⟩ := h c hc'
      exact ⟨v, (cellFor_value hp hc' (hs c hc')).2 hv⟩
  rw [← hm, named_nil]
  cases h1 : mapR (cellFor E.fi whats (asTuple key)) cells with
  | error e => simp
  | ok vs =>
    cases h2 : colName key with
    | error e => simp
    | ok n => simp

/-- What one round does. -/
theorem addColumn_effect {E : Env} {cells : List Val} {whats : List (Str × What)} {col pre post : Str} {key : Val} {df df' : Df}
    (hp : parseAll E (uniqueIds cells) = .ok whats) (hs : ∀ c ∈ cells, ∃ w, parseCell E c = .ok w) (hc : dget df col = some cells)
    (h : addColumn E.fi whats col pre post key df = .ok df') :
    ∃ n vs, ColumnNamed pre post key n ∧ df' = dset df n vs ∧ vs.length = cells.length ∧
      ∀ (i : Nat) c v, cells[i]? = some c → vs[i]? = some v → CellValue E key c v := by
  simp only [addColumn, hc] at h
  cases h1 : mapR (cellFor E.fi whats (asTuple key)) cells with
  | error e => rw [h1] at h; cases h
  | ok vs =>
    rw [h1] at h
    cases h2 : colName key with
    | error e => rw [h2] at h; cases h
    | ok n =>
      rw [h2] at h; cases h
      refine ⟨_, vs, colName_named.2 ⟨n, h2, rfl⟩, rfl, mapR_length h1, fun i c v hi hv => ?_⟩
      have hm := List.mem_of_getElem? hi
      exact (cellFor_value hp hm (hs c hm)).1 (mapR_get h1 hi hv)

theorem named_unique {pre post : Str} {k : Val} {n m : Str} (h : ColumnNamed pre post k n) (h' : ColumnNamed pre post k m) : n = m := by
  cases h <;> cases h' <;> rfl

theorem addColumns_ok {E : Env} {cells : List Val} {whats : List (Str × What)} {col pre post : Str} {cols : List Val} {df : Df}
    (hp : parseAll E (uniqueIds cells) = .ok whats) (hs : ∀ c ∈ cells, ∃ w, parseCell E c = .ok w) (hc : dget df col = some cells)
    (hne : ∀ k ∈ cols, ¬ ColumnNamed pre post k col) :
    (∃ df', addColumns E.fi whats col pre post cols df = (df', none)) ↔ ∀ k ∈ cols, ColumnOk E cells k := by
  induction cols generalizing df with
  | nil => simp [addColumns]
  | cons k ks ih =>
    have h1 := addColumn_ok (pre := pre) (post := post) (key := k) hp hs hc
    simp only [addColumns, List.forall_mem_cons]
    cases ha : addColumn E.fi whats col pre post k df with
    | error e =>
      rw [ha] at h1
      simp only [reduceCtorEq, exists_false, false_iff] at h1
      simp [h1]
    | ok df' =>
      have hk := h1.1 ⟨_, ha⟩
      obtain ⟨n, vs, hn, rfl, _, _⟩ := addColumn_effect hp hs hc ha
      have hcol : dget (dset df n vs) col = some cells := by
        rw [dget_dset, if_neg, hc]
        rintro rfl
        exact hne k (.head _) hn
      have := ih hcol (fun k' h => hne k' (.tail _ h))
      simp only [hk, true_and]
      exact this

theorem addColumns_effect {E : Env} {cells : List Val} {whats : List (Str × What)} {col pre post : Str} {cols : List Val} {df out : Df}
    (hp : parseAll E (uniqueIds cells) = .ok whats) (hs : ∀ c ∈ cells, ∃ w, parseCell E c = .ok w) (hc : dget df col = some cells)
    (hne : ∀ k ∈ cols, ¬ ColumnNamed pre post k col) (h : addColumns E.fi whats col pre post cols df = (out, none)) :
    (∃ new, out.map Prod.fst = df.map Prod.fst ++ new ∧ ∀ n ∈ new, ∃ k ∈ cols, ColumnNamed pre post k n) ∧
    (∀ name, (∀ k ∈ cols, ¬ ColumnNamed pre post k name) → dget out name = dget df name) ∧
    (∀ l k r n, cols = l ++ k :: r → ColumnNamed pre post k n → (∀ k' ∈ r, ¬ ColumnNamed pre post k' n) →
      ∃ vs, dget out n = some vs ∧ vs.length = cells.length ∧
        ∀ (i : Nat) c v, cells[i]? = some c → vs[i]? = some v → CellValue E k c v) := by
  induction cols generalizing df with
  | nil =>
    cases h
    refine ⟨⟨[], by simp, by simp⟩, fun _ _ => rfl, fun l k r n e => ?_⟩
    cases l <;> cases e
  | cons k0 ks ih =>
    simp only [addColumns] at h
    cases ha : addColumn E.fi whats col pre post k0 df with
    | error e => rw [ha] at h; cases h
    | ok df' =>
      rw [ha] at h
      obtain ⟨n0, vs0, hn0, rfl, hlen, hvs⟩ := addColumn_effect hp hs hc ha
      have hcol : dget (dset df n0 vs0) col = some cells := by
        rw [dget_dset, if_neg, hc]
        rintro rfl
        exact hne k0 (.head _) hn0
      obtain ⟨⟨new, hnew, hnew'⟩, hkeep, hcols⟩ := ih hcol (fun k' h => hne k' (.tail _ h)) h
      refine ⟨?_, ?_, ?_⟩
      · rcases dset_keys df n0 vs0 with ⟨_, e⟩ | ⟨_, e⟩
        · exact ⟨new, by rw [hnew, e], fun n hn => by
            obtain ⟨k, hk, h⟩ := hnew' n hn; exact ⟨k, .tail _ hk, h⟩⟩
        · refine ⟨n0 :: new, by rw [hnew, e]; simp, fun n hn => ?_⟩
          rcases List.mem_cons.1 hn with rfl | hn
          · exact ⟨k0, .head _, hn0⟩
          · obtain ⟨k, hk, h⟩ := hnew' n hn; exact ⟨k, .tail _ hk, h⟩
      · intro name hname
        rw [hkeep name (fun k hk => hname k (.tail _ hk)), dget_dset, if_neg]
        rintro rfl
        exact hname k0 (.head _) hn0
      · intro l k r n e hn hr
        cases l with
        | nil =>
          cases e
          have e := named_unique hn hn0
          subst e
          exact ⟨vs0, by rw [hkeep n hr, dget_dset, if_pos rfl], hlen, hvs⟩
        | cons a l =>
          cases e
          exact hcols l k r n rfl hn hr

theorem whatid2columns_ok {E : Env} {srt : SortItems} {iter : List Val → List Val} {df : Df} {col : Str} {cols : List Val}
    {pre post : Str} {inplace : Bool} {out arg : Df}
    (h : whatid2columns E srt iter df col (some cols) pre post inplace = (.ok out, arg)) :
    ∃ cells whats, dget df col = some cells ∧ (∀ c ∈ cells, ∃ w, parseCell E c = .ok w) ∧ parseAll E (uniqueIds cells) = .ok whats ∧
      addColumns E.fi whats col pre post cols df = (out, none) ∧ arg = if inplace then out else df := by
  unfold whatid2columns at h
  cases hc : dget df col with
  | none => rw [hc] at h; simp at h
  | some cells =>
    rw [hc] at h; simp only at h
    cases hm : mapR (parseCell E) cells with
    | error e => rw [hm] at h; simp at h
    | ok ws =>
      rw [hm] at h; simp only at h
      cases hp : parseAll E (uniqueIds cells) with
      | error e => rw [hp] at h; simp at h
      | ok whats =>
        rw [hp] at h; simp only [theColumns] at h
        rcases ha : addColumns E.fi whats col pre post cols df with ⟨df', e⟩
        rw [ha] at h
        cases e with
        | some e => simp at h
        | none =>
          simp only [Prod.mk.injEq, Except.ok.injEq] at h
          obtain ⟨rfl, rfl⟩ := h
          exact ⟨cells, whats, rfl, mapR_ok_iff.1 ⟨_, hm⟩, hp, ha, rfl⟩

theorem parseAll_ok {E : Env} {cells : List Val} (h : ∀ c ∈ cells, ∃ w, parseCell E c = .ok w) :
    ∃ whats, parseAll E (uniqueIds cells) = .ok whats := by
  apply mapR_ok_iff.2
  intro s hs
  obtain ⟨w, hw⟩ := h _ (mem_uniqueIds.1 hs)
  simp only [parseCell] at hw
  exact ⟨(s, w), by rw [hw]; rfl⟩

/-! ### C49 -/

/-- C49.  If no requested column is called like the column of the ids, then after `whatid2columns`
  - the frame passed in is the frame returned if `inplace`, else as before;
  - the columns that were there come first, in the same order; the others are requested ones;
  - a column that is not requested holds what it held;
  - a requested column holds, for every row, the value its id gives the parameter, None if there is no such parameter
    (of several requested columns with one name, the last one counts). -/
theorem c49_columns (E : Env) (srt : SortItems) (iter : List Val → List Val) (df : Df) (col : Str) (cols : List Val)
    (pre post : Str) (inplace : Bool) (out arg : Df)
    (h : whatid2columns E srt iter df col (some cols) pre post inplace = (.ok out, arg))
    (hne : ∀ k ∈ cols, ¬ ColumnNamed pre post k col) :
    (arg = if inplace then out else df) ∧
    (∃ new, out.map Prod.fst = df.map Prod.fst ++ new ∧ ∀ n ∈ new, ∃ k ∈ cols, ColumnNamed pre post k n) ∧
    (∀ name, (∀ k ∈ cols, ¬ ColumnNamed pre post k name) → dget out name = dget df name) ∧
    ∃ cells, dget df col = some cells ∧
      ∀ l k r n, cols = l ++ k :: r → ColumnNamed pre post k n → (∀ k' ∈ r, ¬ ColumnNamed pre post k' n) →
        ∃ vs, dget out n = some vs ∧ vs.length = cells.length ∧
          ∀ (i : Nat) c v, cells[i]? = some c → vs[i]? = some v → CellValue E k c v := by
  obtain ⟨cells, whats, hc, hs, hp, ha, harg⟩ := whatid2columns_ok h
  obtain ⟨h1, h2, h3⟩ := addColumns_effect hp hs hc hne ha
  exact ⟨harg, h1, h2, cells, hc, h3⟩

/-- C49.  It succeeds exactly if the column is there, all its cells are ids, every requested key has a name for a column
and, in every id, a value or none (looking it up raises nothing but KeyError). -/
theorem c49_succeeds (E : Env) (srt : SortItems) (iter : List Val → List Val) (df : Df) (col : Str) (cols : List Val)
    (pre post : Str) (inplace : Bool) (hne : ∀ k ∈ cols, ¬ ColumnNamed pre post k col) :
    (∃ out arg, whatid2columns E srt iter df col (some cols) pre post inplace = (.ok out, arg)) ↔
      ∃ cells, dget df col = some cells ∧ (∀ c ∈ cells, ∃ s w, c = .str s ∧ parseWhatid E s = .ok w) ∧
        ∀ k ∈ cols, (∃ n, ColumnNamed pre post k n) ∧ ∀ c ∈ cells, ∃ v, CellValue E k c v := by
  have nm : ∀ k, (∃ n, ColumnNamed pre post k n) ↔ ∃ n, ColumnNamed [] [] k n := by
    intro k
    rw [named_nil]
    constructor
    · rintro ⟨n, h⟩; obtain ⟨m, h, _⟩ := colName_named.1 h; exact ⟨m, h⟩
    · rintro ⟨n, h⟩; exact ⟨_, colName_named.2 ⟨n, h, rfl⟩⟩
  have cl : ∀ c, (∃ s w, c = .str s ∧ parseWhatid E s = .ok w) ↔ ∃ w, parseCell E c = .ok w := by
    intro c
    constructor
    · rintro ⟨s, w, rfl, h⟩; exact ⟨w, h⟩
    · rintro ⟨w, h⟩
      cases c <;> simp only [parseCell, reduceCtorEq] at h
      exact ⟨_, w, rfl, h⟩
  constructor
  · rintro ⟨out, arg, h⟩
    obtain ⟨cells, whats, hc, hs, hp, ha, harg⟩ := whatid2columns_ok h
    refine ⟨cells, hc, fun c hcm => (cl c).2 (hs c hcm), fun k hk => ?_⟩
    have := (addColumns_ok hp hs hc hne).1 ⟨_, ha⟩ k hk
    exact ⟨(nm k).2 this.2, this.1⟩
  · rintro ⟨cells, hc, hs, hk⟩
    have hs' : ∀ c ∈ cells, ∃ w, parseCell E c = .ok w := fun c h => (cl c).1 (hs c h)
    obtain ⟨whats, hp⟩ := parseAll_ok hs'
    obtain ⟨ws, hm⟩ := mapR_ok_iff.2 hs'
    obtain ⟨df', ha⟩ := (addColumns_ok hp hs' hc hne).2 fun k hkm => ⟨(hk k hkm).2, (nm k).1 (hk k hkm).1⟩
    refine ⟨df', if inplace then df' else df, ?_⟩
    simp only [whatid2columns, hc, hm, hp, theColumns, ha]

/-- C49.  A cell that is no id: an exception, and the frame passed in is as before, `inplace` or not. -/
theorem c49_unparsed (E : Env) (srt : SortItems) (iter : List Val → List Val) (df : Df) (col : Str) (cols : Option (List Val))
    (pre post : Str) (inplace : Bool) (cells : List Val) (hc : dget df col = some cells) (c : Val) (hm : c ∈ cells)
    (hbad : ∀ s w, c = .str s → parseWhatid E s ≠ .ok w) :
    ∃ e, whatid2columns E srt iter df col cols pre post inplace = (.error e, df) := by
  have : ∀ ws, mapR (parseCell E) cells ≠ .ok ws := by
    intro ws h
    obtain ⟨w, hw⟩ := mapR_ok_iff.1 ⟨ws, h⟩ c hm
    cases c <;> simp only [parseCell, reduceCtorEq] at hw
    exact hbad _ _ rfl hw
  simp only [whatid2columns, hc]
  cases h : mapR (parseCell E) cells with
  | error e => exact ⟨e, rfl⟩
  | ok ws => exact absurd h (this ws)

/-- C49.  No such column: KeyError, and the frame passed in is as before, `inplace` or not. -/
theorem c49_missing (E : Env) (srt : SortItems) (iter : List Val → List Val) (df : Df) (col : Str) (cols : Option (List Val))
    (pre post : Str) (inplace : Bool) (hc : ∀ cells, (col, cells) ∉ df) :
    whatid2columns E srt iter df col cols pre post inplace = (.error .keyError, df) := by
  have : dget df col = none := by
    cases h : dget df col with
    | none => rfl
    | some cells => exact absurd (mem_of_dget h) (hc cells)
  simp only [whatid2columns, this]

theorem addColumns_fails {fi : Str → Option Int} {whats : List (Str × What)} {col pre post : Str} {cols : List Val} {df df' : Df} {e : Err}
    (h : addColumns fi whats col pre post cols df = (df', some e)) :
    ∃ l k r, cols = l ++ k :: r ∧ addColumns fi whats col pre post l df = (df', none) ∧ addColumns fi whats col pre post (l ++ [k]) df = (df', some e) := by
  induction cols generalizing df with
  | nil => cases h
  | cons k ks ih =>
    simp only [addColumns] at h
    cases ha : addColumn fi whats col pre post k df with
    | error e' => rw [ha] at h; cases h; exact ⟨[], k, ks, rfl, rfl, by simp [addColumns, ha]⟩
    | ok df1 =>
      rw [ha] at h
      obtain ⟨l, k', r, rfl, h1, h2⟩ := ih h
      exact ⟨k :: l, k', r, rfl, by simp only [addColumns, ha, h1], by simp only [List.cons_append, addColumns, ha, h2]⟩

/-- C49.  If it raises although all cells are ids, the frame passed in is as before, or, `inplace`, has the columns before the first one that
raises. -/
theorem c49_raises (E : Env) (srt : SortItems) (iter : List Val → List Val) (df : Df) (col : Str) (cols : List Val)
    (pre post : Str) (inplace : Bool) (e : Err) (arg : Df) (cells : List Val) (hc : dget df col = some cells)
    (hs : ∀ c ∈ cells, ∃ s w, c = .str s ∧ parseWhatid E s = .ok w)
    (h : whatid2columns E srt iter df col (some cols) pre post inplace = (.error e, arg)) :
    (inplace = false → arg = df) ∧
    (inplace = true → ∃ l k r, cols = l ++ k :: r ∧ whatid2columns E srt iter df col (some l) pre post true = (.ok arg, arg) ∧
      whatid2columns E srt iter df col (some (l ++ [k])) pre post true = (.error e, arg)) := by
  have hs' : ∀ c ∈ cells, ∃ w, parseCell E c = .ok w := by
    intro c hm; obtain ⟨s, w, rfl, h⟩ := hs c hm; exact ⟨w, h⟩
  obtain ⟨whats, hp⟩ := parseAll_ok hs'
  obtain ⟨ws, hm⟩ := mapR_ok_iff.2 hs'
  simp only [whatid2columns, hc, hm, hp, theColumns] at h ⊢
  rcases ha : addColumns E.fi whats col pre post cols df with ⟨df', e'⟩
  rw [ha] at h
  cases e' with
  | none => simp at h
  | some e' =>
    simp only [Prod.mk.injEq, Except.error.injEq] at h
    obtain ⟨rfl, rfl⟩ := h
    refine ⟨fun hi => by simp [hi], fun hi => ?_⟩
    obtain ⟨l, k, r, e, h1, h2⟩ := addColumns_fails ha
    exact ⟨l, k, r, e, by simp [h1, hi], by simp [h2, hi]⟩

/-! ### The columns, if none are given -/

theorem flatLoop_complete {recursive : Bool} {recf : Val → List Val → R (List (List Val × Val))} {pk : List Val} {its : List (Val × Val)}
    {l : List (List Val × Val)} (h : flatLoop recursive recf pk its = .ok l) {k v : Val} (hm : (k, v) ∈ its) :
    (pk ++ [k], v) ∈ l ∧ (recursive = true → ∃ sub, recf v (pk ++ [k]) = .ok sub ∧ ∀ x ∈ sub, x ∈ l) := by
  induction its generalizing l with
  | nil => cases hm
  | cons e r ih =>
    obtain ⟨k0, v0⟩ := e
    simp only [flatLoop] at h
    cases hr : (if recursive = true then recf v0 (pk ++ [k0]) else .ok []) with
    | error e => rw [hr] at h; cases h
    | ok sub =>
      rw [hr] at h
      cases hl : flatLoop recursive recf pk r with
      | error e => rw [hl] at h; cases h
      | ok rest =>
        rw [hl] at h; cases h
        rcases List.mem_cons.1 hm with e | hm
        · cases e
          refine ⟨.head _, fun ht => ?_⟩
          rw [if_pos ht] at hr
          exact ⟨sub, hr, fun x hx => by simp [hx]⟩
        · obtain ⟨h1, h2⟩ := ih hl hm
          refine ⟨by simp [h1], fun ht => ?_⟩
          obtain ⟨sub', h3, h4⟩ := h2 ht
          exact ⟨sub', h3, fun x hx => by simp [h4 x hx]⟩

/-- The paths `flatten` finds in a `What`, collections left out. -/
theorem flattenN_paths {srt : SortItems} {o : FlatOpts} (hc : o.collectionsToo = false) (hr : o.recursive = true) :
    ∀ (n : Nat) (name : Str) (conf : Conf) (nonids : List Str) (out : Option Str) (pk : List Val) (l : List (List Val × Val)),
    flattenN srt o n (.what name conf nonids out) pk = .ok l →
    ∀ p, (∃ x, (p, x) ∈ l) ↔ ∃ q, ParamPath o.nonIdsToo conf nonids q ∧ p = pk ++ q.map .str := by
  intro n
  induction n with
  | zero => intro name conf nonids out pk l h; cases h
  | succ n ih =>
    intro name conf nonids out pk l h p
    simp only [flattenN, flatItems] at h
    have hits : ∀ kv : Str × Val, kv ∈ sortBy keyLe (if o.nonIdsToo = true then conf else conf.filter fun kv => !nonids.contains kv.1) ↔
        kv ∈ conf ∧ (o.nonIdsToo = true ∨ kv.1 ∉ nonids) := by
      intro kv
      rw [mem_sortBy]
      split
      · rename_i hn; simp [hn]
      · rename_i hn; simp [hn]
    rw [hr] at h
    constructor
    · rintro ⟨x, hm⟩
      obtain ⟨k, v, hk, hcase⟩ := flatLoop_mem h hm
      simp only [List.mem_map, Prod.mk.injEq] at hk
      obtain ⟨kv, hkv, rfl, rfl⟩ := hk
      obtain ⟨hkv, hid⟩ := (hits kv).1 hkv
      rcases hcase with ⟨rfl, _⟩ | ⟨_, sub, hsub, hmem⟩
      · exact ⟨[kv.1], .here (v := kv.2) hkv hid, rfl⟩
      · obtain ⟨k, v⟩ := kv
        have hw : ∃ n' c ni o', v = .what n' c ni o' := by
          cases n with
          | zero => cases hsub
          | succ n =>
            simp only [flattenN] at hsub
            cases v with
            | what n' c ni o' => exact ⟨_, _, _, _, rfl⟩
            | sub k _ _ _ => cases k <;> simp [flatItems, hc, flatLoop] at hsub <;> subst hsub <;> cases hmem
            | _ => simp [flatItems, hc, flatLoop] at hsub <;> subst hsub <;> cases hmem
        obtain ⟨n', c, ni, o', rfl⟩ := hw
        obtain ⟨q, hq, rfl⟩ := (ih n' c ni o' _ sub hsub p).1 ⟨x, hmem⟩
        exact ⟨k :: q, .inner hkv hid hq, by simp⟩
    · rintro ⟨q, hq, rfl⟩
      cases hq with
      | @here _ _ k v hk hid =>
        exact ⟨v, (flatLoop_complete h (List.mem_map.2 ⟨(k, v), (hits _).2 ⟨hk, hid⟩, rfl⟩)).1⟩
      | @inner _ _ k n' c ni o' q hk hid hq =>
        obtain ⟨_, h2⟩ := flatLoop_complete h (List.mem_map.2 ⟨(k, .what n' c ni o'), (hits _).2 ⟨hk, hid⟩, rfl⟩)
        obtain ⟨sub, hsub, hall⟩ := h2 rfl
        obtain ⟨x, hx⟩ := (ih n' c ni o' _ sub hsub (pk ++ [.str k] ++ q.map .str)).2 ⟨q, hq, rfl⟩
        exact ⟨x, hall _ (by simpa using hx)⟩

theorem pathKey_map (q : List Str) : pathKey (q.map .str) = pathOf q := by
  match q with
  | [] => rfl
  | [k] => rfl
  | _ :: _ :: _ => rfl

/-- C19. The keys a `What` reports with recursion, but without collections, are exactly the paths of its parameters and of
those of the Whats among its values; with `non_ids_too`, of all of them, else of those that count. -/
theorem c19_paths (srt : SortItems) (o : FlatOpts) (hc : o.collectionsToo = false) (hr : o.recursive = true) (w : What)
    (keys : List Val) (h : whatKeys srt o w = .ok keys) (k : Val) :
    k ∈ keys ↔ ∃ p, ParamPath o.nonIdsToo w.conf w.nonids p ∧ k = pathOf p := by
  obtain ⟨l, h1, rfl⟩ := map_ok h
  obtain ⟨l', h', rfl⟩ := map_ok h1
  have := flattenN_paths hc hr _ w.name w.conf w.nonids w.out [] l' h'
  simp only [List.nil_append] at this
  simp only [List.map_map, List.mem_map, Function.comp]
  constructor
  · rintro ⟨⟨p, x⟩, hm, rfl⟩
    obtain ⟨q, hq, rfl⟩ := (this p).1 ⟨x, hm⟩
    exact ⟨q, hq, pathKey_map q⟩
  · rintro ⟨q, hq, rfl⟩
    obtain ⟨x, hx⟩ := (this (q.map .str)).2 ⟨q, hq, rfl⟩
    exact ⟨_, hx, pathKey_map q⟩

theorem pyEqL_strs (fi : Str → Option Int) (p q : List Str) : pyEqL fi false (p.map .str) (q.map .str) = decide (p = q) := by
  induction p generalizing q with
  | nil => cases q <;> rfl
  | cons a p ih =>
    cases q with
    | nil => rfl
    | cons b q =>
      simp only [List.map_cons, pyEqL, pyEq, ih]
      by_cases h : a = b <;> simp [h]

theorem pyEq_pathOf (fi : Str → Option Int) (p q : List Str) : pyEq fi false (pathOf p) (pathOf q) = true ↔ pathOf p = pathOf q := by
  have h2 : ∀ p q : List Str, (p.map Val.str = q.map Val.str) ↔ p = q :=
    fun p q => List.map_inj_right (fun _ _ h => by cases h; rfl)
  match p, q with
  | [a], [b] => simp [pathOf, pyEq]
  | [a], [] => simp [pathOf, pyEq]
  | [], [b] => simp [pathOf, pyEq]
  | [], [] => simp [pathOf, pyEq, pyEqL]
  | [a], _ :: _ :: _ => simp [pathOf, pyEq]
  | _ :: _ :: _, [b] => simp [pathOf, pyEq]
  | [], x :: y :: r => simp [pathOf, pyEq, pyEqL]
  | x :: y :: r, [] => simp [pathOf, pyEq, pyEqL]
  | x :: y :: r, x' :: y' :: r' =>
    have := pyEqL_strs fi (x :: y :: r) (x' :: y' :: r')
    simp only [pathOf, pyEq, this, Val.tuple.injEq, h2, decide_eq_true_iff]

theorem hashable_pathOf (p : List Str) : hashable (pathOf p) = true := by
  have h : ∀ p : List Str, hashableL (p.map .str) = true := by
    intro p
    induction p with
    | nil => rfl
    | cons a p ih => simp [hashableL, hashable, ih]
  match p with
  | [] => rfl
  | [_] => rfl
  | _ :: _ :: _ => simp only [pathOf, hashable]; exact h _

/-- A set of keys has every one of them, once. -/
theorem setFrom_paths (fi : Str → Option Int) (l acc : List Val) (hl : ∀ k ∈ l, ∃ p, k = pathOf p) (ha : ∀ k ∈ acc, ∃ p, k = pathOf p)
    (hn : acc.Nodup) : ∃ d, setFrom fi acc l = .ok d ∧ d.Nodup ∧ ∀ k, k ∈ d ↔ k ∈ acc ∨ k ∈ l := by
  induction l generalizing acc with
  | nil => exact ⟨acc, rfl, hn, by simp⟩
  | cons v r ih =>
    obtain ⟨p, rfl⟩ := hl v (.head _)
    simp only [setFrom, hashable_pathOf, if_true]
    have hany : acc.any (fun x => pyEq fi false x (pathOf p)) = true ↔ pathOf p ∈ acc := by
      rw [List.any_eq_true]
      constructor
      · rintro ⟨x, hx, h⟩
        obtain ⟨q, rfl⟩ := ha x hx
        rw [pyEq_pathOf] at h
        rwa [← h]
      · exact fun h => ⟨_, h, by rw [pyEq_pathOf]⟩
    split
    · rename_i h
      have hm := hany.1 h
      obtain ⟨d, h1, h2, h3⟩ := ih acc (fun k h => hl k (.tail _ h)) ha hn
      refine ⟨d, h1, h2, fun k => ?_⟩
      rw [h3, List.mem_cons]
      constructor
      · rintro (h | h)
        · exact .inl h
        · exact .inr (.inr h)
      · rintro (h | rfl | h)
        · exact .inl h
        · exact .inl hm
        · exact .inr h
    · rename_i h
      have hm : pathOf p ∉ acc := fun hm => h (hany.2 hm)
      obtain ⟨d, h1, h2, h3⟩ := ih (acc ++ [pathOf p]) (fun k h => hl k (.tail _ h)) (by
          intro k hk
          rcases List.mem_append.1 hk with h | h
          · exact ha k h
          · rw [List.mem_singleton] at h; exact ⟨p, h⟩) (by
          rw [List.nodup_append]
          refine ⟨hn, by simp, ?_⟩
          rintro a h b hb rfl
          rw [List.mem_singleton] at hb
          exact hm (hb ▸ h))
      refine ⟨d, h1, h2, fun k => ?_⟩
      rw [h3, List.mem_cons, List.mem_append, List.mem_singleton, or_assoc]

theorem pathOf_named (p : List Str) : ∃ n, colName (pathOf p) = .ok n := by
  match p with
  | [] => exact ⟨_, rfl⟩
  | [_] => exact ⟨_, rfl⟩
  | _ :: _ :: _ => exact ⟨_, rfl⟩

theorem whatKeys_total (srt : SortItems) (w : What) : ∃ ks, whatKeys srt {} w = .ok ks := by
  obtain ⟨l, h⟩ := c18_flatten_total (fun l => .ok l) (fun l l' h => by cases h; exact .refl _) {} w (by simp)
  have e : flatten srt {} w = flatten (fun l => .ok l) {} w := by
    have hi : flatItems srt {} = flatItems (fun l => .ok l) {} := by
      funext v
      cases v with
      | sub k _ _ _ => cases k <;> rfl
      | _ => rfl
    have hn : ∀ n, flattenN srt {} n = flattenN (fun l => .ok l) {} n := by
      intro n
      induction n with
      | zero => rfl
      | succ n ih => funext v pk; simp only [flattenN, hi, ih]
    simp only [flatten, hn]
  exact ⟨l.map Prod.fst, by simp only [whatKeys, e, h]; rfl⟩

/-- C49.  Without `columns`, the columns are those for all parameters of all ids, nested ones included: every key once,
sorted by the name of its column, whatever order Python iterates over the set of keys in. -/
theorem c49_default (E : Env) (srt : SortItems) (iter : List Val → List Val) (hiter : ∀ l, (iter l).Perm l) (df : Df) (col : Str)
    (cells : List Val) (hc : dget df col = some cells) (hs : ∀ c ∈ cells, ∃ s w, c = .str s ∧ parseWhatid E s = .ok w) :
    ∃ cols : List Val, cols.Nodup ∧
      (∀ k, k ∈ cols ↔ ∃ s w p, .str s ∈ cells ∧ parseWhatid E s = .ok w ∧ ParamPath false w.conf w.nonids p ∧ k = pathOf p) ∧
      (cols.Pairwise fun a b => ∀ m n, ColumnNamed [] [] a m → ColumnNamed [] [] b n → strLe m n = true) ∧
      ∀ pre post inplace, whatid2columns E srt iter df col none pre post inplace =
        whatid2columns E srt iter df col (some cols) pre post inplace := by
  have hs' : ∀ c ∈ cells, ∃ w, parseCell E c = .ok w := by
    intro c hm
    obtain ⟨s, w, rfl, h⟩ := hs c hm
    exact ⟨w, h⟩
  obtain ⟨whats, hp⟩ := parseAll_ok hs'
  obtain ⟨ws, hm⟩ := mapR_ok_iff.2 hs'
  obtain ⟨keys, hk⟩ := mapR_ok_iff.2 fun (p : Str × What) (_ : p ∈ whats) => whatKeys_total srt p.2
  have hkeys : ∀ k, k ∈ keys.flatten ↔
      ∃ s w p, .str s ∈ cells ∧ parseWhatid E s = .ok w ∧ ParamPath false w.conf w.nonids p ∧ k = pathOf p := by
    intro k
    rw [List.mem_flatten]
    constructor
    · rintro ⟨ks, hks, hkm⟩
      obtain ⟨i, hi⟩ := List.getElem?_of_mem hks
      have hlt : i < whats.length := by
        rw [← mapR_length hk]
        exact (List.getElem?_eq_some_iff.1 hi).1
      have hwi : whats[i]? = some whats[i] := List.getElem?_eq_getElem hlt
      have hks := mapR_get hk hwi hi
      obtain ⟨p, h1, h2⟩ := (c19_paths srt {} rfl rfl _ _ hks k).1 hkm
      obtain ⟨h3, h4⟩ := (parseAll_get hp).2 whats[i].1 whats[i].2 (List.getElem_mem hlt)
      exact ⟨_, _, p, mem_uniqueIds.1 h3, h4, h1, h2⟩
    · rintro ⟨s, w, p, h1, h2, h3, h4⟩
      obtain ⟨w', h5, h6⟩ := (parseAll_get hp).1 s (mem_uniqueIds.2 h1)
      rw [h2] at h6; cases h6
      obtain ⟨i, hi⟩ := List.getElem?_of_mem (mem_of_dget h5)
      have hlt : i < keys.length := by
        rw [mapR_length hk]
        exact (List.getElem?_eq_some_iff.1 hi).1
      have hki : keys[i]? = some keys[i] := List.getElem?_eq_getElem hlt
      have hks := mapR_get hk hi hki
      exact ⟨_, List.getElem_mem hlt, (c19_paths srt {} rfl rfl _ _ hks k).2 ⟨p, h3, h4⟩⟩
  obtain ⟨set, h1, h2, h3⟩ := setFrom_paths E.fi keys.flatten [] (fun k h => by
    obtain ⟨_, _, p, _, _, _, h⟩ := (hkeys k).1 h; exact ⟨p, h⟩) nofun .nil
  have hmem : ∀ k, k ∈ sortBy colLe (iter set) ↔ k ∈ keys.flatten := by
    intro k
    rw [mem_sortBy, (hiter set).mem_iff, h3]
    simp
  refine ⟨sortBy colLe (iter set), ?_, fun k => (hmem k).trans (hkeys k), ?_, ?_⟩
  · exact (sortBy_perm _ _).nodup_iff.2 ((hiter set).nodup_iff.2 h2)
  · have := sortBy_sorted_on (le := colLe) (S := fun k => ∃ n, colName k = .ok n)
      (by rintro a b ⟨m, hm⟩ ⟨n, hn⟩; simp only [colLe, hm, hn]; exact strLe_total _ _)
      (by rintro a b c ⟨m, hm⟩ ⟨n, hn⟩ ⟨q, hq⟩; simp only [colLe, hm, hn, hq]; exact strLe_trans _ _ _)
      (iter set) (by
        intro k hk
        obtain ⟨_, _, p, _, _, _, rfl⟩ := (hkeys k).1 ((hmem k).1 (mem_sortBy.2 hk))
        exact pathOf_named p)
    refine this.imp ?_
    intro a b h m n hm hn
    obtain ⟨m', h1, e1⟩ := colName_named.1 hm
    obtain ⟨n', h2, e2⟩ := colName_named.1 hn
    simp only [List.nil_append, List.append_nil] at e1 e2
    subst e1; subst e2
    simpa only [colLe, h1, h2] using h
  · intro pre post inplace
    simp only [whatid2columns, hc, hm, hp, theColumns, hk, h1]

/-! ### Examples -/

/-- A frame with ids in the column `w`. -/
def exDf : Df :=
  [(c!"w", [.str c!"A(x=1,y=B(z=2))", .str c!"A(x=3)", .str c!"A(x=1,y=B(z=2))"]), (c!"other", [.int 7, .int 8, .int 9])]

example : whatid2columns exEnv srtId id exDf c!"w" (some [.str c!"x", .list [.str c!"y", .str c!"z"]]) c!"p_" [] false =
    (.ok (exDf ++ [(c!"p_x", [.int 1, .int 3, .int 1]), (c!"p_y_z", [.int 2, .none, .int 2])]), exDf) := by rfl
example : ∀ k ∈ [Val.str c!"x", .list [.str c!"y", .str c!"z"]], ¬ ColumnNamed c!"p_" [] k c!"w" := by
  intro k hk h
  simp only [List.mem_cons, List.not_mem_nil, or_false] at hk
  rcases hk with rfl | rfl <;> generalize e : c!"w" = n at h <;> cases h <;> revert e <;> decide
/-- Without `columns`: nested parameters too, although the documentation speaks of the top level. -/
example : (whatid2columns exEnv srtId id exDf c!"w" none [] [] true).1 =
    .ok (exDf ++ [(c!"x", [.int 1, .int 3, .int 1]),
      (c!"y", [.what c!"B" [(c!"z", .int 2)] [] none, .none, .what c!"B" [(c!"z", .int 2)] [] none]),
      (c!"y_z", [.int 2, .none, .int 2])]) := by rfl
/-- The hypothesis is needed: a parameter with the name of the column of the ids overwrites it, and the next column
fails; the frame passed in has lost its ids. -/
example : whatid2columns exEnv srtId id [(c!"x", [.str c!"A(x=1,y=2)"])] c!"x" none [] [] true =
    (.error .keyError, [(c!"x", [.int 1])]) := by rfl
/-- Of two columns with one name the last one counts. -/
example : (whatid2columns exEnv srtId id [(c!"w", [.str c!"A(a=B(b=1),a_b=2)"])] c!"w" none [] [] true).1 =
    .ok [(c!"w", [.str c!"A(a=B(b=1),a_b=2)"]), (c!"a", [.what c!"B" [(c!"b", .int 1)] [] none]), (c!"a_b", [.int 2])] := by rfl
example : ∀ c ∈ [Val.str c!"A(x=1,y=B(z=2))", .str c!"A(x=3)"], ∃ s w, c = .str s ∧ parseWhatid exEnv s = .ok w := by
  intro c hc
  simp only [List.mem_cons, List.not_mem_nil, or_false] at hc
  rcases hc with rfl | rfl <;> exact ⟨_, _, rfl, rfl⟩
example : whatid2columns exEnv srtId id [(c!"w", [.str c!"A(x=1)", .str c!"no id"])] c!"w" none [] [] true =
    (.error .noMatch, [(c!"w", [.str c!"A(x=1)", .str c!"no id"])]) := by rfl

/-- The second column raises: the first one stays, `inplace`. -/
example : whatid2columns exEnv srtId id [(c!"w", [.str c!"A(x=1)"])] c!"w" (some [.str c!"x", .list [.str c!"x", .str c!"y"]]) [] [] true =
    (.error .attributeError, [(c!"w", [.str c!"A(x=1)"]), (c!"x", [.int 1])]) := by rfl

end Whatami
