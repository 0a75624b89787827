import Verif.Props.Registry
import Verif.Props.Recorder
import Verif.Props.Misc
import Verif.Props.Meaning
import Verif.Props.Session
import Verif.Props.Columns

/-
C89: which exceptions refused calls raise.
-/
namespace Whatami

/-! ### The registry of nicknames -/

/-- Why `register(what, nickname)` raises, and what. -/
inductive RegisterRefuses (w2i : Val → R Str) (r : Registry) : Option Val → Option Str → Err → Prop where
  /-- one of them is None -/
  | noWhat (n : Option Str) : RegisterRefuses w2i r none n .valueError
  | noNick (w : Val) : RegisterRefuses w2i r (some w) none .valueError
  /-- the what has no id -/
  | noId {w : Val} {e : Err} (n : Str) : w2i w = .error e → RegisterRefuses w2i r (some w) (some n) e
  /-- the nickname goes with another id, or the id with another nickname -/
  | nick {w : Val} {n i j : Str} : w2i w = .ok i → r.nickToId n = some j → j ≠ i → RegisterRefuses w2i r (some w) (some n) .exception
  | id {w : Val} {n i m : Str} : w2i w = .ok i → r.idToNick i = some m → m ≠ n → RegisterRefuses w2i r (some w) (some n) .exception

/-- **C89** for `register`. -/
theorem c89_register (w2i : Val → R Str) (r : Registry) (what : Option Val) (nick : Option Str) (e : Err) :
    register w2i r what nick = (r, .error e) ↔ RegisterRefuses w2i r what nick e := by
  cases what with
  | none =>
    simp only [register, Prod.mk.injEq, true_and, Except.error.injEq]
    constructor
    · rintro rfl; exact .noWhat _
    · intro h; cases h; rfl
  | some w =>
    cases nick with
    | none =>
      simp only [register, Prod.mk.injEq, true_and, Except.error.injEq]
      constructor
      · rintro rfl; exact .noNick _
      · intro h; cases h; rfl
    | some n =>
      simp only [register]
      cases hi : w2i w with
      | error e' =>
        simp only [Prod.mk.injEq, true_and, Except.error.injEq]
        constructor
        · rintro rfl; exact .noId n hi
        · intro h
          cases h with
          | noId _ h => rw [hi] at h; cases h; rfl
          | nick h => rw [hi] at h; cases h
          | id h => rw [hi] at h; cases h
      | ok i =>
        have hN : ∀ {d : List (Str × Str)} {k v : Str}, (dhas d k && !(dget d k == some v)) = true ↔ ∃ x, dget d k = some x ∧ x ≠ v := by
          intro d k v
          simp only [dhas]
          cases dget d k <;> simp
        simp only
        constructor
        · intro h
          split at h
          · next hc =>
            obtain ⟨j, h1, h2⟩ := hN.1 hc
            cases h
            exact .nick hi h1 h2
          · split at h
            · next hc =>
              obtain ⟨j, h1, h2⟩ := hN.1 hc
              cases h
              exact .id hi h1 h2
            · simp only [Prod.mk.injEq, reduceCtorEq, and_false] at h
        · intro h
          cases h with
          | noId _ h => rw [hi] at h; cases h
          | nick h h1 h2 =>
            rw [hi] at h; cases h
            rw [if_pos (hN.2 ⟨_, h1, h2⟩)]
          | id h h1 h2 =>
            rw [hi] at h; cases h
            rw [if_pos (hN.2 ⟨_, h1, h2⟩)]
            split <;> rfl

/-! ### Recorders -/

/-- Why a column of a call of `add` raises, and what. -/
inductive ColumnRefused (ids : List Rid) : Val → Err → Prop where
  /-- a value is to go to an id that is a number, or is called like a parameter of the dict that deals them out -/
  | number {v : Val} {xs : List Val} {pos : Nat} {n : Int} : dictItems v = none → (∀ s, v ≠ .str s) → iterV v = some (.ok xs) →
      ids[pos]? = some (.int n) → pos < xs.length → ColumnRefused ids v .typeError
  | name {v : Val} {xs : List Val} {pos : Nat} {s : Str} : dictItems v = none → (∀ s, v ≠ .str s) → iterV v = some (.ok xs) →
      ids[pos]? = some (.str s) → s = c!"default" ∨ s = c!"self" → pos < xs.length → ColumnRefused ids v .typeError
  /-- a What is taken for a sequence -/
  | what {n : Str} {c : Conf} {nk : List Str} {o : Option Str} : ids ≠ [] → ColumnRefused ids (.what n c nk o) .keyError

theorem kwArgs_error {l : List (Rid × Val)} {e : Err} (h : kwArgs l = .error e) :
    e = .typeError ∧ ∃ i v, (i, v) ∈ l ∧ ((∃ n, i = .int n) ∨ ∃ s, i = .str s ∧ (s = c!"default" ∨ s = c!"self")) := by
  induction l with
  | nil => cases h
  | cons x r ih =>
    obtain ⟨i, v⟩ := x
    cases i with
    | int i => simp only [kwArgs, Except.error.injEq] at h; exact ⟨h.symm, _, v, by simp, .inl ⟨i, rfl⟩⟩
    | str s =>
      simp only [kwArgs] at h
      split at h
      · next hs => cases h; exact ⟨rfl, _, v, by simp, .inr ⟨s, rfl, hs⟩⟩
      · cases hr : kwArgs r with
        | error e' =>
          rw [hr] at h; cases h
          obtain ⟨h1, j, u, hm, h2⟩ := ih hr
          exact ⟨h1, j, u, by simp [hm], h2⟩
        | ok l => rw [hr] at h; cases h

theorem zip_pos {α β : Type} {ids : List α} {xs : List β} {i : α} {v : β} (h : (i, v) ∈ ids.zip xs) : ∃ pos, ids[pos]? = some i ∧ pos < xs.length := by
  obtain ⟨pos, hp⟩ := List.mem_iff_getElem?.1 h
  rw [List.getElem?_zip_eq_some] at hp
  exact ⟨pos, hp.1, (List.getElem?_eq_some_iff.1 hp.2).1⟩

theorem params_error {ids : List Rid} {v : Val} {unbox : Bool} {e : Err} (h : params2dict ids v unbox = .error e) : unbox = true ∧ ColumnRefused ids v e := by
  cases hd : dictItems v with
  | some kvs => simp [params2dict, hd] at h
  | none =>
    by_cases hs : ∃ s, v = .str s
    · obtain ⟨s, rfl⟩ := hs
      simp [params2dict, dictItems] at h
    · replace hs : ∀ s, v ≠ .str s := fun s e => hs ⟨s, e⟩
      cases unbox with
      | false =>
        exfalso
        cases v <;> first
          | exact absurd rfl (hs _)
          | (simp [params2dict, hd] at h)
          | (simp only [params2dict, hd] at h; split at h <;> simp_all)
      | true =>
        refine ⟨rfl, ?_⟩
        cases hi : iterV v with
        | none =>
          exfalso
          cases v <;> first
            | exact absurd rfl (hs _)
            | (simp only [params2dict, hd, hi] at h; cases h)
            | cases hi
        | some r =>
          cases r with
          | error e' =>
            cases v <;> simp only [iterV, reduceCtorEq, Option.some.injEq, Except.error.injEq] at hi
            subst hi
            simp only [params2dict, dictItems, iterV] at h
            split at h
            · cases h
            · next hne => cases h; exact .what hne
          | ok xs =>
            rw [params2dict_iter hd hs hi] at h
            cases hk : kwArgs (dictOf (ids.zip xs)) with
            | ok l => rw [hk] at h; cases h
            | error e' =>
              rw [hk] at h; cases h
              obtain ⟨rfl, i, u, hm, hbad⟩ := kwArgs_error hk
              obtain ⟨pos, hp, hl⟩ := zip_pos (mem_dictOf hm)
              rcases hbad with ⟨n, rfl⟩ | ⟨s, rfl, hn⟩
              · exact .number hd hs hi hp hl
              · exact .name hd hs hi hp hn hl

theorem config_error {ids : List Rid} {unbox : Bool} {cols : Conf} {e : Err} (h : configDict ids unbox cols = .error e) :
    unbox = true ∧ ∃ c v, (c, v) ∈ cols ∧ ColumnRefused ids v e := by
  induction cols with
  | nil => cases h
  | cons x r ih =>
    obtain ⟨c, v⟩ := x
    simp only [configDict] at h
    cases hp : params2dict ids v unbox with
    | error e' => rw [hp] at h; cases h; exact ⟨(params_error hp).1, c, v, by simp, (params_error hp).2⟩
    | ok y =>
      rw [hp] at h
      cases hr : configDict ids unbox r with
      | ok l => rw [hr] at h; cases h
      | error e' =>
        simp only [hr] at h; cases h
        obtain ⟨h0, c', v', hm, h1⟩ := ih hr
        exact ⟨h0, c', v', by simp [hm], h1⟩

theorem runPosts_error {i : Rid} {view : RecView} {ps : List Post} {rec : Record} {e : Err} (h : runPosts i view ps rec = .error e) :
    ∃ p ∈ ps, ∃ rec, p i rec view = .error e := by
  induction ps generalizing rec with
  | nil => cases h
  | cons p ps ih =>
    simp only [runPosts] at h
    cases hp : p i rec view with
    | error e' => rw [hp] at h; cases h; exact ⟨p, by simp, rec, hp⟩
    | ok rec' =>
      rw [hp] at h
      obtain ⟨q, hq, h⟩ := ih h
      exact ⟨q, by simp [hq], h⟩

theorem rawRecord_keys {fi : Str → Option Int} {i : Rid} {cd : List (Str × ColVals)} {k : Str} (h : k ∈ dkeys (rawRecord fi i cd)) : k ∈ cd.map Prod.fst := by
  induction cd with
  | nil => cases h
  | cons x r ih =>
    obtain ⟨c, x⟩ := x
    simp only [rawRecord] at h
    split at h
    · simp only [dkeys, List.map_cons, List.mem_cons] at h ⊢
      exact h.imp id ih
    · simp only [List.map_cons, List.mem_cons]
      exact .inr (ih h)

theorem config_keys {ids : List Rid} {unbox : Bool} {cols : Conf} {cd : List (Str × ColVals)} (h : configDict ids unbox cols = .ok cd) :
    cd.map Prod.fst = cols.map Prod.fst := by
  induction cols generalizing cd with
  | nil => cases h; rfl
  | cons x r ih =>
    obtain ⟨c, v⟩ := x
    simp only [configDict] at h
    cases hp : params2dict ids v unbox with
    | error e' => rw [hp] at h; cases h
    | ok y =>
      rw [hp] at h
      cases hr : configDict ids unbox r with
      | error e' => simp only [hr] at h; cases h
      | ok l => simp only [hr] at h; cases h; simp [ih hr]

theorem addLoop_error {fi : Str → Option Int} {view : RecView} {cd : List (Str × ColVals)} {posts : List Post} {ids : List Rid} {acc : List (Rid × Record)} {e : Err}
    (h : addLoop fi view cd posts ids acc = .error e) :
    (e = .exception ∧ ((∃ i ∈ ids, i ∈ dkeys view.registry) ∨ (∃ i ∈ ids, i ∈ dkeys acc) ∨ ¬ ids.Nodup ∨ (ids ≠ [] ∧ view.idCol ∈ cd.map Prod.fst))) ∨
    ∃ i ∈ ids, ∃ p ∈ posts, ∃ rec, p i rec view = .error e := by
  induction ids generalizing acc with
  | nil => cases h
  | cons i ids ih =>
    simp only [addLoop] at h
    split at h
    · next h1 => cases h; exact .inl ⟨rfl, .inl ⟨i, by simp, dhas_iff.1 h1⟩⟩
    · split at h
      · next h1 => cases h; exact .inl ⟨rfl, .inr (.inl ⟨i, by simp, dhas_iff.1 h1⟩)⟩
      · next h2 =>
        split at h
        · next h1 => cases h; exact .inl ⟨rfl, .inr (.inr (.inr ⟨by simp, rawRecord_keys (dhas_iff.1 h1)⟩))⟩
        · cases hp : runPosts i view posts (addDefaults (dset (rawRecord fi i cd) view.idCol i.toVal) view.defaults) with
          | error e' =>
            rw [hp] at h; cases h
            exact .inr ⟨i, by simp, runPosts_error hp⟩
          | ok rec =>
            rw [hp] at h
            rw [dhas_iff] at h2
            rcases ih h with ⟨he, hc⟩ | ⟨j, hj, hp⟩
            · refine .inl ⟨he, ?_⟩
              rcases hc with ⟨j, hj, hr⟩ | ⟨j, hj, hr⟩ | hn | ⟨_, hk⟩
              · exact .inl ⟨j, by simp [hj], hr⟩
              · rw [dset_fresh h2] at hr
                simp only [dkeys, List.map_append, List.mem_append, List.map_cons, List.map_nil, List.mem_singleton] at hr
                rcases hr with hr | rfl
                · exact .inr (.inl ⟨j, by simp [hj], hr⟩)
                · exact .inr (.inr (.inl fun hn => (List.nodup_cons.1 hn).1 hj))
              · exact .inr (.inr (.inl fun h => hn (List.nodup_cons.1 h).2))
              · exact .inr (.inr (.inr ⟨by simp, hk⟩))
            · exact .inr ⟨j, by simp [hj], hp⟩

/-- Why `add` raises, and what. -/
inductive AddRefuses (r : Recorder) (a : AddCall) (ids : List Rid) : Err → Prop where
  /-- an id is there already, or is given twice -/
  | known (i : Rid) (rec : Record) : i ∈ ids → (i, rec) ∈ r.registry → AddRefuses r a ids .exception
  | twice : ¬ ids.Nodup → AddRefuses r a ids .exception
  /-- the id column is given as a column -/
  | idColumn (v : Val) : ids ≠ [] → (r.idCol, v) ∈ a.columns → AddRefuses r a ids .exception
  /-- a column cannot be dealt out -/
  | column {e : Err} (c : Str) (v : Val) : a.unbox = true → (c, v) ∈ a.columns → ColumnRefused ids v e → AddRefuses r a ids e
  /-- a postprocessor of the recorder or of the call raises -/
  | post {e : Err} (i : Rid) (p : Post) (rec : Record) : i ∈ ids → (p ∈ r.posts ∧ (a.posts = none ∨ a.override = false) ∨ ∃ ps, a.posts = some ps ∧ p ∈ ps) →
      p i rec r.toRecView = .error e → AddRefuses r a ids e

variable (fi : Str → Option Int)

/-- **C89** for `add`, once the ids are told: it raises for these reasons only, and then this. -/
theorem c89_add {r : Recorder} {a : AddCall} {ids : List Rid} {e : Err} (hi : callIds a.extract a.ids = .ok ids) (h : (r.add fi a).2 = .error e) :
    AddRefuses r a ids e := by
  simp only [Recorder.add, hi] at h
  cases hc : configDict ids a.unbox a.columns with
  | error e' =>
    simp only [hc] at h; cases h
    obtain ⟨h0, c, v, hm, h1⟩ := config_error hc
    exact .column c v h0 hm h1
  | ok cd =>
    simp only [hc] at h
    cases hl : addLoop fi r.toRecView cd (choosePosts r.posts a.posts a.override) ids [] with
    | ok recs => simp [hl] at h
    | error e' =>
      simp only [hl] at h; cases h
      rcases addLoop_error hl with ⟨rfl, ⟨i, h1, h2⟩ | ⟨i, _, h2⟩ | h1 | ⟨h1, h2⟩⟩ | ⟨i, h1, p, hp, rec, h2⟩
      · obtain ⟨⟨j, rec⟩, hm, rfl⟩ := List.mem_map.1 h2
        exact .known _ rec h1 hm
      · cases h2
      · exact .twice h1
      · rw [config_keys hc] at h2
        obtain ⟨⟨k, v⟩, hm, e⟩ := List.mem_map.1 h2
        have e : k = r.idCol := e
        exact .idColumn v h1 (e ▸ hm)
      · refine .post i p rec h1 ?_ h2
        unfold choosePosts at hp
        cases ho : a.posts with
        | none => rw [ho] at hp; exact .inl ⟨hp, .inl rfl⟩
        | some ps =>
          rw [ho] at hp
          cases hv : a.override with
          | true => simp only [hv, if_true] at hp; exact .inr ⟨ps, rfl, hp⟩
          | false =>
            simp only [hv, Bool.false_eq_true, if_false, List.mem_append] at hp
            rcases hp with hp | hp
            · exact .inl ⟨hp, .inr rfl⟩
            · exact .inr ⟨ps, rfl, hp⟩

/-- C89 for `add`: ids that are there already or given twice are refused, whatever the columns and postprocessors are. -/
theorem c89_add_refuses {r : Recorder} {a : AddCall} {ids : List Rid} (hi : callIds a.extract a.ids = .ok ids)
    (h : (∃ i ∈ ids, ∃ rec, (i, rec) ∈ r.registry) ∨ ¬ ids.Nodup) : ∃ e, (r.add fi a).2 = .error e := by
  cases ha : r.add fi a with
  | mk r' x =>
    cases x with
    | error e => exact ⟨e, rfl⟩
    | ok records =>
      obtain ⟨_, h2, h3, h4, -⟩ := c33_add fi r r' a records ha
      rw [hi] at h2; cases h2
      rcases h with ⟨i, hm, rec, hr⟩ | h
      · obtain ⟨⟨j, rec'⟩, hm', rfl⟩ := List.mem_map.1 hm
        exact absurd hr (h4 _ _ hm' _)
      · exact absurd h3 h

theorem kwArgs_refuses {l : List (Rid × Val)} {i : Rid} {v : Val} (hm : (i, v) ∈ l)
    (h : (∃ n, i = .int n) ∨ ∃ s, i = .str s ∧ (s = c!"default" ∨ s = c!"self")) : ∃ e, kwArgs l = .error e := by
  cases hk : kwArgs l with
  | error e => exact ⟨e, rfl⟩
  | ok l' =>
    exfalso
    induction l generalizing l' with
    | nil => cases hm
    | cons x r ih =>
      obtain ⟨j, u⟩ := x
      cases j with
      | int j => simp [kwArgs] at hk
      | str s =>
        simp only [kwArgs] at hk
        split at hk
        · cases hk
        · next hs =>
          rcases List.mem_cons.1 hm with e | hm
          · cases e
            rcases h with ⟨n, h⟩ | ⟨s', h, hs'⟩
            · cases h
            · cases h; exact hs hs'
          · cases hr : kwArgs r with
            | error e => rw [hr] at hk; cases hk
            | ok l2 => exact ih hm _ hr

theorem zip_dict {ids : List Rid} {xs : List Val} {pos : Nat} {i : Rid} (h : ids[pos]? = some i) (hl : pos < xs.length) : ∃ v, (i, v) ∈ dictOf (ids.zip xs) := by
  have hm : (i, xs[pos]) ∈ ids.zip xs :=
    List.mem_iff_getElem?.2 ⟨pos, by rw [List.getElem?_zip_eq_some]; exact ⟨h, List.getElem?_eq_getElem hl⟩⟩
  have : i ∈ dkeys (dictOf (ids.zip xs)) := by
    have key : ∀ (e d : List (Rid × Val)), i ∈ dkeys d ∨ i ∈ dkeys e → i ∈ dkeys (dupdate d e) := by
      intro e
      induction e with
      | nil => intro d h; exact h.elim id (fun h => (by cases h))
      | cons x e ih =>
        intro d h
        refine ih (dset d x.1 x.2) ?_
        rw [mem_dkeys_dset]
        simp only [dkeys, List.map_cons, List.mem_cons] at h ⊢
        rcases h with h | h | h
        · exact .inl (.inr h)
        · exact .inl (.inl h)
        · exact .inr h
    exact key _ _ (.inr (List.mem_map_of_mem (f := Prod.fst) hm))
  obtain ⟨⟨j, v⟩, hj, rfl⟩ := List.mem_map.1 this
  exact ⟨v, hj⟩

theorem params_refuses {ids : List Rid} {v : Val} {e : Err} (h : ColumnRefused ids v e) : ∃ e, params2dict ids v true = .error e := by
  cases h with
  | number hd hs hi hp hl =>
    obtain ⟨u, hu⟩ := zip_dict hp hl
    obtain ⟨e, he⟩ := kwArgs_refuses hu (.inl ⟨_, rfl⟩)
    exact ⟨e, by rw [params2dict_iter hd hs hi, he]; rfl⟩
  | name hd hs hi hp hn hl =>
    obtain ⟨u, hu⟩ := zip_dict hp hl
    obtain ⟨e, he⟩ := kwArgs_refuses hu (.inr ⟨_, rfl, hn⟩)
    exact ⟨e, by rw [params2dict_iter hd hs hi, he]; rfl⟩
  | what hne => exact ⟨.keyError, by simp only [params2dict, dictItems, iterV, hne, if_false]⟩

/-- C89 for `add`: a column that cannot be dealt out is refused. -/
theorem c89_column_refuses {r : Recorder} {a : AddCall} {ids : List Rid} (hi : callIds a.extract a.ids = .ok ids) (hu : a.unbox = true)
    {c : Str} {v : Val} (hm : (c, v) ∈ a.columns) {e : Err} (h : ColumnRefused ids v e) : ∃ e, (r.add fi a).2 = .error e := by
  have : ∃ e, configDict ids true a.columns = .error e := by
    obtain ⟨e, he⟩ := params_refuses h
    generalize a.columns = cols at hm
    induction cols with
    | nil => cases hm
    | cons x cols ih =>
      obtain ⟨c', v'⟩ := x
      simp only [configDict]
      cases hp : params2dict ids v' true with
      | error e' => exact ⟨e', rfl⟩
      | ok y =>
        rcases List.mem_cons.1 hm with h | hm
        · cases h; rw [he] at hp; cases hp
        · obtain ⟨e'', h''⟩ := ih hm
          exact ⟨e'', by rw [h'']; rfl⟩
  obtain ⟨e, he⟩ := this
  exact ⟨e, by simp only [Recorder.add, hi, hu, he]⟩

/-- **C89** for `unique`: TypeError exactly if there is an unhashable value in the column. -/
theorem c89_unique (r : Recorder) (column : Str) (e : Err) :
    r.unique fi column = .error e ↔ e = .typeError ∧ ∃ i rec v, (i, rec) ∈ r.registry ∧ dget rec column = some v ∧ hashable v = false := by
  have key : ∀ (recs : List (Rid × Record)) acc, uniqueGo fi column recs acc = .error e ↔
      e = .typeError ∧ ∃ i rec v, (i, rec) ∈ recs ∧ dget rec column = some v ∧ hashable v = false := by
    intro recs
    induction recs with
    | nil => intro acc; simp [uniqueGo]
    | cons x recs ih =>
      obtain ⟨i, rec⟩ := x
      intro acc
      simp only [uniqueGo]
      cases hd : dget rec column with
      | none =>
        simp only
        rw [ih]
        constructor
        · rintro ⟨he, j, rec', v, hm, h⟩; exact ⟨he, j, rec', v, by simp [hm], h⟩
        · rintro ⟨he, j, rec', v, hm, hv, h⟩
          rcases List.mem_cons.1 hm with e | hm
          · cases e; rw [hd] at hv; cases hv
          · exact ⟨he, j, rec', v, hm, hv, h⟩
      | some v =>
        simp only
        cases hh : hashable v with
        | true =>
          simp only [if_true]
          rw [ih]
          constructor
          · rintro ⟨he, j, rec', v, hm, h⟩; exact ⟨he, j, rec', v, by simp [hm], h⟩
          · rintro ⟨he, j, rec', u, hm, hv, h⟩
            rcases List.mem_cons.1 hm with e | hm
            · cases e; rw [hd] at hv; cases hv; rw [hh] at h; cases h
            · exact ⟨he, j, rec', u, hm, hv, h⟩
        | false =>
          simp only [Bool.false_eq_true, if_false, Except.error.injEq]
          constructor
          · rintro rfl; exact ⟨rfl, i, rec, v, by simp, hd, hh⟩
          · rintro ⟨rfl, _⟩; rfl
  exact key _ _

/-! ### call_dict -/

/-- **C89** for `call_dict`: KeyError if a parameter was deleted in the frame; else KeyError if `*args` was, ValueError if it is not empty, unless
it is to be ignored; and nothing else. -/
theorem c89_call_dict (f : Frame) (ignores : List Str) (ignoreVarargs : Bool) (overrides overOverrides : Conf) (e : Err) :
    callDict f ignores ignoreVarargs overrides overOverrides = .error e ↔
      (e = .keyError ∧ ((∃ a ∈ f.args, ∀ v, (a, v) ∉ f.locals) ∨ ignoreVarargs = false ∧ ∃ a, f.varargs = some a ∧ ∀ v, (a, v) ∉ f.locals)) ∨
      (e = .valueError ∧ (∀ a ∈ f.args, ∃ v, (a, v) ∈ f.locals) ∧ ignoreVarargs = false ∧ HasVarargs f) := by
  have hnone : ∀ a, dget f.locals a = none ↔ ∀ v, (a, v) ∉ f.locals := by
    intro a
    rw [dget_none_iff]
    simp [dkeys]
  have hargs : ∀ (l : List Str) d, (∃ d', frameArgs f.locals l d = .ok d' ∧ ∀ a ∈ l, ∃ v, (a, v) ∈ f.locals) ∨
      (frameArgs f.locals l d = .error .keyError ∧ ∃ a ∈ l, ∀ v, (a, v) ∉ f.locals) := by
    intro l
    induction l with
    | nil => exact fun d => .inl ⟨d, rfl, by simp⟩
    | cons a l ih =>
      intro d
      simp only [frameArgs]
      cases hd : dget f.locals a with
      | none => exact .inr ⟨rfl, a, by simp, (hnone a).1 hd⟩
      | some v =>
        rcases ih (dset d a v) with ⟨d', h1, h2⟩ | ⟨h1, b, hb, h2⟩
        · refine .inl ⟨d', h1, fun b hb => ?_⟩
          rcases List.mem_cons.1 hb with rfl | hb
          · exact ⟨v, mem_of_dget hd⟩
          · exact h2 b hb
        · exact .inr ⟨h1, b, by simp [hb], h2⟩
  rcases hargs f.args [] with ⟨d, h1, h2⟩ | ⟨h1, a, ha, h2⟩
  · simp only [callDict, h1, Except.bind]
    have hno : ¬ ∃ a ∈ f.args, ∀ v, (a, v) ∉ f.locals := by
      rintro ⟨a, ha, hn⟩; obtain ⟨v, hv⟩ := h2 a ha; exact hn v hv
    cases hv : f.varargs with
    | none =>
      simp only [reduceCtorEq, false_iff, not_or, not_and]
      refine ⟨?_, ?_⟩
      · exact fun _ => ⟨hno, fun _ ⟨_, h, _⟩ => h⟩
      · rintro - - - ⟨a, v, h, _⟩
        rw [hv] at h; cases h
    | some a =>
      simp only
      cases hi : ignoreVarargs with
      | true =>
        simp only [if_true, reduceCtorEq, false_and, or_false, false_iff, not_or, not_and, false_iff]
        simp [hno]
      | false =>
        simp only [Bool.false_eq_true, if_false]
        cases hl : dget f.locals a with
        | none =>
          have hl' := (hnone a).1 hl
          constructor
          · intro h; cases h; exact .inl ⟨rfl, .inr ⟨trivial, a, rfl, hl'⟩⟩
          · rintro (⟨rfl, _⟩ | ⟨rfl, _, _, b, v, hb, hm, _⟩)
            · rfl
            · rw [hv] at hb; cases hb; rw [hl] at hm; cases hm
        | some v =>
          have hmem : ¬ ∀ u, (a, u) ∉ f.locals := fun h => h v (mem_of_dget hl)
          simp only
          cases ht : truthy v with
          | true =>
            simp only [if_true]
            constructor
            · intro h; cases h; exact .inr ⟨rfl, h2, trivial, a, v, hv, hl, (truthy_iff v).1 ht⟩
            · rintro (⟨rfl, h | ⟨_, b, hb, hn⟩⟩ | ⟨rfl, _⟩)
              · exact absurd h hno
              · cases hb; exact absurd hn hmem
              · rfl
          | false =>
            simp only [Bool.false_eq_true, if_false, reduceCtorEq, false_iff]
            rintro (⟨rfl, h | ⟨_, b, hb, hn⟩⟩ | ⟨rfl, _, _, b, u, hb, hu, hf⟩)
            · exact absurd h hno
            · cases hb; exact absurd hn hmem
            · rw [hv] at hb; cases hb; rw [hl] at hu; cases hu
              rw [(truthy_iff v).2 hf] at ht; cases ht
  · simp only [callDict, h1, Except.bind]
    constructor
    · intro h; cases h; exact .inl ⟨rfl, .inl ⟨a, ha, h2⟩⟩
    · rintro (⟨rfl, _⟩ | ⟨rfl, hh, _⟩)
      · rfl
      · obtain ⟨v, hv⟩ := hh a ha
        exact absurd hv (h2 v)

/-! ### maybe_import_member -/

/-- **C89** for `maybe_import_member`: ValueError exactly if the name has no module in it, provided that importing does not raise one. -/
theorem c89_member (imp : Str → R Unit) (member : Str → Str → Option Val) (own : Str → Val) (fqn : Str) (fail : Bool) (variants : List Str)
    (hp : ∀ m, imp m ≠ .error .valueError) :
    maybeImportMember imp member own fqn fail variants = .error .valueError ↔ '.' ∉ fqn ∨ ∃ n, fqn = '.' :: n ∧ '.' ∉ n := by
  cases hr : rpartition fqn '.' with
  | mk m n =>
  obtain ⟨hn, hd⟩ := rpartition_iff.1 hr
  have hl : (m = []) ↔ ('.' ∉ fqn ∨ ∃ n, fqn = '.' :: n ∧ '.' ∉ n) := by
    rcases hd with hd | ⟨h1, h2⟩
    · constructor
      · rintro rfl; exact .inr ⟨n, hd, hn⟩
      · rintro (h | ⟨n', h, hn'⟩)
        · exact absurd (by rw [hd]; simp) h
        · rw [hd] at h
          cases m with
          | nil => rfl
          | cons c m =>
            simp only [List.cons_append, List.cons.injEq] at h
            exact absurd (by rw [← h.2]; simp) hn'
    · constructor
      · rintro rfl; exact .inl (by simp_all)
      · intro; simp_all
  rw [← hl]
  simp only [maybeImportMember, hr]
  cases m with
  | nil => simp
  | cons c m =>
    simp only [List.isEmpty_cons, Bool.false_eq_true, if_false, reduceCtorEq, iff_false]
    split
    · simp
    · intro h
      split at h
      · cases h
      · split at h <;> cases h
      · next e' he =>
        cases h
        have : ∀ (vs : List Str) cur errs, tryVariants imp vs cur errs ≠ .error .valueError := by
          intro vs
          induction vs with
          | nil => intro cur errs h; cases h
          | cons x vs ih =>
            intro cur errs h
            simp only [tryVariants] at h
            split at h
            · exact ih _ _ h
            · exact ih _ _ h
            · next hx => cases h; exact hp _ hx
        simp only [maybeImport, List.isEmpty_nil, if_true] at he
        cases ht : tryVariants imp [c :: m] none [] with
        | error e'' =>
          rw [ht] at he
          simp only [Except.map, Except.bind, Except.error.injEq] at he
          subst he
          exact this _ _ _ ht
        | ok r =>
          rw [ht] at he
          simp only [Except.map, Except.bind] at he
          cases hr1 : r.1 with
          | none => simp only [hr1, lazyGet] at he; split at he <;> cases he
          | some x => simp only [hr1, lazyGet] at he; split at he <;> cases he

/-! ### whatable on objects -/

/-- **C89** for `whatable` on objects: AttributeError exactly if the object was to be flagged, has a `what` of another origin, and that takes no
attributes; else Exception. -/
theorem c89_object {W : ObjWorld} {S : Session} (o : Nat) (wf : Option Nat) (force : Bool) (e : Err) (h : (whatableObject W S o wf force).1 = .error e) :
    e = .attributeError ∧ (force = true ∧ (∃ x, ObjWhatIs W S o x) ∧ ¬ WhatableObj W S o) ∨
    e = .exception ∧ ¬ (force = true ∧ (∃ x, ObjWhatIs W S o x) ∧ ¬ WhatableObj W S o) := by
  rcases whatableObject_cases (W := W) (S := S) o wf force with ⟨h1, e'⟩ | ⟨_, _, f, _, e'⟩ | ⟨h1, h2, h3, e'⟩
  · rw [e'] at h
    have hn : ¬ Accepting W S o := fun ha => by rw [(hold_ok wf ha).1] at h; cases h
    rw [(hold_no wf hn).1] at h
    cases h
    refine .inr ⟨rfl, fun ⟨_, h2, h3⟩ => ?_⟩
    rcases h1 with h1 | h1
    · exact h1 h2
    · exact h3 h1
  · rw [e'] at h; cases h
  · rw [e'] at h
    cases force with
    | true => cases h; exact .inl ⟨rfl, rfl, h2, h1⟩
    | false => cases h; exact .inr ⟨rfl, by simp⟩

/-! ### whatid2columns -/

/-- **C89** for `whatid2columns`: TypeError for a cell that is no string, if all others are ids. -/
theorem c89_cells (E : Env) (srt : SortItems) (iter : List Val → List Val) (df : Df) (col : Str) (cols : Option (List Val)) (pre post : Str) (inplace : Bool)
    (cells : List Val) (hc : dget df col = some cells) (hs : ∀ s, .str s ∈ cells → ∃ w, parseWhatid E s = .ok w) (c : Val) (hm : c ∈ cells) (hn : ∀ s, c ≠ .str s) :
    whatid2columns E srt iter df col cols pre post inplace = (.error .typeError, df) := by
  have : mapR (parseCell E) cells = .error .typeError := by
    clear hc
    induction cells with
    | nil => cases hm
    | cons x xs ih =>
      by_cases hx : ∃ s, x = .str s
      · obtain ⟨s, rfl⟩ := hx
        obtain ⟨w, hw⟩ := hs s (by simp)
        rcases List.mem_cons.1 hm with rfl | hm
        · exact absurd rfl (hn s)
        · simp only [mapR, parseCell, hw, ih (fun s hs' => hs s (by simp [hs'])) hm]
      · have : parseCell E x = .error .typeError := by
          cases x <;> first | rfl | exact absurd ⟨_, rfl⟩ hx
        simp only [mapR, this]
  simp only [whatid2columns, hc, this]

/-! ### Examples -/

/-- A registry with one entry. -/
def exNick : Registry := ⟨[(c!"f()", c!"n")], [(c!"n", c!"f()")]⟩
example : register (fun _ => .ok c!"g()") exNick (some .none) (some c!"n") = (exNick, .error .exception) :=
  (c89_register _ _ _ _ _).2 (.nick (i := c!"g()") (j := c!"f()") rfl rfl (by decide))
example : register (fun _ => .ok c!"f()") exNick (some .none) (some c!"m") = (exNick, .error .exception) :=
  (c89_register _ _ _ _ _).2 (.id (i := c!"f()") (m := c!"n") rfl rfl (by decide))
example : register (fun _ => .ok c!"f()") exNick (some .none) (some c!"n") = (exNick, .ok (some .none)) := rfl
/-- Ids that are numbers, and a column with a value for each. -/
def exNumbers : AddCall := { extract := fun _ v => (match v with | .int n => .ok (.int n) | _ => .error .typeError), ids := .list [.int 1, .int 2], columns := [(c!"age", .list [.int 30])] }
example : callIds exNumbers.extract exNumbers.ids = .ok [.int 1, .int 2] ∧ (exRec.add noFi exNumbers).2 = .error .typeError := ⟨rfl, rfl⟩
example : ColumnRefused [.int 1, .int 2] (.list [.int 30]) .typeError :=
  .number (xs := [.int 30]) (pos := 0) (n := 1) rfl (by simp) rfl rfl (by decide)
example : (exRec.add noFi { exNumbers with columns := [(c!"age", .list [])] }).2.isOk = true := rfl
example : (({ exRec with registry := [(.str c!"a", [(c!"x", .list [])])] } : Recorder).unique noFi c!"x") = .error .typeError :=
  (c89_unique _ _ _ _).2 ⟨rfl, .str c!"a", [(c!"x", .list [])], .list [], by simp, rfl, rfl⟩
example : callDict { exFrame with locals := [(c!"self", .none)] } [] true [] [] = .error .keyError := rfl
example : maybeImportMember exImp (fun _ _ => some (.int 1)) (fun _ => .none) c!"toolz.curry" true [] = .ok (.int 1) ∧
    maybeImportMember exImp (fun _ _ => some (.int 1)) (fun _ => .none) c!"curry" true [] = .error .valueError ∧
    maybeImportMember exImp (fun _ _ => some (.int 1)) (fun _ => .none) c!".curry" true [] = .error .valueError := ⟨rfl, rfl, rfl⟩
example (m : Str) : exImp m ≠ .error .valueError := by unfold exImp; split <;> simp

end Whatami
