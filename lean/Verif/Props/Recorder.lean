import Verif.Recorder
import Verif.BasicLemmas
import Verif.Props.Registry

/-
C32-C36, C45: the recorder.
-/
namespace Whatami

variable (fi : Str → Option Int)

theorem dset_fresh {κ ν : Type} [DecidableEq κ] {d : List (κ × ν)} {k : κ} (h : k ∉ dkeys d) (v : ν) : dset d k v = d ++ [(k, v)] := by
  induction d with
  | nil => rfl
  | cons e r ih =>
    obtain ⟨a, b⟩ := e
    simp only [dkeys, List.map_cons, List.mem_cons, not_or] at h
    simp only [dset, Ne.symm h.1, if_false, List.cons_append]
    rw [ih h.2]

theorem dupdate_append {κ ν : Type} [DecidableEq κ] {d e : List (κ × ν)} (h : ∀ k ∈ dkeys e, k ∉ dkeys d) (hn : (dkeys e).Nodup) :
    dupdate d e = d ++ e := by
  induction e generalizing d with
  | nil => simp [dupdate]
  | cons x r ih =>
    obtain ⟨k, v⟩ := x
    simp only [dkeys, List.map_cons, List.nodup_cons] at hn
    have hk : k ∉ dkeys d := h k (by simp [dkeys])
    show dupdate (dset d k v) r = _
    rw [dset_fresh hk, ih]
    · simp
    · intro j hj hm
      simp only [dkeys, List.map_append, List.map_cons, List.map_nil, List.mem_append, List.mem_singleton] at hm
      rcases hm with hm | rfl
      · exact h j (by simp only [dkeys, List.map_cons, List.mem_cons]; exact .inr hj) hm
      · exact hn.1 hj
    · exact hn.2

/-! ### C32, C33 -/

/-- The loop only adds to the accumulator: one record per id, in order. -/
theorem addLoop_ok {view : RecView} {cd : List (Str × ColVals)} {posts : List Post} {ids : List Rid}
    {acc records : List (Rid × Record)} (h : addLoop fi view cd posts ids acc = .ok records) :
    ∃ new, records = acc ++ new ∧ new.map Prod.fst = ids ∧ ids.Nodup ∧
      (∀ i ∈ ids, i ∉ dkeys view.registry ∧ i ∉ dkeys acc) ∧
      (∀ i rec, (i, rec) ∈ new → view.idCol ∉ dkeys (rawRecord fi i cd) ∧
        runPosts i view posts (addDefaults (dset (rawRecord fi i cd) view.idCol i.toVal) view.defaults) = .ok rec) := by
  induction ids generalizing acc with
  | nil => cases h; exact ⟨[], by simp, rfl, List.nodup_nil, by simp, by simp⟩
  | cons i ids ih =>
    simp only [addLoop] at h
    split at h
    · cases h
    · next h1 =>
      split at h
      · cases h
      · next h2 =>
        split at h
        · cases h
        · next h3 =>
          cases hp : runPosts i view posts (addDefaults (dset (rawRecord fi i cd) view.idCol i.toVal) view.defaults) with
          | error e => rw [hp] at h; cases h
          | ok rec =>
            rw [hp] at h
            simp only [dhas_iff] at h1 h2 h3
            obtain ⟨new, rfl, hnew, hnd, hfresh, hrec⟩ := ih h
            have happ : dset acc i rec = acc ++ [(i, rec)] := dset_fresh h2 rec
            rw [happ] at hfresh ⊢
            have hi : i ∉ ids := fun hm => by
              have := (hfresh i hm).2
              simp [dkeys] at this
            refine ⟨(i, rec) :: new, by simp, by simp [hnew], List.nodup_cons.2 ⟨hi, hnd⟩, ?_, ?_⟩
            · intro j hj
              rcases List.mem_cons.1 hj with rfl | hj
              · exact ⟨h1, h2⟩
              · refine ⟨(hfresh j hj).1, fun hm => (hfresh j hj).2 ?_⟩
                simp only [dkeys, List.map_append, List.mem_append] at hm ⊢
                exact .inl hm
            · intro j rec' hj
              rcases List.mem_cons.1 hj with e | hj
              · cases e; exact ⟨h3, hp⟩
              · exact hrec j rec' hj

/-- What a successful `add` did. -/
theorem add_ok {r r' : Recorder} {a : AddCall} {records : List (Rid × Record)} (h : r.add fi a = (r', .ok records)) :
    ∃ ids cd, callIds a.extract a.ids = .ok ids ∧ configDict ids a.unbox a.columns = .ok cd ∧
      records.map Prod.fst = ids ∧ ids.Nodup ∧ (∀ i ∈ ids, i ∉ dkeys r.registry) ∧
      (∀ i rec, (i, rec) ∈ records → r.idCol ∉ dkeys (rawRecord fi i cd) ∧
        runPosts i r.toRecView (choosePosts r.posts a.posts a.override)
          (addDefaults (dset (rawRecord fi i cd) r.idCol i.toVal) r.defaults) = .ok rec) ∧
      r' = { r with registry := r.registry ++ records } := by
  simp only [Recorder.add] at h
  cases hi : callIds a.extract a.ids with
  | error e => rw [hi] at h; cases h
  | ok ids =>
    rw [hi] at h
    simp only at h
    cases hc : configDict ids a.unbox a.columns with
    | error e => rw [hc] at h; cases h
    | ok cd =>
      rw [hc] at h
      simp only at h
      cases hl : addLoop fi r.toRecView cd (choosePosts r.posts a.posts a.override) ids [] with
      | error e => rw [hl] at h; cases h
      | ok recs =>
        rw [hl] at h
        simp only [Prod.mk.injEq, Except.ok.injEq] at h
        obtain ⟨rfl, rfl⟩ := h
        obtain ⟨new, e, hnew, hnd, hfresh, hrec⟩ := addLoop_ok fi hl
        simp only [List.nil_append] at e
        subst e
        refine ⟨ids, cd, rfl, hc, hnew, hnd, fun i hm => (hfresh i hm).1, hrec, ?_⟩
        rw [dupdate_append]
        · intro k hk; simp only [dkeys, hnew] at hk; exact (hfresh k hk).1
        · simp only [dkeys, hnew]; exact hnd

/-- C32. If `add` raises, whatever the reason, the recorder is exactly what it was. -/
theorem c32_atomic (r r' : Recorder) (a : AddCall) (e : Err) (h : r.add fi a = (r', .error e)) : r' = r := by
  simp only [Recorder.add] at h
  split at h
  · cases h; rfl
  · split at h
    · cases h; rfl
    · split at h
      · cases h; rfl
      · cases h

/-- C33. A successful `add` appends one record per id, in order, and returns exactly these; the ids are distinct
and new; settings and existing records stay. -/
theorem c33_add (r r' : Recorder) (a : AddCall) (records : List (Rid × Record)) (h : r.add fi a = (r', .ok records)) :
    r'.registry = r.registry ++ records ∧ callIds a.extract a.ids = .ok (records.map Prod.fst) ∧
    (records.map Prod.fst).Nodup ∧ (∀ i rec, (i, rec) ∈ records → ∀ rec', (i, rec') ∉ r.registry) ∧
    r'.len = r.len + records.length ∧ r'.idCol = r.idCol ∧ r'.defaults = r.defaults ∧ r'.posts = r.posts := by
  obtain ⟨ids, cd, hi, _, hk, hn, hf, _, rfl⟩ := add_ok fi h
  refine ⟨rfl, hk ▸ hi, hk ▸ hn, fun i rec hm rec' hm' => ?_, by simp [Recorder.len], rfl, rfl, rfl⟩
  exact hf i (hk ▸ List.mem_map_of_mem (f := Prod.fst) hm) (List.mem_map_of_mem (f := Prod.fst) hm')

/-- C33. Over any history of calls, failing ones included: records are never changed, removed or reordered, and
ids are unique. -/
theorem c33_history (r : Recorder) (ops : List RecOp) :
    r.registry <+: (recRun fi r ops).registry ∧
    ((r.registry.map Prod.fst).Nodup → ((recRun fi r ops).registry.map Prod.fst).Nodup) := by
  induction ops generalizing r with
  | nil => exact ⟨List.prefix_rfl, id⟩
  | cons op ops ih =>
    obtain ⟨h1, h2⟩ := ih (recStep fi r op)
    have hstep : r.registry <+: (recStep fi r op).registry ∧
        ((r.registry.map Prod.fst).Nodup → ((recStep fi r op).registry.map Prod.fst).Nodup) := by
      cases op with
      | add a =>
        simp only [recStep]
        cases h : r.add fi a with
        | mk r' x =>
          cases x with
          | error e => rw [c32_atomic fi r r' a e h]; exact ⟨List.prefix_rfl, id⟩
          | ok records =>
            obtain ⟨ids, cd, _, _, hk, hn, hf, _, rfl⟩ := add_ok fi h
            refine ⟨List.prefix_append _ _, fun hnd => ?_⟩
            simp only [List.map_append]
            refine List.nodup_append.2 ⟨hnd, hk ▸ hn, fun x hx y hy e => ?_⟩
            subst e
            exact hf x (hk ▸ hy) hx
      | addDefaults cs => exact ⟨List.prefix_rfl, id⟩
      | removeDefaults cs => exact ⟨List.prefix_rfl, id⟩
      | addPosts ps => exact ⟨List.prefix_rfl, id⟩
      | overridePosts ps => exact ⟨List.prefix_rfl, id⟩
    exact ⟨hstep.1.trans h1, fun hnd => h2 (hstep.2 hnd)⟩

/-! ### C34, C35 -/

/-- Which value a column gets in the `pos`-th record of a call, id `i`, when the call passes `v` for the column;
`none`: nothing. -/
inductive Gets (unbox : Bool) (pos : Nat) (i : Rid) : Val → Option Val → Prop
  /-- a string goes to every record -/
  | str (s : Str) : Gets unbox pos i (.str s) (some (.str s))
  /-- so does anything that is not iterable -/
  | scalar {v : Val} : iterV v = none → Gets unbox pos i v (some v)
  /-- and everything but dicts without unboxing -/
  | boxed {v : Val} : unbox = false → dictItems v = none → Gets unbox pos i v (some v)
  /-- an iterable is dealt by position, None when too short -/
  | dealt {v : Val} {xs : List Val} : unbox = true → dictItems v = none → (∀ s, v ≠ .str s) → iterV v = some (.ok xs) →
      Gets unbox pos i v (some ((xs[pos]?).getD .none))
  /-- a dict gives each record its own entry, if any -/
  | entry {v : Val} {kvs : List (Val × Val)} : dictItems v = some kvs → Gets unbox pos i v (vget fi kvs i.toVal)

theorem kwArgs_ok {l l' : List (Rid × Val)} (h : kwArgs l = .ok l') : l' = l := by
  induction l generalizing l' with
  | nil => cases h; rfl
  | cons e r ih =>
    obtain ⟨i, v⟩ := e
    cases i with
    | int i => simp [kwArgs] at h
    | str s =>
      simp only [kwArgs] at h
      split at h
      · cases h
      · cases hr : kwArgs r with
        | error e => rw [hr] at h; cases h
        | ok l2 => rw [hr] at h; cases h; rw [ih hr]

theorem zip_keys_sublist {α β : Type} (ids : List α) (xs : List β) : ((ids.zip xs).map Prod.fst).Sublist ids := by
  induction ids generalizing xs with
  | nil => simp
  | cons i ids ih =>
    cases xs with
    | nil => simp
    | cons x xs => simpa using ih xs

theorem dget_zip {ids : List Rid} (hn : ids.Nodup) (xs : List Val) (pos : Nat) (i : Rid) (hi : ids[pos]? = some i) :
    dget (ids.zip xs) i = xs[pos]? := by
  induction ids generalizing xs pos with
  | nil => simp at hi
  | cons j ids ih =>
    rw [List.nodup_cons] at hn
    cases xs with
    | nil => simp [dget]
    | cons x xs =>
      cases pos with
      | zero =>
        simp only [List.getElem?_cons_zero, Option.some.injEq] at hi
        subst hi; simp [dget]
      | succ pos =>
        simp only [List.getElem?_cons_succ] at hi
        have : j ≠ i := by
          rintro rfl
          exact hn.1 (List.mem_of_getElem? hi)
        simp only [List.zip_cons_cons, dget, this, if_false, List.getElem?_cons_succ]
        exact ih hn.2 xs pos hi

theorem params2dict_iter {ids : List Rid} {v : Val} {xs : List Val} (hd : dictItems v = none) (hs : ∀ s, v ≠ .str s)
    (hit : iterV v = some (.ok xs)) :
    params2dict ids v true = (kwArgs (dictOf (ids.zip xs))).map fun kvs => .deflt kvs .none := by
  cases v <;> first
    | exact absurd rfl (hs _)
    | (simp only [params2dict, hd, hit])

/-- `_params2dict` does what `Gets` says. -/
theorem params2dict_gets {ids : List Rid} (hn : ids.Nodup) {v : Val} {unbox : Bool} {x : ColVals}
    (h : params2dict ids v unbox = .ok x) (pos : Nat) (i : Rid) (hi : ids[pos]? = some i) (o : Option Val)
    (hg : Gets fi unbox pos i v o) : x.get fi i = o := by
  have hmem : i ∈ ids := List.mem_of_getElem? hi
  have hne : ids ≠ [] := by rintro rfl; cases hmem
  cases hg with
  | str s =>
    simp only [params2dict, dictItems] at h
    cases h; simp [ColVals.get, hmem]
  | scalar hs =>
    have hd : dictItems v = none := by
      cases v <;> first | rfl | (simp [iterV] at hs)
    cases v <;> first
      | (simp [iterV] at hs; done)
      | (simp only [params2dict, dictItems, iterV] at h; cases h; simp [ColVals.get, dget])
  | boxed hu hd =>
    subst hu
    simp only [params2dict, hd] at h
    split at h
    · cases h; simp [ColVals.get, hmem]
    · split at h
      · next heq => cases heq
      · next heq => cases heq
      · cases h; simp [ColVals.get, dget]
  | dealt hu hd hns hit =>
    subst hu
    rw [params2dict_iter hd hns hit] at h
    rename_i xs
    cases hk : kwArgs (dictOf (ids.zip xs)) with
    | error e => rw [hk] at h; cases h
    | ok l =>
      rw [hk] at h; cases h
      rw [kwArgs_ok hk]
      have hz : dictOf (ids.zip xs) = ids.zip xs := by
        have := dupdate_append (d := []) (e := ids.zip xs) (by simp [dkeys]) ((zip_keys_sublist ids xs).nodup hn)
        simpa [dictOf] using this
      rw [hz]
      simp only [ColVals.get, dget_zip hn xs pos i hi]
  | entry hd =>
    simp only [params2dict, hd] at h
    cases h; rfl

theorem configDict_ok {ids : List Rid} {unbox : Bool} {cols : Conf} {cd : List (Str × ColVals)}
    (h : configDict ids unbox cols = .ok cd) :
    cd.map Prod.fst = cols.map Prod.fst ∧ ∀ c v, (c, v) ∈ cols → ∃ x, (c, x) ∈ cd ∧ params2dict ids v unbox = .ok x := by
  induction cols generalizing cd with
  | nil => cases h; simp
  | cons e r ih =>
    obtain ⟨c, v⟩ := e
    simp only [configDict] at h
    cases hp : params2dict ids v unbox with
    | error e => rw [hp] at h; cases h
    | ok x =>
      rw [hp] at h
      simp only at h
      cases hr : configDict ids unbox r with
      | error e => rw [hr] at h; cases h
      | ok l =>
        rw [hr] at h; cases h
        obtain ⟨h1, h2⟩ := ih hr
        refine ⟨by simp [h1], fun c' v' hm => ?_⟩
        rcases List.mem_cons.1 hm with e | hm
        · cases e; exact ⟨x, by simp, hp⟩
        · obtain ⟨x', hx, hp'⟩ := h2 c' v' hm
          exact ⟨x', by simp [hx], hp'⟩

theorem dget_rawRecord {cd : List (Str × ColVals)} (hn : (cd.map Prod.fst).Nodup) (i : Rid) (c : Str) :
    dget (rawRecord fi i cd) c = (dget cd c).bind fun x => x.get fi i := by
  induction cd with
  | nil => rfl
  | cons e r ih =>
    obtain ⟨c', x⟩ := e
    simp only [List.map_cons, List.nodup_cons] at hn
    simp only [rawRecord]
    by_cases hc : c' = c
    · subst hc
      have hnone : dget r c' = none := dget_none_iff.2 hn.1
      cases hx : x.get fi i with
      | none => simp [dget, hx, ih hn.2, hnone]
      | some v => simp [dget, hx]
    · cases hx : x.get fi i with
      | none => simp [dget, hc, ih hn.2]
      | some v => simp [dget, hc, ih hn.2]

theorem dget_addDefaults (record : Record) (ds : Conf) (c : Str) :
    dget (addDefaults record ds) c = (dget record c).or (dget ds c) := by
  induction ds generalizing record with
  | nil => simp [addDefaults, dget]
  | cons e r ih =>
    obtain ⟨k, d⟩ := e
    simp only [addDefaults, ih]
    by_cases hr : dhas record k = true
    · simp only [hr, if_true, dget]
      by_cases hk : k = c
      · subst hk
        simp only [dhas, Option.isSome_iff_exists] at hr
        obtain ⟨v, hv⟩ := hr
        simp [hv]
      · simp [hk]
    · simp only [hr]
      have hnone : dget record k = none := by
        cases h : dget record k with
        | none => rfl
        | some v => simp [dhas, h] at hr
      simp only [Bool.false_eq_true, if_false, dget_dset, dget]
      by_cases hk : k = c
      · subst hk; simp [hnone]
      · simp [hk]

/-- C34, C35. Without postprocessors, the record of the `pos`-th id holds: the id under the id column; for each
column of the call, what the column's value gives that record (`Gets`), or else the default, if any; the default for
every other column; and nothing else. -/
theorem c34_contents (r r' : Recorder) (a : AddCall) (records : List (Rid × Record)) (unique : (a.columns.map Prod.fst).Nodup)
    (h : r.add fi a = (r', .ok records)) (noposts : choosePosts r.posts a.posts a.override = [])
    (pos : Nat) (i : Rid) (rec : Record) (hp : records[pos]? = some (i, rec)) :
    dget rec r.idCol = some i.toVal ∧
    (∀ c v o, c ≠ r.idCol → (c, v) ∈ a.columns → Gets fi a.unbox pos i v o → dget rec c = o.or (dget r.defaults c)) ∧
    (∀ c, c ≠ r.idCol → (∀ v, (c, v) ∉ a.columns) → dget rec c = dget r.defaults c) := by
  obtain ⟨ids, cd, hids, hcd, hk, hn, _, hrec, _⟩ := add_ok fi h
  obtain ⟨hraw, hposts⟩ := hrec i rec (List.mem_of_getElem? hp)
  have hi : ids[pos]? = some i := by rw [← hk]; simp [hp]
  rw [noposts] at hposts
  simp only [runPosts, Except.ok.injEq] at hposts
  subst hposts
  obtain ⟨hck, hcv⟩ := configDict_ok hcd
  have hcn : (cd.map Prod.fst).Nodup := hck ▸ unique
  refine ⟨by rw [dget_addDefaults, dget_dset]; simp, fun c v o hc hm hg => ?_, fun c hc hm => ?_⟩
  · rw [dget_addDefaults, dget_dset, if_neg (Ne.symm hc), dget_rawRecord fi hcn]
    obtain ⟨x, hx, hpx⟩ := hcv c v hm
    rw [dget_eq_some_of_mem hcn hx]
    simp only [Option.bind_some]
    rw [params2dict_gets fi hn hpx pos i hi o hg]
  · rw [dget_addDefaults, dget_dset, if_neg (Ne.symm hc), dget_rawRecord fi hcn]
    have : dget cd c = none := by
      refine dget_none_iff.2 fun hmem => ?_
      simp only [dkeys, hck, List.mem_map] at hmem
      obtain ⟨⟨c', v⟩, hm', rfl⟩ := hmem
      exact hm v hm'
    simp [this]

/-- C35. Every column value is of one of the kinds of `Gets`, except Whats, which cannot be dealt. -/
theorem c35_gets_total (unbox : Bool) (pos : Nat) (i : Rid) (v : Val) (hv : unbox = true → ∀ e, iterV v ≠ some (.error e)) :
    ∃ o, Gets fi unbox pos i v o := by
  cases hd : dictItems v with
  | some kvs => exact ⟨_, .entry hd⟩
  | none =>
    by_cases hs : ∃ s, v = .str s
    · obtain ⟨s, rfl⟩ := hs; exact ⟨_, .str s⟩
    · cases hu : unbox with
      | false => exact ⟨_, .boxed rfl hd⟩
      | true =>
        cases hit : iterV v with
        | none => exact ⟨_, .scalar hit⟩
        | some x =>
          cases x with
          | ok xs => exact ⟨_, .dealt rfl hd (fun s e => hs ⟨s, e⟩) hit⟩
          | error e => exact absurd hit (hv hu e)

/-- The ids that can be dealt values. -/
def OkName : Rid → Prop
  | .str s => s ≠ c!"default" ∧ s ≠ c!"self"
  | .int _ => False

theorem kwArgs_total {l : List (Rid × Val)} (h : ∀ i v, (i, v) ∈ l → OkName i) : kwArgs l = .ok l := by
  induction l with
  | nil => rfl
  | cons e r ih =>
    obtain ⟨i, v⟩ := e
    have h1 := h i v (by simp)
    have h2 := ih fun i v hm => h i v (by simp [hm])
    cases i with
    | int i => exact absurd h1 id
    | str s =>
      simp only [OkName] at h1
      simp [kwArgs, h1, h2, Except.map]

/-- C34, C35. `add` succeeds on new distinct string ids other than 'default' and 'self', for all columns but the
id column and all values but Whats to be dealt. -/
theorem c35_succeeds (r : Recorder) (a : AddCall) (ids : List Rid) (hids : callIds a.extract a.ids = .ok ids)
    (hn : ids.Nodup) (hok : ∀ i ∈ ids, OkName i) (hnew : ∀ i ∈ ids, ∀ rec, (i, rec) ∉ r.registry)
    (hid : ∀ v, (r.idCol, v) ∉ a.columns) (hv : a.unbox = true → ∀ c v, (c, v) ∈ a.columns → ∀ e, iterV v ≠ some (.error e))
    (noposts : choosePosts r.posts a.posts a.override = []) : ∃ r' records, r.add fi a = (r', .ok records) := by
  have hpd : ∀ v, (a.unbox = true → ∀ e, iterV v ≠ some (.error e)) → ∃ x, params2dict ids v a.unbox = .ok x := by
    intro v hv
    unfold params2dict
    split
    · exact ⟨_, rfl⟩
    · split
      · exact ⟨_, rfl⟩
      · split
        · next e hit hu => exact absurd hit (hv hu e)
        · next xs hit hu =>
          have : kwArgs (dictOf (ids.zip xs)) = .ok (dictOf (ids.zip xs)) := kwArgs_total fun i v hm => hok i (by
            have := mem_dictOf hm
            exact (List.of_mem_zip this).1)
          exact ⟨.deflt (dictOf (ids.zip xs)) .none, by simp [this, Except.map]⟩
        · exact ⟨_, rfl⟩
  have hcd : ∀ cols : Conf, (a.unbox = true → ∀ c v, (c, v) ∈ cols → ∀ e, iterV v ≠ some (.error e)) →
      ∃ cd, configDict ids a.unbox cols = .ok cd := by
    intro cols hv
    induction cols with
    | nil => exact ⟨_, rfl⟩
    | cons e rest ih =>
      obtain ⟨c, v⟩ := e
      obtain ⟨x, hx⟩ := hpd v (fun hu => hv hu c v (by simp))
      obtain ⟨cd, hc⟩ := ih (fun hu c v hm => hv hu c v (by simp [hm]))
      exact ⟨(c, x) :: cd, by simp [configDict, hx, hc, Except.map]⟩
  obtain ⟨cd, hc⟩ := hcd a.columns hv
  have hck := (configDict_ok hc).1
  have hloop : ∀ (ids' : List Rid) (acc : List (Rid × Record)), ids'.Nodup → (∀ i ∈ ids', ∀ rec, (i, rec) ∉ r.registry) →
      (∀ i ∈ ids', i ∉ dkeys acc) → ∃ records, addLoop fi r.toRecView cd [] ids' acc = .ok records := by
    intro ids'
    induction ids' with
    | nil => intro acc _ _ _; exact ⟨_, rfl⟩
    | cons i ids' ih =>
      intro acc hnd hreg hacc
      rw [List.nodup_cons] at hnd
      have h1 : dhas r.registry i = false := by
        cases hb : dhas r.registry i with
        | false => rfl
        | true =>
          rw [dhas_iff] at hb
          simp only [dkeys, List.mem_map] at hb
          obtain ⟨⟨i', rec⟩, hm, rfl⟩ := hb
          exact absurd hm (hreg i' (by simp) rec)
      have h2 : dhas acc i = false := by
        cases hb : dhas acc i with
        | false => rfl
        | true => exact absurd (dhas_iff.1 hb) (hacc i (by simp))
      have h3 : dhas (rawRecord fi i cd) r.idCol = false := by
        cases hb : dhas (rawRecord fi i cd) r.idCol with
        | false => rfl
        | true =>
          have hm := dhas_iff.1 hb
          have hsub : ∀ (cd : List (Str × ColVals)), ∀ k ∈ dkeys (rawRecord fi i cd), k ∈ cd.map Prod.fst := by
            intro cd
            induction cd with
            | nil => intro k hk; exact hk
            | cons e rest ih2 =>
              obtain ⟨c, x⟩ := e
              intro k hk
              simp only [rawRecord] at hk
              cases hx : x.get fi i with
              | none => rw [hx] at hk; simp only [List.map_cons, List.mem_cons]; exact .inr (ih2 k hk)
              | some v =>
                rw [hx] at hk
                simp only [dkeys, List.map_cons, List.mem_cons] at hk ⊢
                rcases hk with hk | hk
                · exact .inl hk
                · exact .inr (ih2 k hk)
          have := hsub cd _ hm
          rw [hck] at this
          simp only [List.mem_map] at this
          obtain ⟨⟨c, v⟩, hmc, e⟩ := this
          simp only at e
          exact absurd (e ▸ hmc) (hid v)
      simp only [addLoop, h1, h2, h3, Bool.false_eq_true, if_false, runPosts]
      refine ih _ hnd.2 (fun j hj => hreg j (by simp [hj])) fun j hj hm => ?_
      rcases mem_dkeys_dset.1 hm with hm | hm
      · subst hm; exact hnd.1 hj
      · exact hacc j (by simp [hj]) hm
  obtain ⟨records, hl⟩ := hloop ids [] hn hnew (by simp [dkeys])
  exact ⟨{ r with registry := dupdate r.registry records }, records, by simp only [Recorder.add, hids, hc, noposts, hl]⟩

/-- C35, the exception: an iterable cannot be dealt to an id 'default' or 'self' (or to ids that are not strings):
TypeError, because ids become keyword arguments. -/
theorem c35_reserved (ids : List Rid) (hn : ids.Nodup) (v : Val) (xs : List Val) (hd : dictItems v = none) (hs : ∀ s, v ≠ .str s)
    (hit : iterV v = some (.ok xs)) (i : Rid) (pos : Nat) (hp : ids[pos]? = some i) (hlen : pos < xs.length) (hbad : ¬ OkName i) :
    params2dict ids v true = .error .typeError := by
  have hz : dictOf (ids.zip xs) = ids.zip xs := by
    have := dupdate_append (d := []) (e := ids.zip xs) (by simp [dkeys]) ((zip_keys_sublist ids xs).nodup hn)
    simpa [dictOf] using this
  have hk : ∀ l : List (Rid × Val), (∃ x, (i, x) ∈ l) → kwArgs l = .error .typeError := by
    intro l
    induction l with
    | nil => rintro ⟨x, hx⟩; cases hx
    | cons e r ih =>
      obtain ⟨j, y⟩ := e
      rintro ⟨x, hx⟩
      cases j with
      | int j => rfl
      | str s =>
        simp only [kwArgs]
        split
        · rfl
        · next hok =>
          rcases List.mem_cons.1 hx with e | hx
          · cases e
            simp only [not_or] at hok
            exact absurd hok hbad
          · rw [ih ⟨x, hx⟩]; rfl
  have hmem : (i, xs[pos]) ∈ ids.zip xs := by
    have hlt := (List.getElem?_eq_some_iff.1 hp).1
    have : (ids.zip xs)[pos]? = some (i, xs[pos]) := by
      rw [List.getElem?_zip_eq_some]
      exact ⟨hp, List.getElem?_eq_getElem hlen⟩
    exact List.mem_of_getElem? this
  rw [params2dict_iter hd hs hit, hz, hk _ ⟨_, hmem⟩]; rfl

/-- C35. A call without ids records nothing and raises nothing, whatever the columns. -/
theorem c35_nothing (r : Recorder) (a : AddCall) (hids : callIds a.extract a.ids = .ok []) : r.add fi a = (r, .ok []) := by
  have hp : ∀ v, ∃ x, params2dict [] v a.unbox = .ok x := by
    intro v
    unfold params2dict
    split
    · exact ⟨_, rfl⟩
    · split
      · exact ⟨_, rfl⟩
      · split
        · exact ⟨_, rfl⟩
        · exact ⟨_, rfl⟩
        · exact ⟨_, rfl⟩
  have hc : ∀ cols : Conf, ∃ cd, configDict [] a.unbox cols = .ok cd := by
    intro cols
    induction cols with
    | nil => exact ⟨_, rfl⟩
    | cons e rest ih =>
      obtain ⟨c, v⟩ := e
      obtain ⟨x, hx⟩ := hp v
      obtain ⟨cd, hcd⟩ := ih
      exact ⟨(c, x) :: cd, by simp [configDict, hx, hcd, Except.map]⟩
  obtain ⟨cd, hcd⟩ := hc a.columns
  simp only [Recorder.add, hids, hcd, addLoop]
  rfl

/-- C35, the other exception: a What cannot be dealt (it looks iterable, but `what[0]` raises KeyError): the call
raises and records nothing. -/
theorem c35_what (r : Recorder) (a : AddCall) (i : Rid) (ids : List Rid) (hids : callIds a.extract a.ids = .ok (i :: ids))
    (hok : ∀ j ∈ i :: ids, OkName j) (hu : a.unbox = true) (c n : Str) (conf : List (Str × Val)) (nonids : List Str) (out : Option Str)
    (hc : (c, Val.what n conf nonids out) ∈ a.columns) : r.add fi a = (r, .error .keyError) := by
  have hp : ∀ v, (∃ x, params2dict (i :: ids) v true = .ok x) ∨ params2dict (i :: ids) v true = .error .keyError := by
    intro v
    unfold params2dict
    split
    · exact .inl ⟨_, rfl⟩
    · split
      · exact .inl ⟨_, rfl⟩
      · split
        · next v _ e hit _ =>
          refine .inr ?_
          have : e = .keyError := by
            unfold iterV at hit
            split at hit <;> cases hit
            rfl
          simp [this]
        · next xs hit _ =>
          have : kwArgs (dictOf ((i :: ids).zip xs)) = .ok (dictOf ((i :: ids).zip xs)) := kwArgs_total fun j v hm => hok j (by
            have := mem_dictOf hm
            exact (List.of_mem_zip this).1)
          exact .inl ⟨.deflt (dictOf ((i :: ids).zip xs)) .none, by simp [this, Except.map]⟩
        · exact .inl ⟨_, rfl⟩
  have hcd : ∀ cols : Conf, (c, Val.what n conf nonids out) ∈ cols → configDict (i :: ids) true cols = .error .keyError := by
    intro cols hm
    induction cols with
    | nil => cases hm
    | cons e rest ih =>
      obtain ⟨c', v⟩ := e
      rcases List.mem_cons.1 hm with e | hm
      · cases e
        simp [configDict, params2dict, dictItems, iterV]
      · rcases hp v with ⟨x, hx⟩ | hx
        · simp [configDict, hx, ih hm, Except.map]
        · simp [configDict, hx]
  simp only [Recorder.add, hids, hu, hcd a.columns hc]

/-! ### C36 -/

/-- C36. `get(ids...)` returns the records of the ids present, in argument order. -/
theorem c36_get (r : Recorder) (ids : List Rid) : r.get ids = ids.filterMap fun i => dget r.registry i := by
  induction ids with
  | nil => rfl
  | cons i ids ih =>
    simp only [Recorder.get, ih, List.filterMap_cons]
    cases dget r.registry i <;> rfl

/-- C36. A present id has exactly one record, and `get` returns that one. -/
theorem c36_get_one (r : Recorder) (unique : (r.registry.map Prod.fst).Nodup) (i : Rid) :
    (∀ rec, (i, rec) ∈ r.registry → r.get [i] = [rec]) ∧ ((∀ rec, (i, rec) ∉ r.registry) → r.get [i] = []) := by
  refine ⟨fun rec h => ?_, fun h => ?_⟩
  · simp [Recorder.get, dget_eq_some_of_mem (d := r.registry) unique h]
  · have : dget r.registry i = none := dget_none_iff.2 (by
      simp only [dkeys, List.mem_map, not_exists, not_and]
      rintro ⟨j, rec⟩ hm rfl
      exact h rec hm)
    simp [Recorder.get, this]

theorem uniqueGo_spec {column : Str} {recs : List (Rid × Record)} {acc l : List Val} (h : uniqueGo fi column recs acc = .ok l)
    (hacc : acc.Pairwise fun a b => pyEq fi true a b = false) :
    l.Pairwise (fun a b => pyEq fi true a b = false) ∧ (∀ v ∈ acc, v ∈ l) ∧
    (∀ v ∈ l, v ∈ acc ∨ ∃ i rec, (i, rec) ∈ recs ∧ dget rec column = some v) ∧
    (∀ i rec v, (i, rec) ∈ recs → dget rec column = some v → v ∈ l ∨ ∃ u ∈ l, pyEq fi true u v = true) := by
  induction recs generalizing acc with
  | nil => cases h; exact ⟨hacc, fun v h => h, fun v h => .inl h, by simp⟩
  | cons e recs ih =>
    obtain ⟨i, rec⟩ := e
    simp only [uniqueGo] at h
    cases hd : dget rec column with
    | none =>
      rw [hd] at h
      obtain ⟨h1, h2, h3, h4⟩ := ih h hacc
      refine ⟨h1, h2, fun v hv => ?_, fun j rec' v hm hv => ?_⟩
      · rcases h3 v hv with h | ⟨j, rec', hm, hv⟩
        · exact .inl h
        · exact .inr ⟨j, rec', by simp [hm], hv⟩
      · rcases List.mem_cons.1 hm with e | hm
        · cases e; rw [hd] at hv; cases hv
        · exact h4 j rec' v hm hv
    | some v =>
      rw [hd] at h
      simp only at h
      split at h
      · have hacc' : (setAdd fi acc v).Pairwise fun a b => pyEq fi true a b = false := by
          simp only [setAdd]
          split
          · exact hacc
          · next hany =>
            rw [List.pairwise_append]
            refine ⟨hacc, List.pairwise_singleton _ _, fun a ha b hb => ?_⟩
            simp only [List.mem_singleton] at hb
            subst hb
            simp only [List.any_eq_true, not_exists, not_and, Bool.not_eq_true] at hany
            exact hany a ha
        obtain ⟨h1, h2, h3, h4⟩ := ih h hacc'
        have hsub : ∀ u ∈ acc, u ∈ setAdd fi acc v := by
          intro u hu; simp only [setAdd]; split <;> simp [hu]
        refine ⟨h1, fun u hu => h2 u (hsub u hu), fun u hu => ?_, fun j rec' u hm hu => ?_⟩
        · rcases h3 u hu with h | ⟨j, rec', hm, hv⟩
          · simp only [setAdd] at h
            split at h
            · exact .inl h
            · simp only [List.mem_append, List.mem_singleton] at h
              rcases h with h | rfl
              · exact .inl h
              · exact .inr ⟨i, rec, by simp, hd⟩
          · exact .inr ⟨j, rec', by simp [hm], hv⟩
        · rcases List.mem_cons.1 hm with e | hm
          · cases e
            rw [hd] at hu; cases hu
            by_cases hany : acc.any (fun x => pyEq fi true x v) = true
            · rw [List.any_eq_true] at hany
              obtain ⟨x, hx, hxv⟩ := hany
              exact .inr ⟨x, h2 x (hsub x hx), hxv⟩
            · exact .inl (h2 v (by simp [setAdd, hany]))
          · exact h4 j rec' u hm hu
      · cases h

/-- C36. `unique(col)`: pairwise different values, all taken from records that have the column, and every such value
is there (or one equal to it). -/
theorem c36_unique (r : Recorder) (column : Str) (l : List Val) (h : r.unique fi column = .ok l) :
    l.Pairwise (fun a b => pyEq fi true a b = false) ∧
    (∀ v ∈ l, ∃ i rec, (i, rec) ∈ r.registry ∧ dget rec column = some v) ∧
    (∀ i rec v, (i, rec) ∈ r.registry → dget rec column = some v → v ∈ l ∨ ∃ u ∈ l, pyEq fi true u v = true) := by
  obtain ⟨h1, _, h3, h4⟩ := uniqueGo_spec fi h List.Pairwise.nil
  refine ⟨h1, fun v hv => ?_, h4⟩
  rcases h3 v hv with h | h
  · cases h
  · exact h

/-- C36. `unique` raises only for a column with an unhashable value. -/
theorem c36_unique_total (r : Recorder) (column : Str)
    (hh : ∀ i rec v, (i, rec) ∈ r.registry → dget rec column = some v → hashable v = true) : ∃ l, r.unique fi column = .ok l := by
  have : ∀ (recs : List (Rid × Record)) acc, (∀ i rec v, (i, rec) ∈ recs → dget rec column = some v → hashable v = true) →
      ∃ l, uniqueGo fi column recs acc = .ok l := by
    intro recs
    induction recs with
    | nil => exact fun acc _ => ⟨_, rfl⟩
    | cons e recs ih =>
      obtain ⟨i, rec⟩ := e
      intro acc hh
      simp only [uniqueGo]
      have ih' := fun acc => ih acc fun i rec v hm => hh i rec v (by simp [hm])
      cases hd : dget rec column with
      | none => exact ih' _
      | some v => simp only [hh i rec v (by simp) hd, if_true]; exact ih' _
  exact this _ _ hh

/-! ### C45 -/

/-- The record after the postprocessors `fs`, each given the previous one's result. -/
inductive Chain (i : Rid) (view : RecView) : List Post → Record → Record → Prop
  | nil (rec : Record) : Chain i view [] rec rec
  | cons {f : Post} {fs : List Post} {rec rec1 rec2 : Record} :
      f i rec view = .ok rec1 → Chain i view fs rec1 rec2 → Chain i view (f :: fs) rec rec2

theorem runPosts_chain {i : Rid} {view : RecView} {fs : List Post} {rec rec' : Record} :
    runPosts i view fs rec = .ok rec' ↔ Chain i view fs rec rec' := by
  induction fs generalizing rec with
  | nil =>
    simp only [runPosts, Except.ok.injEq]
    exact ⟨fun h => h ▸ .nil _, fun h => by cases h; rfl⟩
  | cons f fs ih =>
    simp only [runPosts]
    constructor
    · intro h
      cases hf : f i rec view with
      | error e => rw [hf] at h; cases h
      | ok rec1 => rw [hf] at h; exact .cons hf (ih.1 h)
    · intro h
      cases h with
      | cons hf hc => rw [hf]; exact ih.2 hc

/-- C45. Each added record is what the chain of postprocessors makes of the record the call describes: the recorder's
postprocessors, then those of the call, or only the latter when overriding.  All of them see the recorder as it was
before the call, whatever records the same call adds. -/
theorem c45_posts (r r' : Recorder) (a : AddCall) (records : List (Rid × Record)) (h : r.add fi a = (r', .ok records))
    (fs : List Post) (hfs : (a.posts = none ∧ fs = r.posts) ∨
      (∃ ps, a.posts = some ps ∧ a.override = false ∧ fs = r.posts ++ ps) ∨ (a.posts = some fs ∧ a.override = true)) :
    ∃ r0 plain, { r with posts := [] }.add fi { a with posts := none } = (r0, .ok plain) ∧
      plain.map Prod.fst = records.map Prod.fst ∧
      ∀ (pos : Nat) i rec, records[pos]? = some (i, rec) → ∃ rec0, plain[pos]? = some (i, rec0) ∧ Chain i r.toRecView fs rec0 rec := by
  have hch : choosePosts r.posts a.posts a.override = fs := by
    rcases hfs with ⟨h1, h2⟩ | ⟨ps, h1, h2, h3⟩ | ⟨h1, h2⟩
    · simp [choosePosts, h1, h2]
    · simp [choosePosts, h1, h2, h3]
    · simp [choosePosts, h1, h2]
  obtain ⟨ids, cd, hids, hcd, hk, hn, hf, hrec, _⟩ := add_ok fi h
  rw [hch] at hrec
  have hloop : ∀ (recs : List (Rid × Record)) (acc : List (Rid × Record)), (recs.map Prod.fst).Nodup →
      (∀ i ∈ recs.map Prod.fst, i ∉ dkeys r.registry ∧ i ∉ dkeys acc) →
      (∀ i rec, (i, rec) ∈ recs → r.idCol ∉ dkeys (rawRecord fi i cd)) →
      addLoop fi r.toRecView cd [] (recs.map Prod.fst) acc = .ok (acc ++ recs.map fun p =>
        (p.1, addDefaults (dset (rawRecord fi p.1 cd) r.idCol p.1.toVal) r.defaults)) := by
    intro recs
    induction recs with
    | nil => intro acc _ _ _; simp [addLoop]
    | cons e recs ih =>
      obtain ⟨i, rec⟩ := e
      intro acc hnd hfr hraw
      simp only [List.map_cons, List.nodup_cons] at hnd
      have hf1 := hfr i (by simp)
      have h1 : dhas r.registry i = false := by
        cases hb : dhas r.registry i with
        | false => rfl
        | true => exact absurd (dhas_iff.1 hb) hf1.1
      have h2 : dhas acc i = false := by
        cases hb : dhas acc i with
        | false => rfl
        | true => exact absurd (dhas_iff.1 hb) hf1.2
      have h3 : dhas (rawRecord fi i cd) r.idCol = false := by
        cases hb : dhas (rawRecord fi i cd) r.idCol with
        | false => rfl
        | true => exact absurd (dhas_iff.1 hb) (hraw i rec (by simp))
      have happ : ∀ v : Record, dset acc i v = acc ++ [(i, v)] := by
        intro v
        have := dupdate_append (d := acc) (e := [(i, v)]) (by simpa [dkeys] using hf1.2) (by simp [dkeys])
        simpa [dupdate] using this
      simp only [List.map_cons, addLoop, h1, h2, h3, Bool.false_eq_true, if_false, runPosts, happ]
      rw [ih]
      · simp
      · exact hnd.2
      · intro j hj
        refine ⟨(hfr j (by simp only [List.map_cons, List.mem_cons]; exact .inr hj)).1, fun hm => ?_⟩
        simp only [dkeys, List.map_append, List.map_cons, List.map_nil, List.mem_append, List.mem_singleton] at hm
        rcases hm with hm | rfl
        · exact (hfr j (by simp only [List.map_cons, List.mem_cons]; exact .inr hj)).2 hm
        · exact hnd.1 hj
      · exact fun j rec' hm => hraw j rec' (by simp [hm])
  have hl := hloop records [] (hk ▸ hn) (fun i hi => ⟨hf i (hk ▸ hi), by simp [dkeys]⟩) (fun i rec hm => (hrec i rec hm).1)
  rw [hk] at hl
  simp only [List.nil_append] at hl
  have hadd : ∃ r0, { r with posts := [] }.add fi { a with posts := none } = (r0, .ok (records.map fun p =>
      (p.1, addDefaults (dset (rawRecord fi p.1 cd) r.idCol p.1.toVal) r.defaults))) := by
    simp only [Recorder.add, hids, hcd, choosePosts, hl]
    exact ⟨_, rfl⟩
  obtain ⟨r0, hadd⟩ := hadd
  refine ⟨r0, _, hadd, by simp, fun pos i rec hp => ?_⟩
  exact ⟨addDefaults (dset (rawRecord fi i cd) r.idCol i.toVal) r.defaults, by simp [hp],
    runPosts_chain.1 (hrec i rec (List.mem_of_getElem? hp)).2⟩

/-! ### Examples -/

/-- Strings are their own id; what else is given has no id here. -/
def strExtract : Nat → Val → R Rid := fun _ v => match v with | .str s => .ok (.str s) | _ => .error .typeError
def noFi : Str → Option Int := fun _ => none
def exRec : Recorder := { defaults := [(c!"who", .str c!"me")] }
def exAdd : AddCall := { extract := strExtract, ids := .list [.str c!"a", .str c!"b"], columns :=
  [(c!"age", .list [.int 33]), (c!"t", .none), (c!"s", .str c!"xy"), (c!"d", .dict [(.str c!"b", .list [])])] }
example : (exRec.add noFi exAdd).2 = .ok
    [(.str c!"a", [(c!"age", .int 33), (c!"t", .none), (c!"s", .str c!"xy"), (c!"id", .str c!"a"), (c!"who", .str c!"me")]),
     (.str c!"b", [(c!"age", .none), (c!"t", .none), (c!"s", .str c!"xy"), (c!"d", .list []), (c!"id", .str c!"b"),
       (c!"who", .str c!"me")])] := rfl
example : ((exRec.add noFi exAdd).1.add noFi { exAdd with ids := .list [.str c!"c", .str c!"a"] }).2 = .error .exception := rfl
example : (exRec.add noFi { exAdd with ids := .list [.str c!"c", .str c!"c"] }).2 = .error .exception := rfl
example : (exRec.add noFi { exAdd with ids := .list [.str c!"a", .str c!"default"], columns := [(c!"n", .list [.int 1, .int 2])] }).2 =
    .error .typeError := rfl
/-- A What as `ids` is taken for an iterable. -/
example : (exRec.add noFi { exAdd with ids := .what c!"f" [] [] none }).2 = .error .keyError := rfl
/-- A What in a column, with ids and without. -/
example : (exRec.add noFi { exAdd with columns := [(c!"n", .int 1), (c!"w", .what c!"f" [] [] none)] }).2 = .error .keyError := rfl
example : (exRec.add noFi { exAdd with ids := .list [], columns := [(c!"w", .what c!"f" [] [] none)] }).2 = .ok [] := rfl
example : (exRec.add noFi exAdd).1.get [.str c!"z", .str c!"b"] = [[(c!"age", .none), (c!"t", .none), (c!"s", .str c!"xy"),
    (c!"d", .list []), (c!"id", .str c!"b"), (c!"who", .str c!"me")]] := rfl
example : (exRec.add noFi exAdd).1.unique noFi c!"s" = .ok [.str c!"xy"] := rfl
/-- A postprocessor that fails on the second record: nothing is added. -/
def failsOnB : Post := fun i rec _ => if i = .str c!"b" then .error (.user 0) else .ok (dset rec c!"x" .none)
example : (exRec.add noFi { exAdd with posts := some [failsOnB] }).2 = .error (.user 0) := rfl
example : (exRec.add noFi { exAdd with ids := .str c!"a", columns := [], posts := some [failsOnB] }).2 =
    .ok [(.str c!"a", [(c!"id", .str c!"a"), (c!"who", .str c!"me"), (c!"x", .none)])] := rfl

end Whatami
