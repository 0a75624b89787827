import Verif.OpsLemmas

/-
Properties of the accessors of What: C05 (positional ids), C18, C19, C20.
-/
namespace Whatami

/-! ### C18 -/

theorem map_ok {α β : Type} {f : α → β} {r : R α} {y : β} (h : r.map f = .ok y) : ∃ x, r = .ok x ∧ y = f x := by
  cases r with
  | error e => cases h
  | ok x => cases h; exact ⟨x, rfl, rfl⟩

/-- Every key `flatten` reports addresses the value at the same position. -/
theorem flatten_addr {fi : Str → Option Int} {srt : SortItems} (hs : SortsItems srt) {o : FlatOpts} {w : What}
    (hw : ∀ d, Within d w.toVal → OkNode fi d) {l : List (Val × Val)} (h : flatten srt o w = .ok l) {k x : Val}
    (hm : (k, x) ∈ l) : getItem fi k w.conf = .ok x := by
  obtain ⟨l', h', rfl⟩ := map_ok h
  simp only [List.mem_map, Prod.mk.injEq] at hm
  obtain ⟨⟨p, x'⟩, hm, rfl, rfl⟩ := hm
  obtain ⟨q, hq, hne, hh, hwalk⟩ := flattenN_addr hs o _ _ _ _ hw h' p x' hm
  simp only [List.nil_append] at hq
  subst hq
  cases p with
  | nil => exact absurd rfl hne
  | cons k q =>
    -- the first key is a parameter name
    have hstr : ∃ k', k = .str k' := by
      have := h'
      rw [show depth w.toVal = (depthA w.conf) + 1 from rfl] at this
      simp only [flattenN, What.toVal, flatItems] at this
      obtain ⟨k'', v'', hk, hcase⟩ := flatLoop_mem this hm
      simp only [List.mem_map, Prod.mk.injEq] at hk
      obtain ⟨kv, _, rfl, rfl⟩ := hk
      rcases hcase with ⟨hp, _⟩ | ⟨_, sub, hsub, hmem⟩
      · simp only [List.nil_append, List.cons.injEq] at hp
        exact ⟨_, hp.1⟩
      · by_cases hcw : ∀ d, Within d kv.2 → OkNode fi d
        · obtain ⟨q', hq', _⟩ := flattenN_addr hs o _ _ _ _ hcw hsub _ _ hmem
          simp only [List.nil_append, List.singleton_append, List.cons.injEq] at hq'
          exact ⟨_, hq'.1⟩
        · exact absurd (fun d hd => hw d (hd.trans (Child.within (.what kv.1 _ _ _ (by
            have := mem_sortBy.1 ‹kv ∈ _›
            split at this
            · exact this
            · exact (List.mem_filter.1 this).1))))) hcw
    obtain ⟨k, rfl⟩ := hstr
    rw [walk_cons] at hwalk
    have e1 : walkStep fi w.toVal (.str k) = match dget w.conf k with | some v => .ok v | none => .error .keyError := by
      simp only [walkStep, direct, What.toVal, getItem, orWhat]
      cases dget w.conf k <;> rfl
    cases hd : dget w.conf k with
    | none => rw [e1, hd] at hwalk; cases hwalk
    | some v =>
      rw [e1, hd] at hwalk
      simp only at hwalk
      cases q with
      | nil =>
        rw [walk] at hwalk
        cases hwalk
        simp only [pathKey, getItem, hd]
      | cons k2 q =>
        simp only [pathKey, getItem]
        rw [hh]
        simp only [if_true]
        have e2 : walkStep fi (strDict w.conf) (.str k) = .ok v := by
          simp only [walkStep, direct, strDict, subscript, hashable, if_true, vget_strDict, hd, orWhat]
        rw [walk_cons_ok _ e2]
        exact hwalk

/-- C18. `keys, values = what.flatten(...)` have the same length and `what[keys[i]]` is `values[i]`, for every
combination of flags, whatever order Python sorts dict items in.  (Well-formedness: unique parameter names;
dicts with different keys among None, booleans, numbers, strings, classes and tuples of those.) -/
theorem c18_flatten (fi : Str → Option Int) (srt : SortItems) (hs : SortsItems srt) (o : FlatOpts) (w : What)
    (hw : ∀ d, Within d w.toVal → OkNode fi d) (keys values : List Val)
    (hk : whatKeys srt o w = .ok keys) (hv : whatValues srt o w = .ok values) :
    keys.length = values.length ∧
    ∀ (i : Nat) k v, keys[i]? = some k → values[i]? = some v → getItem fi k w.conf = .ok v := by
  obtain ⟨l, h, rfl⟩ := map_ok hk
  obtain ⟨l', h', rfl⟩ := map_ok hv
  rw [h] at h'; cases h'
  refine ⟨by simp, fun i k v hki hvi => ?_⟩
  simp only [List.getElem?_map, Option.map_eq_some_iff] at hki hvi
  obtain ⟨a, ha, rfl⟩ := hki
  obtain ⟨b, hb, rfl⟩ := hvi
  rw [ha] at hb; cases hb
  exact flatten_addr hs hw h (List.mem_of_getElem? ha)

/-- C18. `flatten` raises only because the items of some dict do not sort; in particular it never raises
when collections are not entered. -/
theorem c18_flatten_total (srt : SortItems) (hs : SortsItems srt) (o : FlatOpts) (w : What)
    (hsort : o.collectionsToo = true → ∀ l, ∃ l', srt l = .ok l') : ∃ l, flatten srt o w = .ok l := by
  have items : ∀ v, ∃ l, flatItems srt o v = .ok l := by
    intro v
    unfold flatItems
    split <;> try exact ⟨_, rfl⟩
    all_goals
      split
      · exact hsort ‹_› _
      · exact ⟨_, rfl⟩
  have loop : ∀ (recf : Val → List Val → R (List (List Val × Val))) pk its,
      (∀ k v, (k, v) ∈ its → ∀ p, ∃ l, recf v p = .ok l) → ∃ l, flatLoop o.recursive recf pk its = .ok l := by
    intro recf pk its h
    induction its with
    | nil => exact ⟨_, rfl⟩
    | cons e r ih =>
      obtain ⟨k, v⟩ := e
      obtain ⟨l1, h1⟩ := ih (fun k v hm => h k v (by simp [hm]))
      obtain ⟨l2, h2⟩ := h k v (by simp) (pk ++ [k])
      simp only [flatLoop, h1]
      cases o.recursive <;> simp [h2]
  have all : ∀ n v pk, depth v ≤ n → ∃ l, flattenN srt o n v pk = .ok l := by
    intro n
    induction n with
    | zero => intro v pk h; have := depth_pos v; omega
    | succ n ih =>
      intro v pk h
      obtain ⟨its, hi⟩ := items v
      simp only [flattenN, hi]
      exact loop _ _ _ fun k x hm p => ih x p (by have := flatItems_depth hs hi hm; omega)
  obtain ⟨l, hl⟩ := all _ w.toVal [] (Nat.le_refl _)
  exact ⟨l.map fun pv => (pathKey pv.1, pv.2), by simp only [flatten, hl, Except.map]⟩

/-- The example of the docstring (with two items in the dict): a What with a tuple holding a dict. -/
def exFlat : What := ⟨c!"lambda", [(c!"x", .int 1), (c!"y", .tuple [.int 1, .what c!"g" [(c!"a", .str c!"s")] [] none,
  .dict [(.none, .int 3)]])], [], none⟩
def srtId : SortItems := fun l => .ok l
example : SortsItems srtId := fun l l' h => by cases h; exact List.Perm.refl _
example : whatKeys srtId { collectionsToo := true } exFlat = .ok [.str c!"x", .str c!"y", .tuple [.str c!"y", .int 0],
    .tuple [.str c!"y", .int 1], .tuple [.str c!"y", .int 1, .str c!"a"], .tuple [.str c!"y", .int 2],
    .tuple [.str c!"y", .int 2, .none]] := rfl
example (fi : Str → Option Int) : getItem fi (.tuple [.str c!"y", .int 1, .str c!"a"]) exFlat.conf = .ok (.str c!"s") := rfl
example (fi : Str → Option Int) : ∀ d, Within d exFlat.toVal → OkNode fi d := by
  have leaf : ∀ v : Val, (∀ x, ¬ Child x v) → OkNode fi v → ∀ d, Within d v → OkNode fi d := by
    intro v h1 h2 d hd
    cases hd with
    | refl => exact h2
    | step _ c => exact absurd c (h1 _)
  have node : ∀ v : Val, OkNode fi v → (∀ x, Child x v → ∀ d, Within d x → OkNode fi d) → ∀ d, Within d v → OkNode fi d := by
    intro v h1 h2 d hd
    cases hd with
    | refl => exact h1
    | step h c => exact h2 _ c d h
  have hi : ∀ i : Int, ∀ d, Within d (.int i) → OkNode fi d := fun i => leaf _ (fun x h => by cases h) trivial
  have hss : ∀ s : Str, ∀ d, Within d (.str s) → OkNode fi d := fun i => leaf _ (fun x h => by cases h) trivial
  have hn : ∀ d, Within d .none → OkNode fi d := leaf _ (fun x h => by cases h) trivial
  refine node _ (by simp only [exFlat, What.toVal, OkNode, UniqueKeys]; decide) ?_
  intro x hx
  simp only [exFlat, What.toVal] at hx
  cases hx with
  | what _ _ _ _ hm =>
    simp only [List.mem_cons, Prod.mk.injEq, List.not_mem_nil, or_false] at hm
    rcases hm with ⟨_, rfl⟩ | ⟨_, rfl⟩
    · exact hi 1
    · refine node _ trivial ?_
      intro x hx
      cases hx with
      | tuple hm =>
        simp only [List.mem_cons, List.not_mem_nil, or_false] at hm
        rcases hm with rfl | rfl | rfl
        · exact hi 1
        · refine node _ (by simp only [OkNode, UniqueKeys]; decide) ?_
          intro x hx
          cases hx with
          | what _ _ _ _ hm =>
            simp only [List.mem_cons, Prod.mk.injEq, List.not_mem_nil, or_false] at hm
            obtain ⟨_, rfl⟩ := hm
            exact hss _
        · refine node _ ⟨by simp [isKey], by simp⟩ ?_
          intro x hx
          cases hx with
          | dictKey hm =>
            simp only [List.mem_cons, Prod.mk.injEq, List.not_mem_nil, or_false] at hm
            obtain ⟨rfl, _⟩ := hm
            exact hn
          | dictVal hm =>
            simp only [List.mem_cons, Prod.mk.injEq, List.not_mem_nil, or_false] at hm
            obtain ⟨_, rfl⟩ := hm
            exact hi 3

/-! ### C19 -/

theorem flatItems_what (srt : SortItems) (o : FlatOpts) (w : What) :
    flatItems srt o w.toVal = .ok ((idItems w o.nonIdsToo).map fun kv => (.str kv.1, kv.2)) := by
  simp only [What.toVal, flatItems]
  congr 2
  have hs : ∀ (c : Conf) (p : Str × Val → Bool), sortBy keyLe (c.filter p) = (sortBy keyLe c).filter p := by
    intro c p
    have ins : ∀ (a : Str × Val) (l : Conf), Sorted keyLe l → p a = true →
        insertBy keyLe a (l.filter p) = (insertBy keyLe a l).filter p := by
      intro a l hl ha
      induction l with
      | nil => simp [insertBy, ha]
      | cons b l ih =>
        rw [Sorted, List.pairwise_cons] at hl
        by_cases hab : keyLe a b = true
        · simp only [insertBy, hab, if_true, List.filter_cons, ha]
          by_cases hb : p b = true
          · simp [hb, insertBy, hab]
          · simp only [hb]
            have hall : ∀ c ∈ l.filter p, keyLe a c = true := fun c hc =>
              keyLe_trans _ _ _ hab (hl.1 c (List.mem_filter.1 hc).1)
            cases hf : l.filter p with
            | nil => rfl
            | cons c r => rw [hf] at hall; simp [insertBy, hall c (by simp)]
        · simp only [insertBy, hab, List.filter_cons]
          by_cases hb : p b = true
          · simp [hb, insertBy, hab, ih hl.2]
          · simp [hb, ih hl.2]
    have ins' : ∀ (a : Str × Val) (l : Conf), ¬ p a = true → (insertBy keyLe a l).filter p = l.filter p := by
      intro a l ha
      induction l with
      | nil => simp [insertBy, ha]
      | cons b l ih =>
        by_cases hab : keyLe a b = true
        · simp [insertBy, hab, List.filter_cons, ha]
        · simp [insertBy, hab, List.filter_cons, ih]
    induction c with
    | nil => rfl
    | cons a c ih =>
      simp only [List.filter_cons, sortBy]
      by_cases ha : p a = true
      · simp only [ha, if_true, sortBy, ih]
        exact ins a _ (sortKeys_sorted c) ha
      · simp only [ha, Bool.false_eq_true, if_false, ih]
        exact (ins' a _ ha).symm
  cases o.nonIdsToo with
  | true => simp only [idItems, if_true, Bool.true_or]; exact (List.filter_eq_self.2 (fun _ _ => rfl)).symm
  | false => simp [idItems, hs]

theorem flatLoop_flat (recf : Val → List Val → R (List (List Val × Val))) (its : List (Val × Val)) :
    flatLoop false recf [] its = .ok (its.map fun kv => ([kv.1], kv.2)) := by
  induction its with
  | nil => rfl
  | cons e r ih => obtain ⟨k, v⟩ := e; simp [flatLoop, ih]

theorem flatten_flat (srt : SortItems) (o : FlatOpts) (hr : o.recursive = false) (w : What) :
    flatten srt o w = .ok ((idItems w o.nonIdsToo).map fun kv => (.str kv.1, kv.2)) := by
  rw [flatten, show depth w.toVal = (depthA w.conf) + 1 from rfl]
  simp only [flattenN, flatItems_what, hr, flatLoop_flat, Except.map, List.map_map]
  rfl

/-- C19. Without recursion, `keys()` are exactly the id keys (all keys with `non_ids_too`), each once and in
strictly ascending order, and `values()` their values. -/
theorem c19_flat (srt : SortItems) (o : FlatOpts) (hr : o.recursive = false) (w : What) (unique : UniqueKeys w.conf) :
    ∃ (names : List Str) (vals : List Val),
      whatKeys srt o w = .ok (names.map .str) ∧ whatValues srt o w = .ok vals ∧
      names.Pairwise strLt ∧ (∀ k, k ∈ names ↔ IdKey w.conf w.nonids o.nonIdsToo k) ∧
      names.length = vals.length ∧ ∀ (i : Nat) k v, names[i]? = some k → vals[i]? = some v → (k, v) ∈ w.conf := by
  refine ⟨(idItems w o.nonIdsToo).map Prod.fst, (idItems w o.nonIdsToo).map Prod.snd, ?_, ?_, idItems_lt unique, ?_,
    by simp, ?_⟩
  · simp [whatKeys, flatten_flat srt o hr, Except.map, Function.comp_def]
  · simp [whatValues, flatten_flat srt o hr, Except.map, Function.comp_def]
  · intro k
    simp only [IdKey, List.mem_map, Prod.exists, exists_and_right, exists_eq_right, mem_idItems]
  · intro i k v hk hv
    simp only [List.getElem?_map, Option.map_eq_some_iff] at hk hv
    obtain ⟨a, ha, rfl⟩ := hk
    obtain ⟨b, hb, rfl⟩ := hv
    rw [ha] at hb; cases hb
    exact idItems_sub (List.mem_of_getElem? ha)

theorem flatLoop_sublist {recf : Val → List Val → R (List (List Val × Val))} {its : List (Val × Val)}
    {l : List (List Val × Val)} (h : flatLoop true recf [] its = .ok l) :
    (its.map fun kv => ([kv.1], kv.2)).Sublist l := by
  induction its generalizing l with
  | nil => cases h; exact List.Sublist.slnil
  | cons e r ih =>
    obtain ⟨k, v⟩ := e
    simp only [flatLoop, if_true] at h
    cases hr : recf v ([] ++ [k]) with
    | error e => rw [hr] at h; cases h
    | ok sub =>
      rw [hr] at h
      simp only at h
      cases hl : flatLoop true recf [] r with
      | error e => rw [hl] at h; cases h
      | ok rest =>
        rw [hl] at h
        cases h
        simp only [List.map_cons, List.nil_append, List.cons_append]
        exact List.Sublist.cons_cons _ ((ih hl).trans (List.sublist_append_right _ _))

/-- C19. Recursion only adds entries: the non-recursive ones remain, in order. -/
theorem c19_recursive_adds (srt : SortItems) (o : FlatOpts) (w : What) (l : List (Val × Val))
    (h : flatten srt { o with recursive := true } w = .ok l) :
    ∃ l₀, flatten srt { o with recursive := false } w = .ok l₀ ∧ l₀.Sublist l := by
  refine ⟨_, flatten_flat srt { o with recursive := false } rfl w, ?_⟩
  obtain ⟨l', h', rfl⟩ := map_ok h
  rw [show depth w.toVal = (depthA w.conf) + 1 from rfl] at h'
  simp only [flattenN, flatItems_what] at h'
  have := (flatLoop_sublist h').map fun pv : List Val × Val => (pathKey pv.1, pv.2)
  simpa [List.map_map, Function.comp_def, pathKey] using this

example : whatKeys srtId { recursive := false } exShape = .ok [.str c!"b", .str c!"n"] := rfl
example : whatKeys srtId { recursive := false, nonIdsToo := true } exShape = .ok [.str c!"b", .str c!"j", .str c!"n"] := rfl

/-! ### C20 -/

/-- C20. `get` returns what `[]` returns, the default on KeyError, and raises what `[]` raises otherwise. -/
theorem c20_get (fi : Str → Option Int) (w : What) (item default : Val) :
    (∀ v, getItem fi item w.conf = .ok v → whatGet fi w item default = .ok v) ∧
    (getItem fi item w.conf = .error .keyError → whatGet fi w item default = .ok default) ∧
    (∀ e, e ≠ .keyError → getItem fi item w.conf = .error e → whatGet fi w item default = .error e) := by
  refine ⟨fun v h => by simp only [whatGet, h], fun h => by simp only [whatGet, h], fun e he h => ?_⟩
  simp only [whatGet, h]
  cases e <;> first | rfl | exact absurd rfl he

/-- C20 for parameter names: the parameter's value, or the default; never an exception. -/
theorem c20_get_name (fi : Str → Option Int) (w : What) (unique : UniqueKeys w.conf) (k : Str) (default : Val) :
    (∀ v, (k, v) ∈ w.conf → whatGet fi w (.str k) default = .ok v ∧ getItem fi (.str k) w.conf = .ok v) ∧
    ((∀ v, (k, v) ∉ w.conf) → whatGet fi w (.str k) default = .ok default ∧
      getItem fi (.str k) w.conf = .error .keyError) := by
  constructor
  · intro v h
    have := dget_eq_some_of_mem (d := w.conf) unique h
    simp [whatGet, getItem, this]
  · intro h
    have : dget w.conf k = none := dget_none_iff.2 (by
      simp only [dkeys, List.mem_map, not_exists, not_and]
      rintro ⟨k', v⟩ hm rfl
      exact h v hm)
    simp [whatGet, getItem, this]

/-- `get` does raise for other failures: out of range and attribute errors are not defaults. -/
example (fi : Str → Option Int) : whatGet fi exFlat (.tuple [.str c!"y", .int 7]) .none = .error .indexError := rfl
example (fi : Str → Option Int) : whatGet fi exFlat (.tuple [.str c!"x", .int 0]) .none = .error .attributeError := rfl
example (fi : Str → Option Int) : whatGet fi exFlat (.tuple [.str c!"z", .int 0]) (.int 9) = .ok (.int 9) := rfl

/-! ### C05: positional ids -/

/-- C05 for `positional_id`. -/
theorem c05_positional (sha1 : Str → Str) (srt : SortItems) (bs : BS) (w : What) (f : Bool) (m : Int) :
    (∀ e, positionalId sha1 srt bs w f m = .error e ↔ positionalStr srt bs w f = .error e) ∧
    (∀ s, positionalStr srt bs w f = .ok s → (m ≤ 0 ∨ (s.length : Int) ≤ m) → positionalId sha1 srt bs w f m = .ok s) ∧
    (∀ s, positionalStr srt bs w f = .ok s → 0 < m → m < s.length → positionalId sha1 srt bs w f m = .ok (sha1 s)) := by
  refine ⟨fun e => ?_, fun s h hm => ?_, fun s h h1 h2 => ?_⟩
  · simp only [positionalId]; cases positionalStr srt bs w f <;> simp
  · simp only [positionalId, h, trimTooLong]; rw [if_neg]; omega
  · simp only [positionalId, h, trimTooLong]; rw [if_pos ⟨h1, h2⟩]

/-- C05 for `positional_id`: equal strings give equal trimmed strings, no longer than max m 40 for m > 0. -/
theorem c05_positional_length (sha1 : Str → Str) (digest : ∀ s, (sha1 s).length = 40) (srt : SortItems) (bs : BS)
    (w : What) (f : Bool) (m : Int) (hm : 0 < m) (t : Str) (h : positionalId sha1 srt bs w f m = .ok t) :
    (t.length : Int) ≤ max m 40 := by
  simp only [positionalId] at h
  cases hs : positionalStr srt bs w f with
  | error e => rw [hs] at h; cases h
  | ok s =>
    rw [hs] at h
    simp only [trimTooLong] at h
    split at h
    · cases h; rw [digest]; omega
    · cases h; omega

theorem c05_positional_equal (sha1 : Str → Str) (srt : SortItems) (bs : BS) (w w' : What) (f : Bool) (m : Int)
    (h : positionalStr srt bs w f = positionalStr srt bs w' f) :
    positionalId sha1 srt bs w f m = positionalId sha1 srt bs w' f m := by
  simp only [positionalId, h]

example : positionalStr srtId buildD exShape false = .ok c!"y=rf(True,3)" := rfl
/-- Nested Whats contribute twice: their id and their values. -/
example : positionalStr srtId buildD ⟨c!"f", [(c!"g", .what c!"g" [(c!"a", .int 1)] [] none)], [], none⟩ false =
    .ok c!"f(g(a=1),1)" := rfl

end Whatami
