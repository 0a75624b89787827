import Verif.Spec.StandIn
import Verif.Props.Text
import Verif.Props.RoundTrip
import Verif.Props.Attrs
import Verif.Props.Calls
import Verif.Props.Settings
import Verif.BasicChain

/-
C77: ids of configurations with functions, partials, arrays, random generators, objects and instances of subclasses, read back.
-/
namespace Whatami

theorem sub_text {c : Str} {a : Conf} {k : Kind} {xs : List Val} {v : Val}
    (h : val? (buildD v) = (val? (strings buildD xs)).map fun l => some (kindStr k l)) :
    val? (buildD (.sub k c a xs)) = val? (buildD (.what c [(c!"seq", v)] [] none)) := by
  rw [buildD_sub, buildD_what]
  cases hs : strings buildD xs with
  | error e =>
    rw [hs] at h
    cases hv : buildD v with
    | error e' => simp [ret, idStr, idItems, sortBy, insertBy, mapR, kvStr, hv, val?, Except.map]
    | ok o => rw [hv] at h; cases h
  | ok l =>
    rw [hs] at h
    cases hv : buildD v with
    | error e' => rw [hv] at h; cases h
    | ok o =>
      rw [hv] at h
      have : o = some (kindStr k l) := by simpa [val?] using h
      subst this
      rw [idStr_seq hv]
      simp [ret, Except.map, val?, seqId]

theorem rng_text {c n : Str} {v st : Val} (h : whatareyou {} st = .ok { name := n, conf := [(c!"seq", v)] }) :
    val? (buildD (.rng c st)) = val? (buildD (.what c [(c!"state", .what n [(c!"seq", v)] [] none)] [] none)) := by
  rw [buildD_rng, h, buildD_what]
  simp only []
  have hb : buildD (.what n [(c!"seq", v)] [] none) = ret (idStr buildD { name := n, conf := [(c!"seq", v)] } false) := buildD_what ..
  cases hi : idStr buildD { name := n, conf := [(c!"seq", v)] } false with
  | error e => rw [hi] at hb; simp [ret, idStr, idItems, sortBy, insertBy, mapR, kvStr, hb, val?, Except.map]
  | ok s => rw [hi] at hb; simp [ret, idStr, idItems, sortBy, insertBy, mapR, kvStr, hb, val?, Except.map, wrapId, pyJoin, showOpt]

/-- The same parameters in any order. -/
theorem whats_text {n : Str} {d d' : Conf} {nk : List Str} {o : Option Str} (u : UniqueKeys d) (u' : UniqueKeys d') (h : ∀ k x, (k, x) ∈ d ↔ (k, x) ∈ d') :
    val? (buildD (.what n d nk o)) = val? (buildD (.what n d' nk o)) :=
  sameIdPart_text (.what n nk nk o u u' (fun k v => by rw [h]))

theorem func_text {n : Str} {pre names : List Str} {ds : List Val} (hl : names.length = ds.length) (hu : names.Nodup) :
    val? (buildD (.func n (pre ++ names) ds)) = val? (buildD (.what (funcName n) (names.zip ds) [] none)) := by
  rw [buildD_func, buildD_what]
  have e : (pyLast ds.length (pre ++ names)).zip ds = names.zip ds := by
    simp only [pyLast]
    split
    · rename_i h0
      have : ds = [] := List.eq_nil_of_length_eq_zero h0
      subst this; simp
    · rw [show (pre ++ names).length - ds.length = pre.length by simp [hl]]
      simp
  rw [e, dictOf_unique (by rw [UniqueKeys, List.map_fst_zip (by omega)]; exact hu)]

theorem dictConf_mem {a : Conf} (ha : UniqueKeys a) (seq : Val) : UniqueKeys (dictConf a seq) ∧
    ∀ n x, (n, x) ∈ dictConf a seq ↔ (n = c!"seq" ∧ x = seq) ∨ (n ≠ c!"seq" ∧ Public {} n ∧ (n, x) ∈ a) := by
  have hu : UniqueKeys (dupdate [] a) := nodup_dupdate (d := []) (by simp [dkeys]) _
  have hm : ∀ n x, (n, x) ∈ dupdate [] a ↔ (n, x) ∈ a := fun n x => by
    rw [← dget_mem_iff hu, ← dget_mem_iff ha, dget_dupdate, dget_reverse ha]
    cases dget a n <;> simp [dget]
  have hseq : Public {} c!"seq" := by unfold Public; decide
  refine ⟨uniqueKeys_filter (nodup_dset hu _ _) _, fun n x => ?_⟩
  rw [dictConf, (c25_exact _ _).1, mem_dset_nodup hu, hm]
  constructor
  · rintro ⟨h | ⟨h1, h2⟩, h3⟩
    · exact .inl h
    · exact .inr ⟨h1, h3, h2⟩
  · rintro (⟨rfl, rfl⟩ | ⟨h1, h2, h3⟩)
    · exact ⟨.inl ⟨rfl, rfl⟩, hseq⟩
    · exact ⟨.inr ⟨h1, h3⟩, h2⟩

/-- Making a plain partial of a partial-like object first keeps what C27 needs of it. -/
theorem curry2_ok {v : Val} (hk : KwDicts v) (hp : PosOnce v) : KwDicts (curry2partial v) ∧ PosOnce (curry2partial v) := by
  unfold curry2partial
  split
  · rename_i b g a k args kws
    simp only [KwDicts] at hk
    simp only [PosOnce, NoPos] at hp
    refine ⟨?_, ?_⟩
    · simp only [KwDicts]
      exact ⟨nodup_dupdate hk.2.1 _, hk.2.2⟩
    · simp only [PosOnce]
      rcases hp with ⟨rfl, ⟨rfl, h⟩ | h⟩ | ⟨-, h⟩
      · exact .inl ⟨rfl, h⟩
      · exact .inr h
      · exact .inr h
  · rename_i b f args kws _
    exact ⟨hk, hp⟩
  · exact ⟨hk, hp⟩

theorem standIn_text {v x : Val} (h : StandIn v x) : SameText buildD v x := by
  simp only [SameText]
  cases h with
  | numtype n => rw [buildD_numtype, buildD_what]; simp [ret, idStr, idItems, sortBy, mapR, wrapId, pyJoin, val?]
  | @array c h hq =>
    have hb : buildD (.str h) = .ok (some (c!"'" ++ h ++ c!"'")) := by
      rw [buildD_str]
      have : strBody h = h := strBody_fixed (fun l r e => absurd (e ▸ by simp) hq)
      simp [this]
    rw [buildD_array, buildD_what]
    simp [ret, idStr, idItems, sortBy, insertBy, mapR, kvStr, hb, val?, wrapId, pyJoin, showOpt]
  | subList c a xs => exact sub_text (by rw [buildD_list, val?_ret, val?_map]; cases strings buildD xs <;> rfl)
  | subTuple c a xs => exact sub_text (by rw [buildD_tuple, val?_ret, val?_map]; cases strings buildD xs <;> rfl)
  | subSet c a xs => exact sub_text (by rw [buildD_set, val?_ret, val?_map]; cases strings buildD xs <;> rfl)
  | subFset c a xs => exact sub_text (by rw [buildD_set, val?_ret, val?_map]; cases strings buildD xs <;> rfl)
  | @odict c a conf kvs ha hu hc =>
    obtain ⟨h1, h2⟩ := dictConf_mem ha (.dict kvs)
    rw [buildD_odict, ← whats_text (nodup_dset h1 _ (itemsList kvs)) hu (fun n x => by
      rw [hc, mem_dset_nodup h1, h2]
      constructor
      · rintro (h | ⟨hn, ⟨hs, -⟩ | ⟨-, h⟩⟩)
        · exact .inl h
        · exact absurd hs hn
        · exact .inr ⟨hn, h⟩
      · rintro (h | ⟨hn, h⟩)
        · exact .inl h
        · exact .inr ⟨hn, .inr ⟨hn, h⟩⟩), buildD_what]
  | @ddict c a conf kvs ha hu hc =>
    obtain ⟨h1, h2⟩ := dictConf_mem ha (.dict kvs)
    rw [← whats_text h1 hu (fun n x => by rw [hc, h2]), buildD_ddict, buildD_what]
    cases hd : dictStr buildD kvs with
    | error e =>
      have hb : buildD (.dict kvs) = .error e := by rw [buildD_dict, hd]; rfl
      have hm : (c!"seq", Val.dict kvs) ∈ idItems { name := c, conf := dictConf a (.dict kvs) } false := by
        rw [idItems, List.mem_filter, (sortBy_perm _ _).mem_iff]
        exact ⟨(h2 _ _).2 (.inl ⟨rfl, rfl⟩), by simp⟩
      show none = val? (ret (idStr buildD { name := c, conf := dictConf a (.dict kvs) } false))
      unfold idStr
      cases hr : mapR (kvStr buildD) (idItems { name := c, conf := dictConf a (.dict kvs) } false) with
      | error e' => rfl
      | ok l =>
        obtain ⟨b, -, hk⟩ := mapR_mem hr hm
        simp only [kvStr, hb] at hk
        cases hk
    | ok s => rfl
  | @func n pre names ds hn hl hu => rw [func_text hl hu]; simp [funcName, hn]
  | lambda hl hu => rw [func_text hl hu]; rfl
  | @partials n args ds apps d hs hne hk hf hd hu hb =>
    obtain ⟨m, d', hc⟩ := (c27_partials_iff hs apps hk).2 ⟨hf, hd⟩
    obtain ⟨h1, -, h2, h3⟩ := c27_partials hs apps hk hc
    cases apps with
    | nil => exact absurd rfl hne
    | cons e apps =>
      obtain ⟨a, kws⟩ := e
      obtain ⟨k', -, h5, -⟩ := applyAll_part (.func n args ds) apps (fun a ha => hk a (by simp [ha])) a kws (hk (a, kws) (by simp))
      have h6 : applyAll (.func n args ds) ((a, kws) :: apps) = .part true (.func n args ds) (a ++ allPos apps) k' := h5
      rw [h6] at hc ⊢
      have h7 : curry2partial (.part true (.func n args ds) (a ++ allPos apps) k') = .part true (.func n args ds) (a ++ allPos apps) k' := rfl
      rw [buildD_part, h7, hc]
      simp only []
      rw [← h1, ← whats_text h2 hu (fun k x => by rw [hb, ← h3, dget_mem_iff h2]), buildD_what]
  | @curries p f vs kws n args ds pos kw d hs hk hp hc hf hd hu hb =>
    have hc' := (c27_curry2partial _ _ hk _ _ _ _).2 hc
    obtain ⟨hk', hp'⟩ := curry2_ok hk hp
    rw [buildD_part]
    obtain ⟨m, d', h⟩ := c27_reports_partial hs hk' hp' hc' hf hd
    obtain ⟨h1, -, h2, h3⟩ := c27_binding_partial hs hk' hp' hc' h
    rw [h]
    simp only []
    rw [← h1, ← whats_text h2 hu (fun k x => by rw [hb, ← h3, dget_mem_iff h2]), buildD_what]
  | duck n conf nk o => rw [buildD_duck, buildD_what]
  | @whatable ob o s v conf hk hv hu hc =>
    simp only [Inst.toVal, bind, Except.bind] at hv
    cases hs : slotsSrc ob with
    | error e => simp [hs] at hv
    | ok sd =>
      cases hp : propsSrc ob with
      | error e => simp [hs, hp] at hv
      | ok pd =>
        simp [hs, hp] at hv
        subst hv
        rw [buildD_obj]
        obtain ⟨u, c⟩ := c48_sources hk (configDictInst_some (o := o) (fun _ => hs) (fun _ => hp))
        have u' : UniqueKeys (trimDict o (configDictOfSrcs o ⟨classSrc ob, dictSrc ob, sd, pd⟩)) := uniqueKeys_filter u _
        rw [← whats_text u' hu (fun n x => by rw [hc, (c25_exact _ _).1, c, Inst.Shows]; exact and_comm), buildD_what]
  | rngTuple c xs => exact rng_text rfl
  | rngDict c kvs => exact rng_text rfl
  | @address c s cl cd dd sd pd h =>
    rw [(c52_text (.obj c s cl cd dd sd pd) _).2 (.address h), buildD_what]; simp [ret, idStr, idItems, sortBy, mapR, wrapId, pyJoin, val?]
  | @looks c s cl cd dd sd pd x hn hx ht => rw [(c52_text (.obj c s cl cd dd sd pd) _).2 (.obj hn), (c52_text hx _).2 ht]

/-- C77. An id shows nothing but the stand-ins: the text of a value is that of what it is seen as. -/
theorem c77_text {v x : Val} (h : SeenAs v x) : SameText buildD v x :=
  cong_text (fun _ _ hp => hp.elim standIn_text sameIdPart_text) h

/-- C77. A configuration has the id of the configuration of data and Whats it is seen as. -/
theorem c77_id {F : Frag} {w x : What} (h : SeenAs w.toVal x.toVal) (hx : PrintableWhat F x) : idD w = idD x ∧ ∃ s, idD w = .ok s := by
  have := idD_of_text (c77_text h)
  rw [id_text hx] at this ⊢
  cases hw : idD w with
  | error e => rw [hw] at this; cases this
  | ok s => rw [hw] at this; exact ⟨by rw [show s = _ from Option.some.inj this], s, rfl⟩

/-- C77. Reading the id of a configuration with functions, partials, arrays, generators, objects and the like gives a What equal (`==`) to the
one with the stand-ins. -/
theorem c77_read {E : Env} {w x : What} (ns : Bool) (h : SeenAs w.toVal x.toVal) (hx : PrintableWhat ⟨False, False, True⟩ x)
    (hl : LoadableWhat ⟨False, False, True⟩ E x) (hnan : ns = true ∨ ¬ Within (.float c!"nan") x.toVal) :
    ∃ s w', idD w = .ok s ∧ parseWhatid E s = .ok w' ∧ pyEq E.fi ns x.toVal w'.toVal = true := by
  obtain ⟨s, w', h1, h2, h3⟩ := c06_equal ns hx hl hnan
  exact ⟨s, w', by rw [(c77_id h hx).1, h1], h2, h3⟩

/-- C77. Without frozensets, the What read back has the same id again. -/
theorem c77_again {E : Env} {w x : What} (h : SeenAs w.toVal x.toVal) (hx : PrintableWhat ⟨True, True, False⟩ x)
    (hl : LoadableWhat ⟨True, True, False⟩ E x) : ∃ s w', idD w = .ok s ∧ parseWhatid E s = .ok w' ∧ idD w' = .ok s := by
  obtain ⟨s, w', h1, h2, h3⟩ := c07_id_of_parsed hx hl
  exact ⟨s, w', by rw [(c77_id h hx).1, h1], h2, h3⟩

/-- C77. Two configurations have the same id exactly if they are seen as the same, up to the order of dicts, sets and parameters. -/
theorem c77_same_id {w w' x x' : What} (h : SeenAs w.toVal x.toVal) (h' : SeenAs w'.toVal x'.toVal) (hx : PrintableWhat ⟨False, False, True⟩ x)
    (hx' : PrintableWhat ⟨False, False, True⟩ x') : idD w = idD w' ↔ Cong Reorder x.toVal x'.toVal := by
  rw [(c77_id h hx).1, (c77_id h' hx').1, c08_iff hx hx']

/-! `f(a=partial(g, 1), b=L([lambda z, k=array: ...]), n=numpy.int64(3), v=..)` with `def g(x, y=2)`, an array with digest `ab` and a
non-id parameter. -/
def exSeen : What where
  name := c!"f"
  conf := [(c!"a", applyAll (.func c!"g" [c!"x", c!"y"] [.int 2]) [([.int 1], [])]),
    (c!"b", .sub .list c!"L" [(c!"tag", .none)] [.func c!"<lambda>" [c!"z", c!"k"] [.array c!"ndarray" c!"ab"]]),
    (c!"n", .obj c!"int64" false [] [] [] [] none c!"3"), (c!"v", .builtin c!"len")]
  nonids := [c!"v"]
def exSeenAs : What where
  name := c!"f"
  conf := [(c!"a", .what c!"g" [(c!"x", .int 1), (c!"y", .int 2)] [] none),
    (c!"b", .what c!"L" [(c!"seq", .list [.what c!"lambda" [(c!"k", .what c!"ndarray" [(c!"hash", .str c!"ab")] [] none)] [] none])] [] none),
    (c!"n", .int 3)]

theorem exSeen_partial : StandIn (applyAll (.func c!"g" [c!"x", c!"y"] [.int 2]) [([.int 1], [])])
    (.what c!"g" [(c!"x", .int 1), (c!"y", .int 2)] [] none) := by
  refine StandIn.partials (n := c!"g") (d := [(c!"x", .int 1), (c!"y", .int 2)]) ⟨by decide, by decide⟩ (by simp) (by simp [UniqueKeys]) ?_ ?_ (by simp [UniqueKeys]) ?_
  · exact ⟨by simp [allPos], fun k v h => by simp [allKw, dget] at h⟩
  · rintro k u x ⟨i, h1, h2⟩ ⟨j, h3, h4⟩
    simp only [allPos, List.map_cons, List.map_nil, List.flatten_cons, List.flatten_nil, List.append_nil] at h2
    have hi : i = 0 := by cases i with | zero => rfl | succ i => simp at h2
    have hj : j = 0 := by cases j with | zero => rfl | succ j => simp at h4
    subst hi hj
    simp at h1 h3
    subst h1; simp at h3
  · have two : ∀ i : Nat, ([c!"x", c!"y"])[i]? = if i = 0 then some c!"x" else if i = 1 then some c!"y" else none := fun i => by
      match i with
      | 0 => rfl
      | 1 => rfl
      | i + 2 => rfl
    have one : ∀ (a : Val) (i : Nat), [a][i]? = if i = 0 then some a else none := fun a i => by
      match i with
      | 0 => rfl
      | i + 1 => rfl
    have hp : ∀ k v, PosFor [c!"x", c!"y"] [Val.int 1] k v ↔ k = c!"x" ∧ v = .int 1 := fun k v => by
      constructor
      · rintro ⟨i, h1, h2⟩
        rw [two] at h1; rw [one] at h2
        by_cases hi : i = 0
        · subst hi; simp at h1 h2; exact ⟨h1.symm, h2.symm⟩
        · simp [hi] at h2
      · rintro ⟨rfl, rfl⟩; exact ⟨0, rfl, rfl⟩
    have hd : ∀ k v, DefaultFor [c!"x", c!"y"] [Val.int 2] k v ↔ k = c!"y" ∧ v = .int 2 := fun k v => by
      constructor
      · rintro ⟨i, h1, h2⟩
        rw [one] at h2
        by_cases hi : i = 0
        · subst hi; simp at h1 h2; exact ⟨h1.symm, h2.symm⟩
        · simp [hi] at h2
      · rintro ⟨rfl, rfl⟩; exact ⟨0, rfl, rfl⟩
    intro k x
    simp only [allPos, List.map_cons, List.map_nil, List.flatten_cons, List.flatten_nil, List.append_nil, Bound, hp, hd, allKw, dget]
    simp only [List.mem_cons, Prod.mk.injEq, List.not_mem_nil, or_false, Option.or_none, reduceCtorEq, false_or, true_and, not_exists, not_and]
    constructor
    · rintro (h | ⟨rfl, rfl⟩)
      · exact .inl h
      · exact .inr ⟨fun _ h => by simp at h, rfl, rfl⟩
    · rintro (h | ⟨_, h⟩)
      · exact .inl h
      · exact .inr h

theorem exSeen_seen : SeenAs exSeen.toVal exSeenAs.toVal := by
  have hp : SeenAs exSeen.toVal (.what c!"f" ([] ++ (c!"a", .what c!"g" [(c!"x", .int 1), (c!"y", .int 2)] [] none) :: exSeen.conf.drop 1) [c!"v"] none) :=
    .what c!"f" [] (exSeen.conf.drop 1) c!"a" [c!"v"] none (.base (.inl exSeen_partial))
  have ha : SeenAs (.func c!"<lambda>" [c!"z", c!"k"] [.array c!"ndarray" c!"ab"]) (.what c!"lambda" [(c!"k", .what c!"ndarray" [(c!"hash", .str c!"ab")] [] none)] [] none) :=
    .trans (.base (.inl (.lambda (pre := [c!"z"]) (names := [c!"k"]) rfl (by simp)))) (.what c!"lambda" [] [] c!"k" [] none (.base (.inl (.array (by decide)))))
  have hb : SeenAs (.sub .list c!"L" [(c!"tag", .none)] [.func c!"<lambda>" [c!"z", c!"k"] [.array c!"ndarray" c!"ab"]])
      (.what c!"L" [(c!"seq", .list [.what c!"lambda" [(c!"k", .what c!"ndarray" [(c!"hash", .str c!"ab")] [] none)] [] none])] [] none) :=
    .trans (.base (.inl (.subList ..))) (.what c!"L" [] [] c!"seq" [] none (.list [] [] ha))
  have hn : SeenAs (.obj c!"int64" false [] [] [] [] none c!"3") (.int 3) :=
    .base (.inl (.looks (by decide) (.int 3) (.nat (n := 3) ⟨by decide, by decide, by (intro r h; cases h), by decide⟩)))
  refine .trans hp (.trans (.what c!"f" [_] _ c!"b" [c!"v"] none hb) (.trans (.what c!"f" [_, _] _ c!"n" [c!"v"] none hn) (.base (.inr ?_))))
  refine .what c!"f" [c!"v"] [] none (by simp [UniqueKeys]) (by simp [UniqueKeys, exSeenAs]) fun k v => ?_
  simp only [exSeenAs, List.nil_append, List.cons_append, List.mem_cons, List.not_mem_nil, or_false, Prod.mk.injEq, not_false_eq_true, and_true]
  constructor
  · rintro ⟨h, hk⟩
    rcases h with h | h | h | h
    · exact .inl h
    · exact .inr (.inl h)
    · exact .inr (.inr h)
    · exact absurd h.1 hk
  · intro h
    refine ⟨h.imp_right (fun h => h.imp_right .inl), ?_⟩
    rcases h with h | h | h <;> rw [h.1] <;> decide

theorem exSeen_printable (F : Frag) : PrintableWhat F exSeenAs := by
  have hid : ∀ s : Str, (match s with | c :: r => isIdStart c && r.all isIdChar | [] => false) = true → Ident s := fun _ => ident_of
  refine ⟨⟨nofun, ident_of (by rfl), ?_⟩, by unfold UniqueKeys exSeenAs; decide, .inl rfl, ?_⟩
  · intro k hk
    simp only [exSeenAs, List.map_cons, List.map_nil, List.mem_cons, List.not_mem_nil, or_false] at hk
    rcases hk with h | h | h <;> subst h <;> exact ident_of (by rfl)
  · intro k v hm _
    simp only [exSeenAs, List.mem_cons, Prod.mk.injEq, List.not_mem_nil, or_false] at hm
    have names : ∀ (n : Str) (c : Conf), (match n with | c :: r => isIdStart c && r.all isIdChar | [] => false) = true →
        (∀ k ∈ c.map Prod.fst, (match k with | c :: r => isIdStart c && r.all isIdChar | [] => false) = true) → Names none n (c.map Prod.fst) :=
      fun n c h1 h2 => ⟨nofun, ident_of h1, fun k hk => ident_of (h2 k hk)⟩
    rcases hm with ⟨-, rfl⟩ | ⟨-, rfl⟩ | ⟨-, rfl⟩
    · simp only [Printable, PrintableA, and_true]
      exact ⟨names c!"g" _ (by rfl) (by decide), ⟨by unfold NestedStart; decide, by decide⟩, by unfold UniqueKeys; decide, by simp⟩
    · simp only [Printable, PrintableA, PrintableL, and_true]
      refine ⟨names c!"L" _ (by rfl) (by decide), ⟨by unfold NestedStart; decide, by decide⟩, by unfold UniqueKeys; decide, .inl trivial, fun _ => ?_⟩
      refine ⟨names c!"lambda" _ (by rfl) (by decide), ⟨by unfold NestedStart; decide, by decide⟩, by unfold UniqueKeys; decide, .inl trivial, fun _ => ?_⟩
      refine ⟨names c!"ndarray" _ (by rfl) (by decide), ⟨by unfold NestedStart; decide, by decide⟩, by unfold UniqueKeys; decide, .inl trivial, fun _ => ?_⟩
      exact .inl (goodBody_plain (by decide) (by rintro c r h; cases h; rfl))
    · simp only [Printable]

theorem exSeen_loadable (F : Frag) : LoadableWhat F exEnv exSeenAs := by
  refine ⟨fun h => absurd rfl h, ?_⟩
  intro k v hm _
  simp only [exSeenAs, List.mem_cons, Prod.mk.injEq, List.not_mem_nil, or_false] at hm
  rcases hm with ⟨-, rfl⟩ | ⟨-, rfl⟩ | ⟨-, rfl⟩ <;> simp [Loadable, LoadableA, LoadableL]

example : idD exSeen = .ok c!"f(a=g(x=1,y=2),b=L(seq=[lambda(k=ndarray(hash='ab'))]),n=3)" := by rfl
example : ∃ s w', idD exSeen = .ok s ∧ parseWhatid exEnv s = .ok w' ∧ pyEq exEnv.fi true exSeenAs.toVal w'.toVal = true :=
  c77_read true exSeen_seen (exSeen_printable _) (exSeen_loadable _) (.inl rfl)
example : ∃ s w', idD exSeen = .ok s ∧ parseWhatid exEnv s = .ok w' ∧ idD w' = .ok s := c77_again exSeen_seen (exSeen_printable _) (exSeen_loadable _)

/-- The object of C48's example, made whatable: what stands for it. -/
example : ∃ v, exInst.toVal (some {}) c!"<B>" = .ok v ∧
    StandIn v (.what c!"B" [(c!"c", .int 5), (c!"p", .int 4), (c!"s", .int 3), (c!"q", .int 2)] [] none) := by
  refine ⟨_, rfl, .whatable (ob := exInst) (o := {}) (s := c!"<B>") exInst_ok rfl (by unfold UniqueKeys; decide) fun n x => ?_⟩
  obtain ⟨cd, h⟩ : ∃ cd, configDictInst {} exInst = .ok cd := ⟨_, rfl⟩
  have hs := (c48_sources exInst_ok h).2 n x
  have ht := (c25_exact {} cd).1 n x
  cases h
  rw [hs] at ht
  exact ht.trans and_comm

/-- An instance of a subclass of OrderedDict with a public, a private and a hidden attribute. -/
example : StandIn (.odict c!"O" [(c!"b", .int 1), (c!"_c", .int 2), (c!"seq", .int 3)] [(.int 1, .none)])
    (.what c!"O" [(c!"b", .int 1), (c!"seq", .list [.tuple [.int 1, .none]])] [] none) := by
  refine .odict (by unfold UniqueKeys; decide) (by unfold UniqueKeys; decide) fun n x => ?_
  simp only [List.mem_cons, Prod.mk.injEq, List.not_mem_nil, or_false, List.map_cons, List.map_nil]
  constructor
  · rintro (⟨rfl, rfl⟩ | h)
    · exact .inr ⟨by decide, by unfold Public; decide, .inl ⟨rfl, rfl⟩⟩
    · exact .inl h
  · rintro (h | ⟨h1, h2, h | ⟨rfl, -⟩ | h⟩)
    · exact .inr h
    · exact .inl h
    · exact absurd ⟨c!"c", rfl⟩ h2.1
    · exact absurd h.1 h1

/-- A curry of a curry: `curry(curry(f, 1), b=None)` for `def f(a, b, c, d=3)`. -/
example : StandIn (.part false (.part false (.func c!"f" exArgs [.int 3]) [.int 1] []) [] [(c!"b", .none)])
    (.what c!"f" [(c!"a", .int 1), (c!"b", .none), (c!"d", .int 3)] [] none) := by
  have hc : Calls (.part false (.part false (.func c!"f" exArgs [.int 3]) [.int 1] []) [] [(c!"b", .none)]) [] (fun _ => none) (.func c!"f" exArgs [.int 3]) _ _ :=
    .part _ _ _ (.part _ _ _ (.func _ _ _ _ _))
  have hs : Signature exArgs [Val.int 3] := ⟨by decide, by decide⟩
  have hk : KwDicts (.part false (.part false (.func c!"f" exArgs [.int 3]) [.int 1] []) [] [(c!"b", .none)]) := by simp [KwDicts]
  have hp : PosOnce (.part false (.part false (.func c!"f" exArgs [.int 3]) [.int 1] []) [] [(c!"b", .none)]) := by simp [PosOnce, NoPos]
  obtain ⟨-, hf, hu, hb⟩ := c27_binding_partial (m := c!"f") (d := [(c!"d", .int 3), (c!"b", .none), (c!"a", .int 1)]) hs hk hp hc rfl
  have hperm : ∀ k x, (k, x) ∈ [(c!"a", Val.int 1), (c!"b", .none), (c!"d", .int 3)] ↔ (k, x) ∈ [(c!"d", Val.int 3), (c!"b", .none), (c!"a", .int 1)] := by
    intro k x
    simp only [List.mem_cons, List.not_mem_nil, or_false]
    exact ⟨fun h => h.elim (fun h => .inr (.inr h)) (fun h => h.elim (fun h => .inr (.inl h)) .inl), fun h => h.elim (fun h => .inr (.inr h)) (fun h => h.elim (fun h => .inr (.inl h)) .inl)⟩
  refine .curries (n := c!"f") hs hk hp hc hf ?_ (by unfold UniqueKeys; decide) fun k x => by rw [hperm, ← hb, dget_mem_iff hu]
  rintro k u x ⟨i, h1, h2⟩ ⟨j, h3, h4⟩
  have hi : i = 0 := by cases i with | zero => rfl | succ i => simp at h2
  have hj : j = 0 := by cases j with | zero => rfl | succ j => simp at h4
  subst hi hj
  simp [exArgs] at h1 h3
  subst h1
  simp at h3

end Whatami
