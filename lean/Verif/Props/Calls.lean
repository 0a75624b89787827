import Verif.Spec.Call
import Verif.Spec.Same
import Verif.Misc
import Verif.IdLemmas

/-
Properties of `callable2call`: C27.
-/
namespace Whatami

theorem mem_zip_iff {α β : Type} {l : List α} {m : List β} {a : α} {b : β} : (a, b) ∈ l.zip m ↔ ∃ i : Nat, l[i]? = some a ∧ m[i]? = some b := by
  rw [List.mem_iff_getElem?]
  simp [List.getElem?_zip_eq_some]

theorem dkeys_zip_nodup {l : List Str} {m : List Val} (h : l.Nodup) : (dkeys (l.zip m)).Nodup := by
  induction l generalizing m with
  | nil => simp [dkeys]
  | cons a l ih =>
    cases m with
    | nil => simp [dkeys]
    | cons b m =>
      simp only [List.zip_cons_cons, dkeys, List.map_cons, List.nodup_cons]
      rw [List.nodup_cons] at h
      refine ⟨?_, ih h.2⟩
      intro hm
      obtain ⟨⟨x, y⟩, hx, e⟩ := List.mem_map.1 hm
      exact h.1 (e ▸ (List.of_mem_zip hx).1)

theorem dget_iff {d : Conf} (h : (dkeys d).Nodup) {k : Str} {v : Val} : dget d k = some v ↔ (k, v) ∈ d := ⟨mem_of_dget, dget_eq_some_of_mem h⟩

theorem pyLast_zip {args : List Str} {ds : List Val} {k : Str} {v : Val} : (k, v) ∈ (pyLast ds.length args).zip ds ↔ DefaultFor args ds k v := by
  rw [mem_zip_iff]
  simp only [DefaultFor, pyLast]
  cases ds with
  | nil => simp
  | cons d ds => simp [List.getElem?_drop]

theorem pyLast_nodup {args : List Str} {n : Nat} (h : args.Nodup) : (pyLast n args).Nodup := by
  simp only [pyLast]
  split
  · exact h
  · exact h.sublist (List.drop_sublist _ _)

theorem take_zip {args : List Str} {pos : List Val} {k : Str} {v : Val} : (k, v) ∈ (args.take pos.length).zip pos ↔ PosFor args pos k v := by
  rw [mem_zip_iff]
  simp only [PosFor]
  constructor
  · rintro ⟨i, h1, h2⟩
    have hi : i < pos.length := (List.getElem?_eq_some_iff.1 h2).1
    rw [List.getElem?_take_of_lt hi] at h1
    exact ⟨i, h1, h2⟩
  · rintro ⟨i, h1, h2⟩
    have hi : i < pos.length := (List.getElem?_eq_some_iff.1 h2).1
    exact ⟨i, by rw [List.getElem?_take_of_lt hi]; exact h1, h2⟩

/-- Keywords over defaults. -/
def KwOrDefault (args : List Str) (ds : List Val) (kw : Str → Option Val) (k : Str) (v : Val) : Prop :=
  kw k = some v ∨ kw k = none ∧ DefaultFor args ds k v

theorem kw_get {args : List Str} {ds : List Val} {kw : Conf} (hs : Signature args ds) (hk : UniqueKeys kw) {k : Str} {v : Val} :
    dget (dictOf ((pyLast ds.length args).zip ds ++ kw)) k = some v ↔ KwOrDefault args ds (dget kw) k v := by
  have e : dictOf ((pyLast ds.length args).zip ds ++ kw) = dupdate (dictOf ((pyLast ds.length args).zip ds)) kw := by
    simp [dictOf, dupdate, List.foldl_append]
  have hz := dkeys_zip_nodup (m := ds) (pyLast_nodup (n := ds.length) hs.1)
  have hd : dget (dictOf ((pyLast ds.length args).zip ds)) k = dget ((pyLast ds.length args).zip ds) k :=
    dget_perm (nodup_dictOf _) (dictOf_nodup hz) k
  rw [e, dget_dupdate, dget_reverse hk, hd]
  simp only [KwOrDefault]
  cases h : dget kw k with
  | some u => simp
  | none => simp [dget_iff hz, pyLast_zip]

theorem pos_get {args : List Str} {pos : List Val} (hs : args.Nodup) {k : Str} {v : Val} :
    dget (dictOf ((args.take pos.length).zip pos)) k = some v ↔ PosFor args pos k v := by
  have hz := dkeys_zip_nodup (m := pos) (hs.sublist (List.take_sublist pos.length args))
  rw [dget_perm (nodup_dictOf _) (dictOf_nodup hz) k, dget_iff hz, take_zip]

theorem dhas_exists {d : Conf} {k : Str} : dhas d k = true ↔ ∃ v, dget d k = some v := by
  simp [dhas, Option.isSome_iff_exists]

theorem length_le_of_subset {l m : List Str} (h : l.Nodup) (hs : l ⊆ m) : l.length ≤ m.length := by
  induction l generalizing m with
  | nil => simp
  | cons a l ih =>
    rw [List.nodup_cons] at h
    have ha : a ∈ m := hs (by simp)
    have hle := ih h.2 (m := m.erase a) (by
      intro b hb
      refine (List.mem_erase_of_ne ?_).2 (hs (by simp [hb]))
      intro e; exact h.1 (e ▸ hb))
    rw [List.length_erase_of_mem ha] at hle
    have := List.length_pos_of_mem ha
    simp only [List.length_cons]
    omega

theorem eraseDups_nodup {l : List Str} (h : l.Nodup) : l.eraseDups = l := by
  induction l with
  | nil => rfl
  | cons a l ih =>
    rw [List.nodup_cons] at h
    rw [List.eraseDups_cons]
    have : l.filter (fun b => !b == a) = l := by
      rw [List.filter_eq_self]
      intro b hb
      simp only [Bool.not_eq_true', beq_eq_false_iff_ne]
      intro e; exact h.1 (e ▸ hb)
    rw [this, ih h.2]

/-- A reported name: angle brackets are dropped. -/
def Reported (n m : Str) : Prop := m = n.filter fun c => !(c == '<') && !(c == '>')

section
variable {n : Str} {args : List Str} {ds pos : List Val} {kw : Conf}

/-- The function case: if it reports, the arguments fit and the report is the binding. -/
theorem funcCall_sound (hs : Signature args ds) (hk : UniqueKeys kw) {m : Str} {d : Conf} (h : funcCall n args ds pos kw = .ok (m, d)) :
    Reported n m ∧ Fits args pos (dget kw) ∧ UniqueKeys d ∧ ∀ k v, dget d k = some v ↔ Bound args ds pos (dget kw) k v := by
  simp only [funcCall] at h
  split at h
  · cases h
  rename_i h1
  split at h
  · cases h
  rename_i h2
  split at h
  · cases h
  rename_i h3
  simp only [Except.ok.injEq, Prod.mk.injEq] at h
  obtain ⟨hm, hd⟩ := h
  have kwk : ∀ k v, KwOrDefault args ds (dget kw) k v → k ∈ args ∧ ¬ ∃ u, PosFor args pos k u := by
    intro k v hkv
    have hg := (kw_get hs hk).2 hkv
    refine ⟨?_, ?_⟩
    · simp only [Bool.not_eq_true, List.any_eq_false, List.contains_eq_mem, decide_eq_true_eq, Bool.not_eq_eq_eq_not] at h1
      have := h1 (k, v) (mem_of_dget hg)
      simpa using this
    · rintro ⟨u, hu⟩
      have hp := (pos_get hs.1).2 hu
      simp only [Bool.not_eq_true, List.any_eq_false] at h2
      have h4 := h2 (k, u) (mem_of_dget hp)
      rw [dhas_exists.2 ⟨v, hg⟩] at h4; cases h4
  refine ⟨hm.symm, ⟨?_, fun k v hkv => kwk k v (.inl hkv)⟩, hd ▸ nodup_dictOf _, ?_⟩
  · rw [eraseDups_nodup hs.1] at h3; omega
  · intro k v
    have e : ∀ a b : Conf, dictOf (a ++ b) = dupdate (dictOf a) b := by intro a b; simp [dictOf, dupdate, List.foldl_append]
    rw [← hd, e, dget_dupdate, dget_reverse (nodup_dictOf _)]
    rw [dget_perm (nodup_dictOf _) (dictOf_nodup (nodup_dictOf _)) k]
    cases hp : dget (dictOf ((args.take pos.length).zip pos)) k with
    | some u =>
      have hu := (pos_get hs.1).1 hp
      simp only [Option.some.injEq, Bound]
      constructor
      · intro e; exact .inl (e ▸ hu)
      · rintro (hv | ⟨hn, _⟩)
        · have := (pos_get hs.1).2 hv
          rw [hp] at this; exact Option.some.inj this
        · exact absurd ⟨u, hu⟩ hn
    | none =>
      have hn : ¬ ∃ u, PosFor args pos k u := by
        rintro ⟨u, hu⟩
        rw [(pos_get hs.1).2 hu] at hp; cases hp
      rw [kw_get hs hk]
      simp only [Bound, KwOrDefault]
      constructor
      · intro h; exact .inr ⟨hn, h⟩
      · rintro (h | ⟨_, h⟩)
        · exact absurd ⟨v, h⟩ hn
        · exact h

/-- The function case: it reports if the arguments fit and no parameter with a default is given by position. -/
theorem funcCall_complete (hs : Signature args ds) (hk : UniqueKeys kw) (hf : Fits args pos (dget kw))
    (hd : ∀ k u v, PosFor args pos k u → ¬ DefaultFor args ds k v) : ∃ d, funcCall n args ds pos kw = .ok (n.filter (fun c => !(c == '<') && !(c == '>')), d) := by
  have kwk : ∀ k v, KwOrDefault args ds (dget kw) k v → k ∈ args ∧ ¬ ∃ u, PosFor args pos k u := by
    rintro k v (h | ⟨_, h⟩)
    · exact hf.2 k v h
    · refine ⟨?_, fun ⟨u, hu⟩ => hd k u v hu h⟩
      obtain ⟨i, hi, _⟩ := h
      exact List.mem_of_getElem? hi
  have mem : ∀ k v, (k, v) ∈ dictOf ((pyLast ds.length args).zip ds ++ kw) → k ∈ args ∧ ¬ ∃ u, PosFor args pos k u := by
    intro k v hm
    exact kwk k v ((kw_get hs hk).1 (dget_eq_some_of_mem (nodup_dictOf _) hm))
  simp only [funcCall]
  rw [if_neg, if_neg, if_neg]
  · exact ⟨_, rfl⟩
  · rw [eraseDups_nodup hs.1]
    have hsub : dkeys (dictOf ((pyLast ds.length args).zip ds ++ kw)) ++ args.take pos.length ⊆ args := by
      intro k hk'
      rcases List.mem_append.1 hk' with h | h
      · obtain ⟨⟨k', v⟩, hm, e⟩ := List.mem_map.1 h
        exact e ▸ (mem k' v hm).1
      · exact List.mem_of_mem_take h
    have hnd : (dkeys (dictOf ((pyLast ds.length args).zip ds ++ kw)) ++ args.take pos.length).Nodup := by
      rw [List.nodup_append]
      refine ⟨nodup_dictOf _, hs.1.sublist (List.take_sublist _ _), ?_⟩
      intro a ha b hb e
      subst e
      obtain ⟨⟨k', v⟩, hm, e⟩ := List.mem_map.1 ha
      simp only at e
      subst e
      obtain ⟨i, hi⟩ := List.mem_iff_getElem?.1 hb
      have hlt : i < pos.length := by
        have := (List.getElem?_eq_some_iff.1 hi).1
        rw [List.length_take] at this; omega
      rw [List.getElem?_take_of_lt hlt] at hi
      exact (mem _ v hm).2 ⟨pos[i], i, hi, by simp⟩
    have := length_le_of_subset hnd hsub
    simp only [List.length_append, dkeys, List.length_map, List.length_take] at this
    have := hf.1
    omega
  · simp only [List.any_eq_true]
    rintro ⟨⟨k, u⟩, hm, hh⟩
    have hu := (pos_get hs.1).1 (dget_eq_some_of_mem (nodup_dictOf _) hm)
    obtain ⟨v, hv⟩ := dhas_exists.1 hh
    exact (mem k v (mem_of_dget hv)).2 ⟨u, hu⟩
  · simp only [List.any_eq_true]
    rintro ⟨⟨k, v⟩, hm, hh⟩
    have := (mem k v hm).1
    simp_all

end

/-! ### Chains of partials -/

theorem dget_over (a b : Conf) (hb : UniqueKeys b) (k : Str) (ha : UniqueKeys a) :
    dget (dictOf (a ++ b)) k = (dget b k).or (dget a k) := by
  have e : dictOf (a ++ b) = dupdate (dictOf a) b := by simp [dictOf, dupdate, List.foldl_append]
  rw [e, dget_dupdate, dget_reverse hb, dget_perm (nodup_dictOf _) (dictOf_nodup ha) k]
  cases dget b k <;> rfl

theorem calls_eq {n : Str} {args : List Str} {ds pos' : List Val} {kw' : Str → Option Val} (v : Val) (pos : List Val) (kw : Conf) :
    UniqueKeys kw → KwDicts v → (pos = [] ∧ PosOnce v) ∨ NoPos v → Calls v pos (dget kw) (.func n args ds) pos' kw' →
    ∃ kwc, UniqueKeys kwc ∧ dget kwc = kw' ∧ callable2call v pos kw = funcCall n args ds pos' kwc := by
  induction v, pos, kw using callable2call.induct with
  | case1 n' args' ds' pos kw =>
    intro hk _ _ hc
    cases hc
    exact ⟨kw, hk, rfl, rfl⟩
  | case2 p g a k args' kws pos kw ih =>
    intro hk hd hp hc
    simp only [KwDicts] at hd
    cases hc with
    | part _ _ _ hc =>
      cases hc with
      | part _ _ _ hc =>
        have hpos : a ++ (args' ++ pos) = pos ++ (a ++ args') := by
          rcases hp with ⟨rfl, -⟩ | hp
          · simp
          · simp only [NoPos] at hp
            simp [hp.1, hp.2.1]
        have hu : UniqueKeys (dupdate k kws) := nodup_dupdate hd.2.1 _
        have hkw : (fun x => ((dget kw x).or (dget kws x)).or (dget k x)) =
            dget (dictOf (dupdate k kws ++ kw)) := by
          funext x
          rw [dget_over _ _ hk _ hu, dget_dupdate, dget_reverse hd.1]
          cases dget kw x <;> cases dget kws x <;> rfl
        rw [hpos] at hc
        simp only [hkw] at hc
        obtain ⟨kwc, h1, h2, h3⟩ := ih (nodup_dictOf _) hd.2.2 (by
          rcases hp with ⟨rfl, hp⟩ | hp
          · simp only [PosOnce, NoPos] at hp
            rcases hp with ⟨rfl, ⟨rfl, hp⟩ | hp⟩ | hp
            · exact .inl ⟨rfl, hp⟩
            · exact .inr hp
            · exact .inr hp.2
          · simp only [NoPos] at hp; exact .inr hp.2.2) hc
        exact ⟨kwc, h1, h2, h3⟩
  | case3 p f args' kws pos kw hne ih =>
    intro hk hd hp hc
    simp only [KwDicts] at hd
    cases hc with
    | part _ _ _ hc =>
      have hpos : args' ++ pos = pos ++ args' := by
        rcases hp with ⟨rfl, -⟩ | hp
        · simp
        · simp only [NoPos] at hp
          simp [hp.1]
      have hkw : (fun x => (dget kw x).or (dget kws x)) = dget (dictOf (kws ++ kw)) := by
        funext x
        rw [dget_over _ _ hk _ hd.1]
      rw [hpos, hkw] at hc
      obtain ⟨kwc, h1, h2, h3⟩ := ih (nodup_dictOf _) hd.2 (by
        rcases hp with ⟨rfl, hp⟩ | hp
        · simp only [PosOnce] at hp
          rcases hp with ⟨rfl, hp⟩ | hp
          · exact .inl ⟨rfl, hp⟩
          · exact .inr hp
        · simp only [NoPos] at hp; exact .inr hp.2) hc
      refine ⟨kwc, h1, h2, ?_⟩
      rw [← h3]
      cases f with
      | part q => cases q with
        | true => exact absurd rfl (hne _ _ _)
        | false => rfl
      | _ => rfl
  | case9 v pos kw h1 h2 h3 =>
    intro _ _ _ hc
    cases hc with
    | func => exact absurd rfl (h1 _ _ _)
    | part => exact absurd rfl (h3 _ _ _ _)
  | _ => intro _ _ _ hc; cases hc

/-- C27. Whatever chain of plain partials and curries in which at most one has positional arguments: if `callable2call` reports, then the arguments fit the function, and the
report is exactly what the call would bind. -/
theorem c27_binding_partial {v : Val} {n : Str} {args : List Str} {ds pos : List Val} {kw : Str → Option Val} (hs : Signature args ds) (hd : KwDicts v)
    (hp : PosOnce v) (hc : Calls v [] (fun _ => none) (.func n args ds) pos kw) {m : Str} {d : Conf} (h : callable2call v [] [] = .ok (m, d)) :
    Reported n m ∧ Fits args pos kw ∧ UniqueKeys d ∧ ∀ k x, dget d k = some x ↔ Bound args ds pos kw k x := by
  obtain ⟨kwc, h1, h2, h3⟩ := calls_eq v [] [] (by simp [UniqueKeys]) hd (.inl ⟨rfl, hp⟩) hc
  rw [h3] at h
  have := funcCall_sound hs h1 h
  rw [h2] at this
  exact this

/-- C27, the other direction: it does report if the arguments fit and no parameter with a default is given by position. -/
theorem c27_reports_partial {v : Val} {n : Str} {args : List Str} {ds pos : List Val} {kw : Str → Option Val} (hs : Signature args ds) (hd : KwDicts v)
    (hp : PosOnce v) (hc : Calls v [] (fun _ => none) (.func n args ds) pos kw) (hf : Fits args pos kw)
    (hdef : ∀ k u x, PosFor args pos k u → ¬ DefaultFor args ds k x) : ∃ m d, callable2call v [] [] = .ok (m, d) := by
  obtain ⟨kwc, h1, h2, h3⟩ := calls_eq v [] [] (by simp [UniqueKeys]) hd (.inl ⟨rfl, hp⟩) hc
  rw [h3]
  subst h2
  obtain ⟨d, h⟩ := funcCall_complete (n := n) hs h1 hf hdef
  exact ⟨_, d, h⟩

theorem applyAll_part (f : Val) (apps : List (List Val × Conf)) (hu : ∀ a ∈ apps, UniqueKeys a.2) (a : List Val) (k : Conf) (hk : UniqueKeys k) :
    ∃ k', UniqueKeys k' ∧ applyAll (.part true f a k) apps = .part true f (a ++ allPos apps) k' ∧
      ∀ x, dget k' x = (allKw apps x).or (dget k x) := by
  induction apps generalizing a k with
  | nil => exact ⟨k, hk, by simp [applyAll, allPos], fun x => by simp [allKw]⟩
  | cons e apps ih =>
    obtain ⟨args, kws⟩ := e
    simp only [applyAll, partialOf]
    obtain ⟨k', h1, h2, h3⟩ := ih (fun a ha => hu a (by simp [ha])) (a ++ args) (dupdate k kws) (nodup_dupdate hk _)
    refine ⟨k', h1, by rw [h2]; simp [allPos], fun x => ?_⟩
    rw [h3, dget_dupdate, dget_reverse (hu (args, kws) (by simp))]
    simp only [allKw]
    cases allKw apps x <;> cases dget kws x <;> rfl

theorem applyAll_func {n : Str} {args : List Str} {ds : List Val} (apps : List (List Val × Conf)) (hu : ∀ a ∈ apps, UniqueKeys a.2) :
    ∃ kwc, UniqueKeys kwc ∧ dget kwc = allKw apps ∧ callable2call (applyAll (.func n args ds) apps) [] [] = funcCall n args ds (allPos apps) kwc := by
  cases apps with
  | nil => exact ⟨[], by simp [UniqueKeys], by funext x; rfl, rfl⟩
  | cons e apps =>
    obtain ⟨a, kws⟩ := e
    have hk : UniqueKeys kws := hu (a, kws) (by simp)
    obtain ⟨k', h1, h2, h3⟩ := applyAll_part (.func n args ds) apps (fun a ha => hu a (by simp [ha])) a kws hk
    refine ⟨dictOf (k' ++ []), nodup_dictOf _, ?_, ?_⟩
    · funext x
      rw [dget_over _ _ (by simp [UniqueKeys]) _ h1]
      simp only [dget, h3, allKw, Option.none_or]
    · simp only [applyAll, partialOf, h2]
      simp [callable2call, allPos]

/-- C27 for `functools.partial`: for any number of partial applications of any function, if `callable2call` reports, then the arguments fit the function
and the report is exactly what the call would bind: positional arguments from the innermost to the outermost partial, keywords of the outermost
partial that gives them, defaults. -/
theorem c27_partials {n : Str} {args : List Str} {ds : List Val} (hs : Signature args ds) (apps : List (List Val × Conf)) (hu : ∀ a ∈ apps, UniqueKeys a.2)
    {m : Str} {d : Conf} (h : callable2call (applyAll (.func n args ds) apps) [] [] = .ok (m, d)) :
    Reported n m ∧ Fits args (allPos apps) (allKw apps) ∧ UniqueKeys d ∧ ∀ k x, dget d k = some x ↔ Bound args ds (allPos apps) (allKw apps) k x := by
  obtain ⟨kwc, h1, h2, h3⟩ := applyAll_func (n := n) (args := args) (ds := ds) apps hu
  rw [h3] at h
  have := funcCall_sound hs h1 h
  rwa [h2] at this

/-- C27 for `functools.partial`: it reports exactly if the arguments fit and no parameter with a default is given by position. -/
theorem c27_partials_iff {n : Str} {args : List Str} {ds : List Val} (hs : Signature args ds) (apps : List (List Val × Conf)) (hu : ∀ a ∈ apps, UniqueKeys a.2) :
    (∃ m d, callable2call (applyAll (.func n args ds) apps) [] [] = .ok (m, d)) ↔
      Fits args (allPos apps) (allKw apps) ∧ ∀ k u x, PosFor args (allPos apps) k u → ¬ DefaultFor args ds k x := by
  obtain ⟨kwc, h1, h2, h3⟩ := applyAll_func (n := n) (args := args) (ds := ds) apps hu
  rw [h3, ← h2]
  constructor
  · rintro ⟨m, d, h⟩
    refine ⟨(funcCall_sound hs h1 h).2.1, ?_⟩
    intro k u x hu hx
    simp only [funcCall] at h
    split at h
    · cases h
    split at h
    · cases h
    rename_i _ h2'
    simp only [Bool.not_eq_true, List.any_eq_false] at h2'
    have hg := h2' (k, u) (mem_of_dget ((pos_get hs.1).2 hu))
    have : ∃ y, KwOrDefault args ds (dget kwc) k y := by
      cases hkw : dget kwc k with
      | some y => exact ⟨y, .inl hkw⟩
      | none => exact ⟨x, .inr ⟨hkw, hx⟩⟩
    obtain ⟨y, hy⟩ := this
    simp [dhas_exists.2 ⟨y, (kw_get hs h1).2 hy⟩] at hg
  · rintro ⟨hf, hd⟩
    obtain ⟨d, h⟩ := funcCall_complete (n := n) hs h1 hf hd
    exact ⟨_, d, h⟩

/-- C27 is false of the code for a partial of a toolz curry: the positional arguments are reported in the wrong order, whatever they are. -/
theorem c27_curry_swapped (n p q : Str) (hpq : p ≠ q) (x y : Val) :
    Calls (.part true (.part false (.func n [p, q] []) [x] []) [y] []) [] (fun _ => none) (.func n [p, q] []) [x, y] (fun _ => none) ∧
      Bound [p, q] [] [x, y] (fun _ => none) p x ∧
      ∃ m, callable2call (.part true (.part false (.func n [p, q] []) [x] []) [y] []) [] [] = .ok (m, [(p, y), (q, x)]) := by
  refine ⟨.part _ _ _ (.part _ _ _ (.func _ _ _ _ _)), .inl ⟨0, rfl, rfl⟩, n.filter (fun c => !(c == '<') && !(c == '>')), ?_⟩
  · simp [callable2call, funcCall, pyLast, dictOf, dupdate, dset, dhas, dget, hpq, List.eraseDups_cons, hpq.symm]

/-- `partial(partial(f, 1, c=5), c=6, b=2)` for `def f(a, b, c=3, d=4)`. -/
def exApps : List (List Val × Conf) := [([.int 1], [(c!"c", .int 5)]), ([], [(c!"c", .int 6), (c!"b", .int 2)])]
def exArgs : List Str := [c!"a", c!"b", c!"c", c!"d"]
example : callable2call (applyAll (.func c!"<f>" exArgs [.int 3, .int 4]) exApps) [] [] =
    .ok (c!"f", [(c!"c", .int 6), (c!"d", .int 4), (c!"b", .int 2), (c!"a", .int 1)]) := by rfl
example : Signature exArgs [.int 3, .int 4] ∧ (∀ a ∈ exApps, UniqueKeys a.2) ∧ allPos exApps = [.int 1] ∧ allKw exApps c!"c" = some (.int 6) ∧
    Fits exArgs (allPos exApps) (allKw exApps) := by
  have hs : Signature exArgs [.int 3, .int 4] := ⟨by decide, by decide⟩
  have hu : ∀ a ∈ exApps, UniqueKeys a.2 := by
    intro a ha
    simp only [exApps, List.mem_cons, List.not_mem_nil, or_false] at ha
    rcases ha with rfl | rfl <;> unfold UniqueKeys <;> decide
  exact ⟨hs, hu, rfl, rfl, (c27_partials hs exApps hu (m := c!"f") (n := c!"<f>") rfl).2.1⟩
/-- A curry of a partial with positional arguments at one level. -/
example : PosOnce (.part false (.part false (.func c!"f" exArgs [.int 3]) [.int 1] []) [] [(c!"b", .none)]) ∧
    KwDicts (.part false (.part false (.func c!"f" exArgs [.int 3]) [.int 1] []) [] [(c!"b", .none)]) ∧
    Calls (.part false (.part false (.func c!"f" exArgs [.int 3]) [.int 1] []) [] [(c!"b", .none)]) [] (fun _ => none)
      (.func c!"f" exArgs [.int 3]) [.int 1] (fun k => ((none : Option Val).or (dget [(c!"b", .none)] k)).or (dget [] k)) :=
  ⟨by simp [PosOnce, NoPos], by simp [KwDicts], .part _ _ _ (.part _ _ _ (.func _ _ _ _ _))⟩
/-- A parameter with a default that is given by position: the call is fine, `callable2call` refuses. -/
example : callable2call (applyAll (.func c!"f" [c!"a"] [.int 3]) [([.int 1], [])]) [] [] = .error .valueError := by rfl

end Whatami
