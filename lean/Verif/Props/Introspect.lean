import Verif.IdLemmas

/-
Properties of the introspection helpers of misc.py: C25, C26.
-/
namespace Whatami

/-! ### C25 -/

/-- C25. `trim_dict` keeps exactly the items whose key is allowed, in order and with their values. -/
theorem c25_exact (o : WhatOpts) (d : Conf) :
    (∀ k v, (k, v) ∈ trimDict o d ↔ (k, v) ∈ d ∧ Public o k) ∧ (trimDict o d).Sublist d := by
  refine ⟨fun k v => ?_, List.filter_sublist⟩
  simp only [trimDict, List.mem_filter, trimKeep_iff]

/-- C25. With an empty (or None) prefix or postfix nothing is kept. -/
theorem c25_empty_affix (o : WhatOpts) (d : Conf) (h : o.prefx = [] ∨ o.postfx = []) : trimDict o d = [] := by
  simp only [trimDict, List.filter_eq_nil_iff, trimKeep]
  rintro ⟨k, v⟩ _
  rcases h with h | h <;> simp [h]

example : trimDict {} [(c!"a", .int 1), (c!"_b", .int 2), (c!"c_", .int 3), (c!"what", .int 4), (c!"d", .none)] =
    [(c!"a", .int 1), (c!"d", .none)] := rfl
example : Public {} c!"a" ∧ ¬ Public {} c!"_a" := by
  rw [← trimKeep_iff, ← trimKeep_iff]; decide

/-! ### C26 -/

/-- The value of an attribute: the strongest enabled source that has it wins. -/
def strongest (o : WhatOpts) (s : Srcs) (k : Str) (v : Val) : Prop :=
  (o.addProps = true ∧ (k, v) ∈ s.pd) ∨
  (¬ (o.addProps = true ∧ ∃ u, (k, u) ∈ s.pd)) ∧
    ((o.addSlots = true ∧ (k, v) ∈ s.sd) ∨
    (¬ (o.addSlots = true ∧ ∃ u, (k, u) ∈ s.sd)) ∧
      ((o.addDict = true ∧ (k, v) ∈ s.dd) ∨
      (¬ (o.addDict = true ∧ ∃ u, (k, u) ∈ s.dd)) ∧ (o.addClass = true ∧ (k, v) ∈ s.cd)))

theorem dget_mem_iff {d : Conf} (h : UniqueKeys d) {k : Str} {v : Val} : dget d k = some v ↔ (k, v) ∈ d :=
  ⟨mem_of_dget, dget_eq_some_of_mem h⟩

theorem dget_none_iff' {d : Conf} {k : Str} : dget d k = none ↔ ¬ ∃ u, (k, u) ∈ d := by
  rw [dget_none_iff]; simp [dkeys]

theorem firstOf_cons_iff {d : Conf} (h : UniqueKeys d) (b : Bool) (ds : List Conf) (k : Str) (v : Val) :
    firstOf k ((if b = true then [d] else []) ++ ds) = some v ↔
      (b = true ∧ (k, v) ∈ d) ∨ (¬ (b = true ∧ ∃ u, (k, u) ∈ d)) ∧ firstOf k ds = some v := by
  cases b with
  | false => simp
  | true =>
    simp only [if_true, List.cons_append, List.nil_append, firstOf, true_and]
    cases hd : dget d k with
    | none =>
      have hn := dget_none_iff'.1 hd
      simp only [hn, not_false_eq_true, true_and]
      constructor
      · exact Or.inr
      · rintro (h' | h')
        · exact absurd ⟨v, h'⟩ hn
        · exact h'
    | some u =>
      have hm := mem_of_dget hd
      simp only [Option.some.injEq]
      constructor
      · rintro rfl; exact Or.inl hm
      · rintro (h' | h')
        · have := (dget_mem_iff h).2 h'
          rw [hd] at this; exact Option.some.inj this
        · exact absurd ⟨u, hm⟩ h'.1

/-- C26. `config_dict_for_object` holds, once, exactly the attributes of the enabled sources, each with the
value of the strongest one: properties over slots over instance dict over class. -/
theorem c26_precedence (o : WhatOpts) (s : Srcs) (h1 : UniqueKeys s.cd) (h2 : UniqueKeys s.dd)
    (h3 : UniqueKeys s.sd) (h4 : UniqueKeys s.pd) :
    UniqueKeys (configDictOfSrcs o s) ∧
    ∀ k v, (k, v) ∈ configDictOfSrcs o s ↔ strongest o s k v := by
  refine ⟨configDict_nodup o s, fun k v => ?_⟩
  rw [← dget_mem_iff (configDict_nodup o s), configDict_dget o s h1 h2 h3 h4, List.append_assoc, List.append_assoc,
    firstOf_cons_iff h4, firstOf_cons_iff h3, firstOf_cons_iff h2]
  have := firstOf_cons_iff h1 o.addClass [] k v
  rw [List.append_nil] at this
  rw [this]
  simp only [firstOf, reduceCtorEq, and_false, or_false, strongest]

/-- C26. An attribute appears exactly if some enabled source has it. -/
theorem c26_keys (o : WhatOpts) (s : Srcs) (k : Str) :
    (∃ v, (k, v) ∈ configDictOfSrcs o s) ↔
      (o.addClass = true ∧ ∃ v, (k, v) ∈ s.cd) ∨ (o.addDict = true ∧ ∃ v, (k, v) ∈ s.dd) ∨
      (o.addSlots = true ∧ ∃ v, (k, v) ∈ s.sd) ∨ (o.addProps = true ∧ ∃ v, (k, v) ∈ s.pd) := by
  have mem : ∀ d : Conf, (∃ v, (k, v) ∈ d) ↔ k ∈ dkeys d := by intro d; simp [dkeys]
  have up : ∀ (b : Bool) (d e : Conf), k ∈ dkeys (if b = true then dupdate d e else d) ↔
      k ∈ dkeys d ∨ (b = true ∧ k ∈ dkeys e) := by
    intro b d e
    cases b with
    | false => simp
    | true =>
      simp only [if_true, true_and]
      clear mem
      induction e generalizing d with
      | nil => simp [dupdate, dkeys]
      | cons x e ih =>
        have : dupdate d (x :: e) = dupdate (dset d x.1 x.2) e := rfl
        rw [this, ih, mem_dkeys_dset]
        simp only [dkeys, List.map_cons, List.mem_cons]
        constructor
        · rintro ((h | h) | h)
          · exact Or.inr (Or.inl h)
          · exact Or.inl h
          · exact Or.inr (Or.inr h)
        · rintro (h | h | h)
          · exact Or.inl (Or.inr h)
          · exact Or.inl (Or.inl h)
          · exact Or.inr h
  simp only [mem, configDictOfSrcs, up]
  simp only [dkeys, List.map_nil, List.not_mem_nil, false_or, or_assoc]

/-- An attribute present in three sources, with the slots disabled. -/
def exSrcs : Srcs := { cd := [(c!"a", .int 0)], dd := [(c!"a", .int 1), (c!"b", .int 5)], sd := [(c!"a", .int 2)] }
example : UniqueKeys exSrcs.cd ∧ UniqueKeys exSrcs.dd ∧ UniqueKeys exSrcs.sd ∧ UniqueKeys exSrcs.pd := by
  unfold UniqueKeys exSrcs; decide
example : configDictOfSrcs { addSlots := false, addClass := true } exSrcs = [(c!"a", .int 1), (c!"b", .int 5)] := rfl
example : configDictOfSrcs {} exSrcs = [(c!"a", .int 2), (c!"b", .int 5)] := rfl

end Whatami
