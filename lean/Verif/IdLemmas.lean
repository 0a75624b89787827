import Verif.CongLemmas
import Verif.StrLemmas

/-
Lemmas about the items that make it to an id.
Definitions here are vocabulary for statements and proofs: the code they are about is cited in the model modules.
-/
namespace Whatami

theorem keyLe_total {α : Type} (a b : Str × α) : keyLe a b = true ∨ keyLe b a = true := strLe_total _ _
theorem keyLe_trans {α : Type} (a b c : Str × α) : keyLe a b = true → keyLe b c = true → keyLe a c = true :=
  strLe_trans _ _ _

theorem unique_eq {α : Type} {c : List (Str × α)} (h : UniqueKeys c) {a b : Str × α} (ha : a ∈ c) (hb : b ∈ c)
    (e : a.1 = b.1) : a = b := by
  obtain ⟨k, v⟩ := a
  obtain ⟨k', v'⟩ := b
  simp only at e; subst e
  have h1 := dget_eq_some_of_mem (d := c) h ha
  have h2 := dget_eq_some_of_mem (d := c) h hb
  rw [h1] at h2; cases h2; rfl

theorem sortKeys_sorted {α : Type} (c : List (Str × α)) : Sorted keyLe (sortBy keyLe c) :=
  sortBy_sorted keyLe_total keyLe_trans c

theorem sortKeys_perm_eq {α : Type} {c c' : List (Str × α)} (h : UniqueKeys c) (p : c.Perm c') :
    sortBy keyLe c = sortBy keyLe c' := by
  apply sorted_perm_eq (le := keyLe)
  · intro a ha b hb h1 h2
    exact unique_eq h (mem_sortBy.1 ha) (mem_sortBy.1 hb) (strLe_antisymm _ _ h1 h2)
  · exact sortKeys_sorted c
  · exact sortKeys_sorted c'
  · exact ((sortBy_perm _ _).trans p).trans (sortBy_perm _ _).symm

theorem idItems_sorted (w : What) (f : Bool) : Sorted keyLe (idItems w f) :=
  List.Pairwise.filter _ (sortKeys_sorted w.conf)

theorem idItems_perm (w : What) (f : Bool) :
    (idItems w f).Perm (w.conf.filter fun kv => f || !w.nonids.contains kv.1) :=
  (sortBy_perm keyLe w.conf).filter _

theorem idItems_eq {w w' : What} {f f' : Bool} (h : UniqueKeys w.conf)
    (p : (w.conf.filter fun kv => f || !w.nonids.contains kv.1).Perm
      (w'.conf.filter fun kv => f' || !w'.nonids.contains kv.1)) : idItems w f = idItems w' f' := by
  apply sorted_perm_eq (le := keyLe)
  · intro a ha b hb h1 h2
    exact unique_eq h (idItems_sub ha) (idItems_sub hb) (strLe_antisymm _ _ h1 h2)
  · exact idItems_sorted w f
  · exact idItems_sorted w' f'
  · exact ((idItems_perm w f).trans p).trans (idItems_perm w' f').symm

theorem idStr_eq_of_items {bs : BS} {w w' : What} {f f' : Bool} (hn : w.name = w'.name) (ho : w.out = w'.out)
    (h : idItems w f = idItems w' f') : idStr bs w f = idStr bs w' f' := by
  simp only [idStr, h, hn, ho]

theorem uniqueKeys_nodup {α : Type} {c : List (Str × α)} (h : UniqueKeys c) : c.Nodup := nodup_of_dkeys h

theorem uniqueKeys_filter {α : Type} {c : List (Str × α)} (h : UniqueKeys c) (p : Str × α → Bool) :
    UniqueKeys (c.filter p) := by
  exact List.Nodup.sublist (List.Sublist.map _ List.filter_sublist) h

theorem agree_perm {nk : List Str} {a b : Conf} (ha : UniqueKeys a) (hb : UniqueKeys b)
    (h : AgreeOnIds nk a b) :
    (a.filter fun kv => false || !nk.contains kv.1).Perm (b.filter fun kv => false || !nk.contains kv.1) := by
  refine (List.perm_ext_iff_of_nodup (uniqueKeys_nodup (uniqueKeys_filter ha _))
    (uniqueKeys_nodup (uniqueKeys_filter hb _))).2 ?_
  rintro ⟨k, v⟩
  simp only [List.mem_filter, Bool.false_or, Bool.not_eq_true', List.contains_eq_mem, decide_eq_false_iff_not]
  constructor
  · rintro ⟨h1, h2⟩; exact ⟨(h k h2 v).1 h1, h2⟩
  · rintro ⟨h1, h2⟩; exact ⟨(h k h2 v).2 h1, h2⟩

/-! ### whatable objects -/

theorem trimKeep_iff (o : WhatOpts) (k : Str) : trimKeep o k = true ↔ Public o k := by
  simp only [trimKeep, Public, startsWith, endsWith, Bool.and_eq_true, Bool.not_eq_true',
    List.contains_eq_mem, ← Bool.not_eq_true, decide_eq_true_eq,
    List.isPrefixOf_iff_prefix, List.isSuffixOf_iff_suffix, List.isEmpty_iff]
  constructor
  · rintro ⟨⟨⟨_, h1⟩, ⟨_, h2⟩⟩, h3⟩; exact ⟨h1, h2, h3⟩
  · rintro ⟨h1, h2, h3⟩
    refine ⟨⟨⟨?_, h1⟩, ⟨?_, h2⟩⟩, h3⟩
    · intro e; rw [e] at h1; exact h1 (List.nil_prefix)
    · intro e; rw [e] at h2; exact h2 (List.nil_suffix)

/-- Lookup in the first of the given dictionaries that has the key. -/
def firstOf (k : Str) : List Conf → Option Val
  | [] => none
  | d :: ds =>
    match dget d k with
    | some v => some v
    | none => firstOf k ds

theorem configDict_nodup (o : WhatOpts) (s : Srcs) : UniqueKeys (configDictOfSrcs o s) := by
  have step : ∀ (b : Bool) (d e : Conf), (dkeys d).Nodup → (dkeys (if b = true then dupdate d e else d)).Nodup := by
    intro b d e h
    cases b
    · exact h
    · exact nodup_dupdate h e
  exact step _ _ _ (step _ _ _ (step _ _ _ (step _ _ _ (by simp [dkeys]))))

theorem configDict_dget (o : WhatOpts) (s : Srcs) (h1 : UniqueKeys s.cd) (h2 : UniqueKeys s.dd)
    (h3 : UniqueKeys s.sd) (h4 : UniqueKeys s.pd) (k : Str) :
    dget (configDictOfSrcs o s) k =
      firstOf k ((if o.addProps then [s.pd] else []) ++ (if o.addSlots then [s.sd] else []) ++
        (if o.addDict then [s.dd] else []) ++ (if o.addClass then [s.cd] else [])) := by
  have up : ∀ (d e : Conf), UniqueKeys e → dget (dupdate d e) k =
      match dget e k with | some v => some v | none => dget d k := by
    intro d e he; rw [dget_dupdate, dget_reverse he]; cases dget e k <;> rfl
  have step : ∀ (b : Bool) (d e : Conf) (r : List Conf), UniqueKeys e → dget d k = firstOf k r →
      dget (if b = true then dupdate d e else d) k = firstOf k ((if b = true then [e] else []) ++ r) := by
    intro b d e r he hd
    cases b
    · simpa using hd
    · simp only [if_true, up d e he, List.cons_append, List.nil_append, firstOf, hd]
  simp only [configDictOfSrcs, List.append_assoc]
  refine step _ _ _ _ h4 (step _ _ _ _ h3 (step _ _ _ _ h2 ?_))
  have := step o.addClass [] s.cd [] h1 rfl
  simpa using this

theorem dget_congr_mem {a b : Conf} (ha : UniqueKeys a) (hb : UniqueKeys b) {k : Str}
    (h : ∀ v, (k, v) ∈ a ↔ (k, v) ∈ b) : dget a k = dget b k := by
  cases e : dget a k with
  | some v => exact (dget_eq_some_of_mem hb ((h v).1 (mem_of_dget e))).symm
  | none =>
    cases e' : dget b k with
    | none => rfl
    | some v => rw [dget_eq_some_of_mem ha ((h v).2 (mem_of_dget e'))] at e; cases e

theorem private_perm {o : WhatOpts} {cd cd' dd dd' sd sd' pd pd' : Conf}
    (u1 : UniqueKeys cd) (u2 : UniqueKeys dd) (u3 : UniqueKeys sd) (u4 : UniqueKeys pd)
    (u1' : UniqueKeys cd') (u2' : UniqueKeys dd') (u3' : UniqueKeys sd') (u4' : UniqueKeys pd')
    (h : ∀ k, Public o k → ∀ v, ((k, v) ∈ cd ↔ (k, v) ∈ cd') ∧ ((k, v) ∈ dd ↔ (k, v) ∈ dd') ∧
        ((k, v) ∈ sd ↔ (k, v) ∈ sd') ∧ ((k, v) ∈ pd ↔ (k, v) ∈ pd')) :
    (trimDict o (configDictOfSrcs o ⟨cd, dd, sd, pd⟩)).Perm (trimDict o (configDictOfSrcs o ⟨cd', dd', sd', pd'⟩)) := by
  refine perm_of_dget (uniqueKeys_filter (configDict_nodup _ _) _) (uniqueKeys_filter (configDict_nodup _ _) _) ?_
  intro k
  rw [trimDict, trimDict, dget_filter, dget_filter]
  split
  · next hk =>
    have hk := (trimKeep_iff o k).1 hk
    rw [configDict_dget o ⟨cd, dd, sd, pd⟩ u1 u2 u3 u4, configDict_dget o ⟨cd', dd', sd', pd'⟩ u1' u2' u3' u4']
    have e1 := dget_congr_mem u1 u1' fun v => (h k hk v).1
    have e2 := dget_congr_mem u2 u2' fun v => (h k hk v).2.1
    have e3 := dget_congr_mem u3 u3' fun v => (h k hk v).2.2.1
    have e4 := dget_congr_mem u4 u4' fun v => (h k hk v).2.2.2
    cases o.addProps <;> cases o.addSlots <;> cases o.addDict <;> cases o.addClass <;>
      simp [firstOf, e1, e2, e3, e4]
  · rfl

/-! ### the four relations leave texts alone -/

theorem uniqueKeys_perm {α : Type} {a b : List (Str × α)} (h : UniqueKeys a) (p : a.Perm b) : UniqueKeys b :=
  (p.map Prod.fst).nodup_iff.1 h

theorem private_text {a b : Val} (h : PrivateChange a b) : SameText buildD a b := by
  cases h with
  | obj c o s s' u1 u2 u3 u4 u1' u2' u3' u4' h =>
    simp only [SameText, buildD_obj, val?_ret]
    exact congrArg _ (congrArg _ (idStr_eq_of_items rfl rfl (idItems_eq (uniqueKeys_filter (configDict_nodup _ _) _)
      ((private_perm u1 u2 u3 u4 u1' u2' u3' u4' h).filter _))))

theorem reorder_text {a b : Val} (h : Reorder a b) : SameText buildD a b := by
  cases h with
  | dict p => simp only [SameText, buildD_dict, val?_ret, dictStr_perm p]
  | set p =>
    have := congrArg (Option.map setStr) (strings_perm (bs := buildD) p)
    simp only [Option.map_map] at this
    simp only [SameText, buildD_set, val?_ret, val?_map]
    exact congrArg _ this
  | fset p =>
    have := congrArg (Option.map fsetStr) (strings_perm (bs := buildD) p)
    simp only [Option.map_map] at this
    simp only [SameText, buildD_fset, val?_ret, val?_map]
    exact congrArg _ this
  | subSet c attrs p =>
    have := congrArg (Option.map fun s => seqId c (setStr s)) (strings_perm (bs := buildD) p)
    simp only [Option.map_map] at this
    simp only [SameText, buildD_sub, val?_ret, val?_map]
    exact congrArg _ this
  | subFset c attrs p =>
    have := congrArg (Option.map fun s => seqId c (setStr s)) (strings_perm (bs := buildD) p)
    simp only [Option.map_map] at this
    simp only [SameText, buildD_sub, val?_ret, val?_map]
    exact congrArg _ this
  | ddict c attrs p => exact ddict_same (All2.rfl' (SameKV.refl _) _) (dictStr_perm p)
  | what n nk o u p =>
    simp only [SameText, buildD_what]
    exact congrArg (fun r => val? (ret r)) (idStr_eq_of_items rfl rfl (idItems_eq u (p.filter _)))
  | duck n nk o u p =>
    simp only [SameText, buildD_duck]
    exact congrArg (fun r => val? (ret r)) (idStr_eq_of_items rfl rfl (idItems_eq u (p.filter _)))
  | obj c cl wh s u1 u2 u3 u4 p1 p2 p3 p4 =>
    cases wh with
    | none => simp only [SameText]; rw [buildD_plain _ rfl, buildD_plain _ rfl]; rfl
    | some o =>
      cases cl with
      | true => simp only [SameText]; rw [buildD_plain _ rfl, buildD_plain _ rfl]; rfl
      | false =>
        exact private_text (.obj c o s s u1 u2 u3 u4 (uniqueKeys_perm u1 p1) (uniqueKeys_perm u2 p2)
          (uniqueKeys_perm u3 p3) (uniqueKeys_perm u4 p4)
          (fun k _ v => ⟨p1.mem_iff, p2.mem_iff, p3.mem_iff, p4.mem_iff⟩))

theorem nonid_text {a b : Val} (h : NonIdChange a b) : SameText buildD a b := by
  cases h with
  | what n nk o u u' h =>
    simp only [SameText, buildD_what]
    exact congrArg (fun r => val? (ret r)) (idStr_eq_of_items rfl rfl (idItems_eq u (agree_perm u u' h)))
  | duck n nk o u u' h =>
    simp only [SameText, buildD_duck]
    exact congrArg (fun r => val? (ret r)) (idStr_eq_of_items rfl rfl (idItems_eq u (agree_perm u u' h)))

theorem quote_text {a b : Val} (h : QuoteChange a b) : SameText buildD a b := by
  cases h with
  | str h => simp only [SameText, buildD_str, strBody_of_quoteEq h]

end Whatami
