import Verif.Old.Facts
import Verif.Old.Quotes
import Verif.Props.Normal

/-
C41: conversion of old-style ids.
-/
namespace Whatami

/-- `s` is an old-style id with this name, these parameters and maybe a prefix `out=o#`. -/
inductive OldId : Option Str → Str → List (Str × OAst) → Str → Prop
  | plain {q : Bool} {n : Str} {kvs : List (Str × OAst)} {s : Str} : OldWf n kvs → OldLayout q n kvs s → OldId none n kvs s
  | out {q : Bool} {n : Str} {kvs : List (Str × OAst)} {s : Str} (o : Str) : '#' ∉ o → OldWf n kvs → OldLayout q n kvs s →
      OldId (some o) n kvs (c!"out=" ++ o ++ '#' :: s)

/-- The `out` parameter made from the prefix. -/
def outParam : Option Str → Conf
  | none => []
  | some o => [(c!"out", .str o)]

/-! ### Layouts do not start with `out=` -/

theorem not_out_prefix {q : Bool} {n : Str} {kvs : List (Str × OAst)} {s : Str} (hn : Ident n) (h : OldLayout q n kvs s) : ¬ c!"out=" <+: s := by
  obtain ⟨p, ws, rfl, hp, _⟩ := h
  intro hpre
  have ws_out : ∀ (w : Str) (x : Str), w.all isWs = true → c!"out=" <+: w ++ x → w = [] := by
    intro w x hw hx
    cases w with
    | nil => rfl
    | cons c w =>
      obtain ⟨t, ht⟩ := hx
      simp only [List.cons_append, List.cons.injEq] at ht
      simp only [List.all_cons, Bool.and_eq_true] at hw
      rw [← ht.1] at hw
      exact absurd hw.1 (by decide)
  simp only [otoks] at hp
  cases q with
  | true =>
    simp only [quoteTok, if_true, List.cons_append, List.nil_append] at hp
    obtain ⟨w1, s1, hw1, rfl, hp1⟩ := padded_cons_iff.1 hp
    rw [List.append_assoc] at hpre
    have := ws_out _ _ hw1 hpre
    subst this
    obtain ⟨t, ht⟩ := hpre
    simp at ht
  | false =>
    simp only [quoteTok] at hp
    obtain ⟨w1, s1, hw1, rfl, hp1⟩ := padded_cons_iff.1 hp
    obtain ⟨w2, s2, hw2, rfl, _⟩ := padded_cons_iff.1 hp1
    rw [List.append_assoc] at hpre
    have := ws_out _ _ hw1 hpre
    subst this
    simp only [List.nil_append, List.append_assoc] at hpre
    have hend : EndsToken (w2 ++ (c!"#" ++ (s2 ++ ws))) := endsToken_pad hw2 (by decide) _
    have h1 : c!"out" <+: n := prefix_name (by decide) hend (List.IsPrefix.trans ⟨c!"=", rfl⟩ hpre)
    obtain ⟨t, rfl⟩ := h1
    obtain ⟨u, hu⟩ := hpre
    have hu' : '=' :: u = t ++ (w2 ++ (c!"#" ++ (s2 ++ ws))) := by
      have : c!"out" ++ ('=' :: u) = c!"out" ++ (t ++ (w2 ++ (c!"#" ++ (s2 ++ ws)))) := by simpa using hu
      exact List.append_cancel_left this
    obtain ⟨c, r, he, hc, hr⟩ := hn
    cases t with
    | nil =>
      cases w2 with
      | nil => simp at hu'
      | cons d w2 =>
        simp only [List.nil_append, List.cons_append, List.cons.injEq] at hu'
        simp only [List.all_cons, Bool.and_eq_true] at hw2
        rw [← hu'.1] at hw2
        exact absurd hw2.1 (by decide)
    | cons d t =>
      simp only [List.cons_append, List.cons.injEq] at hu' he
      have : d ∈ r := by rw [← he.2]; simp
      have := List.all_eq_true.1 hr d this
      rw [← hu'.1] at this
      exact absurd this (by decide)

theorem partition_hash {a b : Str} (h : '#' ∉ a) : partition (a ++ '#' :: b) '#' = (a, b) := by
  have h1 : ∀ c ∈ a, (c != '#') = true := by
    intro c hc
    simp only [bne_iff_ne, ne_eq]
    rintro rfl
    exact h hc
  simp only [partition, List.takeWhile_append_of_pos h1, List.dropWhile_append_of_pos h1]
  simp

theorem split_hash {s : Str} (h : '#' ∈ s) : ∃ a b, '#' ∉ a ∧ s = a ++ '#' :: b := by
  induction s with
  | nil => cases h
  | cons c s ih =>
    by_cases hc : c = '#'
    · exact ⟨[], s, by simp, by simp [hc]⟩
    · rcases List.mem_cons.1 h with e | h
      · exact absurd e.symm hc
      · obtain ⟨a, b, h1, rfl⟩ := ih h
        exact ⟨c :: a, b, by simp [h1, Ne.symm hc], rfl⟩

theorem partition_none {s : Str} (h : '#' ∉ s) : partition s '#' = (s, []) := by
  have h1 : ∀ c ∈ s, (c != '#') = true := by
    intro c hc
    simp only [bne_iff_ne, ne_eq]
    rintro rfl
    exact h hc
  have := List.takeWhile_append_of_pos h1 (l₂ := [])
  have h2 := List.dropWhile_append_of_pos h1 (l₂ := [])
  simp only [List.append_nil] at this h2
  simp only [partition, this, h2]
  simp

/-! ### What `oldid2what` does -/

theorem mem_dkeys_dictOf (l : List (Str × Val)) (k : Str) : k ∈ dkeys (dictOf l) ↔ k ∈ l.map Prod.fst := by
  have key : ∀ (l d : List (Str × Val)), k ∈ dkeys (dupdate d l) ↔ k ∈ dkeys d ∨ k ∈ l.map Prod.fst := by
    intro l
    induction l with
    | nil => intro d; simp [dupdate]
    | cons e l ih =>
      intro d
      have := ih (dset d e.1 e.2)
      simp only [dupdate, List.foldl_cons] at this ⊢
      rw [this, mem_dkeys_dset]
      simp only [List.map_cons, List.mem_cons]
      constructor
      · rintro ((h | h) | h)
        · first | exact .inr (.inl h) | exact .inr (.inl h.symm) | exact .inl h
        · first | exact .inr (.inl h) | exact .inr (.inl h.symm) | exact .inl h
        · exact .inr (.inr h)
      · rintro (h | h | h)
        · first | exact .inl (.inl h) | exact .inl (.inr h)
        · first | exact .inl (.inl h) | exact .inl (.inr h) | exact .inl (.inl h.symm)
        · exact .inr h
  simpa [dkeys, dictOf] using key l []

theorem oldId_parses {E : Env} {o : Option Str} {n : Str} {kvs : List (Str × OAst)} {s : Str} (h : OldId o n kvs s) :
    oldid2what E s = (osemTop E n kvs).bind fun w =>
      if o.isSome && (kvs.map Prod.fst).contains c!"out" then .error .valueError else .ok { w with conf := w.conf ++ outParam o } := by
  cases h with
  | plain hw hl =>
    have h1 : c!"out=".isPrefixOf s = false := by
      cases hp : c!"out=".isPrefixOf s with
      | false => rfl
      | true => exact absurd (List.isPrefixOf_iff_prefix.1 hp) (not_out_prefix hw.1 hl)
    simp only [oldid2what, h1, Bool.false_eq_true, if_false, outParam, List.append_nil]
    rw [Old.parse_layout hw hl]
    cases osemTop E n kvs <;> rfl
  | @out _ _ _ t o ho hw hl =>
    have h1 : c!"out=".isPrefixOf (c!"out=" ++ o ++ '#' :: t) = true := List.isPrefixOf_iff_prefix.2 ⟨o ++ '#' :: t, (List.append_assoc _ _ _).symm⟩
    have h2 : '#' ∉ c!"out=" ++ o := by simp [ho]
    simp only [oldid2what, h1, if_true, partition_hash h2]
    rw [Old.parse_layout hw hl]
    cases hs : osemTop E n kvs with
    | error e => rfl
    | ok w =>
      obtain ⟨l, h3, h4⟩ := except_bind_ok hs
      cases h4
      have hk : c!"out" ∈ dkeys (dictOf l) ↔ (kvs.map Prod.fst).contains c!"out" = true := by
        rw [← Old.osemA_keys kvs l h3, List.contains_iff_mem]
        exact mem_dkeys_dictOf _ _
      cases hc : (kvs.map Prod.fst).contains c!"out" with
      | true => simp only [Except.bind, dhas_iff.2 (hk.2 hc), if_true, Option.isSome, Bool.and_self]
      | false =>
        have hnk : c!"out" ∉ dkeys (dictOf l) := fun h => by rw [hk.1 h] at hc; cases hc
        have hnh : dhas (dictOf l) c!"out" = false := by
          cases hh : dhas (dictOf l) c!"out" with
          | false => rfl
          | true => exact absurd (dhas_iff.1 hh) hnk
        simp only [Except.bind, hnh, Bool.and_false, Bool.false_eq_true, if_false, dset_new hnk, outParam]
        rfl

theorem noDouble {o : Option Str} {kvs : List (Str × OAst)} (hd : o ≠ none → c!"out" ∉ kvs.map Prod.fst) :
    (o.isSome && (kvs.map Prod.fst).contains c!"out") = false := by
  cases o with
  | none => rfl
  | some o => simpa using hd (by simp)

/-- C41. What an old-style id denotes, as a What: that of the same text in new-style syntax, with the parameter `out` added. -/
theorem c41_oldid2what {E : Env} {o : Option Str} {n : Str} {kvs : List (Str × OAst)} {s : Str} (h : OldId o n kvs s)
    (hb : NoBracesA kvs) (hd : o ≠ none → c!"out" ∉ kvs.map Prod.fst) :
    oldid2what E s = (semTop E none n (modernA kvs)).map fun w => { w with conf := w.conf ++ outParam o } := by
  rw [oldId_parses h, Old.osemTop_modern hb]
  simp only [noDouble hd, Bool.false_eq_true, if_false]
  cases semTop E none n (modernA kvs) <;> rfl

/-- C41. `parse_whatid` on any new-style text `t` for the same name and parameters gives the same What, but for the parameter `out`. -/
theorem c41_same_as_new {E : Env} {o : Option Str} {n : Str} {kvs : List (Str × OAst)} {s p ws : Str} (h : OldId o n kvs s)
    (hb : NoBracesA kvs) (hd : o ≠ none → c!"out" ∉ kvs.map Prod.fst) (hw : WfA (modernA kvs)) (hc : NoSetCallA (modernA kvs))
    (hp : Padded (toks (.what none n (modernA kvs))) p) (hws : ws.all isWs = true) :
    oldid2what E s = (parseWhatid E (p ++ ws)).map fun w => { w with conf := w.conf ++ outParam o } := by
  have hn : Ident n := by cases h <;> (rename_i hw _; exact hw.1)
  rw [c41_oldid2what h hb hd, parse_padded (by simp) hn hw hc hp hws]

/-- C41. If the same id also gives an `out` parameter, the call fails, with ValueError if the values are fine. -/
theorem c41_double_out {E : Env} {o n : Str} {kvs : List (Str × OAst)} {s : Str} (h : OldId (some o) n kvs s)
    (hd : c!"out" ∈ kvs.map Prod.fst) :
    (∃ e, id2whatami4 E s = .error e) ∧
      (∀ w, semTop E none n (modernA kvs) = .ok w → NoBracesA kvs → oldid2what E s = .error .valueError ∧ id2whatami4 E s = .error .valueError) := by
  have h1 := oldId_parses (E := E) h
  simp only [Option.isSome, Bool.true_and, List.contains_iff_mem, hd, if_true] at h1
  constructor
  · cases hs : osemTop E n kvs with
    | ok w =>
      rw [hs] at h1
      exact ⟨.valueError, by simp only [id2whatami4, h1, Except.bind]⟩
    | error e =>
      rw [hs] at h1
      refine ⟨e, ?_⟩
      rcases Old.osemTop_error hs with rfl | rfl <;> simp only [id2whatami4, h1, Except.bind]
  · intro w hw hb
    rw [Old.osemTop_modern hb, hw] at h1
    exact ⟨h1, by simp only [id2whatami4, h1, Except.bind]⟩

/-- C41. `{}` in an old-style id makes the conversion fail, with IndexError or TypeError. -/
theorem c41_braces {E : Env} {o : Option Str} {n : Str} {kvs : List (Str × OAst)} {s : Str} (h : OldId o n kvs s) (hb : ¬ NoBracesA kvs) :
    id2whatami4 E s = .error .indexError ∨ id2whatami4 E s = .error .typeError := by
  have h1 := oldId_parses (E := E) h
  cases hs : osemTop E n kvs with
  | ok w =>
    obtain ⟨l, h3, _⟩ := except_bind_ok hs
    exact absurd (Old.noBracesA_of_ok kvs l h3) hb
  | error e =>
    rw [hs] at h1
    rcases Old.osemTop_error hs with rfl | rfl
    · exact .inl (by simp only [id2whatami4, h1, Except.bind])
    · exact .inr (by simp only [id2whatami4, h1, Except.bind])

/-- C41. Strings that are not old-style ids come back unchanged. -/
theorem c41_unchanged {E : Env} {s : Str} (h : ∀ o n kvs, ¬ OldId o n kvs s) : oldid2what E s = .error .noMatch ∧ id2whatami4 E s = .ok s := by
  have key : oldid2what E s = .error .noMatch := by
    cases hp : c!"out=".isPrefixOf s with
    | false =>
      simp only [oldid2what, hp, Bool.false_eq_true, if_false]
      rcases Old.parse_cases (E := E) s with ⟨h', _⟩ | ⟨q, n, kvs, hw, hl, _⟩
      · exact h'
      · exact absurd (.plain hw hl) (h _ _ _)
    | true =>
      obtain ⟨t, rfl⟩ := List.isPrefixOf_iff_prefix.1 hp
      simp only [oldid2what, hp, if_true]
      by_cases hm : '#' ∈ t
      · obtain ⟨o, r, ho, rfl⟩ := split_hash hm
        have h2 : '#' ∉ c!"out=" ++ o := by simp [ho]
        rw [← List.append_assoc, partition_hash h2]
        rcases Old.parse_cases (E := E) r with ⟨h', _⟩ | ⟨q, n, kvs, hw, hl, _⟩
        · simp only [h']
        · exact absurd (by rw [← List.append_assoc]; exact .out o ho hw hl) (h (some o) n kvs)
      · have h2 : '#' ∉ c!"out=" ++ t := by simp [hm]
        rw [partition_none h2]
        rcases Old.parse_cases (E := E) [] with ⟨h', _⟩ | ⟨q, n, kvs, hw, hl, _⟩
        · simp only [h']
        · exfalso
          obtain ⟨p, ws, he, hp', _⟩ := hl
          obtain ⟨rfl, _⟩ := List.append_eq_nil_iff.1 he.symm
          obtain ⟨c, r, rfl, _, _⟩ := hw.1
          simp only [otoks] at hp'
          cases q <;> simp only [quoteTok, if_true, Bool.false_eq_true, if_false, List.nil_append, List.cons_append] at hp' <;>
            obtain ⟨w1, s1, _, he, _⟩ := padded_cons_iff.1 hp' <;> simp at he
  exact ⟨key, by simp only [id2whatami4, key]⟩

theorem oldWhat_plain {E : Env} {o : Option Str} {n : Str} {kvs : List (Str × OAst)} {w : What}
    (hs : osemTop E n kvs = .ok w) (hc : ¬ (o.isSome && (kvs.map Prod.fst).contains c!"out") = true) :
    PlainV (What.toVal { w with conf := w.conf ++ outParam o }) := by
  have hp := Old.osemTop_plain hs
  obtain ⟨l, h3, h4⟩ := except_bind_ok hs
  cases h4
  cases o with
  | none => simpa only [outParam, List.append_nil] using hp
  | some o =>
    simp only [Option.isSome, Bool.true_and, List.contains_iff_mem] at hc
    simp only [What.toVal, PlainV] at hp ⊢
    refine ⟨trivial, ?_, ?_⟩
    · have hk : c!"out" ∉ (dictOf l).map Prod.fst := by
        intro h
        exact hc (by rw [← Old.osemA_keys kvs l h3]; exact (mem_dkeys_dictOf _ _).1 h)
      simp only [UniqueKeys, outParam, List.map_append, List.map_cons, List.map_nil]
      refine List.nodup_append.2 ⟨hp.2.1, by simp, ?_⟩
      intro a ha b hb e
      simp only [List.mem_singleton] at hb
      subst hb e
      exact hk ha
    · rw [plainA_iff] at hp ⊢
      intro k v hm
      rcases List.mem_append.1 hm with hm | hm
      · exact hp.2.2 k v hm
      · simp only [outParam, List.mem_singleton, Prod.mk.injEq] at hm
        rw [hm.2]; trivial

/-- C41. Every string either is an old-style id, and then `id2whatami4` gives the id of its What or raises IndexError, TypeError or
ValueError (never anything else); or it comes back unchanged. -/
theorem c41_total (E : Env) (s : Str) :
    (∃ o n kvs, OldId o n kvs s ∧
      ((∃ w s', oldid2what E s = .ok w ∧ idD w = .ok s' ∧ id2whatami4 E s = .ok s') ∨
       ∃ e, oldid2what E s = .error e ∧ id2whatami4 E s = .error e ∧ (e = .indexError ∨ e = .typeError ∨ (e = .valueError ∧ o ≠ none ∧ c!"out" ∈ kvs.map Prod.fst)))) ∨
    ((∀ o n kvs, ¬ OldId o n kvs s) ∧ id2whatami4 E s = .ok s) := by
  by_cases h : ∃ o n kvs, OldId o n kvs s
  · obtain ⟨o, n, kvs, h⟩ := h
    refine .inl ⟨o, n, kvs, h, ?_⟩
    have h1 := oldId_parses (E := E) h
    cases hs : osemTop E n kvs with
    | error e =>
      rw [hs] at h1
      rcases Old.osemTop_error hs with rfl | rfl
      · exact .inr ⟨_, h1, by simp only [id2whatami4, h1, Except.bind], .inl rfl⟩
      · exact .inr ⟨_, h1, by simp only [id2whatami4, h1, Except.bind], .inr (.inl rfl)⟩
    | ok w =>
      rw [hs] at h1
      simp only [Except.bind] at h1
      split at h1
      · rename_i hc
        simp only [Bool.and_eq_true, Option.isSome_iff_ne_none, List.contains_iff_mem] at hc
        exact .inr ⟨_, h1, by simp only [id2whatami4, h1], .inr (.inr ⟨rfl, hc.1, hc.2⟩)⟩
      · obtain ⟨s', hs'⟩ := idD_plain (oldWhat_plain (o := o) hs (by assumption))
        exact .inl ⟨_, s', h1, hs', by simp only [id2whatami4, h1, hs']⟩
  · exact .inr ⟨fun o n kvs h' => h ⟨o, n, kvs, h'⟩, (c41_unchanged fun o n kvs h' => h ⟨o, n, kvs, h'⟩).2⟩

/-! ### The result is a new-style id -/

theorem wfA_append {xs ys : List (Str × Ast)} (h : WfA xs) (h' : WfA ys) : WfA (xs ++ ys) := by
  induction xs with
  | nil => exact h'
  | cons e xs ih => obtain ⟨k, v⟩ := e; simp only [WfA] at h; exact ⟨h.1, h.2.1, ih h.2.2⟩

/-- The `out` parameter in new-style syntax. -/
def outAst : Option Str → List (Str × Ast)
  | none => []
  | some x => [(c!"out", .str x)]

theorem semTop_modern_out {E : Env} {o : Option Str} {n : Str} {kvs : List (Str × OAst)}
    (hd : o ≠ none → c!"out" ∉ kvs.map Prod.fst) :
    (semTop E none n (modernA kvs)).map (fun w => { w with conf := w.conf ++ outParam o }) =
      semTop E none n (modernA kvs ++ outAst o) := by
  cases o with
  | none =>
    simp only [outParam, outAst, List.append_nil]
    cases semTop E none n (modernA kvs) <;> rfl
  | some x =>
    have happ : ∀ xs : List (Str × Ast), semA E (xs ++ [(c!"out", .str x)]) = (semA E xs).map fun l => l ++ [(c!"out", .str x)] := by
      intro xs
      induction xs with
      | nil => rfl
      | cons e xs ih =>
        obtain ⟨k, v⟩ := e
        simp only [List.cons_append, semA, ih]
        cases sem E v with
        | error e => rfl
        | ok u => cases semA E xs <;> rfl
    simp only [semTop, outAst, happ]
    cases hs : semA E (modernA kvs) with
    | error e => rfl
    | ok l =>
      simp only [Except.bind, Except.map, Option.isSome, Bool.false_and, Bool.false_eq_true, if_false, outParam]
      have hk : c!"out" ∉ dkeys (dictOf l) := by
        intro h
        have hm : ∀ xs : List (Str × OAst), (modernA xs).map Prod.fst = xs.map Prod.fst := by
          intro xs
          induction xs with
          | nil => rfl
          | cons e xs ih => obtain ⟨a, b⟩ := e; simp only [modernA, List.map_cons, ih]
        refine hd (by simp) ?_
        rw [← hm, ← semA_keys _ l hs]
        exact (mem_dkeys_dictOf l _).1 h
      rw [← dset_new hk]
      simp [dictOf, dupdate, List.foldl_append]

/-- C41. The converted id is a new-style id of the same configuration: `parse_whatid` accepts it and gives the What of the old-style
id, up to the order of parameters, dict items and set elements, and with the same id. -/
theorem c41_parses_back {E : Env} (hE : SaneEnv E) {o : Option Str} {n : Str} {kvs : List (Str × OAst)} {s : Str} {w : What} (h : OldId o n kvs s)
    (hok : oldid2what E s = .ok w) (ho : ∀ x, o = some x → GoodBody x)
    (hw : WfA (modernA kvs)) (hs : ∀ k v, (k, v) ∈ w.conf → NoSetWhat v) :
    ∃ s' w', id2whatami4 E s = .ok s' ∧ idD w = .ok s' ∧ parseWhatid E s' = .ok w' ∧ Cong Reorder w.toVal w'.toVal ∧ idD w' = .ok s' := by
  have hn : Ident n := by cases h <;> (rename_i hw _; exact hw.1)
  have h1 := oldId_parses (E := E) h
  rw [hok] at h1
  cases hos : osemTop E n kvs with
  | error e => rw [hos] at h1; cases h1
  | ok u =>
    have hb : NoBracesA kvs := by
      obtain ⟨l, h3, _⟩ := except_bind_ok hos
      exact Old.noBracesA_of_ok kvs l h3
    have hd : o ≠ none → c!"out" ∉ kvs.map Prod.fst := by
      intro hne hm
      rw [hos] at h1
      simp only [Except.bind, Option.isSome_iff_ne_none.2 hne, Bool.true_and, List.contains_iff_mem, hm, if_true] at h1
      cases h1
    have h2 := c41_oldid2what (E := E) h hb hd
    rw [hok, semTop_modern_out hd] at h2
    have hwf : WfA (modernA kvs ++ outAst o) := by
      cases o with
      | none => simpa [outAst] using hw
      | some x =>
        refine wfA_append hw ?_
        simp only [outAst, WfA, Wf, and_true]
        exact ⟨ident_of (by decide), ho x rfl⟩
    obtain ⟨h3, h4⟩ := semTop_fine (F := ⟨False, False, False⟩) (o := none) hE (fun h => h) (fun x h => by cases h) hn hwf h2.symm hs
    obtain ⟨s', w', h5, h6, h7⟩ := c06_round_trip h3 h4
    refine ⟨s', w', by simp only [id2whatami4, hok, h5], h5, h6, h7, ?_⟩
    have := idD_of_text (cong_text (fun a b hc => reorder_text hc) h7)
    rw [h5] at this
    cases hw : idD w' with
    | error e => rw [hw] at this; cases this
    | ok t => rw [hw] at this; rw [show s' = t from Option.some.inj this]

/-! ### New-style ids are left alone -/

/-- The first `#` of an old-style id comes right after the name. -/
theorem layout_start {q : Bool} {n : Str} {kvs : List (Str × OAst)} {s : Str} (hn : Ident n) (h : OldLayout q n kvs s) :
    ∃ a r, s = a ++ '#' :: r ∧ ∀ c ∈ a, isWs c = true ∨ isIdChar c = true ∨ c = '"' := by
  obtain ⟨p, ws, rfl, hp, _⟩ := h
  have hid : ∀ c ∈ n, isIdChar c = true := by
    obtain ⟨c, r, rfl, hc, hr⟩ := hn
    intro d hd
    cases hd with
    | head => simp only [isIdChar, hc, Bool.true_or]
    | tail _ hd => exact List.all_eq_true.1 hr d hd
  have hws : ∀ {w : Str}, w.all isWs = true → ∀ c ∈ w, isWs c = true := fun h => List.all_eq_true.1 h
  simp only [otoks] at hp
  cases q with
  | true =>
    simp only [quoteTok, if_true, List.cons_append, List.nil_append] at hp
    obtain ⟨w1, s1, hw1, rfl, hp1⟩ := padded_cons_iff.1 hp
    obtain ⟨w2, s2, hw2, rfl, hp2⟩ := padded_cons_iff.1 hp1
    obtain ⟨w3, s3, hw3, rfl, _⟩ := padded_cons_iff.1 hp2
    refine ⟨w1 ++ (c!"\"" ++ (w2 ++ (n ++ w3))), s3 ++ ws, by simp, ?_⟩
    intro c hc
    simp only [List.mem_append, List.mem_singleton] at hc
    rcases hc with hc | hc | hc | hc | hc
    · exact .inl (hws hw1 c hc)
    · exact .inr (.inr hc)
    · exact .inl (hws hw2 c hc)
    · exact .inr (.inl (hid c hc))
    · exact .inl (hws hw3 c hc)
  | false =>
    simp only [quoteTok] at hp
    obtain ⟨w1, s1, hw1, rfl, hp1⟩ := padded_cons_iff.1 hp
    obtain ⟨w2, s2, hw2, rfl, _⟩ := padded_cons_iff.1 hp1
    refine ⟨w1 ++ (n ++ w2), s2 ++ ws, by simp, ?_⟩
    intro c hc
    simp only [List.mem_append] at hc
    rcases hc with hc | hc | hc
    · exact .inl (hws hw1 c hc)
    · exact .inr (.inl (hid c hc))
    · exact .inl (hws hw2 c hc)

/-- No text is both a new-style and an old-style id. -/
theorem c41_disjoint {o : Option Str} {n : Str} {kvs : List (Str × Ast)} {p ws : Str} (ho : ∀ x, o = some x → Ident x) (hn : Ident n) (hk : WfA kvs)
    (hp : Padded (toks (.what o n kvs)) p) (hws : ws.all isWs = true) {o' : Option Str} {n' : Str} {kvs' : List (Str × OAst)} :
    ¬ OldId o' n' kvs' (p ++ ws) := by
  have hq : Old.QIn (p ++ ws) := (Old.qin_id ho hn hk hp).append (Old.QIn.ws hws)
  generalize p ++ ws = s at hq
  intro h
  cases h with
  | plain hw hl =>
    obtain ⟨a, r, rfl, ha⟩ := layout_start hw.1 hl
    have h1 := hq.2 a r rfl
    have hpl : Old.QPlain a := by
      intro c hc
      have := ha c hc
      refine ⟨?_, ?_⟩ <;> rintro rfl <;> revert this <;> decide
    rw [Old.qscan_append, Old.qscan_plain hpl] at h1
    cases h1
  | @out _ _ _ t o' _ hw hl =>
    have h1 := hq.2 (c!"out=" ++ o') t rfl
    have h2 := hq.1
    rw [show c!"out=" ++ o' ++ '#' :: t = (c!"out=" ++ o' ++ ['#']) ++ t by simp, Old.qscan_append, h1,
      show (true, false) = (!false, false) from rfl, Old.qscan_flip, Old.bal_layout hw hl] at h2
    cases h2

/-- C41. `id2whatami4` leaves every new-style id alone, whatever its strings contain. -/
theorem c41_new_unchanged {E : Env} {s : Str} (h : parseWhatid E s ≠ .error .noMatch) : id2whatami4 E s = .ok s := by
  rcases parse_cases (E := E) s with h' | ⟨o, n, kvs, p, ws, ho, hn, hk, rfl, hp, hw, _⟩
  · exact absurd h' h
  · exact (c41_unchanged fun o' n' kvs' => c41_disjoint ho hn hk hp hw).2

theorem not_oldId_call {m r : Str} (hm : Ident m) {o : Option Str} {n : Str} {kvs : List (Str × OAst)} : ¬ OldId o n kvs (m ++ '(' :: r) := by
  have hid : ∀ c ∈ m, isIdChar c = true := by
    obtain ⟨c, r, rfl, hc, hr⟩ := hm
    intro d hd
    cases hd with
    | head => simp only [isIdChar, hc, Bool.true_or]
    | tail _ hd => exact List.all_eq_true.1 hr d hd
  intro h
  generalize hs : m ++ '(' :: r = s at h
  cases h with
  | plain hw hl =>
    obtain ⟨a, r', rfl, ha⟩ := layout_start hw.1 hl
    rcases List.append_eq_append_iff.1 hs with ⟨x, h1, h2⟩ | ⟨x, h1, h2⟩
    · cases x with
      | nil => cases h2
      | cons c x =>
        simp only [List.cons_append, List.cons.injEq] at h2
        have := ha '(' (by rw [h1, ← h2.1]; simp)
        revert this; decide
    · cases x with
      | nil => cases h2
      | cons c x =>
        simp only [List.cons_append, List.cons.injEq] at h2
        have := hid '#' (by rw [h1, ← h2.1]; simp)
        revert this; decide
  | @out _ _ _ t o' _ hw hl =>
    rw [List.append_assoc] at hs
    rcases List.append_eq_append_iff.1 hs with ⟨x, h1, h2⟩ | ⟨x, h1, h2⟩
    · cases x with
      | nil =>
        simp only [List.append_nil] at h1
        have := hid '=' (by rw [← h1]; simp)
        revert this; decide
      | cons c x =>
        simp only [List.cons_append, List.cons.injEq] at h2
        have : '(' ∈ c!"out=" := by rw [h1, ← h2.1]; simp
        revert this; decide
    · have := hid '=' (by rw [h1]; simp)
      revert this; decide

/-- C41. Converting again changes nothing. -/
theorem c41_idempotent {E : Env} {s s' : Str} (h : id2whatami4 E s = .ok s') : id2whatami4 E s' = .ok s' := by
  rcases c41_total E s with ⟨o, n, kvs, ho, ⟨w, t, h1, h2, h3⟩ | ⟨e, _, h2, _⟩⟩ | ⟨_, h1⟩
  · rw [h] at h3
    cases h3
    have hn : Ident n := by cases ho <;> (rename_i hw _; exact hw.1)
    have h4 := oldId_parses (E := E) ho
    rw [h1] at h4
    obtain ⟨u, h5, h6⟩ := except_bind_ok h4.symm
    obtain ⟨l, h7, h8⟩ := except_bind_ok h5
    cases h8
    split at h6
    · cases h6
    · cases h6
      simp only [idD, idStr] at h2
      split at h2
      · cases h2
      · cases h2
        refine (c41_unchanged fun o' n' kvs' => ?_).2
        simp only [wrapId, List.append_assoc]
        exact not_oldId_call hn
  · rw [h] at h2; cases h2
  · rw [h] at h1; cases h1; exact h

/-! ### Cases that meet the hypotheses -/

/-- The parameters of `f#im=True#x=(1,'y')`. -/
def exOldKvs : List (Str × OAst) := [(c!"im", .bool true), (c!"x", .tuple [.num c!"1", .str c!"y"])]

theorem exOld_wf : OldWf c!"f" exOldKvs := by
  refine ⟨ident_of (by decide), ?_⟩
  simp only [exOldKvs, OWfA, OWf, OWfL, Open, and_true, true_and, not_false_eq_true, implies_true]
  refine ⟨ident_of (by decide), ident_of (by decide), ?_, goodBody_plain (by decide) (by rintro c r h; cases h; decide)⟩
  exact NumShape.digits false (ds := c!"1") (fr := []) (ex := []) ⟨by simp, by decide⟩ (.inl rfl) (.inl rfl)

theorem exOld_layout : OldLayout false c!"f" exOldKvs c!"f#im=True#x=(1,'y')" := ⟨_, [], rfl, padded_flatten _, rfl⟩

example : OldId (some c!"acc") c!"f" exOldKvs c!"out=acc#f#im=True#x=(1,'y')" := .out c!"acc" (by decide) exOld_wf exOld_layout
example : OldId none c!"f" exOldKvs c!"f#im=True#x=(1,'y')" := .plain exOld_wf exOld_layout
example : NoBracesA exOldKvs := by simp [exOldKvs, NoBracesA, NoBraces, NoBracesL]
example : c!"out" ∉ exOldKvs.map Prod.fst := by decide
example : WfA (modernA exOldKvs) ∧ NoSetCallA (modernA exOldKvs) := by
  simp only [exOldKvs, modernA, modern, modernL, WfA, Wf, WfL, NoSetCallA, NoSetCall, NoSetCallL, and_true, true_and]
  refine ⟨ident_of (by decide), ident_of (by decide), ?_, goodBody_plain (by decide) (by rintro c r h; cases h; decide)⟩
  exact NumShape.digits false (ds := c!"1") (fr := []) (ex := []) ⟨by simp, by decide⟩ (.inl rfl) (.inl rfl)
example : Padded (toks (.what none c!"f" (modernA exOldKvs))) c!"f(im=True,x=(1,'y'))" := padded_flatten _
example : id2whatami4 exEnv c!"out=acc#f#im=True#x=(1, 'y')" = .ok c!"f(im=True,out='acc',x=(1,'y'))" := by rfl
example : id2whatami4 exEnv c!"out=acc#f#im=True#out='vel'" = .error .valueError := by rfl
example : id2whatami4 exEnv c!"velocity" = .ok c!"velocity" := by rfl
example : id2whatami4 exEnv c!"f#x={}" = .error .indexError := by rfl
/-- Nested old-style ids: quoted, or with everything to the right. -/
example : id2whatami4 exEnv c!"f#x=\"g#y=1\"#z=2" = .ok c!"f(x=g(y=1),z=2)" := by rfl
example : id2whatami4 exEnv c!"f#x=g#y=1#z=2" = .ok c!"f(x=g(y=1,z=2))" := by rfl
/-- A new-style id with an out_name and hashes in a string. -/
example : id2whatami4 exEnv c!"out=f(x='a#b#c=')" = .ok c!"out=f(x='a#b#c=')" := c41_new_unchanged (by
  rw [show parseWhatid exEnv c!"out=f(x='a#b#c=')" = .ok _ from rfl]; simp)

end Whatami
