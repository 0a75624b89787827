import Verif.Spec.Attr
import Verif.Props.Introspect
import Verif.Plugins
import Verif.Props.Misc

/-
C48: the attributes that `config_dict_for_object` and `whatareyou` report are those of the object.
-/
namespace Whatami

/-! ### Members of classes -/

theorem findMember_iff {n : Str} {m : Member} : ∀ {mro : List (List (Str × Member))},
    (∀ c ∈ mro, (c.map Prod.fst).Nodup) →
    (findMember n mro = some m ↔
      ∃ before c after, mro = before ++ c :: after ∧ (∀ d ∈ before, ∀ m', (n, m') ∉ d) ∧ (n, m) ∈ c)
  | [], _ => by simp [findMember]
  | c :: cs, hu => by
    have ih := findMember_iff (n := n) (m := m) (mro := cs) (fun d hd => hu d (by simp [hd]))
    have hc : (dkeys c).Nodup := hu c (by simp)
    simp only [findMember]
    cases hd : dget c n with
    | some m' =>
      have hm' := mem_of_dget hd
      simp only [Option.some.injEq]
      constructor
      · rintro rfl
        exact ⟨[], c, cs, rfl, by simp, hm'⟩
      · rintro ⟨before, d, after, he, hb, hm⟩
        cases before with
        | nil =>
          simp only [List.nil_append, List.cons.injEq] at he
          obtain ⟨rfl, rfl⟩ := he
          have := dget_eq_some_of_mem hc hm
          rw [hd] at this; exact Option.some.inj this
        | cons b bs =>
          simp only [List.cons_append, List.cons.injEq] at he
          obtain ⟨rfl, rfl⟩ := he
          exact absurd hm' (hb _ (.head _) _)
    | none =>
      have hn : ∀ m', (n, m') ∉ c := by
        intro m' hm
        have := dget_eq_some_of_mem hc hm
        rw [hd] at this; cases this
      simp only
      rw [ih]
      constructor
      · rintro ⟨before, d, after, rfl, hb, hm⟩
        refine ⟨c :: before, d, after, rfl, ?_, hm⟩
        intro e he
        rcases List.mem_cons.1 he with rfl | he
        · exact hn
        · exact hb e he
      · rintro ⟨before, d, after, he, hb, hm⟩
        cases before with
        | nil =>
          simp only [List.nil_append, List.cons.injEq] at he
          obtain ⟨rfl, rfl⟩ := he
          exact absurd hm (hn _)
        | cons b bs =>
          simp only [List.cons_append, List.cons.injEq] at he
          obtain ⟨rfl, rfl⟩ := he
          exact ⟨bs, d, after, rfl, fun e he => hb e (by simp [he]), hm⟩

theorem findMember_dir {n : Str} {m : Member} : ∀ {mro : List (List (Str × Member))},
    findMember n mro = some m → n ∈ mro.flatMap dkeys
  | [], h => by cases h
  | c :: cs, h => by
    simp only [findMember] at h
    simp only [List.flatMap_cons, List.mem_append]
    cases hd : dget c n with
    | some m' => exact .inl (by simpa [dkeys] using ⟨m', mem_of_dget hd⟩)
    | none => rw [hd] at h; exact .inr (findMember_dir h)

theorem mem_getMembers {mro : List (List (Str × Member))} {n : Str} {m : Member} :
    (n, m) ∈ getMembers mro ↔ findMember n mro = some m := by
  simp only [getMembers, List.mem_filterMap, dirNames, mem_sortBy, List.mem_eraseDups]
  constructor
  · rintro ⟨k, _, h⟩
    cases hf : findMember k mro with
    | none => rw [hf] at h; cases h
    | some m' => rw [hf] at h; simp at h; rw [← h.1, ← h.2]; exact hf
  · intro h
    exact ⟨n, findMember_dir h, by simp [h]⟩

theorem getMembers_keys (mro : List (List (Str × Member))) :
    ((getMembers mro).map Prod.fst).Nodup := by
  have h : ((getMembers mro).map Prod.fst).Sublist (dirNames mro) := by
    simp only [getMembers]
    generalize dirNames mro = l
    induction l with
    | nil => exact List.Sublist.slnil
    | cons a t ih =>
      rw [List.filterMap_cons]
      cases findMember a mro with
      | none => exact ih.cons a
      | some m => exact ih.cons_cons a
  refine h.nodup ?_
  exact (sortBy_perm _ _).nodup_iff.2 (nodup_eraseDups _)

theorem getAll_cons (k : Str) (m : Member) (ps : List (Str × Member)) :
    (∀ e, m.get = .error e → getAll ((k, m) :: ps) = .error e) ∧
    (∀ u e, m.get = .ok u → getAll ps = .error e → getAll ((k, m) :: ps) = .error e) ∧
    (∀ u d, m.get = .ok u → getAll ps = .ok d → getAll ((k, m) :: ps) = .ok ((k, u) :: d)) := by
  simp only [getAll, mapR]
  refine ⟨fun e h => ?_, fun u e h h' => ?_, fun u d h h' => ?_⟩
  · rw [h]; rfl
  · rw [h, h']; rfl
  · rw [h, h']; rfl

theorem getAll_ok {ms : List (Str × Member)} {d : Conf} (h : getAll ms = .ok d) :
    d.map Prod.fst = ms.map Prod.fst ∧ ∀ n v, (n, v) ∈ d ↔ ∃ m, (n, m) ∈ ms ∧ m.get = .ok v := by
  induction ms generalizing d with
  | nil => simp only [getAll, mapR] at h; cases h; simp
  | cons p ps ih =>
    obtain ⟨k, m⟩ := p
    obtain ⟨c1, c2, c3⟩ := getAll_cons k m ps
    cases hm : m.get with
    | error e => rw [c1 e hm] at h; cases h
    | ok u =>
      cases hr : getAll ps with
      | error e => rw [c2 u e hm hr] at h; cases h
      | ok d' =>
        obtain ⟨i1, i2⟩ := ih hr
        rw [c3 u d' hm hr] at h
        cases h
        refine ⟨by simp [i1], fun n v => ?_⟩
        simp only [List.mem_cons, Prod.mk.injEq, i2]
        constructor
        · rintro (⟨rfl, rfl⟩ | ⟨m', h1, h2⟩)
          · exact ⟨m, .inl ⟨rfl, rfl⟩, hm⟩
          · exact ⟨m', .inr h1, h2⟩
        · rintro ⟨m', (⟨rfl, rfl⟩ | h1), h2⟩
          · rw [hm] at h2; cases h2; exact .inl ⟨rfl, rfl⟩
          · exact .inr ⟨m', h1, h2⟩

theorem getAll_total {ms : List (Str × Member)} :
    (∃ d, getAll ms = .ok d) ↔ ∀ p ∈ ms, ∃ v, p.2.get = .ok v := by
  simp only [getAll, mapR_ok_iff]
  constructor
  · intro h p hp
    obtain ⟨y, hy⟩ := h p hp
    cases hg : p.2.get with
    | error e => simp [hg, Except.map] at hy
    | ok v => exact ⟨v, rfl⟩
  · intro h p hp
    obtain ⟨v, hv⟩ := h p hp
    exact ⟨(p.1, v), by simp [hv, Except.map]⟩

theorem getAll_error {ms : List (Str × Member)} {e : Err} (h : getAll ms = .error e) :
    ∃ n m, (n, m) ∈ ms ∧ m.get = .error e := by
  induction ms with
  | nil => simp [getAll, mapR] at h
  | cons p ps ih =>
    obtain ⟨k, m⟩ := p
    obtain ⟨c1, c2, c3⟩ := getAll_cons k m ps
    cases hm : m.get with
    | error e' =>
      rw [c1 e' hm] at h
      cases h
      exact ⟨k, m, .head _, hm⟩
    | ok u =>
      cases hr : getAll ps with
      | error e' =>
        rw [c2 u e' hm hr] at h
        cases h
        obtain ⟨n, m', h1, h2⟩ := ih hr
        exact ⟨n, m', .tail _ h1, h2⟩
      | ok d' => rw [c3 u d' hm hr] at h; cases h

/-! ### Sources -/

theorem configDictInst_ok {o : WhatOpts} {ob : Inst} {cd : Conf} (h : configDictInst o ob = .ok cd) :
    ∃ sd pd, (o.addSlots = true → slotsSrc ob = .ok sd) ∧ (o.addProps = true → propsSrc ob = .ok pd) ∧
      (o.addSlots = false → sd = []) ∧ (o.addProps = false → pd = []) ∧
      cd = configDictOfSrcs o { cd := classSrc ob, dd := dictSrc ob, sd := sd, pd := pd } := by
  obtain ⟨nk, ad, as, ap, ac, px, pf, ex⟩ := o
  simp only [configDictInst, updateIf] at h
  simp only [configDictOfSrcs]
  cases as <;> cases ap <;> cases hs : slotsSrc ob <;> cases hp : propsSrc ob <;> cases ac <;> cases ad <;>
    simp_all [Except.map, bind, Except.bind]

theorem configDictInst_some {o : WhatOpts} {ob : Inst} {sd pd : Conf} (hs : o.addSlots = true → slotsSrc ob = .ok sd)
    (hp : o.addProps = true → propsSrc ob = .ok pd) :
    configDictInst o ob = .ok (configDictOfSrcs o { cd := classSrc ob, dd := dictSrc ob, sd := sd, pd := pd }) := by
  obtain ⟨nk, ad, as, ap, ac, px, pf, ex⟩ := o
  simp only [configDictInst, updateIf]
  simp only [configDictOfSrcs]
  cases as <;> cases ap <;> cases ac <;> cases ad <;> simp_all [Except.map, bind, Except.bind]

theorem isData_iff {m : Member} : m.isData = true ↔ IsData m := by
  cases m <;> simp [Member.isData] <;> first | exact .slot _ | exact .prop _ | (intro h; cases h)

theorem mem_slots {ob : Inst} {sd : Conf} (h : slotsSrc ob = .ok sd) (n : Str) (v : Val) :
    (n, v) ∈ sd ↔ n ≠ c!"__weakref__" ∧ findMember n ob.mro = some (.slot (some v)) := by
  rw [(getAll_ok h).2]
  constructor
  · rintro ⟨m, hm, hg⟩
    simp only [List.mem_filter, mem_getMembers, Bool.and_eq_true, bne_iff_ne] at hm
    obtain ⟨hf, -, hw, hs⟩ := hm
    cases m with
    | slot c =>
      cases c with
      | none => simp [Member.get] at hg
      | some u => simp [Member.get] at hg; subst hg; exact ⟨hw, hf⟩
    | _ => simp [Member.isSlot] at hs
  · rintro ⟨hw, hf⟩
    refine ⟨_, List.mem_filter.2 ⟨mem_getMembers.2 hf, ?_⟩, rfl⟩
    simpa [Member.isData, Member.isSlot] using hw

theorem mem_props {ob : Inst} {pd : Conf} (h : propsSrc ob = .ok pd) (n : Str) (v : Val) :
    (n, v) ∈ pd ↔ n ≠ c!"__weakref__" ∧ findMember n ob.mro = some (.prop (.ok v)) := by
  rw [(getAll_ok h).2]
  constructor
  · rintro ⟨m, hm, hg⟩
    simp only [List.mem_filter, mem_getMembers, Bool.and_eq_true, bne_iff_ne] at hm
    obtain ⟨hf, hd, hw, hs⟩ := hm
    cases m with
    | prop r => simp [Member.get] at hg; subst hg; exact ⟨hw, hf⟩
    | slot c => simp [Member.isSlot] at hs
    | _ => simp [Member.isData] at hd
  · rintro ⟨hw, hf⟩
    refine ⟨_, List.mem_filter.2 ⟨mem_getMembers.2 hf, ?_⟩, rfl⟩
    simpa [Member.isData, Member.isSlot] using hw

theorem slots_unique {ob : Inst} {sd : Conf} (h : slotsSrc ob = .ok sd) : UniqueKeys sd := by
  have := (getAll_ok h).1
  rw [UniqueKeys, this]
  exact (List.filter_sublist.map Prod.fst).nodup (getMembers_keys ob.mro)

theorem props_unique {ob : Inst} {pd : Conf} (h : propsSrc ob = .ok pd) : UniqueKeys pd := by
  have := (getAll_ok h).1
  rw [UniqueKeys, this]
  exact (List.filter_sublist.map Prod.fst).nodup (getMembers_keys ob.mro)

theorem class_unique (ob : Inst) : UniqueKeys (classSrc ob) := by
  have e : (classSrc ob).map Prod.fst = (getMembers ob.mro).map Prod.fst := by simp [classSrc]
  rw [UniqueKeys, e]; exact getMembers_keys _

theorem mem_class {ob : Inst} {n : Str} {v : Val} :
    (n, v) ∈ classSrc ob ↔ ∃ m, findMember n ob.mro = some m ∧ v = m.viaClass := by
  simp only [classSrc, List.mem_map, Prod.mk.injEq, Prod.exists, mem_getMembers]
  constructor
  · rintro ⟨k, m, h, rfl, rfl⟩; exact ⟨m, h, rfl⟩
  · rintro ⟨m, h, rfl⟩; exact ⟨n, m, h, rfl, rfl⟩

theorem fromClass_iff {m : Member} {v : Val} : FromClass m v ↔ v = m.viaClass := by
  constructor
  · intro h; cases h <;> rfl
  · rintro rfl; cases m <;> constructor

theorem mem_dictSrc {ob : Inst} {n : Str} {v : Val} : (n, v) ∈ dictSrc ob ↔ ob.InDict n v := by
  simp only [dictSrc, Inst.InDict]
  cases ob.dict <;> simp

theorem finds_fun {ob : Inst} (hk : ob.Ok) {n : Str} {m m' : Member} (h : ob.Finds n m) (h' : ob.Finds n m') : m = m' := by
  have := (findMember_iff hk.uniq).2 h
  have h2 := (findMember_iff hk.uniq).2 h'
  rw [this] at h2
  exact Option.some.inj h2

/-- What `GetAttr` comes down to. -/
def attrOf (ob : Inst) (n : Str) : R Val :=
  match findMember n ob.mro with
  | some (.slot (some v)) => .ok v
  | some (.slot none) => .error .attributeError
  | some (.prop r) => r
  | some (.meth _ v) => (match dget (dictSrc ob) n with | some u => .ok u | none => .ok v)
  | some (.plain v) => (match dget (dictSrc ob) n with | some u => .ok u | none => .ok v)
  | none => (match dget (dictSrc ob) n with | some u => .ok u | none => .error .attributeError)

theorem inDict_iff {ob : Inst} (hk : ob.Ok) {n : Str} {v : Val} : ob.InDict n v ↔ dget (dictSrc ob) n = some v := by
  rw [← mem_dictSrc]
  have hu : UniqueKeys (dictSrc ob) := by
    simp only [dictSrc]
    cases hd : ob.dict with
    | none => exact List.nodup_nil
    | some d => exact hk.dict d hd
  exact (dget_mem_iff hu).symm

theorem notInDict_iff {ob : Inst} (hk : ob.Ok) {n : Str} : (∀ v, ¬ ob.InDict n v) ↔ dget (dictSrc ob) n = none := by
  cases h : dget (dictSrc ob) n with
  | none => simp [inDict_iff hk, h]
  | some u => simp only [reduceCtorEq, iff_false]; exact fun hn => hn u ((inDict_iff hk).2 h)

theorem finds_iff {ob : Inst} (hk : ob.Ok) {n : Str} {m : Member} : ob.Finds n m ↔ findMember n ob.mro = some m :=
  (findMember_iff hk.uniq).symm

theorem getAttr_iff {ob : Inst} (hk : ob.Ok) {n : Str} {r : R Val} : GetAttr ob n r ↔ attrOf ob n = r := by
  constructor
  · intro h
    cases h with
    | slot h => simp [attrOf, (finds_iff hk).1 h]
    | empty h => simp [attrOf, (finds_iff hk).1 h]
    | prop h => simp [attrOf, (finds_iff hk).1 h]
    | dict h1 h2 =>
      have hd := (inDict_iff hk).1 h2
      simp only [attrOf]
      cases hf : findMember n ob.mro with
      | none => simp [hd]
      | some m =>
        have := h1 m ((finds_iff hk).2 hf)
        cases m with
        | slot c => exact absurd (.slot c) this
        | prop c => exact absurd (.prop c) this
        | meth a b => simp [hd]
        | plain a => simp [hd]
    | meth h1 h2 => simp [attrOf, (finds_iff hk).1 h2, (notInDict_iff hk).1 h1]
    | plain h1 h2 => simp [attrOf, (finds_iff hk).1 h2, (notInDict_iff hk).1 h1]
    | missing h1 h2 =>
      have hf : findMember n ob.mro = none := by
        cases hf : findMember n ob.mro with
        | none => rfl
        | some m => exact absurd ((finds_iff hk).2 hf) (h2 m)
      simp [attrOf, hf, (notInDict_iff hk).1 h1]
  · rintro rfl
    simp only [attrOf]
    cases hf : findMember n ob.mro with
    | none =>
      have hn : ∀ m, ¬ ob.Finds n m := by intro m hm; rw [(finds_iff hk).1 hm] at hf; cases hf
      cases hd : dget (dictSrc ob) n with
      | none => exact .missing ((notInDict_iff hk).2 hd) hn
      | some u => exact .dict (fun m hm => absurd hm (hn m)) ((inDict_iff hk).2 hd)
    | some m =>
      have hF := (finds_iff hk).2 hf
      cases m with
      | slot c => cases c with
        | none => exact .empty hF
        | some v => exact .slot hF
      | prop c => exact .prop hF
      | meth a b =>
        cases hd : dget (dictSrc ob) n with
        | none => exact .meth ((notInDict_iff hk).2 hd) hF
        | some u =>
          refine .dict (fun m hm => ?_) ((inDict_iff hk).2 hd)
          rw [finds_fun hk hm hF]; intro h; cases h
      | plain a =>
        cases hd : dget (dictSrc ob) n with
        | none => exact .plain ((notInDict_iff hk).2 hd) hF
        | some u =>
          refine .dict (fun m hm => ?_) ((inDict_iff hk).2 hd)
          rw [finds_fun hk hm hF]; intro h; cases h

/-! ### C48 -/

/-- Attribute access has exactly one outcome: the specification is a function. -/
theorem getAttr_unique {ob : Inst} (hk : ob.Ok) (n : Str) : ∃ r, GetAttr ob n r ∧ ∀ r', GetAttr ob n r' → r' = r :=
  ⟨attrOf ob n, (getAttr_iff hk).2 rfl, fun _ h => ((getAttr_iff hk).1 h).symm⟩

theorem own_iff {ob : Inst} (hk : ob.Ok) {n : Str} : ob.Own n ↔
    n ≠ c!"__weakref__" ∧ ((∃ c, findMember n ob.mro = some (.slot c)) ∨ (∃ r, findMember n ob.mro = some (.prop r)) ∨
      ∃ v, dget (dictSrc ob) n = some v) := by
  simp only [Inst.Own, finds_iff hk, inDict_iff hk]
  refine and_congr_right fun _ => ?_
  constructor
  · rintro (⟨m, h, d⟩ | h)
    · cases d with
      | slot c => exact .inl ⟨c, h⟩
      | prop r => exact .inr (.inl ⟨r, h⟩)
    · exact .inr (.inr h)
  · rintro (⟨c, h⟩ | ⟨r, h⟩ | h)
    · exact .inl ⟨_, h, .slot c⟩
    · exact .inl ⟨_, h, .prop r⟩
    · exact .inr h

/-- **C48**: with the dict, slots and properties sources on (the defaults), what `config_dict_for_object` reports is
exactly the attributes of the object itself, each once, with the value that `obj.n` has; with `add_class`, also those
of its classes, as read through the class. -/
theorem c48_attributes {o : WhatOpts} {ob : Inst} (hk : ob.Ok) (h1 : o.addDict = true) (h2 : o.addSlots = true)
    (h3 : o.addProps = true) {cd : Conf} (h : configDictInst o ob = .ok cd) :
    UniqueKeys cd ∧ ∀ n v, (n, v) ∈ cd ↔
      (ob.Own n ∧ GetAttr ob n (.ok v)) ∨
      (o.addClass = true ∧ ¬ ob.Own n ∧ ∃ m, ob.Finds n m ∧ FromClass m v) := by
  obtain ⟨sd, pd, hs, hp, -, -, rfl⟩ := configDictInst_ok h
  replace hs := hs h2
  replace hp := hp h3
  have hu : UniqueKeys (dictSrc ob) := by
    simp only [dictSrc]
    cases hd : ob.dict with
    | none => exact List.nodup_nil
    | some d => exact hk.dict d hd
  have hw : dget (dictSrc ob) c!"__weakref__" = none := (notInDict_iff hk).1 hk.weakref
  obtain ⟨c1, c2⟩ := c26_precedence o { cd := classSrc ob, dd := dictSrc ob, sd := sd, pd := pd } (class_unique ob) hu
    (slots_unique hs) (props_unique hp)
  refine ⟨c1, fun n v => ?_⟩
  rw [c2]
  simp only [strongest, h1, h2, h3, true_and, mem_slots hs, mem_props hp, mem_class, ← dget_mem_iff hu, own_iff hk, fromClass_iff,
    getAttr_iff hk, finds_iff hk]
  by_cases hn : n = c!"__weakref__"
  · subst hn
    simp [hw]
  · simp only [ne_eq, hn, not_false_eq_true, true_and, attrOf]
    have slotOk : ∀ c, findMember n ob.mro = some (.slot c) → ∃ u, c = some u := by
      intro c hf
      obtain ⟨u, hu'⟩ := getAll_total.1 ⟨sd, hs⟩ (n, .slot c) (List.mem_filter.2 ⟨mem_getMembers.2 hf, by
        simpa [Member.isData, Member.isSlot] using hn⟩)
      cases c with
      | none => simp [Member.get] at hu'
      | some u => exact ⟨u, rfl⟩
    have propOk : ∀ r, findMember n ob.mro = some (.prop r) → ∃ u, r = .ok u := by
      intro r hf
      exact getAll_total.1 ⟨pd, hp⟩ (n, .prop r) (List.mem_filter.2 ⟨mem_getMembers.2 hf, by
        simpa [Member.isData, Member.isSlot] using hn⟩)
    cases hf : findMember n ob.mro with
    | none => cases hd : dget (dictSrc ob) n <;> simp
    | some m =>
      cases m with
      | slot c =>
        obtain ⟨u, rfl⟩ := slotOk c hf
        simp
      | prop r =>
        obtain ⟨u, rfl⟩ := propOk r hf
        simp
      | meth a b => cases hd : dget (dictSrc ob) n <;> simp
      | plain a => cases hd : dget (dictSrc ob) n <;> simp

theorem slots_mem {ob : Inst} {n : Str} {m : Member} :
    (n, m) ∈ (getMembers ob.mro).filter (fun p => p.2.isData && (p.1 != c!"__weakref__" && p.2.isSlot)) ↔
      findMember n ob.mro = some m ∧ n ≠ c!"__weakref__" ∧ ∃ c, m = .slot c := by
  rw [List.mem_filter, mem_getMembers]
  refine and_congr_right fun _ => ?_
  cases m <;> simp [Member.isData, Member.isSlot]

theorem props_mem {ob : Inst} {n : Str} {m : Member} :
    (n, m) ∈ (getMembers ob.mro).filter (fun p => p.2.isData && (p.1 != c!"__weakref__" && !p.2.isSlot)) ↔
      findMember n ob.mro = some m ∧ n ≠ c!"__weakref__" ∧ ∃ c, m = .prop c := by
  rw [List.mem_filter, mem_getMembers]
  refine and_congr_right fun _ => ?_
  cases m <;> simp [Member.isData, Member.isSlot]

theorem get_attr {ob : Inst} (hk : ob.Ok) {n : Str} {m : Member} (hf : findMember n ob.mro = some m)
    (hd : (∃ c, m = .slot c) ∨ ∃ r, m = .prop r) : attrOf ob n = m.get := by
  rcases hd with ⟨c, rfl⟩ | ⟨r, rfl⟩
  · cases c <;> simp [attrOf, hf, Member.get]
  · simp [attrOf, hf, Member.get]

/-- C48. It raises exactly if reading one of the slots or properties asked for does: nothing else is read. -/
theorem c48_total {o : WhatOpts} {ob : Inst} (hk : ob.Ok) :
    (∃ cd, configDictInst o ob = .ok cd) ↔
      ∀ n m, ob.Finds n m → Wanted o n m → ∃ v, GetAttr ob n (.ok v) := by
  simp only [finds_iff hk, getAttr_iff hk, Wanted]
  constructor
  · rintro ⟨cd, h⟩ n m hf ⟨hn, ⟨ho, hd⟩ | ⟨ho, hd⟩⟩
    · obtain ⟨sd, pd, hs, -, -, -, -⟩ := configDictInst_ok h
      obtain ⟨v, hv⟩ := getAll_total.1 ⟨sd, hs ho⟩ (n, m) (slots_mem.2 ⟨hf, hn, hd⟩)
      exact ⟨v, (get_attr hk hf (.inl hd)).trans hv⟩
    · obtain ⟨sd, pd, -, hp, -, -, -⟩ := configDictInst_ok h
      obtain ⟨v, hv⟩ := getAll_total.1 ⟨pd, hp ho⟩ (n, m) (props_mem.2 ⟨hf, hn, hd⟩)
      exact ⟨v, (get_attr hk hf (.inr hd)).trans hv⟩
  · intro h
    have hs : ∃ sd, o.addSlots = true → slotsSrc ob = .ok sd := by
      cases ho : o.addSlots with
      | false => exact ⟨[], by simp⟩
      | true =>
        obtain ⟨sd, hsd⟩ := (getAll_total (ms := (getMembers ob.mro).filter
            (fun p => p.2.isData && (p.1 != c!"__weakref__" && p.2.isSlot)))).2 (by
          rintro ⟨n, m⟩ hm
          obtain ⟨hf, hn, hd⟩ := slots_mem.1 hm
          obtain ⟨v, hv⟩ := h n m hf ⟨hn, .inl ⟨ho, hd⟩⟩
          exact ⟨v, (get_attr hk hf (.inl hd)).symm.trans hv⟩)
        exact ⟨sd, fun _ => hsd⟩
    have hp : ∃ pd, o.addProps = true → propsSrc ob = .ok pd := by
      cases ho : o.addProps with
      | false => exact ⟨[], by simp⟩
      | true =>
        obtain ⟨pd, hpd⟩ := (getAll_total (ms := (getMembers ob.mro).filter
            (fun p => p.2.isData && (p.1 != c!"__weakref__" && !p.2.isSlot)))).2 (by
          rintro ⟨n, m⟩ hm
          obtain ⟨hf, hn, hd⟩ := props_mem.1 hm
          obtain ⟨v, hv⟩ := h n m hf ⟨hn, .inr ⟨ho, hd⟩⟩
          exact ⟨v, (get_attr hk hf (.inr hd)).symm.trans hv⟩)
        exact ⟨pd, fun _ => hpd⟩
    obtain ⟨sd, hs⟩ := hs
    obtain ⟨pd, hp⟩ := hp
    exact ⟨_, configDictInst_some hs hp⟩

/-- C48. And whatever the options: the slots and properties asked for have the values they read as; any other name has
what the `__dict__` has for it, if that is asked for, or else what the classes have, if those are. -/
theorem c48_sources {o : WhatOpts} {ob : Inst} (hk : ob.Ok) {cd : Conf} (h : configDictInst o ob = .ok cd) :
    UniqueKeys cd ∧ ∀ n v, (n, v) ∈ cd ↔
      ((∃ m, ob.Finds n m ∧ Wanted o n m) ∧ GetAttr ob n (.ok v)) ∨
      (¬ (∃ m, ob.Finds n m ∧ Wanted o n m) ∧
        ((o.addDict = true ∧ ob.InDict n v) ∨
         (o.addClass = true ∧ ¬ (o.addDict = true ∧ ∃ u, ob.InDict n u) ∧ ∃ m, ob.Finds n m ∧ FromClass m v))) := by
  have ht := (c48_total hk).1 ⟨cd, h⟩
  obtain ⟨sd, pd, hs, hp, hs', hp', rfl⟩ := configDictInst_ok h
  have hu : UniqueKeys (dictSrc ob) := by
    simp only [dictSrc]
    cases hd : ob.dict with
    | none => exact List.nodup_nil
    | some d => exact hk.dict d hd
  have us : UniqueKeys sd := by
    cases ho : o.addSlots with
    | true => exact slots_unique (hs ho)
    | false => rw [hs' ho]; exact List.nodup_nil
  have up : UniqueKeys pd := by
    cases ho : o.addProps with
    | true => exact props_unique (hp ho)
    | false => rw [hp' ho]; exact List.nodup_nil
  obtain ⟨c1, c2⟩ := c26_precedence o { cd := classSrc ob, dd := dictSrc ob, sd := sd, pd := pd } (class_unique ob) hu us up
  refine ⟨c1, fun n v => ?_⟩
  have ms : ∀ v, (o.addSlots = true ∧ (n, v) ∈ sd) ↔ o.addSlots = true ∧ n ≠ c!"__weakref__" ∧ findMember n ob.mro = some (.slot (some v)) :=
    fun v => and_congr_right fun ho => mem_slots (hs ho) n v
  have mp : ∀ v, (o.addProps = true ∧ (n, v) ∈ pd) ↔ o.addProps = true ∧ n ≠ c!"__weakref__" ∧ findMember n ob.mro = some (.prop (.ok v)) :=
    fun v => and_congr_right fun ho => mem_props (hp ho) n v
  rw [c2]
  simp only [finds_iff hk, getAttr_iff hk] at ht
  simp only [strongest, ← exists_and_left, ms, mp, mem_class, mem_dictSrc, finds_iff hk, getAttr_iff hk, fromClass_iff]
  cases hf : findMember n ob.mro with
  | none => simp [Wanted]; try grind
  | some m =>
    have ht := ht n m hf
    cases m with
    | meth a b => simp [Wanted]; try grind
    | plain a => simp [Wanted]; try grind
    | slot c =>
      by_cases hn : n = c!"__weakref__"
      · simp [Wanted, hn]; try grind
      · cases ho : o.addSlots with
        | false => simp [Wanted, ho]; try grind
        | true =>
          obtain ⟨u, hu'⟩ := ht ⟨hn, .inl ⟨ho, c, rfl⟩⟩
          simp only [attrOf, hf] at hu' ⊢
          cases c with
          | none => cases hu'
          | some u => simp [Wanted, ho, hn]
    | prop c =>
      by_cases hn : n = c!"__weakref__"
      · simp [Wanted, hn]; try grind
      · cases ho : o.addProps with
        | false => simp [Wanted, ho]; try grind
        | true =>
          obtain ⟨u, hu'⟩ := ht ⟨hn, .inr ⟨ho, c, rfl⟩⟩
          simp only [attrOf, hf] at hu' ⊢
          subst hu'
          simp [Wanted, ho, hn]

theorem configDictInst_error {o : WhatOpts} {ob : Inst} {e : Err} (h : configDictInst o ob = .error e) :
    (o.addSlots = true ∧ slotsSrc ob = .error e) ∨ (o.addProps = true ∧ propsSrc ob = .error e) := by
  obtain ⟨nk, ad, as, ap, ac, px, pf, ex⟩ := o
  simp only [configDictInst, updateIf] at h
  cases as <;> cases ap <;> cases hs : slotsSrc ob <;> cases hp : propsSrc ob <;> cases ac <;> cases ad <;>
    simp_all [Except.map, bind, Except.bind]

/-- C48. Whatever it raises is what reading one of the slots or properties asked for raises. -/
theorem c48_error {o : WhatOpts} {ob : Inst} (hk : ob.Ok) {e : Err} (h : configDictInst o ob = .error e) :
    ∃ n m, ob.Finds n m ∧ Wanted o n m ∧ GetAttr ob n (.error e) := by
  simp only [finds_iff hk, getAttr_iff hk, Wanted]
  rcases configDictInst_error h with ⟨ho, h⟩ | ⟨ho, h⟩
  · obtain ⟨n, m, hm, hg⟩ := getAll_error h
    obtain ⟨hf, hn, hd⟩ := slots_mem.1 hm
    exact ⟨n, m, hf, ⟨hn, .inl ⟨ho, hd⟩⟩, (get_attr hk hf (.inl hd)).trans hg⟩
  · obtain ⟨n, m, hm, hg⟩ := getAll_error h
    obtain ⟨hf, hn, hd⟩ := props_mem.1 hm
    exact ⟨n, m, hf, ⟨hn, .inr ⟨ho, hd⟩⟩, (get_attr hk hf (.inr hd)).trans hg⟩

/-- C48. `whatareyou(obj)` on an object that is not callable has the name of its class and, with the default sources,
as parameters exactly its public attributes with the values they have. -/
theorem c48_whatareyou {o : WhatOpts} {ob : Inst} (hk : ob.Ok) (h1 : o.addDict = true) (h2 : o.addSlots = true)
    (h3 : o.addProps = true) (h4 : o.addClass = false) {wh : Option WhatOpts} {s : Str} {x : Val}
    (h : ob.toVal wh s = .ok x) :
    ∃ w, whatareyou o x = .ok w ∧ w.name = ob.cls ∧ w.nonids = o.nonids ∧ w.out = none ∧ UniqueKeys w.conf ∧
      ∀ n v, (n, v) ∈ w.conf ↔ Public o n ∧ ob.Own n ∧ GetAttr ob n (.ok v) := by
  simp only [Inst.toVal, bind, Except.bind] at h
  cases hs : slotsSrc ob with
  | error e => simp [hs] at h
  | ok sd =>
    cases hp : propsSrc ob with
    | error e => simp [hs, hp] at h
    | ok pd =>
      simp [hs, hp] at h
      subst h
      obtain ⟨u, c⟩ := c48_attributes hk h1 h2 h3 (configDictInst_some (fun _ => hs) (fun _ => hp))
      refine ⟨_, rfl, rfl, rfl, rfl, ?_, fun n v => ?_⟩
      · exact uniqueKeys_filter u _
      · have := (c25_exact o (configDictOfSrcs o { cd := classSrc ob, dd := dictSrc ob, sd := sd, pd := pd })).1 n v
        rw [c] at this
        simp only [h4, Bool.false_eq_true, false_and, or_false] at this
        refine Iff.trans this ⟨fun h => ⟨h.2, h.1⟩, fun h => ⟨h.2, h.1⟩⟩

/-! Inheritance: `B` has the slot `s`, overrides the property `p` of `A` and inherits `A`'s class attribute `c` and its
property `q`; the object's own `c` hides the class attribute, and its `__dict__` entry `p` is hidden by the property. -/
def exA : List (Str × Member) :=
  [(c!"p", .prop (.error .valueError)), (c!"c", .plain (.int 1)), (c!"q", .prop (.ok (.int 2))), (c!"f", .meth .none .none)]
def exB : List (Str × Member) := [(c!"s", .slot (some (.int 3))), (c!"p", .prop (.ok (.int 4)))]
def exInst : Inst := { cls := c!"B", mro := [exB, exA], dict := some [(c!"c", .int 5), (c!"p", .int 6), (c!"_z", .int 7)] }

theorem exInst_ok : exInst.Ok where
  uniq := by simp only [exInst]; decide
  dict := by intro d hd; cases hd; decide
  weakref := by rintro v ⟨d, hd, h⟩; cases hd; revert h; simp

example : configDictInst {} exInst =
    .ok [(c!"c", .int 5), (c!"p", .int 4), (c!"_z", .int 7), (c!"s", .int 3), (c!"q", .int 2)] := rfl
example : exInst.Own c!"p" ∧ GetAttr exInst c!"p" (.ok (.int 4)) := by
  rw [own_iff exInst_ok, getAttr_iff exInst_ok]
  exact ⟨⟨by decide, .inr (.inl ⟨_, rfl⟩)⟩, rfl⟩
example : ∃ w, (do let x ← exInst.toVal none c!"obj"; whatareyou {} x) = .ok w ∧
    w.conf = [(c!"c", .int 5), (c!"p", .int 4), (c!"s", .int 3), (c!"q", .int 2)] := ⟨_, rfl, rfl⟩
/-- Without the properties, what they hide shows; through the class, a property is a property object. -/
example : configDictInst { addProps := false, addSlots := false, addClass := true } exInst =
    .ok [(c!"c", .int 5), (c!"f", .none), (c!"p", .int 6), (c!"q", .property),
      (c!"s", .obj c!"member_descriptor" false [] [] [] [] none c!"<member>"), (c!"_z", .int 7)] := rfl
/-- One slot that was never assigned is enough for `whatareyou` to fail. -/
example : configDictInst {} { cls := c!"S", mro := [[(c!"a", .slot none), (c!"b", .slot (some .none))]], dict := none } =
    .error .attributeError := rfl

end Whatami
