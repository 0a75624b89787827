import Verif.DecoratedObj
import Verif.Props.Attrs

/-
C55: decorated objects.
-/
namespace Whatami

/-- The two objects are the same but for the attribute `what`. -/
structure OnlyWhat (ob' ob : Inst) : Prop where
  cls : ob'.cls = ob.cls
  finds : ∀ n m, n ≠ c!"what" → (ob'.Finds n m ↔ ob.Finds n m)
  dict : ∀ n v, n ≠ c!"what" → (ob'.InDict n v ↔ ob.InDict n v)

theorem OnlyWhat.refl (ob : Inst) : OnlyWhat ob ob := ⟨rfl, fun _ _ _ => Iff.rfl, fun _ _ _ => Iff.rfl⟩

theorem OnlyWhat.symm {a b : Inst} (h : OnlyWhat a b) : OnlyWhat b a :=
  ⟨h.1.symm, fun n m hn => (h.2 n m hn).symm, fun n v hn => (h.3 n v hn).symm⟩

theorem OnlyWhat.trans {a b c : Inst} (h : OnlyWhat a b) (h' : OnlyWhat b c) : OnlyWhat a c :=
  ⟨h.1.trans h'.1, fun n m hn => (h.2 n m hn).trans (h'.2 n m hn), fun n v hn => (h.3 n v hn).trans (h'.3 n v hn)⟩

theorem onlyWhat_get {ob' ob : Inst} (h : OnlyWhat ob' ob) {n : Str} (hn : n ≠ c!"what") {r : R Val} (hg : GetAttr ob' n r) : GetAttr ob n r := by
  have hf : ∀ m, ob'.Finds n m ↔ ob.Finds n m := fun m => h.2 n m hn
  have hd : ∀ v, ob'.InDict n v ↔ ob.InDict n v := fun v => h.3 n v hn
  cases hg with
  | slot h => exact .slot ((hf _).1 h)
  | empty h => exact .empty ((hf _).1 h)
  | prop h => exact .prop ((hf _).1 h)
  | dict h1 h2 => exact .dict (fun m hm => h1 m ((hf m).2 hm)) ((hd _).1 h2)
  | meth h1 h2 => exact .meth (fun u hu => h1 u ((hd u).2 hu)) ((hf _).1 h2)
  | plain h1 h2 => exact .plain (fun u hu => h1 u ((hd u).2 hu)) ((hf _).1 h2)
  | missing h1 h2 => exact .missing (fun u hu => h1 u ((hd u).2 hu)) (fun m hm => h2 m ((hf m).2 hm))

/-- C55: such objects have the same attributes. -/
theorem c55_same_attributes {ob' ob : Inst} (h : OnlyWhat ob' ob) {n : Str} (hn : n ≠ c!"what") (r : R Val) :
    (GetAttr ob' n r ↔ GetAttr ob n r) ∧ (ob'.Own n ↔ ob.Own n) := by
  refine ⟨⟨onlyWhat_get h hn, onlyWhat_get h.symm hn⟩, ?_⟩
  simp only [Inst.Own, h.2 n _ hn, h.3 n _ hn]

theorem readAttr_eq (ob : Inst) (n : Str) : readAttr ob n = attrOf ob n := by
  unfold readAttr attrOf
  cases findMember n ob.mro with
  | none => rfl
  | some m =>
    cases m with
    | slot c => cases c <;> rfl
    | prop r => rfl
    | meth a b => rfl
    | plain a => rfl

theorem readAttr_iff {ob : Inst} (hk : ob.Ok) {n : Str} {r : R Val} : readAttr ob n = r ↔ GetAttr ob n r := by
  rw [readAttr_eq, getAttr_iff hk]

theorem callWhat_eq {ob : Inst} (hk : ob.Ok) {o : WhatOpts} (h : GetAttr ob c!"what" (.ok (methVal o))) : callWhat ob = reportInst o ob := by
  unfold callWhat
  rw [(readAttr_iff hk).2 h]
  rfl

theorem report_iff (o : WhatOpts) (ob : Inst) : (∃ w, reportInst o ob = .ok w) ↔ ∃ cd, configDictInst o ob = .ok cd := by
  unfold reportInst
  constructor
  · rintro ⟨w, hw⟩
    split at hw
    · cases hw
    · rename_i cd hcd
      exact ⟨cd, hcd⟩
  · rintro ⟨cd, hcd⟩
    exact ⟨_, by rw [hcd]⟩

/-- **C55**: whenever `what()` of a decorated object is called, it reports the attributes the object has then, the method `what`
itself left out; it is no snapshot taken at decoration. -/
theorem c55_live {o : WhatOpts} {ob' ob : Inst} (hk' : ob'.Ok) (h : OnlyWhat ob' ob) (hm : GetAttr ob' c!"what" (.ok (methVal o)))
    (hx : ¬ Public o c!"what") (h1 : o.addDict = true) (h2 : o.addSlots = true) (h3 : o.addProps = true) {w : What} (hw : callWhat ob' = .ok w) :
    w.name = ob.cls ∧ w.nonids = o.nonids ∧ w.out = none ∧ UniqueKeys w.conf ∧
      ∀ n v, (n, v) ∈ w.conf ↔ Public o n ∧ n ≠ c!"what" ∧ ((ob.Own n ∧ GetAttr ob n (.ok v)) ∨
        (o.addClass = true ∧ ¬ ob.Own n ∧ ∃ m, ob.Finds n m ∧ FromClass m v)) := by
  rw [callWhat_eq hk' hm, reportInst] at hw
  split at hw
  · cases hw
  · rename_i cd hcd
    cases hw
    obtain ⟨u, c⟩ := c48_attributes hk' h1 h2 h3 hcd
    refine ⟨h.cls, rfl, rfl, uniqueKeys_filter u _, fun n v => ?_⟩
    have := (c25_exact o cd).1 n v
    show (n, v) ∈ trimDict o cd ↔ _
    rw [this, c]
    constructor
    · rintro ⟨hc, hp⟩
      have hn : n ≠ c!"what" := by rintro rfl; exact hx hp
      refine ⟨hp, hn, ?_⟩
      simpa only [(c55_same_attributes h hn (.ok v)).1, (c55_same_attributes h hn (.ok v)).2, h.2 n _ hn] using hc
    · rintro ⟨hp, hn, hc⟩
      refine ⟨?_, hp⟩
      simpa only [(c55_same_attributes h hn (.ok v)).1, (c55_same_attributes h hn (.ok v)).2, h.2 n _ hn] using hc

/-- C55: and it does report if all the slots and properties that are asked for can be read. -/
theorem c55_total {o : WhatOpts} {ob' ob : Inst} (hk' : ob'.Ok) (h : OnlyWhat ob' ob) (hm : GetAttr ob' c!"what" (.ok (methVal o))) :
    (∃ w, callWhat ob' = .ok w) ↔ ∀ n m, n ≠ c!"what" → ob.Finds n m → Wanted o n m → ∃ v, GetAttr ob n (.ok v) := by
  rw [callWhat_eq hk' hm, report_iff, c48_total hk']
  constructor
  · intro hh n m hn hf hw
    obtain ⟨v, hv⟩ := hh n m ((h.2 n m hn).2 hf) hw
    exact ⟨v, onlyWhat_get h hn hv⟩
  · intro hh n m hf hw
    by_cases hn : n = c!"what"
    · subst hn
      exact ⟨_, hm⟩
    · obtain ⟨v, hv⟩ := hh n m hn ((h.2 n m hn).1 hf) hw
      exact ⟨v, onlyWhat_get h.symm hn hv⟩

theorem setWhatAttr_ok {o : WhatOpts} {ob ob' : Inst} (hk : ob.Ok) (h : setWhatAttr o ob = .ok ob') :
    ob'.Ok ∧ OnlyWhat ob' ob ∧ GetAttr ob' c!"what" (.ok (methVal o)) := by
  unfold setWhatAttr at h
  split at h
  · cases h
  · cases h
  · cases h
  · rename_i d hd hs hp
    cases h
    have hdict : ∀ n v, n ≠ c!"what" → ((n, v) ∈ dset d c!"what" (methVal o) ↔ (n, v) ∈ d) := by
      intro n v hn
      have hu := hk.dict d hd
      have hu' := nodup_dset hu c!"what" (methVal o)
      rw [← dget_iff hu', ← dget_iff hu, dget_dset, if_neg (Ne.symm hn)]
    have hk' : ({ ob with dict := some (dset d c!"what" (methVal o)) } : Inst).Ok := by
      refine ⟨hk.uniq, ?_, ?_⟩
      · intro d' hd'
        cases hd'
        exact nodup_dset (hk.dict d hd) _ _
      · rintro v ⟨d', hd', hv⟩
        cases hd'
        exact hk.weakref v ⟨d, hd, (hdict _ v (by decide)).1 hv⟩
    refine ⟨hk', ⟨rfl, fun n m hn => Iff.rfl, fun n v hn => ?_⟩, ?_⟩
    · constructor
      · rintro ⟨d', hd', hv⟩
        cases hd'
        exact ⟨d, hd, (hdict n v hn).1 hv⟩
      · rintro ⟨d', hd', hv⟩
        rw [hd] at hd'
        cases hd'
        exact ⟨_, rfl, (hdict n v hn).2 hv⟩
    · refine .dict (fun m hm hI => ?_) ⟨_, rfl, mem_of_dget (by rw [dget_dset, if_pos rfl])⟩
      have hm : findMember c!"what" ob.mro = some m := (finds_iff hk').1 hm
      cases hI with
      | slot c => exact hs c hm
      | prop r => exact hp r hm

/-- C55: `whatable(obj)` changes nothing but the attribute `what`, which becomes the method with the options given last. -/
theorem c55_object {o : WhatOpts} {ob ob' : Inst} (hk : ob.Ok) (h : whatableObj o ob = .ok ob') :
    ob'.Ok ∧ OnlyWhat ob' ob ∧ GetAttr ob' c!"what" (.ok (methVal o)) := by
  unfold whatableObj at h
  split at h
  · cases h
  · split at h
    · exact setWhatAttr_ok hk h
    · cases h
  · exact setWhatAttr_ok hk h

/-- C55: what it raises: Exception, but for an exception other than AttributeError that looking for `what` raises. -/
theorem c55_error {o : WhatOpts} {ob : Inst} (hk : ob.Ok) {e : Err} (h : whatableObj o ob = .error e) :
    e = .exception ∨ (GetAttr ob c!"what" (.error e) ∧ e ≠ .attributeError) := by
  have hs : ∀ {x}, setWhatAttr o ob = .error x → x = .exception := by
    intro x hx
    unfold setWhatAttr at hx
    split at hx <;> simp_all
  unfold whatableObj at h
  split at h
  · rename_i e' he
    simp only [Except.error.injEq] at h
    subst h
    unfold hasWhatAttr at he
    split at he <;> simp at he
    rename_i e' hne hr
    subst he
    rw [readAttr_eq] at hr
    exact .inr ⟨(getAttr_iff hk).2 hr, hne⟩
  · split at h
    · exact .inl (hs h)
    · simp at h; exact .inl h.symm
  · exact .inl (hs h)

/-- C55: which objects it accepts: those with a `__dict__`, without a slot or property called `what`, and with no other `what` than
one that works. -/
theorem c55_accepts {o : WhatOpts} {ob : Inst} (hk : ob.Ok) :
    (∃ ob', whatableObj o ob = .ok ob') ↔ (∃ d, ob.dict = some d) ∧ (∀ m, ob.Finds c!"what" m → ¬ IsData m) ∧
      (GetAttr ob c!"what" (.error .attributeError) ∨ ∃ w, callWhat ob = .ok w) := by
  have hset : (∃ ob', setWhatAttr o ob = .ok ob') ↔ (∃ d, ob.dict = some d) ∧ ∀ m, ob.Finds c!"what" m → ¬ IsData m := by
    constructor
    · rintro ⟨ob', h⟩
      unfold setWhatAttr at h
      split at h
      · cases h
      · cases h
      · cases h
      · rename_i d hd hs hp
        refine ⟨⟨d, hd⟩, fun m hm hI => ?_⟩
        have hm := (finds_iff hk).1 hm
        cases hI with
        | slot c => exact hs c hm
        | prop r => exact hp r hm
    · rintro ⟨⟨d, hd⟩, hm⟩
      unfold setWhatAttr
      rw [hd]
      cases hf : findMember c!"what" ob.mro with
      | none => exact ⟨_, rfl⟩
      | some m =>
        have := hm m ((finds_iff hk).2 hf)
        cases m with
        | slot c => exact absurd (.slot c) this
        | prop c => exact absurd (.prop c) this
        | meth a b => exact ⟨_, rfl⟩
        | plain a => exact ⟨_, rfl⟩
  rw [← and_assoc, ← hset]
  have hcw : ∀ e, readAttr ob c!"what" = .error e → callWhat ob = .error e := by
    intro e he
    unfold callWhat
    rw [he]
  unfold whatableObj hasWhatAttr
  cases hr : readAttr ob c!"what" with
  | ok v =>
    have hne : ¬ GetAttr ob c!"what" (.error .attributeError) := by
      rw [← readAttr_iff hk, hr]
      simp
    simp only [hne, false_or]
    unfold isWhatableInst
    cases hc : callWhat ob with
    | ok w => simp
    | error e => simp
  | error e =>
    have hg := (readAttr_iff hk).1 hr
    by_cases he : e = .attributeError
    · subst he
      simp [hg]
    · have hne : ¬ GetAttr ob c!"what" (.error .attributeError) := by
        rw [← readAttr_iff hk, hr]
        simpa using he
      rw [hcw e hr]
      cases e <;> simp_all

theorem whatableObj_shape {o : WhatOpts} {ob ob' : Inst} (h : whatableObj o ob = .ok ob') : (∃ d, ob'.dict = some d) ∧ ob'.mro = ob.mro := by
  have hs : ∀ {x}, setWhatAttr o ob = .ok x → (∃ d, x.dict = some d) ∧ x.mro = ob.mro := by
    intro x hx
    unfold setWhatAttr at hx
    split at hx <;> cases hx
    exact ⟨⟨_, rfl⟩, rfl⟩
  unfold whatableObj at h
  split at h
  · cases h
  · split at h
    · exact hs h
    · cases h
  · exact hs h

/-- C55: decorating again replaces the options, as long as the object reports at all. -/
theorem c55_again {o o' : WhatOpts} {ob ob' : Inst} (hk : ob.Ok) (h : whatableObj o ob = .ok ob') {w : What} (hw : callWhat ob' = .ok w) :
    ∃ ob'', whatableObj o' ob' = .ok ob'' ∧ OnlyWhat ob'' ob ∧ GetAttr ob'' c!"what" (.ok (methVal o')) := by
  obtain ⟨hk', ho, hm⟩ := c55_object hk h
  have hacc : ∃ ob'', whatableObj o' ob' = .ok ob'' := by
    obtain ⟨hd, hmro⟩ := whatableObj_shape h
    refine (c55_accepts hk').2 ⟨hd, fun m hf => ((c55_accepts hk).1 ⟨_, h⟩).2.1 m ?_, .inr ⟨w, hw⟩⟩
    rw [finds_iff hk', hmro] at hf
    exact (finds_iff hk).2 hf
  obtain ⟨ob'', h''⟩ := hacc
  obtain ⟨-, ho', hm'⟩ := c55_object hk' h''
  exact ⟨ob'', h'', ho'.trans ho, hm'⟩

theorem modify_at {α : Type} (f : α → α) (b : List α) (c : α) (a : List α) : (b ++ c :: a).modify b.length f = b ++ f c :: a := by
  induction b with
  | nil => rfl
  | cons x b ih => simp only [List.cons_append, List.length_cons, List.modify_succ_cons, ih]

/-- C55: decorating a class, any of the bases too, as long as nothing more specific is called `what`: the same for all instances. -/
theorem c55_class {o : WhatOpts} {ob : Inst} (hk : ob.Ok) {before after : List (List (Str × Member))} {c : List (Str × Member)}
    (hm : ob.mro = before ++ c :: after) (hb : ∀ d ∈ before, ∀ m, (c!"what", m) ∉ d) (hd : ∀ v, ¬ ob.InDict c!"what" v) :
    (decorateClass o ob before.length).Ok ∧ OnlyWhat (decorateClass o ob before.length) ob ∧
      GetAttr (decorateClass o ob before.length) c!"what" (.ok (methVal o)) := by
  have hmod : (decorateClass o ob before.length).mro = before ++ dset c c!"what" (.meth (funVal o) (methVal o)) :: after := by
    show ob.mro.modify _ _ = _
    rw [hm, modify_at]
  have huc : (dkeys c).Nodup := hk.uniq c (by rw [hm]; simp)
  have hk' : (decorateClass o ob before.length).Ok := by
    refine ⟨?_, hk.dict, hk.weakref⟩
    intro x hx
    rw [hmod] at hx
    simp only [List.mem_append, List.mem_cons] at hx
    rcases hx with hx | rfl | hx
    · exact hk.uniq x (by rw [hm]; simp [hx])
    · exact nodup_dset huc _ _
    · exact hk.uniq x (by rw [hm]; simp [hx])
  have hfm : ∀ (n : Str) (b : List (List (Str × Member))), n ≠ c!"what" →
      findMember n (b ++ dset c c!"what" (.meth (funVal o) (methVal o)) :: after) = findMember n (b ++ c :: after) := by
    intro n b hn
    induction b with
    | nil => simp only [List.nil_append, findMember, dget_dset, if_neg (Ne.symm hn)]
    | cons x b ih => simp only [List.cons_append, findMember, ih]
  refine ⟨hk', ⟨rfl, fun n m hn => ?_, fun n v _ => Iff.rfl⟩, ?_⟩
  · rw [finds_iff hk', finds_iff hk, hmod, hm, hfm n before hn]
  · refine .meth (c := funVal o) hd ⟨before, _, after, hmod, hb, ?_⟩
    exact mem_of_dget (by rw [dget_dset, if_pos rfl])

/-- Other `excludes` than the default ones put the method itself into the configuration of a decorated object. -/
theorem c55_excludes {o : WhatOpts} {ob ob' : Inst} (hk : ob.Ok) (h : whatableObj o ob = .ok ob') (hx : Public o c!"what")
    (h1 : o.addDict = true) (h2 : o.addSlots = true) (h3 : o.addProps = true) {w : What} (hw : callWhat ob' = .ok w) :
    (c!"what", methVal o) ∈ w.conf := by
  obtain ⟨hk', ho, hm⟩ := c55_object hk h
  rw [callWhat_eq hk' hm, reportInst] at hw
  split at hw
  · cases hw
  · rename_i cd hcd
    cases hw
    obtain ⟨-, c⟩ := c48_attributes hk' h1 h2 h3 hcd
    refine ((c25_exact o cd).1 _ _).2 ⟨(c _ _).2 (.inl ⟨⟨by decide, ?_⟩, hm⟩), hx⟩
    obtain ⟨hd, hmro⟩ := whatableObj_shape h
    have hn := ((c55_accepts hk).1 ⟨_, h⟩).2.1
    have hF : ∀ m, ob'.Finds c!"what" m → ¬ IsData m := by
      intro m hf
      rw [finds_iff hk', hmro] at hf
      exact hn m ((finds_iff hk).2 hf)
    rcases Classical.em (∃ v, ob'.InDict c!"what" v) with hv | hv
    · exact .inr hv
    · exfalso
      have hb : ob'.InDict c!"what" (methVal o) := by
        unfold whatableObj at h
        have hs : setWhatAttr o ob = .ok ob' := by
          split at h
          · cases h
          · split at h
            · exact h
            · cases h
          · exact h
        unfold setWhatAttr at hs
        split at hs <;> cases hs
        exact ⟨_, rfl, mem_of_dget (by rw [dget_dset, if_pos rfl])⟩
      exact hv ⟨_, hb⟩

/-- The object of C48, decorated, and after `obj.c = 8` and `obj.d = 9`. -/
def exLater : Inst := { exInst with dict := some [(c!"c", .int 8), (c!"p", .int 6), (c!"_z", .int 7), (c!"d", .int 9)] }
def exLater' : Inst := { exInst with dict := some [(c!"c", .int 8), (c!"p", .int 6), (c!"_z", .int 7), (c!"what", methVal {}), (c!"d", .int 9)] }

example : whatableObj {} exInst = .ok { exInst with dict := some [(c!"c", .int 5), (c!"p", .int 6), (c!"_z", .int 7), (c!"what", methVal {})] } := rfl
example : ∃ w, callWhat exLater' = .ok w ∧ w.conf = [(c!"c", .int 8), (c!"p", .int 4), (c!"d", .int 9), (c!"s", .int 3), (c!"q", .int 2)] :=
  ⟨_, rfl, rfl⟩
example : exLater'.Ok ∧ OnlyWhat exLater' exLater ∧ GetAttr exLater' c!"what" (.ok (methVal {})) ∧ ¬ Public {} c!"what" := by
  have hk' : exLater'.Ok := {
    uniq := by simp only [exLater', exInst]; decide
    dict := by intro d hd; cases hd; decide
    weakref := by rintro v ⟨d, hd, h⟩; cases hd; revert h; simp }
  refine ⟨hk', ⟨rfl, fun n m hn => Iff.rfl, fun n v hn => ?_⟩, (getAttr_iff hk').2 rfl, fun h => h.2.2 (by decide)⟩
  constructor
  · rintro ⟨d, hd, h⟩
    cases hd
    refine ⟨_, rfl, ?_⟩
    simp only [List.mem_cons, Prod.mk.injEq, List.not_mem_nil, or_false, hn, false_and, false_or] at h ⊢
    exact h
  · rintro ⟨d, hd, h⟩
    cases hd
    refine ⟨_, rfl, ?_⟩
    simp only [List.mem_cons, Prod.mk.injEq, List.not_mem_nil, or_false, hn, false_and, false_or] at h ⊢
    exact h
/-- All instances of the base class `A`, and of `B`, get it. -/
example : ∃ w, callWhat (decorateClass {} exInst 1) = .ok w ∧ w.conf = [(c!"c", .int 5), (c!"p", .int 4), (c!"s", .int 3), (c!"q", .int 2)] :=
  ⟨_, rfl, rfl⟩
example : ∃ ob' w, whatableObj { excludes := [c!"s"] } exInst = .ok ob' ∧ callWhat ob' = .ok w ∧ (c!"what", methVal { excludes := [c!"s"] }) ∈ w.conf :=
  ⟨_, _, rfl, rfl, .tail _ (.tail _ (.head _))⟩

end Whatami
