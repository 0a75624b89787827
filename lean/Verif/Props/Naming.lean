import Verif.Naming
import Verif.Props.Utils
import Verif.Props.Meaning
import Verif.Props.Misc

/-
C69: mlexp_info_helper.  C70: fqn.

Specification: `SetupId` (what an experiment's record says of a setup).
-/
namespace Whatami

/-! ### C69 -/

/-- What the record of an experiment says of one of its setups: nothing for None, a string itself, the id of a What or of the What a whatable gives. -/
inductive SetupId (bs : BS) : Val → Val → Prop where
  | none : SetupId bs .none .none
  | str (s : Str) : SetupId bs (.str s) (.str s)
  | what {w : What} {s : Str} : idStr bs w false = .ok s → SetupId bs w.toVal (.str s)
  | whatable {v : Val} {w : What} {s : Str} : whatMethod v = some (.ok w) → idStr bs w false = .ok s → SetupId bs v (.str s)

theorem setupId_what2id {bs : BS} {idm : Val → Option (R Str)} {v x : Val} (h : SetupId bs v x) : ∃ o, what2id bs idm v = .ok o ∧ x = optStr o := by
  cases h with
  | none => exact ⟨_, rfl, rfl⟩
  | str s => exact ⟨_, rfl, rfl⟩
  | what h => exact ⟨_, c39_what bs idm _ _ h, rfl⟩
  | whatable hv h => exact ⟨_, c39_whatable bs idm _ _ _ hv h, rfl⟩

theorem mlexpInfo_ok {bs : BS} {idm : Val → Option (R Str)} {now host : Str} {a : InfoArgs} {info : List (Str × Val)}
    (h : mlexpInfo bs idm now host a = .ok info) : ∃ d m e src idate, what2id bs idm a.dataSetup = .ok d ∧ what2id bs idm a.modelSetup = .ok m ∧
      what2id bs idm a.evalSetup = .ok e ∧ optCall a.source = .ok src ∧ optCall a.itime = .ok idate ∧
      info = [(c!"title", a.title), (c!"data_setup", optStr d), (c!"model_setup", optStr m), (c!"eval_setup", optStr e), (c!"fsource", src),
        (c!"date", .str now), (c!"idate", idate), (c!"host", .str host), (c!"comments", a.comments)] := by
  simp only [mlexpInfo] at h
  cases h1 : what2id bs idm a.dataSetup with
  | error e => simp [h1, Except.bind] at h
  | ok d =>
    cases h2 : what2id bs idm a.modelSetup with
    | error e => simp [h1, h2, Except.bind] at h
    | ok m =>
      cases h3 : what2id bs idm a.evalSetup with
      | error e => simp [h1, h2, h3, Except.bind] at h
      | ok e =>
        cases h4 : optCall a.source with
        | error e => simp [h1, h2, h3, h4, Except.bind] at h
        | ok src =>
          cases h5 : optCall a.itime with
          | error e => simp [h1, h2, h3, h4, h5, Except.bind] at h
          | ok idate =>
            simp only [h1, h2, h3, h4, h5, Except.bind, Except.ok.injEq] at h
            exact ⟨d, m, e, src, idate, rfl, rfl, rfl, rfl, rfl, h.symm⟩

/-- **C69**: the record has exactly these nine entries, in this order, whatever was left out. -/
theorem c69_keys (bs : BS) (idm : Val → Option (R Str)) (now host : Str) (a : InfoArgs) (info : List (Str × Val))
    (h : mlexpInfo bs idm now host a = .ok info) :
    info.map Prod.fst = [c!"title", c!"data_setup", c!"model_setup", c!"eval_setup", c!"fsource", c!"date", c!"idate", c!"host", c!"comments"] := by
  obtain ⟨d, m, e, src, idate, -, -, -, -, -, rfl⟩ := mlexpInfo_ok h
  rfl

/-- **C69**: the three setups are recorded by their ids, and the rest as it was given. -/
theorem c69_entries (bs : BS) (idm : Val → Option (R Str)) (now host : Str) (a : InfoArgs) (info : List (Str × Val))
    (h : mlexpInfo bs idm now host a = .ok info) :
    (∀ x, SetupId bs a.dataSetup x → (c!"data_setup", x) ∈ info) ∧ (∀ x, SetupId bs a.modelSetup x → (c!"model_setup", x) ∈ info) ∧
    (∀ x, SetupId bs a.evalSetup x → (c!"eval_setup", x) ∈ info) ∧ (c!"title", a.title) ∈ info ∧ (c!"comments", a.comments) ∈ info ∧
    (c!"date", .str now) ∈ info ∧ (c!"host", .str host) ∈ info ∧
    (∀ x, a.source = some (.ok x) → (c!"fsource", x) ∈ info) ∧ (a.source = none → (c!"fsource", .none) ∈ info) ∧
    (∀ x, a.itime = some (.ok x) → (c!"idate", x) ∈ info) ∧ (a.itime = none → (c!"idate", .none) ∈ info) := by
  obtain ⟨d, m, e, src, idate, h1, h2, h3, h4, h5, rfl⟩ := mlexpInfo_ok h
  refine ⟨fun x hx => ?_, fun x hx => ?_, fun x hx => ?_, by simp, by simp, by simp, by simp, fun x hx => ?_, fun hx => ?_, fun x hx => ?_, fun hx => ?_⟩
  · obtain ⟨o, ho, rfl⟩ := setupId_what2id (idm := idm) hx
    rw [h1] at ho; cases ho; simp
  · obtain ⟨o, ho, rfl⟩ := setupId_what2id (idm := idm) hx
    rw [h2] at ho; cases ho; simp
  · obtain ⟨o, ho, rfl⟩ := setupId_what2id (idm := idm) hx
    rw [h3] at ho; cases ho; simp
  · rw [hx] at h4; cases h4; simp
  · rw [hx] at h4; cases h4; simp
  · rw [hx] at h5; cases h5; simp
  · rw [hx] at h5; cases h5; simp

/-- **C69**: with setups that have ids, nothing can fail but reading the source and asking for the time. -/
theorem c69_defined (bs : BS) (idm : Val → Option (R Str)) (now host : Str) (a : InfoArgs) (hd : ∃ x, SetupId bs a.dataSetup x)
    (hm : ∃ x, SetupId bs a.modelSetup x) (he : ∃ x, SetupId bs a.evalSetup x) :
    (∃ info, mlexpInfo bs idm now host a = .ok info) ↔ (∀ e, a.source ≠ some (.error e)) ∧ ∀ e, a.itime ≠ some (.error e) := by
  obtain ⟨x, hx⟩ := hd; obtain ⟨d, hd, -⟩ := setupId_what2id (idm := idm) hx
  obtain ⟨x, hx⟩ := hm; obtain ⟨m, hm, -⟩ := setupId_what2id (idm := idm) hx
  obtain ⟨x, hx⟩ := he; obtain ⟨e, he, -⟩ := setupId_what2id (idm := idm) hx
  constructor
  · rintro ⟨info, h⟩
    obtain ⟨_, _, _, src, idate, -, -, -, h4, h5, -⟩ := mlexpInfo_ok h
    constructor
    · intro e he; rw [he] at h4; cases h4
    · intro e he; rw [he] at h5; cases h5
  · rintro ⟨h4, h5⟩
    have call : ∀ o : Option (R Val), (∀ e, o ≠ some (.error e)) → ∃ v, optCall o = .ok v := by
      intro o ho
      match o, ho with
      | none, _ => exact ⟨_, rfl⟩
      | some (.ok v), _ => exact ⟨v, rfl⟩
      | some (.error e), ho => exact absurd rfl (ho e)
    obtain ⟨src, h4⟩ := call _ h4
    obtain ⟨idate, h5⟩ := call _ h5
    exact ⟨_, by simp only [mlexpInfo, hd, hm, he, h4, h5, Except.bind]; rfl⟩

/-- **C69**: ids will do: giving the recorded ids in place of the setups gives the same record. -/
theorem c69_ids (bs : BS) (idm : Val → Option (R Str)) (now host : Str) (a : InfoArgs) (d m e : Val) (info : List (Str × Val))
    (h : mlexpInfo bs idm now host a = .ok info) (hd : (c!"data_setup", d) ∈ info) (hm : (c!"model_setup", m) ∈ info) (he : (c!"eval_setup", e) ∈ info) :
    mlexpInfo bs idm now host { a with dataSetup := d, modelSetup := m, evalSetup := e } = .ok info := by
  obtain ⟨d', m', e', src, idate, h1, h2, h3, h4, h5, rfl⟩ := mlexpInfo_ok h
  have ed : d = optStr d' := by simpa using hd
  have em : m = optStr m' := by simpa using hm
  have ee : e = optStr e' := by simpa using he
  have again : ∀ o : Option Str, what2id bs idm (optStr o) = .ok o := by intro o; cases o <;> rfl
  simp only [mlexpInfo, ed, em, ee, again, h4, h5, Except.bind]

example : mlexpInfo buildD (fun _ => none) c!"now" c!"host" { title := .str c!"t", dataSetup := .what c!"data" [(c!"n", .int 3)] [] none, modelSetup := .str c!"rf()" } =
    .ok [(c!"title", .str c!"t"), (c!"data_setup", .str c!"data(n=3)"), (c!"model_setup", .str c!"rf()"), (c!"eval_setup", .none), (c!"fsource", .none),
      (c!"date", .str c!"now"), (c!"idate", .none), (c!"host", .str c!"host"), (c!"comments", .none)] := by
  have : idStr buildD { name := c!"data", conf := [(c!"n", .int 3)] } false = .ok c!"data(n=3)" := by decide +kernel
  simp only [mlexpInfo, what2id, viaWhat, whatMethod, orElseAttr, viaId, this]
  rfl

/-! ### C70 -/

/-- **C70**: the fully qualified name of an object is its module, a dot, and its qualified name; its plain name if it has no qualified one.
Nothing else has one. -/
theorem c70_fqn (obj cls : NameAttrs) (s : Str) :
    fqn obj cls false = .ok s ↔ ∃ m n, obj.module = .str m ∧ (obj.qualname = .str n ∨ (obj.qualname = .absent ∧ obj.name = .str n)) ∧
      s = m ++ c!"." ++ n := by
  obtain ⟨mo, q, n⟩ := obj
  cases mo <;> cases q <;> cases n <;> simp [fqn, dotted, orElseAttr, eq_comm]

/-- **C70**: with `use_class`, that of the class. -/
theorem c70_use_class (obj cls : NameAttrs) : fqn obj cls true = fqn cls cls false := rfl

/-- **C70**: the errors: AttributeError if there is no module, or none of the two names; TypeError if the module or the name taken is None. -/
theorem c70_errors (obj cls : NameAttrs) :
    (fqn obj cls false = .error .attributeError ↔ obj.module = .absent ∨ (∃ m, obj.module = .str m) ∧ obj.qualname = .absent ∧ obj.name = .absent) ∧
    (fqn obj cls false = .error .typeError ↔ obj.module = .none ∨
      (∃ m, obj.module = .str m) ∧ (obj.qualname = .none ∨ obj.qualname = .absent ∧ obj.name = .none)) := by
  obtain ⟨mo, q, n⟩ := obj
  cases mo <;> cases q <;> cases n <;> simp [fqn, dotted, orElseAttr]

/-- **C70**: importing an object by its fully qualified name gives it back, if it is what its module has under that name and the name has no dot (so
is at top level). -/
theorem c70_import (imp : Str → R Unit) (member : Str → Str → Option Val) (own : Str → Val) (obj cls : NameAttrs) (m n : Str) (v : Val) (fail : Bool)
    (hm : obj.module = .str m) (hn : obj.qualname = .str n) (hne : m ≠ []) (top : '.' ∉ n) (himp : imp m = .ok ()) (hv : member m n = some v) :
    ∃ s, fqn obj cls false = .ok s ∧ maybeImportMember imp member own s fail [] = .ok v := by
  refine ⟨m ++ c!"." ++ n, (c70_fqn obj cls _).2 ⟨m, n, hm, .inl hn, rfl⟩, ?_⟩
  have hp : rpartition (m ++ c!"." ++ n) '.' = (m, n) := rpartition_iff.2 ⟨top, .inl (by simp)⟩
  have hem : m.isEmpty = false := by simpa using hne
  simp only [maybeImportMember, hp, hem, maybeImport, List.isEmpty_nil, Bool.not_true, if_true, tryVariants, himp, Except.map, Except.bind, lazyGet, hv]
  rfl

/-- **C70**: a nested class is not found by its fully qualified name: `m.Outer` is asked for as a module. -/
theorem c70_nested (imp : Str → R Unit) (member : Str → Str → Option Val) (own : Str → Val) (obj cls : NameAttrs) (m outer n : Str) (fail : Bool)
    (hm : obj.module = .str m) (hn : obj.qualname = .str (outer ++ c!"." ++ n)) (top : '.' ∉ n) (hl : n ∉ lazyAttrs)
    (himp : imp (m ++ c!"." ++ outer) = .error .importError) :
    ∃ s, fqn obj cls false = .ok s ∧ maybeImportMember imp member own s fail [] = if fail then .error .importError else .ok .none := by
  refine ⟨m ++ c!"." ++ (outer ++ c!"." ++ n), (c70_fqn obj cls _).2 ⟨m, _, hm, .inl hn, rfl⟩, ?_⟩
  have hp : rpartition (m ++ c!"." ++ (outer ++ c!"." ++ n)) '.' = (m ++ c!"." ++ outer, n) := rpartition_iff.2 ⟨top, .inl (by simp)⟩
  have hem : (m ++ c!"." ++ outer).isEmpty = false := by simp
  have hl' : lazyAttrs.contains n = false := by simpa using hl
  simp only [maybeImportMember, hp, hem, maybeImport, List.isEmpty_nil, Bool.not_true, if_true, tryVariants, himp, Except.map, Except.bind, lazyGet, hl']
  cases fail <;> rfl

/-- **C70**: top-level objects of different modules or names have different fully qualified names. -/
theorem c70_distinct (x y cls cls' : NameAttrs) (m n m' n' s : Str) (hx : x.module = .str m ∧ x.qualname = .str n) (hy : y.module = .str m' ∧ y.qualname = .str n')
    (tx : '.' ∉ n) (ty : '.' ∉ n') (h : fqn x cls false = .ok s) (h' : fqn y cls' false = .ok s) : m = m' ∧ n = n' := by
  have e1 := (c70_fqn x cls _).2 ⟨m, n, hx.1, .inl hx.2, rfl⟩
  have e2 := (c70_fqn y cls' _).2 ⟨m', n', hy.1, .inl hy.2, rfl⟩
  rw [h] at e1; rw [h'] at e2
  cases e1
  have e : m ++ c!"." ++ n = m' ++ c!"." ++ n' := by simpa using e2
  have h1 : rpartition (m ++ c!"." ++ n) '.' = (m, n) := rpartition_iff.2 ⟨tx, .inl (by simp)⟩
  have h2 : rpartition (m' ++ c!"." ++ n') '.' = (m', n') := rpartition_iff.2 ⟨ty, .inl (by simp)⟩
  rw [e, h2] at h1
  simpa [eq_comm] using h1

example : fqn ⟨.str c!"sklearn.svm", .str c!"SVC", .str c!"SVC"⟩ ⟨.str c!"builtins", .str c!"type", .str c!"type"⟩ false = .ok c!"sklearn.svm.SVC" := by decide
/-- `c70_distinct` needs top-level names: module `a`, `B.c` and module `a.B`, `c`. -/
example : fqn ⟨.str c!"a", .str c!"B.c", .absent⟩ ⟨.none, .none, .none⟩ false = fqn ⟨.str c!"a.B", .str c!"c", .absent⟩ ⟨.none, .none, .none⟩ false := by decide

end Whatami
