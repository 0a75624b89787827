import Verif.Props.Text
import Verif.Props.Meaning
import Verif.BasicChain
import Verif.Decode

/-
C84: what `whatareyou` says about values of the built-in types.

Specification: `DottedName` (the last component of a dotted name), `Latest` (dict semantics of `__dict__`), `Public`, `TypeName`, `SaysOf`.
-/
namespace Whatami

/-- `TypeName v n`: `n` is the name of the type of `v`. -/
inductive TypeName : Val → Str → Prop where
  | none : TypeName .none c!"NoneType"
  | bool (b : Bool) : TypeName (.bool b) c!"bool"
  | int (i : Int) : TypeName (.int i) c!"int"
  | float (t : Str) : TypeName (.float t) c!"float"
  | str (s : Str) : TypeName (.str s) c!"str"
  | tuple (xs : List Val) : TypeName (.tuple xs) c!"tuple"
  | list (xs : List Val) : TypeName (.list xs) c!"list"
  | set (xs : List Val) : TypeName (.set xs) c!"set"
  | fset (xs : List Val) : TypeName (.fset xs) c!"frozenset"
  | dict (kvs : List (Val × Val)) : TypeName (.dict kvs) c!"dict"
  | sub (k : Kind) (c : Str) (attrs : Conf) (xs : List Val) : TypeName (.sub k c attrs xs) c
  | odict (c : Str) (attrs : Conf) (kvs : List (Val × Val)) : TypeName (.odict c attrs kvs) c
  | ddict (c : Str) (attrs : Conf) (kvs : List (Val × Val)) : TypeName (.ddict c attrs kvs) c
  | what (n : Str) (conf : Conf) (nk : List Str) (o : Option Str) : TypeName (.what n conf nk o) c!"What"

/-- The integer a boolean or an integer is. -/
inductive IntOf : Val → Int → Prop where
  | int (i : Int) : IntOf (.int i) i
  | true : IntOf (.bool true) 1
  | false : IntOf (.bool false) 0

/-- The elements of a list, tuple or set, or the items of a dict, without the attributes; sets of a proper subclass and frozensets
have none. -/
inductive Contents : Val → Val → Prop where
  | tuple (xs : List Val) : Contents (.tuple xs) (.tuple xs)
  | list (xs : List Val) : Contents (.list xs) (.list xs)
  | set (xs : List Val) : Contents (.set xs) (.set xs)
  | dict (kvs : List (Val × Val)) : Contents (.dict kvs) (.dict kvs)
  | subList (c : Str) (attrs : Conf) (xs : List Val) : Contents (.sub .list c attrs xs) (.list xs)
  | subTuple (c : Str) (attrs : Conf) (xs : List Val) : Contents (.sub .tuple c attrs xs) (.tuple xs)
  | odict (c : Str) (attrs : Conf) (kvs : List (Val × Val)) : Contents (.odict c attrs kvs) (.dict kvs)
  | ddict (c : Str) (attrs : Conf) (kvs : List (Val × Val)) : Contents (.ddict c attrs kvs) (.dict kvs)

/-- The attributes in the `__dict__` of an instance of a subclass of a collection. -/
inductive InstDict : Val → Conf → Prop where
  | sub (k : Kind) (c : Str) (attrs : Conf) (xs : List Val) : InstDict (.sub k c attrs xs) attrs
  | odict (c : Str) (attrs : Conf) (kvs : List (Val × Val)) : InstDict (.odict c attrs kvs) attrs
  | ddict (c : Str) (attrs : Conf) (kvs : List (Val × Val)) : InstDict (.ddict c attrs kvs) attrs

/-- `SaysOf o v k x`: `x` is what there is to say about `v` under the name `k`, given what the options ask for. -/
inductive SaysOf (o : WhatOpts) : Val → Str → Val → Prop where
  | denominator {v : Val} {i : Int} : o.addProps = true → IntOf v i → SaysOf o v c!"denominator" (.int 1)
  | imag {v : Val} {i : Int} : o.addProps = true → IntOf v i → SaysOf o v c!"imag" (.int 0)
  | numerator {v : Val} {i : Int} : o.addProps = true → IntOf v i → SaysOf o v c!"numerator" (.int i)
  | real {v : Val} {i : Int} : o.addProps = true → IntOf v i → SaysOf o v c!"real" (.int i)
  | imagFloat (t : Str) : o.addProps = true → SaysOf o (.float t) c!"imag" (.float c!"0.0")
  | realFloat (t : Str) : o.addProps = true → SaysOf o (.float t) c!"real" (.float t)
  | seq {v s : Val} : Contents v s → SaysOf o v c!"seq" s
  /-- the contents hide an attribute of that name -/
  | attr {v x : Val} {attrs : Conf} {k : Str} : o.addDict = true → InstDict v attrs → Latest attrs k x →
      (k = c!"seq" → ∀ s, ¬ Contents v s) → SaysOf o v k x
  | name (n : Str) (conf : Conf) (nk : List Str) (ou : Option Str) : o.addSlots = true → SaysOf o (.what n conf nk ou) c!"name" (.str n)
  | conf (n : Str) (conf : Conf) (nk : List Str) (ou : Option Str) : o.addSlots = true →
      SaysOf o (.what n conf nk ou) c!"conf" (.dict (conf.map fun e => (.str e.1, e.2)))
  | nonIdKeys (n : Str) (conf : Conf) (nk : List Str) (ou : Option Str) : o.addSlots = true →
      SaysOf o (.what n conf nk ou) c!"non_id_keys" (.set (nk.map .str))
  | outName (n : Str) (conf : Conf) (nk : List Str) (ou : Str) : o.addSlots = true → SaysOf o (.what n conf nk (some ou)) c!"out_name" (.str ou)
  | noOutName (n : Str) (conf : Conf) (nk : List Str) : o.addSlots = true → SaysOf o (.what n conf nk none) c!"out_name" .none

theorem typeName_c2c {v : Val} {n : Str} (h : TypeName v n) : callable2call v [] [] = .error .valueError ∧ className v = n := by
  cases h <;> exact ⟨rfl, rfl⟩

/-- The sources and the contents, before trimming. -/
theorem saysOf_iff {o : WhatOpts} (hc : o.addClass = false) {v : Val} {n : Str} (h : TypeName v n) :
    UniqueKeys (addSeq v (configDictForObject o v)) ∧ ∀ k x, (k, x) ∈ addSeq v (configDictForObject o v) ↔ SaysOf o v k x := by
  have dd : ∀ attrs : Conf, configDictOfSrcs o { dd := attrs } = if o.addDict then dictOf attrs else [] := by
    intro attrs
    cases hd : o.addDict <;> cases hs : o.addSlots <;> cases hp : o.addProps <;> simp [configDictOfSrcs, hc, hd, hs, hp, dupdate, dictOf]
  have nd : ∀ attrs : Conf, (dkeys (if o.addDict = true then dictOf attrs else [])).Nodup := by
    intro attrs
    split
    · exact nodup_dictOf _
    · simp [dkeys]
  have mem : ∀ (attrs : Conf) k x, (k, x) ∈ (if o.addDict = true then dictOf attrs else []) ↔ o.addDict = true ∧ Latest attrs k x := by
    intro attrs k x
    split
    · rename_i e; simp [e, mem_dictOf_iff]
    · rename_i e; simp [e]
  have none0 : configDictOfSrcs o {} = [] := by rw [dd []]; split <;> rfl
  have seq : ∀ (w s : Val) (attrs : Conf), (∀ s', Contents w s' ↔ s' = s) → InstDict w attrs → (∀ a, InstDict w a → a = attrs) →
      (∀ k x, SaysOf o w k x → (k = c!"seq" ∧ Contents w x) ∨ (∃ a, InstDict w a ∧ o.addDict = true ∧ Latest a k x ∧ (k = c!"seq" → ∀ s, ¬ Contents w s))) →
      UniqueKeys (dset (if o.addDict = true then dictOf attrs else []) c!"seq" s) ∧
        ∀ k x, (k, x) ∈ dset (if o.addDict = true then dictOf attrs else []) c!"seq" s ↔ SaysOf o w k x := by
    intro w s attrs hs hi hu hh
    refine ⟨nodup_dset (nd attrs) _ _, fun k x => ?_⟩
    rw [mem_dset_nodup (nd attrs), mem]
    constructor
    · rintro (⟨rfl, rfl⟩ | ⟨hk, hd, hl⟩)
      · exact .seq ((hs _).2 rfl)
      · exact .attr hd hi hl fun e => absurd e hk
    · intro h
      rcases hh k x h with ⟨rfl, hx⟩ | ⟨a, ha, hd, hl, hk⟩
      · exact .inl ⟨rfl, (hs _).1 hx⟩
      · refine .inr ⟨fun e => hk e s ((hs _).2 rfl), hd, ?_⟩
        rw [hu a ha] at hl
        exact hl
  have only : ∀ (w s : Val), (∀ s', Contents w s' ↔ s' = s) → (∀ k x, SaysOf o w k x → k = c!"seq" ∧ Contents w x) →
      UniqueKeys (dset ([] : Conf) c!"seq" s) ∧ ∀ k x, (k, x) ∈ dset ([] : Conf) c!"seq" s ↔ SaysOf o w k x := by
    intro w s hs hh
    refine ⟨nodup_dset (by simp [dkeys]) _ _, fun k x => ?_⟩
    rw [mem_dset_nodup (by simp [dkeys])]
    constructor
    · rintro (⟨rfl, rfl⟩ | ⟨hk, hd⟩)
      · exact .seq ((hs _).2 rfl)
      · cases hd
    · intro h
      obtain ⟨rfl, hx⟩ := hh k x h
      exact .inl ⟨rfl, (hs _).1 hx⟩
  have pd : ∀ ps : Conf, (dkeys ps).Nodup → configDictOfSrcs o { pd := ps } = if o.addProps = true then ps else [] := by
    intro ps hn
    cases hd : o.addDict <;> cases hs : o.addSlots <;> cases hp : o.addProps <;>
      simp [configDictOfSrcs, hc, hd, hs, hp, dupdate] <;> exact dictOf_unique hn
  have sd : ∀ ps : Conf, (dkeys ps).Nodup → configDictOfSrcs o { sd := ps } = if o.addSlots = true then ps else [] := by
    intro ps hn
    cases hd : o.addDict <;> cases hs : o.addSlots <;> cases hp : o.addProps <;>
      simp [configDictOfSrcs, hc, hd, hs, hp, dupdate] <;> exact dictOf_unique hn
  have nothing : ∀ w : Val, (∀ k x, ¬ SaysOf o w k x) → UniqueKeys ([] : Conf) ∧ ∀ k x, (k, x) ∈ ([] : Conf) ↔ SaysOf o w k x := by
    intro w hw
    refine ⟨by simp [UniqueKeys], fun k x => ⟨fun h => (by cases h), fun h => absurd h (hw k x)⟩⟩
  have ints : ∀ (w : Val) (i : Int), IntOf w i → (∀ j, IntOf w j → j = i) → (∀ s, ¬ Contents w s) → (∀ a, ¬ InstDict w a) →
      (∀ t, w ≠ .float t) → (∀ n c nk ou, w ≠ .what n c nk ou) →
      UniqueKeys (configDictOfSrcs o { pd := [(c!"denominator", .int 1), (c!"imag", .int 0), (c!"numerator", .int i), (c!"real", .int i)] }) ∧
      ∀ k x, (k, x) ∈ configDictOfSrcs o { pd := [(c!"denominator", .int 1), (c!"imag", .int 0), (c!"numerator", .int i), (c!"real", .int i)] } ↔
        SaysOf o w k x := by
    intro w i hi hu hs ha hf hw
    have hn : (dkeys [(c!"denominator", Val.int 1), (c!"imag", .int 0), (c!"numerator", .int i), (c!"real", .int i)]).Nodup := by
      simp only [dkeys, List.map]; decide
    rw [pd _ hn]
    cases hp : o.addProps
    · refine nothing _ fun k x h => ?_
      cases h with
      | seq h => exact hs _ h
      | attr _ hi => exact ha _ hi
      | imagFloat t => exact hf _ rfl
      | realFloat t => exact hf _ rfl
      | name | conf | nonIdKeys | outName | noOutName => exact hw _ _ _ _ rfl
      | _ => simp_all
    · refine ⟨hn, fun k x => ?_⟩
      simp only [if_true, List.mem_cons, Prod.mk.injEq, List.not_mem_nil, or_false]
      constructor
      · rintro (⟨rfl, rfl⟩ | ⟨rfl, rfl⟩ | ⟨rfl, rfl⟩ | ⟨rfl, rfl⟩)
        · exact .denominator hp hi
        · exact .imag hp hi
        · exact .numerator hp hi
        · exact .real hp hi
      · intro h
        cases h with
        | seq h => exact absurd h (hs _)
        | attr _ hi => exact absurd hi (ha _)
        | imagFloat t => exact absurd rfl (hf _)
        | realFloat t => exact absurd rfl (hf _)
        | name | conf | nonIdKeys | outName | noOutName => exact absurd rfl (hw _ _ _ _)
        | denominator => simp
        | imag => simp
        | numerator _ h => simp [hu _ h]
        | real _ h => simp [hu _ h]
  cases h with
  | none =>
    show UniqueKeys (configDictOfSrcs o {}) ∧ ∀ k x, _ ∈ configDictOfSrcs o {} ↔ _
    rw [none0]
    refine nothing _ fun k x h => ?_
    cases h with
    | seq h => cases h
    | attr _ hi => cases hi
    | _ => rename_i h; cases h
  | bool b =>
    cases b
    · exact ints _ 0 .false (fun j h => by cases h; rfl) (fun s h => by cases h) (fun a h => by cases h) (fun t h => by cases h) (fun _ _ _ _ h => by cases h)
    · exact ints _ 1 .true (fun j h => by cases h; rfl) (fun s h => by cases h) (fun a h => by cases h) (fun t h => by cases h) (fun _ _ _ _ h => by cases h)
  | int i =>
    exact ints _ i (.int i) (fun j h => by cases h; rfl) (fun s h => by cases h) (fun a h => by cases h) (fun t h => by cases h) (fun _ _ _ _ h => by cases h)
  | float t =>
    have hn : (dkeys [(c!"imag", Val.float c!"0.0"), (c!"real", .float t)]).Nodup := by simp only [dkeys, List.map]; decide
    show UniqueKeys (configDictOfSrcs o { pd := _ }) ∧ ∀ k x, _ ∈ configDictOfSrcs o { pd := _ } ↔ _
    rw [pd _ hn]
    cases hp : o.addProps
    · refine nothing _ fun k x h => ?_
      cases h with
      | seq h => cases h
      | attr _ hi => cases hi
      | imagFloat _ h => simp_all
      | realFloat _ h => simp_all
      | _ => rename_i h; cases h
    · refine ⟨hn, fun k x => ?_⟩
      simp only [if_true, List.mem_cons, Prod.mk.injEq, List.not_mem_nil, or_false]
      constructor
      · rintro (⟨rfl, rfl⟩ | ⟨rfl, rfl⟩)
        · exact .imagFloat t hp
        · exact .realFloat t hp
      · intro h
        cases h with
        | seq h => cases h
        | attr _ hi => cases hi
        | imagFloat _ h => simp
        | realFloat _ h => simp
        | _ => rename_i h; cases h
  | str s =>
    show UniqueKeys (configDictOfSrcs o {}) ∧ ∀ k x, _ ∈ configDictOfSrcs o {} ↔ _
    rw [none0]
    refine nothing _ fun k x h => ?_
    cases h with
    | seq h => cases h
    | attr _ hi => cases hi
    | _ => rename_i h; cases h
  | tuple xs =>
    show UniqueKeys (dset (configDictOfSrcs o {}) _ _) ∧ ∀ k x, _ ∈ dset (configDictOfSrcs o {}) _ _ ↔ _
    rw [none0]
    refine only _ _ (fun s' => ⟨fun h => by cases h; rfl, fun h => h ▸ .tuple _⟩) fun k x h => ?_
    cases h with
    | seq h => exact ⟨rfl, h⟩
    | attr _ hi => cases hi
    | _ => rename_i h; cases h
  | list xs =>
    show UniqueKeys (dset (configDictOfSrcs o {}) _ _) ∧ ∀ k x, _ ∈ dset (configDictOfSrcs o {}) _ _ ↔ _
    rw [none0]
    refine only _ _ (fun s' => ⟨fun h => by cases h; rfl, fun h => h ▸ .list _⟩) fun k x h => ?_
    cases h with
    | seq h => exact ⟨rfl, h⟩
    | attr _ hi => cases hi
    | _ => rename_i h; cases h
  | set xs =>
    show UniqueKeys (dset (configDictOfSrcs o {}) _ _) ∧ ∀ k x, _ ∈ dset (configDictOfSrcs o {}) _ _ ↔ _
    rw [none0]
    refine only _ _ (fun s' => ⟨fun h => by cases h; rfl, fun h => h ▸ .set _⟩) fun k x h => ?_
    cases h with
    | seq h => exact ⟨rfl, h⟩
    | attr _ hi => cases hi
    | _ => rename_i h; cases h
  | fset xs =>
    show UniqueKeys (configDictOfSrcs o {}) ∧ ∀ k x, _ ∈ configDictOfSrcs o {} ↔ _
    rw [none0]
    refine nothing _ fun k x h => ?_
    cases h with
    | seq h => cases h
    | attr _ hi => cases hi
    | _ => rename_i h; cases h
  | dict kvs =>
    show UniqueKeys (dset (configDictOfSrcs o {}) _ _) ∧ ∀ k x, _ ∈ dset (configDictOfSrcs o {}) _ _ ↔ _
    rw [none0]
    refine only _ _ (fun s' => ⟨fun h => by cases h; rfl, fun h => h ▸ .dict _⟩) fun k x h => ?_
    cases h with
    | seq h => exact ⟨rfl, h⟩
    | attr _ hi => cases hi
    | _ => rename_i h; cases h
  | sub k c attrs xs =>
    cases k with
    | list =>
      show UniqueKeys (dset (configDictOfSrcs o { dd := attrs }) _ _) ∧ ∀ k x, _ ∈ dset (configDictOfSrcs o { dd := attrs }) _ _ ↔ _
      rw [dd]
      refine seq _ _ attrs (fun s' => ⟨fun h => by cases h; rfl, fun h => h ▸ .subList _ _ _⟩) (.sub _ _ _ _) (fun a h => by cases h; rfl) fun k x h => ?_
      cases h with
      | seq h => exact .inl ⟨rfl, h⟩
      | attr hd hi hl hk => exact .inr ⟨_, hi, hd, hl, hk⟩
      | _ => rename_i h; cases h
    | tuple =>
      show UniqueKeys (dset (configDictOfSrcs o { dd := attrs }) _ _) ∧ ∀ k x, _ ∈ dset (configDictOfSrcs o { dd := attrs }) _ _ ↔ _
      rw [dd]
      refine seq _ _ attrs (fun s' => ⟨fun h => by cases h; rfl, fun h => h ▸ .subTuple _ _ _⟩) (.sub _ _ _ _) (fun a h => by cases h; rfl) fun k x h => ?_
      cases h with
      | seq h => exact .inl ⟨rfl, h⟩
      | attr hd hi hl hk => exact .inr ⟨_, hi, hd, hl, hk⟩
      | _ => rename_i h; cases h
    | set =>
      show UniqueKeys (configDictOfSrcs o { dd := attrs }) ∧ ∀ k x, _ ∈ configDictOfSrcs o { dd := attrs } ↔ _
      rw [dd]
      refine ⟨nd attrs, fun k x => ?_⟩
      rw [mem]
      constructor
      · rintro ⟨hd, hl⟩
        exact .attr hd (.sub _ _ _ _) hl fun _ s hs => by cases hs
      · intro h
        cases h with
        | seq h => cases h
        | attr hd hi hl _ => cases hi; exact ⟨hd, hl⟩
        | _ => rename_i h; cases h
    | fset =>
      show UniqueKeys (configDictOfSrcs o { dd := attrs }) ∧ ∀ k x, _ ∈ configDictOfSrcs o { dd := attrs } ↔ _
      rw [dd]
      refine ⟨nd attrs, fun k x => ?_⟩
      rw [mem]
      constructor
      · rintro ⟨hd, hl⟩
        exact .attr hd (.sub _ _ _ _) hl fun _ s hs => by cases hs
      · intro h
        cases h with
        | seq h => cases h
        | attr hd hi hl _ => cases hi; exact ⟨hd, hl⟩
        | _ => rename_i h; cases h
  | odict c attrs kvs =>
    show UniqueKeys (dset (configDictOfSrcs o { dd := attrs }) _ _) ∧ ∀ k x, _ ∈ dset (configDictOfSrcs o { dd := attrs }) _ _ ↔ _
    rw [dd]
    refine seq _ _ attrs (fun s' => ⟨fun h => by cases h; rfl, fun h => h ▸ .odict _ _ _⟩) (.odict _ _ _) (fun a h => by cases h; rfl) fun k x h => ?_
    cases h with
    | seq h => exact .inl ⟨rfl, h⟩
    | attr hd hi hl hk => exact .inr ⟨_, hi, hd, hl, hk⟩
    | _ => rename_i h; cases h
  | ddict c attrs kvs =>
    show UniqueKeys (dset (configDictOfSrcs o { dd := attrs }) _ _) ∧ ∀ k x, _ ∈ dset (configDictOfSrcs o { dd := attrs }) _ _ ↔ _
    rw [dd]
    refine seq _ _ attrs (fun s' => ⟨fun h => by cases h; rfl, fun h => h ▸ .ddict _ _ _⟩) (.ddict _ _ _) (fun a h => by cases h; rfl) fun k x h => ?_
    cases h with
    | seq h => exact .inl ⟨rfl, h⟩
    | attr hd hi hl hk => exact .inr ⟨_, hi, hd, hl, hk⟩
    | _ => rename_i h; cases h
  | what n conf nk ou =>
    have hn : ∀ y : Val, (dkeys [(c!"conf", strDict conf), (c!"name", .str n), (c!"non_id_keys", .set (nk.map .str)), (c!"out_name", y)]).Nodup := by
      intro y; simp only [dkeys, List.map]; decide
    show UniqueKeys (configDictOfSrcs o { sd := [(c!"conf", strDict conf), (c!"name", .str n), (c!"non_id_keys", .set (nk.map .str)),
      (c!"out_name", _)] }) ∧ ∀ k x, _ ∈ configDictOfSrcs o { sd := [(c!"conf", strDict conf), (c!"name", .str n),
        (c!"non_id_keys", .set (nk.map .str)), (c!"out_name", _)] } ↔ _
    rw [sd _ (hn _)]
    cases hp : o.addSlots
    · refine nothing _ fun k x h => ?_
      cases h with
      | seq h => cases h
      | attr _ hi => cases hi
      | name | conf | nonIdKeys | outName | noOutName => simp_all
      | _ => rename_i h; cases h
    · refine ⟨hn _, fun k x => ?_⟩
      simp only [if_true, List.mem_cons, Prod.mk.injEq, List.not_mem_nil, or_false]
      constructor
      · rintro (⟨rfl, rfl⟩ | ⟨rfl, rfl⟩ | ⟨rfl, rfl⟩ | ⟨rfl, rfl⟩)
        · exact .conf _ _ _ _ hp
        · exact .name _ _ _ _ hp
        · exact .nonIdKeys _ _ _ _ hp
        · cases ou
          · exact .noOutName _ _ _ hp
          · exact .outName _ _ _ _ hp
      · intro h
        cases h with
        | seq h => cases h
        | attr _ hi => cases hi
        | name | conf | nonIdKeys | outName | noOutName => simp [strDict]
        | _ => rename_i h; cases h

variable {o : WhatOpts}

/-- C84: what `whatareyou` says of a value of a built-in type, or of an instance of a subclass of a collection: the name of the type
(or the one it is told to use), and exactly the public names under which there is something to say, each once.  The class dictionary is
not asked for, and the prefix hides the descriptors that have two underscores. -/
theorem c84_says {v : Val} {n : Str} (h : TypeName v n) (hc : o.addClass = false) (_hp : o.prefx = c!"_") (ov : Option Str) :
    ∃ w, whatareyou o v ov = .ok w ∧ w.name = ov.getD n ∧ w.nonids = o.nonids ∧ w.out = none ∧ UniqueKeys w.conf ∧
      ∀ k x, (k, x) ∈ w.conf ↔ Public o k ∧ SaysOf o v k x := by
  obtain ⟨h1, h2⟩ := typeName_c2c h
  obtain ⟨hu, hm⟩ := saysOf_iff hc h
  refine ⟨⟨ov.getD n, trimDict o (addSeq v (configDictForObject o v)), o.nonids, none⟩, ?_, rfl, rfl, rfl, uniqueKeys_filter hu _, fun k x => ?_⟩
  · simp only [whatareyou, h1, h2]
    cases ov <;> rfl
  · rw [← hm k x]
    exact ((c25_exact o _).1 k x).trans and_comm

/-- C84: of a class or a built-in function it gives the last component of its name, and no parameters. -/
theorem c84_classes (f m n : Str) (h : DottedName f m n) (ov : Option Str) :
    (∀ v ∈ [Val.cls f, .wcls f], whatareyou o v ov = .ok { name := ov.getD n, conf := [], nonids := o.nonids }) ∧
    ∀ v ∈ [Val.numtype f, .builtin f], whatareyou o v ov = .ok { name := ov.getD f, conf := [], nonids := o.nonids } := by
  have hc : clsName f = n := by rw [clsName, rpartition_iff.2 h]
  constructor <;> intro v hv <;> simp only [List.mem_cons, List.not_mem_nil, or_false] at hv <;> rcases hv with rfl | rfl <;>
    simp only [whatareyou, callable2call, hc] <;> cases ov <;> rfl

/-- C84: a partial whose arguments do not fit, the one thing that is not reported as the call it is: its function, its positional and
its keyword arguments. -/
theorem c84_partial_misfit {f : Val} {args : List Val} {kws : Conf} (h : callable2call (.part true f args kws) [] [] = .error .valueError)
    (hc : o.addClass = false) (_hp : o.prefx = c!"_") (ov : Option Str) :
    ∃ w, whatareyou o (.part true f args kws) ov = .ok w ∧ w.name = ov.getD c!"partial" ∧ UniqueKeys w.conf ∧
      ∀ k x, (k, x) ∈ w.conf ↔ Public o k ∧ o.addSlots = true ∧
        ((k = c!"args" ∧ x = .tuple args) ∨ (k = c!"func" ∧ x = f) ∨ (k = c!"keywords" ∧ x = .dict (kws.map fun e => (.str e.1, e.2)))) := by
  have hn : UniqueKeys [(c!"args", Val.tuple args), (c!"func", f), (c!"keywords", strDict kws)] := by
    simp only [UniqueKeys, List.map]; decide
  have e : configDictForObject o (.part true f args kws) =
      if o.addSlots = true then [(c!"args", Val.tuple args), (c!"func", f), (c!"keywords", strDict kws)] else [] := by
    show configDictOfSrcs o { sd := [(c!"args", Val.tuple args), (c!"func", f), (c!"keywords", strDict kws)] } = _
    cases hd : o.addDict <;> cases hs : o.addSlots <;> cases hp : o.addProps <;>
      simp only [configDictOfSrcs, hc, hd, hs, hp, Bool.false_eq_true, if_true, if_false] <;> first | rfl | exact dictOf_unique hn
  refine ⟨⟨ov.getD c!"partial", trimDict o (configDictForObject o (.part true f args kws)), o.nonids, none⟩, ?_, rfl, ?_, fun k x => ?_⟩
  · simp only [whatareyou, h, className, addSeq]
    cases ov <;> rfl
  · refine uniqueKeys_filter ?_ _
    rw [e]
    split
    · exact hn
    · simp [UniqueKeys]
  · refine ((c25_exact o _).1 k x).trans ?_
    rw [e, and_comm]
    refine and_congr_right fun _ => ?_
    split
    · rename_i hs; simp [hs, strDict]
    · rename_i hs; simp [hs]

/-! ### The id of such a What -/

theorem contents_what {v s : Val} {n : Str} (hn : TypeName v n) (hs : Contents v s) (ha : ∀ a, InstDict v a → a = []) :
    whatareyou {} v = .ok { name := n, conf := [(c!"seq", s)] } := by
  cases hs with
  | tuple | list | set | dict => cases hn; rfl
  | subList | subTuple => cases hn; rw [ha _ (.sub _ _ _ _)]; rfl
  | odict => cases hn; rw [ha _ (.odict _ _ _)]; rfl
  | ddict => cases hn; rw [ha _ (.ddict _ _ _)]; rfl

/-- C84: the id `whatareyou` gives a collection without attributes is the name of its type around the text of its contents. -/
theorem c84_text {v s : Val} {n : Str} (hn : TypeName v n) (hs : Contents v s) (ha : ∀ a, InstDict v a → a = []) (ht : HasText s) :
    ∃ w u, whatareyou {} v = .ok w ∧ IdTextOf s u ∧ idD w = .ok (n ++ c!"(seq=" ++ u ++ c!")") := by
  obtain ⟨u, hu⟩ := c52_defined ht
  exact ⟨_, u, contents_what hn hs ha, (c52_text ht u).1 hu, idStr_seq hu⟩

/-- C84: so two collections with the same id have types of one name and contents of one text. -/
theorem c84_tells_apart {v v' s s' : Val} {n n' : Str} (hn : TypeName v n) (hn' : TypeName v' n') (hs : Contents v s) (hs' : Contents v' s')
    (ha : ∀ a, InstDict v a → a = []) (ha' : ∀ a, InstDict v' a → a = []) (ht : HasText s) (ht' : HasText s')
    (hp : '(' ∉ n) (hp' : '(' ∉ n') {w w' : What} (hw : whatareyou {} v = .ok w) (hw' : whatareyou {} v' = .ok w') (h : idD w = idD w') :
    n = n' ∧ ∃ u, IdTextOf s u ∧ IdTextOf s' u := by
  obtain ⟨w1, u, h1, h2, h3⟩ := c84_text hn hs ha ht
  obtain ⟨w2, u', h1', h2', h3'⟩ := c84_text hn' hs' ha' ht'
  rw [h1] at hw; rw [h1'] at hw'
  cases hw; cases hw'
  rw [h3, h3'] at h
  have h := Except.ok.inj h
  have key : ∀ {a b x y : Str}, '(' ∉ a → '(' ∉ b → a ++ '(' :: x = b ++ '(' :: y → a = b ∧ x = y := by
    intro a
    induction a with
    | nil =>
      intro b x y _ hb e
      cases b with
      | nil => exact ⟨rfl, (List.cons.inj e).2⟩
      | cons c b => exact absurd ((List.cons.inj e).1 ▸ List.mem_cons_self) hb
    | cons c a ih =>
      intro b x y ha hb e
      cases b with
      | nil => exact absurd ((List.cons.inj e).1 ▸ List.mem_cons_self) ha
      | cons d b =>
        obtain ⟨rfl, e'⟩ := List.cons.inj e
        obtain ⟨rfl, rfl⟩ := ih (fun h => ha (.tail _ h)) (fun h => hb (.tail _ h)) e'
        exact ⟨rfl, rfl⟩
  simp only [List.append_assoc, List.cons_append, List.nil_append] at h
  obtain ⟨rfl, e⟩ := key hp hp' h
  simp only [List.cons.injEq, true_and] at e
  have := List.append_cancel_right e
  subst this
  exact ⟨rfl, _, h2, h2'⟩

/-- C84, the finding: strings, frozensets and sets of a subclass have no contents to tell, so `whatareyou` gives every string the id
`str()`, every frozenset `frozenset()`, and all the sets of a subclass that have no attributes one id. -/
theorem c84_blind (s c : Str) (xs : List Val) :
    (∃ w, whatareyou {} (.str s) = .ok w ∧ idD w = .ok c!"str()") ∧ (∃ w, whatareyou {} (.fset xs) = .ok w ∧ idD w = .ok c!"frozenset()") ∧
    ∃ w, whatareyou {} (.sub .set c [] xs) = .ok w ∧ idD w = .ok (c ++ c!"()") := by
  refine ⟨⟨_, rfl, rfl⟩, ⟨_, rfl, rfl⟩, ⟨{ name := c, conf := [] }, rfl, ?_⟩⟩
  simp [idD, idStr, idItems, sortBy, mapR, wrapId, pyJoin, showOpt]

/-! Cases. -/
example : ∃ w, whatareyou {} (.bool true) = .ok w ∧ idD w = .ok c!"bool(denominator=1,imag=0,numerator=1,real=1)" := ⟨_, rfl, by decide⟩
example : ∃ w, whatareyou { excludes := [c!"imag"] } (.float c!"2.5") (some c!"f") = .ok w ∧ idD w = .ok c!"f(real=2.5)" := ⟨_, rfl, by decide⟩
/-- the contents hide the attribute `seq`, the private attribute does not show, the last assignment counts -/
example : ∃ w, whatareyou {} (.sub .list c!"L" [(c!"a", .int 1), (c!"seq", .none), (c!"_b", .none), (c!"a", .int 2)] [.int 3]) = .ok w ∧
    idD w = .ok c!"L(a=2,seq=[3])" := ⟨_, rfl, by decide⟩
example : SaysOf {} (.sub .list c!"L" [(c!"a", .int 1), (c!"seq", .none)] [.int 3]) c!"a" (.int 1) :=
  .attr rfl (.sub _ _ _ _) ⟨[], [(c!"seq", .none)], rfl, by simp⟩ (fun e => absurd e (by decide))
example : ∃ w, whatareyou {} (.what c!"f" [(c!"a", .int 1)] [c!"b"] none) = .ok w ∧
    idD w = .ok c!"What(conf={'a':1},name='f',non_id_keys={'b'},out_name=None)" := ⟨_, rfl, by decide⟩
example : whatareyou {} (.cls c!"a.b.C") = .ok { name := c!"C", conf := [] } :=
  (c84_classes c!"a.b.C" c!"a.b" c!"C" ⟨by decide, .inl rfl⟩ none).1 _ (by simp)
example : callable2call (.part true (.func c!"f" [c!"x"] []) [.int 1, .int 2] [(c!"y", .none)]) [] [] = .error .valueError := rfl
example : ∃ w, whatareyou {} (.part true (.func c!"f" [c!"x"] []) [.int 1] [(c!"y", .none)]) = .ok w ∧
    idD w = .ok c!"partial(args=(1),func=f(),keywords={'y':None})" := ⟨_, rfl, by decide⟩
example : ∃ w u, whatareyou {} (.odict c!"OrderedDict" [] [(.str c!"k", .int 1)]) = .ok w ∧ IdTextOf (.dict [(.str c!"k", .int 1)]) u ∧
    idD w = .ok (c!"OrderedDict" ++ c!"(seq=" ++ u ++ c!")") :=
  c84_text (.odict _ _ _) (.odict _ _ _) (fun a h => by cases h; rfl)
    (.dict (by intro k v h; simp only [List.mem_singleton, Prod.mk.injEq] at h; rw [h.1]; exact .str _)
      (by intro k v h; simp only [List.mem_singleton, Prod.mk.injEq] at h; rw [h.2]; exact .int _))

end Whatami
