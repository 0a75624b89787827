import Verif.Spec.Shown
import Verif.Props.Chain
import Verif.Props.Introspect
import Verif.Props.Id
import Mathlib.Data.List.Induction

/-
Chains that begin with the basic plugins: `build_string` constructor by constructor, and when it fails.
Definitions here are vocabulary for statements and proofs: the code they are about is cited in the model modules.
-/
namespace Whatami

/-- The twelve plugins before those of numpy and pandas (plugins.py:297-311). -/
def basicPlugins : List Plugin :=
  [.what, .whatable, .builtin, .numericType, .property, .string, .tuple, .list, .dict, .set, .part, .function]

/-- `bs` does what the basic plugins do with the values they deal with, recursively. -/
structure Basics (bs : BS) : Prop where
  never : ∀ v, bs v ≠ .ok none
  what : ∀ n c nk o, bs (.what n c nk o) = ret (idStr bs { name := n, conf := c, nonids := nk, out := o } false)
  duck : ∀ n c nk o, bs (.duck n c nk o) = ret (idStr bs { name := n, conf := c, nonids := nk, out := o } false)
  wcls : ∀ f, bs (.wcls f) = .error .typeError
  builtin : ∀ f, bs (.builtin f) = .error .exception
  numtype : ∀ n, bs (.numtype n) = .ok (some (n ++ c!"()"))
  property : bs .property = .error .exception
  str : ∀ s, bs (.str s) = .ok (some (['\''] ++ strBody s ++ ['\'']))
  tuple : ∀ xs, bs (.tuple xs) = ret ((strings bs xs).map (bracket c!"(" c!")"))
  list : ∀ xs, bs (.list xs) = ret ((strings bs xs).map (bracket c!"[" c!"]"))
  dict : ∀ kvs, bs (.dict kvs) = ret (dictStr bs kvs)
  set : ∀ xs, bs (.set xs) = ret ((strings bs xs).map fun l => setStr (sortBy strLe l))
  fset : ∀ xs, bs (.fset xs) = ret ((strings bs xs).map fun l => fsetStr (sortBy strLe l))
  sub : ∀ k c attrs xs, bs (.sub k c attrs xs) = ret ((strings bs xs).map fun l => seqId c (kindStr k l))
  odict : ∀ c attrs kvs, bs (.odict c attrs kvs) =
    ret (idStr bs { name := c, conf := dset (dictConf attrs (.dict kvs)) c!"seq" (itemsList kvs) } false)
  ddict : ∀ c attrs kvs, bs (.ddict c attrs kvs) =
    match dictStr bs kvs with
    | .error e => .error e
    | .ok _ => ret (idStr bs { name := c, conf := dictConf attrs (.dict kvs) } false)
  part : ∀ p f args kws, bs (.part p f args kws) =
    match callable2call (curry2partial (.part p f args kws)) [] [] with
    | .error e => .error e
    | .ok (n, kw) => ret (idStr bs { name := n, conf := kw } false)
  func : ∀ n args ds, bs (.func n args ds) =
    ret (idStr bs { name := funcName n, conf := dictOf ((pyLast ds.length args).zip ds) } false)
  obj : ∀ cls cd dd sd pd o s, bs (.obj cls false cd dd sd pd (some o) s) =
    ret (idStr bs { name := cls, conf := trimDict o (configDictOfSrcs o ⟨cd, dd, sd, pd⟩), nonids := o.nonids } false)

theorem basics (cu : Customs) (rest : List Plugin) (h : .any ∈ rest) : Basics (build cu (basicPlugins ++ rest)) := by
  have eq : ∀ v, build cu (basicPlugins ++ rest) v = firstSome (fun p => p.run cu (build cu (basicPlugins ++ rest)) v)
      (.what :: .whatable :: .builtin :: .numericType :: .property :: .string :: .tuple :: .list :: .dict :: .set :: .part :: .function :: rest) :=
    build_eq cu _
  generalize hb : build cu (basicPlugins ++ rest) = bs at eq
  constructor
  case never => intro v; rw [← hb]; exact c17_never_none cu _ (by simp [h]) v
  case what => intro n c nk o; rw [eq]; exact firstSome_ret rfl
  case duck => intro n c nk o; rw [eq]; skip1; exact firstSome_ret rfl
  case wcls => intro f; rw [eq]; skip1; exact firstSome_error rfl
  case builtin => intro f; rw [eq]; iterate 2 skip1
                  exact firstSome_error rfl
  case numtype => intro n; rw [eq]; iterate 3 skip1
                  exact firstSome_ret (r := .ok _) rfl
  case property => rw [eq]; iterate 4 skip1
                   exact firstSome_error rfl
  case str => intro s; rw [eq]; iterate 5 skip1
              exact firstSome_ret (r := .ok _) rfl
  case tuple => intro s; rw [eq]; iterate 6 skip1
                exact firstSome_ret rfl
  case list => intro s; rw [eq]; iterate 7 skip1
               exact firstSome_ret rfl
  case dict => intro s; rw [eq]; iterate 8 skip1
               exact firstSome_ret rfl
  case set => intro s; rw [eq]; iterate 9 skip1
              exact firstSome_ret rfl
  case fset => intro s; rw [eq]; iterate 9 skip1
               exact firstSome_ret rfl
  case sub =>
    intro k c attrs xs
    rw [eq]
    cases k
    · iterate 7 skip1
      exact firstSome_ret rfl
    · iterate 6 skip1
      exact firstSome_ret rfl
    · iterate 9 skip1
      exact firstSome_ret rfl
    · iterate 9 skip1
      exact firstSome_ret rfl
  case odict =>
    intro c attrs kvs
    rw [eq]
    iterate 8 skip1
    apply firstSome_ret
    simp only [Plugin.run, dictPlugin]
    have hc : callable2call (.odict c attrs kvs) [] [] = .error .valueError := rfl
    simp only [whatareyou, hc, className, addSeq, configDictForObject, attrsOf, configDict_dd, dictConf]
  case ddict =>
    intro c attrs kvs
    rw [eq]
    iterate 8 skip1
    have hc : callable2call (.ddict c attrs kvs) [] [] = .error .valueError := rfl
    apply firstSome_ne
    · simp only [Plugin.run, dictPlugin, whatareyou, hc, className, addSeq, configDictForObject, attrsOf,
        configDict_dd, dictConf]
      cases dictStr bs kvs <;> rfl
    · split
      · simp
      · exact ret_ne _
  case part =>
    intro p f args kws
    rw [eq]
    iterate 10 skip1
    apply firstSome_ne
    · simp only [Plugin.run, partialPlugin]
      cases callable2call (curry2partial (Val.part p f args kws)) [] [] <;> rfl
    · split
      · simp
      · exact ret_ne _
  case func => intro n args ds; rw [eq]; iterate 11 skip1
               exact firstSome_ret rfl
  case obj => intro cls cd dd sd pd o s; rw [eq]; skip1; exact firstSome_ret rfl

/-- Values the basic plugins decline: they reach whatever comes next in the chain. -/
def lateVal : Val → Bool
  | .array _ _ | .rng _ _ => true
  | v => plainVal v

theorem late_build (cu : Customs) (rest : List Plugin) (v : Val) (h : lateVal v = true) :
    build cu (basicPlugins ++ rest) v = firstSome (fun p => p.run cu (build cu (basicPlugins ++ rest)) v) rest := by
  have eq : ∀ v, build cu (basicPlugins ++ rest) v = firstSome (fun p => p.run cu (build cu (basicPlugins ++ rest)) v)
      (.what :: .whatable :: .builtin :: .numericType :: .property :: .string :: .tuple :: .list :: .dict :: .set :: .part :: .function :: rest) :=
    build_eq cu _
  rw [eq]
  generalize build cu (basicPlugins ++ rest) = bs at eq
  cases v <;> simp [lateVal, plainVal] at h
  case obj cls callable cd dd sd pd wh s =>
    cases wh with
    | none => iterate 12 skip1
    | some o =>
      simp only at h; subst h
      iterate 12 skip1
  all_goals iterate 12 skip1

theorem latest_iff {ps : Conf} {k : Str} {x : Val} : Latest ps k x ↔ dget ps.reverse k = some x := by
  induction ps using List.reverseRecOn with
  | nil => simp [Latest, dget]
  | append_singleton l e ih =>
    obtain ⟨k0, v0⟩ := e
    simp only [List.reverse_append, List.reverse_cons, List.reverse_nil, List.nil_append, List.cons_append, dget]
    by_cases h : k0 = k
    · subst h
      simp only [if_true]
      constructor
      · rintro ⟨pre, post, he, hn⟩
        rcases List.eq_nil_or_concat post with rfl | ⟨b, c, rfl⟩
        · have := List.append_inj' (t₁ := [(k0, v0)]) (t₂ := [(k0, x)]) he rfl
          simpa using this.2
        · rw [List.concat_eq_append] at he hn
          have : l ++ [(k0, v0)] = (pre ++ (k0, x) :: b) ++ [c] := by simpa using he
          have := (List.append_inj' this rfl).2
          simp only [List.cons.injEq, and_true] at this
          exact absurd (by rw [← this]; simp) (hn v0)
      · intro h
        cases h
        exact ⟨l, [], rfl, by simp⟩
    · simp only [h, if_false]
      rw [← ih]
      constructor
      · rintro ⟨pre, post, he, hn⟩
        rcases List.eq_nil_or_concat post with rfl | ⟨b, c, rfl⟩
        · have := List.append_inj' (t₁ := [(k0, v0)]) (t₂ := [(k, x)]) he rfl
          simp only [List.cons.injEq, Prod.mk.injEq, and_true] at this
          exact absurd this.2.1 h
        · rw [List.concat_eq_append] at he hn
          have : l ++ [(k0, v0)] = (pre ++ (k, x) :: b) ++ [c] := by simpa using he
          exact ⟨pre, b, (List.append_inj' this rfl).1, fun y hy => hn y (by simp [hy])⟩
      · rintro ⟨pre, post, rfl, hn⟩
        refine ⟨pre, post ++ [(k0, v0)], by simp, fun y hy => ?_⟩
        rcases List.mem_append.1 hy with hy | hy
        · exact hn y hy
        · simp only [List.mem_singleton, Prod.mk.injEq] at hy
          exact h hy.1.symm

theorem mem_dictOf_iff {ps : Conf} {k : Str} {x : Val} : (k, x) ∈ dictOf ps ↔ Latest ps k x := by
  rw [latest_iff, ← dget_mem_iff (nodup_dictOf ps), dictOf, dget_dupdate]
  cases dget ps.reverse k <;> simp [dget]

/-! ### What fails -/

theorem fails_ret_iff {r : R Str} : Fails (ret r) ↔ Fails r := by
  cases r <;> simp [Fails, ret]

theorem fails_map_iff {α β : Type} {f : α → β} {r : R α} : Fails (r.map f) ↔ Fails r := by
  cases r <;> simp [Fails, Except.map]

theorem not_fails {α : Type} {r : R α} : ¬ Fails r ↔ ∃ y, r = .ok y := by
  cases r <;> simp [Fails]

theorem fails_mapR_iff {α β : Type} {f : α → R β} {l : List α} : Fails (mapR f l) ↔ ∃ x ∈ l, Fails (f x) := by
  refine ⟨fails_mapR, fun ⟨x, hx, hf⟩ => ?_⟩
  rcases Classical.em (Fails (mapR f l)) with h | h
  · exact h
  · obtain ⟨y, hy⟩ := mapR_ok_iff.1 (not_fails.1 h) x hx
    obtain ⟨e, he⟩ := hf
    rw [hy] at he; cases he

theorem mapR_from {α β : Type} {f : α → R β} {l : List α} {ys : List β} (h : mapR f l = .ok ys) {y : β} (hy : y ∈ ys) :
    ∃ x ∈ l, f x = .ok y := by
  induction l generalizing ys with
  | nil => cases h; cases hy
  | cons a l ih =>
    simp only [mapR] at h
    cases hf : f a with
    | error e => rw [hf] at h; cases h
    | ok b =>
      rw [hf] at h
      cases hm : mapR f l with
      | error e => rw [hm] at h; cases h
      | ok bs =>
        rw [hm] at h; cases h
        rcases List.mem_cons.1 hy with rfl | hy
        · exact ⟨a, by simp, hf⟩
        · obtain ⟨x, hx, e⟩ := ih hm hy
          exact ⟨x, by simp [hx], e⟩

theorem fails_strings_iff {bs : BS} (B : Basics bs) {xs : List Val} : Fails (strings bs xs) ↔ ∃ x ∈ xs, Fails (bs x) := by
  rw [← fails_mapR_iff]
  simp only [strings]
  cases hm : mapR bs xs with
  | error e => exact ⟨fun _ => ⟨e, rfl⟩, fun _ => ⟨e, rfl⟩⟩
  | ok l =>
    have hn : ∀ o ∈ l, o ≠ none := by
      intro o ho e
      obtain ⟨x, -, hx⟩ := mapR_from hm ho
      exact B.never x (e ▸ hx)
    refine ⟨fun h => ?_, fun ⟨e, h⟩ => by cases h⟩
    exfalso
    clear hm
    induction l with
    | nil => obtain ⟨e, h⟩ := h; cases h
    | cons o l ih =>
      cases o with
      | none => exact hn none (by simp) rfl
      | some s =>
        apply ih
        · exact fun o ho => hn o (by simp [ho])
        · obtain ⟨e, h⟩ := h
          simp only [unNone] at h ⊢
          cases hu : unNone l with
          | error e' => exact ⟨e', rfl⟩
          | ok l' => rw [hu] at h; cases h

theorem fails_idStr_iff {bs : BS} {w : What} : Fails (idStr bs w false) ↔ ∃ k v, (k, v) ∈ w.conf ∧ k ∉ w.nonids ∧ Fails (bs v) := by
  have h1 : Fails (idStr bs w false) ↔ Fails (mapR (kvStr bs) (idItems w false)) := by
    simp only [idStr]
    cases mapR (kvStr bs) (idItems w false) <;> simp [Fails]
  have h2 : ∀ kv, Fails (kvStr bs kv) ↔ Fails (bs kv.2) := by
    intro kv
    simp only [kvStr]
    cases bs kv.2 <;> simp [Fails]
  rw [h1, fails_mapR_iff]
  constructor
  · rintro ⟨⟨k, v⟩, hkv, hf⟩
    simp only [idItems, List.mem_filter, mem_sortBy, Bool.false_or, Bool.not_eq_true', List.contains_eq_mem, decide_eq_false_iff_not] at hkv
    exact ⟨k, v, hkv.1, hkv.2, (h2 _).1 hf⟩
  · rintro ⟨k, v, hv, hk, hf⟩
    refine ⟨(k, v), ?_, (h2 _).2 hf⟩
    simp only [idItems, List.mem_filter, mem_sortBy, Bool.false_or, Bool.not_eq_true', List.contains_eq_mem, decide_eq_false_iff_not]
    exact ⟨hv, hk⟩

theorem fails_dictStr_iff {bs : BS} {kvs : List (Val × Val)} :
    Fails (dictStr bs kvs) ↔ ∃ k v, (k, v) ∈ kvs ∧ (Fails (bs k) ∨ Fails (bs v)) := by
  refine ⟨fails_dictStr, fun ⟨k, v, hkv, h⟩ => ?_⟩
  simp only [dictStr, fails_map_iff, fails_mapR_iff]
  refine ⟨(k, v), hkv, ?_⟩
  simp only [dkvStr]
  rcases h with ⟨e, he⟩ | ⟨e, he⟩
  · exact ⟨e, by simp only [he]⟩
  · cases hk : bs k with
    | error e' => exact ⟨e', rfl⟩
    | ok r => exact ⟨e, by simp only [he]⟩

theorem fails_items {bs : BS} (B : Basics bs) {kvs : List (Val × Val)} : Fails (bs (itemsList kvs)) ↔ ∃ k v, (k, v) ∈ kvs ∧ (Fails (bs k) ∨ Fails (bs v)) := by
  rw [itemsList, B.list, fails_ret_iff, fails_map_iff, fails_strings_iff B]
  constructor
  · rintro ⟨x, hx, hf⟩
    obtain ⟨⟨k, v⟩, he, rfl⟩ := List.mem_map.1 hx
    rw [B.tuple, fails_ret_iff, fails_map_iff, fails_strings_iff B] at hf
    obtain ⟨y, hy, hf⟩ := hf
    simp only [List.mem_cons, List.not_mem_nil, or_false] at hy
    rcases hy with rfl | rfl
    · exact ⟨_, _, he, .inl hf⟩
    · exact ⟨_, _, he, .inr hf⟩
  · rintro ⟨k, v, he, hf⟩
    refine ⟨_, List.mem_map.2 ⟨_, he, rfl⟩, ?_⟩
    rw [B.tuple, fails_ret_iff, fails_map_iff, fails_strings_iff B]
    rcases hf with hf | hf
    · exact ⟨k, by simp, hf⟩
    · exact ⟨v, by simp, hf⟩

theorem mem_dset_nodup {d : Conf} (h : (dkeys d).Nodup) {k n : Str} {v x : Val} :
    (n, x) ∈ dset d k v ↔ (n = k ∧ x = v) ∨ (n ≠ k ∧ (n, x) ∈ d) := by
  rw [← dget_mem_iff (nodup_dset h k v), dget_dset, ← dget_mem_iff h]
  by_cases e : k = n
  · subst e; simp [eq_comm]
  · simp [e, Ne.symm e]

theorem mem_dictConf {attrs : Conf} {seq x : Val} {n : Str} :
    (n, x) ∈ dictConf attrs seq ↔ (n = c!"seq" ∧ x = seq) ∨ (n ≠ c!"seq" ∧ Latest attrs n x ∧ Public {} n) := by
  have hs : Public {} c!"seq" := by rw [← trimKeep_iff]; rfl
  rw [dictConf, (c25_exact {} _).1, show dupdate [] attrs = dictOf attrs from rfl, mem_dset_nodup (nodup_dictOf attrs), mem_dictOf_iff]
  constructor
  · rintro ⟨h | h, hp⟩
    · exact .inl h
    · exact .inr ⟨h.1, h.2, hp⟩
  · rintro (⟨rfl, h⟩ | ⟨h1, h2, hp⟩)
    · exact ⟨.inl ⟨rfl, h⟩, hs⟩
    · exact ⟨.inr ⟨h1, h2⟩, hp⟩

theorem dictConf_nodup (attrs : Conf) (seq : Val) : (dkeys (dictConf attrs seq)).Nodup :=
  (List.filter_sublist.map Prod.fst).nodup (nodup_dset (nodup_dictOf attrs) c!"seq" seq)

theorem zip_last {args : List Str} {ds : List Val} {k : Str} {x : Val} :
    Latest ((pyLast ds.length args).zip ds) k x ↔ ∃ pre names, args = pre ++ names ∧
      (names.length = ds.length ∨ (pre = [] ∧ names.length ≤ ds.length)) ∧ Latest (names.zip ds) k x := by
  constructor
  · intro h
    by_cases h0 : ds.length = 0
    · have : ds = [] := List.eq_nil_of_length_eq_zero h0
      subst this
      obtain ⟨a, b, e, -⟩ := h
      simp at e
    · simp only [pyLast, h0, if_false] at h
      refine ⟨args.take (args.length - ds.length), _, (List.take_append_drop _ _).symm, ?_, h⟩
      by_cases hl : ds.length ≤ args.length
      · left; simp; omega
      · right
        have : args.length - ds.length = 0 := by omega
        rw [this]
        simp; omega
  · rintro ⟨pre, names, rfl, hl, h⟩
    by_cases h0 : ds.length = 0
    · have : ds = [] := List.eq_nil_of_length_eq_zero h0
      subst this
      obtain ⟨a, b, e, -⟩ := h
      simp at e
    · have : (pre ++ names).drop ((pre ++ names).length - ds.length) = names := by
        rcases hl with hl | ⟨rfl, hl⟩
        · rw [← hl]; simp
        · simp [Nat.sub_eq_zero_of_le hl]
      simp only [pyLast, h0, if_false, this]
      exact h

/-- The text of a value fails exactly if the value is refused or the text of something shown in it fails. -/
theorem fails_basic {bs : BS} (B : Basics bs) (v : Val) (hl : lateVal v = false) : Fails (bs v) ↔ Bad v ∨ ∃ x, Shown x v ∧ Fails (bs x) := by
  have noText : (∃ s, bs v = .ok s) → (∀ x, ¬ Shown x v) → ¬ Bad v → (Fails (bs v) ↔ Bad v ∨ ∃ x, Shown x v ∧ Fails (bs x)) := by
    rintro ⟨s, hs⟩ h1 h2
    rw [hs]
    constructor
    · rintro ⟨e, h⟩; cases h
    · rintro (h | ⟨x, h, -⟩)
      · exact absurd h h2
      · exact absurd h (h1 x)
  cases v with
  | none => cases hl
  | bool b => cases hl
  | int b => cases hl
  | float b => cases hl
  | cls b => cases hl
  | str s => exact noText ⟨_, B.str s⟩ (by intro x h; cases h) (by intro h; cases h)
  | numtype s => exact noText ⟨_, B.numtype s⟩ (by intro x h; cases h) (by intro h; cases h)
  | array c s => cases hl
  | wcls f => exact ⟨fun _ => .inl (.wcls f), fun _ => ⟨_, B.wcls f⟩⟩
  | builtin f => exact ⟨fun _ => .inl (.builtin f), fun _ => ⟨_, B.builtin f⟩⟩
  | property => exact ⟨fun _ => .inl .property, fun _ => ⟨_, B.property⟩⟩
  | tuple xs =>
    rw [B.tuple, fails_ret_iff, fails_map_iff, fails_strings_iff B]
    constructor
    · rintro ⟨x, hx, hf⟩; exact .inr ⟨x, .tuple hx, hf⟩
    · rintro (h | ⟨x, h, hf⟩)
      · cases h
      · cases h with | tuple h => exact ⟨x, h, hf⟩
  | list xs =>
    rw [B.list, fails_ret_iff, fails_map_iff, fails_strings_iff B]
    constructor
    · rintro ⟨x, hx, hf⟩; exact .inr ⟨x, .list hx, hf⟩
    · rintro (h | ⟨x, h, hf⟩)
      · cases h
      · cases h with | list h => exact ⟨x, h, hf⟩
  | set xs =>
    rw [B.set, fails_ret_iff, fails_map_iff, fails_strings_iff B]
    constructor
    · rintro ⟨x, hx, hf⟩; exact .inr ⟨x, .set hx, hf⟩
    · rintro (h | ⟨x, h, hf⟩)
      · cases h
      · cases h with | set h => exact ⟨x, h, hf⟩
  | fset xs =>
    rw [B.fset, fails_ret_iff, fails_map_iff, fails_strings_iff B]
    constructor
    · rintro ⟨x, hx, hf⟩; exact .inr ⟨x, .fset hx, hf⟩
    · rintro (h | ⟨x, h, hf⟩)
      · cases h
      · cases h with | fset h => exact ⟨x, h, hf⟩
  | sub k c a xs =>
    rw [B.sub, fails_ret_iff, fails_map_iff, fails_strings_iff B]
    constructor
    · rintro ⟨x, hx, hf⟩; exact .inr ⟨x, .sub k c a hx, hf⟩
    · rintro (h | ⟨x, h, hf⟩)
      · cases h
      · cases h with | sub _ _ _ h => exact ⟨x, h, hf⟩
  | dict kvs =>
    rw [B.dict, fails_ret_iff, fails_dictStr_iff]
    constructor
    · rintro ⟨k, x, hx, hf | hf⟩
      · exact .inr ⟨k, .dictKey hx, hf⟩
      · exact .inr ⟨x, .dictVal hx, hf⟩
    · rintro (h | ⟨x, h, hf⟩)
      · cases h
      · cases h with
        | dictKey h => exact ⟨_, _, h, .inl hf⟩
        | dictVal h => exact ⟨_, _, h, .inr hf⟩
  | odict c attrs kvs =>
    rw [B.odict, fails_ret_iff, fails_idStr_iff]
    simp only [List.not_mem_nil, not_false_eq_true, true_and, mem_dset_nodup (dictConf_nodup attrs _), mem_dictConf]
    constructor
    · rintro ⟨n, x, ⟨-, rfl⟩ | ⟨hn, ⟨he, -⟩ | ⟨-, hl, hp⟩⟩, hf⟩
      · obtain ⟨k, v, hkv, hf | hf⟩ := (fails_items B).1 hf
        · exact .inr ⟨k, .odictKey _ _ hkv, hf⟩
        · exact .inr ⟨v, .odictVal _ _ hkv, hf⟩
      · exact absurd he hn
      · exact .inr ⟨x, .odictAttr _ _ hl hp hn, hf⟩
    · rintro (h | ⟨x, h, hf⟩)
      · cases h
      · cases h with
        | odictKey _ _ h => exact ⟨_, _, .inl ⟨rfl, rfl⟩, (fails_items B).2 ⟨_, _, h, .inl hf⟩⟩
        | odictVal _ _ h => exact ⟨_, _, .inl ⟨rfl, rfl⟩, (fails_items B).2 ⟨_, _, h, .inr hf⟩⟩
        | odictAttr _ _ hl hp hn => exact ⟨_, x, .inr ⟨hn, .inr ⟨hn, hl, hp⟩⟩, hf⟩
  | ddict c attrs kvs =>
    have step : Fails (bs (.ddict c attrs kvs)) ↔
        Fails (dictStr bs kvs) ∨ ∃ n x, n ≠ c!"seq" ∧ Latest attrs n x ∧ Public {} n ∧ Fails (bs x) := by
      rw [B.ddict]
      cases hd : dictStr bs kvs with
      | error e => exact ⟨fun _ => .inl ⟨e, rfl⟩, fun _ => ⟨e, rfl⟩⟩
      | ok s =>
        simp only [fails_ret_iff, fails_idStr_iff, List.not_mem_nil, not_false_eq_true, true_and, mem_dictConf]
        constructor
        · rintro ⟨n, x, ⟨-, rfl⟩ | ⟨hn, hl, hp⟩, hf⟩
          · rw [B.dict, hd] at hf
            obtain ⟨e, hf⟩ := hf; cases hf
          · exact .inr ⟨n, x, hn, hl, hp, hf⟩
        · rintro (⟨e, h⟩ | ⟨n, x, hn, hl, hp, hf⟩)
          · cases h
          · exact ⟨n, x, .inr ⟨hn, hl, hp⟩, hf⟩
    rw [step, fails_dictStr_iff]
    constructor
    · rintro (⟨k, x, hx, hf | hf⟩ | ⟨n, x, hn, hl, hp, hf⟩)
      · exact .inr ⟨k, .ddictKey _ _ hx, hf⟩
      · exact .inr ⟨x, .ddictVal _ _ hx, hf⟩
      · exact .inr ⟨x, .ddictAttr _ _ hl hp hn, hf⟩
    · rintro (h | ⟨x, h, hf⟩)
      · cases h
      · cases h with
        | ddictKey _ _ h => exact .inl ⟨_, _, h, .inl hf⟩
        | ddictVal _ _ h => exact .inl ⟨_, _, h, .inr hf⟩
        | ddictAttr _ _ hl hp hn => exact .inr ⟨_, x, hn, hl, hp, hf⟩
  | what n conf nk o =>
    rw [B.what, fails_ret_iff, fails_idStr_iff]
    constructor
    · rintro ⟨k, x, hx, hk, hf⟩; exact .inr ⟨x, .what _ _ hx hk, hf⟩
    · rintro (h | ⟨x, h, hf⟩)
      · cases h
      · cases h with | what _ _ h hk => exact ⟨_, x, h, hk, hf⟩
  | duck n conf nk o =>
    rw [B.duck, fails_ret_iff, fails_idStr_iff]
    constructor
    · rintro ⟨k, x, hx, hk, hf⟩; exact .inr ⟨x, .duck _ _ hx hk, hf⟩
    · rintro (h | ⟨x, h, hf⟩)
      · cases h
      · cases h with | duck _ _ h hk => exact ⟨_, x, h, hk, hf⟩
  | obj c cl cd dd sd pd wh s =>
    cases wh with
    | none => cases hl
    | some o =>
      cases cl with
      | true => cases hl
      | false =>
        rw [B.obj, fails_ret_iff, fails_idStr_iff]
        simp only [(c25_exact o _).1]
        constructor
        · rintro ⟨k, x, ⟨hx, hp⟩, hk, hf⟩; exact .inr ⟨x, .obj _ _ hx hp hk, hf⟩
        · rintro (h | ⟨x, h, hf⟩)
          · cases h
          · cases h with | obj _ _ h hp hk => exact ⟨_, x, ⟨h, hp⟩, hk, hf⟩
  | func n args ds =>
    rw [B.func, fails_ret_iff, fails_idStr_iff]
    simp only [List.not_mem_nil, not_false_eq_true, true_and, mem_dictOf_iff, zip_last]
    constructor
    · rintro ⟨k, x, ⟨pre, names, rfl, hl, hx⟩, hf⟩; exact .inr ⟨x, .func _ hl hx, hf⟩
    · rintro (h | ⟨x, h, hf⟩)
      · cases h
      · cases h with | func _ hl hx => exact ⟨_, x, ⟨_, _, rfl, hl, hx⟩, hf⟩
  | part p f args kws =>
    rw [B.part]
    cases hc : callable2call (curry2partial (.part p f args kws)) [] [] with
    | error e => exact ⟨fun _ => .inl (.part e hc), fun _ => ⟨e, rfl⟩⟩
    | ok q =>
      obtain ⟨n, kw⟩ := q
      simp only [fails_ret_iff, fails_idStr_iff, List.not_mem_nil, not_false_eq_true, true_and]
      constructor
      · rintro ⟨k, x, hx, hf⟩; exact .inr ⟨x, .part hc hx, hf⟩
      · rintro (h | ⟨x, h, hf⟩)
        · cases h with | part e h => rw [hc] at h; cases h
        · cases h with
          | part h hx =>
            rw [hc] at h; cases h
            exact ⟨_, x, hx, hf⟩
  | rng c st => cases hl

theorem latest_mem {ps : Conf} {k : Str} {x : Val} (h : Latest ps k x) : (k, x) ∈ ps := by
  obtain ⟨a, b, rfl, -⟩ := h; simp

theorem shown_depth {x v : Val} (h : Shown x v) : depth x < depth v := by
  cases h with
  | tuple h => have := depth_mem h; simp only [depth]; omega
  | list h => have := depth_mem h; simp only [depth]; omega
  | set h => have := depth_mem h; simp only [depth]; omega
  | fset h => have := depth_mem h; simp only [depth]; omega
  | sub _ _ _ h => have := depth_mem h; simp only [depth]; omega
  | dictKey h => have := depth_memD h; simp only [depth]; omega
  | dictVal h => have := depth_memD h; simp only [depth]; omega
  | odictKey _ _ h => have := depth_memD h; simp only [depth]; omega
  | odictVal _ _ h => have := depth_memD h; simp only [depth]; omega
  | odictAttr _ _ h => have := depth_memA (latest_mem h); simp only [depth]; omega
  | ddictKey _ _ h => have := depth_memD h; simp only [depth]; omega
  | ddictVal _ _ h => have := depth_memD h; simp only [depth]; omega
  | ddictAttr _ _ h => have := depth_memA (latest_mem h); simp only [depth]; omega
  | what _ _ h => have := depth_memA h; simp only [depth]; omega
  | duck _ _ h => have := depth_memA h; simp only [depth]; omega
  | @obj cd dd sd pd o k c s h =>
    have hm := mem_srcs (v := .obj c false cd dd sd pd (some o) s) h
    simp only [attrsOf, List.mem_append] at hm
    simp only [depth]
    rcases hm with ((h | h) | h) | h <;> have := depth_memA h <;> omega
  | func _ _ h => have := depth_mem (List.of_mem_zip (latest_mem h)).2; simp only [depth]; omega
  | part hc hx => have := partial_depth hc _ hx; simp only at this; simp only [depth] at *; omega
  | rng _ hw hx => have := whatareyou_depth hw hx; simp only [depth] at *; omega

end Whatami
