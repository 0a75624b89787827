import Verif.IdLemmas

/-
Properties of id strings: C01, C02, C03, C04, C05 (id), C09, C24.
-/
namespace Whatami

/-! ### C01 -/

/-- C01. Whats with the same items in a different insertion order have the same id, with and without the
non-id parameters, whatever the plugin chain (also: they raise the same exception). -/
theorem c01_insertion_order (cu : Customs) (ps : List Plugin) (sha1 : Str → Str) (name : Str) (conf conf' : Conf)
    (nonids : List Str) (out : Option Str) (unique : UniqueKeys conf) (perm : conf.Perm conf')
    (nonidsToo : Bool) (maxlength : Int) :
    whatId sha1 (build cu ps) ⟨name, conf, nonids, out⟩ nonidsToo maxlength =
      whatId sha1 (build cu ps) ⟨name, conf', nonids, out⟩ nonidsToo maxlength := by
  have h : idStr (build cu ps) ⟨name, conf, nonids, out⟩ nonidsToo =
      idStr (build cu ps) ⟨name, conf', nonids, out⟩ nonidsToo :=
    idStr_eq_of_items rfl rfl (idItems_eq unique (perm.filter _))
  simp only [whatId, h]

/-- `rc(a=1,b=2)` from both insertion orders. -/
def exAB : Conf := [(c!"a", .int 1), (c!"b", .int 2)]
def exBA : Conf := [(c!"b", .int 2), (c!"a", .int 1)]
example : UniqueKeys exAB ∧ exAB.Perm exBA ∧ exAB ≠ exBA :=
  ⟨by unfold UniqueKeys exAB; decide, List.Perm.swap _ _ _, by simp [exAB, exBA]⟩
example : idD ⟨c!"rc", exBA, [], none⟩ = .ok c!"rc(a=1,b=2)" := rfl

/-! ### C02, C03, C24: changes at any depth that must not matter -/

/-- C02 for values: reordering anything anywhere leaves the text (or the failure) the same. -/
theorem c02_order_value {a b : Val} (h : Cong Reorder a b) : val? (buildD a) = val? (buildD b) :=
  cong_text (fun _ _ => reorder_text) h

theorem idD_text (w : What) : (val? (idD w)).map some = val? (buildD w.toVal) := by
  simp only [What.toVal, buildD_what, val?_ret, idD]

theorem idD_of_text {w w' : What} (h : val? (buildD w.toVal) = val? (buildD w'.toVal)) :
    val? (idD w) = val? (idD w') := by
  rw [← idD_text, ← idD_text] at h
  cases h1 : val? (idD w) <;> cases h2 : val? (idD w') <;> simp_all

/-- With `nonids_too`, the id is the id of the same What without non-id keys. -/
theorem idStr_nonidsToo (bs : BS) (w : What) : idStr bs w true = idStr bs { w with nonids := [] } false := by
  refine idStr_eq_of_items (w := w) (w' := { w with nonids := [] }) rfl rfl ?_
  simp [idItems]

/-- C02. Reordering the items of any dict, the elements of any set, or the parameters of any What, at any
nesting depth, leaves the id unchanged. -/
theorem c02_order {w w' : What} (h : Cong Reorder w.toVal w'.toVal) : val? (idD w) = val? (idD w') :=
  idD_of_text (c02_order_value h)

/-- C02, `nonids_too`. -/
theorem c02_order_nonids {w w' : What}
    (h : Cong Reorder ({ w with nonids := [] } : What).toVal ({ w' with nonids := [] } : What).toVal) :
    val? (idStr buildD w true) = val? (idStr buildD w' true) := by
  rw [idStr_nonidsToo, idStr_nonidsToo]; exact c02_order h

/-- A reordering three levels down: inside a set inside a dict inside a tuple. -/
example : Cong Reorder
    (What.toVal ⟨c!"f", [(c!"x", .tuple [.dict [(.str c!"k", .set [.int 1, .int 2])]])], [], none⟩)
    (What.toVal ⟨c!"f", [(c!"x", .tuple [.dict [(.str c!"k", .set [.int 2, .int 1])]])], [], none⟩) :=
  .what _ [] [] _ _ _ (.tuple [] [] (.dictVal _ [] [] (.base (.set (List.Perm.swap _ _ _)))))
example : idD ⟨c!"f", [(c!"x", .tuple [.dict [(.str c!"k", .set [.int 2, .int 1])]])], [], none⟩ =
    .ok c!"f(x=({'k':{1,2}}))" := rfl

/-- C03. Changing, adding or removing parameters under non-id keys, of any What at any depth, leaves the
id unchanged. -/
theorem c03_nonids {w w' : What} (h : Cong NonIdChange w.toVal w'.toVal) : val? (idD w) = val? (idD w') :=
  idD_of_text (cong_text (fun _ _ => nonid_text) h)

/-- C03 at the top level, exactly (also the exception), and for every plugin chain. -/
theorem c03_nonids_any_chain (cu : Customs) (ps : List Plugin) (name : Str) (a b : Conf) (nonids : List Str)
    (out : Option Str) (ha : UniqueKeys a) (hb : UniqueKeys b)
    (agree : ∀ k, k ∉ nonids → ∀ v, (k, v) ∈ a ↔ (k, v) ∈ b) :
    idStr (build cu ps) ⟨name, a, nonids, out⟩ false = idStr (build cu ps) ⟨name, b, nonids, out⟩ false :=
  idStr_eq_of_items rfl rfl (idItems_eq ha (agree_perm ha hb agree))

/-- A nested What whose non-id parameter `n_jobs` changes, disappears, or even becomes unprintable. -/
example : Cong NonIdChange
    (What.toVal ⟨c!"f", [(c!"g", .what c!"g" [(c!"a", .int 1), (c!"n_jobs", .int 8)] [c!"n_jobs"] none)], [], none⟩)
    (What.toVal ⟨c!"f", [(c!"g", .what c!"g" [(c!"a", .int 1)] [c!"n_jobs"] none)], [], none⟩) := by
  refine .what _ [] [] _ _ _ (.base (.what _ _ _ ?_ ?_ ?_))
  · unfold UniqueKeys; decide
  · unfold UniqueKeys; decide
  · intro k hk v
    simp only [List.mem_cons, List.not_mem_nil, or_false, Prod.mk.injEq] at hk ⊢
    constructor
    · rintro (h | h)
      · exact h
      · exact absurd h.1 hk
    · exact Or.inl
example : idD ⟨c!"f", [(c!"g", .what c!"g" [(c!"a", .int 1), (c!"n_jobs", .builtin c!"max")] [c!"n_jobs"] none)], [], none⟩ =
    .ok c!"f(g=g(a=1))" := rfl

/-- C24. Changing attributes of whatable objects that are excluded from their configuration (or the order
in which attributes were set), at any depth, leaves the id unchanged. -/
theorem c24_private {w w' : What} (h : Cong PrivateChange w.toVal w'.toVal) : val? (idD w) = val? (idD w') :=
  idD_of_text (cong_text (fun _ _ => private_text) h)

/-- C24 for the id of the object itself, as `obj.what().id()`. -/
theorem c24_private_object {a b : Val} (h : Cong PrivateChange a b) : val? (buildD a) = val? (buildD b) :=
  cong_text (fun _ _ => private_text) h

/-- C24: which attributes are private under the default options of `whatable`. -/
theorem c24_private_defaults (k : Str) : ¬ Public {} k ↔
    (∃ r, k = '_' :: r) ∨ (∃ r, k = r ++ ['_']) ∨ k = c!"what" := by
  have h1 : (['_'] <+: k) ↔ ∃ r, k = '_' :: r :=
    ⟨fun ⟨r, hr⟩ => ⟨r, hr.symm⟩, fun ⟨r, hr⟩ => ⟨r, hr.symm⟩⟩
  have h2 : (['_'] <:+ k) ↔ ∃ r, k = r ++ ['_'] :=
    ⟨fun ⟨r, hr⟩ => ⟨r, hr.symm⟩, fun ⟨r, hr⟩ => ⟨r, hr.symm⟩⟩
  simp only [Public, h1, h2, List.mem_singleton]
  constructor
  · intro h
    by_cases a : ∃ r, k = '_' :: r
    · exact Or.inl a
    · by_cases b : ∃ r, k = r ++ ['_']
      · exact Or.inr (Or.inl b)
      · by_cases c : k = c!"what"
        · exact Or.inr (Or.inr c)
        · exact absurd ⟨a, b, c⟩ h
  · rintro (h | h | h) ⟨h1, h2, h3⟩
    · exact h1 h
    · exact h2 h
    · exact h3 h

/-- Fitting an object (setting `coef_` and `_cache`) inside a list inside a What. -/
example : Cong PrivateChange
    (What.toVal ⟨c!"f", [(c!"xs", .list [.obj c!"C" false [] [(c!"a", .int 1)] [] [] (some {}) c!"s"])], [], none⟩)
    (What.toVal ⟨c!"f", [(c!"xs", .list [.obj c!"C" false [] [(c!"coef_", .int 3), (c!"a", .int 1)] []
      [(c!"_cache", .int 7)] (some {}) c!"s'"])], [], none⟩) := by
  refine .what _ [] [] _ _ _ (.list [] [] (.base (.obj _ _ _ _ ?_ ?_ ?_ ?_ ?_ ?_ ?_ ?_ ?_))) <;>
    try (unfold UniqueKeys; decide)
  intro k hk v
  have h1 : k ≠ c!"coef_" := fun e => hk.2.1 (e ▸ ⟨c!"coef", rfl⟩)
  have h2 : k ≠ c!"_cache" := fun e => hk.1 (e ▸ ⟨c!"cache", rfl⟩)
  simp [h1, h2]
example : idD ⟨c!"f", [(c!"xs", .list [.obj c!"C" false [] [(c!"coef_", .int 3), (c!"a", .int 1)] []
      [(c!"_cache", .int 7)] (some {}) c!"s'"])], [], none⟩ = .ok c!"f(xs=[C(a=1)])" := rfl

/-! ### C04 -/

/-- The strict order on `str`: lexicographic by code point. -/
def strLt (a b : Str) : Prop := List.Lex (fun c d : Char => c.toNat < d.toNat) a b

theorem strLt_of_strLe {a b : Str} (h : strLe a b = true) (ne : a ≠ b) : strLt a b := by
  induction a generalizing b with
  | nil =>
    cases b with
    | nil => exact absurd rfl ne
    | cons => exact List.Lex.nil
  | cons c a ih =>
    cases b with
    | nil => simp [strLe] at h
    | cons d b =>
      simp only [strLe] at h
      split at h
      · exact List.Lex.rel ‹_›
      · split at h
        · cases h
        · have : c = d := char_ext (by omega)
          subst this
          exact List.Lex.cons (ih h fun e => ne (by rw [e]))

theorem pyJoin_eq (sep : Str) (l : List Str) : pyJoin sep l = sep.intercalate l := by
  induction l with
  | nil => rfl
  | cons x l ih =>
    cases l with
    | nil => simp [pyJoin, List.intercalate]
    | cons y r =>
      simp only [pyJoin, ih, List.intercalate, List.intersperse, List.flatten_cons]
      simp

/-- `[out_name=]name(k1=s1,...,kn=sn)`. -/
def assemble (name : Str) (out : Option Str) (items : List (Str × Str)) : Str :=
  (match out with | none => [] | some o => o ++ c!"=") ++
    name ++ c!"(" ++ c!",".intercalate (items.map fun kt => kt.1 ++ c!"=" ++ kt.2) ++ c!")"

/-- The keys that belong to the id: the parameters that are not non-id keys, or all of them. -/
def IdKey (conf : Conf) (nonids : List Str) (nonidsToo : Bool) (k : Str) : Prop :=
  (∃ v, (k, v) ∈ conf) ∧ (nonidsToo = true ∨ k ∉ nonids)

theorem mem_idItems {w : What} {f : Bool} {kv : Str × Val} :
    kv ∈ idItems w f ↔ kv ∈ w.conf ∧ (f = true ∨ kv.1 ∉ w.nonids) := by
  simp only [idItems, List.mem_filter, mem_sortBy, Bool.or_eq_true, Bool.not_eq_true',
    List.contains_eq_mem, decide_eq_false_iff_not]

theorem mapR_kvStr {bs : BS} {c : Conf} {parts : List Str} (h : mapR (kvStr bs) c = .ok parts) :
    ∃ items : List (Str × Str), items.map Prod.fst = c.map Prod.fst ∧
      parts = items.map (fun kt => kt.1 ++ c!"=" ++ kt.2) ∧
      ∀ k t, (k, t) ∈ items → ∃ v r, (k, v) ∈ c ∧ bs v = .ok r ∧ t = showOpt r := by
  induction c generalizing parts with
  | nil => simp only [mapR] at h; cases h; exact ⟨[], rfl, rfl, by simp⟩
  | cons kv c ih =>
    obtain ⟨k, v⟩ := kv
    simp only [mapR, kvStr] at h
    cases hb : bs v with
    | error e => rw [hb] at h; cases h
    | ok r =>
      rw [hb] at h
      simp only at h
      cases hm : mapR (kvStr bs) c with
      | error e => rw [hm] at h; cases h
      | ok ps =>
        rw [hm] at h; cases h
        obtain ⟨items, h1, h2, h3⟩ := ih hm
        refine ⟨(k, showOpt r) :: items, by simp [h1], by simp [h2], ?_⟩
        intro k' t ht
        rcases List.mem_cons.1 ht with e | ht
        · cases e; exact ⟨v, r, by simp, hb, rfl⟩
        · obtain ⟨v', r', hv, hr, e⟩ := h3 k' t ht
          exact ⟨v', r', by simp [hv], hr, e⟩

theorem idItems_lt {w : What} {f : Bool} (h : UniqueKeys w.conf) :
    ((idItems w f).map Prod.fst).Pairwise strLt := by
  rw [List.pairwise_map]
  have hn : ((idItems w f).map Prod.fst).Nodup := by
    have := (((idItems_perm w f).map Prod.fst).nodup_iff).2 (uniqueKeys_filter h _)
    exact this
  rw [List.Nodup, List.pairwise_map] at hn
  exact List.Pairwise.imp₂ (fun a b h1 h2 => strLt_of_strLe h1 h2) (idItems_sorted w f) hn

/-- C04. An id is `[out_name=]name(k1=s1,...,kn=sn)` with the id keys, each exactly once, in strictly
ascending order, and `si` what `build_string` gives for the value of `ki` (a plugin chain that gives None
shows as the text `None`). -/
theorem c04_shape (cu : Customs) (ps : List Plugin) (w : What) (nonidsToo : Bool) (s : Str)
    (unique : UniqueKeys w.conf) (h : idStr (build cu ps) w nonidsToo = .ok s) :
    ∃ items : List (Str × Str),
      s = assemble w.name w.out items ∧
      (items.map Prod.fst).Pairwise strLt ∧
      (∀ k, k ∈ items.map Prod.fst ↔ IdKey w.conf w.nonids nonidsToo k) ∧
      (∀ k t, (k, t) ∈ items → ∃ v r, (k, v) ∈ w.conf ∧ build cu ps v = .ok r ∧ (r = some t ∨ r = none ∧ t = c!"None")) := by
  simp only [idStr] at h
  cases hm : mapR (kvStr (build cu ps)) (idItems w nonidsToo) with
  | error e => rw [hm] at h; cases h
  | ok parts =>
    rw [hm] at h
    cases h
    obtain ⟨items, h1, h2, h3⟩ := mapR_kvStr hm
    refine ⟨items, ?_, ?_, ?_, ?_⟩
    · simp only [wrapId, assemble, pyJoin_eq, h2]
      cases w.out <;> simp
    · rw [h1]; exact idItems_lt unique
    · intro k
      rw [h1]
      simp only [IdKey, List.mem_map, Prod.exists, exists_and_right, exists_eq_right, mem_idItems]
    · intro k t ht
      obtain ⟨v, r, hv, hb, e⟩ := h3 k t ht
      refine ⟨v, r, idItems_sub hv, hb, ?_⟩
      cases r with
      | none => exact .inr ⟨rfl, e⟩
      | some _ => exact .inl (by rw [e, showOpt])

/-- C04. There is an id exactly when `build_string` returns for the value of every id key; non-id values
are never looked at. -/
theorem c04_defined (cu : Customs) (ps : List Plugin) (w : What) (nonidsToo : Bool) :
    (∃ s, idStr (build cu ps) w nonidsToo = .ok s) ↔
      ∀ k v, (k, v) ∈ w.conf → (nonidsToo = true ∨ k ∉ w.nonids) → ∃ r, build cu ps v = .ok r := by
  have key : (∃ s, idStr (build cu ps) w nonidsToo = .ok s) ↔
      ∀ kv ∈ idItems w nonidsToo, ∃ y, kvStr (build cu ps) kv = .ok y := by
    rw [← mapR_ok_iff]
    simp only [idStr]
    cases mapR (kvStr (build cu ps)) (idItems w nonidsToo) <;> simp
  rw [key]
  constructor
  · intro h k v hv hk
    obtain ⟨y, hy⟩ := h (k, v) (mem_idItems.2 ⟨hv, hk⟩)
    simp only [kvStr] at hy
    cases hb : build cu ps v with
    | error e => rw [hb] at hy; cases hy
    | ok r => exact ⟨r, rfl⟩
  · rintro h ⟨k, v⟩ hkv
    obtain ⟨hv, hk⟩ := mem_idItems.1 hkv
    obtain ⟨r, hr⟩ := h k v hv hk
    exact ⟨k ++ c!"=" ++ showOpt r, by simp [kvStr, hr]⟩

/-- The two theorems apply to a What with an out_name, a non-id key and unsorted keys. -/
def exShape : What := ⟨c!"rf", [(c!"n", .int 3), (c!"b", .bool true), (c!"j", .builtin c!"len")], [c!"j"], some c!"y"⟩
example : UniqueKeys exShape.conf := by unfold UniqueKeys exShape; decide
example : idD exShape = .ok c!"y=rf(b=True,n=3)" := rfl
example : idStr buildD exShape true = .error .exception := rfl

/-! ### C05 (ids; positional ids are in Props/Ops.lean) -/

/-- C05. The full id when maxlength is not positive or the id fits, else its digest. -/
theorem c05_maxlength (sha1 : Str → Str) (bs : BS) (w : What) (f : Bool) (m : Int) :
    (∀ e, whatId sha1 bs w f m = .error e ↔ idStr bs w f = .error e) ∧
    (∀ s, idStr bs w f = .ok s → (m ≤ 0 ∨ (s.length : Int) ≤ m) → whatId sha1 bs w f m = .ok s) ∧
    (∀ s, idStr bs w f = .ok s → 0 < m → m < s.length → whatId sha1 bs w f m = .ok (sha1 s)) := by
  refine ⟨fun e => ?_, fun s h hm => ?_, fun s h h1 h2 => ?_⟩
  · simp only [whatId]; cases idStr bs w f <;> simp
  · simp only [whatId, h, trimTooLong]
    rw [if_neg]; omega
  · simp only [whatId, h, trimTooLong]
    rw [if_pos ⟨h1, h2⟩]

/-- C05. Equal ids give equal trimmed ids. -/
theorem c05_equal (sha1 : Str → Str) (bs : BS) (w w' : What) (f : Bool) (m : Int)
    (h : idStr bs w f = idStr bs w' f) : whatId sha1 bs w f m = whatId sha1 bs w' f m := by
  simp only [whatId, h]

/-- C05. For positive m and a 40-character digest, the result is never longer than max m 40. -/
theorem c05_length (sha1 : Str → Str) (digest : ∀ s, (sha1 s).length = 40) (bs : BS) (w : What) (f : Bool)
    (m : Int) (hm : 0 < m) (t : Str) (h : whatId sha1 bs w f m = .ok t) : (t.length : Int) ≤ max m 40 := by
  simp only [whatId] at h
  cases hs : idStr bs w f with
  | error e => rw [hs] at h; cases h
  | ok s =>
    rw [hs] at h
    simp only [trimTooLong] at h
    split at h
    · cases h; rw [digest]; omega
    · cases h; omega

example : idD exShape = .ok c!"y=rf(b=True,n=3)" ∧ (c!"y=rf(b=True,n=3)").length = 16 := ⟨rfl, rfl⟩
example (sha1 : Str → Str) : whatId sha1 buildD exShape false 15 = .ok (sha1 c!"y=rf(b=True,n=3)") ∧
    whatId sha1 buildD exShape false 16 = .ok c!"y=rf(b=True,n=3)" ∧
    whatId sha1 buildD exShape false (-1) = .ok c!"y=rf(b=True,n=3)" := ⟨rfl, rfl, rfl⟩

/-! ### C09 -/

/-- C09. The text of a string is a quoted body in which every quote is immediately preceded by a backslash. -/
theorem c09_quoted (s : Str) : ∃ body, buildD (.str s) = .ok (some ('\'' :: body ++ ['\''])) ∧
    (∀ l r, body = l ++ '\'' :: r → ∃ l', l = l' ++ ['\\']) ∧
    -- quoting a quoted body changes nothing
    buildD (.str body) = .ok (some ('\'' :: body ++ ['\''])) ∧
    -- only quote escapes were added or kept
    QuoteEq s body := by
  refine ⟨strBody s, by rw [buildD_str]; rfl, ?_, by rw [buildD_str, strBody_idem]; rfl, quoteEq_strBody s⟩
  intro l r h
  have := strBody_quoted s l r h
  obtain ⟨l', hl⟩ := List.getLast?_eq_some_iff.1 this
  exact ⟨l', hl⟩

/-- C09. Two strings have the same text exactly when they differ only in which of their quotes are already
escaped. -/
theorem c09_collisions (s t : Str) : buildD (.str s) = buildD (.str t) ↔ QuoteEq s t := by
  rw [buildD_str, buildD_str, ← strBody_eq_iff]
  simp

/-- C09 at any depth. -/
theorem c09_nested {w w' : What} (h : Cong QuoteChange w.toVal w'.toVal) : val? (idD w) = val? (idD w') :=
  idD_of_text (cong_text (fun _ _ => quote_text) h)

example : QuoteEq c!"it's" c!"it\\'s" := .esc c!"it" c!"s" (by decide)
example : buildD (.str c!"it's") = .ok (some c!"'it\\'s'") ∧ buildD (.str c!"it\\'s") = .ok (some c!"'it\\'s'") :=
  ⟨rfl, rfl⟩
example : buildD (.str c!"its") ≠ buildD (.str c!"it's") := by decide

end Whatami
