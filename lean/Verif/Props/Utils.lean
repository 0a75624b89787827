import Verif.Utils
import Verif.Props.RoundTrip
import Verif.Props.Ops

/-
Properties of whatutils.py: C37, C39, C40.
-/
namespace Whatami

/-! ### C39 -/

/-- C39. None and strings. -/
theorem c39_none (bs : BS) (idm : Val → Option (R Str)) : what2id bs idm .none = .ok none := rfl
theorem c39_string (bs : BS) (idm : Val → Option (R Str)) (s : Str) : what2id bs idm (.str s) = .ok (some s) := rfl

/-- C39. The id of a What. -/
theorem c39_what (bs : BS) (idm : Val → Option (R Str)) (w : What) (s : Str) (h : idStr bs w false = .ok s) :
    what2id bs idm w.toVal = .ok (some s) := by
  obtain ⟨n, c, nk, o⟩ := w
  simp only [what2id, What.toVal, viaWhat, whatMethod, orElseAttr, viaId, h]
  rfl

/-- C39. The id of the What that a whatable gives. -/
theorem c39_whatable (bs : BS) (idm : Val → Option (R Str)) (v : Val) (w : What) (s : Str) (hv : whatMethod v = some (.ok w))
    (h : idStr bs w false = .ok s) : what2id bs idm v = .ok (some s) := by
  cases v <;> simp only [whatMethod, reduceCtorEq] at hv <;>
    simp only [what2id, viaWhat, whatMethod, hv, h, orElseAttr] <;> rfl

/-- C39. The result of `id()` for objects that have it but no `what()`. -/
theorem c39_id_method (bs : BS) (idm : Val → Option (R Str)) (v : Val) (s : Str) (hnone : v ≠ .none) (hstr : ∀ t, v ≠ .str t)
    (hwhat : ∀ w : What, v ≠ w.toVal) (hv : whatMethod v = none) (h : idm v = some (.ok s)) : what2id bs idm v = .ok (some s) := by
  have e : viaId bs idm v = .ok s := by
    cases v <;> first | (simp only [viaId, h]; done) | exact absurd rfl (hwhat ⟨_, _, _, _⟩)
  cases v <;> first
    | exact absurd rfl hnone
    | exact absurd rfl (hstr _)
    | (simp only [what2id, viaWhat, hv, orElseAttr, e]; rfl)

/-- C39. Anything else: the id of what introspection finds. -/
theorem c39_inspected (bs : BS) (idm : Val → Option (R Str)) (v : Val) (hnone : v ≠ .none) (hstr : ∀ t, v ≠ .str t)
    (hwhat : ∀ w : What, v ≠ w.toVal) (hv : whatMethod v = none) (h : idm v = none) :
    (∀ w s, whatareyou {} v = .ok w → idStr bs w false = .ok s → what2id bs idm v = .ok (some s)) := by
  intro w s hw hs
  have e : viaId bs idm v = .error .attributeError := by
    cases v <;> first | (simp only [viaId, h]; done) | exact absurd rfl (hwhat ⟨_, _, _, _⟩)
  have e2 : viaInspection bs v = .ok s := by simp only [viaInspection, hw, hs]
  cases v <;> first
    | exact absurd rfl hnone
    | exact absurd rfl (hstr _)
    | (simp only [what2id, viaWhat, hv, orElseAttr, e, e2]; rfl)

/-- C39. `what2id` applied to its own result is the identity. -/
theorem c39_idempotent (bs : BS) (idm : Val → Option (R Str)) (v : Val) (r : Option Str) (_h : what2id bs idm v = .ok r) :
    what2id bs idm (match r with | none => .none | some s => .str s) = .ok r := by
  cases r <;> rfl

/-- C39. Only None gives None. -/
theorem c39_only_none (bs : BS) (idm : Val → Option (R Str)) (v : Val) (h : what2id bs idm v = .ok none) : v = .none := by
  cases v <;> first
    | rfl
    | (simp only [what2id, Except.map] at h
       split at h <;> cases h)
    | exact absurd h (by simp [what2id])

example : what2id buildD (fun _ => none) exRT.toVal =
    .ok (some c!"y=rf(base=z=dt(depth=12),cls=<class 'collections.OrderedDict'>,eps=1e-05,names=('a, b',[None,True,-3]),opts={'k':{'x',1},None:[]})") := by rfl
example : what2id buildD (fun _ => none) (.func c!"f" [c!"a", c!"b"] [.int 2]) = .ok (some c!"f(b=2)") := by rfl
example : what2id buildD (fun _ => none) (.obj c!"C" false [] [(c!"a", .int 1), (c!"_b", .none)] [] [] (some {}) c!"") = .ok (some c!"C(a=1)") := by rfl
/-- An object of a class with a method `id`. -/
example : what2id buildD (fun _ => some (.ok c!"mine")) (.obj c!"C" false [] [] [] [] none c!"") = .ok (some c!"mine") := by rfl

/-! ### C40 -/

/-- `DictOf P w d`: `d` is the dictionary with the name, the out_name and one entry per id parameter of `w`; the entry of a
parameter that is a What is again such a dictionary, that of any other parameter is `P`-related to its value. -/
inductive DictOf (P : Val → Val → Prop) : What → Val → Prop
  | mk (w : What) (keys : List Str) (f : Str → Val) :
      keys.Nodup → (∀ k, k ∈ keys ↔ k ∈ w.conf.map Prod.fst ∧ k ∉ w.nonids) →
      (∀ k v, (k, What.toVal v) ∈ w.conf → k ∉ w.nonids → DictOf P v (f k)) →
      (∀ k v, (k, v) ∈ w.conf → k ∉ w.nonids → (∀ w' : What, v ≠ w'.toVal) → P v (f k)) →
      DictOf P w (.dict [(.str c!"whatami_name", .str w.name),
        (.str c!"whatami_out_name", match w.out with | none => .none | some o => .str o),
        (.str c!"whatami_conf", .dict (keys.map fun k => (.str k, f k)))])

theorem printable_nested {F : Frag} {w : What} (h : Printable F w.toVal) : PrintableWhat F w := by
  simp only [What.toVal, Printable] at h
  exact ⟨h.1, h.2.2.1, h.2.2.2.1, fun k v hm hk => printableA_mem h.2.2.2.2 k v hm hk⟩

theorem loadableA_mem {F : Frag} {E : Env} {nk : List Str} {xs : List (Str × Val)} (h : LoadableA F E nk xs) :
    ∀ k v, (k, v) ∈ xs → k ∉ nk → Loadable F E v := by
  induction xs with
  | nil => intro k v hm; cases hm
  | cons y ys ih =>
    obtain ⟨k', v'⟩ := y
    simp only [LoadableA] at h
    intro k v hm hk
    cases hm with
    | head => exact h.1 hk
    | tail _ hm => exact ih h.2 k v hm hk

theorem loadable_nested {F : Frag} {E : Env} {w : What} (h : Loadable F E w.toVal) : LoadableWhat F E w := by
  simp only [What.toVal, Loadable] at h
  exact ⟨h.1, fun k v hm hk => loadableA_mem h.2 k v hm hk⟩

/-- The parsed form of a nested What has the id of the original. -/
theorem id_dec_nested {E : Env} {w : What} (h : PrintableWhat ⟨True, True, False⟩ w) (hl : LoadableWhat ⟨True, True, False⟩ E w) :
    ∃ s, idD w = .ok s ∧ dec false (enc w.toVal) = .what w.name (decA false (encA (idItems w false))) [] w.out ∧
      idStr buildD ⟨w.name, decA false (encA (idItems w false)), [], w.out⟩ false = .ok s := by
  obtain ⟨s, w', h1, h2, h3⟩ := c07_id_of_parsed h hl
  obtain ⟨s', h4, h5⟩ := id_parse h hl
  rw [h1] at h4; cases h4
  rw [h2] at h5; cases h5
  refine ⟨s, h1, ?_, h3⟩
  obtain ⟨n, c, nk, o⟩ := w
  simp only [What.toVal, enc, dec]
  rw [enc_items ⟨n, c, nk, o⟩]

theorem dict_spec {E : Env} : ∀ (n : Nat) (w : What), depth w.toVal ≤ n →
    PrintableWhat ⟨True, True, False⟩ w → LoadableWhat ⟨True, True, False⟩ E w →
    ∃ s d, idD w = .ok s ∧ id2dictN E buildD n s = .ok d ∧ DictOf (Cong (Hidden ⟨True, True, False⟩)) w d := by
  intro n
  induction n with
  | zero =>
    intro w hd
    have : depth w.toVal = depthA w.conf + 1 := rfl
    omega
  | succ n ih =>
    intro w hd hp hl
    obtain ⟨s, h1, h2⟩ := id_parse hp hl
    -- each item converts
    have item : ∀ kv ∈ idItems w false, ∃ d, dictVal buildD (id2dictN E buildD n) (dec false (enc kv.2)) = .ok d ∧
        (∀ w', kv.2 = What.toVal w' → DictOf (Cong (Hidden ⟨True, True, False⟩)) w' d) ∧
        ((∀ w' : What, kv.2 ≠ w'.toVal) → Cong (Hidden ⟨True, True, False⟩) kv.2 d) := by
      rintro ⟨k, v⟩ hm
      obtain ⟨hm1, hm2⟩ := items_mem hm
      have hpv := hp.2.2.2 k v hm1 hm2
      have hlv := hl.2 k v hm1 hm2
      have hdv : depth v ≤ n := by
        have h := depth_memA hm1
        have : depth w.toVal = depthA w.conf + 1 := rfl
        omega
      by_cases hw : ∃ w' : What, v = w'.toVal
      · obtain ⟨w', rfl⟩ := hw
        obtain ⟨s', e1, e2, e3⟩ := id_dec_nested (printable_nested hpv) (loadable_nested hlv)
        obtain ⟨s'', d, f1, f2, f3⟩ := ih w' hdv (printable_nested hpv) (loadable_nested hlv)
        rw [e1] at f1; cases f1
        refine ⟨d, ?_, ?_, fun h => absurd rfl (h w')⟩
        · simp only [e2, dictVal, e3, f2]
        · intro w'' hw''
          have : w' = w'' := by
            obtain ⟨a, b, c, e⟩ := w'
            obtain ⟨a', b', c', e'⟩ := w''
            simp only [What.toVal, Val.what.injEq] at hw''
            obtain ⟨rfl, rfl, rfl, rfl⟩ := hw''
            rfl
          rw [← this]; exact f3
      · refine ⟨dec false (enc v), ?_, fun w' h => absurd ⟨w', h⟩ hw, fun _ => ?_⟩
        · have : ∀ nm c nk o, dec false (enc v) ≠ .what nm c nk o := by
            intro nm c nk o hh
            cases v <;> simp only [enc, dec, reduceCtorEq] at hh <;> first
              | exact hw ⟨⟨_, _, _, _⟩, rfl⟩
              | (simp only [Printable] at hpv; split at hh <;> cases hh)
          cases hv : dec false (enc v) <;> first | rfl | exact absurd hv (this _ _ _ _)
        · refine cong_mono ?_ (cong_dec (b := false) v hpv)
          rintro a b (h | ⟨-, h, -⟩)
          · exact h
          · exact absurd h (fun h => h)
    have hitems : ∃ g : Str × Val → Val, ∀ kv ∈ idItems w false,
        dictVal buildD (id2dictN E buildD n) (dec false (enc kv.2)) = .ok (g kv) ∧
        (∀ w', kv.2 = What.toVal w' → DictOf (Cong (Hidden ⟨True, True, False⟩)) w' (g kv)) ∧
        ((∀ w' : What, kv.2 ≠ w'.toVal) → Cong (Hidden ⟨True, True, False⟩) kv.2 (g kv)) := by
      refine ⟨fun kv => match dictVal buildD (id2dictN E buildD n) (dec false (enc kv.2)) with | .ok d => d | .error _ => .none, ?_⟩
      intro kv hkv
      obtain ⟨d, e1, e2, e3⟩ := item kv hkv
      simp only [e1]
      exact ⟨trivial, e2, e3⟩
    obtain ⟨g, hg⟩ := hitems
    have hu : UniqueKeys (idItems w false) := uniqueKeys_perm (uniqueKeys_filter hp.2.1 _) (idItems_perm w false).symm
    let f : Str → Val := fun k => match dget (idItems w false) k with | some v => g (k, v) | none => .none
    have hf : ∀ kv ∈ idItems w false, f kv.1 = g kv := by
      rintro ⟨k, v⟩ hm
      simp only [f, dget_eq_some_of_mem hu hm]
    refine ⟨s, whatDict w.name w.out ((idItems w false).map fun kv => (kv.1, f kv.1)), h1, ?_, ?_⟩
    · simp only [id2dictN, h2]
      have : confItems (dictVal buildD (id2dictN E buildD n)) (decA false (encA (idItems w false))) =
          .ok ((idItems w false).map fun kv => (kv.1, f kv.1)) := by
        rw [confItems, decA_map, encA_map, List.map_map]
        generalize hq : idItems w false = l at hg hf
        clear hq h2
        induction l with
        | nil => rfl
        | cons y ys ih2 =>
          simp only [List.map_cons, mapR, Function.comp]
          rw [(hg y (by simp)).1, hf y (by simp)]
          simp only [Except.map]
          have := ih2 (fun kv h => hg kv (by simp [h])) (fun kv h => hf kv (by simp [h]))
          simp only [Function.comp_def, Except.map] at this ⊢
          rw [this]
      rw [this]; rfl
    · have := DictOf.mk (P := Cong (Hidden ⟨True, True, False⟩)) w ((idItems w false).map Prod.fst) f hu ?_ ?_ ?_
      · have e : (idItems w false).map (fun kv => (Val.str kv.1, f kv.1)) = (List.map Prod.fst (idItems w false)).map fun k => (.str k, f k) := by
          rw [List.map_map]; rfl
        rw [whatDict, strDict, List.map_map]
        simp only [Function.comp_def]
        rw [e]
        cases ho : w.out <;> simp only [ho, optStr] at this ⊢ <;> exact this
      · intro k
        simp only [List.mem_map, Prod.exists, exists_and_right, exists_eq_right]
        constructor
        · rintro ⟨v, hm⟩
          exact ⟨⟨v, (items_mem hm).1⟩, (items_mem hm).2⟩
        · rintro ⟨⟨v, hm⟩, hk⟩
          exact ⟨v, by simp [idItems, mem_sortBy, hm, hk]⟩
      · intro k v hm hk
        have hm' : (k, v.toVal) ∈ idItems w false := by simp [idItems, mem_sortBy, hm, hk]
        have := (hg _ hm').2.1 v rfl
        rw [← hf _ hm'] at this
        exact this
      · intro k v hm hk hv
        have hm' : (k, v) ∈ idItems w false := by simp [idItems, mem_sortBy, hm, hk]
        have := (hg _ hm').2.2 hv
        rw [← hf _ hm'] at this
        exact this

/-- C40. `w.to_dict()` is the dictionary of the name, the out_name and the id parameters; nested Whats become their own
dictionaries, other values come back unchanged but for the order of sets and dicts, the escaping of quotes and the non-id
parameters of Whats inside collections.  (`n` bounds the depth of Python's recursion: any limit from the nesting depth on.) -/
theorem c40_to_dict {E : Env} {w : What} (h : PrintableWhat ⟨True, True, False⟩ w) (hl : LoadableWhat ⟨True, True, False⟩ E w)
    (n : Nat) (hn : depth w.toVal ≤ n) :
    ∃ d, toDictN E buildD n w false = .ok d ∧ DictOf (Cong (Hidden ⟨True, True, False⟩)) w d := by
  obtain ⟨s, d, h1, h2, h3⟩ := dict_spec (E := E) n w hn h hl
  refine ⟨d, ?_, h3⟩
  simp only [toDictN]
  rw [show idStr buildD w false = .ok s from h1]
  exact h2

/-- C40. `to_dict(nonids_too=True)` is `to_dict()` of the What without non-id keys. -/
theorem c40_nonids_too (E : Env) (bs : BS) (n : Nat) (w : What) :
    toDictN E bs n w true = toDictN E bs n { w with nonids := [] } false := by
  have : idStr bs w true = idStr bs { w with nonids := [] } false := by
    simp [idStr, idItems]
  simp only [toDictN, this]

/-- C40. `id2dict` of an id is the dictionary of the What that has it. -/
theorem c40_id2dict {E : Env} {w : What} {s : Str} (h : PrintableWhat ⟨True, True, False⟩ w) (hl : LoadableWhat ⟨True, True, False⟩ E w)
    (n : Nat) (hn : depth w.toVal ≤ n) (hs : idD w = .ok s) :
    ∃ d, id2dictN E buildD n s = .ok d ∧ DictOf (Cong (Hidden ⟨True, True, False⟩)) w d := by
  obtain ⟨s', d, h1, h2, h3⟩ := dict_spec (E := E) n w hn h hl
  rw [hs] at h1; cases h1
  exact ⟨d, h2, h3⟩

/-- Two levels, with an out_name inside. -/
def exDict : What := ⟨c!"rf", [(c!"n", .int 3), (c!"base", .what c!"dt" [(c!"depth", .int 12), (c!"q", .str c!"x")] [] (some c!"z"))], [], none⟩
example : toDictN exEnv buildD 9 exDict false = .ok (.dict [(.str c!"whatami_name", .str c!"rf"), (.str c!"whatami_out_name", .none),
    (.str c!"whatami_conf", .dict [
      (.str c!"base", .dict [(.str c!"whatami_name", .str c!"dt"), (.str c!"whatami_out_name", .str c!"z"),
        (.str c!"whatami_conf", .dict [(.str c!"depth", .int 12), (.str c!"q", .str c!"x")])]),
      (.str c!"n", .int 3)])]) := by rfl
example : PrintableWhat ⟨True, True, False⟩ exDict ∧ LoadableWhat ⟨True, True, False⟩ exEnv exDict := by
  refine ⟨⟨⟨fun x h => by (cases h), ident_of (by rfl), ?_⟩, by unfold UniqueKeys exDict; decide, .inl rfl, ?_⟩, fun h => absurd rfl h, ?_⟩
  · intro k hk
    simp only [exDict, List.map_cons, List.map_nil, List.mem_cons, List.not_mem_nil, or_false] at hk
    rcases hk with h | h <;> subst h <;> exact ident_of (by rfl)
  · intro k v hm hk
    simp only [exDict, List.mem_cons, Prod.mk.injEq, List.not_mem_nil, or_false] at hm
    rcases hm with ⟨-, rfl⟩ | ⟨-, rfl⟩
    · simp only [Printable]
    · simp only [Printable, PrintableA, and_true]
      refine ⟨⟨?_, ident_of (by rfl), ?_⟩, ⟨by unfold NestedStart; decide, by intro h; cases h⟩, by unfold UniqueKeys; decide, .inl trivial, fun _ => trivial, fun _ => ?_⟩
      · intro x h; cases h; exact ident_of (by rfl)
      · intro k hk
        simp only [List.map_cons, List.map_nil, List.mem_cons, List.not_mem_nil, or_false] at hk
        rcases hk with h | h <;> subst h <;> exact ident_of (by rfl)
      · exact .inl (goodBody_plain (by decide) (by rintro c r h; cases h; rfl))
  · intro k v hm hk
    simp only [exDict, List.mem_cons, Prod.mk.injEq, List.not_mem_nil, or_false] at hm
    rcases hm with ⟨-, rfl⟩ | ⟨-, rfl⟩
    · simp only [Loadable]
    · simp only [Loadable, LoadableA, and_true]
      exact ⟨fun _ => ⟨c!"depth", by simp, by simp⟩, fun _ => trivial, fun _ => trivial⟩
/-- A What in a list stays a What (so the result does not store as json). -/
example : toDictN exEnv buildD 9 ⟨c!"f", [(c!"a", .list [.what c!"g" [] [] none])], [], none⟩ false =
    .ok (.dict [(.str c!"whatami_name", .str c!"f"), (.str c!"whatami_out_name", .none),
      (.str c!"whatami_conf", .dict [(.str c!"a", .list [.what c!"g" [] [] none])])]) := by rfl

end Whatami
