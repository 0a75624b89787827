import Verif.Decode
import Verif.TreeInj
import Verif.Props.Id
import Verif.Props.Parse

/-
Properties of ids as a serialisation: C06, C07, C08, C13.
-/
namespace Whatami

/-- Ids of `F`-configurations in the language of ids. -/
theorem id_text {F : Frag} {w : What} (h : PrintableWhat F w) : idD w = .ok (text (.what w.out w.name (encA (idItems w false)))) := by
  obtain ⟨n, c, nk, o⟩ := w
  rw [what_text fun k v hm hk => text_of v (h.2.2.2 k v hm hk)]
  simp only [enc]
  rw [enc_items ⟨n, c, nk, o⟩]

theorem id_wf {F : Frag} {w : What} (h : PrintableWhat F w) : WfA (encA (idItems w false)) ∧ NoSetCallA (encA (idItems w false)) :=
  goodA h.1.2.2 fun k v hm hk => good_of v (h.2.2.2 k v hm hk)

theorem id_dec {F : Frag} {w : What} (b : Bool) (h : PrintableWhat F w) :
    Cong (HiddenOr F b) w.toVal (.what w.name (decA b (encA (idItems w false))) [] w.out) := by
  obtain ⟨n, c, nk, o⟩ := w
  exact cong_what h.2.1 h.2.2.1 fun k v hm hk => cong_dec v (h.2.2.2 k v hm hk)

theorem hiddenOr_true {F : Frag} {a b : Val} (h : HiddenOr F true a b) : Hidden F a b := by
  rcases h with h | ⟨e, _⟩
  · exact h
  · cases e

/-- A hidden change in a fragment without quotes, non-id keys and frozensets is a change of order. -/
theorem hidden_reorder {F : Frag} (hq : ¬ F.quotes) (hn : ¬ F.nonids) {a b : Val} (h : Hidden F a b) : Reorder a b := by
  rcases h with h | ⟨h, _⟩ | ⟨h, _⟩
  · exact h
  · exact absurd h hq
  · exact absurd h hn

/-! ### C08 -/

/-- C08, general form: configurations with the same id differ in nothing but the order of dicts, sets and parameters,
the escaping of quotes, and non-id parameters. -/
theorem c08_injective_hidden {F : Frag} {w w' : What} {s : Str} (h : PrintableWhat F w) (h' : PrintableWhat F w')
    (e : idD w = .ok s) (e' : idD w' = .ok s) : Cong (Hidden F) w.toVal w'.toVal := by
  rw [id_text h] at e
  rw [id_text h', ← e] at e'
  obtain ⟨e1, e2, e3⟩ := text_inj h'.1.1 h'.1.2.1 (id_wf h').1 (id_wf h').2 h.1.1 h.1.2.1 (id_wf h).1 (id_wf h).2 (Except.ok.inj e')
  have d := id_dec true h
  have d' := id_dec true h'
  rw [e1, e2, e3] at d'
  exact cong_mono (fun _ _ => hiddenOr_true) (.trans d (.symm d'))

/-- C08. Two configurations (frozensets included; without quotes to escape and non-id keys) with the same id are the same up to the order of
dicts, sets and parameters. -/
theorem c08_injective {w w' : What} {s : Str} (h : PrintableWhat ⟨False, False, True⟩ w) (h' : PrintableWhat ⟨False, False, True⟩ w')
    (e : idD w = .ok s) (e' : idD w' = .ok s) : Cong Reorder w.toVal w'.toVal :=
  cong_mono (fun _ _ => hidden_reorder (fun h => h) (fun h => h)) (c08_injective_hidden h h' e e')

/-- C08, the converse: together, ids are equal exactly if the configurations are the same up to order. -/
theorem c08_iff {w w' : What} (h : PrintableWhat ⟨False, False, True⟩ w) (h' : PrintableWhat ⟨False, False, True⟩ w') :
    idD w = idD w' ↔ Cong Reorder w.toVal w'.toVal := by
  constructor
  · intro e
    exact c08_injective h h' (id_text h) (e ▸ id_text h)
  · intro hc
    have := c02_order hc
    rw [id_text h, id_text h'] at this
    rw [id_text h, id_text h', Option.some.inj this]

/-! ### C06 -/

theorem id_parse {F : Frag} {E : Env} {w : What} (h : PrintableWhat F w) (hl : LoadableWhat F E w) :
    ∃ s, idD w = .ok s ∧ parseWhatid E s = .ok ⟨w.name, decA false (encA (idItems w false)), [], w.out⟩ := by
  refine ⟨_, id_text h, ?_⟩
  rw [parse_text h.1.1 h.1.2.1 (id_wf h).1 (id_wf h).2]
  obtain ⟨h1, h2⟩ := back_items (E := E) h.2.1 fun k v hm hk => reads_back v (h.2.2.2 k v hm hk) (hl.2 k v hm hk)
  simp only [semTop, h1, Except.bind, h2, out_cond hl.1]
  rfl

/-- C06, general form: what parsing an id gives back differs in nothing but the order of dicts, sets and parameters,
the escaping of quotes, non-id parameters, and frozensets having become sets. -/
theorem c06_round_trip_hidden {F : Frag} {E : Env} {w : What} (h : PrintableWhat F w) (hl : LoadableWhat F E w) :
    ∃ s w', idD w = .ok s ∧ parseWhatid E s = .ok w' ∧ w'.nonids = [] ∧
      Cong (fun a b => Hidden F a b ∨ (F.fsets ∧ Thaw a b)) w.toVal w'.toVal := by
  obtain ⟨s, h1, h2⟩ := id_parse h hl
  refine ⟨s, _, h1, h2, rfl, cong_mono ?_ (id_dec false h)⟩
  intro a b hc
  rcases hc with hc | ⟨_, hc⟩
  · exact .inl hc
  · exact .inr hc

/-- C06. Parsing the id of a configuration gives back the configuration, up to the order of dicts, sets and parameters. -/
theorem c06_round_trip {E : Env} {w : What} (h : PrintableWhat ⟨False, False, False⟩ w) (hl : LoadableWhat ⟨False, False, False⟩ E w) :
    ∃ s w', idD w = .ok s ∧ parseWhatid E s = .ok w' ∧ Cong Reorder w.toVal w'.toVal := by
  obtain ⟨s, w', h1, h2, _, h3⟩ := c06_round_trip_hidden h hl
  refine ⟨s, w', h1, h2, cong_mono ?_ h3⟩
  intro a b hc
  rcases hc with hc | ⟨hc, _⟩
  · exact hidden_reorder (fun h => h) (fun h => h) hc
  · exact absurd hc (fun h => h)

/-! C06 with Python's `==` -/

theorem numEq_self {fi : Str → Option Int} {ns : Bool} {v : Val} {n : Int ⊕ Str} (h : numKey fi v = some n) (hn : ns = true ∨ v ≠ .float c!"nan") :
    numEq ns n n = true := by
  cases n with
  | inl i => simp [numEq]
  | inr t =>
    cases v with
    | float u =>
      simp only [numKey] at h
      split at h
      · cases h
      · cases h
        simp only [numEq, beq_self_eq_true, Bool.true_and, Bool.or_eq_true, Bool.not_eq_true', beq_eq_false_iff_ne, ne_eq]
        rcases hn with hn | hn
        · exact .inl hn
        · exact .inr fun e => hn (by rw [e])
    | _ => simp [numKey] at h

section
variable {F : Frag} {fi : Str → Option Int} {ns : Bool}

/-- No nan, unless nans count as equal. -/
def NoNan (ns : Bool) (v : Val) : Prop := ns = true ∨ ¬ Within (.float c!"nan") v

theorem NoNan.child {v x : Val} (h : NoNan ns v) (hc : Child x v) : NoNan ns x :=
  h.imp (fun h => h) fun h hw => h (.step hw hc)

theorem eqL_map {g : Val → Val} {xs : List Val} (h : ∀ x ∈ xs, pyEq fi ns x (g x) = true) : pyEqL fi ns xs (xs.map g) = true := by
  induction xs with
  | nil => rfl
  | cons x xs ih =>
    simp only [List.map_cons, pyEqL, h x (by simp), ih fun y hy => h y (by simp [hy]), Bool.and_self]

theorem subL_of {xs ys : List Val} (h : ∀ x ∈ xs, ∃ y ∈ ys, pyEq fi ns x y = true) : pySubL fi ns xs ys = true := by
  induction xs with
  | nil => rfl
  | cons x xs ih =>
    simp only [pySubL, ih fun y hy => h y (by simp [hy]), Bool.and_true, List.any_eq_true]
    exact h x (by simp)

theorem subD_of {xs ys : List (Val × Val)} (h : ∀ x ∈ xs, ∃ y ∈ ys, pyEq fi ns x.1 y.1 = true ∧ pyEq fi ns x.2 y.2 = true) : pySubD fi ns xs ys = true := by
  induction xs with
  | nil => rfl
  | cons x xs ih =>
    obtain ⟨k, v⟩ := x
    simp only [pySubD, ih fun y hy => h y (by simp [hy]), Bool.and_true, List.any_eq_true, Bool.and_eq_true]
    exact h (k, v) (by simp)

theorem subA_of {xs ys : List (Str × Val)} (h : ∀ x ∈ xs, ∃ y ∈ ys, x.1 = y.1 ∧ pyEq fi ns x.2 y.2 = true) : pySubA fi ns xs ys = true := by
  induction xs with
  | nil => rfl
  | cons x xs ih =>
    obtain ⟨k, v⟩ := x
    simp only [pySubA, ih fun y hy => h y (by simp [hy]), Bool.and_true, List.any_eq_true, Bool.and_eq_true, beq_iff_eq]
    exact h (k, v) (by simp)

theorem eqA_items {n : Str} {c : Conf} {o : Option Str} (h : ∀ k v, (k, v) ∈ c → pyEq fi ns v (dec false (enc v)) = true) :
    pyEq fi ns (.what n c [] o) (.what n (decA false (encA (idItems ⟨n, c, [], o⟩ false))) [] o) = true := by
  have hp : (idItems ⟨n, c, [], o⟩ false).Perm c := by
    have := idItems_perm ⟨n, c, [], o⟩ false
    have hf : c.filter (fun kv => false || !([] : List Str).contains kv.1) = c := by simp
    rwa [hf] at this
  simp only [pyEq, beq_self_eq_true, Bool.true_and, Bool.and_eq_true, beq_iff_eq]
  rw [decA_map, encA_map, List.map_map]
  refine ⟨by rw [List.length_map, hp.length_eq], subA_of ?_⟩
  rintro ⟨k, v⟩ hm
  exact ⟨(k, dec false (enc v)), List.mem_map.2 ⟨(k, v), hp.mem_iff.2 hm, rfl⟩, rfl, h k v hm⟩

mutual
theorem eq_dec (hq : ¬ F.quotes) (hn : ¬ F.nonids) : ∀ v : Val, Printable F v → NoNan ns v → pyEq fi ns v (dec false (enc v)) = true
  | .none, _, _ => rfl
  | .bool b, _, _ => by simp [enc, dec, pyEq, numKey, numEq]
  | .int i, _, _ => by simp only [enc]; rw [dec_num_int]; simp [pyEq, numKey, numEq]
  | .float t, h, hw => by
      simp only [Printable] at h; simp only [enc]; rw [dec_num_float false h]
      simp only [pyEq]
      cases hk : numKey fi (.float t) with
      | none => simp only [numKey] at hk; split at hk <;> cases hk
      | some n =>
        refine numEq_self hk (hw.imp (fun h => h) fun hw e => hw ?_)
        rw [e]; exact .refl _
  | .str s, h, _ => by
      simp only [enc, dec]
      rcases (printable_str h).2 with e | ⟨h, _⟩
      · rw [e]; simp [pyEq]
      · exact absurd h hq
  | .cls f, _, _ => by simp [enc, dec, pyEq]
  | .tuple xs, h, hw => by
      simp only [Printable] at h
      simp only [enc, dec, pyEq]
      rw [decL_map, encL_map, List.map_map]
      exact eqL_map (eq_decL hq hn xs h fun x hx => hw.child (.tuple hx))
  | .list xs, h, hw => by
      simp only [Printable] at h
      simp only [enc, dec, pyEq]
      rw [decL_map, encL_map, List.map_map]
      exact eqL_map (eq_decL hq hn xs h fun x hx => hw.child (.list hx))
  | .set xs, h, hw => by
      simp only [Printable] at h
      have hl := eq_decL hq hn xs h fun x hx => hw.child (.set hx)
      have hp := (sortBy_perm textLe (encL xs)).map (dec false)
      simp only [enc, dec, pyEq]
      rw [decL_map]
      rw [encL_map, List.map_map] at hp
      rw [encL_map]
      simp only [Bool.and_eq_true, beq_iff_eq]
      refine ⟨by rw [hp.length_eq, List.length_map], subL_of ?_⟩
      intro x hx
      exact ⟨dec false (enc x), hp.mem_iff.2 (List.mem_map.2 ⟨x, hx, rfl⟩), hl x hx⟩
  | .fset xs, h, hw => by
      simp only [Printable] at h
      have hl := eq_decL hq hn xs h.2 fun x hx => hw.child (.fset hx)
      have hp := (sortBy_perm textLe (encL xs)).map (dec false)
      simp only [enc, dec, pyEq]
      rw [decL_map]
      rw [encL_map, List.map_map] at hp
      rw [encL_map]
      simp only [Bool.false_eq_true, if_false, pyEq, Bool.and_eq_true, beq_iff_eq]
      refine ⟨by rw [hp.length_eq, List.length_map], subL_of ?_⟩
      intro x hx
      exact ⟨dec false (enc x), hp.mem_iff.2 (List.mem_map.2 ⟨x, hx, rfl⟩), hl x hx⟩
  | .dict kvs, h, hw => by
      simp only [Printable] at h
      have hl := eq_decD hq hn kvs h fun x hx => ⟨hw.child (.dictKey (y := x.2) hx), hw.child (.dictVal (y := x.1) hx)⟩
      have hp := (sortBy_perm textLe2 (encD kvs)).map fun kv => (dec false kv.1, dec false kv.2)
      simp only [enc, dec, pyEq]
      rw [decD_map]
      rw [encD_map, List.map_map] at hp
      rw [encD_map]
      simp only [Bool.and_eq_true, beq_iff_eq]
      refine ⟨by rw [hp.length_eq, List.length_map], subD_of ?_⟩
      intro x hx
      exact ⟨(dec false (enc x.1), dec false (enc x.2)), hp.mem_iff.2 (List.mem_map.2 ⟨x, hx, rfl⟩), hl x hx⟩
  | .what n c nk o, h, hw => by
      simp only [Printable] at h
      have hnk : nk = [] := h.2.2.2.1.resolve_right hn
      have ha := eq_decA hq hn c h.2.2.2.2 fun k v hm => hw.child (.what k n nk o hm)
      simp only [enc]
      rw [enc_items ⟨n, c, nk, o⟩]
      simp only [dec]
      rw [hnk]
      exact eqA_items fun k v hm => ha k v hm (by rw [hnk]; simp)
  | .sub _ _ _ _, h, _ => by simp only [Printable] at h
  | .odict _ _ _, h, _ => by simp only [Printable] at h
  | .ddict _ _ _, h, _ => by simp only [Printable] at h
  | .obj _ _ _ _ _ _ _ _, h, _ => by simp only [Printable] at h
  | .duck _ _ _ _, h, _ => by simp only [Printable] at h
  | .numtype _, h, _ => by simp only [Printable] at h
  | .wcls _, h, _ => by simp only [Printable] at h
  | .func _ _ _, h, _ => by simp only [Printable] at h
  | .part _ _ _ _, h, _ => by simp only [Printable] at h
  | .builtin _, h, _ => by simp only [Printable] at h
  | .property, h, _ => by simp only [Printable] at h
  | .array _ _, h, _ => by simp only [Printable] at h
  | .rng _ _, h, _ => by simp only [Printable] at h
termination_by structural v => v
theorem eq_decL (hq : ¬ F.quotes) (hn : ¬ F.nonids) : ∀ xs : List Val, PrintableL F xs → (∀ x ∈ xs, NoNan ns x) →
    ∀ x ∈ xs, pyEq fi ns x (dec false (enc x)) = true
  | [], _, _, x, hx => by cases hx
  | y :: ys, h, hw, x, hx => by
      simp only [PrintableL] at h
      have h1 := eq_dec hq hn y h.1 (hw y (by simp))
      have h2 := eq_decL hq hn ys h.2 fun z hz => hw z (by simp [hz])
      rcases List.mem_cons.1 hx with e | hx
      · rw [e]; exact h1
      · exact h2 x hx
termination_by structural xs => xs
theorem eq_decD (hq : ¬ F.quotes) (hn : ¬ F.nonids) : ∀ xs : List (Val × Val), PrintableD F xs → (∀ x ∈ xs, NoNan ns x.1 ∧ NoNan ns x.2) →
    ∀ x ∈ xs, pyEq fi ns x.1 (dec false (enc x.1)) = true ∧ pyEq fi ns x.2 (dec false (enc x.2)) = true
  | [], _, _, x, hx => by cases hx
  | (k, v) :: ys, h, hw, x, hx => by
      simp only [PrintableD] at h
      have h0 := eq_dec hq hn k h.1 (hw (k, v) (by simp)).1
      have h1 := eq_dec hq hn v h.2.1 (hw (k, v) (by simp)).2
      have h2 := eq_decD hq hn ys h.2.2 fun z hz => hw z (by simp [hz])
      rcases List.mem_cons.1 hx with e | hx
      · rw [e]; exact ⟨h0, h1⟩
      · exact h2 x hx
termination_by structural xs => xs
theorem eq_decA (hq : ¬ F.quotes) (hn : ¬ F.nonids) {nk : List Str} : ∀ xs : List (Str × Val), PrintableA F nk xs →
    (∀ k v, (k, v) ∈ xs → NoNan ns v) → ∀ k v, (k, v) ∈ xs → k ∉ nk → pyEq fi ns v (dec false (enc v)) = true
  | [], _, _, k, v, hx => by cases hx
  | (k', v') :: ys, h, hw, k, v, hx => by
      simp only [PrintableA] at h
      have h1 := fun hk => eq_dec hq hn v' (h.1 hk) (hw k' v' (by simp))
      have h2 := eq_decA hq hn ys h.2 fun k v hm => hw k v (by simp [hm])
      intro hk
      rcases List.mem_cons.1 hx with e | hx
      · cases e; exact h1 hk
      · exact h2 k v hx hk
termination_by structural xs => xs
end
end

/-- C06. The original `==` what parsing its id gives (`What.__eq__`), frozensets included, unless there is a nan somewhere;
even then, if nans were equal (`ns`). -/
theorem c06_equal {E : Env} {w : What} (ns : Bool) (h : PrintableWhat ⟨False, False, True⟩ w) (hl : LoadableWhat ⟨False, False, True⟩ E w)
    (hnan : ns = true ∨ ¬ Within (.float c!"nan") w.toVal) :
    ∃ s w', idD w = .ok s ∧ parseWhatid E s = .ok w' ∧ pyEq E.fi ns w.toVal w'.toVal = true := by
  obtain ⟨s, h1, h2⟩ := id_parse h hl
  refine ⟨s, _, h1, h2, ?_⟩
  obtain ⟨n, c, nk, o⟩ := w
  have hnk : nk = [] := h.2.2.1.resolve_right (fun h => h)
  subst hnk
  exact eqA_items fun k v hm => eq_dec (fun h => h) (fun h => h) v (h.2.2.2 k v hm (by simp)) (NoNan.child hnan (.what k n [] o hm))

/-! ### C07 -/

theorem sameIdPart_text {a b : Val} (h : SameIdPart a b) : SameText buildD a b := by
  cases h with
  | what n nk nk' o u u' h =>
    simp only [SameText, buildD_what]
    refine congrArg (fun r => val? (ret r)) (idStr_eq_of_items rfl rfl (idItems_eq u ?_))
    refine (List.perm_ext_iff_of_nodup (uniqueKeys_nodup (uniqueKeys_filter u _)) (uniqueKeys_nodup (uniqueKeys_filter u' _))).2 ?_
    rintro ⟨k, v⟩
    simp only [List.mem_filter, Bool.false_or, Bool.not_eq_true', List.contains_eq_mem, decide_eq_false_iff_not]
    exact h k v

theorem hidden_text {F : Frag} {a b : Val} (h : Hidden F a b) : SameText buildD a b := by
  rcases h with h | ⟨_, h⟩ | ⟨_, h⟩
  · exact reorder_text h
  · exact quote_text h
  · exact sameIdPart_text h

/-- C07. The id of a parsed id is that id, for configurations without frozensets; with quotes in strings and non-id parameters. -/
theorem c07_id_of_parsed {E : Env} {w : What} (h : PrintableWhat ⟨True, True, False⟩ w) (hl : LoadableWhat ⟨True, True, False⟩ E w) :
    ∃ s w', idD w = .ok s ∧ parseWhatid E s = .ok w' ∧ idD w' = .ok s := by
  obtain ⟨s, w', h1, h2, _, h3⟩ := c06_round_trip_hidden h hl
  refine ⟨s, w', h1, h2, ?_⟩
  have := idD_of_text (cong_text (fun a b hc => by
    rcases hc with hc | ⟨hc, _⟩
    · exact hidden_text hc
    · exact absurd hc (fun h => h)) h3)
  rw [h1] at this
  cases hw : idD w' with
  | error e => rw [hw] at this; cases this
  | ok s' => rw [hw] at this; rw [show s = s' from Option.some.inj this]


/-! ### Configurations that meet the hypotheses -/

theorem ident_of {s : Str} (h : (match s with | c :: r => isIdStart c && r.all isIdChar | [] => false) = true) : Ident s := by
  cases s with
  | nil => cases h
  | cons c r => simp only [Bool.and_eq_true] at h; exact ⟨c, r, rfl, h.1, h.2⟩

/-- Strings without quotes, backslashes and whitespace in front can be read back. -/
theorem goodBody_plain {s : Str} (h : ∀ c ∈ s, c ≠ '\'' ∧ c ≠ '\\') (hw : ∀ c r, s = c :: r → isWs c = false) : GoodBody s := by
  refine ⟨?_, hw⟩
  clear hw
  induction s with
  | nil => exact .nil
  | cons c s ih => exact .char (h c (by simp)).1 (h c (by simp)).2 (ih fun d hd => h d (by simp [hd]))

/-- Without quotes in the fragment, different means different. -/
theorem apart_of {F : Frag} {fi : Str → Option Int} (hq : ¬ F.quotes) {x y : Val} (h : pyEq fi false x y = false) (h' : pyEq fi false y x = false) :
    Apart F fi x y := by
  have key : ∀ {a b : Val}, Cong (fun a b => F.quotes ∧ QuoteChange a b) a b → a = b := by
    intro a b hc
    induction hc with
    | base h => exact absurd h.1 hq
    | refl => rfl
    | symm _ ih => exact ih.symm
    | trans _ _ ih1 ih2 => exact ih1.trans ih2
    | _ => simp_all
  intro x' y' hx hy
  rw [← key hx, ← key hy]
  exact ⟨h, h'⟩

/-- What of a value shows whatever happens to quotes inside. -/
def shape : Val → Val
  | .str s => .str (strBody s)
  | .int i => .int i
  | _ => .none

theorem shape_cong {F : Frag} {a b : Val} (h : Cong (fun a b => F.quotes ∧ QuoteChange a b) a b) : shape a = shape b := by
  induction h with
  | base h =>
    obtain ⟨_, h⟩ := h
    cases h with
    | str h => simp only [shape, strBody_of_quoteEq h]
  | refl => rfl
  | symm _ ih => exact ih.symm
  | trans _ _ ih1 ih2 => exact ih1.trans ih2
  | _ => rfl

theorem shape_int {v : Val} {i : Int} (h : shape v = .int i) : v = .int i := by
  cases v <;> simp_all [shape]

theorem shape_str {v : Val} {t : Str} (h : shape v = .str t) : ∃ s, v = .str s ∧ strBody s = t := by
  cases v <;> simp_all [shape]

/-- Different integers are different, also in a fragment with quotes. -/
theorem apart_int {F : Frag} {fi : Str → Option Int} {i j : Int} (h : i ≠ j) : Apart F fi (.int i) (.int j) := by
  intro x y hx hy
  rw [shape_int (shape_cong hx).symm, shape_int (shape_cong hy).symm]
  simp [pyEq, numKey, numEq, h, h.symm]

/-- Strings that differ in more than the escaping of quotes are different, also in a fragment with quotes. -/
theorem apart_str {F : Frag} {fi : Str → Option Int} {s t : Str} (h : strBody s ≠ strBody t) : Apart F fi (.str s) (.str t) := by
  intro x y hx hy
  obtain ⟨a, rfl, ha⟩ := shape_str (shape_cong hx).symm
  obtain ⟨b, rfl, hb⟩ := shape_str (shape_cong hy).symm
  have : a ≠ b := fun e => h (by rw [← ha, ← hb, e])
  simp [pyEq, this, this.symm]

/-- Integers and strings are different, also in a fragment with quotes. -/
theorem apart_int_str {F : Frag} {fi : Str → Option Int} {i : Int} {t : Str} : Apart F fi (.str t) (.int i) ∧ Apart F fi (.int i) (.str t) := by
  constructor
  · intro x y hx hy
    obtain ⟨a, rfl, ha⟩ := shape_str (shape_cong hx).symm
    rw [shape_int (shape_cong hy).symm]
    simp [pyEq, numKey]
  · intro x y hx hy
    obtain ⟨a, rfl, ha⟩ := shape_str (shape_cong hy).symm
    rw [shape_int (shape_cong hx).symm]
    simp [pyEq, numKey]

/-- `y=rf(base=..., cls=..., eps=1e-05, names=..., opts=...)` with nested everything. -/
def exRT : What where
  name := c!"rf"
  conf := [(c!"opts", .dict [(.str c!"k", .set [.str c!"x", .int 1]), (.none, .list [])]),
    (c!"eps", .float c!"1e-05"),
    (c!"names", .tuple [.str c!"a, b", .list [.none, .bool true, .int (-3)]]),
    (c!"cls", .cls c!"collections.OrderedDict"),
    (c!"base", .what c!"dt" [(c!"depth", .int 12)] [] (some c!"z"))]
  nonids := []
  out := some c!"y"

theorem exRT_printable (F : Frag) : PrintableWhat F exRT := by
  refine ⟨⟨?_, ident_of (by rfl), ?_⟩, by unfold UniqueKeys exRT; decide, .inl rfl, ?_⟩
  · intro x h; cases h; exact ident_of (by rfl)
  · intro k hk
    simp only [exRT, List.map_cons, List.map_nil, List.mem_cons, List.not_mem_nil, or_false] at hk
    rcases hk with h | h | h | h | h <;> subst h <;> exact ident_of (by rfl)
  · intro k v hm _
    simp only [exRT, List.mem_cons, Prod.mk.injEq, List.not_mem_nil, or_false] at hm
    rcases hm with ⟨-, rfl⟩ | ⟨-, rfl⟩ | ⟨-, rfl⟩ | ⟨-, rfl⟩ | ⟨-, rfl⟩
    · simp only [Printable, PrintableD, PrintableL, and_true]
      exact ⟨.inl (goodBody_plain (by decide) (by rintro c r h; cases h; rfl)), .inl (goodBody_plain (by decide) (by rintro c r h; cases h; rfl))⟩
    · simp only [Printable]
      refine ⟨.digits false (ds := c!"1") (fr := []) (ex := c!"e-05") ?_ (.inl rfl) (.inr ⟨'e', ['-'], c!"05", rfl, .inl rfl, .inr (.inr rfl), ?_⟩), ?_, ?_⟩
      · exact ⟨by decide, by rfl⟩
      · exact ⟨by decide, by rfl⟩
      · rintro ⟨-, h⟩; revert h; decide
      · intro d h; cases h
    · simp only [Printable, PrintableL, and_true]
      exact .inl (goodBody_plain (by decide) (by rintro c r h; cases h; rfl))
    · simp only [Printable]
      exact ⟨by decide, by decide⟩
    · simp only [Printable, PrintableA, and_true]
      refine ⟨⟨?_, ident_of (by rfl), ?_⟩, ⟨by unfold NestedStart; decide, by intro h; cases h⟩, by unfold UniqueKeys; decide, by simp⟩
      · intro x h; cases h; exact ident_of (by rfl)
      · intro k hk
        simp only [List.map_cons, List.map_nil, List.mem_cons, List.not_mem_nil, or_false] at hk
        subst hk; exact ident_of (by rfl)

theorem exRT_loadable {F : Frag} (hq : ¬ F.quotes) : LoadableWhat F exEnv exRT := by
  refine ⟨fun _ => ⟨c!"eps", by simp [exRT], by simp [exRT]⟩, ?_⟩
  intro k v hm _
  simp only [exRT, List.mem_cons, Prod.mk.injEq, List.not_mem_nil, or_false] at hm
  rcases hm with ⟨-, rfl⟩ | ⟨-, rfl⟩ | ⟨-, rfl⟩ | ⟨-, rfl⟩ | ⟨-, rfl⟩
  · simp only [Loadable, LoadableD, LoadableL, and_true, true_and, List.map_cons, List.map_nil, List.pairwise_cons,
      List.mem_cons, List.not_mem_nil, or_false, forall_eq_or_imp, forall_eq, Flat, List.Pairwise.nil, false_implies, implies_true]
    exact ⟨apart_of hq (by rfl) (by rfl), apart_of hq (by rfl) (by rfl)⟩
  · rfl
  · simp only [Loadable, LoadableL, and_true]
  · simp only [Loadable]; rfl
  · simp only [Loadable, LoadableA, and_true]
    exact ⟨fun _ => ⟨c!"depth", by simp, by simp⟩, fun _ => trivial⟩

/-- The round trip of the example; its parameters and items come back sorted. -/
example : idD exRT = .ok c!"y=rf(base=z=dt(depth=12),cls=<class 'collections.OrderedDict'>,eps=1e-05,names=('a, b',[None,True,-3]),opts={'k':{'x',1},None:[]})" := by rfl
example : ∃ s w', idD exRT = .ok s ∧ parseWhatid exEnv s = .ok w' ∧ Cong Reorder exRT.toVal w'.toVal :=
  c06_round_trip (exRT_printable _) (exRT_loadable (fun h => h))
example : ∃ s w', idD exRT = .ok s ∧ parseWhatid exEnv s = .ok w' ∧ pyEq exEnv.fi true exRT.toVal w'.toVal = true :=
  c06_equal true (exRT_printable _) (exRT_loadable (fun h => h)) (.inl rfl)

/-- With nan, the round trip gives an object that is not equal to the original. -/
example : idD ⟨c!"f", [(c!"a", .float c!"nan")], [], none⟩ = .ok c!"f(a=nan)" ∧
    parseWhatid exEnv c!"f(a=nan)" = .ok ⟨c!"f", [(c!"a", .float c!"nan")], [], none⟩ ∧
    pyEq exEnv.fi false (.what c!"f" [(c!"a", .float c!"nan")] [] none) (.what c!"f" [(c!"a", .float c!"nan")] [] none) = false :=
  ⟨rfl, by rfl, rfl⟩

/-- A string with a quote and a non-id parameter: the id stays, the string comes back escaped, the parameter is gone. -/
def exQ : What := ⟨c!"f", [(c!"v", .obj c!"Unprintable" false [] [] [] [] none c!"<U at 0x1>"), (c!"s", .str c!"it's")], [c!"v"], none⟩
example : PrintableWhat ⟨True, True, False⟩ exQ ∧ LoadableWhat ⟨True, True, False⟩ exEnv exQ := by
  refine ⟨⟨⟨fun x h => by (cases h), ident_of (by rfl), ?_⟩, by unfold UniqueKeys exQ; decide, .inr trivial, ?_⟩, fun h => absurd rfl h, ?_⟩
  · intro k hk
    simp only [exQ, List.map_cons, List.map_nil, List.mem_cons, List.not_mem_nil, or_false] at hk
    rcases hk with h | h <;> subst h <;> exact ident_of (by rfl)
  · intro k v hm hk
    simp only [exQ, List.mem_cons, Prod.mk.injEq, List.not_mem_nil, or_false] at hm hk
    rcases hm with ⟨h, -⟩ | ⟨-, rfl⟩
    · exact absurd h hk
    · simp only [Printable]
      refine .inr ⟨trivial, c!"it\\'s", .esc c!"it" c!"s" (by decide), ?_, by rintro c r h; cases h; rfl⟩
      exact .char (by decide) (by decide) (.char (by decide) (by decide) (.esc (by decide) (.char (by decide) (by decide) .nil)))
  · intro k v hm hk
    simp only [exQ, List.mem_cons, Prod.mk.injEq, List.not_mem_nil, or_false] at hm hk
    rcases hm with ⟨h, -⟩ | ⟨-, rfl⟩
    · exact absurd h hk
    · simp only [Loadable]
example : idD exQ = .ok c!"f(s='it\\'s')" ∧
    parseWhatid exEnv c!"f(s='it\\'s')" = .ok ⟨c!"f", [(c!"s", .str c!"it\\'s")], [], none⟩ := ⟨by rfl, by rfl⟩

/-- Frozensets are outside of C07: they come back as sets, which are written differently. -/
example : idD ⟨c!"f", [(c!"a", .fset [.int 1])], [], none⟩ = .ok c!"f(a=frozenset({1}))" ∧
    parseWhatid exEnv c!"f(a=frozenset({1}))" = .ok ⟨c!"f", [(c!"a", .set [.int 1])], [], none⟩ ∧
    idD ⟨c!"f", [(c!"a", .set [.int 1])], [], none⟩ = .ok c!"f(a={1})" := ⟨by rfl, by rfl, by rfl⟩

/-- What `c08_injective` leaves out: the types `int`, `float`, `complex` are written like a What of that name. -/
example : idD ⟨c!"f", [(c!"a", .numtype c!"int")], [], none⟩ = idD ⟨c!"f", [(c!"a", .what c!"int" [] [] none)], [], none⟩ := by rfl

/-! ### C13 -/

/-- C13 for the configurations of the fragment, with quotes, non-id keys and frozensets: their ids are accepted. -/
theorem c13_accepts_partial {E : Env} {w : What} (h : PrintableWhat ⟨True, True, True⟩ w) (hl : LoadableWhat ⟨True, True, True⟩ E w) :
    ∃ s w', idD w = .ok s ∧ parseWhatid E s = .ok w' ∧ w'.name = w.name ∧ w'.out = w.out ∧
      ∀ k, k ∈ w'.conf.map Prod.fst ↔ k ∈ w.conf.map Prod.fst ∧ k ∉ w.nonids := by
  obtain ⟨s, h1, h2⟩ := id_parse h hl
  refine ⟨s, _, h1, h2, rfl, rfl, ?_⟩
  intro k
  simp only [decA_map, encA_map, List.map_map, List.mem_map, Function.comp, Prod.exists, exists_and_right, exists_eq_right]
  simp only [idItems, List.mem_filter, mem_sortBy, Bool.false_or, Bool.not_eq_true', List.contains_eq_mem, decide_eq_false_iff_not]
  constructor
  · rintro ⟨v, hm, hk⟩; exact ⟨⟨v, hm⟩, hk⟩
  · rintro ⟨⟨v, hm⟩, hk⟩; exact ⟨v, hm, hk⟩

/-- C13 is false of the code: the id of any What with an out_name and no parameters is refused with ValueError (the name is taken
for the out_name and the parameters, in vain, for the name). -/
theorem c13_out_without_parameters (E : Env) (o n : Str) (ho : AsciiIdent o) (hn : AsciiIdent n) :
    idD ⟨n, [], [], some o⟩ = .ok (o ++ c!"=" ++ n ++ c!"()") ∧ parseWhatid E (o ++ c!"=" ++ n ++ c!"()") = .error .valueError := by
  refine ⟨by simp [idD, idStr, idItems, sortBy, wrapId, pyJoin, mapR], ?_⟩
  have := parse_text (E := E) (o := some o) (n := n) (kvs := []) (fun x hx => by cases hx; exact (ident_iff o).2 ho) ((ident_iff n).2 hn) trivial trivial
  have e : text (.what (some o) n []) = o ++ c!"=" ++ n ++ c!"()" := by simp [text, toks, toksA, sepToks, outToks]
  rw [e] at this
  rw [this]; rfl


/-- C13 is false of the code: a set with a What in it is written, but refused with TypeError (Whats are not hashable). -/
theorem c13_set_of_whats (E : Env) (n k m : Str) (hn : AsciiIdent n) (hk : AsciiIdent k) (hm : AsciiIdent m) (hr : NestedStart m)
    (hs : m ≠ c!"set" ∧ m ≠ c!"frozenset") :
    idD ⟨n, [(k, .set [.what m [] [] none])], [], none⟩ = .ok (n ++ c!"(" ++ k ++ c!"={" ++ m ++ c!"()})") ∧
      parseWhatid E (n ++ c!"(" ++ k ++ c!"={" ++ m ++ c!"()})") = .error .typeError := by
  have hp : PrintableWhat ⟨False, False, False⟩ ⟨n, [(k, .set [.what m [] [] none])], [], none⟩ := by
    refine ⟨⟨fun x h => by (cases h), (ident_iff n).2 hn, ?_⟩, by simp [UniqueKeys], .inl rfl, ?_⟩
    · intro k' h
      simp only [List.map_cons, List.map_nil, List.mem_cons, List.not_mem_nil, or_false] at h
      subst h; exact (ident_iff _).2 hk
    · intro k' v h _
      simp only [List.mem_cons, Prod.mk.injEq, List.not_mem_nil, or_false] at h
      obtain ⟨-, rfl⟩ := h
      simp only [Printable, PrintableL, PrintableA, and_true]
      exact ⟨⟨fun x h => by (cases h), (ident_iff m).2 hm, by simp⟩, ⟨hr, fun _ _ => hs⟩, by simp [UniqueKeys], by simp⟩
  have ei : encA (idItems ⟨n, [(k, .set [.what m [] [] none])], [], none⟩ false) = [(k, .set [.what none m []])] := by rfl
  have e : text (.what none n [(k, .set [.what none m []])]) = n ++ c!"(" ++ k ++ c!"={" ++ m ++ c!"()})" := by
    simp [text, toks, toksA, toksL, sepToks, outToks]
  have h1 := id_text hp
  have h2 := parse_text (E := E) hp.1.1 hp.1.2.1 (id_wf hp).1 (id_wf hp).2
  rw [ei] at h1 h2
  simp only [e] at h1 h2
  exact ⟨h1, by rw [h2]; rfl⟩

/-! C13 is false of the code: more ids that `id()` gives and `parse_whatid` refuses. -/
-- a nested name that starts with a reserved word
example : idD ⟨c!"f", [(c!"a", .what c!"infer" [] [] none)], [], none⟩ = .ok c!"f(a=infer())" ∧
    parseWhatid exEnv c!"f(a=infer())" = .error .noMatch := ⟨by rfl, by rfl⟩
-- a string that ends in a backslash
example : idD ⟨c!"f", [(c!"a", .str c!"C:\\")], [], none⟩ = .ok c!"f(a='C:\\')" ∧
    parseWhatid exEnv c!"f(a='C:\\')" = .error .noMatch := ⟨by rfl, by rfl⟩
-- a class without a module
example : idD ⟨c!"f", [(c!"a", .cls c!"str")], [], none⟩ = .ok c!"f(a=<class 'str'>)" ∧
    (∃ e, parseWhatid { exEnv with imp := fun m _ => if m = [] then .error .valueError else .error .importError } c!"f(a=<class 'str'>)" = .error e) :=
  ⟨by rfl, .valueError, by rfl⟩
-- a string with whitespace in front is accepted, but comes back without it
example : idD ⟨c!"f", [(c!"a", .str c!" x")], [], none⟩ = .ok c!"f(a=' x')" ∧
    parseWhatid exEnv c!"f(a=' x')" = .ok ⟨c!"f", [(c!"a", .str c!"x")], [], none⟩ := ⟨by rfl, by rfl⟩
-- a nested What named set is accepted, but comes back as the empty set
example : idD ⟨c!"f", [(c!"a", .what c!"set" [] [] none)], [], none⟩ = .ok c!"f(a=set())" ∧
    parseWhatid exEnv c!"f(a=set())" = .ok ⟨c!"f", [(c!"a", .set [])], [], none⟩ := ⟨by rfl, by rfl⟩
-- non-trivial hypotheses of the two refutations
example : AsciiIdent c!"rf" ∧ NestedStart c!"rf" ∧ c!"rf" ≠ c!"set" ∧ c!"rf" ≠ c!"frozenset" :=
  ⟨(ident_iff _).1 (ident_of (by rfl)), by unfold NestedStart; decide, by decide, by decide⟩

/-- A frozenset with a quote in one of its strings. -/
def exF : What := ⟨c!"f", [(c!"s", .fset [.int 2, .str c!"'", .int 1])], [], none⟩
example : PrintableWhat ⟨True, True, True⟩ exF ∧ LoadableWhat ⟨True, True, True⟩ exEnv exF := by
  refine ⟨⟨⟨fun x h => by (cases h), ident_of (by rfl), ?_⟩, by unfold UniqueKeys exF; decide, .inr trivial, ?_⟩, fun h => absurd rfl h, ?_⟩
  · intro k hk
    simp only [exF, List.map_cons, List.map_nil, List.mem_cons, List.not_mem_nil, or_false] at hk
    subst hk; exact ident_of (by rfl)
  · intro k v hm hk
    simp only [exF, List.mem_cons, Prod.mk.injEq, List.not_mem_nil, or_false] at hm
    obtain ⟨-, rfl⟩ := hm
    simp only [Printable, PrintableL, and_true, true_and]
    exact .inr ⟨c!"\\'", .esc [] [] (by decide), .esc (by decide) .nil, by rintro c r h; cases h; rfl⟩
  · intro k v hm hk
    simp only [exF, List.mem_cons, Prod.mk.injEq, List.not_mem_nil, or_false] at hm
    obtain ⟨-, rfl⟩ := hm
    simp only [Loadable, LoadableL, and_true, true_and, List.pairwise_cons,
      List.mem_cons, List.not_mem_nil, or_false, forall_eq_or_imp, forall_eq, Flat, List.Pairwise.nil, false_implies, implies_true]
    exact ⟨⟨apart_int_str.2, apart_int (by decide)⟩, apart_int_str.1⟩
example : ∃ s w', idD exF = .ok s ∧ parseWhatid exEnv s = .ok w' := ⟨c!"f(s=frozenset({'\\'',1,2}))", _, by rfl, by rfl⟩

end Whatami
