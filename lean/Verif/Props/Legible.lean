import Verif.CalmText
import Verif.Props.Text

/-
C13 over everything it ranges over: exactly which ids are accepted, whatever the strings and names of the configuration.
-/
namespace Whatami

variable {E : Env}

theorem supportedL_iff {xs : List Val} : SupportedL xs ↔ ∀ x ∈ xs, Supported x := by
  induction xs with | nil => simp [SupportedL] | cons x xs ih => simp [SupportedL, ih]
theorem supportedD_iff {xs : List (Val × Val)} : SupportedD xs ↔ ∀ x ∈ xs, Supported x.1 ∧ Supported x.2 := by
  induction xs with | nil => simp [SupportedD] | cons x xs ih => simp [SupportedD, ih, and_assoc]
theorem supportedA_iff {nk : List Str} {xs : Conf} : SupportedA nk xs ↔ ∀ k v, (k, v) ∈ xs → k ∉ nk → Ident k ∧ Supported v := by
  induction xs with
  | nil => simp [SupportedA]
  | cons x xs ih =>
    obtain ⟨k, v⟩ := x
    simp only [SupportedA, ih, List.mem_cons, Prod.mk.injEq]
    constructor
    · rintro ⟨h1, h2⟩ k' v' (⟨rfl, rfl⟩ | h) hn
      · exact h1 hn
      · exact h2 _ _ h hn
    · intro h
      exact ⟨h k v (.inl ⟨rfl, rfl⟩), fun k' v' hm => h k' v' (.inr hm)⟩
theorem legibleL_iff {xs : List Val} : LegibleL xs ↔ ∀ x ∈ xs, Legible x := by
  induction xs with | nil => simp [LegibleL] | cons x xs ih => simp [LegibleL, ih]
theorem legibleD_iff {xs : List (Val × Val)} : LegibleD xs ↔ ∀ x ∈ xs, Legible x.1 ∧ Legible x.2 := by
  induction xs with | nil => simp [LegibleD] | cons x xs ih => simp [LegibleD, ih, and_assoc]
theorem legibleA_iff {nk : List Str} {xs : Conf} : LegibleA nk xs ↔ ∀ k v, (k, v) ∈ xs → k ∉ nk → Legible v := by
  induction xs with
  | nil => simp [LegibleA]
  | cons x xs ih =>
    obtain ⟨k, v⟩ := x
    simp only [LegibleA, ih, List.mem_cons, Prod.mk.injEq]
    constructor
    · rintro ⟨h1, h2⟩ k' v' (⟨rfl, rfl⟩ | h) hn
      · exact h1 hn
      · exact h2 _ _ h hn
    · intro h
      exact ⟨h k v (.inl ⟨rfl, rfl⟩), fun k' v' hm => h k' v' (.inr hm)⟩
theorem looseL_iff {xs : List Ast} : LooseL xs ↔ ∀ x ∈ xs, Loose x := by
  induction xs with | nil => simp [LooseL] | cons x xs ih => simp [LooseL, ih]
theorem looseD_iff {xs : List (Ast × Ast)} : LooseD xs ↔ ∀ x ∈ xs, Loose x.1 ∧ Loose x.2 := by
  induction xs with | nil => simp [LooseD] | cons x xs ih => simp [LooseD, ih, and_assoc]
theorem looseA_iff {xs : List (Str × Ast)} : LooseA xs ↔ ∀ x ∈ xs, Ident x.1 ∧ Loose x.2 := by
  induction xs with | nil => simp [LooseA] | cons x xs ih => simp [LooseA, ih, and_assoc]

theorem class_infix {f : Str} (h : ClassName f) : isInfix c!" at 0x" (c!"<class '" ++ f ++ c!"'>") = false := by
  have : isInfix c!" at 0x" (f ++ c!"'>") = false := by
    apply infix_nospace
    intro c hc
    rcases List.mem_append.1 hc with hc | hc
    · rintro rfl
      exact absurd (h _ hc).2.2 (by decide)
    · rcases List.mem_cons.1 hc with rfl | hc
      · decide
      · rcases List.mem_cons.1 hc with rfl | hc
        · decide
        · cases hc
  simp [isInfix, List.isPrefixOf, this]

/-- All that is to know about the text of a supported value. -/
structure Knows (E : Env) (v : Val) : Prop where
  text : TextOf v
  loose : Loose (enc v)
  legible : Whole (enc v) ∧ Nameable (enc v) ↔ Legible v
  any : Any E (enc v) ↔ Accepted E v
  hashed : Hashed E (enc v) ↔ KeyLike E v

theorem mem_items {w : What} {x : Str × Ast} : x ∈ encA (idItems w false) ↔ ∃ k v, (k, v) ∈ w.conf ∧ k ∉ w.nonids ∧ (k, enc v) = x := by
  rw [encA_map, List.mem_map]
  simp only [idItems, List.mem_filter, mem_sortBy, Bool.false_or, Bool.not_eq_true', List.contains_eq_mem, decide_eq_false_iff_not]
  exact ⟨fun ⟨⟨k, v⟩, h, e⟩ => ⟨k, v, h.1, h.2, e⟩, fun ⟨k, v, h1, h2, e⟩ => ⟨(k, v), ⟨h1, h2⟩, e⟩⟩

section
variable {w : What} (h : ∀ k v, (k, v) ∈ w.conf → k ∉ w.nonids → Ident k ∧ Knows E v)
include h

theorem items_loose : LooseA (encA (idItems w false)) := by
  rw [looseA_iff]
  intro x hx
  obtain ⟨k, v, h1, h2, rfl⟩ := mem_items.1 hx
  exact ⟨(h k v h1 h2).1, (h k v h1 h2).2.loose⟩

theorem items_legible : WholeA (encA (idItems w false)) ∧ NameableA (encA (idItems w false)) ↔ ∀ k v, (k, v) ∈ w.conf → k ∉ w.nonids → Legible v := by
  rw [wholeA_iff, nameableA_iff]
  constructor
  · rintro ⟨a, b⟩ k v h1 h2
    have hx := mem_items.2 ⟨k, v, h1, h2, rfl⟩
    exact (h k v h1 h2).2.legible.1 ⟨a _ hx, b _ hx⟩
  · intro a
    refine ⟨fun x hx => ?_, fun x hx => ?_⟩ <;> obtain ⟨k, v, h1, h2, rfl⟩ := mem_items.1 hx
    · exact ((h k v h1 h2).2.legible.2 (a k v h1 h2)).1
    · exact ((h k v h1 h2).2.legible.2 (a k v h1 h2)).2
end

section
variable {xs : List Val} (h : ∀ x ∈ xs, Knows E x)
include h

theorem knowsL_loose : ∀ x ∈ encL xs, Loose x := by
  intro x hx; obtain ⟨v, hv, rfl⟩ := mem_encL.1 hx; exact (h v hv).loose
theorem knowsL_legible : (∀ x ∈ encL xs, Whole x) ∧ (∀ x ∈ encL xs, Nameable x) ↔ LegibleL xs := by
  rw [legibleL_iff]
  constructor
  · rintro ⟨a, b⟩ v hv
    have hx := mem_encL.2 ⟨v, hv, rfl⟩
    exact (h v hv).legible.1 ⟨a _ hx, b _ hx⟩
  · intro a
    refine ⟨fun x hx => ?_, fun x hx => ?_⟩ <;> obtain ⟨v, hv, rfl⟩ := mem_encL.1 hx
    · exact ((h v hv).legible.2 (a v hv)).1
    · exact ((h v hv).legible.2 (a v hv)).2
theorem knowsL_any : (∀ x ∈ encL xs, Any E x) ↔ AcceptedL E xs := by
  rw [acceptedL_iff]
  exact ⟨fun a v hv => (h v hv).any.1 (a _ (mem_encL.2 ⟨v, hv, rfl⟩)), fun a x hx => by obtain ⟨v, hv, rfl⟩ := mem_encL.1 hx; exact (h v hv).any.2 (a v hv)⟩
theorem knowsL_hashed : (∀ x ∈ encL xs, Hashed E x) ↔ KeyLikeL E xs := by
  rw [keyLikeL_iff]
  exact ⟨fun a v hv => (h v hv).hashed.1 (a _ (mem_encL.2 ⟨v, hv, rfl⟩)),
    fun a x hx => by obtain ⟨v, hv, rfl⟩ := mem_encL.1 hx; exact (h v hv).hashed.2 (a v hv)⟩
end

section
variable {xs : List (Val × Val)} (h : ∀ x ∈ xs, Knows E x.1 ∧ Knows E x.2)
include h

theorem knowsD_loose : ∀ x ∈ encD xs, Loose x.1 ∧ Loose x.2 := by
  intro x hx; obtain ⟨v, hv, rfl⟩ := mem_encD.1 hx; exact ⟨(h v hv).1.loose, (h v hv).2.loose⟩
theorem knowsD_legible : (∀ x ∈ encD xs, Whole x.1 ∧ Whole x.2) ∧ (∀ x ∈ encD xs, Nameable x.1 ∧ Nameable x.2) ↔ LegibleD xs := by
  rw [legibleD_iff]
  constructor
  · rintro ⟨a, b⟩ v hv
    have hx := mem_encD.2 ⟨v, hv, rfl⟩
    exact ⟨(h v hv).1.legible.1 ⟨(a _ hx).1, (b _ hx).1⟩, (h v hv).2.legible.1 ⟨(a _ hx).2, (b _ hx).2⟩⟩
  · intro a
    refine ⟨fun x hx => ?_, fun x hx => ?_⟩ <;> obtain ⟨v, hv, rfl⟩ := mem_encD.1 hx
    · exact ⟨((h v hv).1.legible.2 (a v hv).1).1, ((h v hv).2.legible.2 (a v hv).2).1⟩
    · exact ⟨((h v hv).1.legible.2 (a v hv).1).2, ((h v hv).2.legible.2 (a v hv).2).2⟩
theorem knowsD_reads : (∀ x ∈ encD xs, Hashed E x.1 ∧ Any E x.2) ↔ AcceptedD E xs := by
  rw [acceptedD_iff]
  constructor
  · intro a v hv
    have := a _ (mem_encD.2 ⟨v, hv, rfl⟩)
    exact ⟨(h v hv).1.hashed.1 this.1, (h v hv).2.any.1 this.2⟩
  · intro a x hx
    obtain ⟨v, hv, rfl⟩ := mem_encD.1 hx
    exact ⟨(h v hv).1.hashed.2 (a v hv).1, (h v hv).2.any.2 (a v hv).2⟩
end

mutual
theorem knows : ∀ v : Val, Supported v → Knows E v
  | .none, _ => by
      have := any_of_ok (E := E) (a := enc .none) rfl rfl
      exact ⟨text_plain rfl rfl, trivial, iff_of_true ⟨trivial, trivial⟩ trivial, iff_of_true this.1 trivial, iff_of_true this.2 trivial⟩
  | .bool b, _ => by
      have := any_of_ok (E := E) (a := enc (.bool b)) rfl rfl
      exact ⟨by cases b <;> exact text_plain rfl rfl, trivial, iff_of_true ⟨trivial, trivial⟩ trivial, iff_of_true this.1 trivial, iff_of_true this.2 trivial⟩
  | .int i, _ => by
      have := any_of_ok (E := E) (a := enc (.int i)) (v := .int i) (by simp only [enc, sem, numberOf, pyInt_intStr]) rfl
      refine ⟨?_, ?_, iff_of_true ⟨trivial, trivial⟩ trivial, iff_of_true this.1 trivial, iff_of_true this.2 trivial⟩
      · have := text_plain (v := .int i) rfl (infix_nospace (numShape_nospace (numShape_intStr i)))
        simpa [TextOf, Whatami.text, toks, enc, pyStr] using this
      · simp only [enc, Loose]; exact numShape_intStr i
  | .float t, h => by
      simp only [Supported] at h
      have := any_of_ok (E := E) (a := enc (.float t)) (v := .float (E.floatOf t)) (by simp only [enc, sem, numberOf, pyInt_float h]) rfl
      refine ⟨?_, ?_, iff_of_true ⟨trivial, trivial⟩ trivial, iff_of_true this.1 trivial, iff_of_true this.2 trivial⟩
      · have := text_plain (v := .float t) rfl (infix_nospace (numShape_nospace h.1))
        simpa [TextOf, Whatami.text, toks, enc, pyStr] using this
      · simp only [enc, Loose]; exact h.1
  | .str s, _ => by
      have := any_of_ok (E := E) (a := enc (.str s)) rfl rfl
      refine ⟨by simp [TextOf, buildD_str, Whatami.text, toks, enc], ?_, ?_, iff_of_true this.1 trivial, iff_of_true this.2 trivial⟩
      · simp only [enc, Loose]; exact escaped_strBody s
      · simp only [enc, Whole, Nameable, and_true, Legible]; exact units_strBody s
  | .cls f, h => by
      simp only [Supported] at h
      refine ⟨?_, by simpa only [enc, Loose] using h, iff_of_true ⟨trivial, trivial⟩ trivial, ?_, ?_⟩
      · have := text_plain (v := .cls f) rfl (class_infix h)
        simpa [TextOf, Whatami.text, toks, enc, pyStr] using this
      · simp only [Accepted, Any, ReadsTo, enc, sem, and_true]; exact clsVal_reads
      · simp only [KeyLike, Hashed, ReadsTo, enc, sem]; exact clsVal_hash
  | .tuple xs, h => by
      simp only [Supported] at h
      have ih := knowsL xs h
      refine ⟨?_, ?_, ?_, ?_, ?_⟩
      · simp only [TextOf, buildD_tuple, strings_text (fun x hx => (ih x hx).text), enc, Whatami.text, toks, bracket_text, toksL_flatten]
        rfl
      · simp only [enc, Loose]; exact looseL_iff.2 (knowsL_loose ih)
      · simp only [enc, Whole, Nameable, Legible, wholeL_iff, nameableL_iff]; exact knowsL_legible ih
      · simp only [Accepted, Any, ReadsTo, enc, sem]; exact reads_list.trans (knowsL_any ih)
      · simp only [KeyLike, Hashed, ReadsTo, enc, sem]; exact reads_tuple.trans (knowsL_hashed ih)
  | .list xs, h => by
      simp only [Supported] at h
      have ih := knowsL xs h
      refine ⟨?_, ?_, ?_, ?_, ?_⟩
      · simp only [TextOf, buildD_list, strings_text (fun x hx => (ih x hx).text), enc, Whatami.text, toks, bracket_text, toksL_flatten]
        rfl
      · simp only [enc, Loose]; exact looseL_iff.2 (knowsL_loose ih)
      · simp only [enc, Whole, Nameable, Legible, wholeL_iff, nameableL_iff]; exact knowsL_legible ih
      · simp only [Accepted, Any, ReadsTo, enc, sem]; exact reads_list.trans (knowsL_any ih)
      · simp only [KeyLike, Hashed, ReadsTo, enc, sem, iff_false]
        rintro ⟨v, hv, hh⟩
        obtain ⟨l, -, rfl⟩ := except_map_ok hv
        cases hh
  | .set xs, h => by
      simp only [Supported] at h
      have ih := knowsL xs h
      have hr := reads_set (E := E) (xs := sortBy textLe (encL xs)) (P := fun v => hashable v = true) (fun l e => by cases e)
      refine ⟨?_, ?_, ?_, ?_, ?_⟩
      · have hs : sortBy strLe ((encL xs).map Whatami.text) = (sortBy textLe (encL xs)).map Whatami.text := sortBy_map (fun _ _ => rfl) _
        simp only [TextOf, buildD_set, strings_text (fun x hx => (ih x hx).text), enc, Except.map, setStr, hs, isEmpty_map_text, ret, Whatami.text, toks]
        cases (sortBy textLe (encL xs)).isEmpty with
        | true => rfl
        | false => simp only [Bool.false_eq_true, if_false, bracket_text, toksL_flatten]
      · simp only [enc, Loose, looseL_iff, mem_sortBy]; exact knowsL_loose ih
      · simp only [enc, Whole, Nameable, Legible, wholeL_iff, nameableL_iff, mem_sortBy]; exact knowsL_legible ih
      · simp only [Accepted, Any, ReadsTo, enc, sem, and_true]
        rw [hr.1]
        simp only [mem_sortBy]
        exact knowsL_hashed ih
      · simp only [KeyLike, Hashed, ReadsTo, enc, sem, iff_false]
        exact hr.2
  | .fset xs, h => by
      simp only [Supported] at h
      have ih := knowsL xs h
      have hr := reads_set (E := E) (xs := sortBy textLe (encL xs)) (P := fun v => hashable v = true) (fun l e => by cases e)
      refine ⟨?_, ?_, ?_, ?_, ?_⟩
      · have hs : sortBy strLe ((encL xs).map Whatami.text) = (sortBy textLe (encL xs)).map Whatami.text := sortBy_map (fun _ _ => rfl) _
        simp only [TextOf, buildD_fset, strings_text (fun x hx => (ih x hx).text), enc, Except.map, fsetStr, hs, isEmpty_map_text, ret, Whatami.text, toks]
        cases (sortBy textLe (encL xs)).isEmpty with
        | true => rfl
        | false => simp only [Bool.false_eq_true, if_false, bracket_text, toksL_flatten]
      · simp only [enc, Loose, looseL_iff, mem_sortBy]; exact knowsL_loose ih
      · simp only [enc, Whole, Nameable, Legible, wholeL_iff, nameableL_iff, mem_sortBy]; exact knowsL_legible ih
      · simp only [Accepted, Any, ReadsTo, enc, sem, and_true]
        rw [hr.1]
        simp only [mem_sortBy]
        exact knowsL_hashed ih
      · simp only [KeyLike, Hashed, ReadsTo, enc, sem, iff_false]
        exact hr.2
  | .dict kvs, h => by
      simp only [Supported] at h
      have ih := knowsD kvs h
      refine ⟨?_, ?_, ?_, ?_, ?_⟩
      · have hs : sortBy strLe ((encD kvs).map text2) = (sortBy textLe2 (encD kvs)).map text2 := sortBy_map (fun _ _ => rfl) _
        simp only [TextOf, buildD_dict, dictStr, dkvs_text (fun x hx => ⟨(ih x hx).1.text, (ih x hx).2.text⟩), enc, Except.map, hs, ret, Whatami.text, toks,
          bracket_text, toksD_flatten]
      · simp only [enc, Loose, looseD_iff, mem_sortBy]; exact knowsD_loose ih
      · simp only [enc, Whole, Nameable, Legible, wholeD_iff, nameableD_iff, mem_sortBy]; exact knowsD_legible ih
      · simp only [Accepted, Any, ReadsTo, enc, sem]
        rw [reads_dict]
        simp only [mem_sortBy]
        exact knowsD_reads ih
      · simp only [KeyLike, Hashed, ReadsTo, enc, sem, iff_false]
        rintro ⟨v, hv, hh⟩
        obtain ⟨l, -, hv⟩ := except_bind_ok hv
        obtain ⟨d, -, rfl⟩ := except_map_ok hv
        cases hh
  | .what n c nk o, h => by
      simp only [Supported] at h
      have ih := knowsA c h.2.2
      refine ⟨?_, ?_, ?_, ?_, ?_⟩
      · have hw := what_text (n := n) (o := o) fun k v hm hk => (ih k v hm hk).2.text
        simp only [TextOf, buildD_what]
        simp only [idD] at hw
        rw [hw]
        rfl
      · simp only [enc]
        rw [enc_items ⟨n, c, nk, o⟩]
        simp only [Loose]
        exact ⟨h.1, h.2.1, items_loose (w := ⟨n, c, nk, o⟩) ih⟩
      · simp only [enc]
        rw [enc_items ⟨n, c, nk, o⟩]
        simp only [Whole, Nameable, Legible, legibleA_iff]
        rw [← items_legible (w := ⟨n, c, nk, o⟩) ih]
        exact ⟨fun ⟨a, b, c⟩ => ⟨b, a, c⟩, fun ⟨b, a, c⟩ => ⟨a, b, c⟩⟩
      · simp only [Accepted, Any, ReadsTo, enc, and_true]
        rw [enc_items ⟨n, c, nk, o⟩]
        simp only [sem]
        exact reads_items (w := ⟨n, c, nk, o⟩) fun k v hm hk => (ih k v hm hk).2.any
      · simp only [KeyLike, enc, iff_false]
        exact call_unhashed
  | .sub _ _ _ _, h => by simp only [Supported] at h
  | .odict _ _ _, h => by simp only [Supported] at h
  | .ddict _ _ _, h => by simp only [Supported] at h
  | .obj _ _ _ _ _ _ _ _, h => by simp only [Supported] at h
  | .duck _ _ _ _, h => by simp only [Supported] at h
  | .numtype _, h => by simp only [Supported] at h
  | .wcls _, h => by simp only [Supported] at h
  | .func _ _ _, h => by simp only [Supported] at h
  | .part _ _ _ _, h => by simp only [Supported] at h
  | .builtin _, h => by simp only [Supported] at h
  | .property, h => by simp only [Supported] at h
  | .array _ _, h => by simp only [Supported] at h
  | .rng _ _, h => by simp only [Supported] at h
termination_by structural v => v
theorem knowsL : ∀ xs : List Val, SupportedL xs → ∀ x ∈ xs, Knows E x
  | [], _, x, hx => by cases hx
  | y :: ys, h, x, hx => by
      simp only [SupportedL] at h
      have h1 := knows y h.1
      have h2 := knowsL ys h.2
      rcases List.mem_cons.1 hx with e | hx
      · rw [e]; exact h1
      · exact h2 x hx
termination_by structural xs => xs
theorem knowsD : ∀ xs : List (Val × Val), SupportedD xs → ∀ x ∈ xs, Knows E x.1 ∧ Knows E x.2
  | [], _, x, hx => by cases hx
  | (k, v) :: ys, h, x, hx => by
      simp only [SupportedD] at h
      have h0 := knows k h.1
      have h1 := knows v h.2.1
      have h2 := knowsD ys h.2.2
      rcases List.mem_cons.1 hx with e | hx
      · rw [e]; exact ⟨h0, h1⟩
      · exact h2 x hx
termination_by structural xs => xs
theorem knowsA {nk : List Str} : ∀ xs : List (Str × Val), SupportedA nk xs → ∀ k v, (k, v) ∈ xs → k ∉ nk → Ident k ∧ Knows E v
  | [], _, k, v, hx => by cases hx
  | (k', v') :: ys, h, k, v, hx => by
      simp only [SupportedA] at h
      have h1 := fun hk => knows v' (h.1 hk).2
      have h2 := knowsA ys h.2
      intro hk
      rcases List.mem_cons.1 hx with e | hx
      · cases e; exact ⟨(h.1 hk).1, h1 hk⟩
      · exact h2 k v hx hk
termination_by structural xs => xs
end

/-! ### Errors -/

/-- Not an error of the parser. -/
abbrev Semantic (r : R α) : Prop := r ≠ .error .noMatch

theorem semantic_bind {r : R α} {f : α → R β} (h1 : Semantic r) (h2 : ∀ x, Semantic (f x)) : Semantic (r.bind f) := by
  cases r with
  | error e => exact fun h => h1 (by cases h; rfl)
  | ok v => exact h2 v
theorem semantic_map {r : R α} {f : α → β} (h : Semantic r) : Semantic (r.map f) := by
  cases r with
  | error e => exact fun h' => h (by cases h'; rfl)
  | ok v => exact fun h => by cases h

section
variable (hE : ∀ m n, E.imp m n ≠ .error .noMatch)
include hE
mutual
theorem sem_semantic : ∀ a : Ast, Semantic (sem E a)
  | .none => by simp [sem]
  | .bool _ => by simp [sem]
  | .num _ => by simp [sem]
  | .str _ => by simp [sem]
  | .cls b => by
      simp only [sem, clsVal]
      have := hE (rpartition b '.').1 (rpartition b '.').2
      split
      · intro h; cases h
      · intro h; cases h
      · intro h; cases h
      · intro h; cases h
      · next e h1 h2 h3 => intro h; cases h; exact this h3
  | .tuple xs => by simp only [sem]; exact semantic_map (semL_semantic xs)
  | .list xs => by simp only [sem]; exact semantic_map (semL_semantic xs)
  | .set xs => by simp only [sem]; exact semantic_bind (semL_semantic xs) fun l => semantic_map fun h => by cases setFrom_error h
  | .fset xs => by simp only [sem]; exact semantic_bind (semL_semantic xs) fun l => semantic_map fun h => by cases setFrom_error h
  | .dict xs => by simp only [sem]; exact semantic_bind (semD_semantic xs) fun l => semantic_map fun h => by cases dictFrom_error h
  | .what o n kvs => by
      simp only [sem]
      refine semantic_bind (semA_semantic kvs) fun l => ?_
      split <;> intro h <;> cases h
termination_by structural a => a
theorem semL_semantic : ∀ xs : List Ast, Semantic (semL E xs)
  | [] => by simp [semL]
  | x :: xs => by
      simp only [semL]
      have h1 := sem_semantic x
      have h2 := semL_semantic xs
      exact semantic_bind h1 fun _ => semantic_map h2
termination_by structural xs => xs
theorem semD_semantic : ∀ xs : List (Ast × Ast), Semantic (semD E xs)
  | [] => by simp [semD]
  | (k, v) :: xs => by
      simp only [semD]
      have h0 := sem_semantic k
      have h1 := sem_semantic v
      have h2 := semD_semantic xs
      exact semantic_bind h0 fun _ => semantic_bind h1 fun _ => semantic_map h2
termination_by structural xs => xs
theorem semA_semantic : ∀ xs : List (Str × Ast), Semantic (semA E xs)
  | [] => by simp [semA]
  | (k, v) :: xs => by
      simp only [semA]
      have h1 := sem_semantic v
      have h2 := semA_semantic xs
      exact semantic_bind h1 fun _ => semantic_map h2
termination_by structural xs => xs
end

theorem semTop_semantic (o : Option Str) (n : Str) (kvs : List (Str × Ast)) : Semantic (semTop E o n kvs) := by
  simp only [semTop]
  refine semantic_bind (semA_semantic hE kvs) fun l => ?_
  split <;> intro h <;> cases h
end

/-! ### C13 -/

theorem supported_items {w : What} (h : SupportedWhat w) : (∀ x, w.out = some x → Ident x) ∧ Ident w.name ∧
    (∀ k v, (k, v) ∈ w.conf → k ∉ w.nonids → Ident k ∧ Knows E v) ∧ idD w = .ok (text (.what w.out w.name (encA (idItems w false)))) := by
  obtain ⟨n, c, nk, o⟩ := w
  simp only [SupportedWhat, What.toVal, Supported] at h
  refine ⟨h.1, h.2.1, knowsA c h.2.2, ?_⟩
  rw [what_text fun k v hm hk => (knowsA (E := E) c h.2.2 k v hm hk).2.text]
  simp only [enc]
  rw [enc_items ⟨n, c, nk, o⟩]

/-- C13, exactly, for everything it ranges over: a supported configuration has an id, and this is accepted if and only if its strings and nested names
are legible, its classes can be looked up, what is in its sets and the keys of its dicts is hashable when read, and no What in it has an out_name but no
parameters that show. -/
theorem c13_full {w : What} (h : SupportedWhat w) : ∃ s, idD w = .ok s ∧ ((∃ w', parseWhatid E s = .ok w') ↔ LegibleWhat w ∧ AcceptedWhat E w) := by
  obtain ⟨ho, hn, hk, ht⟩ := supported_items (E := E) h
  refine ⟨_, ht, ?_⟩
  have hl := items_legible hk
  rcases parse_loose (E := E) ho hn (items_loose hk) with ⟨h1, h2⟩ | ⟨h1, h2, h3, h4⟩
  · rw [h2]
    exact ⟨fun a => (by obtain ⟨w', e⟩ := a; cases e), fun a => absurd (hl.2 a.1) h1⟩
  · have hL : LegibleWhat w := hl.1 ⟨h1, h2⟩
    rw [h3, h4]
    refine Iff.trans ?_ (and_iff_right hL).symm
    have := reads_items (E := E) (w := w) (f := fun l => Val.what w.name (dictOf l) [] w.out) fun k v hm hk' => (hk k v hm hk').2.any
    have e : Any E (.what w.out w.name (encA (idItems w false))) ↔ AcceptedWhat E w := by
      simp only [Any, ReadsTo, sem, and_true, AcceptedWhat, What.toVal, Accepted]
      exact this
    rw [← e]
    exact reads_call.symm

/-- C13, the errors: the id is a syntax error (if imports do not raise one) exactly if some string or nested name is not legible. -/
theorem c13_syntax {w : What} (hE : ∀ m n, E.imp m n ≠ .error .noMatch) (h : SupportedWhat w) :
    ∃ s, idD w = .ok s ∧ (parseWhatid E s = .error .noMatch ↔ ¬ LegibleWhat w) := by
  obtain ⟨ho, hn, hk, ht⟩ := supported_items (E := E) h
  refine ⟨_, ht, ?_⟩
  have hl := items_legible hk
  rcases parse_loose (E := E) ho hn (items_loose hk) with ⟨h1, h2⟩ | ⟨h1, h2, h3, -⟩
  · exact iff_of_true h2 fun a => h1 (hl.2 a)
  · rw [h3]
    exact iff_of_false (semTop_semantic hE _ _ _) fun a => a (hl.1 ⟨h1, h2⟩)

/-! Configurations of all kinds. -/

theorem exOne_supported {v : Val} (h : Supported v) : SupportedWhat (exOne v) := by
  simp only [SupportedWhat, exOne, What.toVal, Supported, SupportedA, and_true]
  exact ⟨fun x h => by (cases h), ident_of (by rfl), fun _ => ⟨ident_of (by rfl), h⟩⟩
theorem exOne_legible {v : Val} : LegibleWhat (exOne v) ↔ Legible v := by
  simp [LegibleWhat, exOne]

-- any string is supported; these are not legible: one backslash, two and a quote, the same in a nested What
example (s : Str) : SupportedWhat (exOne (.str s)) := exOne_supported trivial
example : ¬ Legible (.str c!"\\") := fun h => by
  simp only [Legible] at h
  obtain ⟨u, e⟩ := h.1 [] 0 rfl
  cases u <;> cases e
example : ¬ Legible (.list [.str c!"a", .what c!"g" [(c!"b", .str c!"x\\\\'y")] [] none]) := fun h => by
  simp only [Legible, LegibleL, LegibleA] at h
  obtain ⟨u, e⟩ := (h.2.1.2.1 (by simp)).2 c!"x" 0 c!"y" rfl
  cases u with
  | nil => cases e
  | cons _ u => cases u <;> cases e
example : idD (exOne (.str c!"\\")) = .ok c!"f(a='\\')" ∧ parseWhatid exEnv c!"f(a='\\')" = .error .noMatch := ⟨by rfl, by rfl⟩
-- neither are these names; at the top they are fine
example : ¬ Legible (.what c!"information" [] [] none) ∧ ¬ Legible (.what c!"g" [] [] (some c!"None1")) := by
  constructor <;> (intro h; simp only [Legible, LegibleA] at h; revert h; unfold NestedStart; decide)
example : idD (exOne (.what c!"information" [] [] none)) = .ok c!"f(a=information())" ∧
    parseWhatid exEnv c!"f(a=information())" = .error .noMatch := ⟨by rfl, by rfl⟩
example : LegibleWhat ⟨c!"information", [(c!"a", .int 1)], [], none⟩ := by simp [LegibleWhat, Legible]
-- quotes, escaped or not, and pairs of backslashes are legible, and so is whitespace in front
example : StrLegible c!" it's \\\\" := by
  rw [← units_strBody]
  show Units c!" it\\'s \\\\"
  repeat (first | exact .nil | refine .char (by decide) (by decide) ?_ | refine .esc (by decide) ?_)
-- a nested What that reads `set()` is accepted, as the empty set
example : LegibleWhat (exOne (.what c!"set" [] [] none)) ∧ AcceptedWhat exEnv (exOne (.what c!"set" [] [] none)) := by
  refine ⟨exOne_legible.2 ?_, exOne_accepted.2 ?_⟩
  · simp only [Legible, LegibleA, and_true]; unfold NestedStart; decide
  · simp [Accepted, AcceptedA]
-- a class in a function
example : ClassName c!"m.f.<locals>.C" := by unfold ClassName; decide

end Whatami
