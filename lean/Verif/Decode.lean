import Verif.Encode
import Verif.CongLemmas

/-
Printable values have well-formed syntax; the syntax tells the value up to hidden changes; reading the text of a
loadable value gives the value of its syntax.
Definitions here are vocabulary for statements and proofs: the code they are about is cited in the model modules.
-/
namespace Whatami

/-! ### Well-formed syntax -/

theorem noSetL_of {xs : List Ast} (h : ∀ x ∈ xs, NoSetCall x) : NoSetCallL xs := by
  induction xs with
  | nil => simp only [NoSetCallL]
  | cons x xs ih => simp only [NoSetCallL]; exact ⟨h x (by simp), ih fun y hy => h y (by simp [hy])⟩
theorem noSetD_of {xs : List (Ast × Ast)} (h : ∀ x ∈ xs, NoSetCall x.1 ∧ NoSetCall x.2) : NoSetCallD xs := by
  induction xs with
  | nil => simp only [NoSetCallD]
  | cons x xs ih =>
    obtain ⟨k, v⟩ := x
    simp only [NoSetCallD]
    exact ⟨(h (k, v) (by simp)).1, (h (k, v) (by simp)).2, ih fun y hy => h y (by simp [hy])⟩
theorem noSetA_of {xs : List (Str × Ast)} (h : ∀ x ∈ xs, NoSetCall x.2) : NoSetCallA xs := by
  induction xs with
  | nil => simp only [NoSetCallA]
  | cons x xs ih =>
    obtain ⟨k, v⟩ := x
    simp only [NoSetCallA]
    exact ⟨h (k, v) (by simp), ih fun y hy => h y (by simp [hy])⟩

/-- The syntax is well-formed and reads as itself. -/
def Good (a : Ast) : Prop := Wf a ∧ NoSetCall a

theorem goodL {xs : List Val} {ys : List Ast} (h : ∀ x ∈ xs, Good (enc x)) (hy : ∀ y ∈ ys, y ∈ encL xs) : WfL ys ∧ NoSetCallL ys := by
  have : ∀ y ∈ ys, Good y := by
    intro y hy'
    have := hy y hy'
    rw [encL_map, List.mem_map] at this
    obtain ⟨x, hx, rfl⟩ := this
    exact h x hx
  exact ⟨wfL_of fun y hy => (this y hy).1, noSetL_of fun y hy => (this y hy).2⟩

theorem items_mem {w : What} {k : Str} {v : Val} (h : (k, v) ∈ idItems w false) : (k, v) ∈ w.conf ∧ k ∉ w.nonids := by
  simpa only [idItems, List.mem_filter, mem_sortBy, Bool.false_or, Bool.not_eq_true',
      List.contains_eq_mem, decide_eq_false_iff_not] using h

theorem goodA {w : What} (hk : ∀ k ∈ w.conf.map Prod.fst, Ident k) (h : ∀ k v, (k, v) ∈ w.conf → k ∉ w.nonids → Good (enc v)) :
    WfA (encA (idItems w false)) ∧ NoSetCallA (encA (idItems w false)) := by
  have : ∀ x ∈ encA (idItems w false), Ident x.1 ∧ Good x.2 := by
    intro x hx
    rw [encA_map, List.mem_map] at hx
    obtain ⟨⟨k, v⟩, hm, rfl⟩ := hx
    obtain ⟨h1, h2⟩ := items_mem hm
    exact ⟨hk k (List.mem_map.2 ⟨_, h1, rfl⟩), h k v h1 h2⟩
  exact ⟨wfA_of fun x hx => ⟨(this x hx).1, (this x hx).2.1⟩, noSetA_of fun x hx => (this x hx).2.2⟩

mutual
theorem good_of {F : Frag} : ∀ v : Val, Printable F v → Good (enc v)
  | .none, _ => by simp [Good, enc, Wf, NoSetCall]
  | .bool b, _ => by simp [Good, enc, Wf, NoSetCall]
  | .int i, _ => by simp [Good, enc, Wf, NoSetCall, numShape_intStr]
  | .float t, h => by simp only [Printable] at h; simp [Good, enc, Wf, NoSetCall, h.1]
  | .str s, h => by simp [Good, enc, Wf, NoSetCall, (printable_str h).1]
  | .cls f, h => by simp only [Printable] at h; simp [Good, enc, Wf, NoSetCall, dotted_good h]
  | .tuple xs, h => by
      simp only [Printable] at h
      simp only [Good, enc, Wf, NoSetCall]
      exact goodL (good_ofL xs h) fun y hy => hy
  | .list xs, h => by
      simp only [Printable] at h
      simp only [Good, enc, Wf, NoSetCall]
      exact goodL (good_ofL xs h) fun y hy => hy
  | .set xs, h => by
      simp only [Printable] at h
      simp only [Good, enc, Wf, NoSetCall]
      exact goodL (good_ofL xs h) fun y hy => mem_sortBy.1 hy
  | .fset xs, h => by
      simp only [Printable] at h
      simp only [Good, enc, Wf, NoSetCall]
      exact goodL (good_ofL xs h.2) fun y hy => mem_sortBy.1 hy
  | .dict kvs, h => by
      simp only [Printable] at h
      simp only [Good, enc, Wf, NoSetCall]
      have hg := good_ofD kvs h
      have : ∀ y ∈ sortBy textLe2 (encD kvs), Good y.1 ∧ Good y.2 := by
        intro y hy
        have hy := mem_sortBy.1 hy
        rw [encD_map, List.mem_map] at hy
        obtain ⟨x, hx, e⟩ := hy
        rw [← e]
        exact hg x hx
      exact ⟨wfD_of fun y hy => ⟨(this y hy).1.1, (this y hy).2.1⟩, noSetD_of fun y hy => ⟨(this y hy).1.2, (this y hy).2.2⟩⟩
  | .what n c nk o, h => by
      simp only [Printable] at h
      have hg := good_ofA c h.2.2.2.2
      obtain ⟨h1, h2⟩ := goodA (w := ⟨n, c, nk, o⟩) h.1.2.2 hg
      simp only [Good, enc]
      rw [enc_items ⟨n, c, nk, o⟩]
      simp only [Wf, NoSetCall]
      refine ⟨⟨h.1.1, h.1.2.1, h.2.1.1, h1⟩, fun ho hk => h.2.1.2 ho ?_, h2⟩
      intro k hk'
      obtain ⟨⟨k', v⟩, hm, e⟩ := List.mem_map.1 hk'
      by_cases hn : k ∈ nk
      · exact hn
      · exfalso
        have hi : (k', v) ∈ idItems ⟨n, c, nk, o⟩ false := by
          simp only [idItems, List.mem_filter, mem_sortBy, Bool.false_or, Bool.not_eq_true',
            List.contains_eq_mem, decide_eq_false_iff_not]
          exact ⟨hm, by rw [show k' = k from e]; exact hn⟩
        have : (k', enc v) ∈ encA (idItems ⟨n, c, nk, o⟩ false) := by
          rw [encA_map]; exact List.mem_map.2 ⟨_, hi, rfl⟩
        rw [hk] at this
        cases this
  | .sub _ _ _ _, h => by simp only [Printable] at h
  | .odict _ _ _, h => by simp only [Printable] at h
  | .ddict _ _ _, h => by simp only [Printable] at h
  | .obj _ _ _ _ _ _ _ _, h => by simp only [Printable] at h
  | .duck _ _ _ _, h => by simp only [Printable] at h
  | .numtype _, h => by simp only [Printable] at h
  | .wcls _, h => by simp only [Printable] at h
  | .func _ _ _, h => by simp only [Printable] at h
  | .part _ _ _ _, h => by simp only [Printable] at h
  | .builtin _, h => by simp only [Printable] at h
  | .property, h => by simp only [Printable] at h
  | .array _ _, h => by simp only [Printable] at h
  | .rng _ _, h => by simp only [Printable] at h
termination_by structural v => v
theorem good_ofL {F : Frag} : ∀ xs : List Val, PrintableL F xs → ∀ x ∈ xs, Good (enc x)
  | [], _, x, hx => by cases hx
  | y :: ys, h, x, hx => by
      simp only [PrintableL] at h
      have h1 := good_of y h.1
      have h2 := good_ofL ys h.2
      rcases List.mem_cons.1 hx with e | hx
      · rw [e]; exact h1
      · exact h2 x hx
termination_by structural xs => xs
theorem good_ofD {F : Frag} : ∀ xs : List (Val × Val), PrintableD F xs → ∀ x ∈ xs, Good (enc x.1) ∧ Good (enc x.2)
  | [], _, x, hx => by cases hx
  | (k, v) :: ys, h, x, hx => by
      simp only [PrintableD] at h
      have h0 := good_of k h.1
      have h1 := good_of v h.2.1
      have h2 := good_ofD ys h.2.2
      rcases List.mem_cons.1 hx with e | hx
      · rw [e]; exact ⟨h0, h1⟩
      · exact h2 x hx
termination_by structural xs => xs
theorem good_ofA {F : Frag} {nk : List Str} : ∀ xs : List (Str × Val), PrintableA F nk xs → ∀ k v, (k, v) ∈ xs → k ∉ nk → Good (enc v)
  | [], _, k, v, hx => by cases hx
  | (k', v') :: ys, h, k, v, hx => by
      simp only [PrintableA] at h
      have h1 := fun hk => good_of v' (h.1 hk)
      have h2 := good_ofA ys h.2
      intro hk
      rcases List.mem_cons.1 hx with e | hx
      · cases e; exact h1 hk
      · exact h2 k v hx hk
termination_by structural xs => xs
end

/-! ### Syntax tells the value -/

/-- Hidden changes, and frozensets becoming sets unless they are kept. -/
def HiddenOr (F : Frag) (keep : Bool) (a b : Val) : Prop := Hidden F a b ∨ (keep = false ∧ F.fsets ∧ Thaw a b)

/-- Changing the elements one by one. -/
theorem cong_ctx {α : Type} {P : Val → Val → Prop} {R : α → α → Prop} (f : List α → Val)
    (hole : ∀ l a b r, R a b → Cong P (f (l ++ a :: r)) (f (l ++ b :: r))) {xs ys : List α} (h : All2 R xs ys) : Cong P (f xs) (f ys) := by
  have : ∀ l, Cong P (f (l ++ xs)) (f (l ++ ys)) := by
    induction h with
    | nil => intro l; exact .refl _
    | @cons a b xs ys hab _ ih =>
      intro l
      refine .trans (hole l a b xs hab) ?_
      have := ih (l ++ [b])
      simpa using this
  exact this []

theorem All2_map {α : Type} {R : α → α → Prop} (f : α → α) (l : List α) (h : ∀ a ∈ l, R a (f a)) : All2 R l (l.map f) := by
  induction l with
  | nil => exact .nil
  | cons a l ih => exact .cons (h a (by simp)) (ih fun b hb => h b (by simp [hb]))

theorem cong_mono {P Q : Val → Val → Prop} (h : ∀ a b, P a b → Q a b) {a b : Val} (hc : Cong P a b) : Cong Q a b := by
  induction hc with
  | base hp => exact .base (h _ _ hp)
  | refl a => exact .refl a
  | symm _ ih => exact .symm ih
  | trans _ _ ih1 ih2 => exact .trans ih1 ih2
  | tuple l r _ ih => exact .tuple l r ih
  | list l r _ ih => exact .list l r ih
  | set l r _ ih => exact .set l r ih
  | fset l r _ ih => exact .fset l r ih
  | sub k c at' l r _ ih => exact .sub k c at' l r ih
  | dictKey v l r _ ih => exact .dictKey v l r ih
  | dictVal k l r _ ih => exact .dictVal k l r ih
  | odictKey c at' v l r _ ih => exact .odictKey c at' v l r ih
  | odictVal c at' k l r _ ih => exact .odictVal c at' k l r ih
  | odictAttr c l r k kvs _ ih => exact .odictAttr c l r k kvs ih
  | ddictKey c at' v l r _ ih => exact .ddictKey c at' v l r ih
  | ddictVal c at' k l r _ ih => exact .ddictVal c at' k l r ih
  | ddictAttr c l r k kvs _ ih => exact .ddictAttr c l r k kvs ih
  | what n l r k nk o _ ih => exact .what n l r k nk o ih
  | duck n l r k nk o _ ih => exact .duck n l r k nk o ih
  | objClass c cl l r dd sd pd k wh s _ ih => exact .objClass c cl l r dd sd pd k wh s ih
  | objDict c cl cd l r sd pd k wh s _ ih => exact .objDict c cl cd l r sd pd k wh s ih
  | objSlot c cl cd dd l r pd k wh s _ ih => exact .objSlot c cl cd dd l r pd k wh s ih
  | objProp c cl cd dd sd l r k wh s _ ih => exact .objProp c cl cd dd sd l r k wh s ih
  | func n args l r _ ih => exact .func n args l r ih
  | partArg p f l r kws _ ih => exact .partArg p f l r kws ih
  | partKw p f args l r k _ ih => exact .partKw p f args l r k ih
  | rngTuple c _ ih => exact .rngTuple c ih
  | rngDict c _ ih => exact .rngDict c ih

theorem dec_num_int (b : Bool) (i : Int) : dec b (.num (intStr i)) = .int i := by simp only [dec, pyInt_intStr]
theorem dec_num_float (b : Bool) {t : Str} (h : FloatText t) : dec b (.num t) = .float t := by simp only [dec, pyInt_float h]

section
variable {F : Frag} {b : Bool}

theorem cong_elems {P : Val → Val → Prop} (f : List Val → Val) (hole : ∀ l a b r, Cong P a b → Cong P (f (l ++ a :: r)) (f (l ++ b :: r)))
    {xs : List Val} (h : ∀ x ∈ xs, Cong P x (dec b (enc x))) : Cong P (f xs) (f (decL b (encL xs))) := by
  have := cong_ctx (R := Cong P) f hole (All2_map (fun x => dec b (enc x)) xs h)
  rw [decL_map, encL_map, List.map_map]
  exact this

theorem cong_what {n : Str} {c : Conf} {nk : List Str} {o : Option Str} (hu : UniqueKeys c) (hn : nk = [] ∨ F.nonids)
    (h : ∀ k v, (k, v) ∈ c → k ∉ nk → Cong (HiddenOr F b) v (dec b (enc v))) :
    Cong (HiddenOr F b) (.what n c nk o) (.what n (decA b (encA (idItems ⟨n, c, nk, o⟩ false))) [] o) := by
  have hp := idItems_perm ⟨n, c, nk, o⟩ false
  have hu' : UniqueKeys (idItems ⟨n, c, nk, o⟩ false) := uniqueKeys_perm (uniqueKeys_filter hu _) hp.symm
  have step1 : Cong (HiddenOr F b) (.what n c nk o) (.what n (idItems ⟨n, c, nk, o⟩ false) [] o) := by
    rcases hn with rfl | hn
    · refine .base (.inl (.inl (.what _ _ _ hu ?_)))
      have hf : c.filter (fun kv => false || !([] : List Str).contains kv.1) = c := by simp
      rw [hf] at hp
      exact hp.symm
    · refine .base (.inl (.inr (.inr ⟨hn, .what _ _ _ _ hu hu' ?_⟩)))
      intro k v
      simp only [idItems, List.mem_filter, mem_sortBy, Bool.false_or, Bool.not_eq_true',
        List.contains_eq_mem, decide_eq_false_iff_not, List.not_mem_nil, not_false_iff, and_true]
  refine .trans step1 ?_
  have := cong_ctx (P := HiddenOr F b) (R := fun a a' : Str × Val => a.1 = a'.1 ∧ Cong (HiddenOr F b) a.2 a'.2)
    (fun c => .what n c [] o) (by
      rintro l ⟨k, v⟩ ⟨k', v'⟩ r ⟨e, hc⟩
      simp only at e hc
      subst e
      exact .what n l r k [] o hc)
    (All2_map (fun kv => (kv.1, dec b (enc kv.2))) (idItems ⟨n, c, nk, o⟩ false) (by
      rintro ⟨k, v⟩ hm
      obtain ⟨h1, h2⟩ := items_mem hm
      exact ⟨rfl, h k v h1 h2⟩))
  rw [decA_map, encA_map, List.map_map]
  exact this

mutual
theorem cong_dec : ∀ v : Val, Printable F v → Cong (HiddenOr F b) v (dec b (enc v))
  | .none, _ => .refl _
  | .bool _, _ => .refl _
  | .int i, _ => by simp only [enc]; rw [dec_num_int]; exact .refl _
  | .float t, h => by simp only [Printable] at h; simp only [enc]; rw [dec_num_float b h]; exact .refl _
  | .str s, h => by
      simp only [enc, dec]
      rcases (printable_str h).2 with e | ⟨hq, he⟩
      · rw [e]; exact .refl _
      · exact .base (.inl (.inr (.inl ⟨hq, .str he⟩)))
  | .cls f, _ => .refl _
  | .tuple xs, h => by
      simp only [Printable] at h
      simp only [enc, dec]
      exact cong_elems .tuple (fun l _ _ r h => .tuple l r h) (cong_decL xs h)
  | .list xs, h => by
      simp only [Printable] at h
      simp only [enc, dec]
      exact cong_elems .list (fun l _ _ r h => .list l r h) (cong_decL xs h)
  | .set xs, h => by
      simp only [Printable] at h
      simp only [enc, dec]
      refine .trans (cong_elems .set (fun l _ _ r h => .set l r h) (cong_decL xs h)) ?_
      refine .base (.inl (.inl (.set ?_)))
      rw [decL_map, decL_map]
      exact ((sortBy_perm _ _).map _).symm
  | .fset xs, h => by
      simp only [Printable] at h
      simp only [enc, dec]
      have h1 : Cong (HiddenOr F b) (.fset xs) (.fset (decL b (sortBy textLe (encL xs)))) := by
        refine .trans (cong_elems .fset (fun l _ _ r h => .fset l r h) (cong_decL xs h.2)) ?_
        refine .base (.inl (.inl (.fset ?_)))
        rw [decL_map, decL_map]
        exact ((sortBy_perm _ _).map _).symm
      cases hb : b with
      | true => rw [hb] at h1; exact h1
      | false =>
        rw [hb] at h1
        exact .trans h1 (.base (.inr ⟨rfl, h.1, .fset _⟩))
  | .dict kvs, h => by
      simp only [Printable] at h
      have hd := cong_decD kvs h
      simp only [enc, dec]
      have h1 : Cong (HiddenOr F b) (.dict kvs) (.dict (decD b (encD kvs))) := by
        rw [decD_map, encD_map, List.map_map]
        refine cong_ctx (R := fun a a' : Val × Val => Cong (HiddenOr F b) a.1 a'.1 ∧ Cong (HiddenOr F b) a.2 a'.2) .dict ?_
          (All2_map _ kvs hd)
        rintro l ⟨k, v⟩ ⟨k', v'⟩ r ⟨hk, hv⟩
        exact .trans (.dictKey v l r hk) (.dictVal k' l r hv)
      refine .trans h1 (.base (.inl (.inl (.dict ?_))))
      rw [decD_map, decD_map]
      exact ((sortBy_perm _ _).map _).symm
  | .what n c nk o, h => by
      simp only [Printable] at h
      have ha := cong_decA c h.2.2.2.2
      simp only [enc]
      rw [enc_items ⟨n, c, nk, o⟩]
      simp only [dec]
      exact cong_what h.2.2.1 h.2.2.2.1 ha
  | .sub _ _ _ _, h => by simp only [Printable] at h
  | .odict _ _ _, h => by simp only [Printable] at h
  | .ddict _ _ _, h => by simp only [Printable] at h
  | .obj _ _ _ _ _ _ _ _, h => by simp only [Printable] at h
  | .duck _ _ _ _, h => by simp only [Printable] at h
  | .numtype _, h => by simp only [Printable] at h
  | .wcls _, h => by simp only [Printable] at h
  | .func _ _ _, h => by simp only [Printable] at h
  | .part _ _ _ _, h => by simp only [Printable] at h
  | .builtin _, h => by simp only [Printable] at h
  | .property, h => by simp only [Printable] at h
  | .array _ _, h => by simp only [Printable] at h
  | .rng _ _, h => by simp only [Printable] at h
termination_by structural v => v
theorem cong_decL : ∀ xs : List Val, PrintableL F xs → ∀ x ∈ xs, Cong (HiddenOr F b) x (dec b (enc x))
  | [], _, x, hx => by cases hx
  | y :: ys, h, x, hx => by
      simp only [PrintableL] at h
      have h1 := cong_dec y h.1
      have h2 := cong_decL ys h.2
      rcases List.mem_cons.1 hx with e | hx
      · rw [e]; exact h1
      · exact h2 x hx
termination_by structural xs => xs
theorem cong_decD : ∀ xs : List (Val × Val), PrintableD F xs → ∀ x ∈ xs,
    Cong (HiddenOr F b) x.1 (dec b (enc x.1)) ∧ Cong (HiddenOr F b) x.2 (dec b (enc x.2))
  | [], _, x, hx => by cases hx
  | (k, v) :: ys, h, x, hx => by
      simp only [PrintableD] at h
      have h0 := cong_dec k h.1
      have h1 := cong_dec v h.2.1
      have h2 := cong_decD ys h.2.2
      rcases List.mem_cons.1 hx with e | hx
      · rw [e]; exact ⟨h0, h1⟩
      · exact h2 x hx
termination_by structural xs => xs
theorem cong_decA {nk : List Str} : ∀ xs : List (Str × Val), PrintableA F nk xs → ∀ k v, (k, v) ∈ xs → k ∉ nk →
    Cong (HiddenOr F b) v (dec b (enc v))
  | [], _, k, v, hx => by cases hx
  | (k', v') :: ys, h, k, v, hx => by
      simp only [PrintableA] at h
      have h1 := fun hk => cong_dec v' (h.1 hk)
      have h2 := cong_decA ys h.2
      intro hk
      rcases List.mem_cons.1 hx with e | hx
      · cases e; exact h1 hk
      · exact h2 k v hx hk
termination_by structural xs => xs
end
end

/-! ### Reading back -/

section
variable {F : Frag} {E : Env}

/-- Changes in quotes only. -/
abbrev QuotesOf (F : Frag) (a b : Val) : Prop := F.quotes ∧ QuoteChange a b

mutual
theorem flat_dec {b : Bool} : ∀ v : Val, Flat v → Printable F v → Cong (QuotesOf F) v (dec b (enc v)) ∧ hashable (dec b (enc v)) = true
  | .none, _, _ => ⟨.refl _, rfl⟩
  | .bool _, _, _ => ⟨.refl _, rfl⟩
  | .int i, _, _ => by simp only [enc]; rw [dec_num_int]; exact ⟨.refl _, rfl⟩
  | .float t, _, h => by simp only [Printable] at h; simp only [enc]; rw [dec_num_float b h]; exact ⟨.refl _, rfl⟩
  | .str s, _, h => by
      simp only [enc, dec]
      refine ⟨?_, rfl⟩
      rcases (printable_str h).2 with e | ⟨hq, he⟩
      · rw [e]; exact .refl _
      · exact .base ⟨hq, .str he⟩
  | .cls f, _, _ => ⟨.refl _, rfl⟩
  | .tuple xs, hf, h => by
      simp only [Printable] at h
      simp only [Flat] at hf
      simp only [enc, dec, hashable]
      obtain ⟨h1, h2⟩ := flat_decL xs hf h
      exact ⟨cong_elems .tuple (fun l _ _ r h => .tuple l r h) h1, h2⟩
  | .list _, hf, _ => by simp only [Flat] at hf
  | .set _, hf, _ => by simp only [Flat] at hf
  | .fset _, hf, _ => by simp only [Flat] at hf
  | .dict _, hf, _ => by simp only [Flat] at hf
  | .what _ _ _ _, hf, _ => by simp only [Flat] at hf
  | .sub _ _ _ _, hf, _ => by simp only [Flat] at hf
  | .odict _ _ _, hf, _ => by simp only [Flat] at hf
  | .ddict _ _ _, hf, _ => by simp only [Flat] at hf
  | .obj _ _ _ _ _ _ _ _, hf, _ => by simp only [Flat] at hf
  | .duck _ _ _ _, hf, _ => by simp only [Flat] at hf
  | .numtype _, hf, _ => by simp only [Flat] at hf
  | .wcls _, hf, _ => by simp only [Flat] at hf
  | .func _ _ _, hf, _ => by simp only [Flat] at hf
  | .part _ _ _ _, hf, _ => by simp only [Flat] at hf
  | .builtin _, hf, _ => by simp only [Flat] at hf
  | .property, hf, _ => by simp only [Flat] at hf
  | .array _ _, hf, _ => by simp only [Flat] at hf
  | .rng _ _, hf, _ => by simp only [Flat] at hf
termination_by structural v => v
theorem flat_decL {b : Bool} : ∀ xs : List Val, FlatL xs → PrintableL F xs →
    (∀ x ∈ xs, Cong (QuotesOf F) x (dec b (enc x))) ∧ hashableL (decL b (encL xs)) = true
  | [], _, _ => ⟨fun x hx => by (cases hx), rfl⟩
  | y :: ys, hf, h => by
      simp only [PrintableL] at h
      simp only [FlatL] at hf
      have h1 := flat_dec (b := b) y hf.1 h.1
      have h2 := flat_decL (b := b) ys hf.2 h.2
      refine ⟨?_, by simp only [encL, decL, hashableL, h1.2, h2.2, Bool.and_self]⟩
      intro x hx
      rcases List.mem_cons.1 hx with e | hx
      · rw [e]; exact h1.1
      · exact h2.1 x hx
termination_by structural xs => xs
end

/-- `set` of different hashable values keeps them. -/
theorem setFrom_apart {fi : Str → Option Int} {l acc : List Val} (hh : ∀ x ∈ l, hashable x = true)
    (hp : (acc ++ l).Pairwise fun x y => pyEq fi false x y = false) : setFrom fi acc l = .ok (acc ++ l) := by
  induction l generalizing acc with
  | nil => simp [setFrom]
  | cons v l ih =>
    simp only [setFrom, hh v (by simp), if_true]
    have hn : acc.any (fun x => pyEq fi false x v) = false := by
      rw [List.any_eq_false]
      intro x hx
      have := (List.pairwise_append.1 hp).2.2 x hx v (by simp)
      simp [this]
    rw [hn]
    have := ih (acc := acc ++ [v]) (fun x hx => hh x (by simp [hx])) (by simpa using hp)
    simpa using this

theorem vput_new {fi : Str → Option Int} {acc : List (Val × Val)} {k v : Val} (h : ∀ x ∈ acc, pyEq fi false x.1 k = false) :
    vput fi acc k v = acc ++ [(k, v)] := by
  induction acc with
  | nil => rfl
  | cons y acc ih =>
    obtain ⟨k', v'⟩ := y
    have := h (k', v') (by simp)
    simp only at this
    simp only [vput, this, List.cons_append, ih fun x hx => h x (by simp [hx])]
    simp

/-- `dict` of items with different hashable keys keeps them. -/
theorem dictFrom_apart {fi : Str → Option Int} {l acc : List (Val × Val)} (hh : ∀ x ∈ l, hashable x.1 = true)
    (hp : (acc ++ l).Pairwise fun x y => pyEq fi false x.1 y.1 = false) : dictFrom fi acc l = .ok (acc ++ l) := by
  induction l generalizing acc with
  | nil => simp [dictFrom]
  | cons p l ih =>
    obtain ⟨k, v⟩ := p
    have hk := hh (k, v) (by simp)
    simp only at hk
    simp only [dictFrom, hk, if_true]
    rw [vput_new fun x hx => (List.pairwise_append.1 hp).2.2 x hx (k, v) (by simp)]
    have := ih (acc := acc ++ [(k, v)]) (fun x hx => hh x (by simp [hx])) (by simpa using hp)
    simpa using this

theorem dset_new {α : Type} {d : List (Str × α)} {k : Str} {v : α} (h : k ∉ d.map Prod.fst) : dset d k v = d ++ [(k, v)] := by
  induction d with
  | nil => rfl
  | cons y d ih =>
    obtain ⟨k', v'⟩ := y
    simp only [List.map_cons, List.mem_cons, not_or] at h
    simp only [dset, Ne.symm h.1, if_false, ih h.2, List.cons_append]

theorem dupdate_new {α : Type} {d e : List (Str × α)} (h : UniqueKeys (d ++ e)) : dupdate d e = d ++ e := by
  induction e generalizing d with
  | nil => simp [dupdate]
  | cons y e ih =>
    obtain ⟨k, v⟩ := y
    have hk : k ∉ d.map Prod.fst := by
      simp only [UniqueKeys, List.map_append, List.map_cons] at h
      intro hm
      exact (List.nodup_append.1 h).2.2 k hm k (by simp) rfl
    have := ih (d := d ++ [(k, v)]) (by simpa using h)
    simp only [dupdate, List.foldl_cons] at this ⊢
    rw [dset_new hk]
    simpa using this

theorem dictOf_unique {α : Type} {c : List (Str × α)} (h : UniqueKeys c) : dictOf c = c := by
  have := dupdate_new (d := []) (e := c) (by simpa using h)
  simpa [dictOf] using this

theorem pairwise_sort {xs : List Val} (hf : ∀ x ∈ xs, Flat x) (hpr : PrintableL F xs) (ha : xs.Pairwise (Apart F E.fi)) :
    (decL false (sortBy textLe (encL xs))).Pairwise (fun x y => pyEq E.fi false x y = false) ∧
    ∀ x ∈ decL false (sortBy textLe (encL xs)), hashable x = true := by
  have hperm : (decL false (sortBy textLe (encL xs))).Perm (xs.map fun x => dec false (enc x)) := by
    have := (sortBy_perm textLe (encL xs)).map (dec false)
    rw [decL_map]
    rw [encL_map, List.map_map] at this
    rw [encL_map]
    exact this
  have hmem := printableL_mem hpr
  constructor
  · have h1 : (xs.map fun x => dec false (enc x)).Pairwise (fun x y => pyEq E.fi false x y = false ∧ pyEq E.fi false y x = false) := by
      rw [List.pairwise_map]
      refine List.Pairwise.imp_of_mem ?_ ha
      intro x y hx hy h
      exact h _ _ (flat_dec x (hf x hx) (hmem x hx)).1 (flat_dec y (hf y hy) (hmem y hy)).1
    have h2 := hperm.symm.pairwise h1 (fun h => ⟨h.2, h.1⟩)
    exact h2.imp fun h => h.1
  · intro x hx
    obtain ⟨y, hy, rfl⟩ := List.mem_map.1 (hperm.mem_iff.1 hx)
    exact (flat_dec y (hf y hy) (hmem y hy)).2

/-- Reading the text gives the value of the syntax. -/
def ReadsBack (E : Env) (a : Ast) : Prop := sem E a = .ok (dec false a)

theorem semL_back {xs : List Ast} (h : ∀ x ∈ xs, ReadsBack E x) : semL E xs = .ok (decL false xs) := by
  induction xs with
  | nil => rfl
  | cons x xs ih =>
    simp only [semL, decL]
    rw [h x (by simp), ih fun y hy => h y (by simp [hy])]
    rfl
theorem semD_back {xs : List (Ast × Ast)} (h : ∀ x ∈ xs, ReadsBack E x.1 ∧ ReadsBack E x.2) : semD E xs = .ok (decD false xs) := by
  induction xs with
  | nil => rfl
  | cons x xs ih =>
    obtain ⟨k, v⟩ := x
    simp only [semD, decD]
    rw [show sem E k = _ from (h (k, v) (by simp)).1, show sem E v = _ from (h (k, v) (by simp)).2, ih fun y hy => h y (by simp [hy])]
    rfl
theorem semA_back {xs : List (Str × Ast)} (h : ∀ x ∈ xs, ReadsBack E x.2) : semA E xs = .ok (decA false xs) := by
  induction xs with
  | nil => rfl
  | cons x xs ih =>
    obtain ⟨k, v⟩ := x
    simp only [semA, decA]
    rw [show sem E v = _ from h (k, v) (by simp), ih fun y hy => h y (by simp [hy])]
    rfl

theorem backL {xs : List Val} {ys : List Ast} (h : ∀ x ∈ xs, ReadsBack E (enc x)) (hy : ∀ y ∈ ys, y ∈ encL xs) : ∀ y ∈ ys, ReadsBack E y := by
  intro y hy'
  have := hy y hy'
  rw [encL_map, List.mem_map] at this
  obtain ⟨x, hx, rfl⟩ := this
  exact h x hx

theorem back_items {w : What} (hu : UniqueKeys w.conf) (h : ∀ k v, (k, v) ∈ w.conf → k ∉ w.nonids → ReadsBack E (enc v)) :
    semA E (encA (idItems w false)) = .ok (decA false (encA (idItems w false))) ∧
    dictOf (decA false (encA (idItems w false))) = decA false (encA (idItems w false)) := by
  constructor
  · refine semA_back fun x hx => ?_
    rw [encA_map, List.mem_map] at hx
    obtain ⟨⟨k, v⟩, hm, rfl⟩ := hx
    obtain ⟨h1, h2⟩ := items_mem hm
    exact h k v h1 h2
  · apply dictOf_unique
    have : (decA false (encA (idItems w false))).map Prod.fst = (idItems w false).map Prod.fst := by
      rw [decA_map, encA_map, List.map_map, List.map_map]
      rfl
    rw [UniqueKeys, this]
    exact uniqueKeys_perm (uniqueKeys_filter hu _) (idItems_perm w false).symm

theorem items_nonempty {w : What} (h : ∃ k ∈ w.conf.map Prod.fst, k ∉ w.nonids) : (encA (idItems w false)).isEmpty = false := by
  obtain ⟨k, hk, hn⟩ := h
  obtain ⟨⟨k', v⟩, hm, e⟩ := List.mem_map.1 hk
  have hi : (k', v) ∈ idItems w false := by
    simp only [idItems, List.mem_filter, mem_sortBy, Bool.false_or, Bool.not_eq_true',
      List.contains_eq_mem, decide_eq_false_iff_not]
    exact ⟨hm, by rw [show k' = k from e]; exact hn⟩
  have : (k', enc v) ∈ encA (idItems w false) := by
    rw [encA_map]; exact List.mem_map.2 ⟨_, hi, rfl⟩
  cases he : encA (idItems w false) with
  | nil => rw [he] at this; cases this
  | cons _ _ => rfl

theorem out_cond {w : What} (h : w.out ≠ none → ∃ k ∈ w.conf.map Prod.fst, k ∉ w.nonids) :
    (w.out.isSome && (encA (idItems w false)).isEmpty) = false := by
  cases ho : w.out with
  | none => rfl
  | some x => rw [items_nonempty (h (by simp [ho]))]; rfl

mutual
theorem reads_back : ∀ v : Val, Printable F v → Loadable F E v → ReadsBack E (enc v)
  | .none, _, _ => rfl
  | .bool _, _, _ => rfl
  | .int i, _, _ => by simp only [ReadsBack, enc, sem, numberOf, dec, pyInt_intStr]
  | .float t, h, hl => by
      simp only [Printable] at h
      simp only [Loadable] at hl
      simp only [ReadsBack, enc, sem, numberOf, dec, pyInt_float h, hl]
  | .str s, _, _ => rfl
  | .cls f, _, hl => by
      simp only [Loadable] at hl
      simp only [ReadsBack, enc, sem, clsVal, hl, dec]
  | .tuple xs, h, hl => by
      simp only [Printable] at h
      simp only [Loadable] at hl
      have := reads_backL xs h hl
      simp only [ReadsBack, enc, sem, dec]
      rw [semL_back (backL this fun y hy => hy)]
      rfl
  | .list xs, h, hl => by
      simp only [Printable] at h
      simp only [Loadable] at hl
      have := reads_backL xs h hl
      simp only [ReadsBack, enc, sem, dec]
      rw [semL_back (backL this fun y hy => hy)]
      rfl
  | .set xs, h, hl => by
      simp only [Printable] at h
      simp only [Loadable] at hl
      have := reads_backL xs h hl.1
      obtain ⟨h1, h2⟩ := pairwise_sort hl.2.1 h hl.2.2
      have hs := setFrom_apart (acc := []) h2 (by simpa using h1)
      simp only [ReadsBack, enc, sem, dec]
      rw [semL_back (backL this fun y hy => mem_sortBy.1 hy)]
      simp only [Except.bind, hs, List.nil_append]
      rfl
  | .fset xs, h, hl => by
      simp only [Printable] at h
      simp only [Loadable] at hl
      have := reads_backL xs h.2 hl.1
      obtain ⟨h1, h2⟩ := pairwise_sort hl.2.1 h.2 hl.2.2
      have hs := setFrom_apart (acc := []) h2 (by simpa using h1)
      simp only [ReadsBack, enc, sem, dec]
      rw [semL_back (backL this fun y hy => mem_sortBy.1 hy)]
      simp only [Except.bind, hs, List.nil_append]
      rfl
  | .dict kvs, h, hl => by
      simp only [Printable] at h
      simp only [Loadable] at hl
      have hb := reads_backD kvs h hl.1
      have hpr := printableD_mem h
      have hperm : (decD false (sortBy textLe2 (encD kvs))).Perm (kvs.map fun x => (dec false (enc x.1), dec false (enc x.2))) := by
        have := (sortBy_perm textLe2 (encD kvs)).map fun kv => (dec false kv.1, dec false kv.2)
        rw [decD_map]
        rw [encD_map, List.map_map] at this
        rw [encD_map]
        exact this
      have h1 : (kvs.map fun x => (dec false (enc x.1), dec false (enc x.2))).Pairwise
          (fun x y => pyEq E.fi false x.1 y.1 = false ∧ pyEq E.fi false y.1 x.1 = false) := by
        have ha := hl.2.2
        rw [List.pairwise_map] at ha ⊢
        refine List.Pairwise.imp_of_mem ?_ ha
        intro x y hx hy h
        exact h _ _ (flat_dec x.1 (hl.2.1 x hx) (hpr x hx).1).1 (flat_dec y.1 (hl.2.1 y hy) (hpr y hy).1).1
      have h2 := (hperm.symm.pairwise h1 (fun h => ⟨h.2, h.1⟩)).imp fun h => h.1
      have h3 : ∀ x ∈ decD false (sortBy textLe2 (encD kvs)), hashable x.1 = true := by
        intro x hx
        obtain ⟨y, hy, e⟩ := List.mem_map.1 (hperm.mem_iff.1 hx)
        rw [← e]
        exact (flat_dec y.1 (hl.2.1 y hy) (hpr y hy).1).2
      have hs := dictFrom_apart (acc := []) h3 (by simpa using h2)
      have h4 : ∀ y ∈ sortBy textLe2 (encD kvs), ReadsBack E y.1 ∧ ReadsBack E y.2 := by
        intro y hy
        have hy := mem_sortBy.1 hy
        rw [encD_map, List.mem_map] at hy
        obtain ⟨x, hx, e⟩ := hy
        rw [← e]
        exact hb x hx
      simp only [ReadsBack, enc, sem, dec]
      rw [semD_back h4]
      simp only [Except.bind, hs, List.nil_append]
      rfl
  | .what n c nk o, h, hl => by
      simp only [Printable] at h
      simp only [Loadable] at hl
      have hb := reads_backA c h.2.2.2.2 hl.2
      obtain ⟨h1, h2⟩ := back_items (w := ⟨n, c, nk, o⟩) h.2.2.1 hb
      have ho := out_cond (w := ⟨n, c, nk, o⟩) hl.1
      simp only [ReadsBack, enc]
      rw [enc_items ⟨n, c, nk, o⟩]
      simp only [sem, dec, h1, Except.bind, h2]
      simp only at ho
      rw [ho]
      rfl
  | .sub _ _ _ _, h, _ => by simp only [Printable] at h
  | .odict _ _ _, h, _ => by simp only [Printable] at h
  | .ddict _ _ _, h, _ => by simp only [Printable] at h
  | .obj _ _ _ _ _ _ _ _, h, _ => by simp only [Printable] at h
  | .duck _ _ _ _, h, _ => by simp only [Printable] at h
  | .numtype _, h, _ => by simp only [Printable] at h
  | .wcls _, h, _ => by simp only [Printable] at h
  | .func _ _ _, h, _ => by simp only [Printable] at h
  | .part _ _ _ _, h, _ => by simp only [Printable] at h
  | .builtin _, h, _ => by simp only [Printable] at h
  | .property, h, _ => by simp only [Printable] at h
  | .array _ _, h, _ => by simp only [Printable] at h
  | .rng _ _, h, _ => by simp only [Printable] at h
termination_by structural v => v
theorem reads_backL : ∀ xs : List Val, PrintableL F xs → LoadableL F E xs → ∀ x ∈ xs, ReadsBack E (enc x)
  | [], _, _, x, hx => by cases hx
  | y :: ys, h, hl, x, hx => by
      simp only [PrintableL] at h
      simp only [LoadableL] at hl
      have h1 := reads_back y h.1 hl.1
      have h2 := reads_backL ys h.2 hl.2
      rcases List.mem_cons.1 hx with e | hx
      · rw [e]; exact h1
      · exact h2 x hx
termination_by structural xs => xs
theorem reads_backD : ∀ xs : List (Val × Val), PrintableD F xs → LoadableD F E xs → ∀ x ∈ xs, ReadsBack E (enc x.1) ∧ ReadsBack E (enc x.2)
  | [], _, _, x, hx => by cases hx
  | (k, v) :: ys, h, hl, x, hx => by
      simp only [PrintableD] at h
      simp only [LoadableD] at hl
      have h0 := reads_back k h.1 hl.1
      have h1 := reads_back v h.2.1 hl.2.1
      have h2 := reads_backD ys h.2.2 hl.2.2
      rcases List.mem_cons.1 hx with e | hx
      · rw [e]; exact ⟨h0, h1⟩
      · exact h2 x hx
termination_by structural xs => xs
theorem reads_backA {nk : List Str} : ∀ xs : List (Str × Val), PrintableA F nk xs → LoadableA F E nk xs → ∀ k v, (k, v) ∈ xs → k ∉ nk →
    ReadsBack E (enc v)
  | [], _, _, k, v, hx => by cases hx
  | (k', v') :: ys, h, hl, k, v, hx => by
      simp only [PrintableA] at h
      simp only [LoadableA] at hl
      have h1 := fun hk => reads_back v' (h.1 hk) (hl.1 hk)
      have h2 := reads_backA ys h.2 hl.2
      intro hk
      rcases List.mem_cons.1 hx with e | hx
      · cases e; exact h1 hk
      · exact h2 k v hx hk
termination_by structural xs => xs
end
end

end Whatami
