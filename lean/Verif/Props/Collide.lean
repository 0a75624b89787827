import Verif.Tells
import Verif.Spec.Collide
import Verif.Props.LegibleSeen

/-
C90: exactly which configurations have the same id, whatever their strings and names.
-/
namespace Whatami

theorem dictKeys_child {x v : Val} (h : DictKeys v) (hc : Child x v) : DictKeys x := fun n c nk o hw => h n c nk o (.step hw hc)

/-! ### Same texts -/

theorem emptyCall_text {a b : Val} (h : EmptyCall a b) : SameText buildD a b := by
  have key : ∀ {n : Str} {c : Conf} {nk : List Str}, (∀ k v, (k, v) ∈ c → k ∈ nk) → buildD (.what n c nk none) = .ok (some (n ++ c!"()")) := by
    intro n c nk h
    rw [buildD_what]
    have : idItems ⟨n, c, nk, none⟩ false = [] := by
      refine List.eq_nil_iff_forall_not_mem.2 fun x hx => ?_
      obtain ⟨h1, h2⟩ := items_mem (w := ⟨n, c, nk, none⟩) (k := x.1) (v := x.2) hx
      exact h2 (h _ _ h1)
    simp only [idStr, this]
    simp [mapR, wrapId, pyJoin, ret]
  cases h with
  | set h => simp only [SameText, key h]; rfl
  | fset h => simp only [SameText, key h]; rfl

theorem collide_text {a b : Val} (h : Collide a b) : SameText buildD a b := by
  rcases h with h | h | h | h
  · exact reorder_text h
  · exact quote_text h
  · exact sameIdPart_text h
  · exact emptyCall_text h

/-! ### Same values -/

/-- The value of the syntax of the text of a value. -/
def toldBy (v : Val) : Val := dec true (blur (enc v))

theorem cong_told_elems (f : List Val → Val) (hole : ∀ l a b r, Cong Collide a b → Cong Collide (f (l ++ a :: r)) (f (l ++ b :: r)))
    {xs : List Val} (h : ∀ x ∈ xs, Cong Collide x (toldBy x)) : Cong Collide (f xs) (f (xs.map toldBy)) :=
  cong_ctx (R := Cong Collide) f hole (All2_map toldBy xs h)

theorem told_sorted {xs : List Val} : (xs.map toldBy).Perm (decL true (blurL (sortBy textLe (encL xs)))) := by
  rw [decL_map, blurL_map, List.map_map]
  have := ((sortBy_perm textLe (encL xs)).map (dec true ∘ blur)).symm
  rw [encL_map, List.map_map] at this
  rw [encL_map]
  exact this

theorem cong_told_what {n : Str} {c : Conf} {nk : List Str} {o : Option Str} (hu : UniqueKeys c)
    (h : ∀ k v, (k, v) ∈ c → k ∉ nk → Cong Collide v (toldBy v)) :
    Cong Collide (.what n c nk o) (.what n (decA true (blurA (encA (idItems ⟨n, c, nk, o⟩ false)))) [] o) := by
  have hp := idItems_perm ⟨n, c, nk, o⟩ false
  have hu' : UniqueKeys (idItems ⟨n, c, nk, o⟩ false) := uniqueKeys_perm (uniqueKeys_filter hu _) hp.symm
  have step1 : Cong Collide (.what n c nk o) (.what n (idItems ⟨n, c, nk, o⟩ false) [] o) := by
    refine .base (.inr (.inr (.inl (.what _ _ _ _ hu hu' ?_))))
    intro k v
    simp only [idItems, List.mem_filter, mem_sortBy, Bool.false_or, Bool.not_eq_true',
      List.contains_eq_mem, decide_eq_false_iff_not, List.not_mem_nil, not_false_iff, and_true]
  refine .trans step1 ?_
  have := cong_ctx (P := Collide) (R := fun a a' : Str × Val => a.1 = a'.1 ∧ Cong Collide a.2 a'.2)
    (fun c => .what n c [] o) (by
      rintro l ⟨k, v⟩ ⟨k', v'⟩ r ⟨e, hc⟩
      simp only at e hc
      subst e
      exact .what n l r k [] o hc)
    (All2_map (fun kv => (kv.1, toldBy kv.2)) (idItems ⟨n, c, nk, o⟩ false) (by
      rintro ⟨k, v⟩ hm
      obtain ⟨h1, h2⟩ := items_mem hm
      exact ⟨rfl, h k v h1 h2⟩))
  rw [decA_map, blurA_map, encA_map, List.map_map, List.map_map]
  exact this

theorem items_none {w : What} (h : (encA (idItems w false)).isEmpty = true) : ∀ k v, (k, v) ∈ w.conf → k ∈ w.nonids := by
  intro k v hm
  by_cases hk : k ∈ w.nonids
  · exact hk
  · rw [items_nonempty ⟨k, List.mem_map.2 ⟨_, hm, rfl⟩, hk⟩] at h; cases h

mutual
theorem cong_told : ∀ v : Val, Supported v → DictKeys v → Cong Collide v (toldBy v)
  | .none, _, _ => .refl _
  | .bool _, _, _ => .refl _
  | .int i, _, _ => by simp only [toldBy, enc, blur]; rw [dec_num_int]; exact .refl _
  | .float t, h, _ => by simp only [Supported] at h; simp only [toldBy, enc, blur]; rw [dec_num_float true h]; exact .refl _
  | .str s, _, _ => .base (.inr (.inl (.str (quoteEq_strBody s))))
  | .cls f, _, _ => .refl _
  | .tuple xs, h, hd => by
      simp only [Supported] at h
      have := cong_told_elems .tuple (fun l _ _ r h => .tuple l r h) (cong_toldL xs h fun x hx => dictKeys_child hd (.tuple hx))
      simp only [toldBy, enc, blur, dec, blurL_map, decL_map, encL_map, List.map_map]
      exact this
  | .list xs, h, hd => by
      simp only [Supported] at h
      have := cong_told_elems .list (fun l _ _ r h => .list l r h) (cong_toldL xs h fun x hx => dictKeys_child hd (.list hx))
      simp only [toldBy, enc, blur, dec, blurL_map, decL_map, encL_map, List.map_map]
      exact this
  | .set xs, h, hd => by
      simp only [Supported] at h
      have := cong_told_elems .set (fun l _ _ r h => .set l r h) (cong_toldL xs h fun x hx => dictKeys_child hd (.set hx))
      exact .trans this (.base (.inl (.set told_sorted)))
  | .fset xs, h, hd => by
      simp only [Supported] at h
      have := cong_told_elems .fset (fun l _ _ r h => .fset l r h) (cong_toldL xs h fun x hx => dictKeys_child hd (.fset hx))
      exact .trans this (.base (.inl (.fset told_sorted)))
  | .dict kvs, h, hd => by
      simp only [Supported] at h
      have hc := cong_toldD kvs h (fun x hx => dictKeys_child hd (.dictKey hx)) (fun x hx => dictKeys_child hd (.dictVal hx))
      have h1 : Cong Collide (.dict kvs) (.dict (kvs.map fun x => (toldBy x.1, toldBy x.2))) := by
        refine cong_ctx (R := fun a a' : Val × Val => Cong Collide a.1 a'.1 ∧ Cong Collide a.2 a'.2) .dict ?_ (All2_map _ kvs hc)
        rintro l ⟨k, v⟩ ⟨k', v'⟩ r ⟨hk, hv⟩
        exact .trans (.dictKey v l r hk) (.dictVal k' l r hv)
      refine .trans h1 (.base (.inl (.dict ?_)))
      rw [decD_map, blurD_map, List.map_map]
      have := ((sortBy_perm textLe2 (encD kvs)).map ((fun x : Ast × Ast => (dec true x.1, dec true x.2)) ∘ fun x => (blur x.1, blur x.2))).symm
      rw [encD_map, List.map_map] at this
      rw [encD_map]
      exact this
  | .what n c nk o, h, hd => by
      simp only [Supported] at h
      have ha := cong_toldA c h.2.2 fun k x hx => dictKeys_child hd (.what k n nk o hx)
      have hw := cong_told_what (n := n) (o := o) (hd _ _ _ _ (.refl _)) ha
      simp only [toldBy, enc]
      rw [enc_items ⟨n, c, nk, o⟩]
      simp only [blur]
      split
      · next he =>
        obtain ⟨rfl, he, rfl⟩ := he
        exact .base (.inr (.inr (.inr (.set (items_none he)))))
      · split
        · next he =>
          obtain ⟨rfl, he, rfl⟩ := he
          exact .base (.inr (.inr (.inr (.fset (items_none he)))))
        · exact hw
  | .sub _ _ _ _, h, _ => by simp only [Supported] at h
  | .odict _ _ _, h, _ => by simp only [Supported] at h
  | .ddict _ _ _, h, _ => by simp only [Supported] at h
  | .obj _ _ _ _ _ _ _ _, h, _ => by simp only [Supported] at h
  | .duck _ _ _ _, h, _ => by simp only [Supported] at h
  | .numtype _, h, _ => by simp only [Supported] at h
  | .wcls _, h, _ => by simp only [Supported] at h
  | .func _ _ _, h, _ => by simp only [Supported] at h
  | .part _ _ _ _, h, _ => by simp only [Supported] at h
  | .builtin _, h, _ => by simp only [Supported] at h
  | .property, h, _ => by simp only [Supported] at h
  | .array _ _, h, _ => by simp only [Supported] at h
  | .rng _ _, h, _ => by simp only [Supported] at h
termination_by structural v => v
theorem cong_toldL : ∀ xs : List Val, SupportedL xs → (∀ x ∈ xs, DictKeys x) → ∀ x ∈ xs, Cong Collide x (toldBy x)
  | [], _, _, x, hx => by cases hx
  | y :: ys, h, hd, x, hx => by
      simp only [SupportedL] at h
      have h1 := cong_told y h.1 (hd y (by simp))
      have h2 := cong_toldL ys h.2 (fun z hz => hd z (by simp [hz]))
      rcases List.mem_cons.1 hx with e | hx
      · rw [e]; exact h1
      · exact h2 x hx
termination_by structural xs => xs
theorem cong_toldD : ∀ xs : List (Val × Val), SupportedD xs → (∀ x ∈ xs, DictKeys x.1) → (∀ x ∈ xs, DictKeys x.2) →
    ∀ x ∈ xs, Cong Collide x.1 (toldBy x.1) ∧ Cong Collide x.2 (toldBy x.2)
  | [], _, _, _, x, hx => by cases hx
  | (k, v) :: ys, h, hk, hv, x, hx => by
      simp only [SupportedD] at h
      have h0 := cong_told k h.1 (hk (k, v) (by simp))
      have h1 := cong_told v h.2.1 (hv (k, v) (by simp))
      have h2 := cong_toldD ys h.2.2 (fun z hz => hk z (by simp [hz])) (fun z hz => hv z (by simp [hz]))
      rcases List.mem_cons.1 hx with e | hx
      · rw [e]; exact ⟨h0, h1⟩
      · exact h2 x hx
termination_by structural xs => xs
theorem cong_toldA {nk : List Str} : ∀ xs : List (Str × Val), SupportedA nk xs → (∀ k x, (k, x) ∈ xs → DictKeys x) →
    ∀ k v, (k, v) ∈ xs → k ∉ nk → Cong Collide v (toldBy v)
  | [], _, _, k, v, hx => by cases hx
  | (k', v') :: ys, h, hd, k, v, hx => by
      simp only [SupportedA] at h
      have h1 := fun hk => cong_told v' (h.1 hk).2 (hd k' v' (by simp))
      have h2 := cong_toldA ys h.2 (fun z x hz => hd z x (by simp [hz]))
      intro hk
      rcases List.mem_cons.1 hx with e | hx
      · cases e; exact h1 hk
      · exact h2 k v hx hk
termination_by structural xs => xs
end

/-! ### C90 -/

theorem supported_id {w : What} (h : SupportedWhat w) : idD w = .ok (text (enc w.toVal)) ∧ Loose (enc w.toVal) := by
  obtain ⟨n, c, nk, o⟩ := w
  have hk := knows (E := exEnv) _ h
  refine ⟨?_, hk.loose⟩
  obtain ⟨_, _, _, ht⟩ := supported_items (E := exEnv) h
  rw [ht]
  simp only [What.toVal, enc]
  rw [enc_items ⟨n, c, nk, o⟩]

/-- C90. Two configurations (of None, booleans, numbers, strings, classes, collections and Whats, nested in any way; any strings, any names) have the
same id if and only if they are the same but for the order of dicts, sets and parameters, escaped quotes, non-id parameters, and empty sets and Whats
that are called like them. -/
theorem c90_same_id {w w' : What} (h : SupportedWhat w) (h' : SupportedWhat w') (hd : DictKeys w.toVal) (hd' : DictKeys w'.toVal) :
    idD w = idD w' ↔ Cong Collide w.toVal w'.toVal := by
  obtain ⟨e, l⟩ := supported_id h
  obtain ⟨e', l'⟩ := supported_id h'
  constructor
  · intro he
    rw [e, e'] at he
    have hb := blur_of_text l l' (Except.ok.inj he)
    refine .trans (cong_told _ h hd) ?_
    rw [toldBy, hb]
    exact .symm (cong_told _ h' hd')
  · intro hc
    have := idD_of_text (cong_text (fun _ _ => collide_text) hc)
    rw [e, e'] at this ⊢
    exact congrArg Except.ok (Option.some.inj this)

/-- C90, for values that are not data: the ids are the same if and only if what stands for the values is. -/
theorem c90_seen {w w' x x' : What} (h : SeenAs w.toVal x.toVal) (h' : SeenAs w'.toVal x'.toVal) (hx : SupportedWhat x) (hx' : SupportedWhat x')
    (hd : DictKeys x.toVal) (hd' : DictKeys x'.toVal) : (∃ s, idD w = .ok s ∧ idD w' = .ok s) ↔ Cong Collide x.toVal x'.toVal := by
  rw [← c90_same_id hx hx' hd hd']
  have e := idD_of_text (c77_text h)
  have e' := idD_of_text (c77_text h')
  rw [(supported_id hx).1] at e ⊢
  rw [(supported_id hx').1] at e' ⊢
  have ok : ∀ {r : R Str} {t : Str}, val? r = val? (.ok t : R Str) → r = .ok t := by
    intro r t h
    cases r with
    | error _ => cases h
    | ok u => exact congrArg Except.ok (Option.some.inj h)
  rw [ok e, ok e']
  exact ⟨fun ⟨s, h1, h2⟩ => h1.trans h2.symm, fun h => ⟨_, rfl, h.symm⟩⟩

/-- C90, for one string: only the escaping of quotes does not show; backslashes, whitespace and all other characters do. -/
theorem c90_strings (s t : Str) : idD (exOne (.str s)) = idD (exOne (.str t)) ↔ QuoteEq s t := by
  have hs := supported_id (exOne_supported (v := .str s) trivial)
  have ht := supported_id (exOne_supported (v := .str t) trivial)
  constructor
  · intro e
    rw [hs.1, ht.1] at e
    have := blur_of_text hs.2 ht.2 (Except.ok.inj e)
    have hb : strBody s = strBody t := by
      simpa [exOne, What.toVal, enc, encA, sortBy, insertBy, blur, blurA] using this
    exact .trans (quoteEq_strBody s) (hb ▸ .symm (quoteEq_strBody t))
  · intro h
    have : Cong Collide (exOne (.str s)).toVal (exOne (.str t)).toVal := .what c!"f" [] [] c!"a" [] none (.base (.inr (.inl (.str h))))
    have := idD_of_text (cong_text (fun _ _ => collide_text) this)
    rw [hs.1, ht.1] at this ⊢
    exact congrArg Except.ok (Option.some.inj this)

/-- C90, part by part: configurations with the same id have the same name and out_name, show the same parameters, and each of these has the same
value in both, but for what ids do not show. -/
theorem c90_parts {w w' : What} (h : SupportedWhat w) (h' : SupportedWhat w') (hd : DictKeys w.toVal) (hd' : DictKeys w'.toVal) (e : idD w = idD w') :
    w.out = w'.out ∧ w.name = w'.name ∧ (∀ k, k ∉ w.nonids ∧ (∃ v, (k, v) ∈ w.conf) ↔ k ∉ w'.nonids ∧ ∃ v', (k, v') ∈ w'.conf) ∧
      ∀ k v v', k ∉ w.nonids → (k, v) ∈ w.conf → (k, v') ∈ w'.conf → Cong Collide v v' := by
  obtain ⟨ho, hn, hk, ht⟩ := supported_items (E := exEnv) h
  obtain ⟨ho', hn', hk', ht'⟩ := supported_items (E := exEnv) h'
  rw [ht, ht'] at e
  have l := items_loose hk
  have l' := items_loose hk'
  have hm := mtext_of_text (a := .what w.out w.name (encA (idItems w false))) (b := .what w'.out w'.name (encA (idItems w' false)))
    (by simp only [Loose]; exact ⟨ho, hn, l⟩) (by simp only [Loose]; exact ⟨ho', hn', l'⟩) (Except.ok.inj e)
  simp only [mtext] at hm
  obtain ⟨h1, h2, h3⟩ := names_tell ho hn ho' hn' hm
  refine ⟨h1, h2, ?_⟩
  obtain ⟨h4, -⟩ := params_tell (.inl rfl) (fun x hx => tellsA _ l x hx) l l' (r := []) (r' := []) h3
  have shown : ∀ {w : What} (k : Str), k ∉ w.nonids ∧ (∃ v, (k, v) ∈ w.conf) ↔ k ∈ (blurA (encA (idItems w false))).map Prod.fst := by
    intro w k
    rw [blurA_map, List.map_map, List.mem_map]
    constructor
    · rintro ⟨h1, v, h2⟩
      exact ⟨(k, enc v), mem_items.2 ⟨k, v, h2, h1, rfl⟩, rfl⟩
    · rintro ⟨x, hx, rfl⟩
      obtain ⟨k, v, h1, h2, rfl⟩ := mem_items.1 hx
      exact ⟨h2, v, h1⟩
  refine ⟨fun k => by rw [shown k, shown k, h4], fun k v v' hnk hm hm' => ?_⟩
  have hnk' : k ∉ w'.nonids := by
    have := (shown (w := w) k).1 ⟨hnk, v, hm⟩
    rw [h4] at this
    exact ((shown k).2 this).1
  have m1 : (k, blur (enc v)) ∈ blurA (encA (idItems w false)) := by
    rw [blurA_map]; exact List.mem_map.2 ⟨(k, enc v), mem_items.2 ⟨k, v, hm, hnk, rfl⟩, rfl⟩
  have m2 : (k, blur (enc v')) ∈ blurA (encA (idItems w' false)) := by
    rw [blurA_map]; exact List.mem_map.2 ⟨(k, enc v'), mem_items.2 ⟨k, v', hm', hnk', rfl⟩, rfl⟩
  have hu : UniqueKeys (blurA (encA (idItems w' false))) := by
    have e : (blurA (encA (idItems w' false))).map Prod.fst = (idItems w' false).map Prod.fst := by
      rw [blurA_map, encA_map, List.map_map, List.map_map]; rfl
    rw [UniqueKeys, e]
    exact uniqueKeys_perm (uniqueKeys_filter (hd' _ _ _ _ (.refl _)) _) (idItems_perm w' false).symm
  rw [h4] at m1
  have hb : blur (enc v) = blur (enc v') := congrArg Prod.snd (unique_eq hu m1 m2 rfl)
  have sv : Supported v := by
    have := h; simp only [SupportedWhat, What.toVal, Supported] at this
    exact ((supportedA_iff.1 this.2.2) k v hm hnk).2
  have sv' : Supported v' := by
    have := h'; simp only [SupportedWhat, What.toVal, Supported] at this
    exact ((supportedA_iff.1 this.2.2) k v' hm' hnk').2
  have c1 := cong_told v sv (dictKeys_child hd (.what k _ _ _ hm))
  have c2 := cong_told v' sv' (dictKeys_child hd' (.what k _ _ _ hm'))
  rw [toldBy, hb] at c1
  exact .trans c1 (.symm c2)

/-! Configurations of all kinds. -/

theorem exOne_dictKeys {v : Val} (h : DictKeys v) : DictKeys (exOne v).toVal := by
  intro n c nk o hw
  cases hw with
  | refl => simp [UniqueKeys, exOne]
  | step hw hc =>
    cases hc with
    | what k n nk o hm =>
      simp [exOne] at hm
      obtain ⟨rfl, rfl⟩ := hm
      exact h _ _ _ _ hw
theorem dictKeys_str (s : Str) : DictKeys (.str s) := by
  intro n c nk o hw
  cases hw with
  | step _ hc => cases hc

-- strings whose ids cannot be read back have ids of their own all the same
example : SupportedWhat (exOne (.str c!"\\")) ∧ DictKeys (exOne (.str c!"\\")).toVal ∧ ¬ LegibleWhat (exOne (.str c!"\\")) := by
  refine ⟨exOne_supported trivial, exOne_dictKeys (dictKeys_str _), fun h => ?_⟩
  have := exOne_legible.1 h
  simp only [Legible] at this
  obtain ⟨u, e⟩ := this.1 [] 0 rfl
  cases u <;> cases e
-- an id that nearly looks like that of two parameters
example : idD (exOne (.str c!"\\',b='\\")) = .ok c!"f(a='\\',b=\\'\\')" ∧
    idD ⟨c!"f", [(c!"a", .str c!"\\"), (c!"b", .str c!"\\")], [], none⟩ = .ok c!"f(a='\\',b='\\')" := ⟨by rfl, by rfl⟩
-- each of the four differences, and the id that does not show it
example : Collide (.set [.int 1, .int 2]) (.set [.int 2, .int 1]) ∧ idD (exOne (.set [.int 1, .int 2])) = idD (exOne (.set [.int 2, .int 1])) :=
  ⟨.inl (.set (.swap _ _ _)), by rfl⟩
example : Collide (.str c!"'") (.str c!"\\'") ∧ idD (exOne (.str c!"'")) = idD (exOne (.str c!"\\'")) :=
  ⟨.inr (.inl (.str (.esc [] [] (by simp)))), by rfl⟩
example : Collide (.what c!"g" [(c!"b", .int 1)] [c!"b"] none) (.what c!"g" [] [] none) ∧
    idD (exOne (.what c!"g" [(c!"b", .int 1)] [c!"b"] none)) = idD (exOne (.what c!"g" [] [] none)) :=
  ⟨.inr (.inr (.inl (.what _ _ _ _ (by simp [UniqueKeys]) (by simp [UniqueKeys]) (fun k v => by simp; rintro rfl rfl; rfl)))), by rfl⟩
example : Collide (.what c!"set" [] [] none) (.set []) ∧ idD (exOne (.what c!"set" [] [] none)) = idD (exOne (.set [])) :=
  ⟨.inr (.inr (.inr (.set (fun k v h => by cases h)))), by rfl⟩
-- what does show
example : idD (exOne (.str c!"\\")) ≠ idD (exOne (.str c!"\\\\")) := by decide
example : idD (exOne (.str c!" a")) ≠ idD (exOne (.str c!"a")) := by decide
example : idD (exOne (.set [])) ≠ idD (exOne (.fset [])) := by decide
example : idD (exOne (.tuple [.int 1])) ≠ idD (exOne (.int 1)) := by decide

end Whatami
