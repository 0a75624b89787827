import Verif.Props.Collide
import Verif.Props.Text
import Verif.Spec.ReadAs

/-
C91: what the id of any configuration is read as.
-/
namespace Whatami

/-! ### Texts -/

theorem float_noBlank {t : Str} (h : FloatText t) : ' ' ∉ t := by
  intro hm
  have := List.all_eq_true.1 (word_num h.1) _ hm
  revert this; decide

theorem class_noBlank {f : Str} (h : ClassName f) : ' ' ∉ f := by
  intro hm
  have := (h _ hm).2.2
  revert this; decide

mutual
theorem hasText_of : ∀ v : Val, Supported v → DictKeys v → HasText v
  | .none, _, _ => .none
  | .bool b, _, _ => .bool b
  | .int i, _, _ => .int i
  | .float t, h, _ => .float (float_noBlank (by simpa only [Supported] using h))
  | .str s, _, _ => .str s
  | .cls f, h, _ => .cls (class_noBlank (by simpa only [Supported] using h))
  | .tuple xs, h, hd => by
      simp only [Supported] at h
      exact .tuple (hasText_ofL xs h fun x hx => dictKeys_child hd (.tuple hx))
  | .list xs, h, hd => by
      simp only [Supported] at h
      exact .list (hasText_ofL xs h fun x hx => dictKeys_child hd (.list hx))
  | .set xs, h, hd => by
      simp only [Supported] at h
      exact .set (hasText_ofL xs h fun x hx => dictKeys_child hd (.set hx))
  | .fset xs, h, hd => by
      simp only [Supported] at h
      exact .fset (hasText_ofL xs h fun x hx => dictKeys_child hd (.fset hx))
  | .dict kvs, h, hd => by
      simp only [Supported] at h
      have := hasText_ofD kvs h (fun x hx => dictKeys_child hd (.dictKey hx)) (fun x hx => dictKeys_child hd (.dictVal hx))
      exact .dict (fun k v hx => (this (k, v) hx).1) (fun k v hx => (this (k, v) hx).2)
  | .what n c nk o, h, hd => by
      simp only [Supported] at h
      exact .what n nk o (hd _ _ _ _ (.refl _)) (hasText_ofA c h.2.2 fun k x hx => dictKeys_child hd (.what k n nk o hx))
  | .sub _ _ _ _, h, _ => by simp only [Supported] at h
  | .odict _ _ _, h, _ => by simp only [Supported] at h
  | .ddict _ _ _, h, _ => by simp only [Supported] at h
  | .obj _ _ _ _ _ _ _ _, h, _ => by simp only [Supported] at h
  | .duck _ _ _ _, h, _ => by simp only [Supported] at h
  | .numtype _, h, _ => by simp only [Supported] at h
  | .wcls _, h, _ => by simp only [Supported] at h
  | .func _ _ _, h, _ => by simp only [Supported] at h
  | .part _ _ _ _, h, _ => by simp only [Supported] at h
  | .builtin _, h, _ => by simp only [Supported] at h
  | .property, h, _ => by simp only [Supported] at h
  | .array _ _, h, _ => by simp only [Supported] at h
  | .rng _ _, h, _ => by simp only [Supported] at h
termination_by structural v => v
theorem hasText_ofL : ∀ xs : List Val, SupportedL xs → (∀ x ∈ xs, DictKeys x) → ∀ x ∈ xs, HasText x
  | [], _, _, x, hx => by cases hx
  | y :: ys, h, hd, x, hx => by
      simp only [SupportedL] at h
      have h1 := hasText_of y h.1 (hd y (by simp))
      have h2 := hasText_ofL ys h.2 (fun z hz => hd z (by simp [hz]))
      rcases List.mem_cons.1 hx with e | hx
      · rw [e]; exact h1
      · exact h2 x hx
termination_by structural xs => xs
theorem hasText_ofD : ∀ xs : List (Val × Val), SupportedD xs → (∀ x ∈ xs, DictKeys x.1) → (∀ x ∈ xs, DictKeys x.2) →
    ∀ x ∈ xs, HasText x.1 ∧ HasText x.2
  | [], _, _, _, x, hx => by cases hx
  | (k, v) :: ys, h, hk, hv, x, hx => by
      simp only [SupportedD] at h
      have h0 := hasText_of k h.1 (hk (k, v) (by simp))
      have h1 := hasText_of v h.2.1 (hv (k, v) (by simp))
      have h2 := hasText_ofD ys h.2.2 (fun z hz => hk z (by simp [hz])) (fun z hz => hv z (by simp [hz]))
      rcases List.mem_cons.1 hx with e | hx
      · rw [e]; exact ⟨h0, h1⟩
      · exact h2 x hx
termination_by structural xs => xs
theorem hasText_ofA {nk : List Str} : ∀ xs : List (Str × Val), SupportedA nk xs → (∀ k x, (k, x) ∈ xs → DictKeys x) →
    ∀ k v, (k, v) ∈ xs → k ∉ nk → HasText v
  | [], _, _, k, v, hx => by cases hx
  | (k', v') :: ys, h, hd, k, v, hx => by
      simp only [SupportedA] at h
      have h1 := fun hk => hasText_of v' (h.1 hk).2 (hd k' v' (by simp))
      have h2 := hasText_ofA ys h.2 (fun z x hz => hd z x (by simp [hz]))
      intro hk
      rcases List.mem_cons.1 hx with e | hx
      · cases e; exact h1 hk
      · exact h2 k v hx hk
termination_by structural xs => xs
end

theorem idText_iff {v : Val} {s : Str} (h : Supported v) (hd : DictKeys v) : IdTextOf v s ↔ s = text (enc v) := by
  rw [← c52_text (hasText_of v h hd)]
  have := (knows (E := exEnv) v h).text
  simp only [TextOf] at this
  rw [this]
  exact ⟨fun e => (by injection e with e; injection e with e; exact e.symm), fun e => by rw [e]⟩

/-! ### Calls like sets -/

mutual
theorem calm_blur : ∀ a : Ast, calm (blur a) = calm a
  | .none => rfl
  | .bool _ => rfl
  | .num _ => rfl
  | .str _ => rfl
  | .cls _ => rfl
  | .tuple xs => by simp only [blur, calm, calm_blurL xs]
  | .list xs => by simp only [blur, calm, calm_blurL xs]
  | .set xs => by simp only [blur, calm, calm_blurL xs]
  | .fset xs => by simp only [blur, calm, calm_blurL xs]
  | .dict xs => by simp only [blur, calm, calm_blurD xs]
  | .what o n kvs => by
      have ih := calm_blurA kvs
      have he : (blurA kvs).isEmpty = kvs.isEmpty := by rw [blurA_map]; cases kvs <;> rfl
      by_cases h1 : o = none ∧ kvs.isEmpty ∧ n = c!"set"
      · obtain ⟨rfl, h2, rfl⟩ := h1
        simp [blur, calm, calmL, h2]
      · by_cases h2 : o = none ∧ kvs.isEmpty ∧ n = c!"frozenset"
        · obtain ⟨rfl, h2, rfl⟩ := h2
          simp [blur, calm, calmL, h2]
        · simp only [blur, if_neg h1, if_neg h2, calm, he, ih]
termination_by structural a => a
theorem calm_blurL : ∀ xs : List Ast, calmL (blurL xs) = calmL xs
  | [] => rfl
  | x :: xs => by simp only [blurL, calmL, calm_blur x, calm_blurL xs]
termination_by structural xs => xs
theorem calm_blurD : ∀ xs : List (Ast × Ast), calmD (blurD xs) = calmD xs
  | [] => rfl
  | (k, v) :: xs => by simp only [blurD, calmD, calm_blur k, calm_blur v, calm_blurD xs]
termination_by structural xs => xs
theorem calm_blurA : ∀ xs : List (Str × Ast), calmA (blurA xs) = calmA xs
  | [] => rfl
  | (k, v) :: xs => by simp only [blurA, calmA, calm_blur v, calm_blurA xs]
termination_by structural xs => xs
end

theorem calm_of_text {a b : Ast} (ha : Loose a) (hb : Loose b) (e : text a = text b) : calm a = calm b := by
  rw [← calm_blur a, ← calm_blur b, blur_of_text ha hb e]

theorem map_of_map {α β γ : Type} {f : α → β} {g : α → γ} {xs ys : List α} (h : ∀ x ∈ xs, ∀ y ∈ ys, f x = f y → g x = g y)
    (e : xs.map f = ys.map f) : xs.map g = ys.map g := by
  induction xs generalizing ys with
  | nil => cases ys with
    | nil => rfl
    | cons => simp at e
  | cons x xs ih =>
    cases ys with
    | nil => simp at e
    | cons y ys =>
      simp only [List.map_cons, List.cons.injEq] at e ⊢
      exact ⟨h x (by simp) y (by simp) e.1, ih (fun a ha b hb => h a (by simp [ha]) b (by simp [hb])) e.2⟩

/-- The syntax of the elements in the order of their texts. -/
theorem order_texts {xs ys : List Val} (hs : ∀ x ∈ xs, Supported x) (hd : ∀ x ∈ xs, DictKeys x) (hp : ys.Perm xs) (ho : ys.Pairwise TextsInOrder) :
    ys.map (fun y => calm (enc y)) = calmL (sortBy textLe (encL xs)) := by
  have hl : ∀ x ∈ xs, Loose (enc x) := fun x hx => (knows (E := exEnv) x (hs x hx)).loose
  have e : (ys.map enc).map text = (sortBy textLe (encL xs)).map text := by
    have h1 : SortedTexts ((encL xs).map text) ((ys.map enc).map text) := by
      refine ⟨?_, ?_⟩
      · rw [encL_map]; exact (hp.map _).map _
      · rw [List.map_map, List.pairwise_map]
        refine ho.imp_of_mem ?_
        rintro a b ha hb ⟨s, t, h1, h2, h3⟩
        have ma := hp.mem_iff.1 ha
        have mb := hp.mem_iff.1 hb
        rw [idText_iff (hs a ma) (hd a ma)] at h1
        rw [idText_iff (hs b mb) (hd b mb)] at h2
        rw [h1, h2] at h3
        exact h3
    rw [sortedTexts_iff] at h1
    rw [h1]
    exact sortBy_map (fun _ _ => rfl) _
  have := map_of_map (g := calm) (fun a ha b hb e => calm_of_text (?_ : Loose a) (?_ : Loose b) e) e
  · rw [calmL_map, ← this, List.map_map]; rfl
  · obtain ⟨y, hy, rfl⟩ := List.mem_map.1 ha
    exact hl y (hp.mem_iff.1 hy)
  · rw [mem_sortBy, mem_encL] at hb
    obtain ⟨x, hx, rfl⟩ := hb
    exact hl x hx

/-- There is such an order. -/
theorem order_exists {xs : List Val} (hs : ∀ x ∈ xs, Supported x) (hd : ∀ x ∈ xs, DictKeys x) :
    ∃ ys : List Val, ys.Perm xs ∧ ys.Pairwise TextsInOrder := by
  refine ⟨sortBy (fun a b => textLe (enc a) (enc b)) xs, sortBy_perm _ _, ?_⟩
  have := sortBy_sorted (le := fun a b => textLe (enc a) (enc b)) (fun a b => strLe_total _ _) (fun a b c => strLe_trans _ _ _) xs
  refine this.imp_of_mem ?_
  intro a b ha hb h
  rw [mem_sortBy] at ha hb
  exact ⟨_, _, (idText_iff (hs a ha) (hd a ha)).2 rfl, (idText_iff (hs b hb) (hd b hb)).2 rfl, (le_iff _ _).1 h⟩

theorem text_item (x : Ast × Ast) : text (.dict [x]) = c!"{" ++ text2 x ++ c!"}" := by
  obtain ⟨k, v⟩ := x
  simp [text, toks, toksD, sepToks, text2]

theorem calm_of_text2 {x y : Ast × Ast} (hx : Loose x.1 ∧ Loose x.2) (hy : Loose y.1 ∧ Loose y.2) (e : text2 x = text2 y) :
    (calm x.1, calm x.2) = (calm y.1, calm y.2) := by
  have := calm_of_text (a := .dict [x]) (b := .dict [y]) (by simp only [Loose, looseD_iff]; simpa using hx)
    (by simp only [Loose, looseD_iff]; simpa using hy) (by rw [text_item, text_item, e])
  simpa [calm, calmD_map] using this

theorem itemText_iff {e : Val × Val} {s : Str} (h : Supported e.1 ∧ Supported e.2) (hd : DictKeys e.1 ∧ DictKeys e.2) :
    ItemText e s ↔ s = text2 (enc e.1, enc e.2) := by
  constructor
  · rintro ⟨k, v, h1, h2, rfl⟩
    rw [(idText_iff h.1 hd.1).1 h1, (idText_iff h.2 hd.2).1 h2]; rfl
  · rintro rfl
    exact ⟨_, _, (idText_iff h.1 hd.1).2 rfl, (idText_iff h.2 hd.2).2 rfl, rfl⟩

/-- The syntax of the items in the order of their texts. -/
theorem order_items {xs ys : List (Val × Val)} (hs : ∀ x ∈ xs, Supported x.1 ∧ Supported x.2) (hd : ∀ x ∈ xs, DictKeys x.1 ∧ DictKeys x.2)
    (hp : ys.Perm xs) (ho : ys.Pairwise ItemsInOrder) :
    ys.map (fun y => (calm (enc y.1), calm (enc y.2))) = calmD (sortBy textLe2 (encD xs)) := by
  have hl : ∀ x ∈ xs, Loose (enc x.1) ∧ Loose (enc x.2) := fun x hx =>
    ⟨(knows (E := exEnv) x.1 (hs x hx).1).loose, (knows (E := exEnv) x.2 (hs x hx).2).loose⟩
  have e : (ys.map fun x => (enc x.1, enc x.2)).map text2 = (sortBy textLe2 (encD xs)).map text2 := by
    have h1 : SortedTexts ((encD xs).map text2) ((ys.map fun x => (enc x.1, enc x.2)).map text2) := by
      refine ⟨?_, ?_⟩
      · rw [encD_map]; exact (hp.map _).map _
      · rw [List.map_map, List.pairwise_map]
        refine ho.imp_of_mem ?_
        rintro a b ha hb ⟨s, t, h1, h2, h3⟩
        have ma := hp.mem_iff.1 ha
        have mb := hp.mem_iff.1 hb
        rw [itemText_iff (hs a ma) (hd a ma)] at h1
        rw [itemText_iff (hs b mb) (hd b mb)] at h2
        rw [h1, h2] at h3
        exact h3
    rw [sortedTexts_iff] at h1
    rw [h1]
    exact sortBy_map (fun _ _ => rfl) _
  have := map_of_map (g := fun x : Ast × Ast => (calm x.1, calm x.2)) (fun a ha b hb e => calm_of_text2 (?_ : Loose a.1 ∧ Loose a.2) (?_ : Loose b.1 ∧ Loose b.2) e) e
  · rw [calmD_map, ← this, List.map_map]; rfl
  · obtain ⟨y, hy, rfl⟩ := List.mem_map.1 ha
    exact hl y (hp.mem_iff.1 hy)
  · rw [mem_sortBy, mem_encD] at hb
    obtain ⟨x, hx, rfl⟩ := hb
    exact hl x hx

/-- There is such an order. -/
theorem order_items_exists {xs : List (Val × Val)} (hs : ∀ x ∈ xs, Supported x.1 ∧ Supported x.2) (hd : ∀ x ∈ xs, DictKeys x.1 ∧ DictKeys x.2) :
    ∃ ys : List (Val × Val), ys.Perm xs ∧ ys.Pairwise ItemsInOrder := by
  refine ⟨sortBy (fun a b => textLe2 (enc a.1, enc a.2) (enc b.1, enc b.2)) xs, sortBy_perm _ _, ?_⟩
  have := sortBy_sorted (le := fun a b : Val × Val => textLe2 (enc a.1, enc a.2) (enc b.1, enc b.2)) (fun a b => strLe_total _ _) (fun a b c => strLe_trans _ _ _) xs
  refine this.imp_of_mem ?_
  intro a b ha hb h
  rw [mem_sortBy] at ha hb
  exact ⟨_, _, (itemText_iff (hs a ha) (hd a ha)).2 rfl, (itemText_iff (hs b hb) (hd b hb)).2 rfl, (le_iff _ _).1 h⟩

/-- The parameters that show are determined. -/
theorem params_iff {w : What} {ps : Conf} (h : UniqueKeys w.conf) : ParamsInOrder w.conf w.nonids ps ↔ ps = idItems w false := by
  have hm : ∀ k v, (k, v) ∈ idItems w false ↔ (k, v) ∈ w.conf ∧ k ∉ w.nonids := by
    intro k v
    simp only [idItems, List.mem_filter, mem_sortBy, Bool.false_or, Bool.not_eq_true', List.contains_eq_mem, decide_eq_false_iff_not]
  have hu := uniqueKeys_perm (uniqueKeys_filter h _) (idItems_perm w false).symm
  have hlt : ((idItems w false).map Prod.fst).Pairwise strLt := idItems_lt h
  constructor
  · rintro ⟨h1, h2⟩
    have hk := keys_eq h1 hlt fun k => by
      simp only [List.mem_map]
      constructor
      · rintro ⟨⟨k, v⟩, hp, rfl⟩; exact ⟨(k, v), (hm k v).2 ((h2 k v).1 hp), rfl⟩
      · rintro ⟨⟨k, v⟩, hp, rfl⟩; exact ⟨(k, v), (h2 k v).2 ((hm k v).1 hp), rfl⟩
    have hup : UniqueKeys ps := by rw [UniqueKeys, hk]; exact hu
    have hperm : ps.Perm (idItems w false) := by
      refine (List.perm_ext_iff_of_nodup ?_ ?_).2 fun ⟨k, v⟩ => (h2 k v).trans (hm k v).symm
      · exact (List.pairwise_map.1 hup).imp fun {a b} h (e : a = b) => h (e ▸ rfl)
      · exact (List.pairwise_map.1 hu).imp fun {a b} h (e : a = b) => h (e ▸ rfl)
    refine sorted_perm_eq (le := keyLe) ?_ ?_ (idItems_sorted w false) hperm
    · intro a ha b hb h1 h2
      exact unique_eq hup (by simpa using ha) (by simpa using hb) (strLe_antisymm _ _ h1 h2)
    · rw [List.pairwise_map] at h1
      exact h1.imp fun h => strLe_of_strLt h
  · rintro rfl
    exact ⟨hlt, hm⟩

/-! ### Strings -/

theorem cleanedUp_iff {s t : Str} : CleanedUp s t ↔ t = skipWs (strBody s) := by
  have split : ∀ b : Str, ∃ ws, b = ws ++ skipWs b ∧ ∀ c ∈ ws, isWs c = true := by
    intro b
    exact ⟨b.takeWhile isWs, (List.takeWhile_append_dropWhile).symm, fun c hc => List.all_eq_true.1 (List.all_takeWhile) c hc⟩
  constructor
  · rintro ⟨b, ws, h1, h2, rfl, h3, h4⟩
    have : strBody s = ws ++ t := by rw [strBody_of_quoteEq h1, strBody_fixed h2]
    rw [this]
    clear this h1 h2
    induction ws with
    | nil =>
      cases t with
      | nil => rfl
      | cons c r => simp [skipWs, h4 c r rfl]
    | cons c ws ih =>
      refine (ih fun d hd => h3 d (by simp [hd])).trans ?_
      simp [skipWs, h3 c (by simp)]
  · rintro rfl
    obtain ⟨ws, h1, h2⟩ := split (strBody s)
    exact ⟨_, ws, quoteEq_strBody s, escaped_strBody s, h1, h2, skip_head⟩

/-! ### Values -/

section
variable {E : Env}

/-- The syntax that is read for `v` means exactly what `v` is read as. -/
def TellsRead (E : Env) (v : Val) : Prop := ∀ u, Means E (calm (enc v)) u ↔ ReadAs E v u

theorem pointwise_reads {xs l : List Val} (h : ∀ x ∈ xs, TellsRead E x) :
    (∀ (i : Nat) a v, (xs.map fun x => calm (enc x))[i]? = some a → l[i]? = some v → Means E a v) ↔
    ∀ (i : Nat) x v, xs[i]? = some x → l[i]? = some v → ReadAs E x v := by
  simp only [List.getElem?_map, Option.map_eq_some_iff]
  constructor
  · intro hp i x v hx hv
    exact (h x (List.mem_of_getElem? hx) v).1 (hp i _ v ⟨x, hx, rfl⟩ hv)
  · rintro hp i a v ⟨x, hx, rfl⟩ hv
    exact (h x (List.mem_of_getElem? hx) v).2 (hp i x v hx hv)

theorem encL_calm (xs : List Val) : calmL (encL xs) = xs.map fun x => calm (enc x) := by
  rw [calmL_map, encL_map, List.map_map]; rfl
theorem encA_calm (xs : Conf) : calmA (encA xs) = xs.map fun x => (x.1, calm (enc x.2)) := by
  rw [calmA_map, encA_map, List.map_map]; rfl

/-- Sets, and frozensets likewise. -/
theorem reads_elements {xs : List Val} (hs : ∀ x ∈ xs, Supported x) (hd : ∀ x ∈ xs, DictKeys x) (h : ∀ x ∈ xs, TellsRead E x) (u : Val) :
    (∃ l d, (calmL (sortBy textLe (encL xs))).length = l.length ∧
      (∀ (i : Nat) a v, (calmL (sortBy textLe (encL xs)))[i]? = some a → l[i]? = some v → Means E a v) ∧
      (∀ v ∈ l, CanHash v) ∧ Added (SameKey E.fi) l d ∧ u = .set d) ↔ ReadAs E (.set xs) u := by
  constructor
  · rintro ⟨l, d, h1, h2, h3, h4, rfl⟩
    obtain ⟨ys, hp, ho⟩ := order_exists hs hd
    rw [← order_texts hs hd hp ho] at h1 h2
    rw [pointwise_reads fun y hy => h y (hp.mem_iff.1 hy)] at h2
    exact .set hp ho (by simpa using h1) h2 h3 h4
  · intro hr
    cases hr with
    | set hp ho h1 h2 h3 h4 =>
      refine ⟨_, _, ?_, ?_, h3, h4, rfl⟩
      · rw [← order_texts hs hd hp ho]; simpa using h1
      · rw [← order_texts hs hd hp ho, pointwise_reads fun y hy => h y (hp.mem_iff.1 hy)]; exact h2

theorem assigned_unique {l d : Conf} (h : (l.map Prod.fst).Nodup) : Assigned Eq l d ↔ d = l := by
  rw [← dictOf_iff, dictOf_unique h]
  exact eq_comm

/-- The parameters of a What. -/
theorem reads_params {n : Str} {c : Conf} {nk : List Str} {o : Option Str} (hu : UniqueKeys c)
    (h : ∀ k v, (k, v) ∈ c → k ∉ nk → TellsRead E v) (u : Val) :
    Means E (.what o n (calmA (encA (idItems ⟨n, c, nk, o⟩ false)))) u ↔
      ∃ ps l, ParamsInOrder c nk ps ∧ ps.map Prod.fst = l.map Prod.fst ∧
        (∀ (i : Nat) p q, ps[i]? = some p → l[i]? = some q → ReadAs E p.2 q.2) ∧ (ps = [] → o = none) ∧ u = .what n l [] o := by
  have hi := fun ps => params_iff (w := ⟨n, c, nk, o⟩) (ps := ps) hu
  simp only at hi
  simp only [hi, encA_calm]
  have hk : ((idItems ⟨n, c, nk, o⟩ false).map Prod.fst).Nodup := uniqueKeys_perm (uniqueKeys_filter hu _) (idItems_perm ⟨n, c, nk, o⟩ false).symm
  have hr : ∀ k v, (k, v) ∈ idItems ⟨n, c, nk, o⟩ false → TellsRead E v := fun k v hm => by
    obtain ⟨h1, h2⟩ := items_mem hm
    exact h k v h1 h2
  generalize idItems ⟨n, c, nk, o⟩ false = ps at hk hr
  have hmap : (ps.map fun x => (x.1, calm (enc x.2))).map Prod.fst = ps.map Prod.fst := by rw [List.map_map]; rfl
  constructor
  · intro hm
    cases hm with
    | what h1 h2 h3 h4 =>
      rename_i l d
      rw [hmap] at h1
      have hd : d = l := (assigned_unique (by rw [← h1]; exact hk)).1 h4
      subst hd
      refine ⟨ps, d, rfl, h1, fun i p q hp hq => ?_, fun e => h3 (by rw [e]; rfl), rfl⟩
      obtain ⟨k, v⟩ := p
      obtain ⟨k', v'⟩ := q
      exact (hr k v (List.mem_of_getElem? hp) _).1 (h2 i k (calm (enc v)) k' v' (by rw [List.getElem?_map, hp]; rfl) hq)
  · rintro ⟨ps', l, e, h1, h2, h3, rfl⟩
    subst e
    refine .what (by rw [hmap]; exact h1) ?_ ?_ ((assigned_unique (by rw [← h1]; exact hk)).2 rfl)
    · intro i k x k' v hx hv
      rw [List.getElem?_map, Option.map_eq_some_iff] at hx
      obtain ⟨⟨k0, v0⟩, hx, e⟩ := hx
      cases e
      exact (hr k0 v0 (List.mem_of_getElem? hx) _).2 (h2 i (k0, v0) (k', v) hx hv)
    · intro e
      exact h3 (by simpa using e)

theorem params_none {c : Conf} {nk : List Str} {ps : Conf} (h : ParamsInOrder c nk ps) : ps = [] ↔ ∀ k v, (k, v) ∈ c → k ∈ nk := by
  constructor
  · rintro rfl k v hm
    by_cases hk : k ∈ nk
    · exact hk
    · exact absurd ((h.2 k v).2 ⟨hm, hk⟩) (by simp)
  · intro hc
    refine List.eq_nil_iff_forall_not_mem.2 fun ⟨k, v⟩ hm => ?_
    obtain ⟨h1, h2⟩ := (h.2 k v).1 hm
    exact h2 (hc k v h1)

mutual
theorem tells_read : ∀ v : Val, Supported v → DictKeys v → TellsRead E v
  | .none, _, _ => fun u => ⟨fun h => by cases h; exact .none, fun h => by cases h; exact .none⟩
  | .bool b, _, _ => fun u => ⟨fun h => by cases h; exact .bool _, fun h => by cases h; exact .bool _⟩
  | .int i, _, _ => fun u => by
      simp only [enc, calm]
      rw [← number_iff]
      simp only [numberOf, pyInt_intStr]
      exact ⟨fun h => h ▸ .int i, fun h => by cases h; rfl⟩
  | .float t, h, _ => fun u => by
      simp only [Supported] at h
      simp only [enc, calm]
      rw [← number_iff]
      simp only [numberOf, pyInt_float h]
      exact ⟨fun h => h ▸ .float t, fun h => by cases h; rfl⟩
  | .str s, _, _ => fun u => by
      simp only [enc, calm]
      constructor
      · intro h; cases h; exact .str (cleanedUp_iff.2 rfl)
      · intro h
        cases h with
        | str h => rw [cleanedUp_iff] at h; subst h; exact .str _
  | .cls f, _, _ => fun u => by
      simp only [enc, calm]
      constructor
      · intro h
        cases h with
        | cls h1 h2 h3 => exact .cls h1 h2 h3
        | lost h1 h2 h3 => exact .lost h1 h2 h3
      · intro h
        cases h with
        | cls h1 h2 h3 => exact .cls h1 h2 h3
        | lost h1 h2 h3 => exact .lost h1 h2 h3
  | .tuple xs, h, hd => by
      simp only [Supported] at h
      have ih := tells_readL xs h fun x hx => dictKeys_child hd (.tuple hx)
      intro u
      simp only [enc, calm]
      rw [encL_calm]
      constructor
      · intro hm
        cases hm with
        | tuple h1 h2 => exact .tuple (by simpa using h1) ((pointwise_reads ih).1 h2)
      · intro hr
        cases hr with
        | tuple h1 h2 => exact .tuple (by simpa using h1) ((pointwise_reads ih).2 h2)
  | .list xs, h, hd => by
      simp only [Supported] at h
      have ih := tells_readL xs h fun x hx => dictKeys_child hd (.list hx)
      intro u
      simp only [enc, calm]
      rw [encL_calm]
      constructor
      · intro hm
        cases hm with
        | list h1 h2 => exact .list (by simpa using h1) ((pointwise_reads ih).1 h2)
      · intro hr
        cases hr with
        | list h1 h2 => exact .list (by simpa using h1) ((pointwise_reads ih).2 h2)
  | .set xs, h, hd => by
      simp only [Supported] at h
      have hd' : ∀ x ∈ xs, DictKeys x := fun x hx => dictKeys_child hd (.set hx)
      have ih := tells_readL xs h hd'
      intro u
      simp only [enc, calm]
      rw [← reads_elements (supportedL_iff.1 h) hd' ih]
      constructor
      · intro hm
        cases hm with
        | set h1 h2 h3 h4 => exact ⟨_, _, h1, h2, h3, h4, rfl⟩
      · rintro ⟨l, d, h1, h2, h3, h4, rfl⟩
        exact .set h1 h2 h3 h4
  | .fset xs, h, hd => by
      simp only [Supported] at h
      have hd' : ∀ x ∈ xs, DictKeys x := fun x hx => dictKeys_child hd (.fset hx)
      have ih := tells_readL xs h hd'
      intro u
      have : ReadAs E (.fset xs) u ↔ ReadAs E (.set xs) u := ⟨fun h => by cases h; assumption, fun h => .fset h⟩
      simp only [enc, calm]
      rw [this, ← reads_elements (supportedL_iff.1 h) hd' ih]
      constructor
      · intro hm
        cases hm with
        | fset h1 h2 h3 h4 => exact ⟨_, _, h1, h2, h3, h4, rfl⟩
      · rintro ⟨l, d, h1, h2, h3, h4, rfl⟩
        exact .fset h1 h2 h3 h4
  | .dict kvs, h, hd => by
      simp only [Supported] at h
      have hd' : ∀ x ∈ kvs, DictKeys x.1 ∧ DictKeys x.2 := fun x hx => ⟨dictKeys_child hd (.dictKey hx), dictKeys_child hd (.dictVal hx)⟩
      have ih := tells_readD kvs h (fun x hx => (hd' x hx).1) (fun x hx => (hd' x hx).2)
      have hs := supportedD_iff.1 h
      intro u
      simp only [enc, calm]
      constructor
      · intro hm
        cases hm with
        | dict h1 h2 h3 h4 h5 =>
          obtain ⟨es, hp, ho⟩ := order_items_exists hs hd'
          rw [← order_items hs hd' hp ho] at h1 h2 h3
          refine .dict hp ho (by simpa using h1) ?_ ?_ (fun u hu => h4 u.1 u.2 hu) h5
          · intro i e u he hu
            exact ((ih e (hp.mem_iff.1 (List.mem_of_getElem? he))).1 _).1 (h2 i (calm (enc e.1)) (calm (enc e.2)) u.1 u.2 (by rw [List.getElem?_map, he]; rfl) hu)
          · intro i e u he hu
            exact ((ih e (hp.mem_iff.1 (List.mem_of_getElem? he))).2 _).1 (h3 i (calm (enc e.1)) (calm (enc e.2)) u.1 u.2 (by rw [List.getElem?_map, he]; rfl) hu)
      · intro hr
        cases hr with
        | dict hp ho h1 h2 h3 h4 h5 =>
          rw [← order_items hs hd' hp ho]
          refine .dict (by simpa using h1) ?_ ?_ (fun k v hu => h4 (k, v) hu) h5
          · intro i k x k' v hx hv
            rw [List.getElem?_map, Option.map_eq_some_iff] at hx
            obtain ⟨e, he, hx⟩ := hx
            cases hx
            exact ((ih e (hp.mem_iff.1 (List.mem_of_getElem? he))).1 _).2 (h2 i e (k', v) he hv)
          · intro i k x k' v hx hv
            rw [List.getElem?_map, Option.map_eq_some_iff] at hx
            obtain ⟨e, he, hx⟩ := hx
            cases hx
            exact ((ih e (hp.mem_iff.1 (List.mem_of_getElem? he))).2 _).2 (h3 i e (k', v) he hv)
  | .what n c nk o, h, hd => by
      simp only [Supported] at h
      have ih := tells_readA c h.2.2 fun k x hx => dictKeys_child hd (.what k n nk o hx)
      have hu : UniqueKeys c := hd _ _ _ _ (.refl _)
      have hp := (params_iff (w := ⟨n, c, nk, o⟩) hu).2 rfl
      simp only at hp
      have hr := fun u => reads_params (n := n) (o := o) hu ih u
      intro u
      simp only [enc]
      rw [enc_items ⟨n, c, nk, o⟩]
      have he : (encA (idItems ⟨n, c, nk, o⟩ false)).isEmpty = true ↔ ∀ k v, (k, v) ∈ c → k ∈ nk := by
        rw [← params_none hp, encA_map]
        cases idItems ⟨n, c, nk, o⟩ false <;> simp
      by_cases h1 : o = none ∧ (∀ k v, (k, v) ∈ c → k ∈ nk) ∧ (n = c!"set" ∨ n = c!"frozenset")
      · obtain ⟨rfl, h2, h3⟩ := h1
        have hc : Means E (calm (.what none n (encA (idItems ⟨n, c, nk, none⟩ false)))) u ↔ u = .set [] := by
          have added : ∀ d : List Val, Added (SameKey E.fi) [] d → d = [] := fun d => added_nil.1
          rcases h3 with rfl | rfl
          · simp only [calm, he.2 h2]
            constructor
            · intro hm
              cases hm with
              | set h1 _ _ h4 =>
                obtain rfl := List.length_eq_zero_iff.1 h1.symm
                rw [added _ h4]
            · rintro rfl
              exact .set (l := []) rfl (by simp) (by simp) .nil
          · have hne : (c!"frozenset" == c!"set") = false := by decide
            simp only [calm, he.2 h2, hne]
            constructor
            · intro hm
              cases hm with
              | fset h1 _ _ h4 =>
                obtain rfl := List.length_eq_zero_iff.1 h1.symm
                rw [added _ h4]
            · rintro rfl
              exact .fset (l := []) rfl (by simp) (by simp) .nil
        rw [hc]
        constructor
        · rintro rfl; exact .setCall h2 h3
        · intro hr
          cases hr with
          | setCall => rfl
          | what h4 h5 h6 h7 h8 =>
            have := h8 ((params_none h4).2 h2)
            rcases h3 with h3 | h3
            · exact absurd h3 this.1
            · exact absurd h3 this.2
      · have hc : calm (.what o n (encA (idItems ⟨n, c, nk, o⟩ false))) = .what o n (calmA (encA (idItems ⟨n, c, nk, o⟩ false))) := by
          have n1 : (o.isNone && (encA (idItems ⟨n, c, nk, o⟩ false)).isEmpty && n == c!"set") = false := by
            rw [Bool.eq_false_iff]
            intro hb
            simp only [Bool.and_eq_true, beq_iff_eq, Option.isNone_iff_eq_none, he] at hb
            exact h1 ⟨hb.1.1, hb.1.2, .inl hb.2⟩
          have n2 : (o.isNone && (encA (idItems ⟨n, c, nk, o⟩ false)).isEmpty && n == c!"frozenset") = false := by
            rw [Bool.eq_false_iff]
            intro hb
            simp only [Bool.and_eq_true, beq_iff_eq, Option.isNone_iff_eq_none, he] at hb
            exact h1 ⟨hb.1.1, hb.1.2, .inr hb.2⟩
          simp only [calm, n1, n2]
          rfl
        rw [hc, hr]
        constructor
        · rintro ⟨ps, l, h2, h3, h4, h5, rfl⟩
          refine .what h2 h3 h4 h5 fun e => ?_
          have := (params_none h2).1 e
          exact ⟨fun e' => h1 ⟨h5 e, this, .inl e'⟩, fun e' => h1 ⟨h5 e, this, .inr e'⟩⟩
        · intro hr
          cases hr with
          | what h2 h3 h4 h5 h6 => exact ⟨_, _, h2, h3, h4, h5, rfl⟩
          | setCall h2 h3 => exact absurd ⟨rfl, h2, h3⟩ h1
  | .sub _ _ _ _, h, _ => by simp only [Supported] at h
  | .odict _ _ _, h, _ => by simp only [Supported] at h
  | .ddict _ _ _, h, _ => by simp only [Supported] at h
  | .obj _ _ _ _ _ _ _ _, h, _ => by simp only [Supported] at h
  | .duck _ _ _ _, h, _ => by simp only [Supported] at h
  | .numtype _, h, _ => by simp only [Supported] at h
  | .wcls _, h, _ => by simp only [Supported] at h
  | .func _ _ _, h, _ => by simp only [Supported] at h
  | .part _ _ _ _, h, _ => by simp only [Supported] at h
  | .builtin _, h, _ => by simp only [Supported] at h
  | .property, h, _ => by simp only [Supported] at h
  | .array _ _, h, _ => by simp only [Supported] at h
  | .rng _ _, h, _ => by simp only [Supported] at h
termination_by structural v => v
theorem tells_readL : ∀ xs : List Val, SupportedL xs → (∀ x ∈ xs, DictKeys x) → ∀ x ∈ xs, TellsRead E x
  | [], _, _, x, hx => by cases hx
  | y :: ys, h, hd, x, hx => by
      simp only [SupportedL] at h
      have h1 := tells_read y h.1 (hd y (by simp))
      have h2 := tells_readL ys h.2 (fun z hz => hd z (by simp [hz]))
      rcases List.mem_cons.1 hx with e | hx
      · rw [e]; exact h1
      · exact h2 x hx
termination_by structural xs => xs
theorem tells_readD : ∀ xs : List (Val × Val), SupportedD xs → (∀ x ∈ xs, DictKeys x.1) → (∀ x ∈ xs, DictKeys x.2) →
    ∀ x ∈ xs, TellsRead E x.1 ∧ TellsRead E x.2
  | [], _, _, _, x, hx => by cases hx
  | (k, v) :: ys, h, hk, hv, x, hx => by
      simp only [SupportedD] at h
      have h0 := tells_read k h.1 (hk (k, v) (by simp))
      have h1 := tells_read v h.2.1 (hv (k, v) (by simp))
      have h2 := tells_readD ys h.2.2 (fun z hz => hk z (by simp [hz])) (fun z hz => hv z (by simp [hz]))
      rcases List.mem_cons.1 hx with e | hx
      · rw [e]; exact ⟨h0, h1⟩
      · exact h2 x hx
termination_by structural xs => xs
theorem tells_readA {nk : List Str} : ∀ xs : List (Str × Val), SupportedA nk xs → (∀ k x, (k, x) ∈ xs → DictKeys x) →
    ∀ k v, (k, v) ∈ xs → k ∉ nk → TellsRead E v
  | [], _, _, k, v, hx => by cases hx
  | (k', v') :: ys, h, hd, k, v, hx => by
      simp only [SupportedA] at h
      have h1 := fun hk => tells_read v' (h.1 hk).2 (hd k' v' (by simp))
      have h2 := tells_readA ys h.2 (fun z x hz => hd z x (by simp [hz]))
      intro hk
      rcases List.mem_cons.1 hx with e | hx
      · cases e; exact h1 hk
      · exact h2 k v hx hk
termination_by structural xs => xs
end

/-- C91. The id of a configuration (of None, booleans, numbers, strings, classes, collections and Whats, nested in any way) can be read if and only if
the configuration is legible and there is something it is read as, and it is read as nothing else. -/
theorem c91_read {w : What} (hE : FindsClasses E) (h : SupportedWhat w) (hd : DictKeys w.toVal) :
    ∃ s, idD w = .ok s ∧ ∀ u, parseWhatid E s = .ok u ↔ LegibleWhat w ∧ WhatReadAs E w u := by
  obtain ⟨ho, hn, hk, ht⟩ := supported_items (E := E) h
  refine ⟨_, ht, fun u => ?_⟩
  have hl := items_legible hk
  rcases parse_loose (E := E) ho hn (items_loose hk) with ⟨h1, h2⟩ | ⟨h1, h2, h3, -⟩
  · rw [h2]
    exact ⟨fun e => (by cases e), fun a => absurd (hl.2 a.1) h1⟩
  · rw [h3, semTop_iff hE, and_iff_right (show LegibleWhat w from hl.1 ⟨h1, h2⟩)]
    have hc := h
    simp only [SupportedWhat, What.toVal, Supported] at hc
    rw [reads_params (hd _ _ _ _ (.refl _)) (tells_readA w.conf hc.2.2 fun k x hx => dictKeys_child hd (.what k _ _ _ hx))]
    obtain ⟨un, uc, unk, uo⟩ := u
    simp only [WhatReadAs, Val.what.injEq]
    constructor
    · rintro ⟨ps, l, h1, h2, h3, h4, rfl, rfl, rfl, rfl⟩
      exact ⟨rfl, rfl, rfl, ps, h1, h2, h3, h4⟩
    · rintro ⟨rfl, rfl, rfl, ps, h1, h2, h3, h4⟩
      exact ⟨ps, uc, h1, h2, h3, h4, rfl, rfl, rfl, rfl⟩

end

end Whatami
