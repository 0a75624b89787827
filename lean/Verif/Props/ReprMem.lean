import Verif.Spec.ReprMem
import Verif.BasicLemmas
import Verif.Props.FlatMem

/-
C108: `repr` of configurations that contain themselves.
-/
namespace Whatami

theorem eachRepr_mono {f g : Nat → Option Str} (h : ∀ x r, f x = some r → g x = some r) : ∀ {xs : List Nat} {l : List Str}, eachRepr f xs = some l → eachRepr g xs = some l
  | [], _, e => e
  | x :: xs, l, e => by
      simp only [eachRepr] at e ⊢
      obtain ⟨a, ha, e⟩ := Option.bind_eq_some_iff.1 e
      obtain ⟨r, hr, e⟩ := Option.map_eq_some_iff.1 e
      rw [h _ _ ha, Option.bind_some, eachRepr_mono h hr]
      subst e
      rfl

theorem eachRepr_total {f : Nat → Option Str} : ∀ {xs : List Nat}, (∀ x ∈ xs, ∃ s, f x = some s) → ∃ l, eachRepr f xs = some l
  | [], _ => ⟨[], rfl⟩
  | x :: xs, h => by
      obtain ⟨s, hs⟩ := h x (by simp)
      obtain ⟨l, hl⟩ := eachRepr_total (xs := xs) fun y hy => h y (by simp [hy])
      exact ⟨s :: l, by simp [eachRepr, hs, hl]⟩

theorem eachRepr_map {f : Nat → Option Str} {g : Nat → Str} : ∀ {xs : List Nat}, (∀ x ∈ xs, f x = some (g x)) → eachRepr f xs = some (xs.map g)
  | [], _ => rfl
  | x :: xs, h => by
      simp only [eachRepr, h x (by simp), eachRepr_map (xs := xs) fun y hy => h y (by simp [hy])]
      rfl

section
variable {p : Char → Bool} {mem : Nat → RCell}

/-! ### The size of the stack -/

theorem reprMem_succ : ∀ {n a : Nat} {act : List Nat} {s : Str}, reprMem p mem n act a = some s → reprMem p mem (n + 1) act a = some s
  | 0, _, _, _, h => by cases h
  | n + 1, a, act, s, h => by
      rw [reprMem] at h ⊢
      cases hc : mem a with
      | data v => rw [hc] at h; exact h
      | tuple xs =>
        rw [hc] at h
        dsimp only at h ⊢
        split at h
        · next c => rw [if_pos c]; exact h
        · next c =>
          obtain ⟨l, hl, e⟩ := Option.map_eq_some_iff.1 h
          rw [if_neg c, eachRepr_mono (fun _ _ e => reprMem_succ e) hl]
          exact congrArg some e
      | list xs =>
        rw [hc] at h
        dsimp only at h ⊢
        split at h
        · next c => rw [if_pos c]; exact h
        · next c =>
          obtain ⟨l, hl, e⟩ := Option.map_eq_some_iff.1 h
          rw [if_neg c, eachRepr_mono (fun _ _ e => reprMem_succ e) hl]
          exact congrArg some e
      | dict kvs =>
        rw [hc] at h
        dsimp only at h ⊢
        split at h
        · next c => rw [if_pos c]; exact h
        · next c =>
          obtain ⟨l, hl, e⟩ := Option.map_eq_some_iff.1 h
          rw [if_neg c, eachRepr_mono (fun _ _ e => reprMem_succ e) hl]
          exact congrArg some e
      | what name d nk o =>
        rw [hc] at h
        dsimp only at h ⊢
        obtain ⟨l, hl, e⟩ := Option.map_eq_some_iff.1 h
        rw [reprMem_succ hl]
        exact congrArg some e

theorem reprMem_le {n m a : Nat} {act : List Nat} {s : Str} (le : n ≤ m) (h : reprMem p mem n act a = some s) : reprMem p mem m act a = some s := by
  induction le with
  | refl => exact h
  | step _ ih => exact reprMem_succ ih

theorem whatReprMem_ok {n a : Nat} {s : Str} : whatReprMem p mem n a = .ok s ↔ reprMem p mem n [] a = some s := by
  rw [whatReprMem]
  cases reprMem p mem n [] a <;> simp

/-! ### It ends -/

/-- How many there are that are not being shown. -/
def hidden (L act : List Nat) : Nat := (L.filter fun x => !act.contains x).length

theorem hidden_cons {L act : List Nat} {a : Nat} (ha : a ∈ L) (hn : a ∉ act) : hidden L (a :: act) + 1 ≤ hidden L act := by
  have sub : ∀ M : List Nat, hidden M (a :: act) ≤ hidden M act := by
    intro M
    induction M with
    | nil => exact Nat.le_refl _
    | cons b M ih =>
      simp only [hidden, List.filter_cons, List.contains_cons] at ih ⊢
      cases b == a <;> cases act.contains b <;> simp at ih ⊢ <;> omega
  induction L with
  | nil => cases ha
  | cons b M ih =>
    have := sub M
    by_cases e : b = a
    · subst e
      have h1 : act.contains b = false := by simpa using hn
      simp only [hidden, List.filter_cons, List.contains_cons, beq_self_eq_true, h1, Bool.true_or, Bool.not_true, Bool.not_false, if_true, Bool.false_eq_true, if_false,
        List.length_cons] at this ⊢
      omega
    · have ih := ih ((List.mem_cons.1 ha).resolve_left fun h => e h.symm)
      have h1 : (b == a) = false := by simpa using e
      simp only [hidden, List.filter_cons, List.contains_cons, h1, Bool.false_or] at ih ⊢
      cases act.contains b <;> simp at ih ⊢ <;> omega

theorem reprMem_ends {L : List Nat} (closed : ∀ x ∈ L, ∀ i y, ItemR (mem x) i y → y ∈ L) (confs : ConfsR mem) : ∀ (n : Nat) (act : List Nat) (a : Nat), a ∈ L →
    (2 * hidden L act + 2 ≤ n ∨ (2 * hidden L act + 1 ≤ n ∧ ∀ m d nk o, mem a ≠ .what m d nk o)) → ∃ s, reprMem p mem n act a = some s
  | 0, _, _, _, h => by omega
  | n + 1, act, a, ha, h => by
      have items : a ∉ act → (∀ m d nk o, mem a ≠ .what m d nk o) → ∀ x i, ItemR (mem a) i x → ∃ s, reprMem p mem n (a :: act) x = some s := by
        intro hn hw x i hx
        have := hidden_cons ha hn
        exact reprMem_ends closed confs n (a :: act) x (closed a ha i x hx) (.inl (by omega))
      rw [reprMem]
      cases hc : mem a with
      | data v => exact ⟨_, rfl⟩
      | tuple xs =>
        dsimp only
        split
        · exact ⟨_, rfl⟩
        · next c =>
          obtain ⟨l, hl⟩ := eachRepr_total (f := reprMem p mem n (a :: act)) (xs := xs) fun x hx => by
            obtain ⟨i, hi⟩ := List.getElem?_of_mem hx
            exact items c (by rw [hc]; intros; exact RCell.noConfusion) x i (by rw [hc]; exact .tuple hi)
          exact ⟨_, by rw [hl]; rfl⟩
      | list xs =>
        dsimp only
        split
        · exact ⟨_, rfl⟩
        · next c =>
          obtain ⟨l, hl⟩ := eachRepr_total (f := reprMem p mem n (a :: act)) (xs := xs) fun x hx => by
            obtain ⟨i, hi⟩ := List.getElem?_of_mem hx
            exact items c (by rw [hc]; intros; exact RCell.noConfusion) x i (by rw [hc]; exact .list hi)
          exact ⟨_, by rw [hl]; rfl⟩
      | dict kvs =>
        dsimp only
        split
        · exact ⟨_, rfl⟩
        · next c =>
          obtain ⟨l, hl⟩ := eachRepr_total (f := reprMem p mem n (a :: act)) (xs := kvs.map (·.2)) fun x hx => by
            obtain ⟨kv, hkv, rfl⟩ := List.mem_map.1 hx
            obtain ⟨i, hi⟩ := List.getElem?_of_mem hkv
            exact items c (by rw [hc]; intros; exact RCell.noConfusion) kv.2 i (by rw [hc]; exact .dict hi)
          exact ⟨_, by rw [hl]; rfl⟩
      | what m d nk o =>
        dsimp only
        have hd := closed a ha 0 d (by rw [hc]; exact .conf)
        obtain ⟨kvs, hk⟩ := confs _ _ _ _ _ hc
        rcases h with h | ⟨_, h⟩
        · obtain ⟨s, hs⟩ := reprMem_ends closed confs n act d hd (.inr ⟨by omega, by rw [hk]; intros; exact RCell.noConfusion⟩)
          exact ⟨_, by rw [hs]; rfl⟩
        · exact absurd hc (h _ _ _ _)

/-! ### Of trees -/

theorem ItemR.mem_of {a : Nat} {xs : List Nat} {i x : Nat} (hc : mem a = .tuple xs ∨ mem a = .list xs) (h : ItemR (mem a) i x) : x ∈ xs := by
  rcases hc with hc | hc <;> rw [hc] at h <;> cases h <;> exact List.mem_of_getElem? ‹_›

theorem acc_irrefl {α : Type} {r : α → α → Prop} {a : α} (h : Acc r a) : ¬ r a a := by
  induction h with
  | intro a _ ih => exact fun hr => ih a hr hr

theorem tree_acc {a : Nat} {v : Val} (h : IsTreeR mem a v) : Acc (fun y x => ∃ i, ItemR (mem x) i y) a := by
  induction h with
  | data h => refine Acc.intro _ fun y ⟨i, hy⟩ => ?_; rw [h] at hy; cases hy
  | tuple φ h _ ih => exact Acc.intro _ fun y ⟨i, hy⟩ => ih y (hy.mem_of (.inl h))
  | list φ h _ ih => exact Acc.intro _ fun y ⟨i, hy⟩ => ih y (hy.mem_of (.inr h))
  | dict φ h _ ih =>
    refine Acc.intro _ fun y ⟨i, hy⟩ => ?_
    rw [h] at hy
    cases hy with
    | dict hy => exact ih _ (List.mem_of_getElem? hy)
  | what φ h hd _ ih =>
    refine Acc.intro _ fun y ⟨i, hy⟩ => ?_
    rw [h] at hy
    cases hy
    refine Acc.intro _ fun y ⟨i, hy⟩ => ?_
    rw [hd] at hy
    cases hy with
    | dict hy =>
      obtain ⟨kv, hkv, e⟩ := List.mem_map.1 (List.mem_of_getElem? hy)
      cases e
      exact ih _ hkv

theorem InsideR.trans {a b c : Nat} (h : InsideR mem a b) (h' : InsideR mem b c) : InsideR mem a c := by
  induction h with
  | refl => exact h'
  | step hi _ ih => exact .step hi (ih h')

theorem not_inside_item {a x i : Nat} (acc : Acc (fun y x => ∃ i, ItemR (mem x) i y) a) (hi : ItemR (mem a) i x) : ¬ InsideR mem x a := by
  induction acc generalizing x i with
  | intro a _ ih =>
    intro h
    cases h with
    | refl => exact ih a ⟨i, hi⟩ hi .refl
    | step hj hk => exact ih x ⟨i, hi⟩ hj (hk.trans (.step hi .refl))

theorem reprTail_map (φ : Nat → Val) : ∀ xs : List Nat, reprTail p (xs.map φ) = commaTail (xs.map fun x => reprV p (φ x))
  | [] => rfl
  | x :: xs => by simp only [List.map_cons, reprTail, commaTail, reprTail_map φ xs]

theorem reprTailD_map (φ : Nat → Val) : ∀ kvs : List (Val × Nat), reprTailD p (kvs.map fun kv => (kv.1, φ kv.2)) =
    commaTail (entryTexts p kvs (kvs.map fun kv => reprV p (φ kv.2)))
  | [] => rfl
  | kv :: kvs => by simp only [List.map_cons, reprTailD, entryTexts, commaTail, reprTailD_map φ kvs, List.append_assoc]

theorem reprTailA_map (φ : Nat → Val) : ∀ kvs : List (Str × Nat), reprTailA p (kvs.map fun kv => (kv.1, φ kv.2)) =
    commaTail (entryTexts p (kvs.map fun kv => (.str kv.1, kv.2)) (kvs.map fun kv => reprV p (φ kv.2)))
  | [] => rfl
  | kv :: kvs => by simp only [List.map_cons, reprTailA, entryTexts, commaTail, reprTailA_map φ kvs, List.append_assoc, reprV]

theorem reprV_tuple (φ : Nat → Val) (xs : List Nat) : reprV p (.tuple (xs.map φ)) = tupleText (xs.map fun x => reprV p (φ x)) := by
  match xs with
  | [] => simp [reprV, tupleText]
  | [x] => simp [reprV, tupleText]
  | x :: y :: xs => simp only [List.map_cons, reprV, tupleText, commaItems, reprTail, commaTail, reprTail_map]; simp

theorem reprV_list (φ : Nat → Val) (xs : List Nat) : reprV p (.list (xs.map φ)) = '[' :: commaItems (xs.map fun x => reprV p (φ x)) ++ c!"]" := by
  cases xs with
  | nil => simp [reprV, commaItems]
  | cons x xs => simp only [List.map_cons, reprV, commaItems, reprTail_map]; simp

theorem reprV_dict (φ : Nat → Val) (kvs : List (Val × Nat)) : reprV p (.dict (kvs.map fun kv => (kv.1, φ kv.2))) =
    '{' :: commaItems (entryTexts p kvs (kvs.map fun kv => reprV p (φ kv.2))) ++ c!"}" := by
  cases kvs with
  | nil => simp [reprV, commaItems, entryTexts]
  | cons kv kvs => simp only [List.map_cons, reprV, commaItems, entryTexts, reprTailD_map]; simp

theorem reprV_what (φ : Nat → Val) (n : Str) (kvs : List (Str × Nat)) (nk : List Str) (o : Option Str) :
    reprV p (.what n (kvs.map fun kv => (kv.1, φ kv.2)) nk o) = c!"What(" ++ reprStr p n ++ c!", " ++
      ('{' :: commaItems (entryTexts p (kvs.map fun kv => (.str kv.1, kv.2)) (kvs.map fun kv => reprV p (φ kv.2))) ++ c!"}") ++ c!", " ++
      reprStrSet p nk ++ c!", " ++ reprOut p o ++ c!")" := by
  cases kvs with
  | nil => simp [reprV, commaItems, entryTexts]
  | cons kv kvs => simp only [List.map_cons, reprV, commaItems, entryTexts, reprTailA_map]; simp

theorem bound_all {P : Nat → Nat → Prop} (mono : ∀ x n m, n ≤ m → P x n → P x m) : ∀ xs : List Nat, (∀ x ∈ xs, ∃ n, P x n) → ∃ n, ∀ x ∈ xs, P x n
  | [], _ => ⟨0, by simp⟩
  | x :: xs, h => by
      obtain ⟨n, hn⟩ := bound_all mono xs fun y hy => h y (by simp [hy])
      obtain ⟨m, hm⟩ := h x (by simp)
      refine ⟨max n m, fun y hy => ?_⟩
      rcases List.mem_cons.1 hy with rfl | hy
      · exact mono _ _ _ (Nat.le_max_right _ _) hm
      · exact mono _ _ _ (Nat.le_max_left _ _) (hn y hy)

/-- What there is to show of what is not being shown. -/
def ShowsAs (p : Char → Bool) (mem : Nat → RCell) (a n : Nat) (s : Str) : Prop :=
  ∀ act : List Nat, (∀ b ∈ act, ¬ InsideR mem a b) → reprMem p mem n act a = some s

theorem ShowsAs.le {a n m : Nat} {s : Str} (le : n ≤ m) (h : ShowsAs p mem a n s) : ShowsAs p mem a m s := fun act ha => reprMem_le le (h act ha)

theorem shows_items {a : Nat} (acc : Acc (fun y x => ∃ i, ItemR (mem x) i y) a) {xs : List Nat} (items : ∀ x ∈ xs, ∃ i, ItemR (mem a) i x) {g : Nat → Str}
    (h : ∀ x ∈ xs, ∃ n, ShowsAs p mem x n (g x)) : ∃ n, ∀ act : List Nat, (∀ b ∈ act, ¬ InsideR mem a b) →
      eachRepr (reprMem p mem n (a :: act)) xs = some (xs.map g) := by
  obtain ⟨n, hn⟩ := bound_all (P := fun x n => ShowsAs p mem x n (g x)) (fun _ _ _ le h => h.le le) xs h
  refine ⟨n, fun act ha => eachRepr_map fun x hx => hn x hx _ fun b hb => ?_⟩
  obtain ⟨i, hi⟩ := items x hx
  rcases List.mem_cons.1 hb with rfl | hb
  · exact not_inside_item acc hi
  · exact fun h => ha b hb (.step hi h)

theorem tree_repr {a : Nat} {v : Val} (h : IsTreeR mem a v) : ∃ n, ShowsAs p mem a n (reprV p v) := by
  induction h with
  | data h => exact ⟨1, fun act _ => by rw [reprMem, h]⟩
  | @tuple a xs φ h hx ih =>
    obtain ⟨n, hn⟩ := shows_items (tree_acc (.tuple φ h hx)) (xs := xs) (fun x hx => by
      obtain ⟨i, hi⟩ := List.getElem?_of_mem hx
      exact ⟨i, by rw [h]; exact .tuple hi⟩) ih
    refine ⟨n + 1, fun act ha => ?_⟩
    rw [reprMem, h]
    dsimp only
    rw [if_neg fun hm => ha _ hm .refl, hn act ha, reprV_tuple]
    rfl
  | @list a xs φ h hx ih =>
    obtain ⟨n, hn⟩ := shows_items (tree_acc (.list φ h hx)) (xs := xs) (fun x hx => by
      obtain ⟨i, hi⟩ := List.getElem?_of_mem hx
      exact ⟨i, by rw [h]; exact .list hi⟩) ih
    refine ⟨n + 1, fun act ha => ?_⟩
    rw [reprMem, h]
    dsimp only
    rw [if_neg fun hm => ha _ hm .refl, hn act ha, reprV_list]
    rfl
  | @dict a kvs φ h hx ih =>
    obtain ⟨n, hn⟩ := shows_items (p := p) (g := fun x => reprV p (φ x)) (tree_acc (.dict φ h hx)) (xs := kvs.map (·.2)) (fun x hx => by
      obtain ⟨kv, hkv, rfl⟩ := List.mem_map.1 hx
      obtain ⟨i, hi⟩ := List.getElem?_of_mem hkv
      exact ⟨i, by rw [h]; exact .dict hi⟩) (fun x hx => by
      obtain ⟨kv, hkv, rfl⟩ := List.mem_map.1 hx
      exact ih kv hkv)
    refine ⟨n + 1, fun act ha => ?_⟩
    rw [reprMem, h]
    dsimp only
    rw [if_neg fun hm => ha _ hm .refl, hn act ha, reprV_dict, List.map_map]
    rfl
  | @what a m d nk o kvs φ h hd hx ih =>
    have acc := tree_acc (.what φ h hd hx)
    have toD : ItemR (mem a) 0 d := by rw [h]; exact .conf
    have hd' := hd
    obtain ⟨n, hn⟩ := shows_items (p := p) (g := fun x => reprV p (φ x)) (acc.inv ⟨0, toD⟩) (xs := kvs.map (·.2)) (fun x hx => by
      obtain ⟨kv, hkv, rfl⟩ := List.mem_map.1 hx
      obtain ⟨i, hi⟩ := List.getElem?_of_mem (List.mem_map.2 ⟨kv, hkv, rfl⟩ : ((.str kv.1 : Val), kv.2) ∈ kvs.map fun kv => ((.str kv.1 : Val), kv.2))
      exact ⟨i, by rw [hd]; exact .dict hi⟩) (fun x hx => by
      obtain ⟨kv, hkv, rfl⟩ := List.mem_map.1 hx
      exact ih kv hkv)
    refine ⟨n + 2, fun act ha => ?_⟩
    have ha' : ∀ b ∈ act, ¬ InsideR mem d b := fun b hb hi => ha b hb (.step toD hi)
    rw [reprMem, h]
    dsimp only
    rw [reprMem, hd]
    dsimp only
    rw [if_neg fun hm => ha' _ hm .refl, List.map_map,
      show ((fun x : Val × Nat => x.2) ∘ fun kv : Str × Nat => ((.str kv.1 : Val), kv.2)) = fun kv => kv.2 from rfl, hn act ha', reprV_what, List.map_map]
    rfl

end

/-- C108. `repr` of a configuration ends, on a stack that is large enough for it, with the same text whatever the stack (else it raises), if it contains
finitely many objects; -/
theorem c108_ends (p : Char → Bool) (mem : Nat → RCell) (confs : ConfsR mem) (a : Nat) (L : List Nat) (finite : ∀ x, InsideR mem a x ↔ x ∈ L) :
    ∃ s, (∀ n, 2 * L.length + 2 ≤ n → whatReprMem p mem n a = .ok s) ∧ ∀ n, whatReprMem p mem n a = .ok s ∨ whatReprMem p mem n a = .error .recursionError := by
  have closed : ∀ x ∈ L, ∀ i y, ItemR (mem x) i y → y ∈ L := fun x hx i y h => (finite y).1 (((finite x).2 hx).trans (.step h .refl))
  have full : hidden L [] = L.length := by simp [hidden]
  obtain ⟨s, hs⟩ := reprMem_ends (p := p) closed confs (2 * L.length + 2) [] a ((finite a).1 .refl) (.inl (by omega))
  refine ⟨s, fun n hn => whatReprMem_ok.2 (reprMem_le hn hs), fun n => ?_⟩
  cases e : reprMem p mem n [] a with
  | none => exact .inr (by rw [whatReprMem, e])
  | some t =>
    refine .inl (whatReprMem_ok.2 ?_)
    have h1 := reprMem_le (Nat.le_max_left n (2 * L.length + 2)) e
    rw [reprMem_le (Nat.le_max_right n (2 * L.length + 2)) hs] at h1
    rw [e]
    exact h1.symm

/-- C108. of one that is a tree, whatever parts it shares, it is the `repr` of C73; -/
theorem c108_tree (p : Char → Bool) (mem : Nat → RCell) (a : Nat) (w : What) (h : IsTreeR mem a w.toVal) :
    ∃ N, ∀ n, N ≤ n → whatReprMem p mem n a = .ok (w.repr p) := by
  obtain ⟨N, hN⟩ := tree_repr (p := p) h
  exact ⟨N, fun n hn => whatReprMem_ok.2 (reprMem_le hn (hN [] (by simp)))⟩

/-- C108. and so tells everything of those that are trees; -/
theorem c108_told (p : Char → Bool) (mem mem' : Nat → RCell) (a a' n n' : Nat) (w w' : What) (h : IsTreeR mem a w.toVal) (h' : IsTreeR mem' a' w'.toVal)
    (d : ∀ kv ∈ w.conf, ReprData kv.2) (d' : ∀ kv ∈ w'.conf, ReprData kv.2) (s : Str) (e : whatReprMem p mem n a = .ok s) (e' : whatReprMem p mem' n' a' = .ok s) :
    w = w' := by
  have same : ∀ {mem : Nat → RCell} {a n : Nat} {w : What}, IsTreeR mem a w.toVal → whatReprMem p mem n a = .ok s → w.repr p = s := by
    intro mem a n w h e
    obtain ⟨N, hN⟩ := c108_tree p mem a w h
    have h1 := reprMem_le (Nat.le_max_left n N) (whatReprMem_ok.1 e)
    have h2 := whatReprMem_ok.1 (hN _ (Nat.le_max_right n N))
    rw [h2] at h1
    exact Option.some.inj h1
  obtain ⟨h1, h2, h3, h4⟩ := c73_told p d d' ((same h e).trans (same h' e').symm)
  cases w
  cases w'
  cases h1
  cases h2
  cases h3
  cases h4
  rfl

/-- `m = [2]; l = [1, m]; m.append(l); What('f', {'x': l})` and `k = [2]; k.append(k); What('f', {'x': [1, k]})` -/
def tangles : Nat → RCell
  | 0 => .what c!"f" 1 [] none
  | 1 => .dict [(.str c!"x", 2)]
  | 2 => .list [8, 3]
  | 3 => .list [9, 2]
  | 4 => .what c!"f" 5 [] none
  | 5 => .dict [(.str c!"x", 6)]
  | 6 => .list [8, 7]
  | 7 => .list [9, 7]
  | 8 => .data (.int 1)
  | 9 => .data (.int 2)
  | _ => .data .none

/-- C108. but two that contain themselves may have the same `repr` and different things in them. -/
theorem c108_confused : ∃ (mem : Nat → RCell) (a b : Nat), ConfsR mem ∧ (∀ p n, whatReprMem p mem n a = whatReprMem p mem n b) ∧
    (∃ N s, ∀ p n, N ≤ n → whatReprMem p mem n a = .ok s) ∧
    ∃ q x y, LeadsR mem a q x ∧ LeadsR mem b q y ∧ mem x = .data (.int 1) ∧ mem y = .data (.int 2) := by
  refine ⟨tangles, 0, 4, ?_, fun p n => ?_, ⟨6, c!"What('f', {'x': [1, [2, [...]]]}, set(), None)", fun p n hn => ?_⟩, [0, 0, 1, 1, 0], 8, 9, ?_, ?_, rfl, rfl⟩
  · intro a n d nk o h
    unfold tangles at h
    split at h <;> first | (cases h; done) | (cases h; exact ⟨_, rfl⟩)
  · by_cases hn : n < 6
    · have : n = 0 ∨ n = 1 ∨ n = 2 ∨ n = 3 ∨ n = 4 ∨ n = 5 := by omega
      rcases this with rfl | rfl | rfl | rfl | rfl | rfl <;> rfl
    · rw [whatReprMem_ok.2 (reprMem_le (n := 6) (by omega) rfl), whatReprMem_ok.2 (reprMem_le (n := 6) (s := _) (by omega) rfl)]
      rfl
  · exact whatReprMem_ok.2 (reprMem_le hn rfl)
  · exact .item .conf (.item (.dict (k := .str c!"x") rfl) (.item (.list (r := 3) rfl) (.item (.list (r := 2) rfl) (.item (.list rfl) .here))))
  · exact .item .conf (.item (.dict (k := .str c!"x") rfl) (.item (.list (r := 7) rfl) (.item (.list (r := 7) rfl) (.item (.list rfl) .here))))

/-! ### A tree is taken for nothing else -/

section
variable {p : Char → Bool} {mem : Nat → RCell}

theorem treeR_unique {a : Nat} {v w : Val} (h : IsTreeR mem a v) (h' : IsTreeR mem a w) : v = w := by
  induction h generalizing w with
  | data h =>
    cases h' with
    | data e => rw [h] at e; cases e; rfl
    | tuple _ e _ => rw [h] at e; cases e
    | list _ e _ => rw [h] at e; cases e
    | dict _ e _ => rw [h] at e; cases e
    | what _ e _ _ => rw [h] at e; cases e
  | tuple φ h _ ih =>
    cases h' with
    | tuple ψ e hx => rw [h] at e; cases e; exact congrArg _ (List.map_congr_left fun x hm => ih x hm (hx x hm))
    | data e => rw [h] at e; cases e
    | list _ e _ => rw [h] at e; cases e
    | dict _ e _ => rw [h] at e; cases e
    | what _ e _ _ => rw [h] at e; cases e
  | list φ h _ ih =>
    cases h' with
    | list ψ e hx => rw [h] at e; cases e; exact congrArg _ (List.map_congr_left fun x hm => ih x hm (hx x hm))
    | data e => rw [h] at e; cases e
    | tuple _ e _ => rw [h] at e; cases e
    | dict _ e _ => rw [h] at e; cases e
    | what _ e _ _ => rw [h] at e; cases e
  | dict φ h _ ih =>
    cases h' with
    | dict ψ e hx => rw [h] at e; cases e; exact congrArg _ (List.map_congr_left fun kv hm => by rw [ih kv hm (hx kv hm)])
    | data e => rw [h] at e; cases e
    | tuple _ e _ => rw [h] at e; cases e
    | list _ e _ => rw [h] at e; cases e
    | what _ e _ _ => rw [h] at e; cases e
  | @what _ _ _ _ _ kvs φ h hd _ ih =>
    cases h' with
    | @what _ _ _ _ _ kvs' ψ e hd' hx =>
      rw [h] at e
      cases e
      rw [hd] at hd'
      injection hd' with e
      have e : kvs = kvs' := by
        have inj : ∀ a b : List (Str × Nat), (a.map fun kv => ((.str kv.1 : Val), kv.2)) = b.map (fun kv => ((.str kv.1 : Val), kv.2)) → a = b := by
          intro a
          induction a with
          | nil => intro b h; cases b <;> simp_all
          | cons x a ih =>
            intro b h
            cases b with
            | nil => simp at h
            | cons y b =>
              simp only [List.map_cons, List.cons.injEq, Prod.mk.injEq, Val.str.injEq] at h
              rw [ih b h.2, Prod.ext h.1.1 h.1.2]
        exact inj _ _ e
      subst e
      exact congrArg (fun c => Val.what _ c _ _) (List.map_congr_left fun kv hm => by rw [ih kv hm (hx kv hm)])
    | data e => rw [h] at e; cases e
    | tuple _ e _ => rw [h] at e; cases e
    | list _ e _ => rw [h] at e; cases e
    | dict _ e _ => rw [h] at e; cases e

theorem rows_choose : ∀ {xs : List Nat} {ys : List Val} (_ : Rows (IsTreeR mem) xs ys), ∃ φ : Nat → Val, ys = xs.map φ ∧ ∀ x ∈ xs, IsTreeR mem x (φ x) := by
  intro xs ys h
  classical
  refine ⟨fun x => if h : ∃ y, IsTreeR mem x y then Classical.choose h else .none, ?_⟩
  induction h with
  | nil => exact ⟨rfl, by simp⟩
  | @cons x y xs ys hxy _ ih =>
    have hx : (if h : ∃ y, IsTreeR mem x y then Classical.choose h else .none) = y := by
      rw [dif_pos ⟨y, hxy⟩]
      exact treeR_unique (Classical.choose_spec (⟨y, hxy⟩ : ∃ y, IsTreeR mem x y)) hxy
    refine ⟨by rw [List.map_cons, hx, ← ih.1], fun z hz => ?_⟩
    rcases List.mem_cons.1 hz with rfl | hz
    · dsimp only; rw [hx]; exact hxy
    · exact ih.2 z hz

theorem rows_choose_dict : ∀ {kvs : List (Val × Nat)} {ys : List (Val × Val)} (_ : Rows (fun kv y => kv.1 = y.1 ∧ IsTreeR mem kv.2 y.2) kvs ys),
    ∃ φ : Nat → Val, ys = kvs.map (fun kv => (kv.1, φ kv.2)) ∧ ∀ kv ∈ kvs, IsTreeR mem kv.2 (φ kv.2) := by
  intro kvs ys h
  classical
  refine ⟨fun x => if h : ∃ y, IsTreeR mem x y then Classical.choose h else .none, ?_⟩
  induction h with
  | nil => exact ⟨rfl, by simp⟩
  | @cons kv y kvs ys hxy _ ih =>
    have hx : (if h : ∃ y, IsTreeR mem kv.2 y then Classical.choose h else .none) = y.2 := by
      rw [dif_pos ⟨y.2, hxy.2⟩]
      exact treeR_unique (Classical.choose_spec (⟨y.2, hxy.2⟩ : ∃ y, IsTreeR mem kv.2 y)) hxy.2
    refine ⟨congr (congrArg List.cons (Prod.ext hxy.1.symm hx.symm)) ih.1, fun z hz => ?_⟩
    rcases List.mem_cons.1 hz with rfl | hz
    · dsimp only; rw [hx]; exact hxy.2
    · exact ih.2 z hz

theorem tupleText_cons (ss : List Str) : ∃ t, tupleText ss = '(' :: t := by
  match ss with
  | [] => exact ⟨_, rfl⟩
  | [_] => exact ⟨_, rfl⟩
  | _ :: _ :: _ => exact ⟨_, rfl⟩

theorem mem_start (good : GoodR mem) {n a : Nat} {act : List Nat} {s : Str} (h : reprMem p mem n act a = some s) {c : Char} (hc : c ∈ c!",)]}: ") (r t : Str) :
    s ++ r ≠ c :: t := by
  have nonleaf : ∀ {d : Char} {u : Str}, d ∉ c!",)]}: " → d :: u ≠ c :: t := by
    rintro d u hd e
    exact hd ((List.cons.inj e).1 ▸ hc)
  cases n with
  | zero => cases h
  | succ n =>
    rw [reprMem] at h
    cases e : mem a with
    | data v => rw [e] at h; cases h; exact repr_start p (good.data _ _ e) hc _ _
    | tuple xs =>
      rw [e] at h
      dsimp only at h
      split at h
      · cases h; exact nonleaf (by decide)
      · obtain ⟨ss, _, rfl⟩ := Option.map_eq_some_iff.1 h
        obtain ⟨u, hu⟩ := tupleText_cons ss
        rw [hu]
        exact nonleaf (by decide)
    | list xs =>
      rw [e] at h
      dsimp only at h
      split at h
      · cases h; exact nonleaf (by decide)
      · obtain ⟨ss, _, rfl⟩ := Option.map_eq_some_iff.1 h
        exact nonleaf (by decide)
    | dict xs =>
      rw [e] at h
      dsimp only at h
      split at h
      · cases h; exact nonleaf (by decide)
      · obtain ⟨ss, _, rfl⟩ := Option.map_eq_some_iff.1 h
        exact nonleaf (by decide)
    | what m d nk o =>
      rw [e] at h
      dsimp only at h
      obtain ⟨ss, _, rfl⟩ := Option.map_eq_some_iff.1 h
      simp only [List.append_assoc]
      exact nonleaf (by decide)

/-- Texts are read as they are shown. -/
def ReadsTree (p : Char → Bool) (mem : Nat → RCell) (f : Nat → Option Str) (y : Val) : Prop :=
  ∀ x s r r', f x = some s → AfterValue r → AfterValue r' → s ++ r = reprV p y ++ r' → IsTreeR mem x y ∧ r = r'

theorem after_commas (ss : List Str) {c : Char} (h : c ∈ c!",)]}:") (s : Str) : AfterValue (commaTail ss ++ c :: s) := by
  cases ss with
  | nil => exact after_cons h s
  | cons x xs => simp only [commaTail, List.append_assoc]; exact after_cons (by decide) _

theorem each_tail {f : Nat → Option Str} {c : Char} (hc : c ∈ c!")]}") : ∀ {xs : List Nat} {ss : List Str} {ys : List Val} {r r' : Str}, (∀ y ∈ ys, ReadsTree p mem f y) →
    eachRepr f xs = some ss → commaTail ss ++ c :: r = reprTail p ys ++ c :: r' → Rows (IsTreeR mem) xs ys ∧ r = r' := by
  have hc1 : c ∈ c!",)]}:" := by simp at hc ⊢; grind
  have hc2 : c ≠ ',' := by rintro rfl; simp at hc
  intro xs
  induction xs with
  | nil =>
    intro ss ys r r' _ e h
    cases e
    cases ys with
    | nil => simp [reprTail, commaTail] at h; exact ⟨.nil, h⟩
    | cons y ys => simp [reprTail, commaTail] at h; exact absurd h.1 hc2
  | cons x xs ih =>
    intro ss ys r r' hy e h
    simp only [eachRepr] at e
    obtain ⟨s, hs, e⟩ := Option.bind_eq_some_iff.1 e
    obtain ⟨ss, hss, rfl⟩ := Option.map_eq_some_iff.1 e
    cases ys with
    | nil => simp [reprTail, commaTail] at h; exact absurd h.1.symm hc2
    | cons y ys =>
      simp only [reprTail, commaTail, List.append_assoc, List.cons_append, List.nil_append, List.cons.injEq, true_and] at h
      obtain ⟨h1, h2⟩ := hy y (.head _) x s _ _ hs (after_commas ss hc1 r) (after_tail p ys hc1 r') h
      obtain ⟨h3, h4⟩ := ih (fun z hz => hy z (.tail _ hz)) hss h2
      exact ⟨.cons h1 h3, h4⟩

theorem each_tailD {f : Nat → Option Str} : ∀ {kvs : List (Val × Nat)} {ss : List Str} {ys : List (Val × Val)} {r r' : Str}, (∀ kv ∈ kvs, ReprData kv.1) →
    (∀ y ∈ ys, ReprData y.1 ∧ ReadsTree p mem f y.2) → eachRepr f (kvs.map (·.2)) = some ss →
    commaTail (entryTexts p kvs ss) ++ '}' :: r = reprTailD p ys ++ '}' :: r' → Rows (fun kv y => kv.1 = y.1 ∧ IsTreeR mem kv.2 y.2) kvs ys ∧ r = r' := by
  intro kvs
  induction kvs with
  | nil =>
    intro ss ys r r' _ _ e h
    cases e
    rcases ys with _ | ⟨⟨k, v⟩, ys⟩
    · simp [reprTailD, commaTail, entryTexts] at h; exact ⟨.nil, h⟩
    · simp [reprTailD, commaTail, entryTexts] at h
  | cons kv kvs ih =>
    intro ss ys r r' hk hy e h
    rw [List.map_cons, eachRepr] at e
    obtain ⟨s, hs, e⟩ := Option.bind_eq_some_iff.1 e
    obtain ⟨ss, hss, rfl⟩ := Option.map_eq_some_iff.1 e
    rcases ys with _ | ⟨⟨k', v'⟩, ys⟩
    · simp [reprTailD, commaTail, entryTexts] at h
    · simp only [reprTailD, commaTail, entryTexts, List.append_assoc, List.cons_append, List.nil_append, List.cons.injEq, true_and] at h
      obtain ⟨e1, h2⟩ := told p (hk kv (.head _)) k' _ _ (hy _ (.head _)).1 (after_cons (by decide) _) (after_cons (by decide) _) h
      simp only [List.cons.injEq, true_and] at h2
      obtain ⟨h3, h4⟩ := (hy _ (.head _)).2 kv.2 s _ _ hs (after_commas _ (by decide) r) (after_tailD p ys (by decide) r') h2
      obtain ⟨h5, h6⟩ := ih (fun z hz => hk z (.tail _ hz)) (fun z hz => hy z (.tail _ hz)) hss h4
      exact ⟨.cons ⟨e1, h3⟩ h5, h6⟩

theorem dots_data : ReprData (.float c!"...") := .float ⟨by decide, by decide⟩

theorem reprV_conf (n : Str) (conf : Conf) (nk : List Str) (o : Option Str) : reprV p (.what n conf nk o) = c!"What(" ++ reprStr p n ++ c!", " ++
    reprV p (.dict (conf.map fun kv => (.str kv.1, kv.2))) ++ c!", " ++ reprStrSet p nk ++ c!", " ++ reprOut p o ++ c!")" := by
  rcases conf with _ | ⟨⟨k, v⟩, conf⟩
  · simp [reprV]
  · simp [reprV, tailA_tailD]

end

section
variable {p : Char → Bool} {mem : Nat → RCell}

/-- From the text of a dict. -/
theorem reads_dictMem (good : GoodR mem) {n : Nat} (ih : ∀ act y, ReprData y → ¬ Dots y → ReadsTree p mem (reprMem p mem n act) y) (act : List Nat) {a : Nat}
    {kvs : List (Val × Nat)} (ha : mem a = .dict kvs) {s r r' : Str} (h : reprMem p mem (n + 1) act a = some s) (hr : AfterValue r) (hr' : AfterValue r')
    {w : Val} (hw : ReprData w) (nd : ¬ Dots w) (e : s ++ r = reprV p w ++ r') : IsTreeR mem a w ∧ r = r' := by
  have k1 := kind_repr p hw hr'
  rw [reprMem, ha] at h
  dsimp only at h
  split at h
  · cases h
    rw [← e] at k1
    have k1 : (4 : Nat) = kindVal w := k1
    have mark : ∀ {y : Val} {c : Char} {u : Str}, ReprData y → c ∈ c!",)]}:" → ('.' :: '.' :: '.' :: '}' :: r : Str) = reprV p y ++ c :: u → y = .float c!"..." := by
      intro y c u hy hc e
      exact (told p dots_data y ('}' :: r) (c :: u) hy (after_cons (by decide) _) (after_cons hc _) e).1.symm
    cases hw with
    | @dict ys hk hv =>
      rcases ys with _ | ⟨⟨k, v⟩, ys⟩
      · simp [reprV] at e
      · simp only [reprV, List.append_assoc, List.cons_append, List.nil_append, List.cons.injEq, true_and] at e
        have := mark (hk _ (.head _)) (by decide) e
        dsimp only at this
        subst this
        exact absurd (.dictKey (.head _) .here) nd
    | @set ys hy =>
      rcases ys with _ | ⟨y, ys⟩
      · simp [kindVal] at k1
      · simp only [reprV, List.append_assoc, List.cons_append, List.nil_append, List.cons.injEq, true_and] at e
        rcases ys with _ | ⟨z, ys⟩
        · simp only [reprTail, List.nil_append] at e
          have := mark (hy _ (.head _)) (by decide) e
          subst this
          exact absurd (.set (.head _) .here) nd
        · simp only [reprTail, List.append_assoc, List.cons_append, List.nil_append] at e
          have := mark (hy _ (.head _)) (by decide) e
          subst this
          exact absurd (.set (.head _) .here) nd
    | _ => simp [kindVal] at k1
  · obtain ⟨ss, hss, rfl⟩ := Option.map_eq_some_iff.1 h
    rw [← e] at k1
    have k1 : (4 : Nat) = kindVal w := k1
    have hkeys := good.keys _ _ ha
    cases hw with
    | @dict ys hk hv =>
      rcases kvs with _ | ⟨⟨k, x⟩, kvs⟩
      · cases hss
        rcases ys with _ | ⟨⟨k', v'⟩, ys⟩
        · simp [reprV, commaItems, entryTexts] at e
          exact ⟨.dict (kvs := []) (fun _ => .none) ha (by simp), e⟩
        · simp only [reprV, commaItems, entryTexts, List.append_assoc, List.cons_append, List.nil_append, List.cons.injEq, true_and] at e
          exact absurd e.symm (repr_start p (hk _ (.head _)) (by decide) _ _)
      · rw [List.map_cons, eachRepr] at hss
        obtain ⟨s, hs, h2⟩ := Option.bind_eq_some_iff.1 hss
        clear hss
        obtain ⟨ss, hss, rfl⟩ := Option.map_eq_some_iff.1 h2
        rcases ys with _ | ⟨⟨k', v'⟩, ys⟩
        · simp only [reprV, commaItems, entryTexts, List.append_assoc, List.cons_append, List.nil_append, List.cons.injEq, true_and] at e
          exact absurd e (repr_start p (hkeys _ (.head _)) (by decide) _ _)
        · simp only [reprV, commaItems, entryTexts, List.append_assoc, List.cons_append, List.nil_append, List.cons.injEq, true_and] at e
          obtain ⟨e1, e2⟩ := told p (hkeys _ (.head _)) k' _ _ (hk _ (.head _)) (after_cons (by decide) _) (after_cons (by decide) _) e
          simp only [List.cons.injEq, true_and] at e2
          obtain ⟨h3, h4⟩ := ih _ v' (hv _ (.head _)) (fun h => nd (.dictVal (.head _) h)) x s _ _ hs (after_commas _ (by decide) r) (after_tailD p ys (by decide) r') e2
          obtain ⟨h5, h6⟩ := each_tailD (fun z hz => hkeys z (.tail _ hz))
            (fun z hz => ⟨hk z (.tail _ hz), ih _ z.2 (hv z (.tail _ hz)) fun h => nd (.dictVal (k := z.1) (.tail _ hz) h)⟩) hss h4
          obtain ⟨φ, hφ, ht⟩ := rows_choose_dict (.cons (b := (k', v')) ⟨e1, h3⟩ h5)
          rw [hφ]
          exact ⟨.dict φ ha ht, h6⟩
    | @set ys hy =>
      rcases ys with _ | ⟨y, ys⟩
      · simp [kindVal] at k1
      · rcases kvs with _ | ⟨⟨k, x⟩, kvs⟩
        · cases hss
          simp only [reprV, commaItems, entryTexts, List.append_assoc, List.cons_append, List.nil_append, List.cons.injEq, true_and] at e
          exact absurd e.symm (repr_start p (hy _ (.head _)) (by decide) _ _)
        · rw [List.map_cons, eachRepr] at hss
          obtain ⟨s, hs, h2⟩ := Option.bind_eq_some_iff.1 hss
          clear hss
          obtain ⟨ss, hss, rfl⟩ := Option.map_eq_some_iff.1 h2
          simp only [reprV, commaItems, entryTexts, List.append_assoc, List.cons_append, List.nil_append, List.cons.injEq, true_and] at e
          obtain ⟨_, e2⟩ := told p (hkeys _ (.head _)) y _ _ (hy _ (.head _)) (after_cons (by decide) _) (after_tail p ys (by decide) _) e
          cases ys <;> simp [reprTail] at e2
    | _ => simp [kindVal] at k1

theorem reads_tree (good : GoodR mem) : ∀ (n : Nat) (act : List Nat) (w : Val), ReprData w → ¬ Dots w → ReadsTree p mem (reprMem p mem n act) w
  | 0, _, _, _, _ => fun _ _ _ _ h => by cases h
  | n + 1, act, w, hw, nd => by
      intro a s r r' h hr hr' e
      have ih := reads_tree good n
      have k1 := kind_repr p hw hr'
      cases ha : mem a with
      | data v =>
        rw [reprMem, ha] at h
        cases h
        obtain ⟨rfl, h2⟩ := told p (good.data _ _ ha) w r r' hw hr hr' e
        exact ⟨.data ha, h2⟩
      | dict kvs => exact reads_dictMem good ih act ha h hr hr' hw nd e
      | tuple xs =>
        have full := h
        rw [reprMem, ha] at h
        dsimp only at h
        have k2 : kindVal w = 2 := by
          rw [← k1, ← e]
          split at h
          · cases h; rfl
          · obtain ⟨ss, _, rfl⟩ := Option.map_eq_some_iff.1 h
            obtain ⟨u, hu⟩ := tupleText_cons ss
            rw [hu]; rfl
        cases hw with
        | @tuple ys hy =>
          have rd : ∀ y ∈ ys, ReadsTree p mem (reprMem p mem n (a :: act)) y := fun y hm => ih _ y (hy y hm) fun h => nd (.tuple hm h)
          split at h
          · cases h
            rcases ys with _ | ⟨y, _ | ⟨y2, ys⟩⟩ <;> simp only [reprV, List.append_assoc, List.cons_append, List.nil_append, List.cons.injEq, true_and] at e
            · simp at e
            · have := (told p dots_data y (')' :: r) _ (hy _ (.head _)) (after_cons (by decide) _) (after_cons (by decide) _) e).1
              subst this
              exact absurd (.tuple (.head _) .here) nd
            · have := (told p dots_data y (')' :: r) _ (hy _ (.head _)) (after_cons (by decide) _) (after_tail p _ (by decide) _) e).1
              subst this
              exact absurd (.tuple (.head _) .here) nd
          · obtain ⟨ss, hss, rfl⟩ := Option.map_eq_some_iff.1 h
            rcases xs with _ | ⟨x, xs⟩
            · cases hss
              rcases ys with _ | ⟨y, _ | ⟨y2, ys⟩⟩ <;> simp only [tupleText, reprV, List.append_assoc, List.cons_append, List.nil_append, List.cons.injEq, true_and] at e
              · exact ⟨.tuple (xs := []) (fun _ => .none) ha (by simp), e⟩
              · exact absurd e.symm (repr_start p (hy y (.head _)) (by decide) _ _)
              · exact absurd e.symm (repr_start p (hy y (.head _)) (by decide) _ _)
            · rw [eachRepr] at hss
              obtain ⟨s, hs, h2⟩ := Option.bind_eq_some_iff.1 hss
              clear hss
              obtain ⟨ss, hss, rfl⟩ := Option.map_eq_some_iff.1 h2
              rcases xs with _ | ⟨x2, xs⟩
              · cases hss
                rcases ys with _ | ⟨y, _ | ⟨y2, ys⟩⟩ <;> simp only [tupleText, reprV, List.append_assoc, List.cons_append, List.nil_append, List.cons.injEq, true_and] at e
                · exact absurd e (mem_start good hs (by decide) _ _)
                · obtain ⟨h3, e2⟩ := rd y (.head _) x s _ _ hs (after_cons (by decide) _) (after_cons (by decide) _) e
                  simp only [List.cons.injEq, true_and] at e2
                  obtain ⟨φ, hφ, ht⟩ := rows_choose (.cons h3 .nil)
                  rw [hφ]
                  exact ⟨.tuple φ ha ht, e2⟩
                · obtain ⟨h3, e2⟩ := rd y (.head _) x s _ _ hs (after_cons (by decide) _) (after_tail p _ (by decide) _) e
                  simp [reprTail] at e2
              · rw [eachRepr] at hss
                obtain ⟨s2, hs2, h2⟩ := Option.bind_eq_some_iff.1 hss
                clear hss
                obtain ⟨ss2, hss2, rfl⟩ := Option.map_eq_some_iff.1 h2
                rcases ys with _ | ⟨y, _ | ⟨y2, ys⟩⟩ <;> simp only [tupleText, commaItems, reprV, List.append_assoc, List.cons_append, List.nil_append, List.cons.injEq, true_and] at e
                · exact absurd e (mem_start good hs (by decide) _ _)
                · obtain ⟨h3, e2⟩ := rd y (.head _) x s _ _ hs (after_commas _ (by decide) _) (after_cons (by decide) _) e
                  simp [commaTail] at e2
                · obtain ⟨h3, e2⟩ := rd y (.head _) x s _ _ hs (after_commas _ (by decide) _) (after_tail p _ (by decide) _) e
                  obtain ⟨h5, h6⟩ := each_tail (xs := x2 :: xs) (by decide) (fun z hz => rd z (.tail _ hz)) (by rw [eachRepr, hs2, Option.bind_some, hss2]; rfl) e2
                  obtain ⟨φ, hφ, ht⟩ := rows_choose (.cons h3 h5)
                  rw [hφ]
                  exact ⟨.tuple φ ha ht, h6⟩
        | @set ys _ => cases ys <;> simp [kindVal] at k2
        | _ => simp [kindVal] at k2
      | list xs =>
        rw [reprMem, ha] at h
        dsimp only at h
        have k2 : kindVal w = 3 := by
          rw [← k1, ← e]
          split at h
          · cases h; rfl
          · obtain ⟨ss, _, rfl⟩ := Option.map_eq_some_iff.1 h
            rfl
        cases hw with
        | @list ys hy =>
          have rd : ∀ y ∈ ys, ReadsTree p mem (reprMem p mem n (a :: act)) y := fun y hm => ih _ y (hy y hm) fun h => nd (.list hm h)
          split at h
          · cases h
            rcases ys with _ | ⟨y, ys⟩ <;> simp only [reprV, List.append_assoc, List.cons_append, List.nil_append, List.cons.injEq, true_and] at e
            · simp at e
            · have := (told p dots_data y (']' :: r) _ (hy _ (.head _)) (after_cons (by decide) _) (after_tail p _ (by decide) _) e).1
              subst this
              exact absurd (.list (.head _) .here) nd
          · obtain ⟨ss, hss, rfl⟩ := Option.map_eq_some_iff.1 h
            rcases xs with _ | ⟨x, xs⟩
            · cases hss
              rcases ys with _ | ⟨y, ys⟩ <;> simp only [commaItems, reprV, List.append_assoc, List.cons_append, List.nil_append, List.cons.injEq, true_and] at e
              · exact ⟨.list (xs := []) (fun _ => .none) ha (by simp), e⟩
              · exact absurd e.symm (repr_start p (hy y (.head _)) (by decide) _ _)
            · rw [eachRepr] at hss
              obtain ⟨s, hs, h2⟩ := Option.bind_eq_some_iff.1 hss
              clear hss
              obtain ⟨ss, hss, rfl⟩ := Option.map_eq_some_iff.1 h2
              rcases ys with _ | ⟨y, ys⟩ <;> simp only [commaItems, reprV, List.append_assoc, List.cons_append, List.nil_append, List.cons.injEq, true_and] at e
              · exact absurd e (mem_start good hs (by decide) _ _)
              · obtain ⟨h3, e2⟩ := rd y (.head _) x s _ _ hs (after_commas _ (by decide) _) (after_tail p _ (by decide) _) e
                obtain ⟨h5, h6⟩ := each_tail (by decide) (fun z hz => rd z (.tail _ hz)) hss e2
                obtain ⟨φ, hφ, ht⟩ := rows_choose (.cons h3 h5)
                rw [hφ]
                exact ⟨.list φ ha ht, h6⟩
        | @set ys _ => cases ys <;> simp [kindVal] at k2
        | _ => simp [kindVal] at k2
      | what m d nk o =>
        rw [reprMem, ha] at h
        dsimp only at h
        obtain ⟨t, ht, rfl⟩ := Option.map_eq_some_iff.1 h
        obtain ⟨kvs, hd⟩ := good.confs _ _ _ _ _ ha
        have k2 : kindVal w = 6 := by
          rw [← k1, ← e]
          simp only [List.append_assoc]
          rfl
        cases hw with
        | @what conf m' nk' o' hv =>
          rw [reprV_conf] at e
          simp only [List.append_assoc, List.append_cancel_left_eq] at e
          obtain ⟨rfl, e⟩ := reprStr_inj p e
          simp only [List.append_cancel_left_eq] at e
          have hw' : ReprData (.dict (conf.map fun kv => ((.str kv.1 : Val), kv.2))) := by
            refine .dict (fun kv hkv => ?_) fun kv hkv => ?_
            · obtain ⟨kv', _, rfl⟩ := List.mem_map.1 hkv; exact .str _
            · obtain ⟨kv', hm, rfl⟩ := List.mem_map.1 hkv; exact hv kv' hm
          have nd' : ¬ Dots (.dict (conf.map fun kv => ((.str kv.1 : Val), kv.2))) := by
            intro h
            cases h with
            | dictKey hm h =>
              obtain ⟨kv', _, e⟩ := List.mem_map.1 hm
              cases e
              cases h
            | dictVal hm h =>
              obtain ⟨kv', hm', e⟩ := List.mem_map.1 hm
              cases e
              exact nd (.what (k := kv'.1) hm' h)
          obtain ⟨htree, e⟩ := ih act _ hw' nd' d t _ _ ht (after_cons (by decide) _) (after_cons (by decide) _) e
          simp only [List.cons_append, List.nil_append, List.cons.injEq, true_and] at e
          obtain ⟨rfl, e3⟩ := reprStrSet_inj p (List.append_cancel_left (as := [' ']) e)
          obtain ⟨rfl, e4⟩ := reprOut_inj p (List.append_cancel_left (as := c!", ") e3)
          refine ⟨?_, by simpa using e4⟩
          generalize hq : Val.dict (conf.map fun kv => ((.str kv.1 : Val), kv.2)) = q at htree
          cases htree with
          | data h => rw [hd] at h; cases h
          | tuple _ h _ => rw [hd] at h; cases h
          | list _ h _ => rw [hd] at h; cases h
          | what _ h _ _ => rw [hd] at h; cases h
          | @dict _ kvs' φ h hx =>
            injection hq with he
            rw [hd] at h
            cases h
            have : conf = kvs.map fun kv => (kv.1, φ kv.2) := by
              have inj : ∀ (a : Conf) (b : List (Str × Nat)), (a.map fun kv => ((.str kv.1 : Val), kv.2)) =
                  (b.map fun kv => ((.str kv.1 : Val), kv.2)).map (fun kv => (kv.1, φ kv.2)) → a = b.map fun kv => (kv.1, φ kv.2) := by
                intro a
                induction a with
                | nil => intro b h; cases b <;> simp_all
                | cons x a ih =>
                  intro b h
                  cases b with
                  | nil => simp at h
                  | cons y b =>
                    simp only [List.map_cons, List.cons.injEq, Prod.mk.injEq, Val.str.injEq] at h
                    rw [ih b h.2, List.map_cons, ← h.1.1, ← h.1.2]
              exact inj _ _ he
            subst this
            exact .what φ ha hd fun kv hkv => hx (.str kv.1, kv.2) (List.mem_map.2 ⟨kv, hkv, rfl⟩)
        | @set ys _ => cases ys <;> simp [kindVal] at k2
        | _ => simp [kindVal] at k2

end

/-- C108. What has the repr of a tree is that tree: no configuration that contains itself is shown as one that does not. -/
theorem c108_tells (p : Char → Bool) (mem : Nat → RCell) (good : GoodR mem) (a n : Nat) (w : What) (d : ∀ kv ∈ w.conf, ReprData kv.2)
    (nd : ∀ kv ∈ w.conf, ¬ Dots kv.2) (e : whatReprMem p mem n a = .ok (w.repr p)) : IsTreeR mem a w.toVal := by
  refine (reads_tree good n [] w.toVal (.what _ _ _ d) (fun h => ?_) a _ [] [] (whatReprMem_ok.1 e) (by intro c t e; cases e) (by intro c t e; cases e) rfl).1
  cases h with
  | what hm h => exact nd _ hm h

theorem acc_inside {a x : Nat} (h : InsideR mem a x) : Acc (fun y x => ∃ i, ItemR (mem x) i y) a → Acc (fun y x => ∃ i, ItemR (mem x) i y) x := by
  induction h with
  | refl => exact id
  | step hi _ ih => exact fun acc => ih (acc.inv ⟨_, hi⟩)

/-- C108. A configuration with something in it that contains itself never has the repr of a tree. -/
theorem c108_loops (p : Char → Bool) (mem : Nat → RCell) (good : GoodR mem) (a x y i n : Nat) (inside : InsideR mem a x) (item : ItemR (mem x) i y) (loop : InsideR mem y x)
    (w : What) (d : ∀ kv ∈ w.conf, ReprData kv.2) (nd : ∀ kv ∈ w.conf, ¬ Dots kv.2) : whatReprMem p mem n a ≠ .ok (w.repr p) := fun e =>
  not_inside_item (acc_inside inside (tree_acc (c108_tells p mem good a n w d nd e))) item loop

/-! ### Instances -/

/-- `w = What('f', {}); w.conf['me'] = w` -/
def mirror : Nat → RCell
  | 0 => .what c!"f" 1 [] none
  | 1 => .dict [(.str c!"me", 0)]
  | _ => .data .none

theorem mirror_inside {x : Nat} : InsideR mirror 0 x ↔ x ∈ [0, 1] := by
  constructor
  · intro h
    have : ∀ {a b : Nat}, InsideR mirror a b → (a = 0 ∨ a = 1) → b = 0 ∨ b = 1 := by
      intro a b h
      induction h with
      | refl => exact id
      | step hi _ ih =>
        rintro (rfl | rfl)
        · cases hi; exact ih (.inr rfl)
        · refine ih (.inl ?_)
          rw [show mirror 1 = .dict [(.str c!"me", 0)] from rfl] at hi
          cases hi with
          | dict hi =>
            have := List.mem_of_getElem? hi
            simp only [List.mem_cons, List.not_mem_nil, or_false, Prod.mk.injEq] at this
            exact this.2
    simpa using this h (.inl rfl)
  · intro h
    simp only [List.mem_cons, List.not_mem_nil, or_false] at h
    rcases h with rfl | rfl
    · exact .refl
    · exact .step .conf .refl

theorem mirror_confs : ConfsR mirror := by
  intro a n d nk o h
  unfold mirror at h
  split at h <;> first | (cases h; done) | (cases h; exact ⟨_, rfl⟩)

example (p : Char → Bool) : ∃ s, ∀ n, 6 ≤ n → whatReprMem p mirror n 0 = .ok s :=
  (c108_ends p mirror mirror_confs 0 [0, 1] fun _ => mirror_inside).imp fun _ h => h.1

example : whatReprMem (fun _ => true) mirror 6 0 = .ok c!"What('f', {'me': What('f', {...}, set(), None)}, set(), None)" := rfl

example : whatReprMem (fun _ => true) mirror 3 0 = .error .recursionError := rfl

/-- `xs = [1]; What('f', {'x': xs, 'y': (xs,)})` -/
def sharing : Nat → RCell
  | 0 => .what c!"f" 1 [] none
  | 1 => .dict [(.str c!"x", 2), (.str c!"y", 3)]
  | 2 => .list [4]
  | 3 => .tuple [2]
  | _ => .data (.int 1)

def sharingTree : What := ⟨c!"f", [(c!"x", .list [.int 1]), (c!"y", .tuple [.list [.int 1]])], [], none⟩

theorem sharing_tree : IsTreeR sharing 0 sharingTree.toVal := by
  have two : IsTreeR sharing 2 (.list [.int 1]) := .list (xs := [4]) (fun _ => .int 1) rfl fun x hx => by
    simp only [List.mem_cons, List.not_mem_nil, or_false] at hx
    subst hx
    exact .data rfl
  exact .what (d := 1) (kvs := [(c!"x", 2), (c!"y", 3)]) (fun x => if x = 2 then .list [.int 1] else .tuple [.list [.int 1]]) rfl rfl fun kv hkv => by
      simp only [List.mem_cons, List.not_mem_nil, or_false] at hkv
      rcases hkv with rfl | rfl
      · exact two
      · exact .tuple (xs := [2]) (fun _ => .list [.int 1]) rfl fun x hx => by
          simp only [List.mem_cons, List.not_mem_nil, or_false] at hx
          subst hx
          exact two

theorem sharing_data : ∀ kv ∈ sharingTree.conf, ReprData kv.2 := by
  have one : ReprData (.list [.int 1]) := .list fun x hx => by simp at hx; subst hx; exact .int 1
  intro kv hkv
  simp only [sharingTree, List.mem_cons, List.not_mem_nil, or_false] at hkv
  rcases hkv with rfl | rfl
  · exact one
  · exact .tuple fun x hx => by simp at hx; subst hx; exact one

example (p : Char → Bool) : ∃ N, ∀ n, N ≤ n → whatReprMem p sharing n 0 = .ok (sharingTree.repr p) := c108_tree p sharing 0 _ sharing_tree

/-- Nothing else has the repr of this. -/
example (p : Char → Bool) (mem : Nat → RCell) (a n : Nat) (w : What) (h : IsTreeR mem a w.toVal) (d : ∀ kv ∈ w.conf, ReprData kv.2)
    (e : whatReprMem p mem n a = .ok (sharingTree.repr p)) : w = sharingTree := by
  obtain ⟨N, hN⟩ := c108_tree p sharing 0 _ sharing_tree
  exact c108_told p mem sharing a 0 n N w sharingTree h sharing_tree d sharing_data _ e (hN N (Nat.le_refl _))

theorem sharing_good : GoodR sharing := by
  refine ⟨fun a v h => ?_, fun a kvs h kv hkv => ?_, fun a n d nk o h => ?_⟩
  · unfold sharing at h
    split at h <;> cases h
    exact .int 1
  · unfold sharing at h
    split at h <;> cases h
    simp only [List.mem_cons, List.not_mem_nil, or_false] at hkv
    rcases hkv with rfl | rfl <;> exact .str _
  · unfold sharing at h
    split at h <;> cases h
    exact ⟨[(c!"x", 2), (c!"y", 3)], rfl⟩

theorem sharing_dots : ∀ kv ∈ sharingTree.conf, ¬ Dots kv.2 := by
  have one : ¬ Dots (.list [.int 1]) := by
    intro h
    cases h with
    | list hm h => simp at hm; subst hm; cases h
  intro kv hkv
  simp only [sharingTree, List.mem_cons, List.not_mem_nil, or_false] at hkv
  rcases hkv with rfl | rfl
  · exact one
  · intro h
    cases h with
    | tuple hm h => simp at hm; subst hm; exact one h

/-- A memory of which it is known only that its repr is that of a tree is that tree. -/
example (p : Char → Bool) : ∃ n, whatReprMem p sharing n 0 = .ok (sharingTree.repr p) ∧ IsTreeR sharing 0 sharingTree.toVal := by
  obtain ⟨N, hN⟩ := c108_tree p sharing 0 _ sharing_tree
  exact ⟨N, hN N (Nat.le_refl _), c108_tells p sharing sharing_good 0 N _ sharing_data sharing_dots (hN N (Nat.le_refl _))⟩

example : whatReprMem (fun _ => true) sharing 9 0 = .ok c!"What('f', {'x': [1], 'y': ([1],)}, set(), None)" := rfl

theorem mirror_good : GoodR mirror := by
  refine ⟨fun a v h => ?_, fun a kvs h kv hkv => ?_, fun a n d nk o h => ?_⟩
  · unfold mirror at h
    split at h <;> cases h
    exact .none
  · unfold mirror at h
    split at h <;> cases h
    simp only [List.mem_cons, List.not_mem_nil, or_false] at hkv
    subst hkv
    exact .str _
  · unfold mirror at h
    split at h <;> cases h
    exact ⟨[(c!"me", 0)], rfl⟩

/-- `w.conf['me'] = w`: on no stack has it the repr of a tree. -/
example (p : Char → Bool) (n : Nat) : whatReprMem p mirror n 0 ≠ .ok (sharingTree.repr p) :=
  c108_loops p mirror mirror_good 0 0 1 0 n .refl .conf (.step (i := 0) (.dict rfl) .refl) _ sharing_data sharing_dots

end Whatami
