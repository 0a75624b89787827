import Verif.Spec.EqMem
import Verif.Props.Equal

/-
C106: comparing configurations that contain themselves.
-/
namespace Whatami

/-! ### Item by item -/

theorem allEq_true {f : Nat → Nat → Option Bool} : ∀ {ps : List (Nat × Nat)}, allEq f ps = some true ↔ ∀ p ∈ ps, f p.1 p.2 = some true
  | [] => by simp [allEq]
  | p :: r => by
      simp only [allEq, List.mem_cons, forall_eq_or_imp]
      cases h : f p.1 p.2 with
      | none => simp
      | some b => cases b <;> simp [allEq_true]

theorem allEq_false {f : Nat → Nat → Option Bool} : ∀ {ps : List (Nat × Nat)}, allEq f ps = some false → ∃ p ∈ ps, f p.1 p.2 = some false
  | [], h => by simp [allEq] at h
  | p :: r, h => by
      simp only [allEq] at h
      cases e : f p.1 p.2 with
      | none => rw [e] at h; simp at h
      | some b =>
        cases b with
        | false => exact ⟨p, by simp, e⟩
        | true =>
          rw [e] at h
          obtain ⟨q, hq, e⟩ := allEq_false (ps := r) (by simpa using h)
          exact ⟨q, by simp [hq], e⟩

theorem allEq_total {f : Nat → Nat → Option Bool} : ∀ {ps : List (Nat × Nat)}, (∀ p ∈ ps, ∃ r, f p.1 p.2 = some r) → ∃ r, allEq f ps = some r
  | [], _ => ⟨true, rfl⟩
  | p :: r, h => by
      obtain ⟨b, e⟩ := h p (by simp)
      obtain ⟨c, e'⟩ := allEq_total (ps := r) fun q hq => h q (by simp [hq])
      simp only [allEq, e, Option.bind_some]
      cases b
      · exact ⟨false, by simp⟩
      · exact ⟨c, by simpa using e'⟩

theorem allEq_mono {f g : Nat → Nat → Option Bool} (h : ∀ x y r, f x y = some r → g x y = some r) :
    ∀ {ps : List (Nat × Nat)} {r : Bool}, allEq f ps = some r → allEq g ps = some r
  | [], _, e => e
  | p :: ps, r, e => by
      simp only [allEq] at e ⊢
      cases ef : f p.1 p.2 with
      | none => rw [ef] at e; simp at e
      | some b =>
        rw [ef] at e
        rw [h _ _ _ ef]
        cases b
        · exact e
        · exact allEq_mono h (by simpa using e)

theorem find_key {ys : List (Str × Nat)} (nd : (ys.map (·.1)).Nodup) {k : Str} {y : Nat} (h : (k, y) ∈ ys) :
    ys.find? (fun q => q.1 == k) = some (k, y) := by
  induction ys with
  | nil => cases h
  | cons q ys ih =>
    simp only [List.map_cons, List.nodup_cons] at nd
    rcases List.mem_cons.1 h with rfl | h
    · simp
    · have : q.1 ≠ k := fun e => nd.1 (by rw [e]; exact List.mem_map.2 ⟨_, h, rfl⟩)
      rw [List.find?_cons_of_neg (by simpa using this)]
      exact ih nd.2 h

theorem found_key {ys : List (Str × Nat)} {k : Str} {q : Str × Nat} (h : ys.find? (fun q => q.1 == k) = some q) : (k, q.2) ∈ ys := by
  have h1 := List.mem_of_find?_eq_some h
  have h2 := List.find?_some h
  have : q.1 = k := by simpa using h2
  rw [← this]
  exact h1

theorem itemsEq_true {f : Nat → Nat → Option Bool} {ys : List (Str × Nat)} :
    ∀ {xs : List (Str × Nat)}, itemsEq f xs ys = some true ↔ ∀ kv ∈ xs, ∃ q, ys.find? (fun q => q.1 == kv.1) = some q ∧ f kv.2 q.2 = some true
  | [] => by simp [itemsEq]
  | kv :: r => by
      simp only [itemsEq, List.mem_cons, forall_eq_or_imp]
      cases h : ys.find? fun q => q.1 == kv.1 with
      | none => simp
      | some q =>
        cases e : f kv.2 q.2 with
        | none => simp [e]
        | some b => cases b <;> simp [e, itemsEq_true]

theorem itemsEq_false {f : Nat → Nat → Option Bool} {ys : List (Str × Nat)} :
    ∀ {xs : List (Str × Nat)}, itemsEq f xs ys = some false → ∃ kv ∈ xs, ys.find? (fun q => q.1 == kv.1) = none ∨
      ∃ q, ys.find? (fun q => q.1 == kv.1) = some q ∧ f kv.2 q.2 = some false
  | [], h => by simp [itemsEq] at h
  | kv :: r, h => by
      simp only [itemsEq] at h
      cases h1 : ys.find? fun q => q.1 == kv.1 with
      | none => exact ⟨kv, by simp, .inl h1⟩
      | some q =>
        rw [h1] at h
        dsimp only at h
        cases e : f kv.2 q.2 with
        | none => rw [e] at h; simp at h
        | some b =>
          cases b with
          | false => exact ⟨kv, by simp, .inr ⟨q, h1, e⟩⟩
          | true =>
            rw [e] at h
            obtain ⟨kv', hk, e⟩ := itemsEq_false (xs := r) (by simpa using h)
            exact ⟨kv', by simp [hk], e⟩

theorem itemsEq_total {f : Nat → Nat → Option Bool} {ys : List (Str × Nat)} :
    ∀ {xs : List (Str × Nat)}, (∀ kv ∈ xs, ∀ q, ys.find? (fun q => q.1 == kv.1) = some q → ∃ r, f kv.2 q.2 = some r) → ∃ r, itemsEq f xs ys = some r
  | [], _ => ⟨true, rfl⟩
  | kv :: r, h => by
      obtain ⟨c, e'⟩ := itemsEq_total (xs := r) fun q hq => h q (by simp [hq])
      simp only [itemsEq]
      cases h1 : ys.find? fun q => q.1 == kv.1 with
      | none => exact ⟨false, rfl⟩
      | some q =>
        obtain ⟨b, e⟩ := h kv (by simp) q h1
        simp only [e, Option.bind_some]
        cases b
        · exact ⟨false, by simp⟩
        · exact ⟨c, by simpa using e'⟩

theorem itemsEq_mono {f g : Nat → Nat → Option Bool} (h : ∀ x y r, f x y = some r → g x y = some r) {ys : List (Str × Nat)} :
    ∀ {xs : List (Str × Nat)} {r : Bool}, itemsEq f xs ys = some r → itemsEq g xs ys = some r
  | [], _, e => e
  | kv :: ps, r, e => by
      simp only [itemsEq] at e ⊢
      cases h1 : ys.find? fun q => q.1 == kv.1 with
      | none => rw [h1] at e; exact e
      | some q =>
        rw [h1] at e
        dsimp only at e ⊢
        cases ef : f kv.2 q.2 with
        | none => rw [ef] at e; simp at e
        | some b =>
          rw [ef] at e
          rw [h _ _ _ ef]
          cases b
          · exact e
          · exact itemsEq_mono h (by simpa using e)

theorem sameOr_mono {f g : Nat → Nat → Option Bool} (h : ∀ x y r, f x y = some r → g x y = some r) (x y : Nat) (r : Bool) (e : sameOr f x y = some r) :
    sameOr g x y = some r := by
  rw [sameOr] at e ⊢
  by_cases hx : x = y
  · rw [if_pos hx] at e ⊢; exact e
  · rw [if_neg hx] at e ⊢; exact h _ _ _ e

theorem sameOr_true {f : Nat → Nat → Option Bool} {x y : Nat} : sameOr f x y = some true ↔ x = y ∨ f x y = some true := by
  rw [sameOr]
  by_cases hx : x = y
  · simp [hx]
  · simp [hx]

theorem sameOr_false {f : Nat → Nat → Option Bool} {x y : Nat} (h : sameOr f x y = some false) : x ≠ y ∧ f x y = some false := by
  rw [sameOr] at h
  by_cases hx : x = y
  · simp [hx] at h
  · simp [hx] at h; exact ⟨hx, h⟩

section
variable {back : Bool} {mem : Nat → ECell}

/-! ### The size of the stack -/

theorem eqMem_succ : ∀ {n a b : Nat} {r : Bool}, eqMem back mem n a b = some r → eqMem back mem (n + 1) a b = some r
  | 0, _, _, _, h => by cases h
  | n + 1, a, b, r, h => by
      have ih : ∀ x y r, eqMem back mem n x y = some r → eqMem back mem (n + 1) x y = some r := fun x y r => eqMem_succ
      have ihs := sameOr_mono ih
      rw [eqMem] at h ⊢
      cases ha : mem a <;> cases hb : mem b <;> rw [ha, hb] at h <;> dsimp only at h ⊢ <;> try exact h
      case tuple.tuple xs ys =>
        cases e : allEq (sameOr (eqMem back mem n)) (xs.zip ys) with
        | none => rw [e] at h; cases h
        | some c => rw [allEq_mono ihs e]; rw [e] at h; exact h
      case list.list xs ys =>
        by_cases hl : (xs.length == ys.length) = true
        · rw [if_pos hl] at h ⊢; exact allEq_mono ihs h
        · rw [if_neg hl] at h ⊢; exact h
      case dict.dict xs ys =>
        by_cases hl : (xs.length == ys.length) = true
        · rw [if_pos hl] at h ⊢
          refine itemsEq_mono (fun x y r e => ?_) h
          cases back
          · exact ihs _ _ _ e
          · exact ihs _ _ _ e
        · rw [if_neg hl] at h ⊢; exact h
      case what.what m d _ o m' d' _ o' =>
        by_cases hl : (m == m') = true
        · rw [if_pos hl] at h ⊢
          cases e : eqMem back mem n d d' with
          | none => rw [e] at h; cases h
          | some c => rw [ih _ _ _ e]; rw [e] at h; exact h
        · rw [if_neg hl] at h ⊢; exact h

theorem eqMem_le {n m a b : Nat} {r : Bool} (le : n ≤ m) (h : eqMem back mem n a b = some r) : eqMem back mem m a b = some r := by
  induction le with
  | refl => exact h
  | step _ ih => exact eqMem_succ ih

theorem whatEq_ok {n a b : Nat} {r : Bool} : whatEq back mem n a b = .ok r ↔ eqMem back mem n a b = some r := by
  rw [whatEq]
  cases eqMem back mem n a b <;> simp

theorem whatEq_error {n a b : Nat} : eqMem back mem n a b = none → whatEq back mem n a b = .error .recursionError := fun h => by
  rw [whatEq, h]

/-! ### Same contents -/

theorem cellEq_symm {R : Nat → Nat → Prop} (hR : ∀ x y, R x y → R y x) {c c' : ECell} (h : CellEq R c c') : CellEq R c' c := by
  have sw : ∀ {x y : Nat}, y = x ∨ R y x → x = y ∨ R x y := fun h => h.imp Eq.symm (hR _ _)
  cases h with
  | none => exact .none
  | num h => exact .num h
  | str => exact .str
  | tuple hl h => exact .tuple hl.symm fun i x y hx hy => sw (h i y x hy hx)
  | list hl h => exact .list hl.symm fun i x y hx hy => sw (h i y x hy hx)
  | dict hk h => exact .dict (fun k => (hk k).symm) fun k x y hx hy => sw (h k y x hy hx)
  | what h => exact .what (hR _ _ h)

theorem cellEq_mono {R S : Nat → Nat → Prop} (hR : ∀ x y, R x y → S x y) {c c' : ECell} (h : CellEq R c c') : CellEq S c c' := by
  cases h with
  | none => exact .none
  | num h => exact .num h
  | str => exact .str
  | tuple hl h => exact .tuple hl fun i x y hx hy => (h i x y hx hy).imp id (hR _ _)
  | list hl h => exact .list hl fun i x y hx hy => (h i x y hx hy).imp id (hR _ _)
  | dict hk h => exact .dict hk fun k x y hx hy => (h k x y hx hy).imp id (hR _ _)
  | what h => exact .what (hR _ _ h)

theorem noDifference_symm {a b : Nat} (h : NoDifference mem a b) : NoDifference mem b a := by
  obtain ⟨R, hR, hab⟩ := h
  refine ⟨fun x y => R x y ∨ R y x, fun x y h => ?_, .inr hab⟩
  rcases h with h | h
  · exact cellEq_mono (fun _ _ => .inl) (hR _ _ h)
  · exact cellEq_symm (fun _ _ => Or.symm) (cellEq_mono (fun _ _ => .inl) (hR _ _ h))

/-- `NoDifference` is one of those relations. -/
theorem noDifference_cell {a b : Nat} (h : NoDifference mem a b) : CellEq (NoDifference mem) (mem a) (mem b) := by
  obtain ⟨R, hR, hab⟩ := h
  exact cellEq_mono (fun x y h => ⟨R, hR, h⟩) (hR _ _ hab)

theorem numEq_true {k k' : Int ⊕ Str} (h : numEq false k k' = true) : k = k' ∧ k ≠ .inr c!"nan" := by
  cases k <;> cases k' <;> simp [numEq] at h
  · exact ⟨by rw [h], by simp⟩
  · exact ⟨by rw [h.1], by simp; exact h.2⟩

theorem numEq_same {k : Int ⊕ Str} (h : k ≠ .inr c!"nan") : numEq false k k = true := by
  cases k with
  | inl i => simp [numEq]
  | inr t => simp only [ne_eq, Sum.inr.injEq] at h; simp [numEq, h]

theorem mem_zip {xs ys : List Nat} {p : Nat × Nat} : p ∈ xs.zip ys ↔ ∃ i : Nat, xs[i]? = some p.1 ∧ ys[i]? = some p.2 := by
  rw [List.mem_iff_getElem?]
  constructor
  · rintro ⟨i, h⟩
    rw [List.getElem?_zip_eq_some] at h
    exact ⟨i, h⟩
  · rintro ⟨i, h⟩
    exact ⟨i, List.getElem?_zip_eq_some.2 h⟩

/-! ### What `==` says -/

/-- The comparison of two items of dicts. -/
theorem item_true {n : Nat} {x y : Nat} (h : (if back then sameOr (eqMem back mem n) y x else sameOr (eqMem back mem n) x y) = some true) :
    x = y ∨ eqMem back mem n x y = some true ∨ eqMem back mem n y x = some true := by
  cases back
  · rcases sameOr_true.1 h with h | h
    · exact .inl h
    · exact .inr (.inl h)
  · rcases sameOr_true.1 h with h | h
    · exact .inl h.symm
    · exact .inr (.inr h)

theorem item_false {n : Nat} {x y : Nat} (h : (if back then sameOr (eqMem back mem n) y x else sameOr (eqMem back mem n) x y) = some false) :
    x ≠ y ∧ (eqMem back mem n x y = some false ∨ eqMem back mem n y x = some false) := by
  cases back
  · exact ⟨(sameOr_false h).1, .inl (sameOr_false h).2⟩
  · exact ⟨(sameOr_false h).1.symm, .inr (sameOr_false h).2⟩

theorem keys_le {l m : List Str} (h : l.Nodup) (hs : l ⊆ m) : l.length ≤ m.length := by
  induction l generalizing m with
  | nil => simp
  | cons a l ih =>
    obtain ⟨ha, hl⟩ := List.nodup_cons.1 h
    have hm : a ∈ m := hs (by simp)
    have := ih hl (m := m.erase a) (by
      intro b hb
      refine (List.mem_erase_of_ne ?_).2 (hs (by simp [hb]))
      intro e; exact ha (e ▸ hb))
    rw [List.length_erase_of_mem hm] at this
    have : 0 < m.length := List.length_pos_of_mem hm
    simp only [List.length_cons]
    omega

/-- Dicts of the same size that are found to have the keys of one have the same keys. -/
theorem keys_iff {xs ys : List (Str × Nat)} (nd : (xs.map (·.1)).Nodup) (hl : xs.length = ys.length) (h : ∀ kv ∈ xs, ∃ y, (kv.1, y) ∈ ys) (k : Str) :
    (∃ x, (k, x) ∈ xs) ↔ ∃ y, (k, y) ∈ ys := by
  constructor
  · rintro ⟨x, hx⟩
    exact h _ hx
  · rintro ⟨y, hy⟩
    have sub : ∀ j ∈ xs.map (·.1), j ∈ ys.map (·.1) := by
      intro j hj
      obtain ⟨kv, hkv, rfl⟩ := List.mem_map.1 hj
      obtain ⟨y, hy⟩ := h _ hkv
      exact List.mem_map.2 ⟨_, hy, rfl⟩
    refine Classical.byContradiction fun hn => ?_
    have nk : k ∉ xs.map (·.1) := fun hk => by
      obtain ⟨kv, hkv, e⟩ := List.mem_map.1 hk
      exact hn ⟨kv.2, by rw [← show kv.1 = k from e]; exact hkv⟩
    have := keys_le (List.nodup_cons.2 ⟨nk, nd⟩) (m := ys.map (·.1)) fun j hj => by
      rcases List.mem_cons.1 hj with rfl | hj
      · exact List.mem_map.2 ⟨_, hy, rfl⟩
      · exact sub j hj
    simp only [List.length_cons, List.length_map] at this
    omega

theorem eqMem_true (good : GoodMem mem) {n a b : Nat} (h : eqMem back mem (n + 1) a b = some true) :
    CellEq (fun x y => eqMem back mem n x y = some true ∨ eqMem back mem n y x = some true) (mem a) (mem b) := by
  rw [eqMem] at h
  cases ha : mem a <;> cases hb : mem b <;> rw [ha, hb] at h <;> dsimp only at h <;> first | (cases h; done) | skip
  case none.none => exact .none
  case num.num =>
    obtain ⟨rfl, nn⟩ := numEq_true (Option.some.inj h)
    exact .num nn
  case str.str =>
    have := Option.some.inj h
    simp only [beq_iff_eq] at this
    subst this
    exact .str
  case tuple.tuple xs ys =>
    obtain ⟨r, e, hr⟩ := Option.map_eq_some_iff.1 h
    simp only [Bool.and_eq_true, beq_iff_eq] at hr
    obtain ⟨rfl, hl⟩ := hr
    exact .tuple hl fun i x y hx hy => (sameOr_true.1 (allEq_true.1 e (x, y) (mem_zip.2 ⟨i, hx, hy⟩))).imp id .inl
  case list.list xs ys =>
    by_cases hl : (xs.length == ys.length) = true
    · rw [if_pos hl] at h
      exact .list (by simpa using hl) fun i x y hx hy => (sameOr_true.1 (allEq_true.1 h (x, y) (mem_zip.2 ⟨i, hx, hy⟩))).imp id .inl
    · rw [if_neg hl] at h; simp at h
  case dict.dict xs ys =>
    by_cases hl : (xs.length == ys.length) = true
    · rw [if_pos hl] at h
      have h := itemsEq_true.1 h
      refine .dict (keys_iff (good.keys _ _ ha) (by simpa using hl) fun kv hkv => ?_) fun k x y hx hy => ?_
      · obtain ⟨q, e, _⟩ := h kv hkv
        exact ⟨_, found_key e⟩
      · obtain ⟨q, e, h⟩ := h _ hx
        rw [find_key (good.keys _ _ hb) hy] at e
        cases e
        exact item_true h
    · rw [if_neg hl] at h; simp at h
  case what.what m d _ o m' d' _ o' =>
    by_cases hl : (m == m') = true
    · rw [if_pos hl] at h
      obtain ⟨r, e, hr⟩ := Option.map_eq_some_iff.1 h
      simp only [Bool.and_eq_true, beq_iff_eq] at hr hl
      obtain ⟨rfl, rfl⟩ := hr
      subst hl
      exact .what (.inl e)
    · rw [if_neg hl] at h; simp at h

/-- C106. If it says that they are equal, there is no difference; -/
theorem c106_equal (back : Bool) (mem : Nat → ECell) (good : GoodMem mem) (n a b : Nat) (h : whatEq back mem n a b = .ok true) : NoDifference mem a b := by
  refine ⟨fun x y => ∃ n, eqMem back mem n x y = some true ∨ eqMem back mem n y x = some true, fun x y h => ?_, n, .inl (whatEq_ok.1 h)⟩
  have one : ∀ {n x y}, eqMem back mem n x y = some true →
      CellEq (fun x y => ∃ n, eqMem back mem n x y = some true ∨ eqMem back mem n y x = some true) (mem x) (mem y) := by
    intro n x y h
    cases n with
    | zero => cases h
    | succ n => exact cellEq_mono (fun _ _ h => ⟨n, h⟩) (eqMem_true good h)
  obtain ⟨n, h | h⟩ := h
  · exact one h
  · exact cellEq_symm (fun _ _ ⟨n, h⟩ => ⟨n, h.symm⟩) (one h)

theorem keys_length {xs ys : List (Str × Nat)} (nx : (xs.map (·.1)).Nodup) (ny : (ys.map (·.1)).Nodup) (h : ∀ k, (∃ x, (k, x) ∈ xs) ↔ ∃ y, (k, y) ∈ ys) :
    xs.length = ys.length := by
  have one : ∀ {xs ys : List (Str × Nat)}, (xs.map (·.1)).Nodup → (∀ k, (∃ x, (k, x) ∈ xs) → ∃ y, (k, y) ∈ ys) → xs.length ≤ ys.length := by
    intro xs ys nx h
    have := keys_le nx (m := ys.map (·.1)) fun k hk => by
      obtain ⟨kv, hkv, rfl⟩ := List.mem_map.1 hk
      obtain ⟨y, hy⟩ := h kv.1 ⟨_, hkv⟩
      exact List.mem_map.2 ⟨_, hy, rfl⟩
    simpa using this
  exact Nat.le_antisymm (one nx fun k => (h k).1) (one ny fun k => (h k).2)

theorem eqMem_not_false (good : GoodMem mem) : ∀ (n : Nat) {a b : Nat}, NoDifference mem a b → eqMem back mem n a b ≠ some false
  | 0, _, _, _ => by rw [eqMem]; simp
  | n + 1, a, b, h => by
      intro e
      have ih : ∀ {x y : Nat}, NoDifference mem x y → eqMem back mem n x y ≠ some false := fun h => eqMem_not_false good n h
      have c := noDifference_cell h
      rw [eqMem] at e
      cases ha : mem a <;> cases hb : mem b <;> rw [ha, hb] at e c <;> dsimp only at e <;> try (cases c; done)
      case none.none => simp at e
      case num.num =>
        cases c with
        | num h => rw [numEq_same h] at e; simp at e
      case str.str => cases c; simp at e
      case tuple.tuple xs ys =>
        cases c with
        | tuple hl h =>
          obtain ⟨r, e, hr⟩ := Option.map_eq_some_iff.1 e
          simp only [hl, beq_self_eq_true, Bool.and_true] at hr
          subst hr
          obtain ⟨p, hp, e⟩ := allEq_false e
          obtain ⟨i, hx, hy⟩ := mem_zip.1 hp
          obtain ⟨ne, e⟩ := sameOr_false e
          rcases h i _ _ hx hy with h | h
          · exact ne h
          · exact ih h e
      case list.list xs ys =>
        cases c with
        | list hl h =>
          rw [if_pos (by simpa using hl)] at e
          obtain ⟨p, hp, e⟩ := allEq_false e
          obtain ⟨i, hx, hy⟩ := mem_zip.1 hp
          obtain ⟨ne, e⟩ := sameOr_false e
          rcases h i _ _ hx hy with h | h
          · exact ne h
          · exact ih h e
      case dict.dict xs ys =>
        cases c with
        | dict hk h =>
          rw [if_pos (by simpa using keys_length (good.keys _ _ ha) (good.keys _ _ hb) hk)] at e
          obtain ⟨kv, hkv, e⟩ := itemsEq_false e
          obtain ⟨y, hy⟩ := (hk kv.1).1 ⟨_, hkv⟩
          rw [find_key (good.keys _ _ hb) hy] at e
          rcases e with e | ⟨q, e, e'⟩
          · cases e
          · cases e
            obtain ⟨ne, e⟩ := item_false e'
            rcases h _ _ _ hkv hy with h | h
            · exact ne h
            · rcases e with e | e
              · exact ih h e
              · exact ih (noDifference_symm h) e
      case what.what m d _ o m' d' _ o' =>
        cases c with
        | what h =>
          rw [if_pos (by simp)] at e
          obtain ⟨r, e, hr⟩ := Option.map_eq_some_iff.1 e
          simp only [beq_self_eq_true, Bool.and_true] at hr
          subst hr
          exact ih h e

/-- C106. if it says that they are not, there is one. -/
theorem c106_differ (back : Bool) (mem : Nat → ECell) (good : GoodMem mem) (n a b : Nat) (h : whatEq back mem n a b = .ok false) : ¬ NoDifference mem a b :=
  fun nd => eqMem_not_false good n nd (whatEq_ok.1 h)

/-- C106. The answer does not depend on the stack. -/
theorem c106_stack (back : Bool) (mem : Nat → ECell) (n n' a b : Nat) (r r' : Bool) (h : whatEq back mem n a b = .ok r) (h' : whatEq back mem n' a b = .ok r') :
    r = r' := by
  have h1 := eqMem_le (Nat.le_max_left n n') (whatEq_ok.1 h)
  have h2 := eqMem_le (Nat.le_max_right n n') (whatEq_ok.1 h')
  exact Option.some.inj (h1.symm.trans h2)

/-! ### Comparisons that never end -/

theorem asks_symm {a b x y : Nat} (h : Compares mem a b x y) : Compares mem b a y x := by
  cases h with
  | tuple h1 h2 hx hy ne => exact .tuple h2 h1 hy hx ne.symm
  | list h1 h2 hx hy ne => exact .list h2 h1 hy hx ne.symm
  | dict h1 h2 hx hy ne => exact .dict h2 h1 hy hx ne.symm
  | what h1 h2 => exact .what h2 h1

theorem asks_true (good : GoodMem mem) {n a b x y : Nat} (h : eqMem back mem (n + 1) a b = some true) (q : Compares mem a b x y) :
    eqMem back mem n x y = some true ∨ eqMem back mem n y x = some true := by
  have c := eqMem_true good h
  cases q with
  | tuple h1 h2 hx hy ne =>
    rw [h1, h2] at c
    cases c with | tuple _ h => exact (h _ _ _ hx hy).resolve_left ne
  | list h1 h2 hx hy ne =>
    rw [h1, h2] at c
    cases c with | list _ h => exact (h _ _ _ hx hy).resolve_left ne
  | dict h1 h2 hx hy ne =>
    rw [h1, h2] at c
    cases c with | dict _ h => exact (h _ _ _ hx hy).resolve_left ne
  | what h1 h2 =>
    rw [h1, h2] at c
    cases c with | what h => exact h

theorem never_true (good : GoodMem mem) {p q : Nat → Nat} (path : ∀ i, Compares mem (p i) (q i) (p (i + 1)) (q (i + 1))) :
    ∀ n i, eqMem back mem n (p i) (q i) ≠ some true ∧ eqMem back mem n (q i) (p i) ≠ some true
  | 0, _ => ⟨by rw [eqMem]; simp, by rw [eqMem]; simp⟩
  | n + 1, i => by
      have ih := never_true good path n (i + 1)
      constructor
      · intro h
        rcases asks_true good h (path i) with h | h
        · exact ih.1 h
        · exact ih.2 h
      · intro h
        rcases asks_true good h (asks_symm (path i)) with h | h
        · exact ih.2 h
        · exact ih.1 h

/-- C106. Two values without a difference whose comparison never ends: RecursionError, whatever the stack. -/
theorem c106_raises (back : Bool) (mem : Nat → ECell) (good : GoodMem mem) (a b : Nat) (same : NoDifference mem a b) (loop : NeverEnds mem a b) (n : Nat) :
    whatEq back mem n a b = .error .recursionError := by
  obtain ⟨p, q, rfl, rfl, path⟩ := loop
  apply whatEq_error
  cases h : eqMem back mem n (p 0) (q 0) with
  | none => rfl
  | some r =>
    cases r with
    | true => exact absurd h (never_true good path n 0).1
    | false => exact absurd h (eqMem_not_false good n same)

theorem acc_of_stops {a b : Nat} (h : ¬ NeverEnds mem a b) : Acc (fun q p : Nat × Nat => Compares mem p.1 p.2 q.1 q.2) (a, b) := by
  apply Classical.byContradiction
  intro hn
  have next : ∀ x : { x : Nat × Nat // ¬ Acc (fun q p : Nat × Nat => Compares mem p.1 p.2 q.1 q.2) x },
      ∃ y : { x : Nat × Nat // ¬ Acc (fun q p : Nat × Nat => Compares mem p.1 p.2 q.1 q.2) x }, Compares mem x.1.1 x.1.2 y.1.1 y.1.2 := by
    intro x
    apply Classical.byContradiction
    intro hx
    refine x.2 (Acc.intro _ fun y hy => Classical.byContradiction fun hy' => hx ⟨⟨y, hy'⟩, hy⟩)
  let f := fun x => Classical.choose (next x)
  have hf : ∀ x, Compares mem x.1.1 x.1.2 (f x).1.1 (f x).1.2 := fun x => Classical.choose_spec (next x)
  let path : Nat → { x : Nat × Nat // ¬ Acc (fun q p : Nat × Nat => Compares mem p.1 p.2 q.1 q.2) x } := fun i => Nat.rec ⟨(a, b), hn⟩ (fun _ x => f x) i
  exact h ⟨fun i => (path i).1.1, fun i => (path i).1.2, rfl, rfl, fun i => hf (path i)⟩

/-- A stack that does for all of a list. -/
theorem stack_all {P : Nat → Nat × Nat → Prop} (mono : ∀ n m p, n ≤ m → P n p → P m p) : ∀ (l : List (Nat × Nat)), (∀ p ∈ l, ∃ n, P n p) → ∃ n, ∀ p ∈ l, P n p
  | [], _ => ⟨0, by simp⟩
  | p :: l, h => by
      obtain ⟨n, hn⟩ := h p (by simp)
      obtain ⟨m, hm⟩ := stack_all mono l fun q hq => h q (by simp [hq])
      refine ⟨max n m, fun q hq => ?_⟩
      rcases List.mem_cons.1 hq with rfl | hq
      · exact mono _ _ _ (Nat.le_max_left _ _) hn
      · exact mono _ _ _ (Nat.le_max_right _ _) (hm q hq)

/-- If all that is asked for has an answer, so has the question. -/
theorem eqMem_total {n a b : Nat} (items : ∀ x y, Compares mem a b x y → ∃ r, eqMem back mem n x y = some r) (swapped : ∀ x y, Compares mem a b x y → ∃ r, eqMem back mem n y x = some r) :
    ∃ r, eqMem back mem (n + 1) a b = some r := by
  rw [eqMem]
  have at_ : ∀ {x y}, (x ≠ y → Compares mem a b x y) → ∃ r, sameOr (eqMem back mem n) x y = some r := by
    intro x y h
    by_cases e : x = y
    · exact ⟨true, sameOr_true.2 (.inl e)⟩
    · obtain ⟨r, hr⟩ := items _ _ (h e)
      exact ⟨r, by rw [sameOr, if_neg e]; exact hr⟩
  have at_' : ∀ {x y}, (x ≠ y → Compares mem a b x y) → ∃ r, sameOr (eqMem back mem n) y x = some r := by
    intro x y h
    by_cases e : x = y
    · exact ⟨true, sameOr_true.2 (.inl e.symm)⟩
    · obtain ⟨r, hr⟩ := swapped _ _ (h e)
      exact ⟨r, by rw [sameOr, if_neg (fun e' => e e'.symm)]; exact hr⟩
  cases ha : mem a <;> cases hb : mem b <;> dsimp only <;> try exact ⟨_, rfl⟩
  case tuple.tuple xs ys =>
    obtain ⟨r, e⟩ := allEq_total (f := sameOr (eqMem back mem n)) (ps := xs.zip ys) fun p hp => by
      obtain ⟨i, hx, hy⟩ := mem_zip.1 hp
      exact at_ fun ne => .tuple ha hb hx hy ne
    rw [e]
    exact ⟨_, rfl⟩
  case list.list xs ys =>
    by_cases hl : (xs.length == ys.length) = true
    · rw [if_pos hl]
      exact allEq_total fun p hp => by
        obtain ⟨i, hx, hy⟩ := mem_zip.1 hp
        exact at_ fun ne => .list ha hb hx hy ne
    · rw [if_neg hl]; exact ⟨_, rfl⟩
  case dict.dict xs ys =>
    by_cases hl : (xs.length == ys.length) = true
    · rw [if_pos hl]
      refine itemsEq_total fun kv hkv q hq => ?_
      have ask : kv.2 ≠ q.2 → Compares mem a b kv.2 q.2 := fun ne => .dict (k := kv.1) ha hb hkv (found_key hq) ne
      cases back
      · exact at_ ask
      · exact at_' ask
    · rw [if_neg hl]; exact ⟨_, rfl⟩
  case what.what m d nk o m' d' nk' o' =>
    by_cases hl : (m == m') = true
    · rw [if_pos hl]
      obtain ⟨r, e⟩ := items _ _ (.what ha hb)
      rw [e]
      exact ⟨_, rfl⟩
    · rw [if_neg hl]; exact ⟨_, rfl⟩

/-- All that may be asked for. -/
def mayAsk : ECell → ECell → List (Nat × Nat)
  | .tuple xs, .tuple ys => xs.zip ys
  | .list xs, .list ys => xs.zip ys
  | .dict xs, .dict ys => xs.flatMap fun x => ys.map fun y => (x.2, y.2)
  | .what _ d _ _, .what _ d' _ _ => [(d, d')]
  | _, _ => []

theorem asks_may {a b x y : Nat} (h : Compares mem a b x y) : (x, y) ∈ mayAsk (mem a) (mem b) := by
  cases h with
  | tuple h1 h2 hx hy _ => rw [h1, h2]; exact mem_zip.2 ⟨_, hx, hy⟩
  | list h1 h2 hx hy _ => rw [h1, h2]; exact mem_zip.2 ⟨_, hx, hy⟩
  | dict h1 h2 hx hy _ => rw [h1, h2]; exact List.mem_flatMap.2 ⟨_, hx, List.mem_map.2 ⟨_, hy, rfl⟩⟩
  | what h1 h2 => rw [h1, h2]; simp [mayAsk]

theorem stops {p : Nat × Nat} (h : Acc (fun q p : Nat × Nat => Compares mem p.1 p.2 q.1 q.2) p) :
    ∃ n, (∃ r, eqMem back mem n p.1 p.2 = some r) ∧ ∃ r, eqMem back mem n p.2 p.1 = some r := by
  induction h with
  | intro p _ ih =>
    obtain ⟨n, hn⟩ := stack_all
      (P := fun n q => Compares mem p.1 p.2 q.1 q.2 → (∃ r, eqMem back mem n q.1 q.2 = some r) ∧ ∃ r, eqMem back mem n q.2 q.1 = some r)
      (fun n m q le h hq => ⟨(h hq).1.imp fun _ => eqMem_le le, (h hq).2.imp fun _ => eqMem_le le⟩) (mayAsk (mem p.1) (mem p.2)) fun q _ => by
        by_cases hq : Compares mem p.1 p.2 q.1 q.2
        · obtain ⟨n, h⟩ := ih q hq
          exact ⟨n, fun _ => h⟩
        · exact ⟨0, fun h => absurd h hq⟩
    have fwd : ∀ x y, Compares mem p.1 p.2 x y → (∃ r, eqMem back mem n x y = some r) ∧ ∃ r, eqMem back mem n y x = some r := fun x y h => hn (x, y) (asks_may h) h
    exact ⟨n + 1, eqMem_total (fun x y h => (fwd x y h).1) (fun x y h => (fwd x y h).2),
      eqMem_total (fun x y h => (fwd y x (asks_symm h)).2) fun x y h => (fwd y x (asks_symm h)).1⟩

end

/-- C106. A comparison that does end gives, on a stack that is large enough, True if there is no difference and else False. -/
theorem c106_ends (back : Bool) (mem : Nat → ECell) (good : GoodMem mem) (a b : Nat) (ends : ¬ NeverEnds mem a b) :
    ∃ N r, (r = true ↔ NoDifference mem a b) ∧ ∀ n, N ≤ n → whatEq back mem n a b = .ok r := by
  obtain ⟨N, ⟨r, h⟩, _⟩ := stops (back := back) (acc_of_stops ends)
  refine ⟨N, r, ⟨fun e => ?_, fun nd => ?_⟩, fun n hn => whatEq_ok.2 (eqMem_le hn h)⟩
  · subst e
    exact c106_equal back mem good N a b (whatEq_ok.2 h)
  · cases r with
    | true => rfl
    | false => exact absurd h (eqMem_not_false good N nd)

/-- C106. So True is what one gets of values without a difference if and only if the comparison ends. -/
theorem c106_iff (back : Bool) (mem : Nat → ECell) (good : GoodMem mem) (a b : Nat) :
    (∃ n, whatEq back mem n a b = .ok true) ↔ NoDifference mem a b ∧ ¬ NeverEnds mem a b := by
  constructor
  · rintro ⟨n, h⟩
    have nd := c106_equal back mem good n a b h
    refine ⟨nd, fun loop => ?_⟩
    rw [c106_raises back mem good a b nd loop n] at h
    cases h
  · rintro ⟨nd, ends⟩
    obtain ⟨N, r, hr, h⟩ := c106_ends back mem good a b ends
    exact ⟨N, by rw [h N (Nat.le_refl _), hr.2 nd]⟩

section
variable {back : Bool} {mem : Nat → ECell}

theorem dict_self (good : GoodMem mem) {n d d' : Nat} {kvs : List (Str × Nat)} (h : mem d = .dict kvs) (h' : mem d' = .dict kvs) :
    eqMem back mem (n + 1) d d' = some true := by
  simp only [eqMem, h, h', beq_self_eq_true, if_true]
  refine itemsEq_true.2 fun kv hkv => ⟨kv, find_key (good.keys _ _ h) hkv, ?_⟩
  cases back <;> exact sameOr_true.2 (.inl rfl)

theorem list_self {n : Nat} (xs : List Nat) : allEq (sameOr (eqMem back mem n)) (xs.zip xs) = some true :=
  allEq_true.2 fun p hp => by
    obtain ⟨i, hx, hy⟩ := mem_zip.1 hp
    exact sameOr_true.2 (.inl (Option.some.inj (hx.symm.trans hy)))

end

/-- C106. A configuration is equal to itself, whatever is in it: two nested comparisons do. -/
theorem c106_self (back : Bool) (mem : Nat → ECell) (good : GoodMem mem) (a : Nat) (c : (mem a).Compound) (n : Nat) (h : 2 ≤ n) :
    whatEq back mem n a a = .ok true := by
  obtain ⟨n, rfl⟩ := Nat.exists_eq_add_of_le' h
  apply whatEq_ok.2
  cases ha : mem a with
  | tuple xs =>
    rw [eqMem, ha]
    dsimp only
    rw [list_self]
    simp
  | list xs =>
    rw [eqMem, ha]
    dsimp only
    rw [list_self]
    simp
  | dict kvs => exact dict_self good ha ha
  | what m d nk o =>
    obtain ⟨kvs, hd⟩ := good.confs _ _ _ _ _ ha
    rw [eqMem, ha]
    dsimp only
    rw [dict_self good hd hd]
    simp
  | none => rw [ha] at c; cases c
  | num k => rw [ha] at c; cases c
  | str s => rw [ha] at c; cases c

/-- C106. And so is its copy (`copy()`): another What, with another dict that has the same values. -/
theorem c106_copy (back : Bool) (mem : Nat → ECell) (good : GoodMem mem) (a b d d' : Nat) (m : Str) (nk nk' : List Str) (o : Option Str)
    (kvs : List (Str × Nat)) (ha : mem a = .what m d nk o) (hb : mem b = .what m d' nk' o) (hd : mem d = .dict kvs) (hd' : mem d' = .dict kvs)
    (n : Nat) (h : 2 ≤ n) : whatEq back mem n a b = .ok true := by
  obtain ⟨n, rfl⟩ := Nat.exists_eq_add_of_le' h
  apply whatEq_ok.2
  rw [eqMem, ha, hb]
  dsimp only
  rw [dict_self good hd hd']
  simp

/-! ### Deep copies -/

section
variable {mem : Nat → ECell}

theorem mapR_cell {φ : Nat → Nat} {c : ECell} (cc : c.Compound) (R : Nat → Nat → Prop) (h : ∀ r, HasItem c r → R r (φ r))
    (keys : ∀ kvs, c = .dict kvs → (kvs.map (·.1)).Nodup) : CellEq R c (c.mapR φ) := by
  cases cc with
  | tuple xs =>
    refine .tuple (by simp) fun i x y hx hy => .inr ?_
    rw [List.getElem?_map, hx] at hy
    cases hy
    exact h _ (.tuple (List.mem_of_getElem? hx))
  | list xs =>
    refine .list (by simp) fun i x y hx hy => .inr ?_
    rw [List.getElem?_map, hx] at hy
    cases hy
    exact h _ (.list (List.mem_of_getElem? hx))
  | dict kvs =>
    refine .dict (fun k => ⟨fun ⟨x, hx⟩ => ⟨φ x, List.mem_map.2 ⟨_, hx, rfl⟩⟩, fun ⟨y, hy⟩ => ?_⟩) fun k x y hx hy => .inr ?_
    · obtain ⟨kv, hkv, e⟩ := List.mem_map.1 hy
      exact ⟨kv.2, by rw [← show kv.1 = k from congrArg Prod.fst e]; exact hkv⟩
    · obtain ⟨kv, hkv, e⟩ := List.mem_map.1 hy
      have hk : (k, kv.2) ∈ kvs := by rw [← show kv.1 = k from congrArg Prod.fst e]; exact hkv
      have nd := keys _ rfl
      have e1 := find_key nd hx
      rw [find_key nd hk] at e1
      have e1 : kv.2 = x := congrArg Prod.snd (Option.some.inj e1)
      have e2 : φ kv.2 = y := congrArg Prod.snd e
      rw [← e2, e1]
      exact h _ (.dict hx)
  | what n d nk o => exact .what (h _ .conf)

theorem holds_compound {c : ECell} {r : Nat} (h : HasItem c r) : c.Compound := by
  cases h with
  | tuple _ => exact .tuple _
  | list _ => exact .list _
  | dict _ => exact .dict _
  | conf => exact .what _ _ _ _

theorem deepCopy_same (good : GoodMem mem) {a b : Nat} (ca : (mem a).Compound) (h : DeepCopy mem a b) : NoDifference mem a b := by
  obtain ⟨φ, rfl, hφ⟩ := h
  refine ⟨fun x y => (InsideMem mem a x ∧ (mem x).Compound ∧ y = φ x), fun x y h => ?_, .refl, ca, rfl⟩
  obtain ⟨ix, cx, rfl⟩ := h
  rw [(hφ x ix).1]
  have base := mapR_cell (φ := φ) cx (fun r y => y = φ r ∧ InsideMem mem a r) (fun r hr => ⟨rfl, .step ix hr⟩) (fun kvs e => good.keys x kvs e)
  have fix : ∀ {r y : Nat}, y = φ r ∧ InsideMem mem a r → r = y ∨ (InsideMem mem a r ∧ (mem r).Compound ∧ y = φ r) := by
    rintro r y ⟨rfl, ir⟩
    by_cases c : (mem r).Compound
    · exact .inr ⟨ir, c, rfl⟩
    · exact .inl ((hφ r ir).2.2 c).symm
  have up : ∀ {r y : Nat}, (r = y ∨ (y = φ r ∧ InsideMem mem a r)) → r = y ∨ (InsideMem mem a r ∧ (mem r).Compound ∧ y = φ r) := fun h => h.elim .inl fix
  cases hx : mem x with
  | none => rw [hx] at cx; cases cx
  | num k => rw [hx] at cx; cases cx
  | str s => rw [hx] at cx; cases cx
  | tuple xs =>
    rw [hx] at base
    cases base with
    | tuple hl h => exact .tuple hl fun i x y hx hy => up (h i x y hx hy)
  | list xs =>
    rw [hx] at base
    cases base with
    | list hl h => exact .list hl fun i x y hx hy => up (h i x y hx hy)
  | dict kvs =>
    rw [hx] at base
    cases base with
    | dict hk h => exact .dict hk fun k x y hx hy => up (h k x y hx hy)
  | what n d nk o =>
    obtain ⟨kvs, hd⟩ := good.confs _ _ _ _ _ hx
    exact .what ⟨.step ix (by rw [hx]; exact .conf), by rw [hd]; exact .dict _, rfl⟩

theorem mapR_fixed {φ : Nat → Nat} {c : ECell} (h : c = c.mapR φ) {r : Nat} (hr : HasItem c r) : φ r = r := by
  have lst : ∀ {xs : List Nat}, xs = xs.map φ → r ∈ xs → φ r = r := by
    intro xs e hr
    obtain ⟨i, hi⟩ := List.getElem?_of_mem hr
    have : xs[i]? = (xs.map φ)[i]? := by rw [← e]
    rw [List.getElem?_map, hi] at this
    exact (Option.some.inj this).symm
  cases hr with
  | tuple hr => exact lst (ECell.tuple.inj h) hr
  | list hr => exact lst (ECell.list.inj h) hr
  | @dict kvs_at _ _ hr =>
    have e := ECell.dict.inj h
    obtain ⟨i, hi⟩ := List.getElem?_of_mem hr
    have : kvs_at[i]? = (kvs_at.map fun kv => (kv.1, φ kv.2))[i]? := by rw [← e]
    rw [List.getElem?_map, hi] at this
    exact (congrArg Prod.snd (Option.some.inj this)).symm
  | conf => exact (ECell.what.inj h).2.1.symm

theorem mapR_asks {φ : Nat → Nat} {x r : Nat} (e : mem (φ x) = (mem x).mapR φ) (h : HasItem (mem x) r) (ne : r ≠ φ r) : Compares mem x (φ x) r (φ r) := by
  cases hx : mem x with
  | none => rw [hx] at h; cases h
  | num k => rw [hx] at h; cases h
  | str s => rw [hx] at h; cases h
  | tuple xs =>
    rw [hx] at h e
    cases h with
    | tuple hr =>
      obtain ⟨i, hi⟩ := List.getElem?_of_mem hr
      exact .tuple hx e hi (by rw [List.getElem?_map, hi]; rfl) ne
  | list xs =>
    rw [hx] at h e
    cases h with
    | list hr =>
      obtain ⟨i, hi⟩ := List.getElem?_of_mem hr
      exact .list hx e hi (by rw [List.getElem?_map, hi]; rfl) ne
  | dict kvs =>
    rw [hx] at h e
    cases h with
    | dict hr => exact .dict hx e hr (List.mem_map.2 ⟨_, hr, rfl⟩) ne
  | what n d nk o =>
    rw [hx] at h e
    cases h with
    | conf => exact .what hx e

theorem asks_holds {a b x y : Nat} (h : Compares mem a b x y) : HasItem (mem a) x := by
  cases h with
  | tuple h1 _ hx _ _ => rw [h1]; exact .tuple (List.mem_of_getElem? hx)
  | list h1 _ hx _ _ => rw [h1]; exact .list (List.mem_of_getElem? hx)
  | dict h1 _ hx _ _ => rw [h1]; exact .dict hx
  | what h1 _ => rw [h1]; exact .conf

end

/-- C106. The deep copy of a configuration that contains itself cannot be compared with it; -/
theorem c106_deepcopy (back : Bool) (mem : Nat → ECell) (good : GoodMem mem) (a b : Nat) (copy : DeepCopy mem a b) (loops : Loops mem a) (n : Nat) :
    whatEq back mem n a b = .error .recursionError := by
  obtain ⟨p, rfl, hp, hl⟩ := loops
  have nd := deepCopy_same good (holds_compound (hp 0)) copy
  obtain ⟨φ, rfl, hφ⟩ := copy
  refine c106_raises back mem good _ _ nd ⟨p, fun i => φ (p i), rfl, rfl, fun i => ?_⟩ n
  have ins : ∀ i, InsideMem mem (p 0) (p i) := fun i => by
    induction i with
    | zero => exact .refl
    | succ i ih => exact .step ih (hp i)
  refine mapR_asks (hφ _ (ins i)).1 (hp i) fun e => ?_
  have stay : ∀ k, φ (p (i + 1 + k)) = p (i + 1 + k) := fun k => by
    induction k with
    | zero => exact e.symm
    | succ k ih =>
      have := (hφ _ (ins (i + 1 + k))).1
      rw [ih] at this
      exact mapR_fixed this (hp (i + 1 + k))
  obtain ⟨j, hj, nt⟩ := hl (i + 1)
  obtain ⟨k, rfl⟩ := Nat.exists_eq_add_of_le hj
  exact (hφ _ (ins _)).2.1 (holds_compound (hp _)) nt (stay k)

/-- C106. that of any other is equal to it, whatever is in it (also nan). -/
theorem c106_deepcopy_fine (back : Bool) (mem : Nat → ECell) (good : GoodMem mem) (a b : Nat) (c : (mem a).Compound) (copy : DeepCopy mem a b)
    (ends : ¬ ∃ p : Nat → Nat, p 0 = a ∧ ∀ i, HasItem (mem (p i)) (p (i + 1))) : ∃ N, ∀ n, N ≤ n → whatEq back mem n a b = .ok true := by
  have nd := deepCopy_same good c copy
  obtain ⟨N, r, hr, h⟩ := c106_ends back mem good a b fun ⟨p, q, hp, _, path⟩ => ends ⟨p, hp, fun i => asks_holds (path i)⟩
  exact ⟨N, fun n hn => by rw [h n hn, hr.2 nd]⟩

/-- C106. The same for `copy(deep=True)`, which is another What with a deep copy of the dict. -/
theorem c106_copy_deep (back : Bool) (mem : Nat → ECell) (good : GoodMem mem) (a b d d' : Nat) (m : Str) (nk nk' : List Str) (o : Option Str)
    (ha : mem a = .what m d nk o) (hb : mem b = .what m d' nk' o) (copy : DeepCopy mem d d') :
    (Loops mem d → ∀ n, whatEq back mem n a b = .error .recursionError) ∧
      ((¬ ∃ p : Nat → Nat, p 0 = d ∧ ∀ i, HasItem (mem (p i)) (p (i + 1))) → ∃ N, ∀ n, N ≤ n → whatEq back mem n a b = .ok true) := by
  constructor
  · intro loops n
    apply whatEq_error
    cases n with
    | zero => rfl
    | succ n =>
      have := c106_deepcopy back mem good d d' copy loops n
      rw [eqMem, ha, hb]
      dsimp only
      cases e : eqMem back mem n d d' with
      | none => simp
      | some r => rw [whatEq_ok.2 e] at this; cases this
  · intro ends
    obtain ⟨kvs, hd⟩ := good.confs _ _ _ _ _ ha
    obtain ⟨N, h⟩ := c106_deepcopy_fine back mem good d d' (by rw [hd]; exact .dict _) copy ends
    refine ⟨N + 1, fun n hn => whatEq_ok.2 ?_⟩
    obtain ⟨k, rfl⟩ := Nat.exists_eq_add_of_le' hn
    have := whatEq_ok.1 (h (k + N) (by omega))
    rw [← Nat.add_assoc, eqMem, ha, hb]
    dsimp only
    rw [this]
    simp

/-! ### Trees -/

section
variable {fi : Str → Option Int} {mem : Nat → ECell}

theorem tree_cell {b : Nat} {w : Val} (h : IsTree fi mem b w) :
    match mem b with
    | .none => w = .none
    | .num k => numKey fi w = some k
    | .str s => w = .str s
    | .tuple ys => ∃ φ : Nat → Val, w = .tuple (ys.map φ) ∧ ∀ y ∈ ys, IsTree fi mem y (φ y)
    | .list ys => ∃ φ : Nat → Val, w = .list (ys.map φ) ∧ ∀ y ∈ ys, IsTree fi mem y (φ y)
    | .dict kvs => ∃ φ : Nat → Val, w = .dict (kvs.map fun kv => (.str kv.1, φ kv.2)) ∧ ∀ kv ∈ kvs, IsTree fi mem kv.2 (φ kv.2)
    | .what n d nk o => ∃ (kvs : List (Str × Nat)) (φ : Nat → Val), mem d = .dict kvs ∧ w = .what n (kvs.map fun kv => (kv.1, φ kv.2)) nk o ∧
        ∀ kv ∈ kvs, IsTree fi mem kv.2 (φ kv.2) := by
  cases h with
  | none h => rw [h]
  | num h k => rw [h]; exact k
  | str h => rw [h]
  | tuple φ h i => rw [h]; exact ⟨φ, rfl, i⟩
  | list φ h i => rw [h]; exact ⟨φ, rfl, i⟩
  | dict φ h i => rw [h]; exact ⟨φ, rfl, i⟩
  | what φ h hd i => rw [h]; exact ⟨_, φ, hd, rfl, i⟩

theorem cell_self (good : GoodMem mem) {a : Nat} {R : Nat → Nat → Prop} (hR : ∀ x, R x x) (nn : mem a ≠ .num (.inr c!"nan")) : CellEq R (mem a) (mem a) := by
  cases h : mem a with
  | none => exact .none
  | num k => exact .num fun e => nn (by rw [h, e])
  | str s => exact .str
  | tuple xs => exact .tuple rfl fun i x y hx hy => .inl (Option.some.inj (hx.symm.trans hy))
  | list xs => exact .list rfl fun i x y hx hy => .inl (Option.some.inj (hx.symm.trans hy))
  | dict kvs =>
    refine .dict (fun _ => Iff.rfl) fun k x y hx hy => .inl ?_
    have nd := good.keys _ _ h
    have e := find_key nd hx
    rw [find_key nd hy] at e
    exact (congrArg Prod.snd (Option.some.inj e)).symm
  | what n d nk o => exact .what (hR _)

/-- Identical or without a difference. -/
def AlikeAt (mem : Nat → ECell) (a b : Nat) : Prop := a = b ∨ NoDifference mem a b

theorem alike_cell (good : GoodMem mem) {a b : Nat} (h : AlikeAt mem a b) (nn : mem a ≠ .num (.inr c!"nan")) : CellEq (AlikeAt mem) (mem a) (mem b) := by
  rcases h with rfl | h
  · exact cell_self good (fun _ => .inl rfl) nn
  · exact cellEq_mono (fun _ _ => .inr) (noDifference_cell h)

theorem noDifference_of_cell {a b : Nat} (h : CellEq (NoDifference mem) (mem a) (mem b)) : NoDifference mem a b := by
  refine ⟨fun x y => NoDifference mem x y ∨ (x = a ∧ y = b), fun x y h' => ?_, .inr ⟨rfl, rfl⟩⟩
  rcases h' with h' | ⟨rfl, rfl⟩
  · exact cellEq_mono (fun _ _ => .inl) (noDifference_cell h')
  · exact cellEq_mono (fun _ _ => .inl) h

theorem mapped_key {kvs : List (Str × Nat)} {φ : Nat → Val} {k : Str} {v : Val} (h : (k, v) ∈ kvs.map fun kv => (kv.1, φ kv.2)) :
    ∃ x, (k, x) ∈ kvs ∧ v = φ x := by
  obtain ⟨kv, hkv, e⟩ := List.mem_map.1 h
  cases e
  exact ⟨kv.2, hkv, rfl⟩

theorem items_tree (good : GoodMem mem) {d d' : Nat} {xs ys : List (Str × Nat)} (hd : mem d = .dict xs) (hd' : mem d' = .dict ys) {φ ψ : Nat → Val}
    (ih : ∀ kv ∈ xs, ∀ b, IsTree fi mem b (ψ b) → (pyEq fi false (φ kv.2) (ψ b) = true ↔ AlikeAt mem kv.2 b)) (hy : ∀ kv ∈ ys, IsTree fi mem kv.2 (ψ kv.2)) :
    (xs.length = ys.length ∧ ∀ kv ∈ xs, ∃ q ∈ ys, kv.1 = q.1 ∧ pyEq fi false (φ kv.2) (ψ q.2) = true) ↔ NoDifference mem d d' := by
  have nx := good.keys _ _ hd
  have ny := good.keys _ _ hd'
  constructor
  · rintro ⟨hl, h⟩
    apply noDifference_of_cell
    rw [hd, hd']
    refine .dict (keys_iff nx hl fun kv hkv => ?_) fun k x y hx hy' => ?_
    · obtain ⟨q, hq, e, _⟩ := h kv hkv
      exact ⟨q.2, by rw [e]; exact hq⟩
    · obtain ⟨q, hq, e, h⟩ := h _ hx
      have e1 := find_key ny hy'
      have e2 := find_key ny (show (k, q.2) ∈ ys by rw [show k = q.1 from e]; exact hq)
      rw [e1] at e2
      have e3 : y = q.2 := congrArg Prod.snd (Option.some.inj e2)
      rw [e3]
      exact (ih _ hx q.2 (hy q hq)).1 h
  · intro h
    have c := noDifference_cell h
    rw [hd, hd'] at c
    cases c with
    | dict hk h =>
      refine ⟨keys_length nx ny hk, fun kv hkv => ?_⟩
      obtain ⟨y, hy'⟩ := (hk kv.1).1 ⟨_, hkv⟩
      exact ⟨(kv.1, y), hy', rfl, (ih kv hkv y (hy _ hy')).2 (h _ _ _ hkv hy')⟩

theorem pair_tree {xs ys : List Nat} {φ ψ : Nat → Val} (ih : ∀ x ∈ xs, ∀ b, IsTree fi mem b (ψ b) → (pyEq fi false (φ x) (ψ b) = true ↔ AlikeAt mem x b))
    (hy : ∀ y ∈ ys, IsTree fi mem y (ψ y)) : pyEqL fi false (xs.map φ) (ys.map ψ) = true ↔
      xs.length = ys.length ∧ ∀ (i x y : Nat), xs[i]? = some x → ys[i]? = some y → AlikeAt mem x y := by
  rw [eqL_iff, List.length_map, List.length_map]
  refine and_congr_right fun _ => ⟨fun h i x y hx hy' => ?_, fun h i v w hv hw => ?_⟩
  · exact (ih x (List.mem_of_getElem? hx) y (hy y (List.mem_of_getElem? hy'))).1
      (h i _ _ (by rw [List.getElem?_map, hx]; rfl) (by rw [List.getElem?_map, hy']; rfl))
  · rw [List.getElem?_map] at hv hw
    obtain ⟨x, hx, rfl⟩ := Option.map_eq_some_iff.1 hv
    obtain ⟨y, hy', rfl⟩ := Option.map_eq_some_iff.1 hw
    exact (ih x (List.mem_of_getElem? hx) y (hy y (List.mem_of_getElem? hy'))).2 (h i x y hx hy')

theorem insideMem_trans {a x y : Nat} (h : HasItem (mem a) x) (i : InsideMem mem x y) : InsideMem mem a y := by
  induction i with
  | refl => exact .step .refl h
  | step _ h' ih => exact .step ih h'

theorem tree_eq (good : GoodMem mem) {a : Nat} {v : Val} (ha : IsTree fi mem a v) (nn : ∀ x, InsideMem mem a x → mem x ≠ .num (.inr c!"nan")) {b : Nat} {w : Val}
    (hb : IsTree fi mem b w) : pyEq fi false v w = true ↔ AlikeAt mem a b := by
  induction ha generalizing b w with
  | @none a h =>
    have t := tree_cell hb
    constructor
    · intro e
      cases hm : mem b <;> rw [hm] at t <;> dsimp only at t
      case none => exact .inr (noDifference_of_cell (by rw [h, hm]; exact .none))
      case num => obtain ⟨k, e⟩ := eq_num_left t e; cases e
      case str => subst t; simp [pyEq] at e
      case tuple => obtain ⟨φ, rfl, _⟩ := t; simp [pyEq] at e
      case list => obtain ⟨φ, rfl, _⟩ := t; simp [pyEq] at e
      case dict => obtain ⟨φ, rfl, _⟩ := t; simp [pyEq] at e
      case what => obtain ⟨_, φ, _, rfl, _⟩ := t; simp [pyEq] at e
    · intro al
      have c := alike_cell good al (nn a .refl)
      rw [h] at c
      generalize hm : mem b = cb at c t
      cases c
      dsimp only at t
      subst t
      rfl
  | @str a s h =>
    have t := tree_cell hb
    constructor
    · intro e
      cases hm : mem b <;> rw [hm] at t <;> dsimp only at t
      case none => subst t; simp [pyEq] at e
      case num => obtain ⟨k, e⟩ := eq_num_left t e; cases e
      case str => subst t; simp only [pyEq, beq_iff_eq] at e; subst e; exact .inr (noDifference_of_cell (by rw [h, hm]; exact .str))
      case tuple => obtain ⟨φ, rfl, _⟩ := t; simp [pyEq] at e
      case list => obtain ⟨φ, rfl, _⟩ := t; simp [pyEq] at e
      case dict => obtain ⟨φ, rfl, _⟩ := t; simp [pyEq] at e
      case what => obtain ⟨_, φ, _, rfl, _⟩ := t; simp [pyEq] at e
    · intro al
      have c := alike_cell good al (nn a .refl)
      rw [h] at c
      generalize hm : mem b = cb at c t
      cases c
      dsimp only at t
      subst t
      simp [pyEq]
  | @num a k v h hk =>
    have t := tree_cell hb
    rw [eq_num_iff hk]
    constructor
    · rintro ⟨k', hk', e⟩
      obtain ⟨rfl, nan⟩ := numEq_true e
      cases hm : mem b <;> rw [hm] at t <;> dsimp only at t
      case none => subst t; cases hk'
      case num => rw [hk'] at t; cases t; exact .inr (noDifference_of_cell (by rw [h, hm]; exact .num nan))
      case str => subst t; cases hk'
      case tuple => obtain ⟨φ, rfl, _⟩ := t; cases hk'
      case list => obtain ⟨φ, rfl, _⟩ := t; cases hk'
      case dict => obtain ⟨φ, rfl, _⟩ := t; cases hk'
      case what => obtain ⟨_, φ, _, rfl, _⟩ := t; cases hk'
    · intro al
      have c := alike_cell good al (nn a .refl)
      rw [h] at c
      generalize hm : mem b = cb at c t
      cases c with
      | num nan => exact ⟨_, t, numEq_same nan⟩
  | @tuple a xs φ h _ ih =>
    have t := tree_cell hb
    have item : ∀ x ∈ xs, HasItem (mem a) x := fun x hx => by rw [h]; exact .tuple hx
    rw [eq_tuple_iff]
    constructor
    · rintro ⟨l, rfl, e⟩
      cases hm : mem b <;> rw [hm] at t <;> dsimp only at t
      case num => cases t
      case tuple =>
        obtain ⟨ψ, e', i⟩ := t
        cases e'
        obtain ⟨hl, e⟩ := (pair_tree (fun x hx b hb => ih x hx (fun y hy => nn y (insideMem_trans (item x hx) hy)) hb) i).1 e
        have c : CellEq (NoDifference mem) (mem a) (mem b) := by rw [h, hm]; exact .tuple hl e
        exact .inr (noDifference_of_cell c)
      case none => cases t
      case str => cases t
      case list => obtain ⟨φ, e', _⟩ := t; cases e'
      case dict => obtain ⟨φ, e', _⟩ := t; cases e'
      case what => obtain ⟨_, φ, _, e', _⟩ := t; cases e'
    · intro al
      have c := alike_cell good al (nn a .refl)
      rw [h] at c
      generalize hm : mem b = cb at c t
      cases c with
      | tuple hl e =>
        obtain ⟨ψ, rfl, i⟩ := t
        refine ⟨_, rfl, (pair_tree (fun x hx b hb => ih x hx (fun y hy => nn y (insideMem_trans (item x hx) hy)) hb) i).2 ⟨hl, fun j x y hx hy => ?_⟩⟩
        exact (e j x y hx hy).elim .inl id
  | @list a xs φ h _ ih =>
    have t := tree_cell hb
    have item : ∀ x ∈ xs, HasItem (mem a) x := fun x hx => by rw [h]; exact .list hx
    rw [eq_list_iff]
    constructor
    · rintro ⟨l, rfl, e⟩
      cases hm : mem b <;> rw [hm] at t <;> dsimp only at t
      case num => cases t
      case list =>
        obtain ⟨ψ, e', i⟩ := t
        cases e'
        obtain ⟨hl, e⟩ := (pair_tree (fun x hx b hb => ih x hx (fun y hy => nn y (insideMem_trans (item x hx) hy)) hb) i).1 e
        have c : CellEq (NoDifference mem) (mem a) (mem b) := by rw [h, hm]; exact .list hl e
        exact .inr (noDifference_of_cell c)
      case none => cases t
      case str => cases t
      case tuple => obtain ⟨φ, e', _⟩ := t; cases e'
      case dict => obtain ⟨φ, e', _⟩ := t; cases e'
      case what => obtain ⟨_, φ, _, e', _⟩ := t; cases e'
    · intro al
      have c := alike_cell good al (nn a .refl)
      rw [h] at c
      generalize hm : mem b = cb at c t
      cases c with
      | list hl e =>
        obtain ⟨ψ, rfl, i⟩ := t
        refine ⟨_, rfl, (pair_tree (fun x hx b hb => ih x hx (fun y hy => nn y (insideMem_trans (item x hx) hy)) hb) i).2 ⟨hl, fun j x y hx hy => ?_⟩⟩
        exact (e j x y hx hy).elim .inl id
  | @dict a xs φ h _ ih =>
    have t := tree_cell hb
    have ih' : ∀ {ψ : Nat → Val}, ∀ kv ∈ xs, ∀ b, IsTree fi mem b (ψ b) → (pyEq fi false (φ kv.2) (ψ b) = true ↔ AlikeAt mem kv.2 b) := fun kv hkv b hb =>
      ih kv hkv (fun y hy => nn y (insideMem_trans (by rw [h]; exact .dict (k := kv.1) hkv) hy)) hb
    have keyed : ∀ {ys : List (Str × Nat)} {ψ : Nat → Val}, pyEq fi false (.dict (xs.map fun kv => (Val.str kv.1, φ kv.2))) (.dict (ys.map fun kv => (Val.str kv.1, ψ kv.2))) = true ↔
        (xs.length = ys.length ∧ ∀ kv ∈ xs, ∃ q ∈ ys, kv.1 = q.1 ∧ pyEq fi false (φ kv.2) (ψ q.2) = true) := by
      intro ys ψ
      rw [eq_dict_iff]
      constructor
      · rintro ⟨l, e, hl, h⟩
        cases e
        refine ⟨by simpa using hl, fun kv hkv => ?_⟩
        obtain ⟨y, hy, e1, e2⟩ := h _ (List.mem_map.2 ⟨kv, hkv, rfl⟩)
        obtain ⟨q, hq, rfl⟩ := List.mem_map.1 hy
        exact ⟨q, hq, by simpa [pyEq] using e1, e2⟩
      · rintro ⟨hl, h⟩
        refine ⟨_, rfl, by simpa using hl, fun x hx => ?_⟩
        obtain ⟨kv, hkv, rfl⟩ := List.mem_map.1 hx
        obtain ⟨q, hq, e1, e2⟩ := h kv hkv
        exact ⟨_, List.mem_map.2 ⟨q, hq, rfl⟩, by simpa [pyEq] using e1, e2⟩
    constructor
    · intro e
      cases hm : mem b <;> rw [hm] at t <;> dsimp only at t
      case num => obtain ⟨k, e⟩ := eq_num_left t e; cases e
      case dict =>
        obtain ⟨ψ, rfl, i⟩ := t
        exact .inr ((items_tree good h hm ih' i).1 (keyed.1 e))
      case none => subst t; simp [pyEq] at e
      case str => subst t; simp [pyEq] at e
      case tuple => obtain ⟨φ, rfl, _⟩ := t; simp [pyEq] at e
      case list => obtain ⟨φ, rfl, _⟩ := t; simp [pyEq] at e
      case what => obtain ⟨_, φ, _, rfl, _⟩ := t; simp [pyEq] at e
    · intro al
      have c := alike_cell good al (nn a .refl)
      rw [h] at c
      generalize hm : mem b = cb at c t
      cases c with
      | dict hk e =>
        obtain ⟨ψ, rfl, i⟩ := t
        refine keyed.2 ((items_tree good h hm ih' i).2 (noDifference_of_cell ?_))
        rw [h, hm]
        exact .dict hk fun k x y hx hy => (e k x y hx hy).elim .inl id
  | @what a m d nk o xs φ h hd _ ih =>
    have t := tree_cell hb
    have hda : HasItem (mem a) d := by rw [h]; exact .conf
    have ih' : ∀ {ψ : Nat → Val}, ∀ kv ∈ xs, ∀ b, IsTree fi mem b (ψ b) → (pyEq fi false (φ kv.2) (ψ b) = true ↔ AlikeAt mem kv.2 b) := fun kv hkv b hb =>
      ih kv hkv (fun y hy => nn y (insideMem_trans hda (insideMem_trans (by rw [hd]; exact .dict (k := kv.1) hkv) hy))) hb
    have keyed : ∀ {ys : List (Str × Nat)} {ψ : Nat → Val}, (xs.map fun kv => (kv.1, φ kv.2)).length = (ys.map fun kv => (kv.1, ψ kv.2)).length ∧
        (∀ x ∈ xs.map fun kv => (kv.1, φ kv.2), ∃ y ∈ ys.map fun kv => (kv.1, ψ kv.2), x.1 = y.1 ∧ pyEq fi false x.2 y.2 = true) ↔
        (xs.length = ys.length ∧ ∀ kv ∈ xs, ∃ q ∈ ys, kv.1 = q.1 ∧ pyEq fi false (φ kv.2) (ψ q.2) = true) := by
      intro ys ψ
      rw [List.length_map, List.length_map]
      refine and_congr_right fun _ => ⟨fun h kv hkv => ?_, fun h x hx => ?_⟩
      · obtain ⟨y, hy, e1, e2⟩ := h _ (List.mem_map.2 ⟨kv, hkv, rfl⟩)
        obtain ⟨q, hq, rfl⟩ := List.mem_map.1 hy
        exact ⟨q, hq, e1, e2⟩
      · obtain ⟨kv, hkv, rfl⟩ := List.mem_map.1 hx
        obtain ⟨q, hq, e1, e2⟩ := h kv hkv
        exact ⟨_, List.mem_map.2 ⟨q, hq, rfl⟩, e1, e2⟩
    rw [eq_what_iff]
    constructor
    · rintro ⟨c', nk', rfl, e⟩
      cases hm : mem b <;> rw [hm] at t <;> dsimp only at t
      case what =>
        obtain ⟨ys, ψ, hd', e', i⟩ := t
        cases e'
        have nd := (items_tree good hd hd' ih' i).1 (keyed.1 e)
        exact .inr (noDifference_of_cell (by rw [h, hm]; exact .what nd))
      case num => cases t
      case none => cases t
      case str => cases t
      case tuple => obtain ⟨φ, e', _⟩ := t; cases e'
      case list => obtain ⟨φ, e', _⟩ := t; cases e'
      case dict => obtain ⟨φ, e', _⟩ := t; cases e'
    · intro al
      have c := alike_cell good al (nn a .refl)
      rw [h] at c
      generalize hm : mem b = cb at c t
      cases c with
      | what e =>
        obtain ⟨ys, ψ, hd', rfl, i⟩ := t
        refine ⟨_, _, rfl, keyed.2 ((items_tree good hd hd' ih' i).2 ?_)⟩
        have c' := alike_cell good e (by rw [hd]; simp)
        exact noDifference_of_cell (by
          rw [hd, hd'] at c' ⊢
          cases c' with
          | dict hk e => exact .dict hk fun k x y hx hy => (e k x y hx hy).elim .inl id)

theorem tree_ends {a : Nat} {v : Val} (ha : IsTree fi mem a v) : ¬ ∃ p : Nat → Nat, p 0 = a ∧ ∀ i, HasItem (mem (p i)) (p (i + 1)) := by
  rintro ⟨p, rfl, hp⟩
  generalize e : p 0 = a at ha
  have next := hp 0
  induction ha generalizing p with
  | none h => subst e; rw [h] at next; cases next
  | num h _ => subst e; rw [h] at next; cases next
  | str h => subst e; rw [h] at next; cases next
  | tuple φ h _ ih =>
    subst e
    rw [h] at next
    cases next with
    | tuple hr => exact ih _ hr (fun i => p (i + 1)) (fun i => hp (i + 1)) rfl (hp 1)
  | list φ h _ ih =>
    subst e
    rw [h] at next
    cases next with
    | list hr => exact ih _ hr (fun i => p (i + 1)) (fun i => hp (i + 1)) rfl (hp 1)
  | dict φ h _ ih =>
    subst e
    rw [h] at next
    cases next with
    | dict hr => exact ih _ hr (fun i => p (i + 1)) (fun i => hp (i + 1)) rfl (hp 1)
  | @what a m d nk o xs φ h hd _ ih =>
    subst e
    rw [h] at next
    generalize e1 : p (0 + 1) = q at next
    cases next
    have n2 := hp (0 + 1)
    rw [e1, hd] at n2
    cases n2 with
    | dict hr => exact ih _ hr (fun i => p (i + 2)) (fun i => hp (i + 2)) rfl (hp 2)

end

/-- C106. Of trees without nan it is the equality of C67. -/
theorem c106_tree (back : Bool) (fi : Str → Option Int) (mem : Nat → ECell) (good : GoodMem mem) (a b : Nat) (v w : Val) (ha : IsTree fi mem a v)
    (hb : IsTree fi mem b w) (c : (mem a).Compound) (nn : ∀ x, InsideMem mem a x → mem x ≠ .num (.inr c!"nan")) :
    ∃ N, ∀ n, N ≤ n → whatEq back mem n a b = .ok (pyEq fi false v w) := by
  obtain ⟨N, r, hr, h⟩ := c106_ends back mem good a b fun ⟨p, q, hp, _, path⟩ => tree_ends ha ⟨p, hp, fun i => asks_holds (path i)⟩
  refine ⟨max N 2, fun n hn => ?_⟩
  rw [h n (Nat.le_trans (Nat.le_max_left _ _) hn)]
  have eq : r = true ↔ pyEq fi false v w = true := by
    rw [tree_eq good ha nn hb]
    refine ⟨fun e => .inr (hr.1 e), fun al => ?_⟩
    rcases al with rfl | nd
    · have := c106_self back mem good a c (max N 2) (Nat.le_max_right _ _)
      rw [h _ (Nat.le_max_left _ _)] at this
      cases this
      rfl
    · exact hr.2 nd
  congr 1
  cases r <;> cases e : pyEq fi false v w <;> simp [e] at eq ⊢

/-! ### The order of insertion -/

/-- Two Whats that differ in the order of their parameters only (0, 2), one that differs from them in one parameter (4), and lists that contain
themselves (8, 9). -/
def loopsInWhats : Nat → ECell
  | 0 => .what c!"f" 1 [] none
  | 1 => .dict [(c!"x", 8), (c!"y", 10)]
  | 2 => .what c!"f" 3 [] none
  | 3 => .dict [(c!"y", 10), (c!"x", 8)]
  | 4 => .what c!"f" 5 [] none
  | 5 => .dict [(c!"x", 9), (c!"y", 11)]
  | 8 => .list [8]
  | 9 => .list [9]
  | 10 => .num (.inl 1)
  | _ => .num (.inl 2)

theorem loopsInWhats_good : GoodMem loopsInWhats := by
  constructor
  · intro a kvs h
    unfold loopsInWhats at h
    split at h <;> first | (cases h; done) | (injection h with h; subst h; decide)
  · intro a n d nk o h
    unfold loopsInWhats at h
    split at h <;> first | (cases h; done) | (injection h with _ h _ _; subst h; exact ⟨_, rfl⟩)

theorem loopsInWhats_loop (back : Bool) (n : Nat) : eqMem back loopsInWhats n 8 9 = none ∧ eqMem back loopsInWhats n 9 8 = none := by
  have nd : NoDifference loopsInWhats 8 9 := by
    refine ⟨fun x y => x = 8 ∧ y = 9, fun x y h => ?_, rfl, rfl⟩
    obtain ⟨rfl, rfl⟩ := h
    refine .list rfl fun i x y hx hy => ?_
    cases i with
    | zero => cases hx; cases hy; exact .inr ⟨rfl, rfl⟩
    | succ i => cases hx
  have ne : NeverEnds loopsInWhats 8 9 := ⟨fun _ => 8, fun _ => 9, rfl, rfl, fun i => .list (i := 0) rfl rfl rfl rfl (show (8 : Nat) ≠ 9 by decide)⟩
  have none_of : ∀ {a b}, whatEq back loopsInWhats n a b = .error .recursionError → eqMem back loopsInWhats n a b = none := by
    intro a b h
    cases e : eqMem back loopsInWhats n a b with
    | none => rfl
    | some r => rw [whatEq_ok.2 e] at h; cases h
  exact ⟨none_of (c106_raises back _ loopsInWhats_good 8 9 nd ne n),
    none_of (c106_raises back _ loopsInWhats_good 9 8 (noDifference_symm nd) (by
      obtain ⟨p, q, h1, h2, h⟩ := ne
      exact ⟨q, p, h2, h1, fun i => asks_symm (h i)⟩) n)⟩

/-- C106. Whether one gets False or RecursionError may depend on the order in which parameters were inserted. -/
theorem c106_order (back : Bool) : ∃ mem a a' b, GoodMem mem ∧ (∀ n, 2 ≤ n → whatEq back mem n a a' = .ok true) ∧
    (∀ n, whatEq back mem n a b = .error .recursionError) ∧ ∀ n, 3 ≤ n → whatEq back mem n a' b = .ok false := by
  refine ⟨loopsInWhats, 0, 2, 4, loopsInWhats_good, fun n hn => ?_, fun n => whatEq_error ?_, fun n hn => ?_⟩
  · obtain ⟨n, rfl⟩ := Nat.exists_eq_add_of_le' hn
    apply whatEq_ok.2
    cases back <;> rfl
  · cases n with
    | zero => rfl
    | succ n =>
      cases n with
      | zero => rfl
      | succ n =>
        have h := loopsInWhats_loop back n
        cases back
        · simp [eqMem, loopsInWhats, itemsEq, sameOr, h.1]
        · simp [eqMem, loopsInWhats, itemsEq, sameOr, h.2]
  · obtain ⟨n, rfl⟩ := Nat.exists_eq_add_of_le' hn
    apply whatEq_ok.2
    cases back <;> rfl

/-! ### Examples -/

/-- `w = What('f', {}); w.conf['me'] = w; w == w` -/
def selfie : Nat → ECell
  | 0 => .what c!"f" 1 [] none
  | 1 => .dict [(c!"me", 0)]
  | 2 => .what c!"f" 3 [] none
  | 3 => .dict [(c!"me", 4)]
  | 4 => .what c!"f" 3 [] none
  | _ => .none

theorem selfie_good : GoodMem selfie := by
  constructor
  · intro a kvs h
    unfold selfie at h
    split at h <;> first | (cases h; done) | (injection h with h; subst h; decide)
  · intro a n d nk o h
    unfold selfie at h
    split at h <;> first | (cases h; done) | (injection h with _ h _ _; subst h; exact ⟨_, rfl⟩)

example : whatEq true selfie 2 0 0 = .ok true := c106_self true selfie selfie_good 0 (.what _ _ _ _) 2 (by decide)

/-- `w == w.copy(deep=True)` -/
example (n : Nat) : whatEq true selfie n 0 2 = .error .recursionError := by
  refine (c106_copy_deep true selfie selfie_good 0 2 1 3 c!"f" [] [] none rfl rfl ⟨fun | 0 => 4 | 1 => 3 | x => x, rfl, fun x hx => ?_⟩).1
    ⟨fun i => 1 - i % 2, rfl, fun i => ?_, fun i => ⟨i, Nat.le_refl _, fun ⟨xs, h⟩ => ?_⟩⟩ n
  · have : x = 0 ∨ x = 1 := by
      induction hx with
      | refl => exact .inr rfl
      | step _ h ih =>
        rcases ih with rfl | rfl
        · cases h; exact .inr rfl
        · rw [show selfie 1 = .dict [(c!"me", 0)] from rfl] at h
          cases h with
          | dict h => simp only [List.mem_cons, List.not_mem_nil, or_false, Prod.mk.injEq] at h; exact .inl h.2
    rcases this with rfl | rfl
    · exact ⟨rfl, fun _ _ => by decide, fun h => absurd (.what _ _ _ _) h⟩
    · exact ⟨rfl, fun _ _ => by decide, fun h => absurd (.dict _) h⟩
  · dsimp only
    rcases Nat.mod_two_eq_zero_or_one i with h | h
    · rw [show 1 - i % 2 = 1 by omega, show 1 - (i + 1) % 2 = 0 by omega]
      exact .dict (k := c!"me") (by simp)
    · rw [show 1 - i % 2 = 0 by omega, show 1 - (i + 1) % 2 = 1 by omega]
      exact .conf
  · dsimp only at h
    rcases Nat.mod_two_eq_zero_or_one i with e | e
    · rw [show 1 - i % 2 = 1 by omega] at h; cases h
    · rw [show 1 - i % 2 = 0 by omega] at h; cases h

/-- `What('f', {'x': 1, 'y': [2]}) == What('f', {'y': [2], 'x': 1.0})`, with one list or two. -/
def twoTrees : Nat → ECell
  | 0 => .what c!"f" 1 [] none
  | 1 => .dict [(c!"x", 4), (c!"y", 5)]
  | 2 => .what c!"f" 3 [] none
  | 3 => .dict [(c!"y", 6), (c!"x", 4)]
  | 4 => .num (.inl 1)
  | 5 => .list [7]
  | 6 => .list [7]
  | _ => .num (.inl 2)

theorem twoTrees_good : GoodMem twoTrees := by
  constructor
  · intro a kvs h
    unfold twoTrees at h
    split at h <;> first | (cases h; done) | (injection h with h; subst h; decide)
  · intro a n d nk o h
    unfold twoTrees at h
    split at h <;> first | (cases h; done) | (injection h with _ h _ _; subst h; exact ⟨_, rfl⟩)

example : ∃ N, ∀ n, N ≤ n → whatEq true twoTrees n 0 2 = .ok true := by
  have two : ∀ l, (l = 5 ∨ l = 6) → IsTree (fun t => if t = c!"1.0" then some 1 else none) twoTrees l (.list [.int 2]) := by
    intro l hl
    refine .list (xs := [7]) (fun _ => .int 2) (by rcases hl with rfl | rfl <;> rfl) fun x hx => ?_
    simp only [List.mem_cons, List.not_mem_nil, or_false] at hx
    subst hx
    exact .num (k := .inl 2) rfl rfl
  have one : IsTree (fun t => if t = c!"1.0" then some 1 else none) twoTrees 0 (.what c!"f" [(c!"x", .int 1), (c!"y", .list [.int 2])] [] none) := by
    refine .what (d := 1) (kvs := [(c!"x", 4), (c!"y", 5)]) (fun x => if x = 4 then .int 1 else .list [.int 2]) rfl rfl fun kv hkv => ?_
    simp only [List.mem_cons, List.not_mem_nil, or_false] at hkv
    rcases hkv with rfl | rfl
    · exact .num (k := .inl 1) rfl rfl
    · exact two 5 (.inl rfl)
  have other : IsTree (fun t => if t = c!"1.0" then some 1 else none) twoTrees 2 (.what c!"f" [(c!"y", .list [.int 2]), (c!"x", .float c!"1.0")] [] none) := by
    refine .what (d := 3) (kvs := [(c!"y", 6), (c!"x", 4)]) (fun x => if x = 4 then .float c!"1.0" else .list [.int 2]) rfl rfl fun kv hkv => ?_
    simp only [List.mem_cons, List.not_mem_nil, or_false] at hkv
    rcases hkv with rfl | rfl
    · exact two 6 (.inr rfl)
    · exact .num (k := .inl 1) rfl rfl
  have := c106_tree true _ twoTrees twoTrees_good 0 2 _ _ one other (.what _ _ _ _) fun x _ h => by
    unfold twoTrees at h
    split at h <;> cases h
  rw [show pyEq _ false _ _ = true from rfl] at this
  exact this

end Whatami
