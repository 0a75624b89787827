import Verif.Basic

/-
Lemmas about the Python primitives.
Definitions here are vocabulary for statements and proofs: the code they are about is cited in the model modules.
-/
namespace Whatami

/-! ### mapR -/

theorem mapR_congr {α β : Type} {f g : α → R β} {l : List α} (h : ∀ x ∈ l, f x = g x) :
    mapR f l = mapR g l := by
  induction l with
  | nil => rfl
  | cons x xs ih =>
    simp only [mapR]
    rw [h x (by simp), ih (fun y hy => h y (by simp [hy]))]

/-- Traversal in `Option`, the exception-blind version of `mapR`. -/
def mapO {α β : Type} (f : α → Option β) : List α → Option (List β)
  | [] => some []
  | x :: xs =>
    match f x, mapO f xs with
    | some y, some ys => some (y :: ys)
    | _, _ => none

theorem val?_mapR {α β : Type} (f : α → R β) (l : List α) :
    val? (mapR f l) = mapO (fun x => val? (f x)) l := by
  induction l with
  | nil => rfl
  | cons x xs ih =>
    simp only [mapR, mapO, ← ih]
    cases hf : f x with
    | error e => simp [val?]
    | ok y => cases mapR f xs <;> simp [val?]

theorem mapO_congr {α β : Type} {f g : α → Option β} {l : List α} (h : ∀ x ∈ l, f x = g x) :
    mapO f l = mapO g l := by
  induction l with
  | nil => rfl
  | cons x xs ih =>
    simp only [mapO]
    rw [h x (by simp), ih (fun y hy => h y (by simp [hy]))]

/-- Equal up to reordering, or both undefined. -/
def PermO {α : Type} : Option (List α) → Option (List α) → Prop
  | some a, some b => a.Perm b
  | none, none => True
  | _, _ => False

theorem mapO_perm {α β : Type} (f : α → Option β) {l l' : List α} (h : l.Perm l') :
    PermO (mapO f l) (mapO f l') := by
  induction h with
  | nil => exact List.Perm.refl _
  | cons x _ ih =>
    simp only [mapO]
    cases f x with
    | none => trivial
    | some y =>
      revert ih
      cases mapO f _ <;> cases mapO f _ <;> simp only [PermO] <;> intro ih
      · trivial
      · exact ih.elim
      · exact ih.elim
      · exact ih.cons _
  | swap x y l =>
    simp only [mapO]
    cases f x <;> cases f y <;> cases mapO f l <;> simp only [PermO]
    exact List.Perm.swap _ _ _
  | trans _ _ ih1 ih2 =>
    revert ih1 ih2
    cases mapO f _ <;> cases mapO f _ <;> cases mapO f _ <;> simp only [PermO] <;> intro a b
    all_goals first | trivial | exact a.elim | exact b.elim | exact a.trans b

theorem mapR_ok_iff {α β : Type} {f : α → R β} {l : List α} :
    (∃ ys, mapR f l = .ok ys) ↔ ∀ x ∈ l, ∃ y, f x = .ok y := by
  induction l with
  | nil => simp [mapR]
  | cons x xs ih =>
    simp only [mapR]
    cases hf : f x with
    | error e => simp [hf]
    | ok y =>
      cases hm : mapR f xs with
      | error e =>
        have : ¬ ∃ ys, mapR f xs = .ok ys := by simp [hm]
        rw [ih] at this
        simp only [reduceCtorEq, exists_false, List.mem_cons, forall_eq_or_imp, hf, false_iff]
        intro h; exact this h.2
      | ok ys =>
        have : ∃ ys, mapR f xs = .ok ys := ⟨_, hm⟩
        rw [ih] at this
        simp [hf]; simpa using this

theorem mapR_length {α β : Type} {f : α → R β} {l : List α} {ys : List β} (h : mapR f l = .ok ys) :
    ys.length = l.length := by
  induction l generalizing ys with
  | nil => simp [mapR] at h; subst h; rfl
  | cons x xs ih =>
    simp only [mapR] at h
    cases hf : f x with
    | error e => simp [hf] at h
    | ok y =>
      cases hm : mapR f xs with
      | error e => simp [hf, hm] at h
      | ok zs =>
        simp [hf, hm] at h; subst h
        simp [ih hm]

theorem mapR_append {α β : Type} (f : α → R β) (l r : List α) :
    mapR f (l ++ r) = match mapR f l with
      | .error e => .error e
      | .ok a => match mapR f r with
        | .error e => .error e
        | .ok b => .ok (a ++ b) := by
  induction l with
  | nil => simp only [List.nil_append, mapR]; cases mapR f r <;> simp
  | cons x xs ih =>
    simp only [List.cons_append, mapR, ih]
    cases f x with
    | error e => rfl
    | ok y => cases mapR f xs <;> simp <;> cases mapR f r <;> simp

theorem mapR_pure {α β : Type} {f : α → R β} {g : α → β} {l : List α} (h : ∀ x ∈ l, f x = .ok (g x)) :
    mapR f l = .ok (l.map g) := by
  induction l with
  | nil => rfl
  | cons x xs ih =>
    simp only [mapR]
    rw [h x (by simp), ih (fun y hy => h y (by simp [hy]))]
    rfl

/-! ### sorted -/

theorem insertBy_perm {α : Type} (le : α → α → Bool) (a : α) (l : List α) :
    (insertBy le a l).Perm (a :: l) := by
  induction l with
  | nil => exact List.Perm.refl _
  | cons b l ih =>
    simp only [insertBy]
    split
    · exact List.Perm.refl _
    · exact (ih.cons b).trans (List.Perm.swap _ _ _)

theorem sortBy_perm {α : Type} (le : α → α → Bool) (l : List α) : (sortBy le l).Perm l := by
  induction l with
  | nil => exact List.Perm.refl _
  | cons a l ih => exact (insertBy_perm le a _).trans (ih.cons a)

theorem mem_sortBy {α : Type} {le : α → α → Bool} {a : α} {l : List α} : a ∈ sortBy le l ↔ a ∈ l :=
  (sortBy_perm le l).mem_iff

/-- The list is in non-decreasing order. -/
def Sorted {α : Type} (le : α → α → Bool) (l : List α) : Prop := l.Pairwise fun a b => le a b = true

theorem insertBy_sorted {α : Type} {le : α → α → Bool} (total : ∀ a b, le a b = true ∨ le b a = true)
    (trans : ∀ a b c, le a b = true → le b c = true → le a c = true) (a : α) {l : List α}
    (h : Sorted le l) : Sorted le (insertBy le a l) := by
  induction l with
  | nil => simp [insertBy, Sorted]
  | cons b l ih =>
    simp only [insertBy]
    have hb := List.pairwise_cons.1 h
    split
    · next hab =>
      refine List.pairwise_cons.2 ⟨?_, h⟩
      intro c hc
      rcases List.mem_cons.1 hc with rfl | hc
      · exact hab
      · exact trans _ _ _ hab (hb.1 c hc)
    · next hab =>
      refine List.pairwise_cons.2 ⟨?_, ih hb.2⟩
      intro c hc
      rcases List.mem_cons.1 ((insertBy_perm le a l).mem_iff.1 hc) with rfl | hc
      · rcases total b c with h | h
        · exact h
        · exact absurd h hab
      · exact hb.1 c hc

theorem sortBy_sorted {α : Type} {le : α → α → Bool} (total : ∀ a b, le a b = true ∨ le b a = true)
    (trans : ∀ a b c, le a b = true → le b c = true → le a c = true) (l : List α) :
    Sorted le (sortBy le l) := by
  induction l with
  | nil => exact List.Pairwise.nil
  | cons a l ih => exact insertBy_sorted total trans a ih

/-- Two sorted permutations of each other coincide when ties only happen between equal elements. -/
theorem sorted_perm_eq {α : Type} {le : α → α → Bool} {l l' : List α}
    (anti : ∀ a ∈ l, ∀ b ∈ l, le a b = true → le b a = true → a = b)
    (h : Sorted le l) (h' : Sorted le l') (p : l.Perm l') : l = l' := by
  induction l generalizing l' with
  | nil => exact (List.Perm.nil_eq p)
  | cons a l ih =>
    cases l' with
    | nil => exact absurd p.symm (by simp)
    | cons b l' =>
      have hab : a = b := by
        have hb : b ∈ a :: l := p.mem_iff.2 (by simp)
        have ha : a ∈ b :: l' := p.mem_iff.1 (by simp)
        rcases List.mem_cons.1 hb with e | hb'
        · exact e.symm
        rcases List.mem_cons.1 ha with e | ha'
        · exact e
        exact anti a (by simp) b hb ((List.pairwise_cons.1 h).1 b hb') ((List.pairwise_cons.1 h').1 a ha')
      subst hab
      congr 1
      exact ih (fun x hx y hy => anti x (by simp [hx]) y (by simp [hy])) (List.pairwise_cons.1 h).2
        (List.pairwise_cons.1 h').2 (List.perm_cons a |>.1 p)

/-! ### string order -/

theorem strLe_refl (a : Str) : strLe a a = true := by
  induction a with
  | nil => rfl
  | cons c r ih => simp [strLe, ih]

theorem strLe_total (a b : Str) : strLe a b = true ∨ strLe b a = true := by
  induction a generalizing b with
  | nil => simp [strLe]
  | cons c r ih =>
    cases b with
    | nil => simp [strLe]
    | cons d s =>
      simp only [strLe]
      by_cases h1 : c.toNat < d.toNat
      · simp [h1]
      · by_cases h2 : d.toNat < c.toNat
        · simp [h2]
        · simp only [h1, h2, if_false]; exact ih s

theorem strLe_trans (a b c : Str) (h1 : strLe a b = true) (h2 : strLe b c = true) : strLe a c = true := by
  induction a generalizing b c with
  | nil => simp [strLe]
  | cons x r ih =>
    cases b with
    | nil => simp [strLe] at h1
    | cons y s =>
      cases c with
      | nil => simp [strLe] at h2
      | cons z t =>
        simp only [strLe] at h1 h2 ⊢
        by_cases e1 : x.toNat < y.toNat
        · by_cases e2 : y.toNat < z.toNat
          · simp [Nat.lt_trans e1 e2]
          · by_cases e3 : z.toNat < y.toNat
            · simp [e2, e3] at h2
            · have : y.toNat = z.toNat := by omega
              simp [this ▸ e1]
        · by_cases e1' : y.toNat < x.toNat
          · simp [e1, e1'] at h1
          · have exy : x.toNat = y.toNat := by omega
            simp only [e1, e1', if_false] at h1
            by_cases e2 : y.toNat < z.toNat
            · simp [exy ▸ e2]
            · by_cases e3 : z.toNat < y.toNat
              · simp [e2, e3] at h2
              · simp only [e2, e3, if_false] at h2
                rw [exy]; simp only [e2, e3, if_false]
                exact ih _ _ h1 h2

theorem char_ext {c d : Char} (h : c.toNat = d.toNat) : c = d := by
  apply Char.ext
  exact UInt32.toNat_inj.1 h

theorem strLe_antisymm (a b : Str) (h1 : strLe a b = true) (h2 : strLe b a = true) : a = b := by
  induction a generalizing b with
  | nil => cases b with
    | nil => rfl
    | cons => simp [strLe] at h2
  | cons x r ih =>
    cases b with
    | nil => simp [strLe] at h1
    | cons y s =>
      simp only [strLe] at h1 h2
      by_cases e1 : x.toNat < y.toNat
      · have : ¬ y.toNat < x.toNat := by omega
        simp [this, e1] at h2
      · by_cases e2 : y.toNat < x.toNat
        · simp [e1, e2] at h1
        · simp only [e1, e2, if_false] at h1 h2
          rw [char_ext (show x.toNat = y.toNat by omega), ih _ h1 h2]

theorem sort_strLe_perm {l l' : List Str} (p : l.Perm l') : sortBy strLe l = sortBy strLe l' := by
  apply sorted_perm_eq (le := strLe)
  · intro a _ b _ h1 h2; exact strLe_antisymm a b h1 h2
  · exact sortBy_sorted strLe_total strLe_trans _
  · exact sortBy_sorted strLe_total strLe_trans _
  · exact ((sortBy_perm _ _).trans p).trans (sortBy_perm _ _).symm

/-! ### dictionaries -/

section Dict
variable {κ ν : Type} [DecidableEq κ]

theorem dget_eq_some_of_mem {d : List (κ × ν)} (h : (dkeys d).Nodup) {k : κ} {v : ν} (m : (k, v) ∈ d) :
    dget d k = some v := by
  induction d with
  | nil => cases m
  | cons e r ih =>
    obtain ⟨k', v'⟩ := e
    simp only [dkeys, List.map_cons, List.nodup_cons] at h
    simp only [dget]
    rcases List.mem_cons.1 m with e | m
    · cases e; simp
    · have : k' ≠ k := by
        intro e; subst e; exact h.1 (List.mem_map.2 ⟨_, m, rfl⟩)
      simp [this]; exact ih h.2 m

theorem mem_of_dget {d : List (κ × ν)} {k : κ} {v : ν} (h : dget d k = some v) : (k, v) ∈ d := by
  induction d with
  | nil => cases h
  | cons e r ih =>
    obtain ⟨k', v'⟩ := e
    simp only [dget] at h
    split at h
    · next e => cases h; subst e; simp
    · exact List.mem_cons_of_mem _ (ih h)

theorem dget_none_iff {d : List (κ × ν)} {k : κ} : dget d k = none ↔ k ∉ dkeys d := by
  induction d with
  | nil => simp [dget, dkeys]
  | cons e r ih =>
    obtain ⟨k', v'⟩ := e
    simp only [dget, dkeys, List.map_cons, List.mem_cons]
    split
    · next e => subst e; simp
    · next e => rw [ih]; simp [dkeys]; intro _ h; exact e h.symm

theorem dhas_iff {d : List (κ × ν)} {k : κ} : dhas d k = true ↔ k ∈ dkeys d := by
  have := dget_none_iff (d := d) (k := k)
  simp only [dhas]
  cases h : dget d k with
  | none => simp [h] at this; simpa using this
  | some v => simp [h] at this; simpa using this

theorem dget_dset (d : List (κ × ν)) (k : κ) (v : ν) (k' : κ) :
    dget (dset d k v) k' = if k = k' then some v else dget d k' := by
  induction d with
  | nil => simp [dset, dget]
  | cons e r ih =>
    obtain ⟨k0, v0⟩ := e
    simp only [dset]
    by_cases h : k0 = k
    · subst h
      simp only [if_true, dget]
      split <;> rfl
    · simp only [h, if_false, dget, ih]
      by_cases h' : k0 = k'
      · subst h'; simp [Ne.symm h]
      · simp [h']

theorem mem_dkeys_dset {d : List (κ × ν)} {k k' : κ} {v : ν} :
    k' ∈ dkeys (dset d k v) ↔ k' = k ∨ k' ∈ dkeys d := by
  induction d with
  | nil => simp [dset, dkeys]
  | cons e r ih =>
    obtain ⟨k0, v0⟩ := e
    simp only [dset]
    split
    · next h =>
      subst h; simp [dkeys]
    · simp only [dkeys, List.map_cons, List.mem_cons] at ih ⊢
      rw [ih]
      constructor
      · rintro (h | h | h) <;> simp [h]
      · rintro (h | h | h) <;> simp [h]

theorem nodup_dset {d : List (κ × ν)} (h : (dkeys d).Nodup) (k : κ) (v : ν) :
    (dkeys (dset d k v)).Nodup := by
  induction d with
  | nil => simp [dset, dkeys]
  | cons e r ih =>
    obtain ⟨k0, v0⟩ := e
    simp only [dkeys, List.map_cons, List.nodup_cons] at h
    simp only [dset]
    split
    · simp only [dkeys, List.map_cons, List.nodup_cons]; exact h
    · next hne =>
      simp only [dkeys, List.map_cons, List.nodup_cons]
      refine ⟨?_, ih h.2⟩
      intro hm
      rcases mem_dkeys_dset.1 hm with e | e
      · exact hne e
      · exact h.1 e

theorem nodup_dupdate {d : List (κ × ν)} (h : (dkeys d).Nodup) (e : List (κ × ν)) :
    (dkeys (dupdate d e)).Nodup := by
  induction e generalizing d with
  | nil => exact h
  | cons x xs ih => exact ih (nodup_dset h x.1 x.2)

theorem nodup_dictOf (e : List (κ × ν)) : (dkeys (dictOf e)).Nodup :=
  nodup_dupdate (by simp [dkeys]) e

theorem mem_dset {d : List (κ × ν)} {k : κ} {v : ν} {x : κ × ν} (h : x ∈ dset d k v) :
    x ∈ d ∨ x.2 = v := by
  induction d with
  | nil => simp [dset] at h; subst h; simp
  | cons e r ih =>
    obtain ⟨k0, v0⟩ := e
    simp only [dset] at h
    split at h
    · rcases List.mem_cons.1 h with e | e
      · subst e; simp
      · simp [e]
    · rcases List.mem_cons.1 h with e | e
      · subst e; simp
      · rcases ih e with h | h <;> simp [h]

theorem mem_dset_strong {d : List (κ × ν)} {k : κ} {v : ν} {x : κ × ν} (h : x ∈ dset d k v) :
    x ∈ d ∨ x = (k, v) := by
  induction d with
  | nil => simp [dset] at h; simp [h]
  | cons e r ih =>
    obtain ⟨k0, v0⟩ := e
    simp only [dset] at h
    split at h
    · next hk =>
      subst hk
      rcases List.mem_cons.1 h with e | e
      · subst e; simp
      · simp [e]
    · rcases List.mem_cons.1 h with e | e
      · subst e; simp
      · rcases ih e with h | h <;> simp [h]

theorem mem_dupdate {d e : List (κ × ν)} {x : κ × ν} (h : x ∈ dupdate d e) : x ∈ d ∨ x ∈ e := by
  induction e generalizing d with
  | nil => exact Or.inl h
  | cons y ys ih =>
    rcases ih (d := dset d y.1 y.2) h with h | h
    · rcases mem_dset_strong h with h | h
      · exact Or.inl h
      · right; rw [h]; simp
    · right; simp [h]

theorem mem_dictOf {e : List (κ × ν)} {x : κ × ν} (h : x ∈ dictOf e) : x ∈ e := by
  rcases mem_dupdate h with h | h
  · cases h
  · exact h

theorem dget_dupdate (d e : List (κ × ν)) (k : κ) :
    dget (dupdate d e) k = match dget e.reverse k with | some v => some v | none => dget d k := by
  induction e generalizing d with
  | nil => simp [dupdate, dget]
  | cons y ys ih =>
    have := ih (dset d y.1 y.2)
    simp only [dupdate, List.foldl_cons] at this ⊢
    rw [this, dget_dset]
    have app : ∀ (l : List (κ × ν)) (z : κ × ν), dget (l ++ [z]) k =
        match dget l k with | some v => some v | none => if z.1 = k then some z.2 else none := by
      intro l z
      induction l with
      | nil => simp [dget]
      | cons w ws ihw =>
        simp only [List.cons_append, dget]
        split
        · rfl
        · exact ihw
    rw [List.reverse_cons, app]
    cases dget ys.reverse k with
    | some v => rfl
    | none => simp only []; split <;> rfl

theorem dget_perm {d d' : List (κ × ν)} (h : (dkeys d).Nodup) (p : d.Perm d') (k : κ) :
    dget d k = dget d' k := by
  have h' : (dkeys d').Nodup := (p.map Prod.fst).nodup_iff.1 h
  cases hd : dget d k with
  | some v => exact (dget_eq_some_of_mem h' (p.mem_iff.1 (mem_of_dget hd))).symm
  | none =>
    cases hd' : dget d' k with
    | none => rfl
    | some v => rw [dget_eq_some_of_mem h (p.mem_iff.2 (mem_of_dget hd'))] at hd; cases hd

theorem dget_reverse {d : List (κ × ν)} (h : (dkeys d).Nodup) (k : κ) : dget d.reverse k = dget d k :=
  (dget_perm h (List.reverse_perm d).symm k).symm

omit [DecidableEq κ] in
theorem nodup_of_dkeys {d : List (κ × ν)} (h : (dkeys d).Nodup) : d.Nodup :=
  List.Pairwise.imp (fun hne e => hne (congrArg Prod.fst e)) (List.pairwise_map.1 h)

/-- Dictionaries with the same lookups hold the same items. -/
theorem perm_of_dget {d d' : List (κ × ν)} (h : (dkeys d).Nodup) (h' : (dkeys d').Nodup)
    (e : ∀ k, dget d k = dget d' k) : d.Perm d' := by
  refine (List.perm_ext_iff_of_nodup (nodup_of_dkeys h) (nodup_of_dkeys h')).2 ?_
  rintro ⟨k, v⟩
  constructor
  · intro hm; exact mem_of_dget (by rw [← e]; exact dget_eq_some_of_mem h hm)
  · intro hm; exact mem_of_dget (by rw [e]; exact dget_eq_some_of_mem h' hm)

theorem dget_filter (p : κ → Bool) (d : List (κ × ν)) (k : κ) :
    dget (d.filter fun e => p e.1) k = if p k then dget d k else none := by
  induction d with
  | nil => simp [dget]
  | cons e r ih =>
    obtain ⟨k', v'⟩ := e
    by_cases hp : p k' = true
    · rw [List.filter_cons_of_pos (by simpa using hp)]
      simp only [dget, ih]
      by_cases hk : k' = k
      · subst hk; simp [hp]
      · simp [hk]
    · rw [List.filter_cons_of_neg (by simpa using hp)]
      simp only [dget, ih]
      by_cases hk : k' = k
      · subst hk; simp [hp]
      · simp [hk]

theorem dictOf_nodup {d : List (κ × ν)} (h : (dkeys d).Nodup) : (dictOf d).Perm d := by
  refine perm_of_dget (nodup_dictOf d) h (fun k => ?_)
  rw [dictOf, dget_dupdate, dget_reverse h]
  cases dget d k <;> rfl

end Dict

end Whatami
