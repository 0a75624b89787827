import Verif.Spec.Equal
import Verif.Props.RoundTrip

/-
C67: equality of configurations.
-/
namespace Whatami

variable {fi : Str → Option Int} {ns : Bool}

/-! ### `==` constructor by constructor -/

theorem subL_iff {xs ys : List Val} : pySubL fi ns xs ys = true ↔ ∀ x ∈ xs, ∃ y ∈ ys, pyEq fi ns x y = true := by
  induction xs with
  | nil => simp [pySubL]
  | cons x xs ih => simp [pySubL, ih]

theorem subD_iff {xs ys : List (Val × Val)} :
    pySubD fi ns xs ys = true ↔ ∀ x ∈ xs, ∃ y ∈ ys, pyEq fi ns x.1 y.1 = true ∧ pyEq fi ns x.2 y.2 = true := by
  induction xs with
  | nil => simp [pySubD]
  | cons x xs ih =>
    obtain ⟨k, v⟩ := x
    simp only [pySubD, ih, Bool.and_eq_true, List.any_eq_true, List.forall_mem_cons]

theorem subA_iff {xs ys : Conf} : pySubA fi ns xs ys = true ↔ ∀ x ∈ xs, ∃ y ∈ ys, x.1 = y.1 ∧ pyEq fi ns x.2 y.2 = true := by
  induction xs with
  | nil => simp [pySubA]
  | cons x xs ih =>
    obtain ⟨k, v⟩ := x
    simp only [pySubA, ih, Bool.and_eq_true, List.any_eq_true, List.forall_mem_cons, beq_iff_eq]

theorem eqL_iff {xs ys : List Val} :
    pyEqL fi ns xs ys = true ↔ xs.length = ys.length ∧ ∀ (i : Nat) x y, xs[i]? = some x → ys[i]? = some y → pyEq fi ns x y = true := by
  induction xs generalizing ys with
  | nil => cases ys <;> simp [pyEqL]
  | cons x xs ih =>
    cases ys with
    | nil => simp [pyEqL]
    | cons y ys =>
      simp only [pyEqL, Bool.and_eq_true, ih, List.length_cons, Nat.add_right_cancel_iff]
      constructor
      · rintro ⟨h, hl, h'⟩
        refine ⟨hl, fun i a b ha hb => ?_⟩
        cases i with
        | zero => simp at ha hb; rw [← ha, ← hb]; exact h
        | succ i => exact h' i a b (by simpa using ha) (by simpa using hb)
      · rintro ⟨hl, h⟩
        exact ⟨h 0 x y rfl rfl, hl, fun i a b ha hb => h (i + 1) a b (by simpa using ha) (by simpa using hb)⟩

theorem eq_num_iff {a b : Val} {m : Int ⊕ Str} (h : numKey fi a = some m) :
    pyEq fi ns a b = true ↔ ∃ n, numKey fi b = some n ∧ numEq ns m n = true := by
  cases a <;> simp only [numKey] at h <;> try cases h
  · simp only [pyEq]; cases numKey fi b <;> simp
  · simp only [pyEq]; cases numKey fi b <;> simp
  · next t =>
    have h : numKey fi (.float t) = some m := h
    simp only [pyEq, h]
    cases numKey fi b <;> simp

theorem eq_num_left {a b : Val} {m : Int ⊕ Str} (h : numKey fi b = some m) (e : pyEq fi ns a b = true) : ∃ n, numKey fi a = some n := by
  cases a
  case bool => exact ⟨_, rfl⟩
  case int => exact ⟨_, rfl⟩
  case float t => simp only [numKey]; cases fi t <;> exact ⟨_, rfl⟩
  all_goals cases b <;> simp [pyEq, numKey] at e h

theorem numEq_trans {a b c : Int ⊕ Str} (h1 : numEq ns a b = true) (h2 : numEq ns b c = true) : numEq ns a c = true := by
  cases a <;> cases b <;> cases c <;> simp [numEq] at h1 h2 ⊢
  · rw [h1, h2]
  · exact ⟨h1.1.trans h2.1, h1.2⟩

theorem numEq_comm {a b : Int ⊕ Str} (h1 : numEq ns a b = true) : numEq ns b a = true := by
  cases a <;> cases b <;> simp [numEq] at h1 ⊢
  · exact h1.symm
  · refine ⟨h1.1.symm, ?_⟩; rw [← h1.1]; exact h1.2

/-- The elements of a set or frozenset. -/
def setElems? : Val → Option (List Val)
  | .set xs | .fset xs => some xs
  | _ => none

theorem eq_set_iff {a b : Val} {xs : List Val} (h : setElems? a = some xs) :
    pyEq fi ns a b = true ↔ ∃ ys, setElems? b = some ys ∧ xs.length = ys.length ∧ ∀ x ∈ xs, ∃ y ∈ ys, pyEq fi ns x y = true := by
  cases a <;> cases h <;> cases b <;> simp [pyEq, setElems?, subL_iff]

theorem eq_tuple_iff {b : Val} {xs : List Val} : pyEq fi ns (.tuple xs) b = true ↔ ∃ ys, b = .tuple ys ∧ pyEqL fi ns xs ys = true := by
  cases b <;> simp [pyEq]

theorem eq_list_iff {b : Val} {xs : List Val} : pyEq fi ns (.list xs) b = true ↔ ∃ ys, b = .list ys ∧ pyEqL fi ns xs ys = true := by
  cases b <;> simp [pyEq]

theorem eq_dict_iff {b : Val} {xs : List (Val × Val)} : pyEq fi ns (.dict xs) b = true ↔ ∃ ys, b = .dict ys ∧ xs.length = ys.length ∧
    ∀ x ∈ xs, ∃ y ∈ ys, pyEq fi ns x.1 y.1 = true ∧ pyEq fi ns x.2 y.2 = true := by
  cases b <;> simp [pyEq, subD_iff]

theorem eq_what_iff {b : Val} {n : Str} {c : Conf} {nk : List Str} {o : Option Str} :
    pyEq fi ns (.what n c nk o) b = true ↔ ∃ c' nk', b = .what n c' nk' o ∧ c.length = c'.length ∧
      ∀ x ∈ c, ∃ y ∈ c', x.1 = y.1 ∧ pyEq fi ns x.2 y.2 = true := by
  cases b <;> simp [pyEq, subA_iff]
  next n' c' nk' o' =>
  constructor
  · rintro ⟨⟨⟨rfl, rfl⟩, hl⟩, h⟩
    exact ⟨c', ⟨rfl, rfl, rfl⟩, hl, h⟩
  · rintro ⟨c'', ⟨rfl, rfl, rfl⟩, hl, h⟩
    exact ⟨⟨⟨rfl, rfl⟩, hl⟩, h⟩

/-- The shapes of a value `==` says yes to. -/
theorem eq_shape {a b : Val} (h : pyEq fi ns a b = true) :
    (a = b ∧ ((a = .none) ∨ (∃ s, a = .str s) ∨ (∃ s, a = .cls s) ∨ ∃ s, a = .numtype s)) ∨ (∃ m, numKey fi a = some m) ∨
    (∃ xs, a = .tuple xs) ∨ (∃ xs, a = .list xs) ∨ (∃ xs, setElems? a = some xs) ∨ (∃ xs, a = .dict xs) ∨ ∃ n c nk o, a = .what n c nk o := by
  cases a
  case bool => exact .inr (.inl ⟨_, rfl⟩)
  case int => exact .inr (.inl ⟨_, rfl⟩)
  case float t => exact .inr (.inl (by simp only [numKey]; cases fi t <;> exact ⟨_, rfl⟩))
  case tuple => simp
  case list => simp
  case set => simp [setElems?]
  case fset => simp [setElems?]
  case dict => simp
  case what => simp
  case none => cases b <;> simp [pyEq] at h ⊢
  case str => cases b <;> simp [pyEq] at h ⊢ <;> exact .inl h
  case cls => cases b <;> simp [pyEq] at h ⊢ <;> exact .inl h
  case numtype => cases b <;> simp [pyEq] at h ⊢ <;> exact .inl h
  all_goals cases b <;> simp [pyEq] at h

theorem elems_depth {v x : Val} {xs : List Val} (h : setElems? v = some xs) (hx : x ∈ xs) : depth x < depth v := by
  cases v <;> cases h <;> have := depth_mem hx <;> simp only [depth] <;> omega

/-- Symmetric and transitive below a depth: the transitive part. -/
theorem eq_trans_aux (n : Nat) : ∀ a, depth a ≤ n → ∀ b c, pyEq fi ns a b = true → pyEq fi ns b c = true → pyEq fi ns a c = true := by
  induction n with
  | zero => intro a h; have := depth_pos a; omega
  | succ n ih =>
    intro a hd b c h1 h2
    have listed : ∀ xs ys zs : List Val, (∀ x ∈ xs, depth x ≤ n) → pyEqL fi ns xs ys = true → pyEqL fi ns ys zs = true → pyEqL fi ns xs zs = true := by
      intro xs ys zs hx h1 h2
      rw [eqL_iff] at h1 h2 ⊢
      refine ⟨h1.1.trans h2.1, fun i x z hxi hzi => ?_⟩
      have hi : i < ys.length := by
        have := (List.getElem?_eq_some_iff.1 hxi).1
        omega
      obtain ⟨y, hy⟩ : ∃ y, ys[i]? = some y := ⟨ys[i], List.getElem?_eq_some_iff.2 ⟨hi, rfl⟩⟩
      exact ih x (hx x (List.mem_of_getElem? hxi)) y z (h1.2 i x y hxi hy) (h2.2 i y z hy hzi)
    rcases eq_shape h1 with ⟨rfl, -⟩ | ⟨m, hm⟩ | ⟨xs, rfl⟩ | ⟨xs, rfl⟩ | ⟨xs, hxs⟩ | ⟨xs, rfl⟩ | ⟨nm, cf, nk, o, rfl⟩
    · exact h2
    · obtain ⟨k, hk, hmk⟩ := (eq_num_iff hm).1 h1
      obtain ⟨l, hl, hkl⟩ := (eq_num_iff hk).1 h2
      exact (eq_num_iff hm).2 ⟨l, hl, numEq_trans hmk hkl⟩
    · obtain ⟨ys, rfl, h1⟩ := eq_tuple_iff.1 h1
      obtain ⟨zs, rfl, h2⟩ := eq_tuple_iff.1 h2
      exact eq_tuple_iff.2 ⟨zs, rfl, listed xs ys zs (fun x hx => by have := depth_mem hx; simp only [depth] at hd; omega) h1 h2⟩
    · obtain ⟨ys, rfl, h1⟩ := eq_list_iff.1 h1
      obtain ⟨zs, rfl, h2⟩ := eq_list_iff.1 h2
      exact eq_list_iff.2 ⟨zs, rfl, listed xs ys zs (fun x hx => by have := depth_mem hx; simp only [depth] at hd; omega) h1 h2⟩
    · obtain ⟨ys, hys, hl1, h1⟩ := (eq_set_iff hxs).1 h1
      obtain ⟨zs, hzs, hl2, h2⟩ := (eq_set_iff hys).1 h2
      refine (eq_set_iff hxs).2 ⟨zs, hzs, hl1.trans hl2, fun x hx => ?_⟩
      obtain ⟨y, hy, hxy⟩ := h1 x hx
      obtain ⟨z, hz, hyz⟩ := h2 y hy
      exact ⟨z, hz, ih x (by have := elems_depth hxs hx; omega) y z hxy hyz⟩
    · obtain ⟨ys, rfl, hl1, h1⟩ := eq_dict_iff.1 h1
      obtain ⟨zs, rfl, hl2, h2⟩ := eq_dict_iff.1 h2
      refine eq_dict_iff.2 ⟨zs, rfl, hl1.trans hl2, fun x hx => ?_⟩
      obtain ⟨y, hy, hxy, hxy'⟩ := h1 x hx
      obtain ⟨z, hz, hyz, hyz'⟩ := h2 y hy
      have := depth_memD (k := x.1) (v := x.2) hx
      simp only [depth] at hd
      exact ⟨z, hz, ih _ (by omega) _ _ hxy hyz, ih _ (by omega) _ _ hxy' hyz'⟩
    · obtain ⟨ys, nk', rfl, hl1, h1⟩ := eq_what_iff.1 h1
      obtain ⟨zs, nk'', rfl, hl2, h2⟩ := eq_what_iff.1 h2
      refine eq_what_iff.2 ⟨zs, nk'', rfl, hl1.trans hl2, fun x hx => ?_⟩
      obtain ⟨y, hy, hxy, hxy'⟩ := h1 x hx
      obtain ⟨z, hz, hyz, hyz'⟩ := h2 y hy
      have := depth_memA (k := x.1) (v := x.2) hx
      simp only [depth] at hd
      exact ⟨z, hz, hxy.trans hyz, ih _ (by omega) _ _ hxy' hyz'⟩

/-- If as many `y`s as `x`s, every `x` has a `y` and no two `x`s the same one, then every `y` has an `x`. -/
theorem pigeon {α β : Type} {S : α → β → Prop} (xs : List α) : ∀ ys : List β, xs.length = ys.length → (∀ x ∈ xs, ∃ y ∈ ys, S x y) →
    xs.Pairwise (fun x x' => ∀ y ∈ ys, S x y → ¬ S x' y) → ∀ y ∈ ys, ∃ x ∈ xs, S x y := by
  induction xs with
  | nil => intro ys hl _ _ y hy; cases ys with | nil => cases hy | cons => simp at hl
  | cons x xs ih =>
    intro ys hl tot inj y hy
    obtain ⟨y0, hy0, hs⟩ := tot x (by simp)
    obtain ⟨l, r, rfl⟩ := List.append_of_mem hy0
    rw [List.pairwise_cons] at inj
    have step := ih (l ++ r) (by simp at hl ⊢; omega)
      (fun x' hx' => by
        obtain ⟨y', hy', hs'⟩ := tot x' (by simp [hx'])
        refine ⟨y', ?_, hs'⟩
        rcases List.mem_append.1 hy' with h | h
        · simp [h]
        · rcases List.mem_cons.1 h with rfl | h
          · exact absurd hs' (inj.1 x' hx' y' hy0 hs)
          · simp [h])
      (inj.2.imp fun {a b} h y hy => h y (by rcases List.mem_append.1 hy with h | h <;> simp [h]))
    rcases List.mem_append.1 hy with h | h
    · obtain ⟨x', hx', hs'⟩ := step y (by simp [h]); exact ⟨x', by simp [hx'], hs'⟩
    · rcases List.mem_cons.1 h with rfl | h
      · exact ⟨x, by simp, hs⟩
      · obtain ⟨x', hx', hs'⟩ := step y (by simp [h]); exact ⟨x', by simp [hx'], hs'⟩

theorem NoDoubles.child {v x : Val} (h : NoDoubles fi ns v) (hc : Child x v) : NoDoubles fi ns x :=
  ⟨fun xs hx => h.1 xs (hx.imp (fun h => .step h hc) fun h => .step h hc), fun kvs hx => h.2.1 kvs (.step hx hc),
   fun n c nk o hx => h.2.2 n c nk o (.step hx hc)⟩

theorem elems_child {v x : Val} {xs : List Val} (h : setElems? v = some xs) (hx : x ∈ xs) : Child x v := by
  cases v <;> cases h
  · exact .set hx
  · exact .fset hx

theorem elems_pairwise {v : Val} {xs : List Val} (h : setElems? v = some xs) (hd : NoDoubles fi ns v) : xs.Pairwise fun x y => pyEq fi ns x y = false := by
  cases v <;> cases h
  · exact hd.1 _ (.inl (.refl _))
  · exact hd.1 _ (.inr (.refl _))

theorem eq_symm_aux (n : Nat) : ∀ a, depth a ≤ n → NoDoubles fi ns a → ∀ b, pyEq fi ns a b = true → pyEq fi ns b a = true := by
  induction n with
  | zero => intro a h; have := depth_pos a; omega
  | succ n ih =>
    intro a hd hw b h1
    have trans : ∀ {a b c : Val}, pyEq fi ns a b = true → pyEq fi ns b c = true → pyEq fi ns a c = true :=
      fun {a b c} => eq_trans_aux (depth a) a (Nat.le_refl _) b c
    have listed : ∀ xs ys : List Val, (∀ x ∈ xs, depth x ≤ n ∧ NoDoubles fi ns x) → pyEqL fi ns xs ys = true → pyEqL fi ns ys xs = true := by
      intro xs ys hx h1
      rw [eqL_iff] at h1 ⊢
      refine ⟨h1.1.symm, fun i y x hyi hxi => ?_⟩
      have hm := hx x (List.mem_of_getElem? hxi)
      exact ih x hm.1 hm.2 y (h1.2 i x y hxi hyi)
    rcases eq_shape h1 with ⟨rfl, -⟩ | ⟨m, hm⟩ | ⟨xs, rfl⟩ | ⟨xs, rfl⟩ | ⟨xs, hxs⟩ | ⟨xs, rfl⟩ | ⟨nm, cf, nk, o, rfl⟩
    · exact h1
    · obtain ⟨k, hk, hmk⟩ := (eq_num_iff hm).1 h1
      exact (eq_num_iff hk).2 ⟨m, hm, numEq_comm hmk⟩
    · obtain ⟨ys, rfl, h1⟩ := eq_tuple_iff.1 h1
      exact eq_tuple_iff.2 ⟨xs, rfl, listed xs ys (fun x hx => ⟨by have := depth_mem hx; simp only [depth] at hd; omega, hw.child (.tuple hx)⟩) h1⟩
    · obtain ⟨ys, rfl, h1⟩ := eq_list_iff.1 h1
      exact eq_list_iff.2 ⟨xs, rfl, listed xs ys (fun x hx => ⟨by have := depth_mem hx; simp only [depth] at hd; omega, hw.child (.list hx)⟩) h1⟩
    · obtain ⟨ys, hys, hl1, h1⟩ := (eq_set_iff hxs).1 h1
      have hsym : ∀ x ∈ xs, ∀ y, pyEq fi ns x y = true → pyEq fi ns y x = true := fun x hx =>
        ih x (by have := elems_depth hxs hx; omega) (hw.child (elems_child hxs hx))
      refine (eq_set_iff hys).2 ⟨xs, hxs, hl1.symm, fun y hy => ?_⟩
      obtain ⟨x, hx, h⟩ := pigeon (S := fun x y => pyEq fi ns x y = true) xs ys hl1 h1
        ((List.pairwise_iff_forall_sublist.2 fun {x x'} hs y _ hxy hx'y => by
          have := List.pairwise_iff_forall_sublist.1 (elems_pairwise hxs hw) hs
          rw [trans hxy (hsym x' (hs.subset (by simp)) y hx'y)] at this
          cases this)) y hy
      exact ⟨x, hx, hsym x hx y h⟩
    · obtain ⟨ys, rfl, hl1, h1⟩ := eq_dict_iff.1 h1
      have hsym : ∀ x ∈ xs, (∀ y, pyEq fi ns x.1 y = true → pyEq fi ns y x.1 = true) ∧ ∀ y, pyEq fi ns x.2 y = true → pyEq fi ns y x.2 = true := by
        intro x hx
        have := depth_memD (k := x.1) (v := x.2) hx
        simp only [depth] at hd
        exact ⟨ih _ (by omega) (hw.child (.dictKey (y := x.2) hx)), ih _ (by omega) (hw.child (.dictVal (y := x.1) hx))⟩
      refine eq_dict_iff.2 ⟨xs, rfl, hl1.symm, fun y hy => ?_⟩
      obtain ⟨x, hx, h, h'⟩ := pigeon (S := fun (x y : Val × Val) => pyEq fi ns x.1 y.1 = true ∧ pyEq fi ns x.2 y.2 = true) xs ys hl1 h1
        ((List.pairwise_iff_forall_sublist.2 fun {x x'} hs y _ hxy hx'y => by
          have := List.pairwise_iff_forall_sublist.1 (hw.2.1 _ (.refl _)) hs
          rw [trans hxy.1 ((hsym x' (hs.subset (by simp))).1 y.1 hx'y.1)] at this
          cases this)) y hy
      exact ⟨x, hx, (hsym x hx).1 _ h, (hsym x hx).2 _ h'⟩
    · obtain ⟨ys, nk', rfl, hl1, h1⟩ := eq_what_iff.1 h1
      have hsym : ∀ x ∈ cf, ∀ y, pyEq fi ns x.2 y = true → pyEq fi ns y x.2 = true := by
        intro x hx
        have := depth_memA (k := x.1) (v := x.2) hx
        simp only [depth] at hd
        exact ih _ (by omega) (hw.child (.what x.1 _ _ _ hx))
      refine eq_what_iff.2 ⟨cf, nk, rfl, hl1.symm, fun y hy => ?_⟩
      obtain ⟨x, hx, h, h'⟩ := pigeon (S := fun (x y : Str × Val) => x.1 = y.1 ∧ pyEq fi ns x.2 y.2 = true) cf ys hl1 h1
        ((List.pairwise_iff_forall_sublist.2 fun {x x'} hs y _ hxy hx'y => by
          have hu : UniqueKeys cf := hw.2.2 _ _ _ _ (.refl _)
          have := List.pairwise_iff_forall_sublist.1 (List.pairwise_map.1 hu) hs
          exact this (hxy.1.trans hx'y.1.symm))) y hy
      exact ⟨x, hx, h.symm, hsym x hx _ h'⟩

/-! ### C67 -/

/-- **C67**: `==` is symmetric, -/
theorem c67_symm {a b : Val} (ha : NoDoubles fi ns a) (h : pyEq fi ns a b = true) : pyEq fi ns b a = true :=
  eq_symm_aux (depth a) a (Nat.le_refl _) ha b h

/-- **C67**: transitive, -/
theorem c67_trans {a b c : Val} (h1 : pyEq fi ns a b = true) (h2 : pyEq fi ns b c = true) : pyEq fi ns a c = true :=
  eq_trans_aux (depth a) a (Nat.le_refl _) b c h1 h2

/-- **C67**: and reflexive on data without nan. -/
theorem c67_refl {a : Val} (ha : EqData a) (hn : ¬ Within (.float c!"nan") a) : pyEq fi ns a a = true := by
  have down : ∀ {x}, Child x a → ¬ Within (.float c!"nan") x := fun hc hw => hn (.step hw hc)
  induction ha with
  | none => rfl
  | bool b => cases b <;> rfl
  | int i => simp [pyEq, numKey, numEq]
  | float t =>
    have hne : t ≠ c!"nan" := fun e => hn (e ▸ .refl _)
    have : numEq ns (.inr t) (.inr t) = true := by simp [numEq, hne]
    simp only [pyEq, numKey]
    cases fi t with
    | none => exact this
    | some i => simp [numEq]
  | str s => simp [pyEq]
  | cls s => simp [pyEq]
  | numtype s => simp [pyEq]
  | tuple _ ih =>
    refine eq_tuple_iff.2 ⟨_, rfl, eqL_iff.2 ⟨rfl, fun i x y hx hy => ?_⟩⟩
    rw [hx] at hy; cases hy
    have hm := List.mem_of_getElem? hx
    exact ih x hm (down (.tuple hm)) fun hc hw => down (.tuple hm) (.step hw hc)
  | list _ ih =>
    refine eq_list_iff.2 ⟨_, rfl, eqL_iff.2 ⟨rfl, fun i x y hx hy => ?_⟩⟩
    rw [hx] at hy; cases hy
    have hm := List.mem_of_getElem? hx
    exact ih x hm (down (.list hm)) fun hc hw => down (.list hm) (.step hw hc)
  | set _ ih =>
    refine (eq_set_iff rfl).2 ⟨_, rfl, rfl, fun x hm => ⟨x, hm, ?_⟩⟩
    exact ih x hm (down (.set hm)) fun hc hw => down (.set hm) (.step hw hc)
  | fset _ ih =>
    refine (eq_set_iff rfl).2 ⟨_, rfl, rfl, fun x hm => ⟨x, hm, ?_⟩⟩
    exact ih x hm (down (.fset hm)) fun hc hw => down (.fset hm) (.step hw hc)
  | dict _ _ ih1 ih2 =>
    refine eq_dict_iff.2 ⟨_, rfl, rfl, fun x hm => ⟨x, hm, ?_, ?_⟩⟩
    · have hc : Child x.1 _ := .dictKey (y := x.2) hm
      exact ih1 x hm (down hc) fun hc' hw => down hc (.step hw hc')
    · have hc : Child x.2 _ := .dictVal (y := x.1) hm
      exact ih2 x hm (down hc) fun hc' hw => down hc (.step hw hc')
  | what n nk o _ ih =>
    refine eq_what_iff.2 ⟨_, _, rfl, rfl, fun x hm => ⟨x, hm, rfl, ?_⟩⟩
    have hc : Child x.2 _ := .what x.1 n nk o hm
    exact ih x hm (down hc) fun hc' hw => down hc (.step hw hc')

/-- **C67**: two Whats are equal exactly if they have the same name and out_name, the same parameters, and equal values for each.  Which of
them are non-id does not matter. -/
theorem c67_whats {n n' : Str} {c c' : Conf} {nk nk' : List Str} {o o' : Option Str} (hc : UniqueKeys c) (hc' : UniqueKeys c') :
    pyEq fi ns (.what n c nk o) (.what n' c' nk' o') = true ↔ n = n' ∧ o = o' ∧ (∀ k, (∃ v, (k, v) ∈ c) ↔ ∃ v, (k, v) ∈ c') ∧
      ∀ k v v', (k, v) ∈ c → (k, v') ∈ c' → pyEq fi ns v v' = true := by
  rw [eq_what_iff]
  have uniq : ∀ {c : Conf}, UniqueKeys c → ∀ {k v v'}, (k, v) ∈ c → (k, v') ∈ c → v = v' := by
    intro c hc k v v' h h'
    have h1 := dget_eq_some_of_mem hc h
    rw [dget_eq_some_of_mem hc h'] at h1
    cases h1; rfl
  have pw : c.Pairwise fun x x' => ∀ y ∈ c', x.1 = y.1 → ¬ x'.1 = y.1 :=
    (List.pairwise_map.1 hc).imp fun h y _ h1 h2 => h (h1.trans h2.symm)
  constructor
  · rintro ⟨c'', nk'', e, hl, h⟩
    cases e
    refine ⟨rfl, rfl, fun k => ⟨fun ⟨v, hv⟩ => ?_, fun ⟨v, hv⟩ => ?_⟩, fun k v v' hv hv' => ?_⟩
    · obtain ⟨⟨k', v'⟩, hy, rfl, -⟩ := h _ hv
      exact ⟨v', hy⟩
    · obtain ⟨⟨k', v'⟩, hx, rfl⟩ := pigeon (S := fun (x y : Str × Val) => x.1 = y.1) c c' hl (fun x hx => (h x hx).imp fun y hy => ⟨hy.1, hy.2.1⟩) pw _ hv
      exact ⟨v', hx⟩
    · obtain ⟨⟨k', v''⟩, hy, e, h⟩ := h _ hv
      simp only at e; subst e
      rw [uniq hc' hv' hy]; exact h
  · rintro ⟨rfl, rfl, hk, h⟩
    refine ⟨c', nk', rfl, ?_, fun x hx => ?_⟩
    · have h1 : (c.map Prod.fst).Perm (c'.map Prod.fst) := by
        refine (List.perm_ext_iff_of_nodup hc hc').2 fun k => ?_
        simp only [List.mem_map]
        constructor
        · rintro ⟨⟨k', v⟩, hv, rfl⟩; obtain ⟨v', hv'⟩ := (hk _).1 ⟨v, hv⟩; exact ⟨_, hv', rfl⟩
        · rintro ⟨⟨k', v⟩, hv, rfl⟩; obtain ⟨v', hv'⟩ := (hk _).2 ⟨v, hv⟩; exact ⟨_, hv', rfl⟩
      simpa using h1.length_eq
    · obtain ⟨v', hv'⟩ := (hk x.1).1 ⟨x.2, hx⟩
      exact ⟨(x.1, v'), hv', rfl, h _ _ _ hx hv'⟩

/-- **C67**: two sets (frozen or not) are equal exactly if each element of either has an equal one in the other. -/
theorem c67_sets {a b : Val} {xs ys : List Val} (ha : a = .set xs ∨ a = .fset xs) (hb : b = .set ys ∨ b = .fset ys)
    (da : NoDoubles fi ns a) (db : NoDoubles fi ns b) :
    pyEq fi ns a b = true ↔ (∀ x ∈ xs, ∃ y ∈ ys, pyEq fi ns x y = true) ∧ ∀ y ∈ ys, ∃ x ∈ xs, pyEq fi ns y x = true := by
  have ea : setElems? a = some xs := by rcases ha with rfl | rfl <;> rfl
  have eb : setElems? b = some ys := by rcases hb with rfl | rfl <;> rfl
  constructor
  · intro h
    have h' := c67_symm da h
    obtain ⟨ys', e, -, h⟩ := (eq_set_iff ea).1 h
    rw [eb] at e; cases e
    obtain ⟨xs', e, -, h'⟩ := (eq_set_iff eb).1 h'
    rw [ea] at e; cases e
    exact ⟨h, h'⟩
  · rintro ⟨h1, h2⟩
    refine (eq_set_iff ea).2 ⟨ys, eb, ?_, h1⟩
    have le : ∀ {a b : Val} {xs ys : List Val}, setElems? a = some xs → setElems? b = some ys → NoDoubles fi ns a → NoDoubles fi ns b →
        (∀ x ∈ xs, ∃ y ∈ ys, pyEq fi ns x y = true) → xs.length ≤ ys.length := by
      intro a b xs ys ea eb da db h
      have pw := elems_pairwise ea da
      have hs : ∀ x ∈ xs, NoDoubles fi ns x := fun x hx => da.child (elems_child ea hx)
      clear ea eb da db
      induction xs generalizing ys with
      | nil => simp
      | cons x xs ih =>
        rw [List.pairwise_cons] at pw
        obtain ⟨y0, hy0, hxy⟩ := h x (by simp)
        obtain ⟨l, r, rfl⟩ := List.append_of_mem hy0
        have := ih (ys := l ++ r) (fun x' hx' => by
          obtain ⟨y', hy', hs'⟩ := h x' (by simp [hx'])
          refine ⟨y', ?_, hs'⟩
          rcases List.mem_append.1 hy' with h | h
          · simp [h]
          · rcases List.mem_cons.1 h with rfl | h
            · have h2 := pw.1 x' hx'
              rw [c67_trans hxy (c67_symm (hs x' (by simp [hx'])) hs')] at h2
              cases h2
            · simp [h]) pw.2 (fun x hx => hs x (by simp [hx]))
        simp at this ⊢; omega
    exact Nat.le_antisymm (le ea eb da db h1) (le eb ea db da h2)

/-- **C67**: two dicts are equal exactly if each item of either has one in the other with equal key and value. -/
theorem c67_dicts {xs ys : List (Val × Val)} (da : NoDoubles fi ns (.dict xs)) (db : NoDoubles fi ns (.dict ys)) : pyEq fi ns (.dict xs) (.dict ys) = true ↔
    (∀ k v, (k, v) ∈ xs → ∃ k' v', (k', v') ∈ ys ∧ pyEq fi ns k k' = true ∧ pyEq fi ns v v' = true) ∧
    ∀ k v, (k, v) ∈ ys → ∃ k' v', (k', v') ∈ xs ∧ pyEq fi ns k k' = true ∧ pyEq fi ns v v' = true := by
  constructor
  · intro h
    have h' := c67_symm da h
    obtain ⟨ys', e, -, h⟩ := eq_dict_iff.1 h
    cases e
    obtain ⟨xs', e, -, h'⟩ := eq_dict_iff.1 h'
    cases e
    refine ⟨fun k v hm => ?_, fun k v hm => ?_⟩
    · obtain ⟨⟨k', v'⟩, h1, h2⟩ := h _ hm; exact ⟨k', v', h1, h2⟩
    · obtain ⟨⟨k', v'⟩, h1, h2⟩ := h' _ hm; exact ⟨k', v', h1, h2⟩
  · rintro ⟨h1, h2⟩
    have le : ∀ {xs ys : List (Val × Val)}, NoDoubles fi ns (.dict xs) →
        (∀ k v, (k, v) ∈ xs → ∃ k' v', (k', v') ∈ ys ∧ pyEq fi ns k k' = true ∧ pyEq fi ns v v' = true) → xs.length ≤ ys.length := by
      intro xs ys da h
      have pw := da.2.1 _ (.refl _)
      have hs : ∀ x ∈ xs, NoDoubles fi ns x.1 := fun x hx => da.child (.dictKey (y := x.2) hx)
      clear da h1 h2
      induction xs generalizing ys with
      | nil => simp
      | cons x xs ih =>
        rw [List.pairwise_cons] at pw
        obtain ⟨k0, v0, hy0, hxy, -⟩ := h x.1 x.2 (by simp)
        obtain ⟨l, r, rfl⟩ := List.append_of_mem hy0
        have := ih (ys := l ++ r) (fun k v hx' => by
          obtain ⟨k', v', hy', hs', hv'⟩ := h k v (by simp [hx'])
          refine ⟨k', v', ?_, hs', hv'⟩
          rcases List.mem_append.1 hy' with h | h
          · simp [h]
          · rcases List.mem_cons.1 h with e | h
            · cases e
              have h2 := pw.1 (k, v) hx'
              rw [c67_trans hxy (c67_symm (hs (k, v) (by simp [hx'])) hs')] at h2
              cases h2
            · simp [h]) pw.2 (fun x hx => hs x (by simp [hx]))
        simp at this ⊢; omega
    refine eq_dict_iff.2 ⟨ys, rfl, Nat.le_antisymm (le da h1) (le db h2), fun x hx => ?_⟩
    obtain ⟨k', v', h3, h4⟩ := h1 x.1 x.2 hx
    exact ⟨(k', v'), h3, h4⟩

/-- Two equal Whats with sets in another order, parameters in another order and another spelling of a number. -/
def exEqA : Val := .what c!"f" [(c!"x", .set [.int 1, .str c!"a"]), (c!"y", .none)] [] none
def exEqB : Val := .what c!"f" [(c!"y", .none), (c!"x", .set [.str c!"a", .float c!"1.0"])] [c!"y"] none
example : pyEq (fun _ => some 1) false exEqA exEqB = true := by decide +kernel
example : NoDoubles fi false exEqA := by
  have leaf : ∀ x y, Within x y → (y = .int 1 ∨ y = .str c!"a" ∨ y = .none) → x = y := by
    intro x y h hy
    cases h with
    | refl => rfl
    | step _ hc => rcases hy with rfl | rfl | rfl <;> cases hc
  have inner : ∀ x, Within x (.set [.int 1, .str c!"a"]) → x = .set [.int 1, .str c!"a"] ∨ x = .int 1 ∨ x = .str c!"a" := by
    intro x h
    cases h with
    | refl => exact .inl rfl
    | step h hc =>
      cases hc with
      | set hm =>
        simp only [List.mem_cons, List.not_mem_nil, or_false] at hm
        rcases hm with rfl | rfl
        · exact .inr (.inl (leaf _ _ h (by simp)))
        · exact .inr (.inr (leaf _ _ h (by simp)))
  have all : ∀ x, Within x exEqA → x = exEqA ∨ x = .set [.int 1, .str c!"a"] ∨ x = .int 1 ∨ x = .str c!"a" ∨ x = .none := by
    intro x h
    cases h with
    | refl => exact .inl rfl
    | step h hc =>
      cases hc with
      | what k n nk o hm =>
        simp only [List.mem_cons, Prod.mk.injEq, List.not_mem_nil, or_false] at hm
        rcases hm with ⟨-, rfl⟩ | ⟨-, rfl⟩
        · rcases inner x h with h | h | h <;> simp [h]
        · simp [leaf _ _ h (by simp)]
  refine ⟨fun xs hx => ?_, fun kvs hx => ?_, fun n conf nk o hx => ?_⟩
  · rcases hx with hx | hx <;> have := all _ hx <;> simp [exEqA] at this
    subst this
    refine List.Pairwise.cons (fun y hy => ?_) (List.pairwise_singleton _ _)
    obtain rfl := List.mem_singleton.1 hy
    rfl
  · have := all _ hx; simp [exEqA] at this
  · have := all _ hx; simp [exEqA] at this
    obtain ⟨-, rfl, -, -⟩ := this
    simp [UniqueKeys]

/-- **C67**: equal Whats may have different ids: `1 == True == 1.0`, and a set equals a frozenset. -/
theorem c67_not_ids : pyEq fi ns (.what c!"f" [(c!"x", .int 1)] [] none) (.what c!"f" [(c!"x", .bool true)] [] none) = true ∧
    idD { name := c!"f", conf := [(c!"x", .int 1)] } ≠ idD { name := c!"f", conf := [(c!"x", .bool true)] } ∧
    pyEq fi ns (.what c!"f" [(c!"x", .set [.int 1])] [] none) (.what c!"f" [(c!"x", .fset [.int 1])] [] none) = true ∧
    idD { name := c!"f", conf := [(c!"x", .set [.int 1])] } ≠ idD { name := c!"f", conf := [(c!"x", .fset [.int 1])] } := by
  refine ⟨by simp [pyEq, pySubA, numKey, numEq], by decide +kernel, by simp [pyEq, pySubA, pySubL, numKey, numEq], by decide +kernel⟩

end Whatami
