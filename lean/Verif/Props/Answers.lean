import Verif.Props.Equal
import Verif.OpsLemmas
import Verif.Props.Ops
import Verif.Props.Hasher

/-
C74: equal Whats answer alike: what `[]`, `get` and `flatten` give does not tell equal Whats apart.

Specification: `EqData`, `NoDoubles` (Spec/Equal), `SameAnswer`.
-/
namespace Whatami

variable {fi : Str → Option Int} {ns : Bool}

/-- Both raise the same, or give equal values (the same nan counts as equal to itself). -/
def SameAnswer (fi : Str → Option Int) (r r' : R Val) : Prop :=
  (∃ v v', r = .ok v ∧ r' = .ok v' ∧ pyEq fi true v v' = true) ∨ ∃ e, r = .error e ∧ r' = .error e

/-- As many `y`s as `x`s, every `x` has a `y`, no two `x`s are alike: then no two `y`s are. -/
theorem pigeon_pairwise {α β : Type} {S : α → β → Prop} {D : α → α → Prop} {D' : β → β → Prop} (xs : List α) :
    ∀ ys : List β, xs.length = ys.length → (∀ x ∈ xs, ∃ y ∈ ys, S x y) → xs.Pairwise D →
      (∀ x ∈ xs, ∀ x' ∈ xs, ∀ y ∈ ys, S x y → S x' y → ¬ D x x') →
      (∀ x ∈ xs, ∀ x' ∈ xs, ∀ y ∈ ys, ∀ y' ∈ ys, S x y → S x' y' → D x x' → D' y y' ∧ D' y' y) → ys.Pairwise D' := by
  induction xs with
  | nil => intro ys hl _ _ _ _; cases ys with | nil => exact .nil | cons => simp at hl
  | cons x xs ih =>
    intro ys hl tot hp inj tr
    obtain ⟨y0, hy0, hs⟩ := tot x (by simp)
    obtain ⟨l, r, rfl⟩ := List.append_of_mem hy0
    rw [List.pairwise_cons] at hp
    have sub : ∀ {y}, y ∈ l ++ r → y ∈ l ++ y0 :: r := by
      intro y hy
      rcases List.mem_append.1 hy with h | h <;> simp [h]
    have tot' : ∀ x' ∈ xs, ∃ y ∈ l ++ r, S x' y := by
      intro x' hx'
      obtain ⟨y', hy', hs'⟩ := tot x' (by simp [hx'])
      refine ⟨y', ?_, hs'⟩
      rcases List.mem_append.1 hy' with h | h
      · simp [h]
      · rcases List.mem_cons.1 h with rfl | h
        · exact absurd (hp.1 x' hx') (inj x (by simp) x' (by simp [hx']) y' hy0 hs hs')
        · simp [h]
    have hl' : xs.length = (l ++ r).length := by simp at hl ⊢; omega
    have h1 := ih (l ++ r) hl' tot' hp.2 (fun a ha b hb y hy => inj a (.tail _ ha) b (.tail _ hb) y (sub hy))
      (fun a ha b hb y hy y' hy' => tr a (.tail _ ha) b (.tail _ hb) y (sub hy) y' (sub hy'))
    have h2 : ∀ y ∈ l ++ r, D' y0 y ∧ D' y y0 := by
      intro y hy
      obtain ⟨x', hx', hs'⟩ := pigeon xs (l ++ r) hl' tot' (hp.2.imp_of_mem fun {a b} ha hb hab y hy h h' =>
        inj a (.tail _ ha) b (.tail _ hb) y (sub hy) h h' hab) y hy
      exact tr x (by simp) x' (by simp [hx']) y0 hy0 y (sub hy) hs hs' (hp.1 x' hx')
    rw [List.pairwise_append] at h1 ⊢
    refine ⟨h1.1, List.pairwise_cons.2 ⟨fun y hy => (h2 y (by simp [hy])).1, h1.2.1⟩, fun a ha b hb => ?_⟩
    rcases List.mem_cons.1 hb with rfl | hb
    · exact (h2 a (by simp [ha])).2
    · exact h1.2.2 a ha b hb

theorem within_cases {x v : Val} (h : Within x v) : x = v ∨ ∃ y, Within x y ∧ Child y v := by
  cases h with
  | refl => exact .inl rfl
  | step h c => exact .inr ⟨_, h, c⟩

theorem nodoubles_of {v : Val} (h1 : ∀ xs, setElems? v = some xs → xs.Pairwise fun x y => pyEq fi ns x y = false)
    (h2 : ∀ kvs, v = .dict kvs → kvs.Pairwise fun x y => pyEq fi ns x.1 y.1 = false)
    (h3 : ∀ n conf nk o, v = .what n conf nk o → UniqueKeys conf) (hc : ∀ x, Child x v → NoDoubles fi ns x) : NoDoubles fi ns v := by
  refine ⟨fun xs h => ?_, fun kvs h => ?_, fun n conf nk o h => ?_⟩
  · rcases h with h | h <;> rcases within_cases h with rfl | ⟨y, hy, hyc⟩
    · exact h1 xs rfl
    · exact (hc y hyc).1 xs (.inl hy)
    · exact h1 xs rfl
    · exact (hc y hyc).1 xs (.inr hy)
  · rcases within_cases h with rfl | ⟨y, hy, hyc⟩
    · exact h2 kvs rfl
    · exact (hc y hyc).2.1 kvs hy
  · rcases within_cases h with rfl | ⟨y, hy, hyc⟩
    · exact h3 n conf nk o rfl
    · exact (hc y hyc).2.2 n conf nk o hy

/-- What is equal to a value without doubles has none. -/
theorem nodoubles_eq (n : Nat) : ∀ a, depth a ≤ n → NoDoubles fi ns a → ∀ b, pyEq fi ns a b = true → NoDoubles fi ns b := by
  induction n with
  | zero => intro a h; have := depth_pos a; omega
  | succ n ih =>
    intro a hd ha b h
    have leaf : ∀ {v : Val}, (∀ x, ¬ Child x v) → setElems? v = none → (∀ kvs, v ≠ .dict kvs) → (∀ n c nk o, v ≠ .what n c nk o) → NoDoubles fi ns v := by
      intro v h0 h1 h2 h3
      exact nodoubles_of (fun xs h => by rw [h1] at h; cases h) (fun kvs h => absurd h (h2 kvs)) (fun _ _ _ _ h => absurd h (h3 _ _ _ _)) fun x hx => absurd hx (h0 x)
    rcases eq_shape h with ⟨rfl, _⟩ | ⟨m, hm⟩ | ⟨xs, rfl⟩ | ⟨xs, rfl⟩ | ⟨xs, hxs⟩ | ⟨xs, rfl⟩ | ⟨nm, c, nk, o, rfl⟩
    · exact ha
    · obtain ⟨n', hn', _⟩ := (eq_num_iff hm).1 h
      cases b <;> simp only [numKey, reduceCtorEq] at hn' <;> exact leaf (fun x hx => by cases hx) rfl (fun _ h => by cases h) fun _ _ _ _ h => by cases h
    · obtain ⟨ys, rfl, hl⟩ := eq_tuple_iff.1 h
      rw [eqL_iff] at hl
      refine nodoubles_of (fun xs h => by cases h) (fun _ h => by cases h) (fun _ _ _ _ h => by cases h) fun y hy => ?_
      cases hy with
      | tuple hy =>
        obtain ⟨i, hi⟩ := List.getElem?_of_mem hy
        have hlt : i < xs.length := by rw [hl.1]; exact (List.getElem?_eq_some_iff.1 hi).1
        have hx := List.getElem?_eq_getElem hlt
        have hm := List.mem_of_getElem? hx
        have := depth_mem hm
        simp only [depth] at hd
        exact ih _ (by omega) (ha.child (.tuple hm)) y (hl.2 i _ y hx hi)
    · obtain ⟨ys, rfl, hl⟩ := eq_list_iff.1 h
      rw [eqL_iff] at hl
      refine nodoubles_of (fun xs h => by cases h) (fun _ h => by cases h) (fun _ _ _ _ h => by cases h) fun y hy => ?_
      cases hy with
      | list hy =>
        obtain ⟨i, hi⟩ := List.getElem?_of_mem hy
        have hlt : i < xs.length := by rw [hl.1]; exact (List.getElem?_eq_some_iff.1 hi).1
        have hx := List.getElem?_eq_getElem hlt
        have hm := List.mem_of_getElem? hx
        have := depth_mem hm
        simp only [depth] at hd
        exact ih _ (by omega) (ha.child (.list hm)) y (hl.2 i _ y hx hi)
    · obtain ⟨ys, hys, hl, hsub⟩ := (eq_set_iff hxs).1 h
      have hda : ∀ x ∈ xs, NoDoubles fi ns x := fun x hx => ha.child (elems_child hxs hx)
      have hp := elems_pairwise hxs ha
      have inj : ∀ x ∈ xs, ∀ x' ∈ xs, ∀ y ∈ ys, pyEq fi ns x y = true → pyEq fi ns x' y = true → ¬ pyEq fi ns x x' = false := by
        intro x _ x' hx' y _ h1 h2 h3
        rw [c67_trans h1 (c67_symm (hda x' hx') h2)] at h3
        cases h3
      refine nodoubles_of (fun ys' h' => ?_) (fun _ h => by subst h; cases hys) (fun _ _ _ _ h => by subst h; cases hys) fun y hy => ?_
      · rw [hys] at h'
        cases h'
        refine pigeon_pairwise xs ys hl hsub hp inj ?_
        intro x hx x' hx' y _ y' _ h1 h2 h3
        constructor
        · cases h4 : pyEq fi ns y y' with
          | false => rfl
          | true => rw [c67_trans (c67_trans h1 h4) (c67_symm (hda x' hx') h2)] at h3; cases h3
        · cases h4 : pyEq fi ns y' y with
          | false => rfl
          | true =>
            have e := c67_trans (c67_trans h2 h4) (c67_symm (hda x hx) h1)
            rw [c67_symm (hda x' hx') e] at h3; cases h3
      · have hmem : y ∈ ys := by cases b <;> cases hys <;> cases hy <;> assumption
        obtain ⟨x, hx, he⟩ := pigeon xs ys hl hsub (hp.imp_of_mem fun {a b} ha hb hab y hy h h' => inj a ha b hb y hy h h' hab) y hmem
        have := elems_depth hxs hx
        exact ih x (by omega) (hda x hx) y he
    · obtain ⟨ys, rfl, hl, hsub⟩ := eq_dict_iff.1 h
      have hdk : ∀ x ∈ xs, NoDoubles fi ns x.1 := fun x hx => ha.child (.dictKey (y := x.2) hx)
      have hp := ha.2.1 xs (.refl _)
      have inj : ∀ x ∈ xs, ∀ x' ∈ xs, ∀ y ∈ ys, (pyEq fi ns x.1 y.1 = true ∧ pyEq fi ns x.2 y.2 = true) → (pyEq fi ns x'.1 y.1 = true ∧ pyEq fi ns x'.2 y.2 = true) →
          ¬ pyEq fi ns x.1 x'.1 = false := by
        intro x _ x' hx' y _ h1 h2 h3
        rw [c67_trans h1.1 (c67_symm (hdk x' hx') h2.1)] at h3
        cases h3
      refine nodoubles_of (fun ys' h' => by cases h') (fun ys' h' => ?_) (fun _ _ _ _ h => by cases h) fun y hy => ?_
      · cases h'
        refine pigeon_pairwise (D := fun x y => pyEq fi ns x.1 y.1 = false) xs ys hl hsub hp inj ?_
        intro x hx x' hx' y _ y' _ h1 h2 h3
        constructor
        · cases h4 : pyEq fi ns y.1 y'.1 with
          | false => rfl
          | true => rw [c67_trans (c67_trans h1.1 h4) (c67_symm (hdk x' hx') h2.1)] at h3; cases h3
        · cases h4 : pyEq fi ns y'.1 y.1 with
          | false => rfl
          | true =>
            have e := c67_trans (c67_trans h2.1 h4) (c67_symm (hdk x hx) h1.1)
            rw [c67_symm (hdk x' hx') e] at h3; cases h3
      · have back := pigeon xs ys hl hsub (hp.imp_of_mem fun {a b} ha hb hab y hy h h' => inj a ha b hb y hy h h' hab)
        simp only [depth] at hd
        cases hy with
        | dictKey hy =>
          obtain ⟨x, hx, he⟩ := back _ hy
          have := depth_memD (k := x.1) (v := x.2) hx
          exact ih x.1 (by omega) (hdk x hx) y he.1
        | dictVal hy =>
          obtain ⟨x, hx, he⟩ := back _ hy
          have := depth_memD (k := x.1) (v := x.2) hx
          exact ih x.2 (by omega) (ha.child (.dictVal (y := x.1) hx)) y he.2
    · obtain ⟨c', nk', rfl, hl, hsub⟩ := eq_what_iff.1 h
      have hu : UniqueKeys c := ha.2.2 nm c nk o (.refl _)
      have hp : c.Pairwise fun x y => x.1 ≠ y.1 := List.pairwise_map.1 hu
      have inj : ∀ x ∈ c, ∀ x' ∈ c, ∀ y ∈ c', (x.1 = y.1 ∧ pyEq fi ns x.2 y.2 = true) → (x'.1 = y.1 ∧ pyEq fi ns x'.2 y.2 = true) → ¬ x.1 ≠ x'.1 :=
        fun x _ x' _ y _ h1 h2 h3 => h3 (h1.1.trans h2.1.symm)
      refine nodoubles_of (fun ys' h' => by cases h') (fun ys' h' => by cases h') (fun n' c'' nk'' o' h' => ?_) fun y hy => ?_
      · cases h'
        refine List.pairwise_map.2 (pigeon_pairwise (D := fun x y => x.1 ≠ y.1) c c' hl hsub hp inj ?_)
        intro x hx x' hx' y _ y' _ h1 h2 h3
        refine ⟨fun e => h3 (h1.1.trans (e.trans h2.1.symm)), fun e => h3 (h1.1.trans (e.symm.trans h2.1.symm))⟩
      · have back := pigeon c c' hl hsub (hp.imp_of_mem fun {a b} ha hb hab y hy h h' => inj a ha b hb y hy h h' hab)
        simp only [depth] at hd
        cases hy with
        | what k _ _ _ hy =>
          obtain ⟨x, hx, he⟩ := back _ hy
          have := depth_memA (k := x.1) (v := x.2) hx
          exact ih x.2 (by omega) (ha.child (.what x.1 _ _ _ hx)) y he.2

/-- Equal, and without doubles. -/
def Twins (fi : Str → Option Int) (a b : Val) : Prop := pyEq fi true a b = true ∧ NoDoubles fi true a ∧ NoDoubles fi true b

theorem twins {a b : Val} (h : pyEq fi true a b = true) (ha : NoDoubles fi true a) : Twins fi a b := ⟨h, ha, nodoubles_eq (depth a) a (Nat.le_refl _) ha b h⟩

/-- Both raise the same, or give twins. -/
def TwinAnswer (fi : Str → Option Int) (r r' : R Val) : Prop := (∃ v v', r = .ok v ∧ r' = .ok v' ∧ Twins fi v v') ∨ ∃ e, r = .error e ∧ r' = .error e

theorem twin_vget_mem {kvs : List (Val × Val)} {k v : Val} (h : vget fi kvs k = some v) : ∃ k', (k', v) ∈ kvs ∧ pyEq fi true k' k = true := by
  induction kvs with
  | nil => cases h
  | cons kv kvs ih =>
    obtain ⟨k', v'⟩ := kv
    simp only [vget] at h
    split at h
    · cases h; exact ⟨k', .head _, ‹_›⟩
    · obtain ⟨k'', hm, he⟩ := ih h; exact ⟨k'', .tail _ hm, he⟩

theorem twin_vget_of_mem {kvs : List (Val × Val)} {k k' v : Val} (hd : NoDoubles fi true (.dict kvs)) (hm : (k', v) ∈ kvs) (he : pyEq fi true k' k = true) :
    vget fi kvs k = some v := by
  have hp := hd.2.1 kvs (.refl _)
  have hk : ∀ x ∈ kvs, NoDoubles fi true x.1 := fun x hx => hd.child (.dictKey (y := x.2) hx)
  clear hd
  induction kvs with
  | nil => cases hm
  | cons kv kvs ih =>
    obtain ⟨k'', v''⟩ := kv
    rw [List.pairwise_cons] at hp
    simp only [vget]
    rcases List.mem_cons.1 hm with e | hm'
    · cases e; rw [if_pos he]
    · have hne : pyEq fi true k'' k = false := by
        cases h : pyEq fi true k'' k with
        | false => rfl
        | true =>
          have := hp.1 _ hm'
          rw [c67_trans h (c67_symm (hk (k', v) hm) he)] at this
          cases this
      rw [hne]
      simp only [Bool.false_eq_true, if_false]
      exact ih hm' hp.2 fun x hx => hk x (.tail _ hx)

theorem twin_vget_none {kvs : List (Val × Val)} {k : Val} (hd : NoDoubles fi true (.dict kvs)) (h : vget fi kvs k = none) {x : Val × Val} (hx : x ∈ kvs) :
    pyEq fi true x.1 k = false := by
  cases he : pyEq fi true x.1 k with
  | false => rfl
  | true => rw [twin_vget_of_mem hd (k' := x.1) (v := x.2) hx he] at h; cases h

theorem dict_twins {kvs kvs' : List (Val × Val)} (h : Twins fi (.dict kvs) (.dict kvs')) (k : Val) :
    (∃ v v', vget fi kvs k = some v ∧ vget fi kvs' k = some v' ∧ Twins fi v v') ∨ (vget fi kvs k = none ∧ vget fi kvs' k = none) := by
  obtain ⟨h1, h2⟩ := (c67_dicts h.2.1 h.2.2).1 h.1
  cases hv : vget fi kvs k with
  | some v =>
    obtain ⟨k', hm, he⟩ := twin_vget_mem hv
    obtain ⟨k'', v'', hm', hk, hvv⟩ := h1 k' v hm
    have hk' := c67_symm (h.2.1.child (.dictKey hm)) hk
    refine .inl ⟨v, v'', rfl, twin_vget_of_mem h.2.2 hm' (c67_trans hk' he), hvv, h.2.1.child (.dictVal hm), h.2.2.child (.dictVal hm')⟩
  | none =>
    right
    refine ⟨rfl, ?_⟩
    cases hv' : vget fi kvs' k with
    | none => rfl
    | some v' =>
      obtain ⟨k', hm, he⟩ := twin_vget_mem hv'
      obtain ⟨k'', v'', hm', hk, hvv⟩ := h2 k' v' hm
      have := twin_vget_none h.2.1 hv hm'
      rw [c67_trans (c67_symm (h.2.2.child (.dictKey hm)) hk) he] at this
      cases this

theorem index_twins {xs ys : List Val} (hl : xs.length = ys.length) (h : ∀ (i : Nat) x y, xs[i]? = some x → ys[i]? = some y → Twins fi x y) (i : Int) :
    TwinAnswer fi (pyIndex xs i) (pyIndex ys i) := by
  unfold pyIndex
  rw [hl]
  simp only
  generalize (if i < 0 then i + (ys.length : Int) else i) = j'
  by_cases hj : j' < 0
  · simp only [hj, if_true]
    exact .inr ⟨_, rfl, rfl⟩
  · simp only [hj, if_false]
    generalize j'.toNat = j
    cases hx : xs[j]? with
    | none =>
      have : ys[j]? = none := by rw [List.getElem?_eq_none_iff] at hx ⊢; omega
      rw [this]
      exact .inr ⟨_, rfl, rfl⟩
    | some x =>
      have hlt := (List.getElem?_eq_some_iff.1 hx).1
      have hy := List.getElem?_eq_getElem (l := ys) (i := j) (by omega)
      rw [hy]
      exact .inl ⟨x, ys[j], rfl, rfl, h j x _ hx hy⟩

theorem conf_twins {n n' : Str} {c c' : Conf} {nk nk' : List Str} {o o' : Option Str} (h : Twins fi (.what n c nk o) (.what n' c' nk' o')) :
    Twins fi (strDict c) (strDict c') := by
  obtain ⟨c'', nk'', e, hl, hsub⟩ := eq_what_iff.1 h.1
  cases e
  have hd : NoDoubles fi true (strDict c) := by
    refine nodoubles_of (fun _ h => by cases h) (fun kvs e => ?_) (fun _ _ _ _ h => by cases h) fun x hx => ?_
    · cases e
      have hu : UniqueKeys c := h.2.1.2.2 _ c _ _ (.refl _)
      refine List.pairwise_map.2 ((List.pairwise_map.1 hu).imp fun {a b} hab => ?_)
      simp only [pyEq, beq_eq_false_iff_ne, ne_eq]
      exact hab
    · cases hx with
      | dictKey hx =>
        simp only [List.mem_map] at hx
        obtain ⟨kv, _, e⟩ := hx
        cases e
        exact nodoubles_of (fun _ h => by cases h) (fun _ h => by cases h) (fun _ _ _ _ h => by cases h) fun x hx => by cases hx
      | dictVal hx =>
        simp only [List.mem_map] at hx
        obtain ⟨kv, hm, e⟩ := hx
        cases e
        exact h.2.1.child (.what kv.1 _ _ _ hm)
  refine twins (eq_dict_iff.2 ⟨_, rfl, by simpa using hl, ?_⟩) hd
  intro x hx
  simp only [List.mem_map] at hx
  obtain ⟨kv, hm, rfl⟩ := hx
  obtain ⟨y, hy, h1, h2⟩ := hsub kv hm
  exact ⟨(.str y.1, y.2), List.mem_map.2 ⟨y, hy, rfl⟩, by simp [pyEq, h1], h2⟩

/-- One step of a path. -/
def stepOf (fi : Str → Option Int) (key w : Val) : R Val := orWhat w (direct fi w key (getItem fi key)) (getItem fi key)

theorem step_twins {key : Val}
    (hk : ∀ n c nk o n' c' nk' o', Twins fi (.what n c nk o) (.what n' c' nk' o') → TwinAnswer fi (getItem fi key c) (getItem fi key c'))
    {w w' : Val} (h : Twins fi w w') : TwinAnswer fi (stepOf fi key w) (stepOf fi key w') := by
  have strT : ∀ s, Twins fi (.str s) (.str s) := fun s =>
    twins (by simp [pyEq]) (nodoubles_of (fun _ h => by cases h) (fun _ h => by cases h) (fun _ _ _ _ h => by cases h) fun x hx => by cases hx)
  have viaIndex : ∀ {w w' : Val} {xs ys : List Val}, (∀ r, orWhat w r (getItem fi key) = match r with | .error .typeError => .error .attributeError | r => r) →
      (∀ r, orWhat w' r (getItem fi key) = match r with | .error .typeError => .error .attributeError | r => r) →
      direct fi w key (getItem fi key) = (match asIndex key with | some i => pyIndex xs i | none => .error .typeError) →
      direct fi w' key (getItem fi key) = (match asIndex key with | some i => pyIndex ys i | none => .error .typeError) →
      xs.length = ys.length → (∀ (i : Nat) x y, xs[i]? = some x → ys[i]? = some y → Twins fi x y) → TwinAnswer fi (stepOf fi key w) (stepOf fi key w') := by
    intro w w' xs ys e1 e2 e3 e4 hl hxy
    unfold stepOf
    rw [e1, e2, e3, e4]
    cases asIndex key with
    | none => exact .inr ⟨_, rfl, rfl⟩
    | some i =>
      dsimp only
      rcases index_twins hl hxy i with ⟨v, v', h1, h2, h3⟩ | ⟨e, h1, h2⟩
      · rw [h1, h2]; exact .inl ⟨v, v', rfl, rfl, h3⟩
      · rw [h1, h2]
        cases e <;> exact .inr ⟨_, rfl, rfl⟩
  have plain : ∀ {w w' : Val}, stepOf fi key w = .error .attributeError → stepOf fi key w' = .error .attributeError →
      TwinAnswer fi (stepOf fi key w) (stepOf fi key w') := fun h h' => .inr ⟨_, h, h'⟩
  rcases eq_shape h.1 with ⟨rfl, hs⟩ | ⟨m, hm⟩ | ⟨xs, rfl⟩ | ⟨xs, rfl⟩ | ⟨xs, hxs⟩ | ⟨xs, rfl⟩ | ⟨nm, c, nk, o, rfl⟩
  · rcases hs with rfl | ⟨s, rfl⟩ | ⟨s, rfl⟩ | ⟨s, rfl⟩
    · exact plain rfl rfl
    · refine viaIndex (xs := s.map fun c => .str [c]) (ys := s.map fun c => .str [c]) (fun r => rfl) (fun r => rfl) rfl rfl rfl ?_
      intro i x y hx hy
      rw [hx] at hy
      cases hy
      obtain ⟨ch, _, rfl⟩ := List.mem_map.1 (List.mem_of_getElem? hx)
      exact strT _
    · exact plain rfl rfl
    · exact plain rfl rfl
  · obtain ⟨n', hn', _⟩ := (eq_num_iff hm).1 h.1
    have num : ∀ {v : Val} {m}, numKey fi v = some m → stepOf fi key v = .error .attributeError := by
      intro v m hm
      cases v <;> simp only [numKey, reduceCtorEq] at hm <;> rfl
    exact plain (num hm) (num hn')
  · obtain ⟨ys, rfl, hl⟩ := eq_tuple_iff.1 h.1
    rw [eqL_iff] at hl
    refine viaIndex (xs := xs) (ys := ys) (fun r => rfl) (fun r => rfl) rfl rfl hl.1 ?_
    intro i x y hx hy
    exact ⟨hl.2 i x y hx hy, h.2.1.child (.tuple (List.mem_of_getElem? hx)), h.2.2.child (.tuple (List.mem_of_getElem? hy))⟩
  · obtain ⟨ys, rfl, hl⟩ := eq_list_iff.1 h.1
    rw [eqL_iff] at hl
    refine viaIndex (xs := xs) (ys := ys) (fun r => rfl) (fun r => rfl) rfl rfl hl.1 ?_
    intro i x y hx hy
    exact ⟨hl.2 i x y hx hy, h.2.1.child (.list (List.mem_of_getElem? hx)), h.2.2.child (.list (List.mem_of_getElem? hy))⟩
  · obtain ⟨ys, hys, _⟩ := (eq_set_iff hxs).1 h.1
    have st : ∀ {v : Val} {m}, setElems? v = some m → stepOf fi key v = .error .attributeError := by
      intro v m hm
      cases v <;> simp only [setElems?, reduceCtorEq] at hm <;> rfl
    exact plain (st hxs) (st hys)
  · obtain ⟨ys, rfl, _⟩ := eq_dict_iff.1 h.1
    simp only [stepOf, direct, subscript]
    cases hashable key with
    | false => exact .inr ⟨_, rfl, rfl⟩
    | true =>
      rcases dict_twins h key with ⟨v, v', h1, h2, h3⟩ | ⟨h1, h2⟩
      · rw [h1, h2]; exact .inl ⟨v, v', rfl, rfl, h3⟩
      · rw [h1, h2]; exact .inr ⟨_, rfl, rfl⟩
  · obtain ⟨c', nk', rfl, _⟩ := eq_what_iff.1 h.1
    simp only [stepOf, direct]
    rcases hk _ _ _ _ _ _ _ _ h with ⟨v, v', h1, h2, h3⟩ | ⟨e, h1, h2⟩
    · rw [h1, h2]; exact .inl ⟨v, v', rfl, rfl, h3⟩
    · rw [h1, h2]
      cases e <;> exact .inr ⟨_, rfl, rfl⟩

theorem walk_twins (path : List Val)
    (hk : ∀ key ∈ path, ∀ n c nk o n' c' nk' o', Twins fi (.what n c nk o) (.what n' c' nk' o') → TwinAnswer fi (getItem fi key c) (getItem fi key c'))
    {w w' : Val} (h : Twins fi w w') : TwinAnswer fi (walk fi path w) (walk fi path w') := by
  induction path generalizing w w' with
  | nil => exact .inl ⟨w, w', rfl, rfl, h⟩
  | cons key path ih =>
    simp only [walk]
    rcases step_twins (hk key (.head _)) h with ⟨v, v', h1, h2, h3⟩ | ⟨e, h1, h2⟩
    · simp only [stepOf] at h1 h2
      rw [h1, h2]
      exact ih (fun k hm => hk k (.tail _ hm)) h3
    · simp only [stepOf] at h1 h2
      rw [h1, h2]
      exact .inr ⟨e, rfl, rfl⟩

theorem item_twins (n : Nat) : ∀ item, depth item ≤ n → ∀ nm c nk o nm' c' nk' o', Twins fi (.what nm c nk o) (.what nm' c' nk' o') →
    TwinAnswer fi (getItem fi item c) (getItem fi item c') := by
  induction n with
  | zero => intro item h; have := depth_pos item; omega
  | succ n ih =>
    intro item hd nm c nk o nm' c' nk' o' h
    have other : ∀ r : R Val, (∃ e, r = .error e) → TwinAnswer fi r r := fun r ⟨e, he⟩ => .inr ⟨e, he, he⟩
    have viaPath : ∀ path : List Val, (∀ k ∈ path, depth k ≤ n) →
        TwinAnswer fi (if hashableL path then walk fi path (strDict c) else .error .typeError) (if hashableL path then walk fi path (strDict c') else .error .typeError) := by
      intro path hp
      cases hashableL path with
      | false => exact .inr ⟨_, rfl, rfl⟩
      | true => exact walk_twins path (fun key hm n1 c1 nk1 o1 n2 c2 nk2 o2 ht => ih key (hp key hm) n1 c1 nk1 o1 n2 c2 nk2 o2 ht) (conf_twins h)
    have rest : ∀ {item : Val}, (∀ c, getItem fi item c = if hashable item then .error .keyError else .error .typeError) →
        TwinAnswer fi (getItem fi item c) (getItem fi item c') := by
      intro item e
      rw [e, e]
      split <;> exact .inr ⟨_, rfl, rfl⟩
    cases item with
    | str k =>
      rcases dict_twins (conf_twins h) (.str k) with ⟨v, v', h1, h2, h3⟩ | ⟨h1, h2⟩
      · have g : ∀ (c : Conf), vget fi (c.map fun kv => (.str kv.1, kv.2)) (.str k) = dget c k := by
          intro c
          induction c with
          | nil => rfl
          | cons kv c ihc =>
            obtain ⟨a, b⟩ := kv
            simp only [List.map_cons, vget, dget, ihc, pyEq, beq_iff_eq]
        rw [g] at h1 h2
        simp only [getItem, h1, h2]
        exact .inl ⟨v, v', rfl, rfl, h3⟩
      · have g : ∀ (c : Conf), vget fi (c.map fun kv => (.str kv.1, kv.2)) (.str k) = dget c k := by
          intro c
          induction c with
          | nil => rfl
          | cons kv c ihc =>
            obtain ⟨a, b⟩ := kv
            simp only [List.map_cons, vget, dget, ihc, pyEq, beq_iff_eq]
        rw [g] at h1 h2
        simp only [getItem, h1, h2]
        exact .inr ⟨_, rfl, rfl⟩
    | tuple path =>
      simp only [getItem]
      refine viaPath path fun k hm => ?_
      have := depth_mem hm
      simp only [depth] at hd
      omega
    | sub kind cl attrs path =>
      cases kind with
      | tuple =>
        simp only [getItem]
        refine viaPath path fun k hm => ?_
        have := depth_mem hm
        simp only [depth] at hd
        omega
      | _ => exact rest fun c => by simp only [getItem]
    | _ => exact rest fun c => by simp only [getItem]

/-- **C74**: equal Whats give equal values for every item, or raise the same exception. -/
theorem c74_lookup {w w' : What} (h : pyEq fi true w.toVal w'.toVal = true) (hd : NoDoubles fi true w.toVal) (item : Val) :
    SameAnswer fi (getItem fi item w.conf) (getItem fi item w'.conf) := by
  rcases item_twins (depth item) item (Nat.le_refl _) _ _ _ _ _ _ _ _ (twins h hd) with ⟨v, v', h1, h2, h3⟩ | ⟨e, h1, h2⟩
  · exact .inl ⟨v, v', h1, h2, h3.1⟩
  · exact .inr ⟨e, h1, h2⟩

/-- **C74**: the same for `get`: both give the default, or they give equal values or raise the same exception. -/
theorem c74_get {w w' : What} (h : pyEq fi true w.toVal w'.toVal = true) (hd : NoDoubles fi true w.toVal) (item default : Val) :
    SameAnswer fi (whatGet fi w item default) (whatGet fi w' item default) ∨ (whatGet fi w item default = .ok default ∧ whatGet fi w' item default = .ok default) := by
  unfold whatGet
  rcases c74_lookup h hd item with ⟨v, v', h1, h2, h3⟩ | ⟨e, h1, h2⟩
  · rw [h1, h2]; exact .inl (.inl ⟨v, v', rfl, rfl, h3⟩)
  · rw [h1, h2]
    cases e <;> first | exact .inr ⟨rfl, rfl⟩ | exact .inl (.inr ⟨_, rfl, rfl⟩)

/-! ### flatten -/

/-- No What within the value has a parameter that does not go to its id. -/
def AllIds (v : Val) : Prop := ∀ n c nk o, Within (.what n c nk o) v → ∀ kv ∈ c, kv.1 ∉ nk

theorem AllIds.child {v x : Val} (h : AllIds v) (hc : Child x v) : AllIds x :=
  fun n c nk o hw => h n c nk o (.step hw hc)

theorem what_sorted {n n' : Str} {c c' : Conf} {nk nk' : List Str} {o o' : Option Str} (h : Twins fi (.what n c nk o) (.what n' c' nk' o')) :
    All2 (fun x y : Str × Val => x.1 = y.1 ∧ Twins fi x.2 y.2) (sortBy keyLe c) (sortBy keyLe c') := by
  obtain ⟨c'', nk'', e, hl, hsub⟩ := eq_what_iff.1 h.1
  cases e
  have hu : UniqueKeys c := h.2.1.2.2 _ _ _ _ (.refl _)
  have hu' : UniqueKeys c' := h.2.2.2.2 _ _ _ _ (.refl _)
  have hp : (c.map Prod.fst).Perm (c'.map Prod.fst) := by
    obtain ⟨c3, nk3, e3, _, hsub'⟩ := eq_what_iff.1 (c67_symm h.2.1 h.1)
    cases e3
    refine (List.perm_ext_iff_of_nodup hu hu').2 fun k => ⟨fun hk => ?_, fun hk => ?_⟩
    · obtain ⟨kv, hm, rfl⟩ := List.mem_map.1 hk
      obtain ⟨y, hy, h1, _⟩ := hsub kv hm
      exact List.mem_map.2 ⟨y, hy, h1.symm⟩
    · obtain ⟨kv, hm, rfl⟩ := List.mem_map.1 hk
      obtain ⟨y, hy, h1, _⟩ := hsub' kv hm
      exact List.mem_map.2 ⟨y, hy, h1.symm⟩
  have hk : (sortBy keyLe c).map Prod.fst = (sortBy keyLe c').map Prod.fst := by
    rw [← sortBy_map (le := keyLe) (le' := strLe) (f := Prod.fst) (fun _ _ => rfl), ← sortBy_map (le := keyLe) (le' := strLe) (f := Prod.fst) (fun _ _ => rfl)]
    exact sort_strLe_perm hp
  have hm : ∀ x ∈ sortBy keyLe c, ∀ y ∈ sortBy keyLe c', x.1 = y.1 → Twins fi x.2 y.2 := by
    intro x hx y hy hxy
    have hx' := (sortBy_perm _ _).mem_iff.1 hx
    have hy' := (sortBy_perm _ _).mem_iff.1 hy
    obtain ⟨z, hz, h1, h2⟩ := hsub x hx'
    have : z = y := by
      have a := dget_eq_some_of_mem hu' (k := z.1) (v := z.2) hz
      have b := dget_eq_some_of_mem hu' (k := y.1) (v := y.2) hy'
      rw [← h1, hxy, b] at a
      cases y; cases z; simp only at h1 hxy a ⊢
      cases a
      simp [← hxy, ← h1]
    subst this
    exact ⟨h2, h.2.1.child (.what x.1 _ _ _ hx'), h.2.2.child (.what z.1 _ _ _ hz)⟩
  clear hp hsub hl hu hu' h
  revert hk hm
  generalize sortBy keyLe c = s
  generalize sortBy keyLe c' = s'
  intro hk hm
  induction s generalizing s' with
  | nil => cases s' with | nil => exact .nil | cons => cases hk
  | cons x s ih =>
    cases s' with
    | nil => cases hk
    | cons y s' =>
      simp only [List.map_cons, List.cons.injEq] at hk
      exact .cons ⟨hk.1, hm x (.head _) y (.head _) hk.1⟩ (ih s' hk.2 fun a ha b hb => hm a (.tail _ ha) b (.tail _ hb))

theorem filter_true {c : Conf} {nk : List Str} (h : ∀ kv ∈ c, kv.1 ∉ nk) : (c.filter fun kv => !nk.contains kv.1) = c := by
  refine List.filter_eq_self.2 fun kv hm => ?_
  simp [h kv hm]

theorem flat_items_twins {srt : SortItems} {o : FlatOpts} (hc : o.collectionsToo = false) {v v' : Val} (h : Twins fi v v')
    (hn : o.nonIdsToo = true ∨ AllIds v ∧ AllIds v') :
    ∃ its its', flatItems srt o v = .ok its ∧ flatItems srt o v' = .ok its' ∧ All2 (fun x y : Val × Val => x.1 = y.1 ∧ Twins fi x.2 y.2) its its' ∧
      (∀ x ∈ its, Child x.2 v) ∧ ∀ x ∈ its', Child x.2 v' := by
  have none : ∀ {u : Val}, (∀ n c nk o, u ≠ .what n c nk o) → flatItems srt o u = .ok [] := by
    intro u hu
    unfold flatItems
    rw [hc]
    split <;> first | rfl | exact absurd rfl (hu _ _ _ _)
  by_cases hw : ∃ n c nk o, v = .what n c nk o
  · obtain ⟨n, c, nk, o', rfl⟩ := hw
    obtain ⟨c', nk', rfl, _⟩ := eq_what_iff.1 h.1
    have e : ∀ {c : Conf} {nk : List Str}, (o.nonIdsToo = true ∨ AllIds (.what n c nk o')) →
        flatItems srt o (.what n c nk o') = .ok ((sortBy keyLe c).map fun kv => (.str kv.1, kv.2)) := by
      intro c nk hn
      simp only [flatItems]
      rcases hn with hn | hn
      · rw [hn]; rfl
      · rw [filter_true (hn n c nk o' (.refl _))]
        simp
    refine ⟨_, _, e (hn.imp_right And.left), e (hn.imp_right And.right), ?_, ?_, ?_⟩
    · exact (what_sorted h).map fun x y hxy => ⟨by rw [hxy.1], hxy.2⟩
    · intro x hx
      obtain ⟨kv, hm, rfl⟩ := List.mem_map.1 hx
      exact .what kv.1 _ _ _ ((sortBy_perm _ _).mem_iff.1 hm)
    · intro x hx
      obtain ⟨kv, hm, rfl⟩ := List.mem_map.1 hx
      exact .what kv.1 _ _ _ ((sortBy_perm _ _).mem_iff.1 hm)
  · have hw' : ∀ n c nk o, v' ≠ .what n c nk o := by
      rintro n c nk o' rfl
      obtain ⟨c', nk', e, _⟩ := eq_what_iff.1 (c67_symm h.2.1 h.1)
      exact hw ⟨_, _, _, _, e⟩
    exact ⟨[], [], none (fun n c nk o e => hw ⟨_, _, _, _, e⟩), none hw', .nil, by simp, by simp⟩

theorem flat_twins {srt : SortItems} (hs : SortsItems srt) {o : FlatOpts} (hc : o.collectionsToo = false) (n : Nat) : ∀ v, depth v ≤ n → ∀ v', Twins fi v v' →
    (o.nonIdsToo = true ∨ AllIds v ∧ AllIds v') → ∀ pk, ∃ l l', flattenV srt o v pk = .ok l ∧ flattenV srt o v' pk = .ok l' ∧
      All2 (fun x y : List Val × Val => x.1 = y.1 ∧ Twins fi x.2 y.2 ∧ Within x.2 v ∧ Within y.2 v') l l' := by
  induction n with
  | zero => intro v h; have := depth_pos v; omega
  | succ n ih =>
    intro v hd v' h hn pk
    obtain ⟨its, its', h1, h2, h3, h4, h5⟩ := flat_items_twins (srt := srt) hc h hn
    have h6 : ∀ x ∈ its, depth x.2 ≤ n := by
      intro x hx
      have := flatItems_depth hs h1 (k := x.1) (x := x.2) hx
      omega
    rw [flattenV_eq hs, flattenV_eq hs, h1, h2]
    dsimp only
    clear h1 h2
    induction h3 with
    | nil => exact ⟨[], [], rfl, rfl, .nil⟩
    | @cons x y its its' hxy _ ihl =>
      obtain ⟨l, l', g1, g2, g3⟩ := ihl (fun a ha => h4 a (.tail _ ha)) (fun a ha => h5 a (.tail _ ha)) (fun a ha => h6 a (.tail _ ha))
      obtain ⟨kx, vx⟩ := x
      obtain ⟨ky, vy⟩ := y
      obtain ⟨rfl, ht⟩ := hxy
      simp only [flatLoop, g1, g2]
      cases o.recursive with
      | false => exact ⟨_, _, rfl, rfl, .cons ⟨rfl, ht, (h4 _ (.head _)).within, (h5 _ (.head _)).within⟩ g3⟩
      | true =>
        obtain ⟨m, m', k1, k2, k3⟩ := ih vx (h6 _ (.head _)) vy ht (hn.imp_right fun a => ⟨a.1.child (h4 _ (.head _)), a.2.child (h5 _ (.head _))⟩) (pk ++ [kx])
        simp only [if_true, k1, k2]
        refine ⟨_, _, rfl, rfl, .cons ⟨rfl, ht, (h4 _ (.head _)).within, (h5 _ (.head _)).within⟩ (All2.append ?_ g3)⟩
        exact k3.imp fun a b hab => ⟨hab.1, hab.2.1, hab.2.2.1.trans (h4 _ (.head _)).within, hab.2.2.2.trans (h5 _ (.head _)).within⟩

/-- **C74**: `flatten` (collections left out) gives the same keys in the same order, and equal values, for equal Whats; parameters that do
not go to the id, which `==` does not look at, must be asked for or absent. -/
theorem c74_flatten {w w' : What} (h : pyEq fi true w.toVal w'.toVal = true) (hd : NoDoubles fi true w.toVal) {srt : SortItems} (hs : SortsItems srt)
    {o : FlatOpts} (hc : o.collectionsToo = false) (hn : o.nonIdsToo = true ∨ AllIds w.toVal ∧ AllIds w'.toVal) :
    ∃ l l', flatten srt o w = .ok l ∧ flatten srt o w' = .ok l' ∧ l.length = l'.length ∧
      ∀ (i : Nat) k v k' v', l[i]? = some (k, v) → l'[i]? = some (k', v') → k = k' ∧ pyEq fi true v v' = true := by
  obtain ⟨l, l', h1, h2, h3⟩ := flat_twins hs hc (depth w.toVal) w.toVal (Nat.le_refl _) w'.toVal (twins h hd) hn []
  refine ⟨l.map fun pv => (pathKey pv.1, pv.2), l'.map fun pv => (pathKey pv.1, pv.2), ?_, ?_, ?_, ?_⟩
  · simp only [flatten]; rw [show flattenN srt o (depth w.toVal) w.toVal [] = _ from h1]; rfl
  · simp only [flatten]; rw [show flattenN srt o (depth w'.toVal) w'.toVal [] = _ from h2]; rfl
  · simp [h3.length]
  · intro i k v k' v' e e'
    rw [List.getElem?_map] at e e'
    cases ha : l[i]? with
    | none => rw [ha] at e; cases e
    | some a =>
      cases hb : l'[i]? with
      | none => rw [hb] at e'; cases e'
      | some b =>
        rw [ha] at e; rw [hb] at e'
        cases e; cases e'
        have := h3.at i a b ha hb
        exact ⟨by rw [this.1], this.2.1.1⟩

/-! ### The hypotheses can be met: equal Whats that differ in the order of parameters, in numbers and in what they hide -/

def exAnsA : What := { name := c!"f", conf := [(c!"x", .tuple [.int 1, .dict [(.str c!"a", .int 2)]]), (c!"y", .what c!"g" [(c!"z", .bool true)] [] none)] }
def exAnsB : What :=
  { name := c!"f", conf := [(c!"y", .what c!"g" [(c!"z", .int 1)] [c!"z"] none), (c!"x", .tuple [.bool true, .dict [(.str c!"a", .float c!"2.0")]])], nonids := [c!"y"] }

example : pyEq (fun _ => some 2) true exAnsA.toVal exAnsB.toVal = true := by decide +kernel

example : NoDoubles (fun _ => some 2) true exAnsA.toVal := by
  have leaf : ∀ {v : Val}, (∀ x, ¬ Child x v) → setElems? v = none → (∀ kvs, v ≠ .dict kvs) → (∀ n c nk o, v ≠ .what n c nk o) →
      NoDoubles (fun _ => some 2) true v := fun h0 h1 h2 h3 =>
    nodoubles_of (fun xs h => by rw [h1] at h; cases h) (fun kvs h => absurd h (h2 kvs)) (fun _ _ _ _ h => absurd h (h3 _ _ _ _)) fun x hx => absurd hx (h0 x)
  have int : ∀ i, NoDoubles (fun _ => some 2) true (.int i) := fun i => leaf (fun _ h => by cases h) rfl (fun _ h => by cases h) fun _ _ _ _ h => by cases h
  have bool : ∀ b, NoDoubles (fun _ => some 2) true (.bool b) := fun i => leaf (fun _ h => by cases h) rfl (fun _ h => by cases h) fun _ _ _ _ h => by cases h
  have str : ∀ s, NoDoubles (fun _ => some 2) true (.str s) := fun i => leaf (fun _ h => by cases h) rfl (fun _ h => by cases h) fun _ _ _ _ h => by cases h
  have d : NoDoubles (fun _ => some 2) true (.dict [(.str c!"a", .int 2)]) := by
    refine nodoubles_of (fun _ h => by cases h) (fun kvs h => ?_) (fun _ _ _ _ h => by cases h) fun x hx => ?_
    · cases h; exact List.pairwise_singleton _ _
    · cases hx with
      | dictKey h => cases List.mem_singleton.1 h; exact str _
      | dictVal h => cases List.mem_singleton.1 h; exact int _
  have g : NoDoubles (fun _ => some 2) true (.what c!"g" [(c!"z", .bool true)] [] none) := by
    refine nodoubles_of (fun _ h => by cases h) (fun _ h => by cases h) (fun _ _ _ _ h => ?_) fun x hx => ?_
    · cases h; simp [UniqueKeys]
    · cases hx with
      | what _ _ _ _ h => cases List.mem_singleton.1 h; exact bool _
  have t : NoDoubles (fun _ => some 2) true (.tuple [.int 1, .dict [(.str c!"a", .int 2)]]) := by
    refine nodoubles_of (fun _ h => by cases h) (fun _ h => by cases h) (fun _ _ _ _ h => by cases h) fun x hx => ?_
    cases hx with
    | tuple h =>
      simp only [List.mem_cons, List.not_mem_nil, or_false] at h
      rcases h with rfl | rfl
      · exact int _
      · exact d
  refine nodoubles_of (fun _ h => by cases h) (fun _ h => by cases h) (fun _ _ _ _ h => ?_) fun x hx => ?_
  · cases h; simp [UniqueKeys, exAnsA]
  · cases hx with
    | what _ _ _ _ h =>
      simp only [exAnsA, List.mem_cons, Prod.mk.injEq, List.not_mem_nil, or_false] at h
      rcases h with ⟨-, rfl⟩ | ⟨-, rfl⟩
      · exact t
      · exact g

/-- What they answer at `('x', 1, 'a')`: `2` and `2.0`. -/
example : (match getItem (fun _ => some 2) (.tuple [.str c!"x", .int 1, .str c!"a"]) exAnsA.conf, getItem (fun _ => some 2) (.tuple [.str c!"x", .int 1, .str c!"a"]) exAnsB.conf with
    | .ok (.int 2), .ok (.float t) => t == c!"2.0"
    | _, _ => false) = true := by decide +kernel

end Whatami
