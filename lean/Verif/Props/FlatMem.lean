import Verif.Spec.FlatMem
import Verif.BasicLemmas
import Verif.Props.EqMem
import Verif.Props.Id
import Verif.Props.Text
import Verif.OpsLemmas
import Verif.Encode

/-
C107: listing the parameters of configurations that contain themselves.
-/
namespace Whatami

/-! ### One after the other -/

section
variable {α β : Type}

theorem gather_some {f : α → Option (List β)} : ∀ {xs : List α} {l : List β}, gather f xs = some l →
    (∀ x ∈ xs, ∃ r, f x = some r) ∧ ∀ y, y ∈ l ↔ ∃ x ∈ xs, ∃ r, f x = some r ∧ y ∈ r
  | [], l, h => by cases h; simp
  | x :: xs, l, h => by
      simp only [gather] at h
      obtain ⟨a, ha, h⟩ := Option.bind_eq_some_iff.1 h
      obtain ⟨r, hr, e⟩ := Option.map_eq_some_iff.1 h
      subst e
      obtain ⟨h1, h2⟩ := gather_some hr
      refine ⟨fun z hz => ?_, fun y => ?_⟩
      · rcases List.mem_cons.1 hz with rfl | hz
        · exact ⟨a, ha⟩
        · exact h1 z hz
      · rw [List.mem_append, h2]
        constructor
        · rintro (h | ⟨z, hz, r, h⟩)
          · exact ⟨x, by simp, a, ha, h⟩
          · exact ⟨z, by simp [hz], r, h⟩
        · rintro ⟨z, hz, r', hf, hy⟩
          rcases List.mem_cons.1 hz with rfl | hz
          · rw [ha] at hf
            have hf := Option.some.inj hf
            rw [← hf] at hy
            exact .inl hy
          · exact .inr ⟨z, hz, r', hf, hy⟩

theorem gather_total {f : α → Option (List β)} : ∀ {xs : List α}, (∀ x ∈ xs, ∃ r, f x = some r) → ∃ l, gather f xs = some l
  | [], _ => ⟨[], rfl⟩
  | x :: xs, h => by
      obtain ⟨a, ha⟩ := h x (by simp)
      obtain ⟨l, hl⟩ := gather_total (xs := xs) fun y hy => h y (by simp [hy])
      exact ⟨a ++ l, by simp [gather, ha, hl]⟩

theorem gather_mono {f g : α → Option (List β)} (h : ∀ x r, f x = some r → g x = some r) {xs : List α} {l : List β} (e : gather f xs = some l) :
    gather g xs = some l := by
  induction xs generalizing l with
  | nil => exact e
  | cons x xs ih =>
    simp only [gather] at e ⊢
    obtain ⟨a, ha, e⟩ := Option.bind_eq_some_iff.1 e
    obtain ⟨r, hr, e⟩ := Option.map_eq_some_iff.1 e
    rw [h _ _ ha, Option.bind_some, ih hr]
    subst e
    rfl

end

section
variable {o : FlatOpts} {mem : Nat → ECell}

theorem mem_enum {k : KeyStep} {r : Nat} : ∀ {xs : List Nat} {i : Nat}, (k, r) ∈ enumFromAt i xs ↔ ∃ j : Nat, k = .idx (i + j) ∧ xs[j]? = some r
  | [], i => by simp [enumFromAt]
  | x :: xs, i => by
      rw [enumFromAt, List.mem_cons, mem_enum]
      constructor
      · rintro (h | ⟨j, rfl, h⟩)
        · cases h; exact ⟨0, rfl, rfl⟩
        · exact ⟨j + 1, by rw [show i + 1 + j = i + (j + 1) by omega], by simpa using h⟩
      · rintro ⟨j, rfl, h⟩
        cases j with
        | zero => simp at h; subst h; exact .inl rfl
        | succ j => exact .inr ⟨j, by rw [show i + 1 + j = i + (j + 1) by omega], by simpa using h⟩

theorem mem_memItems (good : GoodMem mem) {a : Nat} {k : KeyStep} {r : Nat} : (k, r) ∈ memItems o mem (mem a) ↔ HasUnder o mem a k r := by
  have entry : ∀ {kvs : List (Str × Nat)}, (k, r) ∈ (sortBy keyLe kvs).map (fun kv => (KeyStep.key kv.1, kv.2)) ↔ ∃ s, k = .key s ∧ (s, r) ∈ kvs := by
    intro kvs
    rw [List.mem_map]
    constructor
    · rintro ⟨kv, h, e⟩
      cases e
      exact ⟨_, rfl, mem_sortBy.1 h⟩
    · rintro ⟨s, rfl, h⟩
      exact ⟨(s, r), mem_sortBy.2 h, rfl⟩
  constructor
  · intro h
    cases ha : mem a with
    | what n d nk out =>
      rw [ha] at h
      obtain ⟨kvs, hd⟩ := good.confs _ _ _ _ _ ha
      simp only [memItems, hd, ECell.entries] at h
      obtain ⟨s, rfl, h'⟩ := entry.1 h
      obtain ⟨h1, h2⟩ := List.mem_filter.1 h'
      refine .param ha hd h1 ?_
      simpa using h2
    | list xs =>
      rw [ha] at h
      simp only [memItems] at h
      split at h
      · next c =>
        obtain ⟨j, rfl, h'⟩ := mem_enum.1 h
        rw [Nat.zero_add]
        exact .list c ha h'
      · cases h
    | tuple xs =>
      rw [ha] at h
      simp only [memItems] at h
      split at h
      · next c =>
        obtain ⟨j, rfl, h'⟩ := mem_enum.1 h
        rw [Nat.zero_add]
        exact .tuple c ha h'
      · cases h
    | dict kvs =>
      rw [ha] at h
      simp only [memItems] at h
      split at h
      · next c =>
        obtain ⟨s, rfl, h'⟩ := entry.1 h
        exact .dict c ha h'
      · cases h
    | none => rw [ha] at h; cases h
    | num k => rw [ha] at h; cases h
    | str s => rw [ha] at h; cases h
  · intro h
    cases h with
    | param ha hd h nk =>
      simp only [memItems, ha, hd, ECell.entries]
      refine entry.2 ⟨_, rfl, List.mem_filter.2 ⟨h, ?_⟩⟩
      simpa using nk
    | list c ha h => simp only [memItems, ha, c, if_true]; exact mem_enum.2 ⟨_, by rw [Nat.zero_add], h⟩
    | tuple c ha h => simp only [memItems, ha, c, if_true]; exact mem_enum.2 ⟨_, by rw [Nat.zero_add], h⟩
    | dict c ha h => simp only [memItems, ha, c, if_true]; exact entry.2 ⟨_, rfl, h⟩

/-! ### The size of the stack -/

theorem flatMem_succ : ∀ {n a : Nat} {p : List KeyStep} {l : List (List KeyStep × Nat)}, flatMem o mem n a p = some l → flatMem o mem (n + 1) a p = some l
  | 0, _, _, _, h => by cases h
  | n + 1, a, p, l, h => by
      rw [flatMem] at h ⊢
      refine gather_mono (fun kr r e => ?_) h
      split at e
      · next c =>
        obtain ⟨l, hl, e⟩ := Option.map_eq_some_iff.1 e
        rw [if_pos c, flatMem_succ hl]
        subst e
        rfl
      · next c => rw [if_neg c]; exact e

theorem flatMem_le {n m a : Nat} {p : List KeyStep} {l : List (List KeyStep × Nat)} (le : n ≤ m) (h : flatMem o mem n a p = some l) : flatMem o mem m a p = some l := by
  induction le with
  | refl => exact h
  | step _ ih => exact flatMem_succ ih

theorem flattenMem_ok {n a : Nat} {l : List (List KeyStep × Nat)} : flattenMem o mem n a = .ok l ↔ flatMem o mem n a [] = some l := by
  rw [flattenMem]
  cases flatMem o mem n a [] <;> simp

/-! ### What is listed -/

theorem flatMem_mem (good : GoodMem mem) (rec : o.recursive = true) : ∀ {n a : Nat} {p : List KeyStep} {l : List (List KeyStep × Nat)},
    flatMem o mem n a p = some l → ∀ q x, (q, x) ∈ l ↔ ∃ s, q = p ++ s ∧ PathTo o mem a s x
  | 0, _, _, _, h => by cases h
  | n + 1, a, p, l, h => by
      intro q x
      rw [flatMem] at h
      obtain ⟨h1, h2⟩ := gather_some h
      rw [h2]
      constructor
      · rintro ⟨⟨k, r⟩, hkr, l', e, hq⟩
        have hu := (mem_memItems good).1 hkr
        rw [if_pos rec] at e
        obtain ⟨m, hm, rfl⟩ := Option.map_eq_some_iff.1 e
        rcases List.mem_cons.1 hq with hq | hq
        · cases hq
          exact ⟨[k], rfl, .one hu⟩
        · obtain ⟨s, rfl, hs⟩ := (flatMem_mem good rec hm q x).1 hq
          exact ⟨k :: s, by simp, .more hu hs⟩
      · rintro ⟨s, rfl, hs⟩
        cases hs with
        | @one _ r k hu =>
          have hkr := (mem_memItems good).2 hu
          obtain ⟨l', e⟩ := h1 _ hkr
          refine ⟨_, hkr, l', e, ?_⟩
          rw [if_pos rec] at e
          obtain ⟨m, hm, rfl⟩ := Option.map_eq_some_iff.1 e
          simp
        | @more _ y r k s hu hs =>
          have hkr := (mem_memItems good).2 hu
          obtain ⟨l', e⟩ := h1 _ hkr
          refine ⟨_, hkr, l', e, ?_⟩
          rw [if_pos rec] at e
          obtain ⟨m, hm, rfl⟩ := Option.map_eq_some_iff.1 e
          refine List.mem_cons_of_mem _ ((flatMem_mem good rec hm _ _).2 ⟨s, by simp, hs⟩)

theorem enum_keys : ∀ {xs : List Nat} {i : Nat}, ((enumFromAt i xs).map (·.1)).Nodup
  | [], _ => by simp [enumFromAt]
  | x :: xs, i => by
      rw [enumFromAt, List.map_cons, List.nodup_cons]
      refine ⟨fun h => ?_, enum_keys⟩
      obtain ⟨⟨k, r⟩, h, e⟩ := List.mem_map.1 h
      obtain ⟨j, rfl, _⟩ := mem_enum.1 h
      injection e with e
      omega

theorem entry_keys {kvs : List (Str × Nat)} (nd : (kvs.map (·.1)).Nodup) : (((sortBy keyLe kvs).map fun kv => (KeyStep.key kv.1, kv.2)).map (·.1)).Nodup := by
  have := ((sortBy_perm keyLe kvs).map (·.1)).nodup_iff.2 nd
  rw [List.map_map]
  rw [List.nodup_iff_pairwise_ne, List.pairwise_map] at this ⊢
  exact this.imp fun h e => h (by injection e)

theorem memItems_keys (good : GoodMem mem) (a : Nat) : ((memItems o mem (mem a)).map (·.1)).Nodup := by
  cases ha : mem a with
  | what n d nk out =>
    obtain ⟨kvs, hd⟩ := good.confs _ _ _ _ _ ha
    simp only [memItems, hd, ECell.entries]
    refine entry_keys ?_
    have := good.keys _ _ hd
    rw [List.nodup_iff_pairwise_ne, List.pairwise_map] at this ⊢
    exact this.filter _
  | list xs => simp only [memItems]; split <;> first | exact enum_keys | simp
  | tuple xs => simp only [memItems]; split <;> first | exact enum_keys | simp
  | dict kvs => simp only [memItems]; split <;> first | exact entry_keys (good.keys _ _ ha) | simp
  | none => simp [memItems]
  | num k => simp [memItems]
  | str s => simp [memItems]

theorem gather_nodup {γ : Type} {f : KeyStep × Nat → Option (List (γ × Nat))} {head : γ → KeyStep → Prop} (one : ∀ g k k', head g k → head g k' → k = k') :
    ∀ {xs : List (KeyStep × Nat)} {l : List (γ × Nat)}, (xs.map (·.1)).Nodup → (∀ kr ∈ xs, ∀ r, f kr = some r → (r.map (·.1)).Nodup ∧ ∀ y ∈ r, head y.1 kr.1) →
      gather f xs = some l → (l.map (·.1)).Nodup
  | [], l, _, _, h => by cases h; simp
  | x :: xs, l, nd, hf, h => by
      simp only [gather] at h
      obtain ⟨a, ha, h⟩ := Option.bind_eq_some_iff.1 h
      obtain ⟨r, hr, e⟩ := Option.map_eq_some_iff.1 h
      subst e
      rw [List.map_cons, List.nodup_cons] at nd
      have h1 := hf x (by simp) a ha
      have h2 := gather_nodup one nd.2 (fun kr hkr => hf kr (by simp [hkr])) hr
      rw [List.map_append, List.nodup_append]
      refine ⟨h1.1, h2, fun g hg g' hg' e => ?_⟩
      subst e
      obtain ⟨y, hy, rfl⟩ := List.mem_map.1 hg
      obtain ⟨z, hz, e⟩ := List.mem_map.1 hg'
      obtain ⟨kr, hkr, r', hr', hz⟩ := ((gather_some hr).2 z).1 hz
      have h3 := (hf kr (by simp [hkr]) r' hr').2 z hz
      rw [e] at h3
      have := one _ _ _ (h1.2 y hy) h3
      exact nd.1 (by rw [this]; exact List.mem_map.2 ⟨kr, hkr, rfl⟩)

theorem flatMem_nodup (good : GoodMem mem) (rec : o.recursive = true) : ∀ {n a : Nat} {p : List KeyStep} {l : List (List KeyStep × Nat)},
    flatMem o mem n a p = some l → (l.map (·.1)).Nodup
  | 0, _, _, _, h => by cases h
  | n + 1, a, p, l, h => by
      rw [flatMem] at h
      refine gather_nodup (head := fun q k => ∃ s, q = p ++ k :: s) ?_ (memItems_keys good a) (fun kr hkr r e => ?_) h
      · rintro q k k' ⟨s, rfl⟩ ⟨s', e⟩
        exact (List.cons.inj (List.append_cancel_left e)).1
      · rw [if_pos rec] at e
        obtain ⟨m, hm, rfl⟩ := Option.map_eq_some_iff.1 e
        have all := flatMem_mem good rec hm
        constructor
        · rw [List.map_cons, List.nodup_cons]
          refine ⟨fun h => ?_, flatMem_nodup good rec hm⟩
          obtain ⟨y, hy, e⟩ := List.mem_map.1 h
          obtain ⟨s, hs, hp⟩ := (all y.1 y.2).1 hy
          rw [e] at hs
          have : s = [] := by
            have := congrArg List.length hs
            simp only [List.length_append] at this
            exact List.length_eq_zero_iff.1 (by omega)
          subst this
          cases hp
        · intro y hy
          rcases List.mem_cons.1 hy with rfl | hy
          · exact ⟨[], rfl⟩
          · obtain ⟨s, hs, _⟩ := (all y.1 y.2).1 hy
            exact ⟨s, by rw [hs]; simp⟩

/-! ### Keys without end -/

theorem flatMem_endless (good : GoodMem mem) (rec : o.recursive = true) : ∀ (n : Nat) {x : Nat → Nat}, (∀ i, ∃ k, HasUnder o mem (x i) k (x (i + 1))) →
    ∀ (p : List KeyStep), flatMem o mem n (x 0) p = none
  | 0, _, _, _ => rfl
  | n + 1, x, h, p => by
      rw [flatMem]
      cases e : gather _ (memItems o mem (mem (x 0))) with
      | none => rfl
      | some l =>
        obtain ⟨k, hk⟩ := h 0
        obtain ⟨r, hr⟩ := (gather_some e).1 _ ((mem_memItems good).2 hk)
        rw [if_pos rec] at hr
        have := flatMem_endless good rec n (x := fun i => x (i + 1)) (fun i => h (i + 1)) (p ++ [k])
        rw [this] at hr
        cases hr

theorem acc_of_keys {a : Nat} (h : ¬ EndlessKeys o mem a) : Acc (fun y x => ∃ k, HasUnder o mem x k y) a := by
  apply Classical.byContradiction
  intro hn
  have next : ∀ x : { x : Nat // ¬ Acc (fun y x => ∃ k, HasUnder o mem x k y) x }, ∃ y : { x : Nat // ¬ Acc (fun y x => ∃ k, HasUnder o mem x k y) x },
      ∃ k, HasUnder o mem x.1 k y.1 := by
    intro x
    apply Classical.byContradiction
    intro hx
    exact x.2 (Acc.intro _ fun y hy => Classical.byContradiction fun hy' => hx ⟨⟨y, hy'⟩, hy⟩)
  let f := fun x => Classical.choose (next x)
  have hf : ∀ x, ∃ k, HasUnder o mem x.1 k (f x).1 := fun x => Classical.choose_spec (next x)
  let path : Nat → { x : Nat // ¬ Acc (fun y x => ∃ k, HasUnder o mem x k y) x } := fun i => Nat.rec ⟨a, hn⟩ (fun _ x => f x) i
  exact h ⟨fun i => (path i).1, rfl, fun i => hf (path i)⟩

theorem flatMem_stops (good : GoodMem mem) {a : Nat} (h : Acc (fun y x => ∃ k, HasUnder o mem x k y) a) : ∃ n, ∀ p, ∃ l, flatMem o mem n a p = some l := by
  induction h with
  | intro a _ ih =>
    have bound : ∀ (xs : List (KeyStep × Nat)), (∀ kr ∈ xs, HasUnder o mem a kr.1 kr.2) → ∃ n, ∀ kr ∈ xs, ∀ p, ∃ l, flatMem o mem n kr.2 p = some l := by
      intro xs
      induction xs with
      | nil => exact fun _ => ⟨0, by simp⟩
      | cons x xs ihx =>
        intro hx
        obtain ⟨n, hn⟩ := ihx fun kr hkr => hx kr (by simp [hkr])
        obtain ⟨m, hm⟩ := ih x.2 ⟨_, hx x (by simp)⟩
        refine ⟨max n m, fun kr hkr p => ?_⟩
        rcases List.mem_cons.1 hkr with rfl | hkr
        · exact (hm p).imp fun l h => flatMem_le (Nat.le_max_right _ _) h
        · exact (hn kr hkr p).imp fun l h => flatMem_le (Nat.le_max_left _ _) h
    obtain ⟨n, hn⟩ := bound (memItems o mem (mem a)) fun kr hkr => (mem_memItems good).1 hkr
    refine ⟨n + 1, fun p => ?_⟩
    rw [flatMem]
    refine gather_total fun kr hkr => ?_
    split
    · obtain ⟨l, e⟩ := hn kr hkr (p ++ [kr.1])
      exact ⟨_, by rw [e]; rfl⟩
    · exact ⟨_, rfl⟩

end

/-! ### In order -/

theorem gather_pairwise {α β : Type} {R : β → β → Prop} {S : α → α → Prop} {f : α → Option (List β)} :
    ∀ {xs : List α} {l : List β}, xs.Pairwise S → (∀ x ∈ xs, ∀ r, f x = some r → r.Pairwise R) →
      (∀ x y r r', S x y → f x = some r → f y = some r' → ∀ b ∈ r, ∀ c ∈ r', R b c) → gather f xs = some l → l.Pairwise R
  | [], l, _, _, _, h => by cases h; simp
  | x :: xs, l, hs, h1, h2, h => by
      simp only [gather] at h
      obtain ⟨a, ha, h⟩ := Option.bind_eq_some_iff.1 h
      obtain ⟨r, hr, e⟩ := Option.map_eq_some_iff.1 h
      subst e
      rw [List.pairwise_cons] at hs
      rw [List.pairwise_append]
      refine ⟨h1 x (by simp) a ha, gather_pairwise hs.2 (fun y hy => h1 y (by simp [hy])) h2 hr, fun b hb c hc => ?_⟩
      obtain ⟨y, hy, r', hr', hc⟩ := ((gather_some hr).2 c).1 hc
      exact h2 x y a r' (hs.1 y hy) ha hr' b hb c hc

/-- One step comes before another. -/
def StepLt (k k' : KeyStep) : Prop := ∀ q q', KeyBefore (k :: q) (k' :: q')

theorem enum_sorted : ∀ {xs : List Nat} {i : Nat}, (enumFromAt i xs).Pairwise fun a b => StepLt a.1 b.1
  | [], _ => by simp [enumFromAt]
  | x :: xs, i => by
      rw [enumFromAt, List.pairwise_cons]
      refine ⟨fun kr h => ?_, enum_sorted⟩
      obtain ⟨k, r⟩ := kr
      obtain ⟨j, rfl, _⟩ := mem_enum.1 h
      exact fun q q' => .indices q q' (by omega)

theorem entry_sorted {kvs : List (Str × Nat)} (nd : (kvs.map (·.1)).Nodup) :
    ((sortBy keyLe kvs).map fun kv => (KeyStep.key kv.1, kv.2)).Pairwise fun a b => StepLt a.1 b.1 := by
  have h1 := ((sortBy_perm keyLe kvs).map (·.1)).nodup_iff.2 nd
  rw [List.nodup_iff_pairwise_ne, List.pairwise_map] at h1
  have h2 : (sortBy keyLe kvs).Pairwise fun a b => keyLe a b = true := sortBy_sorted keyLe_total keyLe_trans kvs
  rw [List.pairwise_map]
  refine (h1.and h2).imp fun h q q' => ?_
  exact .names q q' (strLt_of_strLe h.2 h.1)

theorem memItems_sorted {o : FlatOpts} {mem : Nat → ECell} (good : GoodMem mem) (a : Nat) :
    (memItems o mem (mem a)).Pairwise fun a b => StepLt a.1 b.1 := by
  cases ha : mem a with
  | what n d nk out =>
    obtain ⟨kvs, hd⟩ := good.confs _ _ _ _ _ ha
    simp only [memItems, hd, ECell.entries]
    refine entry_sorted ?_
    have := good.keys _ _ hd
    rw [List.nodup_iff_pairwise_ne, List.pairwise_map] at this ⊢
    exact this.filter _
  | list xs => simp only [memItems]; split <;> first | exact enum_sorted | simp
  | tuple xs => simp only [memItems]; split <;> first | exact enum_sorted | simp
  | dict kvs => simp only [memItems]; split <;> first | exact entry_sorted (good.keys _ _ ha) | simp
  | none => simp [memItems]
  | num k => simp [memItems]
  | str s => simp [memItems]

theorem KeyBefore.under {s t : List KeyStep} (h : KeyBefore s t) : ∀ p : List KeyStep, KeyBefore (p ++ s) (p ++ t)
  | [] => h
  | k :: p => .inside k (h.under p)

/-- What is under a key starts with it. -/
theorem flatMem_starts {o : FlatOpts} {mem : Nat → ECell} (good : GoodMem mem) {n : Nat} {p : List KeyStep} {kr : KeyStep × Nat} {r : List (List KeyStep × Nat)}
    (e : (if o.recursive then (flatMem o mem n kr.2 (p ++ [kr.1])).map fun l => (p ++ [kr.1], kr.2) :: l else some [(p ++ [kr.1], kr.2)]) = some r) :
    ∀ y ∈ r, ∃ s, y.1 = p ++ kr.1 :: s := by
  intro y hy
  split at e
  · next rec =>
    obtain ⟨m, hm, rfl⟩ := Option.map_eq_some_iff.1 e
    rcases List.mem_cons.1 hy with rfl | hy
    · exact ⟨[], rfl⟩
    · obtain ⟨s, hs, _⟩ := (flatMem_mem good rec hm y.1 y.2).1 hy
      exact ⟨s, by rw [hs]; simp⟩
  · cases e
    rw [List.mem_singleton] at hy
    subst hy
    exact ⟨[], rfl⟩

theorem flatMem_sorted {o : FlatOpts} {mem : Nat → ECell} (good : GoodMem mem) : ∀ {n a : Nat} {p : List KeyStep} {l : List (List KeyStep × Nat)},
    flatMem o mem n a p = some l → l.Pairwise fun a b => KeyBefore a.1 b.1
  | 0, _, _, _, h => by cases h
  | n + 1, a, p, l, h => by
      rw [flatMem] at h
      refine gather_pairwise (memItems_sorted good a) (fun kr hkr r e => ?_) (fun x y r r' lt e e' b hb c hc => ?_) h
      · split at e
        · next rec =>
          obtain ⟨m, hm, rfl⟩ := Option.map_eq_some_iff.1 e
          rw [List.pairwise_cons]
          refine ⟨fun y hy => ?_, flatMem_sorted good hm⟩
          obtain ⟨s, hs, hp⟩ := (flatMem_mem good rec hm y.1 y.2).1 hy
          rw [hs]
          have : KeyBefore [] s := by cases hp <;> exact .parent _ _
          simpa using this.under (p ++ [kr.1])
        · cases e; simp
      · obtain ⟨s, hs⟩ := flatMem_starts good e b hb
        obtain ⟨t, ht⟩ := flatMem_starts good e' c hc
        rw [hs, ht]
        exact (lt s t).under p

/-! ### Of trees -/

/-- Two lists, item by item. -/
inductive Rows {α β : Type} (R : α → β → Prop) : List α → List β → Prop
  | nil : Rows R [] []
  | cons {a : α} {b : β} {l : List α} {l' : List β} : R a b → Rows R l l' → Rows R (a :: l) (b :: l')

theorem Rows.append {α β : Type} {R : α → β → Prop} {l₁ l₂ : List α} {m₁ m₂ : List β} (h : Rows R l₁ m₁) (h' : Rows R l₂ m₂) : Rows R (l₁ ++ l₂) (m₁ ++ m₂) := by
  induction h with
  | nil => exact h'
  | cons h _ ih => exact .cons h ih

theorem Rows.of_map {α β γ : Type} {R : α → β → Prop} {f : γ → α} {g : γ → β} : ∀ {l : List γ}, (∀ x ∈ l, R (f x) (g x)) → Rows R (l.map f) (l.map g)
  | [], _ => .nil
  | x :: l, h => .cons (h x (by simp)) (Rows.of_map fun y hy => h y (by simp [hy]))

theorem Rows.get {α β : Type} {R : α → β → Prop} {l : List α} {m : List β} (h : Rows R l m) :
    l.length = m.length ∧ ∀ (i : Nat) a, l[i]? = some a → ∃ b, m[i]? = some b ∧ R a b := by
  induction h with
  | nil => exact ⟨rfl, fun i a h => by simp at h⟩
  | cons hr _ ih =>
    refine ⟨by simp [ih.1], fun i a h => ?_⟩
    cases i with
    | zero => simp at h; subst h; exact ⟨_, rfl, hr⟩
    | succ i => simpa using ih.2 i a (by simpa using h)

section
variable {o : FlatOpts} {mem : Nat → ECell} {fi : Str → Option Int} {srt : SortItems}

theorem enum_rows (φ : Nat → Val) : ∀ {xs : List Nat} {i : Nat}, (∀ x ∈ xs, IsTree fi mem x (φ x)) →
    Rows (fun (p : KeyStep × Nat) (q : Val × Val) => q.1 = p.1.val ∧ IsTree fi mem p.2 q.2) (enumFromAt i xs) (enumFrom i (xs.map φ))
  | [], _, _ => .nil
  | x :: xs, i, h => .cons ⟨rfl, h x (by simp)⟩ (enum_rows φ fun y hy => h y (by simp [hy]))

theorem entry_rows (φ : Nat → Val) {kvs : List (Str × Nat)} (h : ∀ kv ∈ kvs, IsTree fi mem kv.2 (φ kv.2)) :
    Rows (fun (p : KeyStep × Nat) (q : Val × Val) => q.1 = p.1.val ∧ IsTree fi mem p.2 q.2) ((sortBy keyLe kvs).map fun kv => (KeyStep.key kv.1, kv.2))
      ((sortBy keyLe (kvs.map fun kv => (kv.1, φ kv.2))).map fun kv => (.str kv.1, kv.2)) := by
  rw [sortBy_map (le := keyLe) (le' := keyLe) (f := fun kv : Str × Nat => (kv.1, φ kv.2)) (fun _ _ => rfl), List.map_map]
  exact Rows.of_map fun kv hkv => ⟨rfl, h kv (mem_sortBy.1 hkv)⟩

theorem tree_items (strs : ∀ kvs : List (Str × Val), srt (kvs.map fun kv => (.str kv.1, kv.2)) = .ok ((sortBy keyLe kvs).map fun kv => (.str kv.1, kv.2)))
    {a : Nat} {v : Val} (h : IsTree fi mem a v) : ∃ items, flatItems srt o v = .ok items ∧
      Rows (fun (p : KeyStep × Nat) (q : Val × Val) => q.1 = p.1.val ∧ IsTree fi mem p.2 q.2) (memItems o mem (mem a)) items := by
  cases h with
  | none h => rw [h]; exact ⟨[], rfl, .nil⟩
  | num h e =>
    rw [h]
    refine ⟨[], ?_, .nil⟩
    unfold numKey at e
    split at e <;> first | rfl | cases e
  | str h => rw [h]; exact ⟨[], rfl, .nil⟩
  | tuple φ h hx =>
    rw [h]
    simp only [memItems, flatItems]
    split
    · exact ⟨_, rfl, enum_rows φ hx⟩
    · exact ⟨_, rfl, .nil⟩
  | list φ h hx =>
    rw [h]
    simp only [memItems, flatItems]
    split
    · exact ⟨_, rfl, enum_rows φ hx⟩
    · exact ⟨_, rfl, .nil⟩
  | @dict _ kvs φ h hx =>
    rw [h]
    simp only [memItems, flatItems]
    split
    · refine ⟨_, ?_, entry_rows φ hx⟩
      have := strs (kvs.map fun kv => (kv.1, φ kv.2))
      rw [List.map_map] at this
      exact this
    · exact ⟨_, rfl, .nil⟩
  | @what _ n d nk out kvs φ h hd hx =>
    rw [h]
    simp only [memItems, flatItems, hd, ECell.entries]
    refine ⟨_, rfl, ?_⟩
    have : (if o.nonIdsToo = true then kvs.map fun kv => (kv.1, φ kv.2) else (kvs.map fun kv => (kv.1, φ kv.2)).filter fun kv => !nk.contains kv.1) =
        (kvs.filter fun kv => o.nonIdsToo || !nk.contains kv.1).map fun kv => (kv.1, φ kv.2) := by
      cases o.nonIdsToo with
      | true => rw [if_pos rfl, List.filter_eq_self.2 (by simp)]
      | false => simp [List.filter_map, Function.comp_def]
    rw [this]
    exact entry_rows φ fun kv hkv => hx kv (List.mem_filter.1 hkv).1

theorem tree_loop {n : Nat} {p : List KeyStep} {pk : List Val} (hp : pk = p.map KeyStep.val) {kvs : List (KeyStep × Nat)} {items : List (Val × Val)}
    (rec : ∀ k x, (k, x) ∈ items → ∀ a p, IsTree fi mem a x → ∃ l l', flatMem o mem n a p = some l ∧ flattenN srt o n x (p.map KeyStep.val) = .ok l' ∧
      Rows (fun (p : List KeyStep × Nat) (q : List Val × Val) => q.1 = p.1.map KeyStep.val ∧ IsTree fi mem p.2 q.2) l l')
    (h : Rows (fun (p : KeyStep × Nat) (q : Val × Val) => q.1 = p.1.val ∧ IsTree fi mem p.2 q.2) kvs items) :
    ∃ l l', gather (fun kr => if o.recursive then (flatMem o mem n kr.2 (p ++ [kr.1])).map fun l => (p ++ [kr.1], kr.2) :: l else some [(p ++ [kr.1], kr.2)]) kvs = some l ∧
      flatLoop o.recursive (flattenN srt o n) pk items = .ok l' ∧
      Rows (fun (p : List KeyStep × Nat) (q : List Val × Val) => q.1 = p.1.map KeyStep.val ∧ IsTree fi mem p.2 q.2) l l' := by
  subst hp
  induction h with
  | nil => exact ⟨[], [], rfl, rfl, .nil⟩
  | @cons kr q kvs items hr _ ih =>
    obtain ⟨k, x⟩ := q
    obtain ⟨rfl, ht⟩ := hr
    obtain ⟨l, l', e, e', hl⟩ := ih fun k x hm => rec k x (by simp [hm])
    obtain ⟨m, m', em, em', hm⟩ := rec kr.1.val x (by simp) kr.2 (p ++ [kr.1]) ht
    rw [List.map_append] at em'
    have em' : flattenN srt o n x (p.map KeyStep.val ++ [kr.1.val]) = .ok m' := em'
    simp only [gather, e, flatLoop, e']
    cases o.recursive with
    | true =>
      simp only [if_true, em, em']
      exact ⟨_, _, rfl, rfl, .cons ⟨by simp, ht⟩ (hm.append hl)⟩
    | false =>
      simp only [Bool.false_eq_true, if_false]
      exact ⟨_, _, rfl, rfl, .cons ⟨by simp, ht⟩ hl⟩

theorem tree_flat (hs : SortsItems srt)
    (strs : ∀ kvs : List (Str × Val), srt (kvs.map fun kv => (.str kv.1, kv.2)) = .ok ((sortBy keyLe kvs).map fun kv => (.str kv.1, kv.2))) :
    ∀ (n : Nat) (v : Val), depth v ≤ n → ∀ a p, IsTree fi mem a v → ∃ l l', flatMem o mem n a p = some l ∧ flattenN srt o n v (p.map KeyStep.val) = .ok l' ∧
      Rows (fun (p : List KeyStep × Nat) (q : List Val × Val) => q.1 = p.1.map KeyStep.val ∧ IsTree fi mem p.2 q.2) l l' := by
  intro n
  induction n with
  | zero => intro v h; have := depth_pos v; omega
  | succ n ih =>
    intro v h a p ht
    obtain ⟨items, hi, rows⟩ := tree_items (o := o) strs ht
    rw [flatMem, flattenN, hi]
    refine tree_loop rfl (fun k x hm a p hx => ?_) rows
    have := flatItems_depth hs hi hm
    exact ih x (by omega) a p hx

end

/-- C107. If `flatten` ends, it lists the paths to what the configuration contains, each once, with what it leads to; -/
theorem c107_exact (o : FlatOpts) (rec : o.recursive = true) (mem : Nat → ECell) (good : GoodMem mem) (n a : Nat) (l : List (List KeyStep × Nat))
    (h : flattenMem o mem n a = .ok l) : (∀ p x, (p, x) ∈ l ↔ PathTo o mem a p x) ∧ (l.map (·.1)).Nodup := by
  refine ⟨fun p x => ?_, flatMem_nodup good rec (flattenMem_ok.1 h)⟩
  rw [flatMem_mem good rec (flattenMem_ok.1 h)]
  simp

/-- C107. it ends, on a stack that is large enough, with the same list whatever the stack, if the keys do; -/
theorem c107_ends (o : FlatOpts) (mem : Nat → ECell) (good : GoodMem mem) (a : Nat) (ends : ¬ EndlessKeys o mem a) :
    ∃ N l, ∀ n, N ≤ n → flattenMem o mem n a = .ok l := by
  obtain ⟨N, h⟩ := flatMem_stops good (acc_of_keys ends)
  obtain ⟨l, h⟩ := h []
  exact ⟨N, l, fun n hn => flattenMem_ok.2 (flatMem_le hn h)⟩

/-- C107. else it raises RecursionError, whatever the stack. -/
theorem c107_raises (o : FlatOpts) (rec : o.recursive = true) (mem : Nat → ECell) (good : GoodMem mem) (a : Nat) (endless : EndlessKeys o mem a) (n : Nat) :
    flattenMem o mem n a = .error .recursionError := by
  obtain ⟨x, rfl, h⟩ := endless
  rw [flattenMem, flatMem_endless good rec n h]

/-- C107. With `recursive=False` it always ends, and lists the keys of one step. -/
theorem c107_flat (o : FlatOpts) (rec : o.recursive = false) (mem : Nat → ECell) (good : GoodMem mem) (n a : Nat) (h : 1 ≤ n) :
    ∃ l, flattenMem o mem n a = .ok l ∧ (∀ p x, (p, x) ∈ l ↔ ∃ k, p = [k] ∧ HasUnder o mem a k x) ∧ (l.map (·.1)).Nodup := by
  obtain ⟨n, rfl⟩ := Nat.exists_eq_add_of_le' h
  obtain ⟨l, hl⟩ := gather_total (f := fun kr : KeyStep × Nat =>
      if o.recursive then (flatMem o mem n kr.2 ([] ++ [kr.1])).map fun l => ([] ++ [kr.1], kr.2) :: l else some [([] ++ [kr.1], kr.2)])
      (xs := memItems o mem (mem a)) fun kr _ => ⟨[([kr.1], kr.2)], by simp [rec]⟩
  refine ⟨l, flattenMem_ok.2 (by rw [flatMem]; exact hl), fun p x => ?_, ?_⟩
  · rw [(gather_some hl).2]
    constructor
    · rintro ⟨⟨k, r⟩, hkr, l', e, hp⟩
      rw [rec] at e
      cases e
      simp only [List.nil_append, List.mem_cons, List.not_mem_nil, or_false, Prod.mk.injEq] at hp
      obtain ⟨rfl, rfl⟩ := hp
      exact ⟨k, rfl, (mem_memItems good).1 hkr⟩
    · rintro ⟨k, rfl, hu⟩
      exact ⟨(k, x), (mem_memItems good).2 hu, [([k], x)], by simp [rec], by simp⟩
  · refine gather_nodup (head := fun q k => q = [k]) ?_ (memItems_keys good a) (fun kr hkr r e => ?_) hl
    · rintro q k k' rfl e
      cases e
      rfl
    · rw [rec] at e
      cases e
      simp

/-- C107. What is listed is in order. -/
theorem c107_order (o : FlatOpts) (mem : Nat → ECell) (good : GoodMem mem) (n a : Nat) (l : List (List KeyStep × Nat)) (h : flattenMem o mem n a = .ok l) :
    l.Pairwise fun a b => KeyBefore a.1 b.1 :=
  flatMem_sorted good (flattenMem_ok.1 h)

/-- C107. Of configurations that are trees it is the `flatten` of C18: the same list, whatever parts they share. -/
theorem c107_tree (o : FlatOpts) (fi : Str → Option Int) (srt : SortItems) (hs : SortsItems srt)
    (strs : ∀ kvs : List (Str × Val), srt (kvs.map fun kv => (.str kv.1, kv.2)) = .ok ((sortBy keyLe kvs).map fun kv => (.str kv.1, kv.2)))
    (mem : Nat → ECell) (a : Nat) (w : What) (h : IsTree fi mem a w.toVal) :
    ∃ N l l', (∀ n, N ≤ n → flattenMem o mem n a = .ok l) ∧ flatten srt o w = .ok l' ∧ l.length = l'.length ∧
      ∀ (i : Nat) p x, l[i]? = some (p, x) → ∃ y, l'[i]? = some (pathKey (p.map KeyStep.val), y) ∧ IsTree fi mem x y := by
  obtain ⟨l, l', e, e', rows⟩ := tree_flat (o := o) hs strs (depth w.toVal) w.toVal (Nat.le_refl _) a [] h
  have e' : flattenN srt o (depth w.toVal) w.toVal [] = .ok l' := e'
  obtain ⟨len, get⟩ := rows.get
  refine ⟨depth w.toVal, l, l'.map fun pv => (pathKey pv.1, pv.2), fun n hn => flattenMem_ok.2 (flatMem_le hn e), by rw [flatten, e']; rfl, by simp [len], fun i p x hi => ?_⟩
  obtain ⟨q, hq, h1, h2⟩ := get i _ hi
  exact ⟨q.2, by rw [List.getElem?_map, hq, Option.map_some, h1], h2⟩

/-! ### Instances -/

/-- `w.conf['me'] = w; list(w.keys())` raises RecursionError, -/
example (n : Nat) : flattenMem {} selfie n 0 = .error .recursionError := by
  refine c107_raises {} rfl selfie selfie_good 0 ⟨fun _ => 0, rfl, fun _ => ⟨.key c!"me", ?_⟩⟩ n
  exact .param (d := 1) (kvs := [(c!"me", 0)]) rfl rfl (by simp) (.inr (by simp))

/-- unless with `recursive=False`. -/
example : ∃ l, flattenMem { recursive := false } selfie 1 0 = .ok l ∧ ([KeyStep.key c!"me"], 0) ∈ l := by
  obtain ⟨l, h, all, _⟩ := c107_flat { recursive := false } rfl selfie selfie_good 1 0 (Nat.le_refl _)
  exact ⟨l, h, (all _ _).2 ⟨_, rfl, .param (d := 1) (kvs := [(c!"me", 0)]) rfl rfl (by simp) (.inr (by simp))⟩⟩

/-- `xs = [1]; xs.append(xs); What('f', {'xs': xs, 'g': What('g', {'y': 1})})` -/
def inner : Nat → ECell
  | 0 => .what c!"f" 1 [] none
  | 1 => .dict [(c!"xs", 2), (c!"g", 4)]
  | 2 => .list [3, 2]
  | 3 => .num (.inl 1)
  | 4 => .what c!"g" 5 [] none
  | 5 => .dict [(c!"y", 3)]
  | _ => .none

theorem inner_good : GoodMem inner := by
  constructor
  · intro a kvs h
    unfold inner at h
    split at h <;> first | (cases h; done) | (injection h with h; subst h; decide)
  · intro a n d nk o h
    unfold inner at h
    split at h <;> first | (cases h; done) | (injection h with _ h _ _; subst h; exact ⟨_, rfl⟩)

/-- By default lists are not looked into; -/
theorem inner_ends : ¬ EndlessKeys {} inner 0 := by
  rintro ⟨x, h0, h⟩
  have leaf : ∀ a k r, HasUnder {} inner a k r → (a = 0 ∧ (r = 2 ∨ r = 4)) ∨ (a = 4 ∧ r = 3) := by
    intro a k r h
    cases h with
    | param ha hd hm _ =>
      unfold inner at ha
      split at ha <;> first | (cases ha; done) | (cases ha; cases hd; simp only [List.mem_cons, List.not_mem_nil, or_false, Prod.mk.injEq] at hm; omega)
    | list c => cases c
    | tuple c => cases c
    | dict c => cases c
  obtain ⟨_, h1⟩ := h 0
  obtain ⟨_, h2⟩ := h 1
  obtain ⟨_, h3⟩ := h 2
  have h1 := leaf _ _ _ h1
  have h2 := leaf _ _ _ h2
  have h3 := leaf _ _ _ h3
  simp only [Nat.reduceAdd] at h1 h2 h3
  omega

example : ∃ N l, ∀ n, N ≤ n → flattenMem {} inner n 0 = .ok l ∧ ([KeyStep.key c!"g", .key c!"y"], 3) ∈ l ∧ ([KeyStep.key c!"xs", .idx 0], 3) ∉ l := by
  obtain ⟨N, l, h⟩ := c107_ends {} inner inner_good 0 inner_ends
  refine ⟨N, l, fun n hn => ⟨h n hn, ?_, fun hl => ?_⟩⟩
  · refine ((c107_exact {} rfl inner inner_good n 0 l (h n hn)).1 _ _).2 (.more (x := 4) ?_ (.one ?_))
    · exact .param (d := 1) (kvs := [(c!"xs", 2), (c!"g", 4)]) rfl rfl (by simp) (.inr (by simp))
    · exact .param (d := 5) (kvs := [(c!"y", 3)]) rfl rfl (by simp) (.inr (by simp))
  · have := ((c107_exact {} rfl inner inner_good n 0 l (h n hn)).1 _ _).1 hl
    cases this with
    | more _ h =>
      cases h with
      | one h => cases h with
        | list c => cases c
        | tuple c => cases c
      | more _ h => cases h

example : flattenMem {} inner 3 0 = .ok [([.key c!"g"], 4), ([.key c!"g", .key c!"y"], 3), ([.key c!"xs"], 2)] := by rfl

example (l : List (List KeyStep × Nat)) (h : flattenMem {} inner 3 0 = .ok l) : l.Pairwise fun a b => KeyBefore a.1 b.1 := c107_order {} inner inner_good 3 0 l h

/-- with `collections_too` they are. -/
example (n : Nat) : flattenMem { collectionsToo := true } inner n 0 = .error .recursionError := by
  refine c107_raises { collectionsToo := true } rfl inner inner_good 0 ⟨fun | 0 => 0 | _ => 2, rfl, fun i => ?_⟩ n
  cases i with
  | zero => exact ⟨.key c!"xs", .param (d := 1) (kvs := [(c!"xs", 2), (c!"g", 4)]) rfl rfl (by simp) (.inr (by simp))⟩
  | succ i => exact ⟨.idx 1, .list rfl (xs := [3, 2]) rfl rfl⟩

/-- A `sorted` for dicts whose keys are strings. -/
def strKeys : List (Val × Val) → Option (List (Str × Val))
  | [] => some []
  | (.str s, v) :: r => (strKeys r).map fun l => (s, v) :: l
  | _ => none

theorem strKeys_some : ∀ {l : List (Val × Val)} {kvs : List (Str × Val)}, strKeys l = some kvs ↔ l = kvs.map fun kv => (.str kv.1, kv.2)
  | [], kvs => by cases kvs <;> simp [strKeys]
  | (k, v) :: r, kvs => by
      cases kvs with
      | nil => cases k <;> simp [strKeys]
      | cons kv kvs =>
        cases k <;> simp [strKeys]
        next s =>
          constructor
          · rintro ⟨h, rfl⟩
            exact ⟨⟨rfl, rfl⟩, strKeys_some.1 h⟩
          · rintro ⟨⟨rfl, rfl⟩, h⟩
            exact ⟨strKeys_some.2 h, rfl⟩

def srtStr : SortItems := fun l =>
  match strKeys l with
  | some kvs => .ok ((sortBy keyLe kvs).map fun kv => (.str kv.1, kv.2))
  | none => .error .typeError

theorem srtStr_sorts : SortsItems srtStr := by
  intro l l' h
  unfold srtStr at h
  split at h
  · next kvs e =>
    cases h
    rw [strKeys_some.1 e]
    exact (sortBy_perm keyLe kvs).map _
  · cases h

theorem srtStr_strs (kvs : List (Str × Val)) : srtStr (kvs.map fun kv => (.str kv.1, kv.2)) = .ok ((sortBy keyLe kvs).map fun kv => (.str kv.1, kv.2)) := by
  unfold srtStr
  rw [strKeys_some.2 rfl]

example : ∃ N l l', (∀ n, N ≤ n → flattenMem {} inner n 4 = .ok l) ∧ flatten srtStr {} ⟨c!"g", [(c!"y", .int 1)], [], none⟩ = .ok l' ∧ l.length = l'.length := by
  obtain ⟨N, l, l', h, h', hl, _⟩ := c107_tree {} (fun _ => none) srtStr srtStr_sorts srtStr_strs inner 4 ⟨c!"g", [(c!"y", .int 1)], [], none⟩
    (.what (d := 5) (kvs := [(c!"y", 3)]) (fun _ => .int 1) rfl rfl fun kv hkv => by
      simp only [List.mem_cons, List.not_mem_nil, or_false] at hkv
      subst hkv
      exact .num (k := .inl 1) rfl rfl)
  exact ⟨N, l, l', h, h', hl⟩

end Whatami
