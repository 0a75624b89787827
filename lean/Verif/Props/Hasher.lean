import Verif.Spec.Hash
import Verif.HasherLemmas
import Verif.Props.Arrays

/-
C65: minijoblib's hash of values, objects, classes, methods and arrays.
-/
namespace Whatami

/-! ### Sorting -/

section Sorting
variable {α : Type} {lt : α → α → Option Bool}

theorem insertLt_perm {a : α} {l l' : List α} (h : insertLt lt a l = some l') : l'.Perm (a :: l) := by
  induction l generalizing l' with
  | nil => cases h; exact .refl _
  | cons b l ih =>
    simp only [insertLt] at h
    split at h
    · cases h
    · cases h1 : insertLt lt a l with
      | none => rw [h1] at h; cases h
      | some m =>
        rw [h1] at h
        cases h
        exact ((ih h1).cons b).trans (.swap a b l)
    · cases h; exact .refl _

theorem sortLt_perm {l l' : List α} (h : sortLt lt l = some l') : l'.Perm l := by
  induction l generalizing l' with
  | nil => cases h; exact .refl _
  | cons a l ih =>
    simp only [sortLt] at h
    cases h1 : sortLt lt l with
    | none => rw [h1] at h; cases h
    | some m =>
      rw [h1] at h
      exact (insertLt_perm h).trans ((ih h1).cons a)

theorem Sortable.perm {l l' : List α} (h : Sortable lt l) (p : l.Perm l') : Sortable lt l' :=
  ⟨(p.pairwise_iff (fun h => h.elim (fun ⟨a, b⟩ => .inr ⟨b, a⟩) fun ⟨a, b⟩ => .inl ⟨b, a⟩)).1 h.compared,
    fun a ha b hb c hc => h.trans a (p.mem_iff.2 ha) b (p.mem_iff.2 hb) c (p.mem_iff.2 hc)⟩

theorem Sortable.tail {a : α} {l : List α} (h : Sortable lt (a :: l)) : Sortable lt l :=
  ⟨(List.pairwise_cons.1 h.compared).2, fun a ha b hb c hc => h.trans a (.tail _ ha) b (.tail _ hb) c (.tail _ hc)⟩

theorem insertLt_sorted {a : α} {l : List α} (h : Sortable lt (a :: l)) (hs : l.Pairwise fun a b => lt a b = some true) :
    ∃ l', insertLt lt a l = some l' ∧ l'.Pairwise fun a b => lt a b = some true := by
  induction l with
  | nil => exact ⟨[a], rfl, by simp⟩
  | cons b l ih =>
    have hab := (List.pairwise_cons.1 h.compared).1 b (.head _)
    have hab' : Sortable lt (a :: l) := (h.perm (.swap b a l)).tail
    obtain ⟨hb, hl⟩ := List.pairwise_cons.1 hs
    simp only [insertLt]
    rcases hab with ⟨h1, h2⟩ | ⟨h1, h2⟩
    · refine ⟨a :: b :: l, by rw [h2], List.pairwise_cons.2 ⟨fun c hc => ?_, hs⟩⟩
      rcases List.mem_cons.1 hc with rfl | hc
      · exact h1
      · exact h.trans a (.head _) b (.tail _ (.head _)) c (.tail _ (.tail _ hc)) h1 (hb c hc)
    · obtain ⟨l', e, hl'⟩ := ih hab' hl
      refine ⟨b :: l', by rw [h2]; simp [e], List.pairwise_cons.2 ⟨fun c hc => ?_, hl'⟩⟩
      rcases List.mem_cons.1 ((insertLt_perm e).mem_iff.1 hc) with rfl | hc
      · exact h2
      · exact hb c hc

theorem sortLt_sorted {l : List α} (h : Sortable lt l) : ∃ l', sortLt lt l = some l' ∧ l'.Pairwise fun a b => lt a b = some true := by
  induction l with
  | nil => exact ⟨[], rfl, .nil⟩
  | cons a l ih =>
    obtain ⟨m, e, hm⟩ := ih h.tail
    obtain ⟨l', e', hl'⟩ := insertLt_sorted (h.perm ((sortLt_perm e).symm.cons a)) hm
    exact ⟨l', by simp [sortLt, e, e'], hl'⟩

theorem strict_unique {l m : List α} (hl : l.Pairwise fun a b => lt a b = some true) (hm : m.Pairwise fun a b => lt a b = some true)
    (anti : ∀ a ∈ l, ∀ b ∈ l, a ≠ b → lt a b = some true → lt b a = some true → False) (p : l.Perm m) : l = m := by
  induction l generalizing m with
  | nil => exact p.nil_eq
  | cons a l ih =>
    cases m with
    | nil => exact absurd p.symm.nil_eq (by simp)
    | cons b m =>
      obtain ⟨ha, hl'⟩ := List.pairwise_cons.1 hl
      obtain ⟨hb, hm'⟩ := List.pairwise_cons.1 hm
      have hab : a = b := by
        refine Classical.byContradiction fun hne => ?_
        have h1 : a ∈ m := (List.mem_cons.1 (p.mem_iff.1 (.head _))).resolve_left hne
        have h2 : b ∈ l := (List.mem_cons.1 (p.mem_iff.2 (.head _))).resolve_left fun e => hne e.symm
        exact anti a (.head _) b (.tail _ h2) hne (ha b h2) (hb a h1)
      subst hab
      rw [ih hl' hm' (fun a h b h' => anti a (.tail _ h) b (.tail _ h')) (List.Perm.cons_inv p)]

theorem Sortable.anti {l : List α} (h : Sortable lt l) : ∀ a ∈ l, ∀ b ∈ l, a ≠ b → lt a b = some true → lt b a = some true → False := by
  have hc := h.compared
  clear h
  induction l with
  | nil => intro a ha; cases ha
  | cons x l ih =>
    obtain ⟨hx, hl⟩ := List.pairwise_cons.1 hc
    intro a ha b hb hne h1 h2
    rcases List.mem_cons.1 ha with rfl | ha' <;> rcases List.mem_cons.1 hb with rfl | hb'
    · exact hne rfl
    · rcases hx b hb' with ⟨_, e⟩ | ⟨e, _⟩
      · rw [e] at h2; cases h2
      · rw [e] at h1; cases h1
    · rcases hx a ha' with ⟨_, e⟩ | ⟨e, _⟩
      · rw [e] at h1; cases h1
      · rw [e] at h2; cases h2
    · exact ih hl a ha' b hb' hne h1 h2

theorem sortLt_order {l m : List α} (h : Sortable lt l) (p : l.Perm m) : sortLt lt l = sortLt lt m := by
  obtain ⟨l', e, hl⟩ := sortLt_sorted h
  obtain ⟨m', e', hm⟩ := sortLt_sorted (h.perm p)
  rw [e, e']
  have pl := sortLt_perm e
  have pm := sortLt_perm e'
  rw [strict_unique hl hm (h.perm pl.symm).anti (pl.trans (p.trans pm.symm))]

theorem clash_none {l : List α} (h : Clashing lt l) : sortLt lt l = none := by
  obtain ⟨kind, ⟨a, ha, b, hb, hab⟩, hlt⟩ := h
  induction l generalizing a b with
  | nil => cases ha
  | cons x l ih =>
    simp only [sortLt]
    by_cases hk : ∃ c ∈ l, ∃ d ∈ l, kind c ≠ kind d
    · obtain ⟨c, hc, d, hd, hcd⟩ := hk
      rw [ih (fun a ha b hb => hlt a (.tail _ ha) b (.tail _ hb)) c hc d hd hcd]; rfl
    · cases hs : sortLt lt l with
      | none => rfl
      | some m =>
        have hy : ∃ y ∈ l, kind y ≠ kind x := by
          rcases List.mem_cons.1 ha with rfl | ha' <;> rcases List.mem_cons.1 hb with rfl | hb'
          · exact absurd rfl hab
          · exact ⟨b, hb', fun e => hab e.symm⟩
          · exact ⟨a, ha', hab⟩
          · exact absurd ⟨a, ha', b, hb', hab⟩ hk
        obtain ⟨y, hy, hyx⟩ := hy
        have hm : ∀ z ∈ m, kind z ≠ kind x := fun z hz e => hk ⟨y, hy, z, (sortLt_perm hs).mem_iff.1 hz, fun e' => hyx (e'.trans e)⟩
        cases m with
        | nil => have := (sortLt_perm hs).mem_iff.2 hy; cases this
        | cons z m =>
          have : lt z x = none := hlt z (.tail _ ((sortLt_perm hs).mem_iff.1 (.head _))) x (.head _) (hm z (.head _))
          simp [insertLt, this]

theorem Clashing.perm {l m : List α} (h : Clashing lt l) (p : l.Perm m) : Clashing lt m := by
  obtain ⟨kind, ⟨a, ha, b, hb, hab⟩, hlt⟩ := h
  exact ⟨kind, ⟨a, p.mem_iff.1 ha, b, p.mem_iff.1 hb, hab⟩, fun a ha b hb => hlt a (p.mem_iff.2 ha) b (p.mem_iff.2 hb)⟩

end Sorting


/-! ### Lists -/

theorem arrangeL_map (E : HashEnv) (xs : List JVal) : arrangeL E xs = xs.map fun x => (x, arrange E x) := by
  induction xs with
  | nil => rfl
  | cons x xs ih => simp [arrangeL, ih]

theorem arrangeD_map (E : HashEnv) (kvs : List (JVal × JVal)) : arrangeD E kvs = kvs.map fun x => (x, (arrange E x.1, arrange E x.2)) := by
  induction kvs with
  | nil => rfl
  | cons x xs ih => obtain ⟨k, v⟩ := x; simp [arrangeD, ih]

theorem eraseL_map (xs : List PNode) : eraseL xs = xs.map erase := by
  induction xs with
  | nil => rfl
  | cons x xs ih => simp [eraseL, ih]

theorem eraseD_map (xs : List (PNode × PNode)) : eraseD xs = xs.map fun x => (erase x.1, erase x.2) := by
  induction xs with
  | nil => rfl
  | cons x xs ih => obtain ⟨k, v⟩ := x; simp [eraseD, ih]

theorem stripL_map (xs : List PNode) : stripL xs = xs.map strip := by
  induction xs with
  | nil => rfl
  | cons x xs ih => simp [stripL, ih]

theorem stripD_map (xs : List (PNode × PNode)) : stripD xs = xs.map fun x => (strip x.1, strip x.2) := by
  induction xs with
  | nil => rfl
  | cons x xs ih => obtain ⟨k, v⟩ := x; simp [stripD, ih]

theorem fedOfL_flat (xs : List PNode) : fedOfL xs = xs.flatMap fedOf := by
  induction xs with
  | nil => rfl
  | cons x xs ih => simp [fedOfL, ih]

theorem fedOfD_flat (xs : List (PNode × PNode)) : fedOfD xs = xs.flatMap fun x => fedOf x.1 ++ fedOf x.2 := by
  induction xs with
  | nil => rfl
  | cons x xs ih => obtain ⟨k, v⟩ := x; simp [fedOfD, ih]

theorem ordinaryL_iff {size : Str → Nat} (xs : List JVal) : OrdinaryL size xs ↔ ∀ x ∈ xs, Ordinary size x := by
  induction xs with
  | nil => simp [OrdinaryL]
  | cons x xs ih => simp [OrdinaryL, ih]

theorem ordinaryD_iff {size : Str → Nat} (xs : List (JVal × JVal)) : OrdinaryD size xs ↔ ∀ x ∈ xs, Ordinary size x.1 ∧ Ordinary size x.2 := by
  induction xs with
  | nil => simp [OrdinaryD]
  | cons x xs ih => obtain ⟨k, v⟩ := x; simp only [OrdinaryD, ih, List.mem_cons, forall_eq_or_imp, and_assoc]

theorem idsPL_flat (xs : List PNode) : idsPL xs = xs.flatMap idsP := by
  induction xs with
  | nil => rfl
  | cons x xs ih => simp [idsPL, ih]

theorem idsPD_flat (xs : List (PNode × PNode)) : idsPD xs = xs.flatMap fun x => idsP x.1 ++ idsP x.2 := by
  induction xs with
  | nil => rfl
  | cons x xs ih => obtain ⟨k, v⟩ := x; simp [idsPD, ih]

theorem idsHL_flat (xs : List JVal) : idsHL xs = xs.flatMap idsH := by
  induction xs with
  | nil => rfl
  | cons x xs ih => simp [idsHL, ih]

theorem idsHD_flat (xs : List (JVal × JVal)) : idsHD xs = xs.flatMap fun x => idsH x.1 ++ idsH x.2 := by
  induction xs with
  | nil => rfl
  | cons x xs ih => obtain ⟨k, v⟩ := x; simp [idsHD, ih]

theorem insideL_iff {D S : List JVal → Prop} (xs : List JVal) : InsideL D S xs ↔ ∀ x ∈ xs, Inside D S x := by
  induction xs with
  | nil => simp [InsideL]
  | cons x xs ih => simp [InsideL, ih]

theorem insideD_iff {D S : List JVal → Prop} (xs : List (JVal × JVal)) : InsideD D S xs ↔ ∀ x ∈ xs, Inside D S x.1 ∧ Inside D S x.2 := by
  induction xs with
  | nil => simp [InsideD]
  | cons x xs ih => obtain ⟨k, v⟩ := x; simp only [InsideD, ih, List.mem_cons, forall_eq_or_imp, and_assoc]

/-- Induction over values. -/
theorem JVal.induct {P : JVal → Prop} (none : P .none) (bool : ∀ b, P (.bool b)) (int : ∀ i, P (.int i)) (float : ∀ t, P (.float t))
    (str : ∀ a s, P (.str a s)) (tuple : ∀ a xs, (∀ x ∈ xs, P x) → P (.tuple a xs)) (list : ∀ a xs, (∀ x ∈ xs, P x) → P (.list a xs))
    (dict : ∀ a (kvs : List (JVal × JVal)), (∀ x ∈ kvs, P x.1 ∧ P x.2) → P (.dict a kvs)) (set : ∀ a xs, (∀ x ∈ xs, P x) → P (.set a xs))
    (fset : ∀ a xs, (∀ x ∈ xs, P x) → P (.fset a xs)) (glob : ∀ m n, P (.glob m n))
    (obj : ∀ a m n c (kvs : List (JVal × JVal)), (∀ x ∈ kvs, P x.1 ∧ P x.2) → P (.obj a m n c kvs)) (builtin : ∀ f m, P (.builtin f m))
    (unbound : ∀ f, P (.unbound f)) (meth : ∀ f x m n, P x → P (.meth f x m n)) (dtype : ∀ d, P (.dtype d)) (arr : ∀ a, P (.arr a)) (v : JVal) : P v := by
  suffices h : ∀ n v, sizeOf v < n → P v from h _ v (Nat.lt_succ_self _)
  intro n
  induction n with
  | zero => intro v h; omega
  | succ n ih =>
    intro v h
    have elems : ∀ xs : List JVal, sizeOf xs < n → ∀ x ∈ xs, P x := fun xs hx x hm => ih x (by have := List.sizeOf_lt_of_mem hm; omega)
    cases v with
    | none => exact none
    | bool b => exact bool b
    | int i => exact int i
    | float t => exact float t
    | str a s => exact str a s
    | tuple a xs => exact tuple a xs (elems xs (by simp at h; omega))
    | list a xs => exact list a xs (elems xs (by simp at h; omega))
    | set a xs => exact set a xs (elems xs (by simp at h; omega))
    | fset a xs => exact fset a xs (elems xs (by simp at h; omega))
    | dict a kvs =>
      refine dict a kvs fun x hm => ?_
      have h1 := List.sizeOf_lt_of_mem hm
      obtain ⟨k, v⟩ := x
      simp at h h1
      exact ⟨ih k (by omega), ih v (by omega)⟩
    | glob m n => exact glob m n
    | obj a m n c kvs =>
      refine obj a m n c kvs fun x hm => ?_
      have h1 := List.sizeOf_lt_of_mem hm
      obtain ⟨k, v⟩ := x
      simp at h h1
      exact ⟨ih k (by omega), ih v (by omega)⟩
    | builtin f m => exact builtin f m
    | unbound f => exact unbound f
    | meth f x m n => exact meth f x m n (ih x (by simp at h; omega))
    | dtype d => exact dtype d
    | arr a => exact arr a

/-! ### Identities -/

theorem count_flat_le {α β : Type} [DecidableEq β] {f g : α → List β} (n : β) {l : List α} (h : ∀ x ∈ l, (f x).count n ≤ (g x).count n) :
    (l.flatMap f).count n ≤ (l.flatMap g).count n := by
  induction l with
  | nil => simp
  | cons x l ih =>
    have h1 := h x (.head _)
    have h2 := ih fun x hx => h x (.tail _ hx)
    simp only [List.flatMap_cons, List.count_append]
    omega

theorem count_flat_perm {α β : Type} [DecidableEq β] {f : α → List β} (n : β) {l m : List α} (h : l.Perm m) :
    (l.flatMap f).count n = (m.flatMap f).count n := (h.flatMap_right f).count_eq n

theorem orderItems_ids (E : HashEnv) (l : List ((JVal × JVal) × (PNode × PNode))) (n : Nat) :
    (idsPD (orderItems E l)).count n ≤ (idsPD (l.map Prod.snd)).count n := by
  rw [idsPD_flat, idsPD_flat]
  unfold orderItems
  split
  · rename_i l' h
    exact Nat.le_of_eq (count_flat_perm n ((sortLt_perm h).map _))
  · rw [count_flat_perm n ((sortBy_perm _ _).map _), List.map_map, List.flatMap_map, List.flatMap_map]
    refine count_flat_le n fun x _ => ?_
    simp [idsP, List.count_append]

theorem orderElems_ids (E : HashEnv) (l : List (JVal × PNode)) (n : Nat) : (idsPL (orderElems E l)).count n ≤ (idsPL (l.map Prod.snd)).count n := by
  rw [idsPL_flat, idsPL_flat]
  unfold orderElems
  split
  · rename_i l' h
    exact Nat.le_of_eq (count_flat_perm n ((sortLt_perm h).map _))
  · rw [count_flat_perm n ((sortBy_perm _ _).map _), List.map_map, List.flatMap_map, List.flatMap_map]
    refine count_flat_le n fun x _ => ?_
    simp [idsP]

theorem arrange_ids (E : HashEnv) (n : Nat) (v : JVal) : (idsP (arrange E v)).count n ≤ (idsH v).count n := by
  have elems : ∀ xs : List JVal, (∀ x ∈ xs, (idsP (arrange E x)).count n ≤ (idsH x).count n) →
      (idsPL ((arrangeL E xs).map Prod.snd)).count n ≤ (idsHL xs).count n := by
    intro xs h
    rw [arrangeL_map, idsPL_flat, idsHL_flat, List.map_map, List.flatMap_map]
    exact count_flat_le n h
  have items : ∀ kvs : List (JVal × JVal), (∀ x ∈ kvs, (idsP (arrange E x.1)).count n ≤ (idsH x.1).count n ∧ (idsP (arrange E x.2)).count n ≤ (idsH x.2).count n) →
      (idsPD (orderItems E (arrangeD E kvs))).count n ≤ (idsHD kvs).count n := by
    intro kvs ih
    have h1 := orderItems_ids E (arrangeD E kvs) n
    have h2 : (idsPD ((arrangeD E kvs).map Prod.snd)).count n ≤ (idsHD kvs).count n := by
      rw [arrangeD_map, idsPD_flat, idsHD_flat, List.map_map, List.flatMap_map]
      refine count_flat_le n fun x hx => ?_
      have := ih x hx
      simp only [List.count_append, Function.comp]
      omega
    omega
  induction v using JVal.induct with
  | none | bool | int | float | str | glob => simp [arrange, idsP]
  | builtin | unbound => simp [arrange, myHash, idsP, idsPD, idsPL]
  | dtype => simp [arrange, dtypeNode, idsP, idsPL]
  | arr a =>
    have h1 : idsPL (a.shape.map fun d : Nat => .int d) = [] := by rw [idsPL_flat]; simp [idsP]
    have h2 : idsPL (a.strides.map .int) = [] := by rw [idsPL_flat]; simp [idsP]
    simp [arrange, arrNode, dtypeNode, idsP, idsPL, h1, h2]
  | meth f x m n ih => simpa [arrange, myHash, idsP, idsPD, idsPL, idsH] using ih
  | tuple a xs ih =>
    cases xs with
    | nil => simp [arrange, arrangeL, idsP]
    | cons x xs =>
      have := elems _ ih
      simp only [arrange, idsP, idsH]
      simp [arrangeL, List.count_cons] at this ⊢
      omega
  | list a xs ih | fset a xs ih =>
    have := elems _ ih
    simp only [arrange, idsP, idsH, List.count_cons, Option.toList, List.cons_append, List.nil_append]
    omega
  | set a xs ih =>
    have := elems _ ih
    have := orderElems_ids E (arrangeL E xs) n
    simp [arrange, consistentSet, idsP, idsPD, idsH]
    omega
  | dict a kvs ih =>
    have := items kvs ih
    simp only [arrange, idsP, idsH, List.count_cons, Option.toList, List.cons_append, List.nil_append]
    omega
  | obj a m n c kvs ih =>
    have := items kvs ih
    cases kvs with
    | nil =>
      have e : orderItems E (arrangeD E []) = [] := rfl
      simp [arrange, idsP, idsH, e]
    | cons x kvs =>
      simp only [arrange, idsP, idsH, List.count_cons, Option.toList, List.cons_append, List.nil_append, List.isEmpty_cons, Bool.false_eq_true, if_false]
      split
      · simp
      · simp only [List.count_cons]
        omega

theorem NoSharing.arrange {E : HashEnv} {v : JVal} (h : NoSharing v) : (idsP (arrange E v)).Nodup := by
  rw [List.nodup_iff_count]
  intro n
  exact Nat.le_trans (arrange_ids E n v) (List.nodup_iff_count.1 h n)

theorem nodup_flat {α β : Type} {f : α → List β} {l : List α} (h : (l.flatMap f).Nodup) {x : α} (hx : x ∈ l) : (f x).Nodup := by
  induction l with
  | nil => cases hx
  | cons y l ih =>
    rw [List.flatMap_cons, List.nodup_append] at h
    rcases List.mem_cons.1 hx with rfl | hx
    · exact h.1
    · exact ih h.2.1 hx

theorem NoSharing.elems {xs : List JVal} (h : (idsHL xs).Nodup) : ∀ x ∈ xs, NoSharing x := by
  rw [idsHL_flat] at h
  exact fun x hx => nodup_flat h hx

theorem NoSharing.tuple {a : Nat} {xs : List JVal} (h : NoSharing (.tuple a xs)) : ∀ x ∈ xs, NoSharing x := by
  cases xs with
  | nil => intro x hx; cases hx
  | cons x xs => exact NoSharing.elems (List.nodup_cons.1 (show (a :: idsHL (x :: xs)).Nodup from h)).2

theorem NoSharing.list {a : Nat} {xs : List JVal} (h : NoSharing (.list a xs)) : ∀ x ∈ xs, NoSharing x :=
  NoSharing.elems (List.nodup_cons.1 (show (a :: idsHL xs).Nodup from h)).2

theorem NoSharing.fset {a : Nat} {xs : List JVal} (h : NoSharing (.fset a xs)) : ∀ x ∈ xs, NoSharing x :=
  NoSharing.elems (List.nodup_cons.1 (show (a :: idsHL xs).Nodup from h)).2

theorem NoSharing.set {a : Nat} {xs : List JVal} (h : NoSharing (.set a xs)) : ∀ x ∈ xs, NoSharing x :=
  NoSharing.elems (show (idsHL xs).Nodup from h)

theorem NoSharing.dict {a : Nat} {kvs : List (JVal × JVal)} (h : NoSharing (.dict a kvs)) : ∀ x ∈ kvs, NoSharing x.1 ∧ NoSharing x.2 := by
  have h : (idsHD kvs).Nodup := (List.nodup_cons.1 (show (a :: idsHD kvs).Nodup from h)).2
  rw [idsHD_flat] at h
  intro x hx
  have := nodup_flat h hx
  rw [List.nodup_append] at this
  exact ⟨this.1, this.2.1⟩

theorem NoSharing.obj {a c : Nat} {m n : Str} {kvs : List (JVal × JVal)} (h : NoSharing (.obj a m n c kvs)) : ∀ x ∈ kvs, NoSharing x.1 ∧ NoSharing x.2 := by
  cases kvs with
  | nil => intro x hx; cases hx
  | cons y kvs =>
    have h : (c :: idsHD (y :: kvs)).Nodup := (List.nodup_cons.1 (show (a :: c :: idsHD (y :: kvs)).Nodup from h)).2
    exact NoSharing.dict (a := c) h

theorem NoSharing.meth {f m n : Str} {x : JVal} (h : NoSharing (.meth f x m n)) : NoSharing x := h

/-! ### Two by two -/

theorem all2_of {α : Type} {R : α → α → Prop} {l m : List α} (hl : l.length = m.length)
    (h : ∀ (i : Nat) x y, l[i]? = some x → m[i]? = some y → R x y) : All2 R l m := by
  induction l generalizing m with
  | nil =>
    cases m with
    | nil => exact .nil
    | cons => simp at hl
  | cons a l ih =>
    cases m with
    | nil => simp at hl
    | cons b m => exact .cons (h 0 a b rfl rfl) (ih (by simpa using hl) fun i x y hx hy => h (i + 1) x y (by simpa using hx) (by simpa using hy))

theorem All2.at {α : Type} {R : α → α → Prop} {l m : List α} (h : All2 R l m) (i : Nat) (x y : α) (hx : l[i]? = some x) (hy : m[i]? = some y) : R x y := by
  induction h generalizing i with
  | nil => simp at hx
  | cons hr _ ih =>
    cases i with
    | zero => simp at hx hy; subst hx hy; exact hr
    | succ i => exact ih i (by simpa using hx) (by simpa using hy)

/-- In another order. -/
theorem All2.perm {α : Type} {R : α → α → Prop} {l m m' : List α} (h : All2 R l m) (p : m.Perm m') : ∃ l', l.Perm l' ∧ All2 R l' m' := by
  induction p generalizing l with
  | nil => cases h; exact ⟨[], .refl _, .nil⟩
  | cons b _ ih =>
    cases h with
    | cons hr h =>
      obtain ⟨l', p', h'⟩ := ih h
      exact ⟨_, p'.cons _, .cons hr h'⟩
  | swap b c m =>
    cases h with
    | cons h1 h =>
      cases h with
      | cons h2 h => exact ⟨_, .swap _ _ _, .cons h2 (.cons h1 h)⟩
  | trans _ _ ih1 ih2 =>
    obtain ⟨l1, p1, h1⟩ := ih1 h
    obtain ⟨l2, p2, h2⟩ := ih2 h1
    exact ⟨l2, p1.trans p2, h2⟩

theorem All2.map_eq {α β : Type} {R : α → α → Prop} {f g : α → β} {l m : List α} (h : All2 R l m) (hf : ∀ a b, R a b → f a = g b) :
    l.map f = m.map g := by
  induction h with
  | nil => rfl
  | cons hr _ ih => simp [hf _ _ hr, ih]

theorem All2.insertLt {α : Type} {R : α → α → Prop} {lt : α → α → Option Bool} (hlt : ∀ a b c d, R a b → R c d → lt a c = lt b d) {a b : α} (hab : R a b)
    {l m : List α} (h : All2 R l m) :
    (insertLt lt a l = none ∧ insertLt lt b m = none) ∨ ∃ l' m', insertLt lt a l = some l' ∧ insertLt lt b m = some m' ∧ All2 R l' m' := by
  induction h with
  | nil => exact .inr ⟨_, _, rfl, rfl, .cons hab .nil⟩
  | cons hr h ih =>
    simp only [Whatami.insertLt, hlt _ _ _ _ hr hab]
    split
    · exact .inl ⟨rfl, rfl⟩
    · rcases ih with ⟨e1, e2⟩ | ⟨l', m', e1, e2, h'⟩
      · exact .inl ⟨by rw [e1]; rfl, by rw [e2]; rfl⟩
      · exact .inr ⟨_, _, by rw [e1]; rfl, by rw [e2]; rfl, .cons hr h'⟩
    · exact .inr ⟨_, _, rfl, rfl, .cons hab (.cons hr h)⟩

theorem All2.sortLt {α : Type} {R : α → α → Prop} {lt : α → α → Option Bool} (hlt : ∀ a b c d, R a b → R c d → lt a c = lt b d)
    {l m : List α} (h : All2 R l m) :
    (sortLt lt l = none ∧ sortLt lt m = none) ∨ ∃ l' m', sortLt lt l = some l' ∧ sortLt lt m = some m' ∧ All2 R l' m' := by
  induction h with
  | nil => exact .inr ⟨_, _, rfl, rfl, .nil⟩
  | cons hr h ih =>
    simp only [Whatami.sortLt]
    rcases ih with ⟨e1, e2⟩ | ⟨l', m', e1, e2, h'⟩
    · exact .inl ⟨by rw [e1]; rfl, by rw [e2]; rfl⟩
    · rw [e1, e2]; exact All2.insertLt hlt hr h'

theorem Sortable.ofMap {α β : Type} {lt : β → β → Option Bool} {f : α → β} {l : List α} (h : Sortable lt (l.map f)) : Sortable (fun a b => lt (f a) (f b)) l :=
  ⟨List.pairwise_map.1 h.compared, fun _ ha _ hb _ hc => h.trans _ (List.mem_map_of_mem ha) _ (List.mem_map_of_mem hb) _ (List.mem_map_of_mem hc)⟩

theorem Clashing.ofMap {α β : Type} {lt : β → β → Option Bool} {f : α → β} {l : List α} (h : Clashing lt (l.map f)) : Clashing (fun a b => lt (f a) (f b)) l := by
  obtain ⟨kind, ⟨a, ha, b, hb, hab⟩, hlt⟩ := h
  obtain ⟨a, ha', rfl⟩ := List.mem_map.1 ha
  obtain ⟨b, hb', rfl⟩ := List.mem_map.1 hb
  exact ⟨fun a => kind (f a), ⟨a, ha', b, hb', hab⟩, fun _ ha _ hb => hlt _ (List.mem_map_of_mem ha) _ (List.mem_map_of_mem hb)⟩

/-! ### Dicts and sets in any order -/

theorem nodup_key {α β : Type} {f : α → β} {l : List α} (h : (l.map f).Nodup) : ∀ x ∈ l, ∀ y ∈ l, f x = f y → x = y := by
  induction l with
  | nil => intro x hx; cases hx
  | cons a l ih =>
    rw [List.map_cons, List.nodup_cons] at h
    intro x hx y hy e
    rcases List.mem_cons.1 hx with ex | hx' <;> rcases List.mem_cons.1 hy with ey | hy'
    · rw [ex, ey]
    · exact absurd (by rw [← ex, e]; exact List.mem_map_of_mem hy') h.1
    · exact absurd (by rw [← ey, ← e]; exact List.mem_map_of_mem hx') h.1
    · exact ih h.2 x hx' y hy' e

theorem orderItems_perm {E : HashEnv} {l m : List ((JVal × JVal) × (PNode × PNode))} (p : l.Perm m)
    (h : Sortable (fun a b => E.lt a.1.1 b.1.1) l ∨
      (Clashing (fun a b => E.lt a.1.1 b.1.1) l ∧ (l.map fun x => E.digest (dumpNode x.2.1)).Nodup)) :
    orderItems E l = orderItems E m := by
  unfold orderItems
  rcases h with h | ⟨h, hn⟩
  · rw [sortLt_order h p]
    obtain ⟨l', e, _⟩ := sortLt_sorted (h.perm p)
    rw [e]
  · rw [clash_none h, clash_none (h.perm p)]
    simp only
    congr 1
    have total : ∀ a b : Str × PNode, strLe a.1 b.1 = true ∨ strLe b.1 a.1 = true := fun a b => strLe_total _ _
    have trans : ∀ a b c : Str × PNode, strLe a.1 b.1 = true → strLe b.1 c.1 = true → strLe a.1 c.1 = true := fun a b c => strLe_trans _ _ _
    refine sorted_perm_eq (le := fun a b => strLe a.1 b.1) (fun a ha b hb h1 h2 => ?_) (sortBy_sorted total trans _) (sortBy_sorted total trans _)
      ((sortBy_perm _ _).trans ((p.map _).trans (sortBy_perm _ _).symm))
    have hk := strLe_antisymm _ _ h1 h2
    obtain ⟨x, hx, rfl⟩ := List.mem_map.1 (mem_sortBy.1 ha)
    obtain ⟨y, hy, rfl⟩ := List.mem_map.1 (mem_sortBy.1 hb)
    rw [(nodup_key hn) x hx y hy hk]

theorem orderElems_perm {E : HashEnv} {l m : List (JVal × PNode)} (p : l.Perm m)
    (h : Sortable (fun a b => E.lt a.1 b.1) l ∨ Clashing (fun a b => E.lt a.1 b.1) l) : orderElems E l = orderElems E m := by
  unfold orderElems
  rcases h with h | h
  · rw [sortLt_order h p]
    obtain ⟨l', e, _⟩ := sortLt_sorted (h.perm p)
    rw [e]
  · rw [clash_none h, clash_none (h.perm p)]
    simp only
    congr 1
    exact sorted_perm_eq (le := strLe) (fun a _ b _ h1 h2 => strLe_antisymm _ _ h1 h2) (sortBy_sorted strLe_total strLe_trans _)
      (sortBy_sorted strLe_total strLe_trans _) ((sortBy_perm _ _).trans ((p.map _).trans (sortBy_perm _ _).symm))

theorem orderItems_all2 {E : HashEnv} {R : (JVal × JVal) × (PNode × PNode) → (JVal × JVal) × (PNode × PNode) → Prop}
    (hlt : ∀ a b c d, R a b → R c d → E.lt a.1.1 c.1.1 = E.lt b.1.1 d.1.1)
    (he : ∀ a b, R a b → erase a.2.1 = erase b.2.1 ∧ erase a.2.2 = erase b.2.2 ∧ dumpNode a.2.1 = dumpNode b.2.1)
    {l m : List ((JVal × JVal) × (PNode × PNode))} (h : All2 R l m) : eraseD (orderItems E l) = eraseD (orderItems E m) := by
  unfold orderItems
  rcases All2.sortLt (lt := fun a b => E.lt a.1.1 b.1.1) hlt h with ⟨e1, e2⟩ | ⟨l', m', e1, e2, h'⟩
  · rw [e1, e2]
    simp only [eraseD_map, List.map_map]
    have h2 : All2 (fun a b : Str × PNode => a.1 = b.1 ∧ erase a.2 = erase b.2) (l.map fun x => (E.digest (dumpNode x.2.1), x.2.2))
        (m.map fun x => (E.digest (dumpNode x.2.1), x.2.2)) := All2.map (fun a b hr => by obtain ⟨_, h2, h3⟩ := he a b hr; exact ⟨by simp only [h3], h2⟩) h
    exact (All2.sortBy (le := fun a b => strLe a.1 b.1) (fun a b c d hab hcd => by rw [hab.1, hcd.1]) h2).map_eq fun a b hab => by
      show (erase (.str a.1), erase a.2) = (erase (.str b.1), erase b.2)
      rw [hab.1, hab.2]
  · rw [e1, e2]
    simp only [eraseD_map, List.map_map]
    exact h'.map_eq fun a b hab => by simp [Function.comp, (he a b hab).1, (he a b hab).2.1]

theorem orderElems_all2 {E : HashEnv} {R : JVal × PNode → JVal × PNode → Prop}
    (hlt : ∀ a b c d, R a b → R c d → E.lt a.1 c.1 = E.lt b.1 d.1) (he : ∀ a b, R a b → erase a.2 = erase b.2 ∧ dumpNode a.2 = dumpNode b.2)
    {l m : List (JVal × PNode)} (h : All2 R l m) : eraseL (orderElems E l) = eraseL (orderElems E m) := by
  unfold orderElems
  rcases All2.sortLt (lt := fun a b => E.lt a.1 b.1) hlt h with ⟨e1, e2⟩ | ⟨l', m', e1, e2, h'⟩
  · rw [e1, e2]
    rw [h.map_eq (f := fun x => E.digest (dumpNode x.2)) (g := fun x => E.digest (dumpNode x.2)) fun a b hr => congrArg E.digest (he a b hr).2]
  · rw [e1, e2]
    simp only [eraseL_map, List.map_map]
    exact h'.map_eq fun a b hab => (he a b hab).1

theorem erase_arr (a : Arr) : erase (arrNode a) = arrNode a := by
  have h1 : ∀ l : List Int, eraseL (l.map .int) = l.map .int := by
    intro l; rw [eraseL_map, List.map_map]; rfl
  have h2 : ∀ l : List Nat, eraseL (l.map fun d : Nat => .int d) = l.map fun d : Nat => .int d := by
    intro l; rw [eraseL_map, List.map_map]; rfl
  simp only [arrNode, dtypeNode, erase, eraseL, h1, h2]

theorem arrange_alike {E : HashEnv} (hE : ComparesValues E) {v w : JVal} (h : Alike v w) (hv : NoSharing v) (hw : NoSharing w) (ho : AllOrderly E v) :
    erase (arrange E v) = erase (arrange E w) := by
  -- element by element
  have elems : ∀ {xs ys : List JVal}, xs.length = ys.length →
      (∀ (i : Nat) x y, xs[i]? = some x → ys[i]? = some y → NoSharing x → NoSharing y → AllOrderly E x → erase (arrange E x) = erase (arrange E y)) →
      (∀ x ∈ xs, NoSharing x) → (∀ x ∈ ys, NoSharing x) → (∀ x ∈ xs, AllOrderly E x) →
      eraseL ((arrangeL E xs).map Prod.snd) = eraseL ((arrangeL E ys).map Prod.snd) := by
    intro xs ys hl h hx hy ho
    have h2 : All2 (fun x y => erase (arrange E x) = erase (arrange E y)) xs ys :=
      all2_of hl fun i x y ex ey => h i x y ex ey (hx x (List.mem_of_getElem? ex)) (hy y (List.mem_of_getElem? ey)) (ho x (List.mem_of_getElem? ex))
    simp only [arrangeL_map, eraseL_map, List.map_map]
    exact h2.map_eq fun a b h => h
  -- item by item
  have items : ∀ {kvs kvs' l l' : List (JVal × JVal)}, kvs.Perm l → kvs'.Perm l' → l.length = l'.length →
      (∀ (i : Nat) x y, l[i]? = some x → l'[i]? = some y → Alike x.1 y.1) →
      (∀ (i : Nat) x y, l[i]? = some x → l'[i]? = some y → NoSharing x.1 → NoSharing y.1 → AllOrderly E x.1 → erase (arrange E x.1) = erase (arrange E y.1)) →
      (∀ (i : Nat) x y, l[i]? = some x → l'[i]? = some y → NoSharing x.2 → NoSharing y.2 → AllOrderly E x.2 → erase (arrange E x.2) = erase (arrange E y.2)) →
      (∀ x ∈ kvs, NoSharing x.1 ∧ NoSharing x.2) → (∀ x ∈ kvs', NoSharing x.1 ∧ NoSharing x.2) →
      (Sortable E.lt (kvs.map Prod.fst) ∨ (Clashing E.lt (kvs.map Prod.fst) ∧ ((kvs.map Prod.fst).map (hasherOf E)).Nodup)) →
      (∀ x ∈ kvs, AllOrderly E x.1 ∧ AllOrderly E x.2) →
      eraseD (orderItems E (arrangeD E kvs)) = eraseD (orderItems E (arrangeD E kvs')) := by
    intro kvs kvs' l l' pl pl' hl hk ihk ihv hv hw hs hin
    let R : JVal × JVal → JVal × JVal → Prop := fun x y => Alike x.1 y.1 ∧ erase (arrange E x.1) = erase (arrange E y.1) ∧
      erase (arrange E x.2) = erase (arrange E y.2) ∧ dumpNode (arrange E x.1) = dumpNode (arrange E y.1)
    have h2 : All2 R l l' := all2_of hl fun i x y ex ey => by
      have mx := pl.mem_iff.2 (List.mem_of_getElem? ex)
      have my := pl'.mem_iff.2 (List.mem_of_getElem? ey)
      have hx := hv x mx
      have hy := hw y my
      have he := ihk i x y ex ey hx.1 hy.1 (hin x mx).1
      exact ⟨hk i x y ex ey, he, ihv i x y ex ey hx.2 hy.2 (hin x mx).2, erase_dump hx.1.arrange hy.1.arrange he⟩
    obtain ⟨m, pm, hm⟩ := h2.perm pl'.symm
    simp only [arrangeD_map]
    have p : (kvs.map fun x => (x, (arrange E x.1, arrange E x.2))).Perm (m.map fun x => (x, (arrange E x.1, arrange E x.2))) := (pl.trans pm).map _
    rw [orderItems_perm p]
    · refine orderItems_all2 (R := fun a b => Alike a.1.1 b.1.1 ∧ erase a.2.1 = erase b.2.1 ∧ erase a.2.2 = erase b.2.2 ∧ dumpNode a.2.1 = dumpNode b.2.1)
        (fun a b c d hab hcd => hE _ _ _ _ hab.1 hcd.1) (fun a b hab => hab.2) (All2.map (f := fun x : JVal × JVal => (x, (arrange E x.1, arrange E x.2))) (fun a b hr => hr) hm)
    · rcases hs with hs | ⟨hs, hn⟩
      · exact .inl (Sortable.ofMap (f := fun x : (JVal × JVal) × (PNode × PNode) => x.1.1) (by simpa [List.map_map, Function.comp_def] using hs))
      · refine .inr ⟨Clashing.ofMap (f := fun x : (JVal × JVal) × (PNode × PNode) => x.1.1) (by simpa [List.map_map, Function.comp_def] using hs), ?_⟩
        simpa [List.map_map, Function.comp_def, hasherOf, hashDump] using hn
  induction h with
  | none | bool | int | float | str | glob | builtin | unbound | dtype => rfl
  | tuple hl _ ih =>
    simp only [arrange, erase]
    rw [elems hl ih hv.tuple hw.tuple ((insideL_iff _).1 ho)]
  | list hl _ ih =>
    simp only [arrange, erase]
    rw [elems hl ih hv.list hw.list ((insideL_iff _).1 ho)]
  | fset hl _ ih =>
    simp only [arrange, erase]
    rw [elems hl ih hv.fset hw.fset ((insideL_iff _).1 ho)]
  | @set a b xs ys l l' pl pl' hl ha ih =>
    obtain ⟨hs, hin⟩ := (show _ ∧ _ from ho)
    rw [insideL_iff] at hin
    let R : JVal → JVal → Prop := fun x y => Alike x y ∧ erase (arrange E x) = erase (arrange E y) ∧ dumpNode (arrange E x) = dumpNode (arrange E y)
    have h2 : All2 R l l' := all2_of hl fun i x y ex ey => by
      have hx := hv.set x (pl.mem_iff.2 (List.mem_of_getElem? ex))
      have hy := hw.set y (pl'.mem_iff.2 (List.mem_of_getElem? ey))
      have he := ih i x y ex ey hx hy (hin x (pl.mem_iff.2 (List.mem_of_getElem? ex)))
      exact ⟨ha i x y ex ey, he, erase_dump hx.arrange hy.arrange he⟩
    obtain ⟨m, pm, hm⟩ := h2.perm pl'.symm
    simp only [arrange, consistentSet, erase, eraseD, arrangeL_map]
    have p : (xs.map fun x => (x, arrange E x)).Perm (m.map fun x => (x, arrange E x)) := (pl.trans pm).map _
    rw [orderElems_perm p]
    · rw [orderElems_all2 (R := fun a b => Alike a.1 b.1 ∧ erase a.2 = erase b.2 ∧ dumpNode a.2 = dumpNode b.2)
        (fun a b c d hab hcd => hE _ _ _ _ hab.1 hcd.1) (fun a b hab => hab.2) (All2.map (f := fun x => (x, arrange E x)) (fun a b hr => hr) hm)]
    · rcases hs with hs | hs
      · exact .inl (Sortable.ofMap (f := Prod.fst) (by simpa [List.map_map, Function.comp_def] using hs))
      · exact .inr (Clashing.ofMap (f := Prod.fst) (by simpa [List.map_map, Function.comp_def] using hs))
  | dict pl pl' hl hk _ ihk ihv =>
    obtain ⟨hs, hin⟩ := (show _ ∧ _ from ho)
    simp only [arrange, erase]
    rw [items pl pl' hl hk ihk ihv hv.dict hw.dict hs ((insideD_iff _).1 hin)]
  | obj pl pl' hl hk _ ihk ihv =>
    obtain ⟨hs, hin⟩ := (show _ ∧ _ from ho)
    simp only [arrange, erase]
    rw [items pl pl' hl hk ihk ihv hv.obj hw.obj hs ((insideD_iff _).1 hin)]
  | meth _ ih =>
    simp only [arrange, myHash, erase, eraseD, eraseL]
    rw [ih hv.meth hw.meth ho]
  | arr ha h1 h2 h3 h4 h5 =>
    simp only [arrange, erase, erase_arr, (data_iff ha h2 h3 h4).2 h5]
    simp only [arrNode, h1, h2, h3, h4]

/-- **C65** Equal values hash alike.  Two values with the same contents are given the same hash, whatever the order in which dicts and sets
are iterated and whatever the identities: provided no object is met twice, and keys and elements can be sorted, or clearly cannot. -/
theorem c65_order {E : HashEnv} (hE : ComparesValues E) {v w : JVal} (hv : NoSharing v) (hw : NoSharing w) (ho : AllOrderly E v) (h : Alike v w) :
    hasherOf E v = hasherOf E w := by
  unfold hasherOf hashDump
  rw [erase_dump hv.arrange hw.arrange (arrange_alike hE h hv hw ho)]

theorem all2_of_map {α β : Type} {f g : α → β} : ∀ {l m : List α}, l.map f = m.map g → All2 (fun a b => f a = g b) l m
  | [], [], _ => .nil
  | [], _ :: _, h => by simp at h
  | _ :: _, [], h => by simp at h
  | a :: l, b :: m, h => by simp at h; exact .cons h.1 (all2_of_map h.2)

theorem All2.mem {α : Type} {R : α → α → Prop} {l m : List α} (h : All2 R l m) : All2 (fun a b => a ∈ l ∧ b ∈ m ∧ R a b) l m := by
  induction h with
  | nil => exact .nil
  | cons hr _ ih => exact .cons ⟨.head _, .head _, hr⟩ (ih.imp fun a b h => ⟨.tail _ h.1, .tail _ h.2.1, h.2.2⟩)

theorem orderItems_sorted {E : HashEnv} {kvs : List (JVal × JVal)} (h : Sortable E.lt (kvs.map Prod.fst)) :
    ∃ l, kvs.Perm l ∧ orderItems E (arrangeD E kvs) = l.map fun x => (arrange E x.1, arrange E x.2) := by
  rw [arrangeD_map]
  unfold orderItems
  have hs : Sortable (fun a b => E.lt a.1.1 b.1.1) (kvs.map fun x => (x, (arrange E x.1, arrange E x.2))) :=
    Sortable.ofMap (f := fun x : (JVal × JVal) × (PNode × PNode) => x.1.1) (by simpa [List.map_map, Function.comp_def] using h)
  obtain ⟨l', e, _⟩ := sortLt_sorted hs
  have p := sortLt_perm e
  refine ⟨l'.map Prod.fst, ?_, ?_⟩
  · have := p.map Prod.fst
    rw [List.map_map] at this
    simpa [Function.comp_def] using this.symm
  · rw [e]
    simp only [List.map_map]
    refine List.map_congr_left fun x hx => ?_
    obtain ⟨y, _, rfl⟩ := List.mem_map.1 (p.mem_iff.1 hx)
    rfl

theorem orderElems_sorted {E : HashEnv} {xs : List JVal} (h : Sortable E.lt xs) :
    ∃ l, xs.Perm l ∧ orderElems E (arrangeL E xs) = l.map (arrange E) := by
  rw [arrangeL_map]
  unfold orderElems
  have hs : Sortable (fun a b => E.lt a.1 b.1) (xs.map fun x => (x, arrange E x)) :=
    Sortable.ofMap (f := Prod.fst) (by simpa [List.map_map, Function.comp_def] using h)
  obtain ⟨l', e, _⟩ := sortLt_sorted hs
  have p := sortLt_perm e
  refine ⟨l'.map Prod.fst, ?_, ?_⟩
  · have := p.map Prod.fst
    rw [List.map_map] at this
    simpa [Function.comp_def] using this.symm
  · rw [e]
    simp only [List.map_map]
    refine List.map_congr_left fun x hx => ?_
    obtain ⟨y, _, rfl⟩ := List.mem_map.1 (p.mem_iff.1 hx)
    rfl

/-! ### What was hashed can be told -/

theorem data_length {a b : Arr} (hd : a.dtype = b.dtype) (hs : a.shape = b.shape) (ht : a.strides = b.strides) : a.data.length = b.data.length := by
  have hu : a.useF = b.useF := by simp only [Arr.useF, hd, hs, ht]
  rw [data_eq, data_eq, ← hu, ← hd, ← hs, ← ht]
  split <;> rw [flatten_length, flatten_length]

/-- Bytes of known lengths one after the other. -/
theorem flat_split {α : Type} {f : α → Bytes} {S : α → α → Prop} {l m : List α} (h : All2 (fun a b => (f a).length = (f b).length ∧ (f a = f b → S a b)) l m) :
    (l.flatMap f).length = (m.flatMap f).length ∧ (l.flatMap f = m.flatMap f → All2 S l m) := by
  induction h with
  | nil => exact ⟨rfl, fun _ => .nil⟩
  | cons hr _ ih =>
    simp only [List.flatMap_cons, List.length_append]
    refine ⟨by rw [hr.1, ih.1], fun e => ?_⟩
    obtain ⟨e1, e2⟩ := List.append_inj e hr.1
    exact .cons (hr.2 e1) (ih.2 e2)

/-- Only what the hasher makes of arrays and their types begins with `HASHED`. -/
theorem hashed_str {E : HashEnv} {x : JVal} {s : Str} (h : strip (arrange E x) = .str s) : ∃ id, x = .str id s := by
  cases x <;> simp [arrange, strip, consistentSet, myHash, dtypeNode, arrNode] at h
  exact ⟨_, by rw [h]⟩

theorem not_hashed {E : HashEnv} {size : Str → Nat} {x : JVal} {l : List PNode} (ho : Ordinary size x) (h : strip (arrange E x) = .tuple none (.str c!"HASHED" :: l)) : False := by
  have snd : ∀ xs, (arrangeL E xs).map Prod.snd = xs.map (arrange E) := by
    intro xs; rw [arrangeL_map, List.map_map]; rfl
  cases x <;> simp only [arrange, strip, consistentSet, myHash, dtypeNode, arrNode, stripL, reduceCtorEq, PNode.tuple.injEq, List.cons.injEq, true_and, false_and, snd] at h
  rename_i id xs
  cases xs with
  | nil => simp [stripL] at h
  | cons y xs =>
    simp only [List.map_cons, stripL, List.cons.injEq] at h
    obtain ⟨id', rfl⟩ := hashed_str h.1
    exact ho.1 id' xs rfl

/-- What is told apart from the pickle alone, and what from the data of arrays. -/
def Back (E : HashEnv) (size : Str → Nat) (v w : JVal) : Prop :=
  (fedOf (arrange E v)).length = (fedOf (arrange E w)).length ∧ (fedOf (arrange E v) = fedOf (arrange E w) → Alike v w)

theorem strip_ints (l : List Int) : stripL (l.map .int) = l.map .int := by rw [stripL_map, List.map_map]; rfl
theorem strip_nats (l : List Nat) : stripL (l.map fun d : Nat => .int d) = l.map fun d : Nat => .int d := by rw [stripL_map, List.map_map]; rfl
theorem fed_ints (l : List Int) : fedOfL (l.map .int) = [] := by rw [fedOfL_flat]; simp [fedOf]
theorem fed_nats (l : List Nat) : fedOfL (l.map fun d : Nat => .int d) = [] := by rw [fedOfL_flat]; simp [fedOf]

theorem alike_arrange {E : HashEnv} {size : Str → Nat} (v : JVal) : ∀ w, AllSortable E v → AllSortable E w → Ordinary size v → Ordinary size w →
    strip (arrange E v) = strip (arrange E w) → Back E size v w := by
  have elems : ∀ {xs ys : List JVal}, (∀ x ∈ xs, ∀ w, AllSortable E x → AllSortable E w → Ordinary size x → Ordinary size w →
        strip (arrange E x) = strip (arrange E w) → Back E size x w) →
      InsideL (Sortable E.lt) (Sortable E.lt) xs → InsideL (Sortable E.lt) (Sortable E.lt) ys → OrdinaryL size xs → OrdinaryL size ys →
      stripL (xs.map (arrange E)) = stripL (ys.map (arrange E)) →
      (fedOfL (xs.map (arrange E))).length = (fedOfL (ys.map (arrange E))).length ∧
      (fedOfL (xs.map (arrange E)) = fedOfL (ys.map (arrange E)) →
        xs.length = ys.length ∧ ∀ (i : Nat) x y, xs[i]? = some x → ys[i]? = some y → Alike x y) := by
    intro xs ys ih hx hy ox oy h
    rw [insideL_iff] at hx hy
    rw [ordinaryL_iff] at ox oy
    simp only [stripL_map, List.map_map] at h
    have h2 := (all2_of_map h).mem.imp (S := Back E size) fun a b h => ih a h.1 b (hx a h.1) (hy b h.2.1) (ox a h.1) (oy b h.2.1) h.2.2
    have h3 := flat_split (f := fun x => fedOf (arrange E x)) (S := Alike) h2
    simp only [fedOfL_flat, List.flatMap_map]
    refine ⟨h3.1, fun e => ?_⟩
    have h4 := h3.2 e
    exact ⟨h4.length, h4.at⟩
  have items : ∀ {kvs kvs' : List (JVal × JVal)}, (∀ x ∈ kvs, (∀ w, AllSortable E x.1 → AllSortable E w → Ordinary size x.1 → Ordinary size w →
        strip (arrange E x.1) = strip (arrange E w) → Back E size x.1 w) ∧ (∀ w, AllSortable E x.2 → AllSortable E w → Ordinary size x.2 → Ordinary size w →
        strip (arrange E x.2) = strip (arrange E w) → Back E size x.2 w)) →
      Sortable E.lt (kvs.map Prod.fst) → InsideD (Sortable E.lt) (Sortable E.lt) kvs →
      Sortable E.lt (kvs'.map Prod.fst) → InsideD (Sortable E.lt) (Sortable E.lt) kvs' → OrdinaryD size kvs → OrdinaryD size kvs' →
      stripD (orderItems E (arrangeD E kvs)) = stripD (orderItems E (arrangeD E kvs')) →
      (fedOfD (orderItems E (arrangeD E kvs))).length = (fedOfD (orderItems E (arrangeD E kvs'))).length ∧
      (fedOfD (orderItems E (arrangeD E kvs)) = fedOfD (orderItems E (arrangeD E kvs')) → ∃ l l', kvs.Perm l ∧ kvs'.Perm l' ∧ l.length = l'.length ∧
        (∀ (i : Nat) x y, l[i]? = some x → l'[i]? = some y → Alike x.1 y.1) ∧ ∀ (i : Nat) x y, l[i]? = some x → l'[i]? = some y → Alike x.2 y.2) := by
    intro kvs kvs' ih s1 hx s2 hy ox oy h
    obtain ⟨l, pl, el⟩ := orderItems_sorted (E := E) s1
    obtain ⟨l', pl', el'⟩ := orderItems_sorted (E := E) s2
    rw [insideD_iff] at hx hy
    rw [ordinaryD_iff] at ox oy
    rw [el, el'] at h ⊢
    simp only [stripD_map, List.map_map] at h
    have h2 := (all2_of_map h).mem.imp (S := fun x y : JVal × JVal => Back E size x.1 y.1 ∧ Back E size x.2 y.2) fun a b hab => by
      obtain ⟨ha, hb, e⟩ := hab
      simp only [Function.comp, Prod.mk.injEq] at e
      have ha := pl.mem_iff.2 ha
      have hb := pl'.mem_iff.2 hb
      exact ⟨(ih a ha).1 b.1 (hx a ha).1 (hy b hb).1 (ox a ha).1 (oy b hb).1 e.1, (ih a ha).2 b.2 (hx a ha).2 (hy b hb).2 (ox a ha).2 (oy b hb).2 e.2⟩
    have h3 := flat_split (f := fun x : JVal × JVal => fedOf (arrange E x.1) ++ fedOf (arrange E x.2)) (S := fun x y : JVal × JVal => Alike x.1 y.1 ∧ Alike x.2 y.2)
      (h2.imp fun a b hab => ⟨by rw [List.length_append, List.length_append, hab.1.1, hab.2.1], fun e => by
        obtain ⟨e1, e2⟩ := List.append_inj e hab.1.1
        exact ⟨hab.1.2 e1, hab.2.2 e2⟩⟩)
    simp only [fedOfD_flat, List.flatMap_map]
    refine ⟨h3.1, fun e => ?_⟩
    have h4 := h3.2 e
    exact ⟨l, l', pl, pl', h4.length, fun i x y ex ey => (h4.at i x y ex ey).1, fun i x y ex ey => (h4.at i x y ex ey).2⟩
  have snd : ∀ xs, (arrangeL E xs).map Prod.snd = xs.map (arrange E) := by
    intro xs; rw [arrangeL_map, List.map_map]; rfl
  induction v using JVal.induct with
  | none => intro w _ _ _ _ h; cases w <;> simp [arrange, strip, consistentSet, myHash, dtypeNode, arrNode] at h; exact ⟨rfl, fun _ => .none⟩
  | bool => intro w _ _ _ _ h; cases w <;> simp [arrange, strip, consistentSet, myHash, dtypeNode, arrNode] at h; subst h; exact ⟨rfl, fun _ => .bool _⟩
  | int => intro w _ _ _ _ h; cases w <;> simp [arrange, strip, consistentSet, myHash, dtypeNode, arrNode] at h; subst h; exact ⟨rfl, fun _ => .int _⟩
  | float => intro w _ _ _ _ h; cases w <;> simp [arrange, strip, consistentSet, myHash, dtypeNode, arrNode] at h; subst h; exact ⟨rfl, fun _ => .float _⟩
  | str => intro w _ _ _ _ h; cases w <;> simp [arrange, strip, consistentSet, myHash, dtypeNode, arrNode] at h; subst h; exact ⟨rfl, fun _ => .str _ _ _⟩
  | glob =>
    intro w _ _ _ _ h; cases w <;> simp [arrange, strip, consistentSet, myHash, dtypeNode, arrNode] at h
    obtain ⟨rfl, rfl⟩ := h; exact ⟨rfl, fun _ => .glob _ _⟩
  | builtin f m =>
    intro w _ _ _ ow h
    cases w <;> simp [arrange, strip, stripD, stripL, consistentSet, myHash, dtypeNode, arrNode] at h
    · exact absurd h.1.symm ow.1
    · obtain ⟨rfl, rfl⟩ := h; exact ⟨rfl, fun _ => .builtin _ _⟩
  | unbound f =>
    intro w _ _ _ ow h
    cases w <;> simp [arrange, strip, stripD, stripL, consistentSet, myHash, dtypeNode, arrNode] at h
    · exact absurd h.1.symm ow.1
    · subst h; exact ⟨rfl, fun _ => .unbound _⟩
  | meth f x m n ih =>
    intro w h1 h2 ov ow h
    cases w <;> simp [arrange, strip, stripD, stripL, consistentSet, myHash, dtypeNode, arrNode] at h
    · exact absurd h.1.symm ow.1
    · rename_i y m' n'
      obtain ⟨rfl, h, rfl, rfl⟩ := h
      have := ih y h1 h2 ov ow h
      simp only [Back, arrange, myHash, fedOf, fedOfD, fedOfL, List.append_nil, List.nil_append] at this ⊢
      exact ⟨this.1, fun e => .meth (this.2 e)⟩
  | dtype d =>
    intro w h1 h2 ov ow h
    cases w <;> simp only [arrange, strip, stripD, stripL, consistentSet, myHash, dtypeNode, arrNode, reduceCtorEq, PNode.tuple.injEq, List.cons.injEq, snd, and_true, true_and, and_false] at h
    · rename_i id xs
      exfalso
      rcases xs with _ | ⟨x, _ | ⟨y, xs⟩⟩ <;> simp only [List.map_cons, List.map_nil, stripL, List.cons.injEq, reduceCtorEq, and_false] at h
      exact not_hashed (ow.2.2.1) h.2.1.symm
    · rename_i d'
      obtain ⟨d1, d2⟩ := d
      obtain ⟨d1', d2'⟩ := d'
      simp only [PNode.glob.injEq, PNode.list.injEq, PNode.tuple.injEq, List.cons.injEq, PNode.str.injEq, true_and, and_true] at h
      subst h
      have e : d2 = d2' := (show d2 = size d1 from ov).trans (show d2' = size d1 from ow).symm
      subst e
      exact ⟨rfl, fun _ => .dtype _⟩
  | arr a =>
    intro w h1 h2 ov ow h
    cases w <;> simp only [arrange, strip, stripD, stripL, consistentSet, myHash, dtypeNode, arrNode, reduceCtorEq, PNode.tuple.injEq, List.cons.injEq, snd, and_true, true_and, and_false] at h
    · rename_i id xs
      exfalso
      rcases xs with _ | ⟨x, _ | ⟨y, xs⟩⟩ <;> simp only [List.map_cons, List.map_nil, stripL, List.cons.injEq, reduceCtorEq, and_false] at h
      exact not_hashed (ow.2.2.1) h.2.1.symm
    · rename_i b
      simp only [strip_ints, strip_nats, PNode.glob.injEq, PNode.list.injEq, PNode.tuple.injEq, List.cons.injEq, PNode.str.injEq, true_and, and_true] at h
      obtain ⟨hc, hd, hs, ht⟩ := h
      have hs : a.shape = b.shape := List.map_inj_right (fun x y e => by injection e with e; exact Int.ofNat.inj e) |>.1 hs
      have ht : a.strides = b.strides := List.map_inj_right (fun x y e => by injection e) |>.1 ht
      have hd : a.dtype = b.dtype := by
        have e1 := ov.2
        have e2 := ow.2
        revert e1 e2 hd
        rcases a.dtype with ⟨d1, d2⟩
        rcases b.dtype with ⟨d1', d2'⟩
        intro e e1 e2
        simp only at e e1 e2
        subst e
        rw [e1, e2]
      simp only [Back, arrange, arrNode, dtypeNode, fedOf, fedOfL, fed_ints, fed_nats, List.append_nil]
      refine ⟨data_length hd hs ht, fun e => .arr ov.1 hc hd hs ht ((data_iff ov.1 hd hs ht).1 e)⟩
  | tuple a xs ih =>
    intro w h1 h2 ov ow h
    cases w <;> simp only [arrange, strip, stripD, stripL, consistentSet, myHash, dtypeNode, arrNode, reduceCtorEq, PNode.tuple.injEq, true_and, snd] at h
    · obtain ⟨e1, e2⟩ := elems ih h1 h2 ov.2 ow.2 h
      simp only [Back, arrange, fedOf, snd]
      exact ⟨e1, fun e => .tuple (e2 e).1 (e2 e).2⟩
    all_goals
      exfalso
      rcases xs with _ | ⟨x, _ | ⟨y, xs⟩⟩ <;> simp only [List.map_cons, List.map_nil, stripL, List.cons.injEq, reduceCtorEq, and_false] at h
      exact not_hashed (ov.2.2.1) h.2.1
  | list a xs ih =>
    intro w h1 h2 ov ow h
    cases w <;> simp only [arrange, strip, consistentSet, myHash, dtypeNode, arrNode, reduceCtorEq, PNode.list.injEq, true_and, snd] at h
    obtain ⟨e1, e2⟩ := elems ih h1 h2 ov ow h
    simp only [Back, arrange, fedOf, snd]
    exact ⟨e1, fun e => .list (e2 e).1 (e2 e).2⟩
  | fset a xs ih =>
    intro w h1 h2 ov ow h
    cases w <;> simp only [arrange, strip, consistentSet, myHash, dtypeNode, arrNode, reduceCtorEq, PNode.fset.injEq, true_and, snd] at h
    obtain ⟨e1, e2⟩ := elems ih h1 h2 ov ow h
    simp only [Back, arrange, fedOf, snd]
    exact ⟨e1, fun e => .fset (e2 e).1 (e2 e).2⟩
  | set a xs ih =>
    intro w h1 h2 ov ow h
    cases w <;> simp only [arrange, strip, stripD, stripL, consistentSet, myHash, dtypeNode, arrNode, reduceCtorEq, PNode.inst.injEq, PNode.list.injEq, List.cons.injEq,
      Prod.mk.injEq, true_and, and_true, false_and, and_false] at h
    · rename_i b ys
      obtain ⟨l, pl, el⟩ := orderElems_sorted (E := E) h1.1
      obtain ⟨l', pl', el'⟩ := orderElems_sorted (E := E) h2.1
      rw [el, el'] at h
      have hx := (insideL_iff _).1 h1.2
      have hy := (insideL_iff _).1 h2.2
      have ox := (ordinaryL_iff _).1 ov
      have oy := (ordinaryL_iff _).1 ow
      obtain ⟨e1, e2⟩ := elems (fun x hx => ih x (pl.mem_iff.2 hx)) ((insideL_iff l).2 fun x h => hx x (pl.mem_iff.2 h))
        ((insideL_iff l').2 fun x h => hy x (pl'.mem_iff.2 h)) ((ordinaryL_iff l).2 fun x h => ox x (pl.mem_iff.2 h))
        ((ordinaryL_iff l').2 fun x h => oy x (pl'.mem_iff.2 h)) h
      simp only [Back, arrange, consistentSet, fedOf, fedOfD, el, el', List.append_nil, List.nil_append]
      exact ⟨e1, fun e => .set pl pl' (e2 e).1 (e2 e).2⟩
    all_goals
      first
        | exact absurd h.1.symm ow.1
        | exact absurd h.1 (by decide)
  | dict a kvs ih =>
    intro w h1 h2 ov ow h
    cases w <;> simp only [arrange, strip, consistentSet, myHash, dtypeNode, arrNode, reduceCtorEq, PNode.dict.injEq, true_and] at h
    obtain ⟨e1, e2⟩ := items ih h1.1 h1.2 h2.1 h2.2 ov ow h
    simp only [Back, arrange, fedOf]
    refine ⟨e1, fun e => ?_⟩
    obtain ⟨l, l', p, p', hl, hk, hv⟩ := e2 e
    exact .dict p p' hl hk hv
  | obj a m n c kvs ih =>
    intro w h1 h2 ov ow h
    cases w <;> simp only [arrange, strip, consistentSet, myHash, dtypeNode, arrNode, reduceCtorEq, PNode.inst.injEq, true_and] at h
    case obj =>
      obtain ⟨rfl, rfl, h⟩ := h
      obtain ⟨e1, e2⟩ := items ih h1.1 h1.2 h2.1 h2.2 ov.2 ow.2 h
      simp only [Back, arrange, fedOf]
      refine ⟨e1, fun e => ?_⟩
      obtain ⟨l, l', p, p', hl, hk, hv⟩ := e2 e
      exact .obj p p' hl hk hv
    all_goals exact absurd h.1 ov.1

/-- **C65** Different values are hashed from different data or different pickles: together these determine the value, up to order and identities. -/
theorem c65_distinguishes {E : HashEnv} {size : Str → Nat} {v w : JVal} (hv : NoSharing v) (hw : NoSharing w) (sv : AllSortable E v) (sw : AllSortable E w)
    (ov : Ordinary size v) (ow : Ordinary size w) (h : hashDump E v = hashDump E w) : Alike v w := by
  have h1 := alike_arrange v w sv sw ov ow (dump_strip hv.arrange hw.arrange (congrArg Prod.snd h))
  have h2 := congrArg Prod.fst h
  simp only [hashDump] at h2
  rw [dump_fed hv.arrange, dump_fed hw.arrange] at h2
  exact h1.2 h2

mutual
theorem inside_mono {D S D' S' : List JVal → Prop} (hD : ∀ l, D l → D' l) (hS : ∀ l, S l → S' l) : ∀ v, Inside D S v → Inside D' S' v
  | .none, _ | .bool _, _ | .int _, _ | .float _, _ | .str _ _, _ | .glob _ _, _ | .builtin _ _, _ | .unbound _, _ | .dtype _, _ | .arr _, _ => trivial
  | .tuple _ xs, h | .list _ xs, h | .fset _ xs, h => insideL_mono hD hS xs h
  | .dict _ kvs, h | .obj _ _ _ _ kvs, h => ⟨hD _ h.1, insideD_mono hD hS kvs h.2⟩
  | .meth _ x _ _, h => inside_mono hD hS x h
  | .set _ xs, h => ⟨hS _ h.1, insideL_mono hD hS xs h.2⟩
termination_by structural v => v
theorem insideL_mono {D S D' S' : List JVal → Prop} (hD : ∀ l, D l → D' l) (hS : ∀ l, S l → S' l) : ∀ xs, InsideL D S xs → InsideL D' S' xs
  | [], _ => trivial
  | x :: xs, h => ⟨inside_mono hD hS x h.1, insideL_mono hD hS xs h.2⟩
termination_by structural xs => xs
theorem insideD_mono {D S D' S' : List JVal → Prop} (hD : ∀ l, D l → D' l) (hS : ∀ l, S l → S' l) : ∀ xs, InsideD D S xs → InsideD D' S' xs
  | [], _ => trivial
  | (k, v) :: xs, h => ⟨inside_mono hD hS k h.1, inside_mono hD hS v h.2.1, insideD_mono hD hS xs h.2.2⟩
termination_by structural xs => xs
end

/-- **C65** Where everything can be sorted and the hash function does not collide, hashes are equal exactly if the values are. -/
theorem c65_iff {E : HashEnv} (hE : ComparesValues E) {size : Str → Nat} {v w : JVal} (hv : NoSharing v) (hw : NoSharing w) (sv : AllSortable E v)
    (sw : AllSortable E w) (ov : Ordinary size v) (ow : Ordinary size w)
    (hd : E.digest (hashDump E v) = E.digest (hashDump E w) → hashDump E v = hashDump E w) : hasherOf E v = hasherOf E w ↔ Alike v w :=
  ⟨fun h => c65_distinguishes hv hw sv sw ov ow (hd h), c65_order hE hv hw (inside_mono (fun _ => .inl) (fun _ => .inl) v sv)⟩

/-- **C65** The same of the bytes that go to the hash function: those of the arrays, then the encoded pickle.  Neither pickle may be the end of the other. -/
theorem c65_bytes {E : HashEnv} (hE : ComparesValues E) {size : Str → Nat} {md5 : Bytes → Str} {enc : List PTok → Bytes}
    (hdig : ∀ d, E.digest d = md5 (d.1 ++ enc d.2)) (henc : ∀ t u, enc t = enc u → t = u) {v w : JVal} (hv : NoSharing v) (hw : NoSharing w)
    (sv : AllSortable E v) (sw : AllSortable E w) (ov : Ordinary size v) (ow : Ordinary size w)
    (h1 : ¬ ∃ b, b ≠ [] ∧ enc (hashDump E v).2 = b ++ enc (hashDump E w).2) (h2 : ¬ ∃ b, b ≠ [] ∧ enc (hashDump E w).2 = b ++ enc (hashDump E v).2)
    (hmd5 : md5 ((hashDump E v).1 ++ enc (hashDump E v).2) = md5 ((hashDump E w).1 ++ enc (hashDump E w).2) →
      (hashDump E v).1 ++ enc (hashDump E v).2 = (hashDump E w).1 ++ enc (hashDump E w).2) : hasherOf E v = hasherOf E w ↔ Alike v w := by
  refine c65_iff hE hv hw sv sw ov ow fun h => ?_
  rw [hdig, hdig] at h
  have e := hmd5 h
  rcases List.append_eq_append_iff.1 e with ⟨b, e1, e2⟩ | ⟨b, e1, e2⟩
  · rcases b with _ | ⟨x, b⟩
    · exact Prod.ext (by rw [e1, List.append_nil]) (henc _ _ e2)
    · exact absurd ⟨_, by simp, e2⟩ h1
  · rcases b with _ | ⟨x, b⟩
    · exact Prod.ext (by rw [e1, List.append_nil]) (henc _ _ e2.symm)
    · exact absurd ⟨_, by simp, e2⟩ h2

/-! ### Where it fails -/

theorem standIn_strip (E : HashEnv) (i j k l : Nat) (a : Arr) : strip (arrange E (standIn i j k l a)) = strip (arrange E (.arr a)) ∧
    fedOf (arrange E (standIn i j k l a)) = [] ∧ fedOf (arrange E (.arr a)) = a.data := by
  have h1 : ∀ l : List Int, (arrangeL E (l.map JVal.int)).map Prod.snd = l.map .int := by
    intro l; rw [arrangeL_map, List.map_map, List.map_map]; rfl
  have h2 : ∀ l : List Nat, (arrangeL E (l.map fun d : Nat => JVal.int d)).map Prod.snd = l.map fun d : Nat => .int d := by
    intro l; rw [arrangeL_map, List.map_map, List.map_map]; rfl
  refine ⟨?_, ?_, ?_⟩ <;>
    simp only [standIn, arrange, arrangeL, arrNode, dtypeNode, strip, stripL, fedOf, fedOfL, List.map_cons, List.map_nil, h1, h2, fed_ints, fed_nats, List.append_nil]

theorem standIn_ids {i j k l : Nat} {a : Arr} {n : Nat} (h : n ∈ idsH (standIn i j k l a)) : n = i ∨ n = j ∨ n = k ∨ n = l := by
  have h1 : ∀ l : List Int, idsHL (l.map JVal.int) = [] := by
    intro l; rw [idsHL_flat]; simp [idsH]
  have h2 : ∀ l : List Nat, idsHL (l.map fun d : Nat => JVal.int d) = [] := by
    intro l; rw [idsHL_flat]; simp [idsH]
  simp only [standIn, idsH, idsHL, h1, h2, List.isEmpty_cons, Bool.false_eq_true, if_false, List.append_nil, List.nil_append, List.mem_cons, List.mem_append] at h
  rcases h with h | h | h | h
  · exact .inl h
  · exact .inr (.inl h)
  · split at h
    · cases h
    · simp at h; exact .inr (.inr (.inl h))
  · split at h
    · cases h
    · simp at h; exact .inr (.inr (.inr h))

theorem standIn_nodup {i j k l : Nat} (h : [i, j, k, l].Nodup) (a : Arr) : NoSharing (standIn i j k l a) := by
  have h1 : ∀ l : List Int, idsHL (l.map JVal.int) = [] := by
    intro l; rw [idsHL_flat]; simp [idsH]
  have h2 : ∀ l : List Nat, idsHL (l.map fun d : Nat => JVal.int d) = [] := by
    intro l; rw [idsHL_flat]; simp [idsH]
  simp only [NoSharing, standIn, idsH, idsHL, h1, h2, List.isEmpty_cons, Bool.false_eq_true, if_false, List.append_nil, List.nil_append]
  simp at h
  split <;> split <;> simp <;> omega

/-- **C65, finding** An array without data is hashed like the tuple that stands for it. -/
theorem c65_empty_array (E : HashEnv) {a : Arr} (ha : a.data = []) : ¬ Alike (.arr a) (standIn 0 1 2 3 a) ∧ hasherOf E (.arr a) = hasherOf E (standIn 0 1 2 3 a) := by
  refine ⟨fun h => (by cases h), ?_⟩
  obtain ⟨h1, h2, h3⟩ := standIn_strip E 0 1 2 3 a
  have hn : NoSharing (.arr a) := by simp [NoSharing, idsH]
  unfold hasherOf hashDump
  rw [strip_dump hn.arrange (standIn_nodup (by decide) a).arrange h1.symm (by rw [h2, h3, ha])]

/-- **C65, finding** Where an array is inside a value is not hashed: it may change places with the tuple that stands for it. -/
theorem c65_swapped (E : HashEnv) (a : Arr) : ¬ Alike (.list 4 [.arr a, standIn 0 1 2 3 a]) (.list 4 [standIn 0 1 2 3 a, .arr a]) ∧
    hasherOf E (.list 4 [.arr a, standIn 0 1 2 3 a]) = hasherOf E (.list 4 [standIn 0 1 2 3 a, .arr a]) := by
  constructor
  · intro h
    cases h with
    | list _ h => have := h 0 _ _ rfl rfl; cases this
  · obtain ⟨h1, h2, h3⟩ := standIn_strip E 0 1 2 3 a
    have hs := standIn_nodup (i := 0) (j := 1) (k := 2) (l := 3) (by decide) a
    have hm : 4 ∉ idsH (standIn 0 1 2 3 a) := fun h => by have := standIn_ids h; omega
    have n1 : NoSharing (.list 4 [.arr a, standIn 0 1 2 3 a]) := by
      simp only [NoSharing, idsH, idsHL, List.nil_append, List.append_nil]
      exact List.nodup_cons.2 ⟨hm, hs⟩
    have n2 : NoSharing (.list 4 [standIn 0 1 2 3 a, .arr a]) := by
      simp only [NoSharing, idsH, idsHL, List.append_nil]
      exact List.nodup_cons.2 ⟨hm, hs⟩
    unfold hasherOf hashDump
    rw [strip_dump n1.arrange n2.arrange]
    · rw [arrange, arrange, arrangeL, arrangeL, arrangeL, arrangeL, arrangeL, arrangeL]
      simp only [List.map_cons, List.map_nil, strip, stripL, h1]
    · rw [arrange, arrange, arrangeL, arrangeL, arrangeL, arrangeL, arrangeL, arrangeL]
      simp only [List.map_cons, List.map_nil, fedOf, fedOfL, h2, h3, List.append_nil, List.nil_append]


/-- **C65, finding** Equal values may hash differently: `[x, x]` and `[x, y]`, `x` and `y` being equal lists. -/
theorem c65_sharing : ∃ v w, Alike v w ∧ ∀ E, hashDump E v ≠ hashDump E w := by
  refine ⟨.list 0 [.list 1 [], .list 1 []], .list 0 [.list 1 [], .list 2 []], .list rfl ?_, fun E => ?_⟩
  · have h : ∀ (a b : Nat), Alike (.list a []) (.list b []) := fun a b => .list rfl (by simp)
    intro i x y hx hy
    rcases i with _ | _ | i
    · simp at hx hy; subst hx hy; exact h _ _
    · simp at hx hy; subst hx hy; exact h _ _
    · simp at hx
  · have e1 : hashDump E (.list 0 [.list 1 [], .list 1 []]) =
      ([], [.emptyList, .memoize, .mark, .emptyList, .memoize, .get 1, .appends, .stop]) := rfl
    have e2 : hashDump E (.list 0 [.list 1 [], .list 2 []]) =
      ([], [.emptyList, .memoize, .mark, .emptyList, .memoize, .emptyList, .memoize, .appends, .stop]) := rfl
    rw [e1, e2]
    decide

/-- **C65, finding** Different values may hash alike: a dict whose keys cannot be compared, and the dict with the hashes of its keys as keys. -/
theorem c65_collision {E : HashEnv} (hs : ∀ i j s t, E.lt (.str i s) (.str j t) = some (strLe s t && !(s == t)))
    (hi : ∀ i j s, E.lt (.int i) (.str j s) = none ∧ E.lt (.str j s) (.int i) = none) (i : Int) (s : Str) :
    ∃ v w, v = .dict 0 [(.int i, .none), (.str 1 s, .none)] ∧ ¬ Alike v w ∧ hasherOf E v = hasherOf E w := by
  refine ⟨_, .dict 0 [(.str 1 (hasherOf E (.int i)), .none), (.str 2 (hasherOf E (.str 1 s)), .none)], rfl, fun h => ?_, ?_⟩
  · cases h with
    | @dict _ _ _ _ l l' pl pl' hl hk _ =>
      have hm := pl.mem_iff.1 (List.mem_cons_self (a := (JVal.int i, JVal.none)) (l := [(JVal.str 1 s, JVal.none)]))
      obtain ⟨n, hn, e⟩ := List.getElem_of_mem hm
      have hn' : n < l'.length := hl ▸ hn
      have := hk n _ _ (List.getElem?_eq_getElem hn) (List.getElem?_eq_getElem hn')
      rw [e] at this
      have hm' := pl'.mem_iff.2 (List.getElem_mem hn')
      generalize l'[n] = z at this hm'
      simp at hm'
      rcases hm' with rfl | rfl <;> cases this
  · generalize h1 : hasherOf E (.int i) = a
    generalize h2 : hasherOf E (.str 1 s) = b
    have h1' : E.digest (dumpNode (.int i)) = a := h1
    have h2' : E.digest (dumpNode (.str s)) = b := h2
    unfold hasherOf hashDump
    congr 2
    simp only [arrange, arrangeD, orderItems, sortLt, insertLt, (hi _ _ _).2, hs, Option.bind, Option.map, List.map, h1', h2', sortBy, insertBy]
    rcases hab : strLe a b with _ | _
    · have hba : strLe b a = true := (strLe_total a b).resolve_left (by simp [hab])
      have hne : (b == a) = false := by
        rw [beq_eq_false_iff_ne]; rintro rfl; rw [strLe_refl] at hab; cases hab
      simp [hba, hne]
    · rcases hba : strLe b a with _ | _
      · simp
      · have := strLe_antisymm _ _ hab hba
        subst this
        simp

/-- **C65, finding** Frozensets are pickled in the order of their iteration. -/
theorem c65_frozenset {E : HashEnv} {size : Str → Nat} {x y : JVal} (a : Nat) (hn : NoSharing (.fset a [x, y])) (hn' : NoSharing (.fset a [y, x])) (hx : AllSortable E x)
    (hy : AllSortable E y) (ox : Ordinary size x) (oy : Ordinary size y) (h : ¬ Alike x y) : hashDump E (.fset a [x, y]) ≠ hashDump E (.fset a [y, x]) := by
  intro e
  have := c65_distinguishes hn hn' (E := E) ⟨hx, hy, trivial⟩ ⟨hy, hx, trivial⟩ ⟨ox, oy, trivial⟩ ⟨oy, ox, trivial⟩ e
  cases this with
  | fset _ hp => exact h (hp 0 x y rfl rfl)

/-- **C65, finding** A set of which two elements are neither smaller (such as two frozensets, compared by inclusion) keeps their order of iteration. -/
theorem c65_partial_order {E : HashEnv} {size : Str → Nat} {x y : JVal} (a : Nat) (hxy : E.lt x y = some false) (hyx : E.lt y x = some false)
    (hn : NoSharing (.set a [x, y])) (hn' : NoSharing (.set a [y, x])) (hx : AllSortable E x) (hy : AllSortable E y)
    (ox : Ordinary size x) (oy : Ordinary size y) (h : ¬ Alike x y) : hashDump E (.set a [x, y]) ≠ hashDump E (.set a [y, x]) := by
  intro e
  have h1 := dump_strip hn.arrange hn'.arrange (congrArg Prod.snd e)
  have h2 := congrArg Prod.fst e
  simp only [hashDump] at h2
  rw [dump_fed hn.arrange, dump_fed hn'.arrange] at h2
  simp only [arrange, arrangeL, orderElems, sortLt, insertLt, hxy, hyx, Option.bind, List.map, consistentSet, strip, stripL, stripD, fedOf, fedOfL, fedOfD,
    PNode.inst.injEq, PNode.list.injEq, Prod.mk.injEq, List.cons.injEq, true_and, and_true, List.append_nil, List.nil_append] at h1 h2
  obtain ⟨hl, hb⟩ := alike_arrange x y hx hy ox oy h1.1
  exact h (hb (List.append_inj h2 hl).1)

/-! ### An example -/

instance (v : JVal) : Decidable (NoSharing v) := inferInstanceAs (Decidable (idsH v).Nodup)

/-- Numbers compare with numbers, strings with strings; the "hash" is the length of the pickle. -/
def exHash : HashEnv where
  lt
    | .int i, .int j => some (decide (i < j))
    | .str _ s, .str _ t => some (strLe s t && !(s == t))
    | _, _ => none
  digest d := List.replicate d.2.length 'a'

theorem exHash_values : ComparesValues exHash := by
  intro a a' b b' h h'
  cases h <;> cases h' <;> rfl

/-- A model with weights `[[1, 2, 3], [4, 5, 6]]`, the method `pop` of `[1]`, its type of elements and the class of a loss. -/
def exModel (i : Nat) (a : Arr) : JVal :=
  .obj i c!"lib" c!"Model" (i + 1) [(.str i c!"w", .arr a), (.str i c!"f", .tuple (i + 2) [.meth c!"pop" (.list (i + 3) [.int 1]) c!"builtins" c!"list", .dtype ⟨c!"|u1", 1⟩, .glob c!"lib" c!"Loss"])]

/-- `{'b': [2, model], 'a': {3, 1}}`. -/
def exHashed : JVal := .dict 0 [(.str 1 c!"b", .list 2 [.int 2, exModel 10 exMatC]), (.str 3 c!"a", .set 4 [.int 3, .int 1])]

/-- `{'a': {1, 3}, 'b': [2, model]}`, made elsewhere, the weights also elsewhere in memory. -/
def exHashed' : JVal := .dict 9 [(.str 8 c!"a", .set 7 [.int 1, .int 3]), (.str 6 c!"b", .list 5 [.int 2, exModel 20 { exMatC with start := 1, memory := exMem [9, 1, 2, 3, 4, 5, 6] }])]

/-- `{1: None, (1,): None}`, which cannot be sorted. -/
def exUnsorted : JVal := .dict 0 [(.int 1, .none), (.tuple 1 [.int 1], .none)]

theorem exHashed_sortable : AllSortable exHash exHashed ∧ AllSortable exHash exHashed' := by
  have h1 : ∀ i j : Int, i ≠ j → Sortable exHash.lt [.int i, .int j] := by
    intro i j hij
    constructor
    · simp [exHash]; omega
    · intro a ha b hb c hc
      simp at ha hb hc
      rcases ha with rfl | rfl <;> rcases hb with rfl | rfl <;> rcases hc with rfl | rfl <;> simp [exHash] <;> omega
  have h2 : ∀ i j : Nat, Sortable exHash.lt [.str i c!"b", .str j c!"a"] ∧ Sortable exHash.lt [.str i c!"w", .str j c!"f"] := by
    intro i j
    constructor <;> constructor
    · simp; right; exact ⟨rfl, rfl⟩
    · intro a ha b hb c hc
      simp at ha hb hc
      rcases ha with rfl | rfl <;> rcases hb with rfl | rfl <;> rcases hc with rfl | rfl <;> intro h h' <;>
        first | exact h | exact h' | exact absurd (show some false = some true from h) (by decide) | exact absurd (show some false = some true from h') (by decide)
    · simp; right; exact ⟨rfl, rfl⟩
    · intro a ha b hb c hc
      simp at ha hb hc
      rcases ha with rfl | rfl <;> rcases hb with rfl | rfl <;> rcases hc with rfl | rfl <;> intro h h' <;>
        first | exact h | exact h' | exact absurd (show some false = some true from h) (by decide) | exact absurd (show some false = some true from h') (by decide)
  have h3 : ∀ i a, AllSortable exHash (exModel i a) := fun i a => ⟨(h2 i i).2, trivial, trivial, trivial, ⟨⟨trivial, trivial⟩, trivial, trivial, trivial⟩, trivial⟩
  exact ⟨⟨(h2 _ _).1, trivial, ⟨trivial, h3 _ _, trivial⟩, trivial, ⟨h1 _ _ (by decide), trivial, trivial, trivial⟩, trivial⟩,
    ⟨(h2 6 8).1.perm (.swap _ _ _), trivial, ⟨h1 _ _ (by decide), trivial, trivial, trivial⟩, trivial, ⟨trivial, h3 _ _, trivial⟩, trivial⟩⟩

theorem exHashed_ordinary : Ordinary (fun _ => 1) exHashed ∧ Ordinary (fun _ => 1) exHashed' := by
  have h : ∀ i a, a.Ok ∧ a.dtype.itemsize = 1 → Ordinary (fun _ => 1) (exModel i a) := fun i a ha =>
    ⟨by decide, trivial, ha, trivial, ⟨fun _ _ e => by simp at e, ⟨trivial, trivial⟩, rfl, trivial, trivial⟩, trivial⟩
  exact ⟨⟨trivial, ⟨trivial, h _ _ ⟨rfl, rfl⟩, trivial⟩, trivial, ⟨trivial, trivial, trivial⟩, trivial⟩,
    ⟨trivial, ⟨trivial, trivial, trivial⟩, trivial, ⟨trivial, h _ _ ⟨rfl, rfl⟩, trivial⟩, trivial⟩⟩

/-- The hypotheses of `c65_order` and `c65_iff` are met. -/
example : NoSharing exHashed ∧ NoSharing exHashed' ∧ AllSortable exHash exHashed ∧ AllSortable exHash exHashed' ∧ hashDump exHash exHashed = hashDump exHash exHashed' :=
  ⟨by decide, by decide, exHashed_sortable.1, exHashed_sortable.2, by decide +kernel⟩

example : Alike exHashed exHashed' :=
  c65_distinguishes (E := exHash) (by decide) (by decide) exHashed_sortable.1 exHashed_sortable.2 exHashed_ordinary.1 exHashed_ordinary.2 (by decide +kernel)

/-! An encoding of pickles, and a hash function that does not collide. -/

def exTok : PTok → List Nat
  | .none => [0]
  | .bool b => [1, b.toNat]
  | .int i => [2, if i < 0 then 1 else 0, i.natAbs]
  | .float t => 3 :: t.length :: t.map Char.toNat
  | .str t => 4 :: t.length :: t.map Char.toNat
  | .mark => [5]
  | .emptyTuple => [6]
  | .tupleN n => [7, n]
  | .tuple => [8]
  | .emptyList => [9]
  | .append => [10]
  | .appends => [11]
  | .emptyDict => [12]
  | .setitem => [13]
  | .setitems => [14]
  | .frozenset => [15]
  | .memoize => [16]
  | .get i => [17, i]
  | .stackGlobal => [18]
  | .newobj => [19]
  | .build => [20]
  | .stop => [21]

theorem exTok_prefix {t u : PTok} {a b : List Nat} (h : exTok t ++ a = exTok u ++ b) : t = u ∧ a = b := by
  have hc : ∀ {x y : Str}, x.map Char.toNat = y.map Char.toNat → x = y := fun h => (List.map_inj_right fun c d e => Char.toNat_inj.1 e).1 h
  cases t <;> cases u <;> simp [exTok] at h <;> try exact ⟨rfl, h⟩
  · obtain ⟨h1, h2⟩ := h
    rename_i x y
    cases x <;> cases y <;> simp at h1 <;> exact ⟨rfl, h2⟩
  · obtain ⟨h1, h2, h3⟩ := h
    refine ⟨?_, h3⟩
    congr 1
    split at h1 <;> split at h1 <;> omega
  · obtain ⟨h1, h2⟩ := h
    obtain ⟨h3, h4⟩ := List.append_inj h2 (by simpa using h1)
    exact ⟨by rw [hc h3], h4⟩
  · obtain ⟨h1, h2⟩ := h
    obtain ⟨h3, h4⟩ := List.append_inj h2 (by simpa using h1)
    exact ⟨by rw [hc h3], h4⟩
  · exact ⟨by rw [h.1], h.2⟩
  · exact ⟨by rw [h.1], h.2⟩

theorem exToks_inj : ∀ {t u : List PTok}, t.flatMap exTok = u.flatMap exTok → t = u
  | [], [], _ => rfl
  | [], u :: _, h => by cases u <;> simp [exTok] at h
  | t :: _, [], h => by cases t <;> simp [exTok] at h
  | t :: ts, u :: us, h => by
    simp only [List.flatMap_cons] at h
    obtain ⟨rfl, h'⟩ := exTok_prefix h
    rw [exToks_inj h']

def exNats : List Nat → Bytes
  | [] => []
  | n :: l => List.replicate n 1 ++ 0 :: exNats l

theorem exNat_prefix : ∀ {m n : Nat} {a b : Bytes}, List.replicate m 1 ++ 0 :: a = List.replicate n 1 ++ 0 :: b → m = n ∧ a = b
  | 0, 0, _, _, h => ⟨rfl, by simpa using h⟩
  | 0, n + 1, _, _, h => by simp [List.replicate_succ] at h
  | m + 1, 0, _, _, h => by simp [List.replicate_succ] at h
  | m + 1, n + 1, a, b, h => by
    simp only [List.replicate_succ, List.cons_append, List.cons.injEq, true_and] at h
    have := exNat_prefix h
    exact ⟨by rw [this.1], this.2⟩

theorem exNats_inj : ∀ {l m : List Nat}, exNats l = exNats m → l = m
  | [], [], _ => rfl
  | [], m :: _, h => by cases m <;> simp [exNats, List.replicate_succ] at h
  | l :: _, [], h => by cases l <;> simp [exNats, List.replicate_succ] at h
  | l :: ls, m :: ms, h => by
    obtain ⟨rfl, h'⟩ := exNat_prefix h
    rw [exNats_inj h']

def exEncode (t : List PTok) : Bytes := exNats (t.flatMap exTok)
def exMd5 (b : Bytes) : Str := b.map fun x => ⟨x.toUInt32, .inl (by have := x.toNat_lt; simp [UInt32.lt_iff_toNat_lt]; omega)⟩

theorem exMd5_inj {a b : Bytes} (h : exMd5 a = exMd5 b) : a = b := by
  refine (List.map_inj_right fun x y e => ?_).1 h
  exact UInt8.toUInt32_inj.1 (congrArg Char.val e)

/-- The same with this hash function. -/
def exBytes : HashEnv := { exHash with digest := fun d => exMd5 (d.1 ++ exEncode d.2) }

/-- `exHashed` with other weights. -/
def exOther : JVal := .dict 0 [(.str 1 c!"b", .list 2 [.int 2, exModel 10 { exMatC with memory := exMem [1, 2, 3, 4, 5, 7] }]), (.str 3 c!"a", .set 4 [.int 3, .int 1])]

/-- The hypotheses of `c65_bytes` are met: other weights give another hash, the same elsewhere in memory do not. -/
example : (hasherOf exBytes exHashed = hasherOf exBytes exHashed' ↔ Alike exHashed exHashed') ∧ (hasherOf exBytes exHashed = hasherOf exBytes exOther ↔ Alike exHashed exOther) := by
  have so : AllSortable exHash exOther := by
    refine ⟨exHashed_sortable.1.1, trivial, ⟨trivial, ?_, trivial⟩, exHashed_sortable.1.2.2.2⟩
    exact exHashed_sortable.1.2.2.1.2.1
  have oo : Ordinary (fun _ => 1) exOther := exHashed_ordinary.1
  have len : ∀ {a b c : Bytes}, a = c ++ b → c ≠ [] → a.length = b.length → False := by
    intro a b c h hc hl
    have := congrArg List.length h
    simp at this
    have : c.length = 0 := by omega
    exact hc (by simpa using this)
  have e1 : hashDump exBytes exHashed = hashDump exBytes exHashed' := by decide +kernel
  have e2 : (hashDump exBytes exHashed).2 = (hashDump exBytes exOther).2 := by decide +kernel
  constructor
  · exact c65_bytes (E := exBytes) (by exact exHash_values) (fun _ => rfl) (fun t u h => exToks_inj (exNats_inj h)) (by decide) (by decide) exHashed_sortable.1 exHashed_sortable.2
      exHashed_ordinary.1 exHashed_ordinary.2 (by rw [e1]; rintro ⟨b, h, e⟩; exact len e h rfl) (by rw [e1]; rintro ⟨b, h, e⟩; exact len e h rfl) exMd5_inj
  · exact c65_bytes (E := exBytes) (by exact exHash_values) (fun _ => rfl) (fun t u h => exToks_inj (exNats_inj h)) (by decide) (by decide) exHashed_sortable.1 so
      exHashed_ordinary.1 oo (by rw [e2]; rintro ⟨b, h, e⟩; exact len e h rfl) (by rw [e2]; rintro ⟨b, h, e⟩; exact len e h rfl) exMd5_inj

/-- Keys that cannot be compared. -/
example : NoSharing exUnsorted ∧ AllOrderly exHash exUnsorted ∧ ¬ AllSortable exHash exUnsorted := by
  refine ⟨by decide, ⟨.inr ⟨⟨fun | .int _ => 0 | _ => 1, ⟨.int 1, by simp, .tuple 1 [.int 1], by simp, by simp⟩, ?_⟩, by decide +kernel⟩, ?_⟩, ?_⟩
  · intro a ha b hb hne
    simp at ha hb
    rcases ha with rfl | rfl <;> rcases hb with rfl | rfl <;> simp at hne <;> rfl
  · exact ⟨trivial, trivial, ⟨trivial, trivial⟩, trivial, trivial⟩
  · intro h
    have := h.1.compared
    simp [exHash] at this

/-- Those of `c65_collision`, `c65_frozenset` and `c65_partial_order`. -/
example : (∀ i j s t, exHash.lt (.str i s) (.str j t) = some (strLe s t && !(s == t))) ∧
    (∀ i j s, exHash.lt (.int i) (.str j s) = none ∧ exHash.lt (.str j s) (.int i) = none) :=
  ⟨fun _ _ _ _ => rfl, fun _ _ _ => ⟨rfl, rfl⟩⟩
example : NoSharing (.fset 0 [.int 1, .int 2]) ∧ NoSharing (.fset 0 [.int 2, .int 1]) ∧ ¬ Alike (.int 1) (.int 2) :=
  ⟨by decide, by decide, fun h => by cases h⟩
example (E : HashEnv) : NoSharing (.set 0 [.fset 1 [.int 1], .fset 2 [.int 2]]) ∧ NoSharing (.set 0 [.fset 2 [.int 2], .fset 1 [.int 1]]) ∧
    AllSortable E (.fset 1 [.int 1]) ∧ AllSortable E (.fset 2 [.int 2]) ∧ ¬ Alike (.fset 1 [.int 1]) (.fset 2 [.int 2]) :=
  ⟨by decide, by decide, ⟨trivial, trivial⟩, ⟨trivial, trivial⟩, fun h => by
    cases h with
    | fset _ hp => have := hp 0 _ _ rfl rfl; cases this⟩

end Whatami
