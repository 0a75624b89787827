import Verif.Spec.HashGraph
import Verif.Props.HashFail

/-
C105: hashing values that contain themselves.
-/
namespace Whatami

section
variable {mem mem' : Nat → HCell}

/-! ### The size of the stack -/

theorem saveSeq_mono {α γ : Type} {f g : α → PState → Option (γ × PState)} (h : ∀ x s r, f x s = some r → g x s = some r) :
    ∀ (xs : List α) (s : PState) (r : List γ × PState), saveSeq f xs s = some r → saveSeq g xs s = some r
  | [], _, _, e => e
  | x :: xs, s, r, e => by
      simp only [saveSeq] at e ⊢
      cases ef : f x s with
      | none => rw [ef] at e; cases e
      | some a =>
        rw [ef] at e
        rw [h _ _ _ ef]
        simp only [Option.bind_some] at e ⊢
        cases es : saveSeq f xs a.2 with
        | none => rw [es] at e; cases e
        | some b => rw [es] at e; rw [saveSeq_mono h xs _ _ es]; exact e

theorem map_mono {α β : Type} {o o' : Option α} {g : α → β} {r : β} (h : ∀ r, o = some r → o' = some r) (e : o.map g = some r) : o'.map g = some r := by
  cases o with
  | none => cases e
  | some x => rw [h x rfl]; exact e

theorem saveGraph_mono : ∀ (f a : Nat) (s : PState) (r : List PTok × PState), saveGraph mem f a s = some r → saveGraph mem (f + 1) a s = some r
  | 0, _, _, _, e => by cases e
  | f + 1, a, s, r, e => by
      have ih := saveGraph_mono f
      rw [saveGraph] at e ⊢
      cases hc : mem a with
      | none | int | str | glob => rw [hc] at e; exact e
      | list xs =>
        rw [hc] at e
        dsimp only at e ⊢
        cases hf : s.find (some a) with
        | some i => rw [hf] at e; exact e
        | none => rw [hf] at e; exact map_mono (saveSeq_mono ih _ _) e
      | dict kvs =>
        rw [hc] at e
        dsimp only at e ⊢
        cases hf : s.find (some a) with
        | some i => rw [hf] at e; exact e
        | none => rw [hf] at e; exact map_mono (saveSeq_mono (fun kv s r => map_mono (ih kv.2 s)) _ _) e
      | obj m n d =>
        rw [hc] at e
        dsimp only at e ⊢
        cases hf : s.find (some a) with
        | some i => rw [hf] at e; exact e
        | none =>
          rw [hf] at e
          dsimp only at e ⊢
          split
          · next h => rw [if_pos h] at e; exact e
          · next h => rw [if_neg h] at e; exact map_mono (ih d _) e

theorem saveGraph_le {f g : Nat} (h : f ≤ g) {a : Nat} {s : PState} {r : List PTok × PState} (e : saveGraph mem f a s = some r) :
    saveGraph mem g a s = some r := by
  induction h with
  | refl => exact e
  | step _ ih => exact saveGraph_mono _ _ _ _ ih

theorem hashGraph_ok {D : Dump → Str} {n a : Nat} {t : Str} : hashGraph D mem n a = .ok t ↔ ∃ r, saveGraph mem n a {} = some r ∧ D (r.2.fed, r.1 ++ [.stop]) = t := by
  rw [hashGraph]
  cases saveGraph mem n a {} with
  | none => simp
  | some r => simp

/-- C105. The size of the stack never changes the hash. -/
theorem c105_stack (D : Dump → Str) (mem : Nat → HCell) (n n' a : Nat) (t t' : Str) (h : hashGraph D mem n a = .ok t) (h' : hashGraph D mem n' a = .ok t') :
    t = t' := by
  obtain ⟨r, e, rfl⟩ := hashGraph_ok.1 h
  obtain ⟨r', e', rfl⟩ := hashGraph_ok.1 h'
  have := (saveGraph_le (Nat.le_max_left n n') e).symm.trans (saveGraph_le (Nat.le_max_right n n') e')
  cases this
  rfl

/-! ### What is remembered -/

theorem find_put (s : PState) (a x : Nat) : (s.put (some a)).find (some x) = if a = x then some s.n else s.find (some x) := by
  by_cases h : a = x
  · simp [PState.find, PState.put, h]
  · simp [PState.find, PState.put, h]

theorem find_glob (m n : Str) (s : PState) (x : Option Nat) : (saveGlob m n s).2.find x = s.find x := by
  unfold saveGlob
  split <;> cases x <;> rfl

theorem n_glob (m n : Str) (s : PState) : s.n ≤ (saveGlob m n s).2.n := by
  unfold saveGlob
  split
  · exact Nat.le_refl _
  · exact Nat.le_succ _

/-- What is in the memo stays, what is new has a new number. -/
structure MemoGrows (s s' : PState) : Prop where
  keep : ∀ x i, s.find (some x) = some i → s'.find (some x) = some i
  fresh : ∀ x i, s'.find (some x) = some i → s.find (some x) = some i ∨ s.n ≤ i
  n : s.n ≤ s'.n

theorem MemoGrows.refl (s : PState) : MemoGrows s s := ⟨fun _ _ h => h, fun _ _ h => .inl h, Nat.le_refl _⟩

theorem MemoGrows.trans {s s1 s2 : PState} (h : MemoGrows s s1) (h' : MemoGrows s1 s2) : MemoGrows s s2 :=
  ⟨fun x i e => h'.keep x i (h.keep x i e), fun x i e => by
    rcases h'.fresh x i e with e | e
    · exact h.fresh x i e
    · exact .inr (Nat.le_trans h.n e), Nat.le_trans h.n h'.n⟩

theorem MemoGrows.put {s : PState} {a : Nat} (h : s.find (some a) = none) : MemoGrows s (s.put (some a)) := by
  refine ⟨fun x i e => ?_, fun x i e => ?_, Nat.le_succ _⟩
  · rw [find_put, if_neg]
    · exact e
    · rintro rfl; rw [h] at e; cases e
  · rw [find_put] at e
    split at e
    · cases e; exact .inr (Nat.le_refl _)
    · exact .inl e

theorem MemoGrows.glob (m n : Str) (s : PState) : MemoGrows s (saveGlob m n s).2 :=
  ⟨fun x i e => by rw [find_glob]; exact e, fun x i e => by rw [find_glob] at e; exact .inl e, n_glob m n s⟩

theorem saveSeq_grows {α γ : Type} {f : α → PState → Option (γ × PState)} (h : ∀ x s r, f x s = some r → MemoGrows s r.2) :
    ∀ (xs : List α) (s : PState) (r : List γ × PState), saveSeq f xs s = some r → MemoGrows s r.2
  | [], s, r, e => by cases e; exact .refl _
  | x :: xs, s, r, e => by
      simp only [saveSeq] at e
      cases ef : f x s with
      | none => rw [ef] at e; cases e
      | some a =>
        rw [ef] at e
        simp only [Option.bind_some, Option.map_eq_some_iff] at e
        obtain ⟨b, eb, rfl⟩ := e
        exact (h _ _ _ ef).trans (saveSeq_grows h xs _ b eb)

theorem saveGraph_grows : ∀ (f a : Nat) (s : PState) (r : List PTok × PState), saveGraph mem f a s = some r → MemoGrows s r.2
  | 0, _, _, _, e => by cases e
  | f + 1, a, s, r, e => by
      have ih := saveGraph_grows f
      rw [saveGraph] at e
      cases hc : mem a with
      | none | int | str => rw [hc] at e; cases e; exact .refl _
      | glob m n => rw [hc] at e; cases e; exact .glob m n s
      | list xs =>
        rw [hc] at e
        dsimp only at e
        cases hf : s.find (some a) with
        | some i => rw [hf] at e; cases e; exact .refl _
        | none =>
          rw [hf] at e
          simp only [Option.map_eq_some_iff] at e
          obtain ⟨b, eb, rfl⟩ := e
          exact (MemoGrows.put hf).trans (saveSeq_grows ih _ _ _ eb)
      | dict kvs =>
        rw [hc] at e
        dsimp only at e
        cases hf : s.find (some a) with
        | some i => rw [hf] at e; cases e; exact .refl _
        | none =>
          rw [hf] at e
          simp only [Option.map_eq_some_iff] at e
          obtain ⟨b, eb, rfl⟩ := e
          refine (MemoGrows.put hf).trans (saveSeq_grows (fun kv s r e => ?_) _ _ b eb)
          simp only [Option.map_eq_some_iff] at e
          obtain ⟨c, ec, rfl⟩ := e
          exact ih _ _ c ec
      | obj m n d =>
        rw [hc] at e
        dsimp only at e
        cases hf : s.find (some a) with
        | some i => rw [hf] at e; cases e; exact .refl _
        | none =>
          rw [hf] at e
          have g : MemoGrows s ((saveGlob m n s).2.put (some a)) := (MemoGrows.glob m n s).trans (.put (by rw [find_glob]; exact hf))
          dsimp only at e
          split at e
          · cases e; exact g
          · simp only [Option.map_eq_some_iff] at e
            obtain ⟨b, eb, rfl⟩ := e
            exact g.trans (ih _ _ b eb)

/-! ### Pickling ends -/

/-- How many of them have not been met. -/
def unmet (L : List Nat) (s : PState) : Nat := (L.filter fun x => (s.find (some x)).isNone).length

theorem filter_le {α : Type} {p q : α → Bool} (h : ∀ x, p x = true → q x = true) (l : List α) : (l.filter p).length ≤ (l.filter q).length := by
  induction l with
  | nil => exact Nat.le_refl _
  | cons x l ih =>
    simp only [List.filter_cons]
    by_cases hp : p x = true
    · rw [if_pos hp, if_pos (h x hp)]; simp only [List.length_cons]; omega
    · rw [if_neg hp]
      split
      · simp only [List.length_cons]; omega
      · exact ih

theorem filter_lt {α : Type} {p q : α → Bool} (h : ∀ x, p x = true → q x = true) {l : List α} {a : α} (ha : a ∈ l) (hq : q a = true) (hp : p a = false) :
    (l.filter p).length < (l.filter q).length := by
  induction l with
  | nil => cases ha
  | cons x l ih =>
    simp only [List.filter_cons]
    rcases List.mem_cons.1 ha with rfl | ha
    · rw [if_neg (by simp [hp]), if_pos hq]
      have := filter_le h l
      simp only [List.length_cons]; omega
    · have := ih ha
      by_cases hx : p x = true
      · rw [if_pos hx, if_pos (h x hx)]; simp only [List.length_cons]; omega
      · rw [if_neg hx]
        split
        · simp only [List.length_cons]; omega
        · exact this

theorem unmet_grows {L : List Nat} {s s' : PState} (h : MemoGrows s s') : unmet L s' ≤ unmet L s := by
  refine filter_le (fun x hx => ?_) L
  cases e : s.find (some x) with
  | none => rfl
  | some i => rw [h.keep x i e] at hx; cases hx

theorem unmet_put {L : List Nat} {s : PState} {a : Nat} (ha : a ∈ L) (h : s.find (some a) = none) : unmet L (s.put (some a)) < unmet L s := by
  refine filter_lt (a := a) (fun x hx => ?_) ha (by rw [h]; rfl) (by rw [find_put, if_pos rfl]; rfl)
  rw [find_put] at hx
  split at hx
  · cases hx
  · exact hx

theorem saveSeq_some {α γ : Type} {f : α → PState → Option (γ × PState)} {I : PState → Prop} :
    ∀ (xs : List α) (_ : ∀ x ∈ xs, ∀ s, I s → ∃ r, f x s = some r ∧ I r.2) (s : PState), I s → ∃ r, saveSeq f xs s = some r
  | [], _, s, _ => ⟨_, rfl⟩
  | x :: xs, h, s, hs => by
      obtain ⟨a, ea, ia⟩ := h x (by simp) s hs
      obtain ⟨b, eb⟩ := saveSeq_some xs (fun y hy => h y (by simp [hy])) a.2 ia
      exact ⟨(a.1 :: b.1, b.2), by simp only [saveSeq, ea, Option.bind_some, eb, Option.map_some]⟩

theorem saveGraph_some {L : List Nat} (closed : ∀ x ∈ L, ∀ y, Refers (mem x) y → y ∈ L) : ∀ (f a : Nat) (s : PState), a ∈ L → unmet L s < f →
    ∃ r, saveGraph mem f a s = some r
  | 0, _, _, _, h => by omega
  | f + 1, a, s, ha, h => by
      have ih := saveGraph_some closed f
      have cl := closed a ha
      rw [saveGraph]
      cases hc : mem a with
      | none | int | str | glob => exact ⟨_, rfl⟩
      | list xs =>
        rw [hc] at cl
        dsimp only
        cases hf : s.find (some a) with
        | some i => exact ⟨_, rfl⟩
        | none =>
          have lt := unmet_put ha hf
          obtain ⟨r, e⟩ := saveSeq_some (f := saveGraph mem f) (I := fun s => unmet L s < f) xs (fun x hx s hs => by
            obtain ⟨r, e⟩ := ih x s (cl x (.list hx)) hs
            exact ⟨r, e, Nat.lt_of_le_of_lt (unmet_grows (saveGraph_grows _ _ _ _ e)) hs⟩) (s.put (some a)) (by omega)
          exact ⟨_, by dsimp only; rw [e]; rfl⟩
      | dict kvs =>
        rw [hc] at cl
        dsimp only
        cases hf : s.find (some a) with
        | some i => exact ⟨_, rfl⟩
        | none =>
          have lt := unmet_put ha hf
          obtain ⟨r, e⟩ := saveSeq_some (f := fun (kv : Str × Nat) s => (saveGraph mem f kv.2 s).map fun r => (PTok.str kv.1 :: r.1, r.2))
            (I := fun s => unmet L s < f) (sortBy keyLe kvs) (fun x hx s hs => by
            obtain ⟨r, e⟩ := ih x.2 s (cl x.2 (.dict (k := x.1) (mem_sortBy.1 hx))) hs
            exact ⟨(.str x.1 :: r.1, r.2), by rw [e]; rfl, Nat.lt_of_le_of_lt (unmet_grows (saveGraph_grows _ _ _ r e)) hs⟩) (s.put (some a)) (by omega)
          exact ⟨_, by dsimp only; rw [e]; rfl⟩
      | obj m n d =>
        rw [hc] at cl
        dsimp only
        cases hf : s.find (some a) with
        | some i => exact ⟨_, rfl⟩
        | none =>
          dsimp only
          split
          · exact ⟨_, rfl⟩
          · have lt := unmet_put (s := (saveGlob m n s).2) ha (by rw [find_glob]; exact hf)
            have le := unmet_grows (L := L) (MemoGrows.glob m n s)
            obtain ⟨r, e⟩ := ih d ((saveGlob m n s).2.put (some a)) (cl d .obj) (by omega)
            exact ⟨_, by rw [e]; rfl⟩

/-- C105. Loops end: if the value at `a` is made of finitely many values there is a hash, whatever the loops among them; calls are not nested deeper than
there are values. -/
theorem c105_ends (D : Dump → Str) (mem : Nat → HCell) (a : Nat) (L : List Nat) (finite : MadeOf mem a L) :
    ∃ t, ∀ n, L.length < n → hashGraph D mem n a = .ok t := by
  have le : unmet L {} ≤ L.length := List.length_filter_le _ _
  obtain ⟨r, e⟩ := saveGraph_some finite.2 (L.length + 1) a {} finite.1 (by omega)
  exact ⟨_, fun n h => hashGraph_ok.2 ⟨r, saveGraph_le h e, rfl⟩⟩

/-! ### Values of the same shape -/

/-- Two outcomes: the same, in related states. -/
def SameOut {γ : Type} (I : PState → PState → Prop) : Option (γ × PState) → Option (γ × PState) → Prop
  | some r, some r' => r.1 = r'.1 ∧ I r.2 r'.2
  | none, none => True
  | _, _ => False

theorem SameOut.map {γ δ : Type} {I : PState → PState → Prop} {o o' : Option (γ × PState)} (h : SameOut I o o') (g : γ → δ) :
    SameOut I (o.map fun r => (g r.1, r.2)) (o'.map fun r => (g r.1, r.2)) := by
  cases o <;> cases o' <;> try exact h
  exact ⟨congrArg g h.1, h.2⟩

theorem saveSeq_same {α β γ : Type} {I : PState → PState → Prop} {f : α → PState → Option (γ × PState)} {g : β → PState → Option (γ × PState)}
    : ∀ (xs : List α) (ys : List β), xs.length = ys.length →
      (∀ (i : Nat) x y, xs[i]? = some x → ys[i]? = some y → ∀ s s', I s s' → SameOut I (f x s) (g y s')) →
      ∀ s s', I s s' → SameOut I (saveSeq f xs s) (saveSeq g ys s')
  | [], [], _, _, s, s', h => ⟨rfl, h⟩
  | x :: xs, y :: ys, l, h, s, s', hs => by
      have h1 := h 0 x y rfl rfl s s' hs
      simp only [saveSeq]
      cases e : f x s with
      | none =>
        cases e' : g y s' with
        | none => trivial
        | some _ => rw [e, e'] at h1; exact h1.elim
      | some a =>
        cases e' : g y s' with
        | none => rw [e, e'] at h1; exact h1.elim
        | some b =>
          rw [e, e'] at h1
          have h2 := saveSeq_same xs ys (by simpa using l) (fun i x y hx hy => h (i + 1) x y hx hy) a.2 b.2 h1.2
          simp only [Option.bind_some]
          have e1 := h1.1
          cases es : saveSeq f xs a.2 with
          | none =>
            cases es' : saveSeq g ys b.2 with
            | none => trivial
            | some _ => rw [es, es'] at h2; exact h2.elim
          | some c =>
            cases es' : saveSeq g ys b.2 with
            | none => rw [es, es'] at h2; exact h2.elim
            | some d =>
              rw [es, es'] at h2
              exact ⟨by simp only [e1, h2.1], h2.2⟩

/-- The states know the same of values that `R` pairs off. -/
structure Aligned (mem : Nat → HCell) (R : Nat → Nat → Prop) (s s' : PState) : Prop where
  n : s.n = s'.n
  globs : s.globs = s'.globs
  fed : s.fed = s'.fed
  find : ∀ x y, R x y → (mem x).Container → s.find (some x) = s'.find (some y)

theorem Aligned.put {R : Nat → Nat → Prop} (hR : PairsOff mem mem' R) {s s' : PState} (h : Aligned mem R s s') {a a' : Nat} (ha : R a a')
    (c : (mem a).Container) : Aligned mem R (s.put (some a)) (s'.put (some a')) :=
  ⟨by simp [PState.put, h.n], h.globs, h.fed, fun x y hxy hc => by
    rw [find_put, find_put, h.find x y hxy hc, h.n]
    have := hR.once a a' x y ha hxy c hc
    by_cases e : a = x
    · rw [if_pos e, if_pos (this.1 e)]
    · rw [if_neg e, if_neg (fun h => e (this.2 h))]⟩

theorem Aligned.glob {R : Nat → Nat → Prop} {s s' : PState} (h : Aligned mem R s s') (m n : Str) :
    (saveGlob m n s).1 = (saveGlob m n s').1 ∧ Aligned mem R (saveGlob m n s).2 (saveGlob m n s').2 := by
  have f : ∀ x y, R x y → (mem x).Container → (saveGlob m n s).2.find (some x) = (saveGlob m n s').2.find (some y) := fun x y hxy hc => by
    rw [find_glob, find_glob]; exact h.find x y hxy hc
  revert f
  unfold saveGlob
  rw [h.globs]
  cases s'.globs.find? fun p => p.1 == (m, n) with
  | some p => intro f; exact ⟨rfl, h⟩
  | none => intro f; exact ⟨rfl, ⟨by simp [h.n], by simp [h.n], h.fed, f⟩⟩

theorem sorted_keys {kvs kvs' : List (Str × Nat)} (p : (kvs.map (·.1)).Perm (kvs'.map (·.1))) :
    (sortBy keyLe kvs).map (·.1) = (sortBy keyLe kvs').map (·.1) := by
  have h : ∀ l : List (Str × Nat), (sortBy keyLe l).map (·.1) = sortBy strLe (l.map (·.1)) := fun l =>
    (sortBy_map (le := keyLe) (le' := strLe) (f := fun kv : Str × Nat => kv.1) (fun _ _ => rfl) l).symm
  rw [h, h]
  exact sort_strLe_perm p

theorem container_alike {R : Nat → Nat → Prop} {c c' : HCell} (h : CellAlike mem mem' R c c') : c.Container ↔ c'.Container := by
  cases h <;> constructor <;> intro h <;> first | (cases h; done) | constructor

theorem items_alike {R : Nat → Nat → Prop} {c c' : HCell} (h : CellAlike mem mem' R c c') : c.items.isEmpty = c'.items.isEmpty := by
  cases h with
  | dict p _ =>
    have := p.length_eq
    simp only [List.length_map] at this
    simp only [HCell.items, List.isEmpty_iff_length_eq_zero, this]
    cases h : (List.isEmpty _) <;> cases h' : (List.isEmpty _) <;> simp_all [List.isEmpty_iff_length_eq_zero]
  | _ => rfl

theorem saveGraph_same {R : Nat → Nat → Prop} (hR : PairsOff mem mem' R) : ∀ (f a a' : Nat), R a a' → ∀ s s', Aligned mem R s s' →
    SameOut (Aligned mem R) (saveGraph mem f a s) (saveGraph mem' f a' s')
  | 0, _, _, _, _, _, _ => trivial
  | f + 1, a, a', ha, s, s', hs => by
      have ih := saveGraph_same hR f
      have al := hR.cells a a' ha
      have fd := hs.find a a' ha
      have pt : (mem a).Container → Aligned mem R (s.put (some a)) (s'.put (some a')) := hs.put hR ha
      rw [saveGraph, saveGraph]
      generalize hc : mem a = c at al fd pt
      generalize hc' : mem' a' = c' at al
      cases al with
      | none => exact ⟨rfl, hs⟩
      | int => exact ⟨rfl, hs⟩
      | str => exact ⟨rfl, hs⟩
      | glob m n => exact hs.glob m n
      | @list xs ys l h =>
        dsimp only
        rw [fd (.list _)]
        cases s'.find (some a') with
        | some i => exact ⟨rfl, hs⟩
        | none =>
          rw [l]
          exact (saveSeq_same xs ys l (fun i x y hx hy => ih x y (h i x y hx hy)) _ _ (pt (.list _))).map
            fun r => .emptyList :: .memoize :: batches .append .appends (ys.length + 1) r
      | @dict kvs kvs' p h =>
        dsimp only
        rw [fd (.dict _)]
        cases s'.find (some a') with
        | some i => exact ⟨rfl, hs⟩
        | none =>
          have l := p.length_eq
          simp only [List.length_map] at l
          rw [l]
          have ks := sorted_keys p
          refine SameOut.map (g := fun r => .emptyDict :: .memoize :: batches .setitem .setitems (kvs'.length + 1) r)
            (saveSeq_same _ _ (by rw [(sortBy_perm _ _).length_eq, (sortBy_perm _ _).length_eq, l]) (fun i x y hx hy s s' hs => ?_) _ _ (pt (.dict _)))
          have k : x.1 = y.1 := by
            have := congrArg (fun l => l[i]?) ks
            simp only [List.getElem?_map, hx, hy, Option.map_some, Option.some.injEq] at this
            exact this
          rw [k]
          refine SameOut.map (g := fun r => .str y.1 :: r) (ih x.2 y.2 (h y.1 x.2 y.2 ?_ ?_) s s' hs)
          · rw [← k]; exact mem_sortBy.1 (List.mem_of_getElem? hx)
          · exact mem_sortBy.1 (List.mem_of_getElem? hy)
      | @obj m n d d' h =>
        dsimp only
        rw [fd (.obj _ _ _)]
        cases s'.find (some a') with
        | some i => exact ⟨rfl, hs⟩
        | none =>
          have g := hs.glob m n
          have pt' := g.2.put hR ha (by rw [hc]; exact .obj _ _ _)
          have em : (mem d).items.isEmpty = (mem' d').items.isEmpty := by
            rcases h with ⟨h1, h2⟩ | h
            · rw [h1, h2]
            · exact items_alike (hR.cells d d' h)
          dsimp only
          rw [em, g.1]
          split
          · exact ⟨rfl, pt'⟩
          · next ne =>
            have hd : R d d' := by
              rcases h with ⟨_, h2⟩ | h
              · exact absurd (by rw [h2]; rfl) ne
              · exact h
            exact (ih d d' hd _ _ pt').map fun r => (saveGlob m n s').1 ++ [.emptyTuple, .newobj, .memoize] ++ r ++ [.build]

theorem aligned_empty (R : Nat → Nat → Prop) : Aligned mem R {} {} := ⟨rfl, rfl, rfl, fun _ _ _ _ => rfl⟩

/-- C105. Values of the same shape have the same hash (and need the same stack), wherever they are in memory and whatever the order of their dicts. -/
theorem c105_same (D : Dump → Str) (mem mem' : Nat → HCell) (a a' : Nat) (h : SameShape mem a mem' a') (n : Nat) :
    hashGraph D mem n a = hashGraph D mem' n a' := by
  obtain ⟨R, hR, ha⟩ := h
  have := saveGraph_same hR n a a' ha {} {} (aligned_empty R)
  rw [hashGraph, hashGraph]
  cases e : saveGraph mem n a {} with
  | none =>
    cases e' : saveGraph mem' n a' {} with
    | none => rfl
    | some _ => rw [e, e'] at this; exact this.elim
  | some r =>
    cases e' : saveGraph mem' n a' {} with
    | none => rw [e, e'] at this; exact this.elim
    | some r' =>
      rw [e, e'] at this
      simp only [this.1, this.2.fed]

end

/-! ### What the pickler writes determines what it saw -/

/-- What was pickled, as far as the pickle tells. -/
inductive PTree where
  | none
  | int (i : Int)
  | str (s : Str)
  | get (i : Nat)
  | glob (m n : Str)
  | noArgs
  | list (xs : List PTree)
  | dict (kvs : List (Str × PTree))
  | inst (c : PTree)
  | built (o st : PTree)

/-- The trees down to the mark. -/
def popTrees : List (Option PTree) → List PTree → Option (List PTree × List (Option PTree))
  | none :: st, acc => some (acc, st)
  | some v :: st, acc => popTrees st (v :: acc)
  | [], _ => none

/-- Keys and values in turn. -/
def pairTrees : List PTree → List (Str × PTree)
  | .str k :: v :: l => (k, v) :: pairTrees l
  | _ => []

/-- One opcode of a reader that does not look references up. -/
def vstep : PTok → List (Option PTree) → Option (List (Option PTree))
  | .none, st => some (some .none :: st)
  | .int i, st => some (some (.int i) :: st)
  | .str t, st => some (some (.str t) :: st)
  | .get i, st => some (some (.get i) :: st)
  | .mark, st => some (none :: st)
  | .emptyTuple, st => some (some .noArgs :: st)
  | .emptyList, st => some (some (.list []) :: st)
  | .append, some x :: some (.list xs) :: st => some (some (.list (xs ++ [x])) :: st)
  | .appends, st =>
    match popTrees st [] with
    | some (ys, some (.list xs) :: st') => some (some (.list (xs ++ ys)) :: st')
    | _ => none
  | .emptyDict, st => some (some (.dict []) :: st)
  | .setitem, some v :: some (.str k) :: some (.dict xs) :: st => some (some (.dict (xs ++ [(k, v)])) :: st)
  | .setitems, st =>
    match popTrees st [] with
    | some (ys, some (.dict xs) :: st') => some (some (.dict (xs ++ pairTrees ys)) :: st')
    | _ => none
  | .memoize, st => some st
  | .stackGlobal, some (.str n) :: some (.str m) :: st => some (some (.glob m n) :: st)
  | .newobj, some .noArgs :: some c :: st => some (some (.inst c) :: st)
  | .build, some x :: some o :: st => some (some (.built o x) :: st)
  | .stop, st => some st
  | _, _ => none

/-- Opcodes one after the other. -/
def vrun : List PTok → List (Option PTree) → Option (List (Option PTree))
  | [], st => some st
  | t :: ts, st => (vstep t st).bind (vrun ts)

theorem vrun_append (ts us : List PTok) (st : List (Option PTree)) : vrun (ts ++ us) st = (vrun ts st).bind (vrun us) := by
  induction ts generalizing st with
  | nil => rfl
  | cons t ts ih =>
    simp only [List.cons_append, vrun]
    cases vstep t st with
    | none => rfl
    | some s' => exact ih s'

/-- Trees on the stack, the last on top. -/
def stackUp (vs : List PTree) (st : List (Option PTree)) : List (Option PTree) := vs.reverse.map some ++ st

theorem stackUp_append (vs ws : List PTree) (st : List (Option PTree)) : stackUp (vs ++ ws) st = stackUp ws (stackUp vs st) := by
  simp [stackUp]

theorem popTrees_acc (vs : List PTree) (st : List (Option PTree)) (acc : List PTree) :
    popTrees (vs.map some ++ none :: st) acc = some (vs.reverse ++ acc, st) := by
  induction vs generalizing acc with
  | nil => rfl
  | cons v vs ih => simp [popTrees, ih]

theorem popTrees_stackUp (vs : List PTree) (st : List (Option PTree)) : popTrees (stackUp vs (none :: st)) [] = some (vs, st) := by
  rw [stackUp, popTrees_acc]; simp

/-- The token lists push these trees. -/
inductive PushTrees {β : Type} (rep : β → List PTree) : List (List PTok) → List β → Prop
  | nil : PushTrees rep [] []
  | cons {t : List PTok} {ts : List (List PTok)} {v : β} {vs : List β} : (∀ st, vrun t st = some (stackUp (rep v) st)) → PushTrees rep ts vs →
      PushTrees rep (t :: ts) (v :: vs)

theorem PushTrees.length {β : Type} {rep : β → List PTree} {ts : List (List PTok)} {vs : List β} (h : PushTrees rep ts vs) : ts.length = vs.length := by
  induction h with
  | nil => rfl
  | cons _ _ ih => simp [ih]

theorem PushTrees.split {β : Type} {rep : β → List PTree} {ts : List (List PTok)} {vs : List β} (h : PushTrees rep ts vs) (n : Nat) :
    PushTrees rep (ts.take n) (vs.take n) ∧ PushTrees rep (ts.drop n) (vs.drop n) := by
  induction h generalizing n with
  | nil => exact ⟨by simpa using PushTrees.nil, by simpa using PushTrees.nil⟩
  | cons h1 h2 ih =>
    cases n with
    | zero => exact ⟨.nil, .cons h1 h2⟩
    | succ n => exact ⟨.cons h1 (ih n).1, (ih n).2⟩

theorem PushTrees.all {β : Type} {rep : β → List PTree} {ts : List (List PTok)} {vs : List β} (h : PushTrees rep ts vs) (st : List (Option PTree)) :
    vrun ts.flatten st = some (stackUp (vs.map rep).flatten st) := by
  induction h generalizing st with
  | nil => rfl
  | cons h1 h2 ih =>
    simp only [List.flatten_cons, List.map_cons]
    rw [vrun_append, h1, Option.bind_some, ih, stackUp_append]

/-- A container that is filled by `one` and `many`. -/
theorem vrun_batches {β : Type} {one many : PTok} {rep : β → List PTree} {C : List β → PTree}
    (h1 : ∀ acc x st, vstep one (stackUp (rep x) (some (C acc) :: st)) = some (some (C (acc ++ [x])) :: st))
    (h2 : ∀ acc xs st, vstep many (stackUp (xs.map rep).flatten (none :: some (C acc) :: st)) = some (some (C (acc ++ xs)) :: st))
    (f : Nat) (xs acc : List β) (ts : List (List PTok)) (hf : ts.length < f) (h : PushTrees rep ts xs) (st : List (Option PTree)) :
    vrun (batches one many f ts) (some (C acc) :: st) = some (some (C (acc ++ xs)) :: st) := by
  induction f generalizing xs acc ts with
  | zero => omega
  | succ f ih =>
    have hl := h.length
    obtain ⟨ha, hb⟩ := h.split 1000
    simp only [batches]
    rw [vrun_append]
    have e1 : vrun (if (ts.take 1000).length > 1 then .mark :: (ts.take 1000).flatten ++ [many]
      else if (ts.take 1000).length = 1 then (ts.take 1000).flatten ++ [one] else []) (some (C acc) :: st) =
        some (some (C (acc ++ xs.take 1000)) :: st) := by
      have hx := ha.length
      split
      · simp only [List.cons_append, vrun, vstep, Option.bind_some]
        rw [vrun_append, ha.all, Option.bind_some]
        simp only [vrun]
        rw [h2]; rfl
      · split
        · rename_i h0 h3
          rw [h3] at hx
          obtain ⟨x, hx⟩ := List.length_eq_one_iff.1 hx.symm
          rw [vrun_append, ha.all, Option.bind_some, hx]
          simp only [List.map_cons, List.map_nil, List.flatten_cons, List.flatten_nil, List.append_nil, vrun]
          rw [h1]; rfl
        · rename_i h0 h3
          have hx : (xs.take 1000).length = 0 := by omega
          rw [List.length_eq_zero_iff.1 hx]
          simp [vrun]
    rw [e1, Option.bind_some]
    split
    · rename_i h3
      simp only [List.length_take] at h3
      have hxt : xs.take 1000 = xs := List.take_of_length_le (by omega)
      rw [hxt]; rfl
    · rename_i h3
      simp only [List.length_take] at h3
      rw [ih (xs.drop 1000) (acc ++ xs.take 1000) (ts.drop 1000) (by rw [List.length_drop]; omega) hb]
      rw [List.append_assoc, List.take_append_drop]

theorem vrun_appends {f : Nat} {xs : List PTree} {ts : List (List PTok)} (hf : ts.length < f) (h : PushTrees (fun x => [x]) ts xs) (st : List (Option PTree)) :
    vrun (batches .append .appends f ts) (some (.list []) :: st) = some (some (.list xs) :: st) := by
  refine vrun_batches (C := fun l => .list l) ?_ ?_ f xs [] ts hf h st
  · intro acc x st; rfl
  · intro acc xs st
    have : (xs.map fun x => [x]).flatten = xs := by induction xs with | nil => rfl | cons x xs ih => simp [ih]
    simp only [vstep, this, popTrees_stackUp]

theorem pairTrees_flatten (xs : List (Str × PTree)) : pairTrees (xs.map fun x => [.str x.1, x.2]).flatten = xs := by
  induction xs with
  | nil => rfl
  | cons x xs ih => simp [pairTrees, ih]

theorem vrun_setitems {f : Nat} {xs : List (Str × PTree)} {ts : List (List PTok)} (hf : ts.length < f)
    (h : PushTrees (fun x => [.str x.1, x.2]) ts xs) (st : List (Option PTree)) :
    vrun (batches .setitem .setitems f ts) (some (.dict []) :: st) = some (some (.dict xs) :: st) := by
  refine vrun_batches (C := fun l => .dict l) ?_ ?_ f xs [] ts hf h st
  · intro acc x st; rfl
  · intro acc xs st
    simp only [vstep, popTrees_stackUp, pairTrees_flatten]

/-- The tree of a class or function. -/
def globTree (m n : Str) (s : PState) : PTree :=
  match s.globs.find? fun p => p.1 == (m, n) with
  | some p => .get p.2
  | none => .glob m n

theorem vrun_glob (m n : Str) (s : PState) (st : List (Option PTree)) : vrun (saveGlob m n s).1 st = some (some (globTree m n s) :: st) := by
  unfold saveGlob globTree
  cases s.globs.find? fun p => p.1 == (m, n) with
  | some p => rfl
  | none => rfl

/-- As `saveGraph`, but the tree instead of the opcodes. -/
def saveTree (mem : Nat → HCell) : Nat → Nat → PState → Option (PTree × PState)
  | 0, _, _ => none
  | f + 1, a, s =>
    match mem a with
    | .none => some (.none, s)
    | .int i => some (.int i, s)
    | .str t => some (.str t, s)
    | .glob m n => some (globTree m n s, (saveGlob m n s).2)
    | .list xs =>
      match s.find (some a) with
      | some i => some (.get i, s)
      | none => (saveSeq (saveTree mem f) xs (s.put (some a))).map fun r => (.list r.1, r.2)
    | .dict kvs =>
      match s.find (some a) with
      | some i => some (.get i, s)
      | none => (saveSeq (fun kv s => (saveTree mem f kv.2 s).map fun r => ((kv.1, r.1), r.2)) (sortBy keyLe kvs) (s.put (some a))).map fun r => (.dict r.1, r.2)
    | .obj m n d =>
      match s.find (some a) with
      | some i => some (.get i, s)
      | none =>
        if (mem d).items.isEmpty then some (.inst (globTree m n s), (saveGlob m n s).2.put (some a))
        else (saveTree mem f d ((saveGlob m n s).2.put (some a))).map fun r => (.built (.inst (globTree m n s)) r.1, r.2)

/-- The opcodes push these trees, and the states are the same. -/
def PushesTree {β : Type} (rep : β → List PTree) (o : Option (List PTok × PState)) (o' : Option (β × PState)) : Prop :=
  match o, o' with
  | some r, some r' => r.2 = r'.2 ∧ ∀ st, vrun r.1 st = some (stackUp (rep r'.1) st)
  | none, none => True
  | _, _ => False

theorem saveSeq_reads {α β : Type} {rep : β → List PTree} {f : α → PState → Option (List PTok × PState)} {g : α → PState → Option (β × PState)}
    (h : ∀ x s, PushesTree rep (f x s) (g x s)) : ∀ (xs : List α) (s : PState),
    match saveSeq f xs s, saveSeq g xs s with
    | some r, some r' => r.2 = r'.2 ∧ r.1.length = xs.length ∧ PushTrees rep r.1 r'.1
    | none, none => True
    | _, _ => False
  | [], s => ⟨rfl, rfl, .nil⟩
  | x :: xs, s => by
      have h1 := h x s
      simp only [saveSeq]
      cases e : f x s with
      | none =>
        cases e' : g x s with
        | none => trivial
        | some _ => rw [e, e'] at h1; exact h1.elim
      | some a =>
        cases e' : g x s with
        | none => rw [e, e'] at h1; exact h1.elim
        | some b =>
          rw [e, e'] at h1
          have h2 := saveSeq_reads h xs a.2
          simp only [Option.bind_some]
          rw [← h1.1]
          cases es : saveSeq f xs a.2 with
          | none =>
            cases es' : saveSeq g xs a.2 with
            | none => trivial
            | some _ => rw [es, es'] at h2; exact h2.elim
          | some c =>
            cases es' : saveSeq g xs a.2 with
            | none => rw [es, es'] at h2; exact h2.elim
            | some d =>
              rw [es, es'] at h2
              exact ⟨h2.1, by simp [h2.2.1], .cons h1.2 h2.2.2⟩

theorem saveGraph_reads (mem : Nat → HCell) : ∀ (f a : Nat) (s : PState), PushesTree (fun t => [t]) (saveGraph mem f a s) (saveTree mem f a s)
  | 0, _, _ => trivial
  | f + 1, a, s => by
      have ih := saveGraph_reads mem f
      rw [saveGraph, saveTree]
      cases hc : mem a with
      | none | int | str => exact ⟨rfl, fun st => rfl⟩
      | glob m n => exact ⟨rfl, vrun_glob m n s⟩
      | list xs =>
        dsimp only
        cases hf : s.find (some a) with
        | some i => exact ⟨rfl, fun st => rfl⟩
        | none =>
          have h := saveSeq_reads ih xs (s.put (some a))
          dsimp only
          cases e : saveSeq (saveGraph mem f) xs (s.put (some a)) with
          | none =>
            cases e' : saveSeq (saveTree mem f) xs (s.put (some a)) with
            | none => trivial
            | some _ => rw [e, e'] at h; exact h.elim
          | some r =>
            cases e' : saveSeq (saveTree mem f) xs (s.put (some a)) with
            | none => rw [e, e'] at h; exact h.elim
            | some r' =>
              rw [e, e'] at h
              exact ⟨h.1, fun st => vrun_appends (by rw [h.2.1]; omega) h.2.2 st⟩
      | dict kvs =>
        dsimp only
        cases hf : s.find (some a) with
        | some i => exact ⟨rfl, fun st => rfl⟩
        | none =>
          have h := saveSeq_reads (rep := fun x : Str × PTree => [.str x.1, x.2])
            (f := fun (kv : Str × Nat) s => (saveGraph mem f kv.2 s).map fun r => (PTok.str kv.1 :: r.1, r.2))
            (g := fun (kv : Str × Nat) s => (saveTree mem f kv.2 s).map fun r => ((kv.1, r.1), r.2)) (fun kv s => by
              have h := ih kv.2 s
              revert h
              cases saveGraph mem f kv.2 s <;> cases saveTree mem f kv.2 s <;> intro h
              · trivial
              · exact h.elim
              · exact h.elim
              · exact ⟨h.1, fun st => h.2 (some (.str kv.1) :: st)⟩) (sortBy keyLe kvs) (s.put (some a))
          dsimp only
          revert h
          generalize saveSeq (fun (kv : Str × Nat) s => (saveGraph mem f kv.2 s).map fun r => (PTok.str kv.1 :: r.1, r.2)) _ _ = o
          generalize saveSeq (fun (kv : Str × Nat) s => (saveTree mem f kv.2 s).map fun r => ((kv.1, r.1), r.2)) _ _ = o'
          intro h
          cases o <;> cases o'
          · trivial
          · exact h.elim
          · exact h.elim
          · exact ⟨h.1, fun st => vrun_setitems (by rw [h.2.1, (sortBy_perm _ _).length_eq]; omega) h.2.2 st⟩
      | obj m n d =>
        dsimp only
        cases hf : s.find (some a) with
        | some i => exact ⟨rfl, fun st => rfl⟩
        | none =>
          have first : ∀ st, vrun ((saveGlob m n s).1 ++ [.emptyTuple, .newobj, .memoize]) st = some (some (.inst (globTree m n s)) :: st) := fun st => by
            rw [vrun_append, vrun_glob]; rfl
          dsimp only
          split
          · exact ⟨rfl, first⟩
          · have h := ih d ((saveGlob m n s).2.put (some a))
            revert h
            cases saveGraph mem f d ((saveGlob m n s).2.put (some a)) <;> cases saveTree mem f d ((saveGlob m n s).2.put (some a)) <;> intro h
            · trivial
            · exact h.elim
            · exact h.elim
            · refine ⟨h.1, fun st => ?_⟩
              rw [vrun_append, vrun_append, first, Option.bind_some, h.2]
              rfl

/-! ### The same trees are of values of the same shape -/

section
variable {mem mem' : Nat → HCell}

/-- What `saveTree` did. -/
inductive TreeView (mem : Nat → HCell) (f a : Nat) (s : PState) : PTree → PState → Prop
  | none : mem a = .none → TreeView mem f a s .none s
  | int {i : Int} : mem a = .int i → TreeView mem f a s (.int i) s
  | str {t : Str} : mem a = .str t → TreeView mem f a s (.str t) s
  | globOld {m n : Str} {p : (Str × Str) × Nat} {i : Nat} : mem a = .glob m n → s.globs.find? (fun p => p.1 == (m, n)) = some p → i = p.2 →
      TreeView mem f a s (.get i) s
  | globNew {m n : Str} {s1 : PState} : mem a = .glob m n → s1 = (saveGlob m n s).2 → TreeView mem f a s (.glob m n) s1
  | met {i : Nat} : (mem a).Container → s.find (some a) = some i → TreeView mem f a s (.get i) s
  | list {xs : List Nat} {l : List PTree} {s1 : PState} : mem a = .list xs → s.find (some a) = none →
      saveSeq (saveTree mem f) xs (s.put (some a)) = some (l, s1) → TreeView mem f a s (.list l) s1
  | dict {kvs : List (Str × Nat)} {l : List (Str × PTree)} {s1 : PState} : mem a = .dict kvs → s.find (some a) = none →
      saveSeq (fun kv s => (saveTree mem f kv.2 s).map fun r => ((kv.1, r.1), r.2)) (sortBy keyLe kvs) (s.put (some a)) = some (l, s1) →
      TreeView mem f a s (.dict l) s1
  | inst {m n : Str} {d : Nat} {c : PTree} {s1 : PState} : mem a = .obj m n d → s.find (some a) = none → (mem d).items = [] → c = globTree m n s →
      s1 = (saveGlob m n s).2.put (some a) → TreeView mem f a s (.inst c) s1
  | built {m n : Str} {d : Nat} {c t : PTree} {s1 : PState} : mem a = .obj m n d → s.find (some a) = none → c = globTree m n s →
      saveTree mem f d ((saveGlob m n s).2.put (some a)) = some (t, s1) → TreeView mem f a s (.built (.inst c) t) s1

theorem treeView {f a : Nat} {s s1 : PState} {t : PTree} (e : saveTree mem (f + 1) a s = some (t, s1)) : TreeView mem f a s t s1 := by
  rw [saveTree] at e
  cases hc : mem a with
  | none => rw [hc] at e; cases e; exact .none hc
  | int => rw [hc] at e; cases e; exact .int hc
  | str => rw [hc] at e; cases e; exact .str hc
  | glob m n =>
    rw [hc] at e
    dsimp only at e
    cases e
    cases h : s.globs.find? fun p => p.1 == (m, n) with
    | some p =>
      have e1 : (saveGlob m n s).2 = s := by simp only [saveGlob, h]
      have e2 : globTree m n s = .get p.2 := by simp only [globTree, h]
      rw [e1, e2]
      exact .globOld hc h rfl
    | none =>
      have e2 : globTree m n s = .glob m n := by simp only [globTree, h]
      rw [e2]
      exact .globNew hc rfl
  | list xs =>
    rw [hc] at e
    dsimp only at e
    cases hf : s.find (some a) with
    | some i => rw [hf] at e; cases e; exact .met (by rw [hc]; exact .list _) hf
    | none =>
      rw [hf] at e
      simp only [Option.map_eq_some_iff] at e
      obtain ⟨b, eb, e⟩ := e
      cases e
      exact .list hc hf eb
  | dict kvs =>
    rw [hc] at e
    dsimp only at e
    cases hf : s.find (some a) with
    | some i => rw [hf] at e; cases e; exact .met (by rw [hc]; exact .dict _) hf
    | none =>
      rw [hf] at e
      simp only [Option.map_eq_some_iff] at e
      obtain ⟨b, eb, e⟩ := e
      cases e
      exact .dict hc hf eb
  | obj m n d =>
    rw [hc] at e
    dsimp only at e
    cases hf : s.find (some a) with
    | some i => rw [hf] at e; cases e; exact .met (by rw [hc]; exact .obj _ _ _) hf
    | none =>
      rw [hf] at e
      dsimp only at e
      split at e
      · next h => cases e; exact .inst hc hf (List.isEmpty_iff.1 h) rfl rfl
      · simp only [Option.map_eq_some_iff] at e
        obtain ⟨b, eb, e⟩ := e
        cases e
        exact .built hc hf rfl eb

/-- A state of the memo: numbers are all different. -/
structure GoodMemo (mem : Nat → HCell) (s : PState) : Prop where
  lt : ∀ x i, s.find (some x) = some i → i < s.n
  inj : ∀ x y i, s.find (some x) = some i → s.find (some y) = some i → x = y
  globs : ∀ p ∈ s.globs, p.2 < s.n ∧ ∀ x, s.find (some x) ≠ some p.2
  globsInj : ∀ p ∈ s.globs, ∀ q ∈ s.globs, p.2 = q.2 → p = q

theorem GoodMemo.put {s : PState} (h : GoodMemo mem s) {a : Nat} : GoodMemo mem (s.put (some a)) := by
  refine ⟨fun x i e => ?_, fun x y i e e' => ?_, fun p hp => ⟨Nat.lt_succ_of_lt (h.globs p hp).1, fun x e => ?_⟩, h.globsInj⟩
  · rw [find_put] at e
    split at e
    · cases e; exact Nat.lt_succ_self _
    · exact Nat.lt_succ_of_lt (h.lt x i e)
  · rw [find_put] at e e'
    split at e <;> split at e'
    · next h1 h2 => exact h1.symm.trans h2
    · cases e; exact absurd (h.lt y _ e') (Nat.lt_irrefl _)
    · cases e'; exact absurd (h.lt x _ e) (Nat.lt_irrefl _)
    · exact h.inj x y i e e'
  · rw [find_put] at e
    split at e
    · have := (h.globs p hp).1
      simp only [Option.some.injEq] at e
      omega
    · exact (h.globs p hp).2 x e

theorem GoodMemo.glob {s : PState} (h : GoodMemo mem s) (m n : Str) : GoodMemo mem (saveGlob m n s).2 := by
  cases hf : s.globs.find? fun p => p.1 == (m, n) with
  | some p =>
    have e : (saveGlob m n s).2 = s := by simp only [saveGlob, hf]
    rw [e]; exact h
  | none =>
    have e : (saveGlob m n s).2 = { s with globs := ((m, n), s.n) :: s.globs, n := s.n + 1 } := by simp only [saveGlob, hf]
    have fe : ∀ x, (saveGlob m n s).2.find x = s.find x := find_glob m n s
    rw [e] at fe ⊢
    refine ⟨fun x i ex => ?_, fun x y i ex ey => ?_, fun p hp => ⟨?_, fun x ex => ?_⟩, fun p hp q hq epq => ?_⟩
    · rw [fe] at ex; exact Nat.lt_succ_of_lt (h.lt x i ex)
    · rw [fe] at ex ey; exact h.inj x y i ex ey
    · rcases List.mem_cons.1 hp with rfl | hp
      · exact Nat.lt_succ_self _
      · exact Nat.lt_succ_of_lt (h.globs p hp).1
    · rw [fe] at ex
      rcases List.mem_cons.1 hp with rfl | hp
      · exact absurd (h.lt x _ ex) (Nat.lt_irrefl _)
      · exact (h.globs p hp).2 x ex
    · rcases List.mem_cons.1 hp with rfl | hp <;> rcases List.mem_cons.1 hq with rfl | hq
      · rfl
      · exact absurd (h.globs q hq).1 (by rw [← epq]; exact Nat.lt_irrefl _)
      · exact absurd (h.globs p hp).1 (by rw [epq]; exact Nat.lt_irrefl _)
      · exact h.globsInj p hp q hq epq

/-- Two states of which the same can be said. -/
structure Par (mem mem' : Nat → HCell) (s s' : PState) : Prop where
  left : GoodMemo mem s
  right : GoodMemo mem' s'
  n : s.n = s'.n
  globs : s.globs = s'.globs

theorem Par.put {s s' : PState} (h : Par mem mem' s s') (a a' : Nat) : Par mem mem' (s.put (some a)) (s'.put (some a')) :=
  ⟨h.left.put, h.right.put, by simp [PState.put, h.n], h.globs⟩

theorem Par.glob {s s' : PState} (h : Par mem mem' s s') (m n : Str) : Par mem mem' (saveGlob m n s).2 (saveGlob m n s').2 := by
  refine ⟨h.left.glob m n, h.right.glob m n, ?_, ?_⟩ <;>
  · unfold saveGlob
    rw [h.globs]
    cases s'.globs.find? fun p => p.1 == (m, n) <;> simp [h.n, h.globs]

theorem globTree_inj {s s' : PState} (h : Par mem mem' s s') {m n m' n' : Str} (e : globTree m n s = globTree m' n' s') : m = m' ∧ n = n' := by
  unfold globTree at e
  rw [← h.globs] at e
  cases hf : s.globs.find? fun p => p.1 == (m, n) with
  | none =>
    cases hf' : s.globs.find? fun p => p.1 == (m', n') with
    | none => rw [hf, hf'] at e; cases e; exact ⟨rfl, rfl⟩
    | some q => rw [hf, hf'] at e; cases e
  | some p =>
    cases hf' : s.globs.find? fun p => p.1 == (m', n') with
    | none => rw [hf, hf'] at e; cases e
    | some q =>
      rw [hf, hf'] at e
      simp only [PTree.get.injEq] at e
      have pq := h.left.globsInj p (List.mem_of_find?_eq_some hf) q (List.mem_of_find?_eq_some hf') e
      have h1 := List.find?_some hf
      have h2 := List.find?_some hf'
      rw [pq] at h1
      simp only [beq_iff_eq] at h1 h2
      have := h1.symm.trans h2
      simp only [Prod.mk.injEq] at this
      exact this

/-- The same atom, or met at the same time. -/
def Partners (mem mem' : Nat → HCell) (s s' : PState) (x y : Nat) : Prop :=
  (¬ (mem x).Container ∧ mem x = mem' y) ∨ (mem x).Container ∧ ∃ i, s.find (some x) = some i ∧ s'.find (some y) = some i

theorem Partners.mono {s s' s1 s1' : PState} (h : MemoGrows s s1) (h' : MemoGrows s' s1') {x y : Nat} (t : Partners mem mem' s s' x y) :
    Partners mem mem' s1 s1' x y := by
  rcases t with t | ⟨c, i, h1, h2⟩
  · exact .inl t
  · exact .inr ⟨c, i, h.keep _ _ h1, h'.keep _ _ h2⟩

theorem CellAlike.mono {R S : Nat → Nat → Prop} (h : ∀ x y, R x y → S x y) {c c' : HCell} (k : CellAlike mem mem' R c c') : CellAlike mem mem' S c c' := by
  cases k with
  | none => exact .none
  | int => exact .int _
  | str => exact .str _
  | glob => exact .glob _ _
  | list l k => exact .list l fun i x y hx hy => h _ _ (k i x y hx hy)
  | dict p k => exact .dict p fun key x y hx hy => h _ _ (k key x y hx hy)
  | obj k => exact .obj (k.imp id (h _ _))

/-- From two such states to two others. -/
structure Onward (mem mem' : Nat → HCell) (s s' s1 s1' : PState) : Prop where
  par : Par mem mem' s1 s1'
  left : MemoGrows s s1
  right : MemoGrows s' s1'
  new : ∀ x y i, s1.find (some x) = some i → s1'.find (some y) = some i → s.n ≤ i →
    (mem x).Container ∧ CellAlike mem mem' (Partners mem mem' s1 s1') (mem x) (mem' y)

theorem Onward.refl {s s' : PState} (h : Par mem mem' s s') : Onward mem mem' s s' s s' :=
  ⟨h, .refl _, .refl _, fun x _ i e _ hi => absurd (h.left.lt x i e) (by omega)⟩

theorem Onward.glob {s s' : PState} (h : Par mem mem' s s') (m n : Str) : Onward mem mem' s s' (saveGlob m n s).2 (saveGlob m n s').2 :=
  ⟨h.glob m n, .glob m n s, .glob m n s', fun x _ i e _ hi => by rw [find_glob] at e; exact absurd (h.left.lt x i e) (by omega)⟩

theorem Onward.trans {s s' s1 s1' s2 s2' : PState} (p : Par mem mem' s s') (h : Onward mem mem' s s' s1 s1') (k : Onward mem mem' s1 s1' s2 s2') :
    Onward mem mem' s s' s2 s2' := by
  refine ⟨k.par, h.left.trans k.left, h.right.trans k.right, fun x y i e e' hi => ?_⟩
  by_cases hi1 : s1.n ≤ i
  · exact k.new x y i e e' hi1
  · have e1 := (k.left.fresh x i e).resolve_right hi1
    have e1' := (k.right.fresh y i e').resolve_right (by rw [← h.par.n]; exact hi1)
    have := h.new x y i e1 e1' hi
    exact ⟨this.1, this.2.mono fun x y => Partners.mono k.left k.right⟩

theorem Onward.put {s s' s1 s1' : PState} (h : Par mem mem' s s') {a a' : Nat} (ha : s.find (some a) = none) (ha' : s'.find (some a') = none)
    (c : (mem a).Container) (k : Onward mem mem' (s.put (some a)) (s'.put (some a')) s1 s1')
    (al : CellAlike mem mem' (Partners mem mem' s1 s1') (mem a) (mem' a')) : Onward mem mem' s s' s1 s1' ∧ Partners mem mem' s1 s1' a a' := by
  have fa : s1.find (some a) = some s.n := k.left.keep a _ (by rw [find_put, if_pos rfl])
  have fa' : s1'.find (some a') = some s.n := k.right.keep a' _ (by rw [find_put, if_pos rfl, h.n])
  refine ⟨⟨k.par, (MemoGrows.put ha).trans k.left, (MemoGrows.put ha').trans k.right, fun x y i e e' hi => ?_⟩, .inr ⟨c, _, fa, fa'⟩⟩
  by_cases hi1 : s.n + 1 ≤ i
  · exact k.new x y i e e' hi1
  · have : i = s.n := by omega
    rw [this] at e e'
    rw [k.par.left.inj _ _ _ e fa, k.par.right.inj _ _ _ e' fa']
    exact ⟨c, al⟩

theorem saveSeq_twins {α β γ : Type} {f : α → PState → Option (γ × PState)} {g : β → PState → Option (γ × PState)} {Q : PState → PState → α → β → Prop}
    (mono : ∀ s s' s1 s1' x y, MemoGrows s s1 → MemoGrows s' s1' → Q s s' x y → Q s1 s1' x y)
    (h : ∀ x y s s' t s1 s1', Par mem mem' s s' → f x s = some (t, s1) → g y s' = some (t, s1') → Onward mem mem' s s' s1 s1' ∧ Q s1 s1' x y) :
    ∀ (xs : List α) (ys : List β) (s s' : PState) (l : List γ) (s1 s1' : PState), Par mem mem' s s' → saveSeq f xs s = some (l, s1) →
      saveSeq g ys s' = some (l, s1') → Onward mem mem' s s' s1 s1' ∧ xs.length = ys.length ∧
        ∀ (i : Nat) x y, xs[i]? = some x → ys[i]? = some y → Q s1 s1' x y
  | [], ys, s, s', l, s1, s1', p, e, e' => by
      cases e
      cases ys with
      | nil => cases e'; exact ⟨.refl p, rfl, fun i x y hx => by simp at hx⟩
      | cons y ys =>
        simp only [saveSeq] at e'
        cases ef : g y s' with
        | none => rw [ef] at e'; cases e'
        | some b =>
          rw [ef] at e'
          simp only [Option.bind_some, Option.map_eq_some_iff] at e'
          obtain ⟨c, _, e'⟩ := e'
          cases e'
  | x :: xs, ys, s, s', l, s1, s1', p, e, e' => by
      simp only [saveSeq] at e
      cases ef : f x s with
      | none => rw [ef] at e; cases e
      | some b =>
        rw [ef] at e
        simp only [Option.bind_some, Option.map_eq_some_iff] at e
        obtain ⟨c, ec, e⟩ := e
        cases e
        cases ys with
        | nil => cases e'
        | cons y ys =>
          simp only [saveSeq] at e'
          cases ef' : g y s' with
          | none => rw [ef'] at e'; cases e'
          | some b' =>
            rw [ef'] at e'
            simp only [Option.bind_some, Option.map_eq_some_iff] at e'
            obtain ⟨c', ec', e'⟩ := e'
            obtain ⟨t, u⟩ := b
            obtain ⟨t', u'⟩ := b'
            obtain ⟨l1, v⟩ := c
            obtain ⟨l1', v'⟩ := c'
            simp only [Prod.mk.injEq, List.cons.injEq] at e'
            obtain ⟨⟨rfl, rfl⟩, rfl⟩ := e'
            obtain ⟨o1, q1⟩ := h x y s s' _ _ _ p ef ef'
            obtain ⟨o2, len, q2⟩ := saveSeq_twins mono h xs ys _ _ _ _ _ o1.par ec ec'
            refine ⟨o1.trans p o2, by simp [len], fun i a b ha hb => ?_⟩
            cases i with
            | zero =>
              cases ha; cases hb
              exact mono _ _ _ _ _ _ o2.left o2.right q1
            | succ i => exact q2 i a b ha hb

theorem dict_alike {R : Nat → Nat → Prop} {kvs kvs' : List (Str × Nat)} (nd : (kvs'.map (·.1)).Nodup) (len : (sortBy keyLe kvs).length = (sortBy keyLe kvs').length)
    (h : ∀ (i : Nat) x y, (sortBy keyLe kvs)[i]? = some x → (sortBy keyLe kvs')[i]? = some y → x.1 = y.1 ∧ R x.2 y.2) :
    CellAlike mem mem' R (.dict kvs) (.dict kvs') := by
  have ks : (sortBy keyLe kvs).map (·.1) = (sortBy keyLe kvs').map (·.1) := by
    apply List.ext_getElem?
    intro i
    rw [List.getElem?_map, List.getElem?_map]
    cases e : (sortBy keyLe kvs)[i]? with
    | none =>
      rw [List.getElem?_eq_none_iff] at e
      rw [(List.getElem?_eq_none_iff).2 (by omega)]
    | some x =>
      cases e' : (sortBy keyLe kvs')[i]? with
      | none =>
        rw [List.getElem?_eq_none_iff] at e'
        rw [(List.getElem?_eq_none_iff).2 (by omega)] at e
        cases e
      | some y => simp [(h i x y e e').1]
  refine .dict ((((sortBy_perm keyLe kvs).map (·.1)).symm.trans (ks ▸ .refl _)).trans ((sortBy_perm keyLe kvs').map (·.1))) fun k x y hx hy => ?_
  obtain ⟨i, hi⟩ := List.getElem?_of_mem (mem_sortBy (le := keyLe).2 hx)
  have lt : i < (sortBy keyLe kvs').length := by
    rw [← len]
    exact (List.getElem?_eq_some_iff.1 hi).1
  have hj := List.getElem?_eq_getElem lt
  have q := h i _ _ hi hj
  have hm : (sortBy keyLe kvs')[i] ∈ kvs' := mem_sortBy.1 (List.getElem_mem lt)
  have : (k, y) = (sortBy keyLe kvs')[i] := nodup_key nd _ hy _ hm q.1
  rw [← this] at q
  exact q.2

theorem saveTree_twins (good : GoodDicts mem') : ∀ (f a a' : Nat) (s s' : PState) (t : PTree) (s1 s1' : PState), Par mem mem' s s' →
    saveTree mem f a s = some (t, s1) → saveTree mem' f a' s' = some (t, s1') → Onward mem mem' s s' s1 s1' ∧ Partners mem mem' s1 s1' a a'
  | 0, _, _, _, _, _, _, _, _, e, _ => by cases e
  | f + 1, a, a', s, s', t, s1, s1', p, e, e' => by
      have ih := saveTree_twins good f
      have atom : ∀ {c : HCell}, ¬ c.Container → mem a = c → mem' a' = c → Partners mem mem' s s' a a' := fun hc h h' => .inl ⟨by rw [h]; exact hc, h.trans h'.symm⟩
      have v := treeView e
      have v' := treeView e'
      clear e e'
      cases v with
      | none h => cases v' with | none h' => exact ⟨.refl p, atom (fun h => by cases h) h h'⟩
      | int h => cases v' with | int h' => exact ⟨.refl p, atom (fun h => by cases h) h h'⟩
      | str h => cases v' with | str h' => exact ⟨.refl p, atom (fun h => by cases h) h h'⟩
      | @globOld m n q _ h hf hi =>
        cases v' with
        | @globOld m' n' q' _ h' hf' hi' =>
          have : globTree m n s = globTree m' n' s' := by simp only [globTree, hf, hf', ← hi, ← hi']
          obtain ⟨rfl, rfl⟩ := globTree_inj p this
          exact ⟨.refl p, atom (fun h => by cases h) h h'⟩
        | met h' hf' =>
          have := (p.right.globs q (by rw [← p.globs]; exact List.mem_of_find?_eq_some hf)).2 a'
          rw [← hi] at this
          exact absurd hf' this
      | globNew h hs =>
        cases v' with
        | globNew h' hs' =>
          rw [hs, hs']
          exact ⟨.glob p _ _, (Partners.mono (.glob _ _ _) (.glob _ _ _) (atom (fun h => by cases h) h h'))⟩
      | met h hf =>
        cases v' with
        | @globOld m' n' q' _ h' hf' hi' =>
          have := (p.left.globs q' (by rw [p.globs]; exact List.mem_of_find?_eq_some hf')).2 a
          rw [← hi'] at this
          exact absurd hf this
        | met h' hf' => exact ⟨.refl p, .inr ⟨h, _, hf, hf'⟩⟩
      | list h hf hs =>
        cases v' with
        | list h' hf' hs' =>
          obtain ⟨o, len, q⟩ := saveSeq_twins (Q := Partners mem mem') (fun _ _ _ _ _ _ g g' t => t.mono g g') (fun x y s s' t s1 s1' p e e' => ih x y s s' t s1 s1' p e e')
            _ _ _ _ _ _ _ (p.put a a') hs hs'
          exact Onward.put p hf hf' (by rw [h]; exact .list _) o (by rw [h, h']; exact .list len q)
      | dict h hf hs =>
        cases v' with
        | dict h' hf' hs' =>
          obtain ⟨o, len, q⟩ := saveSeq_twins (Q := fun s s' (x y : Str × Nat) => x.1 = y.1 ∧ Partners mem mem' s s' x.2 y.2)
            (fun _ _ _ _ _ _ g g' t => ⟨t.1, t.2.mono g g'⟩) (fun x y s s' t s1 s1' p e e' => by
              simp only [Option.map_eq_some_iff] at e e'
              obtain ⟨⟨b, u⟩, eb, e⟩ := e
              obtain ⟨⟨b', u'⟩, eb', e'⟩ := e'
              cases e
              simp only [Prod.mk.injEq] at e'
              obtain ⟨⟨k, rfl⟩, rfl⟩ := e'
              have := ih x.2 y.2 s s' _ _ _ p eb eb'
              exact ⟨this.1, k.symm, this.2⟩)
            _ _ _ _ _ _ _ (p.put a a') hs hs'
          exact Onward.put p hf hf' (by rw [h]; exact .dict _) o (by rw [h, h']; exact dict_alike (good _ _ h') len q)
      | @inst m n d c _ h hf hd hc hs =>
        cases v' with
        | @inst m' n' d' _ _ h' hf' hd' hc' hs' =>
          obtain ⟨rfl, rfl⟩ := globTree_inj p (hc.symm.trans hc')
          have g := Onward.glob p m n
          obtain ⟨o, tw⟩ := Onward.put g.par (by rw [find_glob]; exact hf) (by rw [find_glob]; exact hf') (by rw [h]; exact .obj _ _ _)
            (.refl (g.par.put a a')) (by rw [h, h']; exact .obj (.inl ⟨hd, hd'⟩))
          rw [hs, hs']
          exact ⟨g.trans p o, tw⟩
      | @built m n d c t _ h hf hc hs =>
        cases v' with
        | @built m' n' d' _ _ _ h' hf' hc' hs' =>
          obtain ⟨rfl, rfl⟩ := globTree_inj p (hc.symm.trans hc')
          have g := Onward.glob p m n
          obtain ⟨o, tw⟩ := ih d d' _ _ _ _ _ (g.par.put a a') hs hs'
          obtain ⟨o, tw⟩ := Onward.put g.par (by rw [find_glob]; exact hf) (by rw [find_glob]; exact hf') (by rw [h]; exact .obj _ _ _)
            o (by rw [h, h']; exact .obj (.inr tw))
          exact ⟨g.trans p o, tw⟩

theorem par_empty : Par mem mem' {} {} := by
  have h : ∀ mem, GoodMemo mem {} := fun mem => ⟨fun x i e => (by simp [PState.find] at e), fun x y i e => (by simp [PState.find] at e),
    fun p hp => (by cases hp), fun p hp => (by cases hp)⟩
  exact ⟨h _, h _, rfl, rfl⟩

theorem alike_self {c : HCell} (h : ¬ c.Container) (R : Nat → Nat → Prop) : CellAlike mem mem' R c c := by
  cases c with
  | none => exact .none
  | int => exact .int _
  | str => exact .str _
  | glob => exact .glob _ _
  | list => exact absurd (.list _) h
  | dict => exact absurd (.dict _) h
  | obj => exact absurd (.obj _ _ _) h

theorem same_tokens (good : GoodDicts mem') {f f' a a' : Nat} {r r' : List PTok × PState} (e : saveGraph mem f a {} = some r)
    (e' : saveGraph mem' f' a' {} = some r') (h : r.1 = r'.1) : SameShape mem a mem' a' := by
  have h1 := saveGraph_reads mem (max f f') a {}
  have h1' := saveGraph_reads mem' (max f f') a' {}
  rw [saveGraph_le (Nat.le_max_left f f') e] at h1
  rw [saveGraph_le (Nat.le_max_right f f') e'] at h1'
  cases et : saveTree mem (max f f') a {} with
  | none => rw [et] at h1; exact h1.elim
  | some t =>
    cases et' : saveTree mem' (max f f') a' {} with
    | none => rw [et'] at h1'; exact h1'.elim
    | some t' =>
      rw [et] at h1
      rw [et'] at h1'
      have := (h1.2 []).symm.trans ((by rw [h]) : vrun r.1 [] = vrun r'.1 []) |>.trans (h1'.2 [])
      simp only [stackUp, List.reverse_cons, List.reverse_nil, List.nil_append, List.map_cons, List.map_nil, List.append_nil, Option.some.injEq,
        List.cons.injEq, and_true] at this
      obtain ⟨t, s1⟩ := t
      obtain ⟨t', s1'⟩ := t'
      dsimp only at this
      subst this
      obtain ⟨o, tw⟩ := saveTree_twins good _ _ _ _ _ _ _ _ par_empty et et'
      refine ⟨Partners mem mem' s1 s1', ⟨fun x y h => ?_, fun x y x' y' h h' c c' => ?_⟩, tw⟩
      · rcases h with ⟨h, hxy⟩ | ⟨-, i, h, h'⟩
        · rw [← hxy]; exact alike_self h _
        · exact (o.new x y i h h' (Nat.zero_le _)).2
      · rcases h with ⟨h, -⟩ | ⟨-, i, h1, h2⟩
        · exact absurd c h
        rcases h' with ⟨h, -⟩ | ⟨-, j, h1', h2'⟩
        · exact absurd c' h
        constructor
        · rintro rfl
          have ij : i = j := by rw [h1] at h1'; cases h1'; rfl
          rw [ij] at h2
          exact o.par.right.inj _ _ _ h2 h2'
        · rintro rfl
          have ij : i = j := by rw [h2] at h2'; cases h2'; rfl
          rw [ij] at h1
          exact o.par.left.inj _ _ _ h1 h1'

end

/-- C105. If the hash function does not collide, values with the same hash have the same shape. -/
theorem c105_tells (D : Dump → Str) (mem mem' : Nat → HCell) (good : GoodDicts mem') (n n' a a' : Nat) (t : Str) (clash : NoClash D mem n a mem' n' a')
    (h : hashGraph D mem n a = .ok t) (h' : hashGraph D mem' n' a' = .ok t) : SameShape mem a mem' a' := by
  obtain ⟨r, e, ht⟩ := hashGraph_ok.1 h
  obtain ⟨r', e', ht'⟩ := hashGraph_ok.1 h'
  exact same_tokens good e e' (clash r r' e e' (ht.trans ht'.symm))

/-- C105. So for values made of finitely many: the hashes are equal exactly if the shapes are the same. -/
theorem c105_iff (D : Dump → Str) (mem mem' : Nat → HCell) (good : GoodDicts mem') (a a' : Nat) (L L' : List Nat) (finite : MadeOf mem a L)
    (finite' : MadeOf mem' a' L') (n n' : Nat) (h : L.length < n) (h' : L'.length < n') (clash : NoClash D mem n a mem' n' a') :
    hashGraph D mem n a = hashGraph D mem' n' a' ↔ SameShape mem a mem' a' := by
  obtain ⟨t, ht⟩ := c105_ends D mem a L finite
  obtain ⟨t', ht'⟩ := c105_ends D mem' a' L' finite'
  constructor
  · intro e
    refine c105_tells D mem mem' good n n' a a' t clash (ht n h) ?_
    rw [← e]; exact ht n h
  · intro sh
    have e := c105_same D mem mem' a a' sh n
    rw [ht n h] at e
    rw [ht n h, ht' n' h', c105_stack D mem' n n' a' t t' e.symm (ht' n' h')]

/-! ### Trees -/

theorem saveSeq_seqG {α : Type} {f : α → PState → Option (List PTok × PState)} {g : α → PState → List PTok × PState} :
    ∀ (xs : List α) (_ : ∀ x ∈ xs, ∀ s, f x s = some (g x s)) (s : PState), saveSeq f xs s = some (seqG g xs s)
  | [], _, _ => rfl
  | x :: xs, h, s => by
      simp only [saveSeq, seqG, h x (by simp) s, Option.bind_some, saveSeq_seqG xs (fun y hy => h y (by simp [hy])), Option.map_some]

/-- What `saveGraph` gives. -/
def graphOf (mem : Nat → HCell) (n a : Nat) (s : PState) : List PTok × PState := (saveGraph mem n a s).getD ([], s)

/-- `saveGraph` does what `saveU` does on the tree. -/
def AgreeAt (D : Dump → Str) (mem : Nat → HCell) (n a : Nat) (u : UVal) : Prop :=
  (∀ s, saveGraph mem n a s = some (graphOf mem n a s)) ∧ Does (saveU D u) (graphOf mem n a)

theorem agree_of {D : Dump → Str} {mem : Nat → HCell} {n a : Nat} {u : UVal} (h : ∀ s, ∃ r, saveGraph mem n a s = some r ∧ saveU D u s = (r.2, r.1, none)) :
    AgreeAt D mem n a u := by
  refine ⟨fun s => ?_, fun s => ?_⟩ <;>
  · obtain ⟨r, e, e'⟩ := h s
    simp only [graphOf, e, e', Option.getD_some]

theorem agree_all {α : Type} {D : Dump → Str} {mem : Nat → HCell} {ad : α → Nat} {u : α → UVal} :
    ∀ (xs : List α), (∀ x ∈ xs, ∃ N, ∀ n, N ≤ n → AgreeAt D mem n (ad x) (u x)) → ∃ N, ∀ n, N ≤ n → ∀ x ∈ xs, AgreeAt D mem n (ad x) (u x)
  | [], _ => ⟨0, fun _ _ x hx => by cases hx⟩
  | x :: xs, h => by
      obtain ⟨N, hN⟩ := h x (by simp)
      obtain ⟨M, hM⟩ := agree_all xs fun y hy => h y (by simp [hy])
      refine ⟨max N M, fun n hn y hy => ?_⟩
      rcases List.mem_cons.1 hy with e | hy
      · rw [e]; exact hN n (by omega)
      · exact hM n (by omega) y hy

/-- An item of a dict. -/
def itemGraph (mem : Nat → HCell) (n : Nat) (kv : Str × Nat) (s : PState) : List PTok × PState :=
  (.str kv.1 :: (graphOf mem n kv.2 s).1, (graphOf mem n kv.2 s).2)

theorem items_agree {D : Dump → Str} {mem : Nat → HCell} {n : Nat} {kvs : List (Str × Nat)} {φ : Nat → UVal} (h : ∀ kv ∈ kvs, AgreeAt D mem n kv.2 (φ kv.2))
    (s : PState) :
    saveSeq (fun (kv : Str × Nat) s => (saveGraph mem n kv.2 s).map fun r => (PTok.str kv.1 :: r.1, r.2)) (sortBy keyLe kvs) s =
        some (seqG (itemGraph mem n) (sortBy keyLe kvs) s) ∧
      itemsInOrder D (saveUKs D (kvs.map fun kv => (kv.1, φ kv.2))) s = ((seqG (itemGraph mem n) (sortBy keyLe kvs) s).2,
        batches .setitem .setitems (kvs.length + 1) (seqG (itemGraph mem n) (sortBy keyLe kvs) s).1, none) := by
  constructor
  · refine saveSeq_seqG _ (fun x hx s => ?_) s
    rw [(h x (mem_sortBy.1 hx)).1 s]
    rfl
  · have items : ∀ kv ∈ sortBy keyLe kvs, Does (itemAct D (kv.1, φ kv.2)) (itemGraph mem n kv) := by
      intro kv hkv s
      rw [itemAct, andThen_ok (s1 := s) (ts := [.str kv.1]) rfl, (h kv (mem_sortBy.1 hkv)).2 s]
      rfl
    have first := inBatches_does .setitem .setitems (kvs.length + 1) _ items (by rw [(sortBy_perm _ _).length_eq]; omega) s
    have e : (sortBy keyLe kvs).map (fun kv => itemAct D (kv.1, φ kv.2)) = (sortBy keyLe (kvs.map fun kv => (kv.1, φ kv.2))).map (itemAct D) := by
      rw [sortBy_map (le := keyLe) (le' := keyLe) (f := fun kv : Str × Nat => (kv.1, φ kv.2)) (fun _ _ => rfl), List.map_map]
      rfl
    have st := setItems_sorted D (kvs.map fun kv => (kv.1, φ kv.2))
    rw [List.length_map, ← e] at st
    rw [← st] at first
    rw [itemsInOrder, orElse, first]

theorem tree_agrees (D : Dump → Str) {mem : Nat → HCell} {a : Nat} {u : UVal} (h : TreeAt mem a u) : ∃ N, ∀ n, N ≤ n → AgreeAt D mem n a u := by
  induction h with
  | none h =>
    refine ⟨1, fun n hn => agree_of fun s => ?_⟩
    obtain ⟨k, rfl⟩ := Nat.exists_eq_add_of_le' hn
    rw [saveGraph, h]
    exact ⟨_, rfl, rfl⟩
  | int h =>
    refine ⟨1, fun n hn => agree_of fun s => ?_⟩
    obtain ⟨k, rfl⟩ := Nat.exists_eq_add_of_le' hn
    rw [saveGraph, h]
    exact ⟨_, rfl, rfl⟩
  | str h =>
    refine ⟨1, fun n hn => agree_of fun s => ?_⟩
    obtain ⟨k, rfl⟩ := Nat.exists_eq_add_of_le' hn
    rw [saveGraph, h]
    exact ⟨_, rfl, rfl⟩
  | glob h =>
    refine ⟨1, fun n hn => agree_of fun s => ?_⟩
    obtain ⟨k, rfl⟩ := Nat.exists_eq_add_of_le' hn
    rw [saveGraph, h]
    refine ⟨_, rfl, ?_⟩
    simp only [saveU, saveName, saveGlob]
    cases s.globs.find? fun p => p.1 == _ <;> rfl
  | @list a xs φ h _ ih =>
    obtain ⟨N, hN⟩ := agree_all (ad := id) (u := φ) xs ih
    refine ⟨N + 1, fun n hn => agree_of fun s => ?_⟩
    obtain ⟨k, rfl⟩ := Nat.exists_eq_add_of_le' hn
    have ag := hN (k + N) (by omega)
    rw [← Nat.add_assoc, saveGraph, h]
    simp only [saveU, onlyNew]
    cases hf : s.find (some a) with
    | some i => exact ⟨_, rfl, rfl⟩
    | none =>
      dsimp only
      rw [saveSeq_seqG (f := saveGraph mem (k + N)) (g := graphOf mem (k + N)) xs (fun x hx => (ag x hx).1)]
      refine ⟨_, rfl, ?_⟩
      have all := inBatches_does .append .appends (xs.length + 1) xs (act := fun x => saveU D (φ x)) (fun x hx => (ag x hx).2) (by omega) (s.put (some a))
      rw [andThen_ok (s1 := s) (ts := [.emptyList]) rfl, andThen_ok (s1 := s.put (some a)) (ts := [.memoize]) rfl]
      rw [saveUs_map, List.map_map, List.length_map]
      have e : (saveU D ∘ φ) = fun x => saveU D (φ x) := rfl
      rw [e, all]
      rfl
  | @dict a kvs φ h _ ih =>
    obtain ⟨N, hN⟩ := agree_all (ad := fun kv : Str × Nat => kv.2) (u := fun kv => φ kv.2) kvs ih
    refine ⟨N + 1, fun n hn => agree_of fun s => ?_⟩
    obtain ⟨k, rfl⟩ := Nat.exists_eq_add_of_le' hn
    have ag := items_agree (hN (k + N) (by omega)) (s.put (some a))
    rw [← Nat.add_assoc, saveGraph, h]
    simp only [saveU, onlyNew]
    cases hf : s.find (some a) with
    | some i => exact ⟨_, rfl, rfl⟩
    | none =>
      dsimp only
      rw [ag.1]
      refine ⟨_, rfl, ?_⟩
      rw [andThen_ok (s1 := s) (ts := [.emptyDict]) rfl, andThen_ok (s1 := s.put (some a)) (ts := [.memoize]) rfl, ag.2]
      rfl
  | @obj a m n d kvs φ h hd _ ih =>
    obtain ⟨N, hN⟩ := agree_all (ad := fun kv : Str × Nat => kv.2) (u := fun kv => φ kv.2) kvs ih
    refine ⟨N + 1 + 1, fun n hn => agree_of fun s => ?_⟩
    obtain ⟨k, rfl⟩ := Nat.exists_eq_add_of_le' hn
    have g : saveName m n true s = ((saveGlob m n s).2, (saveGlob m n s).1, none) := by
      simp only [saveName, saveGlob]
      cases s.globs.find? fun p => p.1 == (m, n) <;> rfl
    rw [← Nat.add_assoc, ← Nat.add_assoc, saveGraph, h]
    simp only [saveU, onlyNew]
    cases hf : s.find (some a) with
    | some i => exact ⟨_, rfl, rfl⟩
    | none =>
      dsimp only
      rw [andThen_ok g, andThen_ok (s1 := (saveGlob m n s).2) (ts := [.emptyTuple, .newobj]) rfl,
          andThen_ok (s1 := (saveGlob m n s).2.put (some a)) (ts := [.memoize]) rfl, hd]
      rw [show (HCell.dict kvs).items = kvs from rfl]
      have em : (kvs.map fun kv => (kv.1, φ kv.2)).isEmpty = kvs.isEmpty := by cases kvs <;> rfl
      rw [em]
      by_cases hk : kvs.isEmpty = true
      · rw [if_pos hk, if_pos hk]
        exact ⟨_, rfl, by simp [emit]⟩
      · rw [if_neg hk, if_neg hk, saveGraph, hd]
        dsimp only
        cases hfd : ((saveGlob m n s).2.put (some a)).find (some d) with
        | some i => exact ⟨_, rfl, by simp [andThen, emit, onlyNew, hfd]⟩
        | none =>
          have ag := items_agree (hN (k + N) (by omega)) (((saveGlob m n s).2.put (some a)).put (some d))
          dsimp only
          rw [ag.1]
          refine ⟨_, rfl, ?_⟩
          have sub : onlyNew d (andThen (emit [.emptyDict]) (andThen (remember d) (itemsInOrder D (saveUKs D (kvs.map fun kv => (kv.1, φ kv.2))))))
              ((saveGlob m n s).2.put (some a)) =
              ((seqG (itemGraph mem (k + N)) (sortBy keyLe kvs) (((saveGlob m n s).2.put (some a)).put (some d))).2,
                [PTok.emptyDict] ++ ([PTok.memoize] ++ batches .setitem .setitems (kvs.length + 1)
                  (seqG (itemGraph mem (k + N)) (sortBy keyLe kvs) (((saveGlob m n s).2.put (some a)).put (some d))).1), none) := by
            rw [onlyNew, hfd]
            dsimp only
            rw [andThen_ok (s1 := (saveGlob m n s).2.put (some a)) (ts := [.emptyDict]) rfl,
              andThen_ok (s1 := ((saveGlob m n s).2.put (some a)).put (some d)) (ts := [.memoize]) rfl, ag.2]
          rw [andThen_ok sub]
          simp [emit]

/-- C105. Where there are no loops the hash is that of the tree. -/
theorem c105_tree (E : HashEnv) (strs : StrLt E) (mem : Nat → HCell) (a : Nat) (v : UVal) (tree : TreeAt mem a v) (fine : NoneStuck v ∧ AllNamed v) :
    ∃ N, ∀ n, N ≤ n → hashGraph E.digest mem n a = .ok (hasherOf E v.toJ) := by
  obtain ⟨N, hN⟩ := tree_agrees E.digest tree
  refine ⟨N, fun n hn => ?_⟩
  obtain ⟨h1, h2⟩ := hN n hn
  have f := c104_fine E strs v fine.1 fine.2
  rw [hashU, h2 {}] at f
  rw [hashGraph, h1 {}]
  exact f

/-! ### Examples -/

/-- `a = []; a.append(a)`: `a` has a hash. -/
example (D : Dump → Str) : ∃ t, ∀ n, 1 < n → hashGraph D (fun x => .list [x]) n 0 = .ok t :=
  c105_ends D (fun x => .list [x]) 0 [0] ⟨by simp, fun x _ y r => by cases r with | list h => simp_all⟩

/-- Another one elsewhere has the same. -/
example (D : Dump → Str) (n : Nat) : hashGraph D (fun x => .list [x]) n 0 = hashGraph D (fun x => .list [x]) n 5 := by
  refine c105_same D (fun x => .list [x]) (fun x => .list [x]) 0 5 ⟨fun x y => x = 0 ∧ y = 5, ⟨fun x y h => .list (xs := [x]) (ys := [y]) rfl fun i x' y' hx hy => ?_, fun x y x' y' h h' _ _ => ?_⟩, rfl, rfl⟩ n
  · cases i with
    | zero => simp only [List.getElem?_cons_zero, Option.some.injEq] at hx hy; exact ⟨hx.symm.trans h.1, hy.symm.trans h.2⟩
    | succ i => cases hx
  · exact ⟨fun _ => h.2.trans h'.2.symm, fun _ => h.1.trans h'.1.symm⟩

/-- `a = []; b = [a]; a.append(b)`: another shape, though `a` and `b` look like the list above (`[[...]]`). -/
example : ¬ SameShape (fun x => .list [x]) 0 (fun x => .list [1 - x]) 0 := by
  have L1 : MadeOf (fun x => .list [x]) 0 [0] := ⟨by simp, fun x _ y r => by cases r with | list h => simp_all⟩
  have L2 : MadeOf (fun x => .list [1 - x]) 0 [0, 1] := ⟨by simp, fun x hx y r => by cases r with | list h => simp at h hx ⊢; omega⟩
  intro h
  have := (c105_iff (fun d => List.replicate d.2.length 'x') _ _ (fun a kvs h => by cases h) 0 0 _ _ L1 L2 3 3 (by decide) (by decide) (fun r r' h h' e => by
    rw [show r = _ from (Option.some.inj h).symm, show r' = _ from (Option.some.inj h').symm] at e
    exact absurd e (by decide))).2 h
  exact absurd this (by decide)

/-- A parent that knows its child, which knows its parent. -/
def parentAndChild : Nat → HCell
  | 0 => .obj c!"m" c!"Parent" 1
  | 1 => .dict [(c!"child", 2)]
  | 2 => .obj c!"m" c!"Child" 3
  | 3 => .dict [(c!"name", 4), (c!"parent", 0)]
  | _ => .str c!"Kim"

example (D : Dump → Str) : ∃ t, ∀ n, 5 < n → hashGraph D parentAndChild n 0 = .ok t := by
  refine c105_ends D parentAndChild 0 [0, 1, 2, 3, 4] ⟨by simp, fun x hx y r => ?_⟩
  simp only [List.mem_cons, List.not_mem_nil, or_false] at hx
  rcases hx with rfl | rfl | rfl | rfl | rfl <;> cases r
  · simp
  · rename_i h; simp only [List.mem_cons, List.not_mem_nil, or_false, Prod.mk.injEq] at h ⊢; omega
  · simp
  · rename_i h; simp only [List.mem_cons, List.not_mem_nil, or_false, Prod.mk.injEq] at h ⊢; omega

/-- `d = {'a': 7}; [d, d]` -/
def twiceADict : Nat → HCell
  | 0 => .list [1, 1]
  | 1 => .dict [(c!"a", 2)]
  | _ => .int 7

example (D : Dump → Str) : ∃ N, ∀ n, N ≤ n → hashGraph D twiceADict n 0 =
    .ok (hasherOf (strEnv D) (UVal.list 0 [.dict 1 [(c!"a", .int 7)], .dict 1 [(c!"a", .int 7)]]).toJ) := by
  have one : TreeAt twiceADict 1 (.dict 1 [(c!"a", .int 7)]) := by
    refine .dict (kvs := [(c!"a", 2)]) (fun _ => .int 7) rfl fun kv hkv => ?_
    simp only [List.mem_cons, List.not_mem_nil, or_false] at hkv
    subst hkv
    exact .int rfl
  have none : ∀ u : UVal, u ≠ .list 0 [.dict 1 [(c!"a", .int 7)], .dict 1 [(c!"a", .int 7)]] → u ≠ .dict 1 [(c!"a", .int 7)] → u ≠ .int 7 →
      ¬ UInside u (.list 0 [.dict 1 [(c!"a", .int 7)], .dict 1 [(c!"a", .int 7)]]) := by
    intro u h1 h2 h3 h
    cases h with
    | refl => exact h1 rfl
    | list hx h =>
      simp only [List.mem_cons, List.not_mem_nil, or_false, or_self] at hx
      subst hx
      cases h with
      | refl => exact h2 rfl
      | dict hx h =>
        simp only [List.mem_cons, List.not_mem_nil, or_false] at hx
        subst hx
        cases h with
        | refl => exact h3 rfl
  refine c105_tree (strEnv D) (fun _ _ _ _ => rfl) twiceADict 0 _
    (.list (xs := [1, 1]) (fun _ => .dict 1 [(c!"a", .int 7)]) rfl fun x hx => ?_) ⟨?_, ?_⟩
  · simp only [List.mem_cons, List.not_mem_nil, or_false, or_self] at hx
    subst hx
    exact one
  · exact none _ (fun h => by cases h) (fun h => by cases h) (fun h => by cases h)
  · intro m n
    exact none _ (fun h => by cases h) (fun h => by cases h) (fun h => by cases h)

end Whatami
