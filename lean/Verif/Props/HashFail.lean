import Verif.Spec.HashFail
import Verif.Props.Hasher
import Verif.Encode

/-
C104: hashing values that cannot be pickled.
-/
namespace Whatami

theorem saveUs_map (D : Dump → Str) (xs : List UVal) : saveUs D xs = xs.map (saveU D) := by
  induction xs with
  | nil => rfl
  | cons x xs ih => simp only [saveUs, List.map_cons, ih]

theorem saveUKs_map (D : Dump → Str) (kvs : List (Str × UVal)) : saveUKs D kvs = kvs.map fun kv => (kv.1, saveU D kv.2) := by
  induction kvs with
  | nil => rfl
  | cons x xs ih => obtain ⟨k, x⟩ := x; simp only [saveUKs, List.map_cons, ih]

theorem toJL_map (xs : List UVal) : toJL xs = xs.map UVal.toJ := by
  induction xs with
  | nil => rfl
  | cons x xs ih => simp only [toJL, List.map_cons, ih]

theorem toJK_map (kvs : List (Str × UVal)) : toJK kvs = kvs.map fun kv => (.str 0 kv.1, kv.2.toJ) := by
  induction kvs with
  | nil => rfl
  | cons x xs ih => obtain ⟨k, x⟩ := x; simp only [toJK, List.map_cons, ih]

/-! ### When nothing goes wrong -/

/-- The action writes what `g` writes. -/
def Does (f : PickleAct) (g : PState → List PTok × PState) : Prop := ∀ s, f s = ((g s).2, (g s).1, none)

/-- One after the other: the tokens of each. -/
def seqG {α : Type} (g : α → PState → List PTok × PState) : List α → PState → List (List PTok) × PState
  | [], s => ([], s)
  | x :: xs, s => ((g x s).1 :: (seqG g xs (g x s).2).1, (seqG g xs (g x s).2).2)

theorem seqG_append {α : Type} (g : α → PState → List PTok × PState) (l r : List α) (s : PState) :
    seqG g (l ++ r) s = ((seqG g l s).1 ++ (seqG g r (seqG g l s).2).1, (seqG g r (seqG g l s).2).2) := by
  induction l generalizing s with
  | nil => rfl
  | cons x l ih => simp only [List.cons_append, seqG, ih]

theorem seqG_length {α : Type} (g : α → PState → List PTok × PState) (l : List α) (s : PState) : (seqG g l s).1.length = l.length := by
  induction l generalizing s with
  | nil => rfl
  | cons x l ih => simp [seqG, ih]

theorem savePickles_seqG (xs : List PNode) (s : PState) : savePickles xs s = seqG savePickle xs s := by
  induction xs generalizing s with
  | nil => rfl
  | cons x xs ih => simp only [savePickles, seqG, ih]

/-- A key and a value. -/
def savePair (kv : PNode × PNode) (s : PState) : List PTok × PState :=
  ((savePickle kv.1 s).1 ++ (savePickle kv.2 (savePickle kv.1 s).2).1, (savePickle kv.2 (savePickle kv.1 s).2).2)

theorem savePairs_seqG (xs : List (PNode × PNode)) (s : PState) : savePairs xs s = seqG savePair xs s := by
  induction xs generalizing s with
  | nil => rfl
  | cons x xs ih => obtain ⟨k, v⟩ := x; simp only [savePairs, seqG, ih, savePair]

theorem seqG_map {α β : Type} (g : β → PState → List PTok × PState) (φ : α → β) (l : List α) (s : PState) :
    seqG g (l.map φ) s = seqG (fun x => g (φ x)) l s := by
  induction l generalizing s with
  | nil => rfl
  | cons x l ih => simp only [List.map_cons, seqG, ih]

theorem andThen_ok {f g : PickleAct} {s s1 : PState} {ts : List PTok} (h : f s = (s1, ts, none)) :
    andThen f g s = ((g s1).1, ts ++ (g s1).2.1, (g s1).2.2) := by simp only [andThen, h]

theorem andThen_err {f g : PickleAct} {s s1 : PState} {ts : List PTok} {e : Err} (h : f s = (s1, ts, some e)) :
    andThen f g s = (s1, ts, some e) := by simp only [andThen, h]

theorem allOf_does {α : Type} {act : α → PickleAct} {g : α → PState → List PTok × PState} {l : List α} (h : ∀ x ∈ l, Does (act x) (g x)) :
    Does (allOf (l.map act)) fun s => ((seqG g l s).1.flatten, (seqG g l s).2) := by
  induction l with
  | nil => intro s; rfl
  | cons x l ih =>
    intro s
    rw [List.map_cons, allOf, andThen_ok (h x (by simp) s), ih (fun y hy => h y (by simp [hy]))]
    simp [seqG]

theorem inBatches_does {α : Type} {act : α → PickleAct} {g : α → PState → List PTok × PState} (one many : PTok) (f : Nat) : ∀ (l : List α),
    (∀ x ∈ l, Does (act x) (g x)) → l.length < f → Does (inBatches one many f (l.map act)) fun s => (batches one many f (seqG g l s).1, (seqG g l s).2) := by
  induction f with
  | zero => intro l h hl; omega
  | succ f ih =>
    intro l h hl s
    have h1 : ∀ x ∈ l.take 1000, Does (act x) (g x) := fun x hx => h x (List.mem_of_mem_take hx)
    have h2 : ∀ x ∈ l.drop 1000, Does (act x) (g x) := fun x hx => h x (List.mem_of_mem_drop hx)
    have e := seqG_append g (l.take 1000) (l.drop 1000) s
    rw [List.take_append_drop] at e
    have len := seqG_length g (l.take 1000) s
    have lt : (l.take 1000).length ≤ 1000 := by simp; omega
    have t1 : (seqG g l s).1.take 1000 = (seqG g (l.take 1000) s).1 := by
      rw [e]
      by_cases hf : (l.take 1000).length = 1000
      · rw [List.take_left' (by rw [len, hf])]
      · have : l.drop 1000 = [] := by simp at hf ⊢; omega
        rw [this]; simp only [seqG, List.append_nil]
        exact List.take_of_length_le (by rw [len]; exact lt)
    have t2 : (seqG g l s).1.drop 1000 = (seqG g (l.drop 1000) (seqG g (l.take 1000) s).2).1 := by
      rw [e]
      by_cases hf : (l.take 1000).length = 1000
      · rw [List.drop_left' (by rw [len, hf])]
      · have : l.drop 1000 = [] := by simp at hf ⊢; omega
        rw [this]; simp only [seqG, List.append_nil]
        exact List.drop_of_length_le (by rw [len]; exact lt)
    have all := allOf_does h1 s
    simp only [inBatches, batches, ← List.map_take, ← List.map_drop, List.length_map, t1, t2, len]
    have first : ∀ s1, s1 = (seqG g (l.take 1000) s).2 →
        (if (l.take 1000).length > 1 then andThen (emit [.mark]) (andThen (allOf ((l.take 1000).map act)) (emit [many]))
          else if (l.take 1000).length = 1 then andThen (allOf ((l.take 1000).map act)) (emit [one]) else emit []) s =
        (s1, if (l.take 1000).length > 1 then .mark :: (seqG g (l.take 1000) s).1.flatten ++ [many]
          else if (l.take 1000).length = 1 then (seqG g (l.take 1000) s).1.flatten ++ [one] else [], none) := by
      rintro s1 rfl
      split
      · simp only [andThen, emit, all]; simp
      · split
        · simp only [andThen, emit, all]
        · have : l.take 1000 = [] := List.eq_nil_of_length_eq_zero (by omega)
          rw [this]; rfl
    rw [andThen_ok (first _ rfl)]
    split
    · next hlt =>
      have : l.drop 1000 = [] := by simp at hlt ⊢; omega
      rw [e, this]
      rfl
    · next hlt =>
      rw [ih (l.drop 1000) h2 (by simp at hlt ⊢; omega), e]

theorem insertLt_strs {α : Type} {lt : α → α → Option Bool} {ψ : Str × UVal → α} (h : ∀ a b, lt (ψ a) (ψ b) = some (!strLe b.1 a.1)) (x : Str × UVal)
    (l : List (Str × UVal)) : insertLt lt (ψ x) (l.map ψ) = some ((insertBy keyLe x l).map ψ) := by
  induction l with
  | nil => rfl
  | cons y l ih =>
    simp only [List.map_cons, insertLt, h, insertBy]
    have e : keyLe x y = strLe x.1 y.1 := rfl
    rw [e]
    by_cases hs : strLe x.1 y.1 = true
    · simp [hs]
    · rw [Bool.not_eq_true] at hs
      simp [hs, ih]

theorem sortLt_strs {α : Type} {lt : α → α → Option Bool} {ψ : Str × UVal → α} (h : ∀ a b, lt (ψ a) (ψ b) = some (!strLe b.1 a.1))
    (l : List (Str × UVal)) : sortLt lt (l.map ψ) = some ((sortBy keyLe l).map ψ) := by
  induction l with
  | nil => rfl
  | cons x l ih =>
    simp only [List.map_cons, sortLt, ih, sortBy, Option.bind]
    exact insertLt_strs h x _

/-- Strings are compared as Python does. -/
def StrLt (E : HashEnv) : Prop := ∀ i j x y, E.lt (.str i x) (.str j y) = some (!strLe y x)

theorem orderItems_strs {E : HashEnv} (hE : StrLt E) (kvs : List (Str × UVal)) :
    orderItems E (arrangeD E (toJK kvs)) = (sortBy keyLe kvs).map fun kv => (.str kv.1, arrange E kv.2.toJ) := by
  rw [orderItems, arrangeD_map, toJK_map, List.map_map,
    sortLt_strs (ψ := (fun x => (x, arrange E x.1, arrange E x.2)) ∘ fun kv : Str × UVal => (JVal.str 0 kv.1, kv.2.toJ)) (fun a b => hE 0 0 a.1 b.1)]
  simp only [List.map_map]
  exact List.map_congr_left fun kv _ => rfl

theorem sortBy_acts (D : Dump → Str) (kvs : List (Str × UVal)) :
    sortBy (fun a b : Str × PickleAct => strLe a.1 b.1) (kvs.map fun kv => (kv.1, saveU D kv.2)) =
      (sortBy keyLe kvs).map fun kv => (kv.1, saveU D kv.2) :=
  sortBy_map (le := keyLe) (f := fun kv => (kv.1, saveU D kv.2)) (fun _ _ => rfl) kvs

/-- An item of a dict. -/
def itemAct (D : Dump → Str) (kv : Str × UVal) : PickleAct := andThen (emit [.str kv.1]) (saveU D kv.2)

theorem setItems_sorted (D : Dump → Str) (kvs : List (Str × UVal)) : setItems (sortBy (fun a b => strLe a.1 b.1) (saveUKs D kvs)) =
    inBatches .setitem .setitems (kvs.length + 1) ((sortBy keyLe kvs).map (itemAct D)) := by
  rw [saveUKs_map, sortBy_acts, setItems, List.length_map, (sortBy_perm _ _).length_eq, List.map_map]
  rfl

theorem sortedItems_does {D : Dump → Str} {E : HashEnv} (hE : StrLt E) {kvs : List (Str × UVal)}
    (h : ∀ kv ∈ kvs, Does (saveU D kv.2) (savePickle (arrange E kv.2.toJ))) :
    Does (itemsInOrder D (saveUKs D kvs)) fun s => (batches .setitem .setitems ((orderItems E (arrangeD E (toJK kvs))).length + 1)
      (savePairs (orderItems E (arrangeD E (toJK kvs))) s).1, (savePairs (orderItems E (arrangeD E (toJK kvs))) s).2) := by
  intro s
  have items : ∀ kv ∈ sortBy keyLe kvs, Does (itemAct D kv) (savePair (.str kv.1, arrange E kv.2.toJ)) := by
    intro kv hkv s
    rw [itemAct, andThen_ok (s1 := s) (ts := [.str kv.1]) rfl, h kv (mem_sortBy.1 hkv) s]
    rfl
  have first := inBatches_does .setitem .setitems (kvs.length + 1) _ items (by rw [(sortBy_perm _ _).length_eq]; omega) s
  rw [← setItems_sorted] at first
  rw [itemsInOrder, orElse, first]
  simp only [orderItems_strs hE, savePairs_seqG, seqG_map, List.length_map, (sortBy_perm _ _).length_eq]

mutual
theorem saveU_does {D : Dump → Str} {E : HashEnv} (hE : StrLt E) : ∀ v : UVal, NoneStuck v → AllNamed v → Does (saveU D v) (savePickle (arrange E v.toJ))
  | .none, _, _ => fun s => rfl
  | .int i, _, _ => fun s => rfl
  | .str t, _, _ => fun s => rfl
  | .stuck, h, _ => absurd (.refl _) h
  | .glob m n true, _, _ => fun s => by
      simp only [saveU, saveName, UVal.toJ, arrange, savePickle, saveGlob]
      cases s.globs.find? fun p => p.1 == (m, n) <;> rfl
  | .glob m n false, _, h => absurd (.refl _) (h m n)
  | .tuple id xs, h1, h2 => by
      have ih := saveUs_does (D := D) hE xs (fun x hx h => h1 (.tuple hx h)) (fun x hx m n h => h2 m n (.tuple hx h))
      intro s
      have all := allOf_does ih s
      simp only [saveU, UVal.toJ, arrange, savePickle, arrangeL_map, toJL_map, saveUs_map, List.map_map]
      cases xs with
      | nil => rfl
      | cons x xs =>
        simp only [List.isEmpty_cons, Bool.false_eq_true, if_false, List.map_cons, onlyNew, savePickles_seqG]
        cases s.find (some id) with
        | some i => rfl
        | none =>
          rw [← List.map_cons (f := saveU D), ← List.map_cons (f := Prod.snd ∘ (fun x => (x, arrange E x)) ∘ UVal.toJ), seqG_map]
          dsimp only
          simp only [List.length_map]
          split
          · rw [andThen_ok all]; rfl
          · rw [andThen_ok (s1 := s) (ts := [.mark]) rfl, andThen_ok all]; simp [andThen, emit, remember]
  | .list id xs, h1, h2 => by
      have ih := saveUs_does (D := D) hE xs (fun x hx h => h1 (.list hx h)) (fun x hx m n h => h2 m n (.list hx h))
      intro s
      simp only [saveU, UVal.toJ, arrange, savePickle, arrangeL_map, toJL_map, saveUs_map, List.map_map, onlyNew, savePickles_seqG]
      cases s.find (some id) with
      | some i => rfl
      | none =>
        have all := inBatches_does .append .appends (xs.length + 1) xs ih (by omega) (s.put (some id))
        dsimp only
        rw [andThen_ok (s1 := s) (ts := [.emptyList]) rfl, andThen_ok (s1 := s.put (some id)) (ts := [.memoize]) rfl, all, seqG_map, List.length_map]
        rfl
  | .dict id kvs, h1, h2 => by
      have ih := saveUKs_does (D := D) hE kvs (fun x hx h => h1 (.dict hx h)) (fun x hx m n h => h2 m n (.dict hx h))
      intro s
      simp only [saveU, UVal.toJ, arrange, savePickle, onlyNew]
      cases s.find (some id) with
      | some i => rfl
      | none =>
        dsimp only
        rw [andThen_ok (s1 := s) (ts := [.emptyDict]) rfl, andThen_ok (s1 := s.put (some id)) (ts := [.memoize]) rfl, sortedItems_does hE ih]
        rfl
  | .obj id m n did kvs, h1, h2 => by
      have ih := saveUKs_does (D := D) hE kvs (fun x hx h => h1 (.obj hx h)) (fun x hx m n h => h2 m n (.obj hx h))
      intro s
      have g : saveName m n true s = ((saveGlob m n s).2, (saveGlob m n s).1, none) := by
        simp only [saveName, saveGlob]
        cases s.globs.find? fun p => p.1 == (m, n) <;> rfl
      simp only [saveU, UVal.toJ, arrange, savePickle, onlyNew]
      cases s.find (some id) with
      | some i => rfl
      | none =>
        dsimp only
        rw [andThen_ok g, andThen_ok (s1 := (saveGlob m n s).2) (ts := [.emptyTuple, .newobj]) rfl,
          andThen_ok (s1 := (saveGlob m n s).2.put (some id)) (ts := [.memoize]) rfl]
        have empty : (orderItems E (arrangeD E (toJK kvs))).isEmpty = kvs.isEmpty := by
          rw [orderItems_strs hE]
          have l := (sortBy_perm keyLe kvs).length_eq
          cases kvs with
          | nil => rfl
          | cons x l' =>
            cases hs : sortBy keyLe (x :: l') with
            | nil => rw [hs] at l; cases l
            | cons => rfl
        rw [empty]
        cases hk : kvs.isEmpty with
        | true => simp [emit]
        | false =>
          simp only [Bool.false_eq_true, if_false]
          cases hd : ((saveGlob m n s).2.put (some id)).find (some did) with
          | some i => simp [andThen, emit, hd, onlyNew]
          | none =>
            dsimp only
            have sub : onlyNew did (andThen (emit [.emptyDict]) (andThen (remember did) (itemsInOrder D (saveUKs D kvs)))) ((saveGlob m n s).2.put (some id)) =
                ((savePairs (orderItems E (arrangeD E (toJK kvs))) (((saveGlob m n s).2.put (some id)).put (some did))).2,
                  .emptyDict :: .memoize :: batches .setitem .setitems ((orderItems E (arrangeD E (toJK kvs))).length + 1)
                    (savePairs (orderItems E (arrangeD E (toJK kvs))) (((saveGlob m n s).2.put (some id)).put (some did))).1, none) := by
              rw [onlyNew, hd]
              dsimp only
              rw [andThen_ok (s1 := (saveGlob m n s).2.put (some id)) (ts := [.emptyDict]) rfl,
                andThen_ok (s1 := ((saveGlob m n s).2.put (some id)).put (some did)) (ts := [.memoize]) rfl, sortedItems_does hE ih]
              rfl
            rw [andThen_ok sub]
            simp [emit]
theorem saveUs_does {D : Dump → Str} {E : HashEnv} (hE : StrLt E) : ∀ xs : List UVal, (∀ x ∈ xs, NoneStuck x) → (∀ x ∈ xs, AllNamed x) →
    ∀ x ∈ xs, Does (saveU D x) (savePickle (arrange E x.toJ))
  | [], _, _ => fun x hx => by cases hx
  | y :: ys, h1, h2 => fun x hx => by
      by_cases e : x ∈ ys
      · exact saveUs_does hE ys (fun x hx => h1 x (by simp [hx])) (fun x hx => h2 x (by simp [hx])) x e
      · have : x = y := (List.mem_cons.1 hx).resolve_right e
        rw [this]
        exact saveU_does hE y (h1 y (by simp)) (h2 y (by simp))
theorem saveUKs_does {D : Dump → Str} {E : HashEnv} (hE : StrLt E) : ∀ kvs : List (Str × UVal), (∀ x ∈ kvs, NoneStuck x.2) → (∀ x ∈ kvs, AllNamed x.2) →
    ∀ x ∈ kvs, Does (saveU D x.2) (savePickle (arrange E x.2.toJ))
  | [], _, _ => fun x hx => by cases hx
  | (k, y) :: ys, h1, h2 => fun x hx => by
      by_cases e : x ∈ ys
      · exact saveUKs_does hE ys (fun x hx => h1 x (by simp [hx])) (fun x hx => h2 x (by simp [hx])) x e
      · have : x = (k, y) := (List.mem_cons.1 hx).resolve_right e
        rw [this]
        exact saveU_does hE y (h1 (k, y) (by simp)) (h2 (k, y) (by simp))
end

/-- C104. A value with nothing in it that cannot be pickled: its hash is that of C65. -/
theorem c104_fine (E : HashEnv) (strs : StrLt E) (v : UVal) (stuck : NoneStuck v) (named : AllNamed v) :
    hashU E.digest v = .ok (hasherOf E v.toJ) := by
  simp only [hashU, saveU_does strs v stuck named {}]
  rfl

/-! ### What pickling does to the memo -/

/-- The object is in the memo. -/
def MemoHas (s : PState) (i : Nat) : Prop := (s.find (some i)).isSome = true

theorem knows_put {s : PState} {i j : Nat} : MemoHas (s.put (some i)) j ↔ i = j ∨ MemoHas s j := by
  by_cases h : i = j
  · simp [MemoHas, PState.find, PState.put, h]
  · simp [MemoHas, PState.find, PState.put, List.find?_cons, h]

theorem knows_glob {s : PState} {m n : Str} {j : Nat} : MemoHas (saveGlob m n s).2 j ↔ MemoHas s j := by
  unfold saveGlob
  cases s.globs.find? fun p => p.1 == (m, n) <;> rfl

theorem onlyNew_new {id : Nat} {f : PickleAct} {s : PState} (h : ¬ MemoHas s id) : onlyNew id f s = f s := by
  have : s.find (some id) = none := by
    cases e : s.find (some id) with
    | none => rfl
    | some i => exact absurd (by simp [MemoHas, e]) h
  simp only [onlyNew, this]

theorem onlyNew_known {id : Nat} {f : PickleAct} {s : PState} (h : MemoHas s id) : ∃ ts, onlyNew id f s = (s, ts, none) := by
  cases e : s.find (some id) with
  | none => simp [MemoHas, e] at h
  | some i => exact ⟨[.get i], by simp only [onlyNew, e]⟩

section
variable {Rel : PState → PState → Prop} (rfl' : ∀ s, Rel s s) (tr : ∀ {a b c}, Rel a b → Rel b c → Rel a c)
include rfl' tr

theorem rel_andThen {f g : PickleAct} (hf : ∀ s, Rel s (f s).1) (hg : ∀ s, Rel s (g s).1) (s : PState) : Rel s (andThen f g s).1 := by
  have h := hf s
  cases e : f s with
  | mk s1 r =>
    obtain ⟨ts, o⟩ := r
    rw [e] at h
    cases o with
    | none => rw [andThen_ok e]; exact tr h (hg s1)
    | some x => rw [andThen_err e]; exact h

theorem rel_orElse {f g : PickleAct} (hf : ∀ s, Rel s (f s).1) (hg : ∀ s, Rel s (g s).1) (s : PState) : Rel s (orElse f g s).1 := by
  have h := hf s
  unfold orElse
  split
  · next s1 ts e => rw [e] at h; exact tr h (hg s1)
  · exact h

theorem rel_allOf {l : List PickleAct} (h : ∀ f ∈ l, ∀ s, Rel s (f s).1) (s : PState) : Rel s (allOf l s).1 := by
  induction l generalizing s with
  | nil => exact rfl' s
  | cons f l ih => exact rel_andThen rfl' tr (h f (by simp)) (ih fun f hf => h f (by simp [hf])) s

theorem rel_onlyNew {id : Nat} {f : PickleAct} (hf : ∀ s, Rel s (f s).1) (s : PState) : Rel s (onlyNew id f s).1 := by
  unfold onlyNew
  split
  · exact rfl' s
  · exact hf s

theorem rel_inBatches {one many : PTok} (k : Nat) : ∀ {l : List PickleAct}, (∀ f ∈ l, ∀ s, Rel s (f s).1) → ∀ s, Rel s (inBatches one many k l s).1 := by
  induction k with
  | zero => intro l _ s; exact rfl' s
  | succ k ih =>
    intro l h s
    have e : ∀ ts s, Rel s (emit ts s).1 := fun ts s => rfl' s
    have a : ∀ s, Rel s (allOf (l.take 1000) s).1 := rel_allOf rfl' tr fun f hf => h f (List.mem_of_mem_take hf)
    refine rel_andThen rfl' tr ?_ ?_ s
    · split
      · exact rel_andThen rfl' tr (e _) (rel_andThen rfl' tr a (e _))
      · split
        · exact rel_andThen rfl' tr a (e _)
        · exact e _
    · split
      · exact e _
      · exact ih fun f hf => h f (List.mem_of_mem_drop hf)

theorem rel_sortedItems {D : Dump → Str} {items : List (Str × PickleAct)} (h : ∀ x ∈ items, ∀ s, Rel s (x.2 s).1) (s : PState) :
    Rel s (itemsInOrder D items s).1 := by
  have one : ∀ l : List (Str × PickleAct), (∀ x ∈ l, ∀ s, Rel s (x.2 s).1) → ∀ s, Rel s (setItems l s).1 := by
    intro l hl
    refine rel_inBatches rfl' tr _ fun f hf => ?_
    obtain ⟨x, hx, rfl⟩ := List.mem_map.1 hf
    exact rel_andThen rfl' tr (fun s => rfl' s) (hl x hx)
  refine rel_orElse rfl' tr (one _ fun x hx => h x (mem_sortBy.1 hx)) (one _ fun x hx => ?_) s
  obtain ⟨y, hy, rfl⟩ := List.mem_map.1 (mem_sortBy.1 hx)
  exact h y hy

variable (glob : ∀ s m n, Rel s (saveGlob m n s).2)
include glob

theorem rel_saveName (m n : Str) (found : Bool) (s : PState) : Rel s (saveName m n found s).1 := by
  unfold saveName
  cases s.globs.find? fun p => p.1 == (m, n) <;> cases found <;> first | exact rfl' s | exact glob s m n

mutual
theorem rel_saveU (D : Dump → Str) : ∀ v : UVal, (∀ i ∈ uids v, ∀ s, Rel s (s.put (some i))) → ∀ s, Rel s (saveU D v s).1
  | .none, _, s => rfl' s
  | .int i, _, s => rfl' s
  | .str t, _, s => rfl' s
  | .stuck, _, s => rfl' s
  | .glob m n found, _, s => rel_saveName rfl' tr glob m n found s
  | .tuple id xs, h, s => by
      have ih := rel_saveUs D xs fun i hi => h i (by simp [uids, hi])
      have e : ∀ ts s, Rel s (emit ts s).1 := fun ts s => rfl' s
      have r : ∀ s, Rel s (remember id s).1 := h id (by simp [uids])
      simp only [saveU]
      split
      · exact rfl' s
      · refine rel_onlyNew rfl' tr ?_ s
        split
        · exact rel_andThen rfl' tr (rel_allOf rfl' tr ih) (rel_andThen rfl' tr (e _) r)
        · exact rel_andThen rfl' tr (e _) (rel_andThen rfl' tr (rel_allOf rfl' tr ih) (rel_andThen rfl' tr (e _) r))
  | .list id xs, h, s => by
      have ih := rel_saveUs D xs fun i hi => h i (by simp [uids, hi])
      have e : ∀ ts s, Rel s (emit ts s).1 := fun ts s => rfl' s
      have r : ∀ s, Rel s (remember id s).1 := h id (by simp [uids])
      exact rel_onlyNew rfl' tr (rel_andThen rfl' tr (e _) (rel_andThen rfl' tr r (rel_inBatches rfl' tr _ ih))) s
  | .dict id kvs, h, s => by
      have ih := rel_saveUKs D kvs fun i hi => h i (by simp [uids, hi])
      have e : ∀ ts s, Rel s (emit ts s).1 := fun ts s => rfl' s
      have r : ∀ s, Rel s (remember id s).1 := h id (by simp [uids])
      exact rel_onlyNew rfl' tr (rel_andThen rfl' tr (e _) (rel_andThen rfl' tr r (rel_sortedItems rfl' tr ih))) s
  | .obj id m n did kvs, h, s => by
      have ih := rel_saveUKs D kvs fun i hi => h i (by simp [uids, hi])
      have e : ∀ ts s, Rel s (emit ts s).1 := fun ts s => rfl' s
      have r : ∀ s, Rel s (remember id s).1 := h id (by simp [uids])
      have r' : ∀ s, Rel s (remember did s).1 := h did (by simp [uids])
      simp only [saveU]
      refine rel_onlyNew rfl' tr (rel_andThen rfl' tr (rel_saveName rfl' tr glob m n true) (rel_andThen rfl' tr (e _) (rel_andThen rfl' tr r ?_))) s
      split
      · exact e _
      · exact rel_andThen rfl' tr (rel_onlyNew rfl' tr (rel_andThen rfl' tr (e _) (rel_andThen rfl' tr r' (rel_sortedItems rfl' tr ih)))) (e _)
theorem rel_saveUs (D : Dump → Str) : ∀ xs : List UVal, (∀ i ∈ uidsL xs, ∀ s, Rel s (s.put (some i))) → ∀ f ∈ saveUs D xs, ∀ s, Rel s (f s).1
  | [], _, f, hf, _ => by cases hf
  | x :: xs, h, f, hf, s => by
      rcases List.mem_cons.1 hf with e | hf
      · rw [e]; exact rel_saveU D x (fun i hi => h i (by simp [uidsL, hi])) s
      · exact rel_saveUs D xs (fun i hi => h i (by simp [uidsL, hi])) f hf s
theorem rel_saveUKs (D : Dump → Str) : ∀ kvs : List (Str × UVal), (∀ i ∈ uidsK kvs, ∀ s, Rel s (s.put (some i))) →
    ∀ f ∈ saveUKs D kvs, ∀ s, Rel s (f.2 s).1
  | [], _, f, hf, _ => by cases hf
  | (k, x) :: xs, h, f, hf, s => by
      rcases List.mem_cons.1 hf with e | hf
      · rw [e]; exact rel_saveU D x (fun i hi => h i (by simp [uidsK, hi])) s
      · exact rel_saveUKs D xs (fun i hi => h i (by simp [uidsK, hi])) f hf s
end

end

/-- What was in the memo stays. -/
theorem saveU_keeps (D : Dump → Str) (v : UVal) (s : PState) (i : Nat) (h : MemoHas s i) : MemoHas (saveU D v s).1 i :=
  rel_saveU (Rel := fun s s' => ∀ i, MemoHas s i → MemoHas s' i) (fun _ _ h => h) (fun h h' i hi => h' i (h i hi)) (fun _ _ _ _ h => knows_glob.2 h) D v
    (fun _ _ _ _ h => knows_put.2 (.inr h)) s i h

/-- What comes into the memo is inside. -/
theorem saveU_adds (D : Dump → Str) (v : UVal) (s : PState) (i : Nat) (h : MemoHas (saveU D v s).1 i) : MemoHas s i ∨ i ∈ uids v :=
  rel_saveU (Rel := fun s s' => ∀ i, MemoHas s' i → MemoHas s i ∨ i ∈ uids v) (fun _ _ h => .inl h)
    (fun h h' i hi => (h' i hi).elim (h i) .inr) (fun _ _ _ _ h => .inl (knows_glob.1 h)) D v
    (fun j hj _ i h => (knows_put.1 h).elim (fun e => .inr (e ▸ hj)) .inl) s i h

/-! ### Errors -/

theorem uidsL_flat (xs : List UVal) : uidsL xs = xs.flatMap uids := by
  induction xs with
  | nil => rfl
  | cons x xs ih => simp [uidsL, ih]

theorem uidsK_flat (kvs : List (Str × UVal)) : uidsK kvs = kvs.flatMap fun kv => uids kv.2 := by
  induction kvs with
  | nil => rfl
  | cons x xs ih => obtain ⟨k, x⟩ := x; simp [uidsK, ih]

theorem andThen_emit (f : PickleAct) (ts : List PTok) (s : PState) :
    (andThen f (emit ts) s).1 = (f s).1 ∧ (andThen f (emit ts) s).2.2 = (f s).2.2 := by
  cases e : f s with
  | mk s1 r =>
    obtain ⟨t, o⟩ := r
    cases o with
    | none => rw [andThen_ok e]; exact ⟨rfl, rfl⟩
    | some x => rw [andThen_err e]; exact ⟨rfl, rfl⟩

theorem emit_andThen (f : PickleAct) (ts : List PTok) (s : PState) :
    (andThen (emit ts) f s).1 = (f s).1 ∧ (andThen (emit ts) f s).2.2 = (f s).2.2 := by
  rw [andThen_ok (s1 := s) (ts := ts) rfl]; exact ⟨rfl, rfl⟩

theorem allOf_append (l r : List PickleAct) (s : PState) : allOf (l ++ r) s = andThen (allOf l) (allOf r) s := by
  induction l generalizing s with
  | nil => rw [List.nil_append, allOf, andThen_ok (s1 := s) (ts := []) rfl]; rfl
  | cons f l ih =>
    simp only [List.cons_append, allOf]
    cases e : f s with
    | mk s1 x =>
      obtain ⟨t, o⟩ := x
      cases o with
      | some x =>
        rw [andThen_err e, andThen_err (andThen_err e)]
      | none =>
        rw [andThen_ok e, ih]
        cases e' : allOf l s1 with
        | mk s2 y =>
          obtain ⟨t', o'⟩ := y
          cases o' with
          | none =>
            rw [andThen_ok e', andThen_ok (f := andThen f (allOf l)) (s1 := s2) (ts := t ++ t') (by rw [andThen_ok e, e'])]
            simp
          | some z =>
            rw [andThen_err e', andThen_err (f := andThen f (allOf l)) (s1 := s2) (ts := t ++ t') (e := z) (by rw [andThen_ok e, e'])]

/-- Batches end as their elements do, one after the other. -/
theorem inBatches_run (one many : PTok) (k : Nat) : ∀ (l : List PickleAct), l.length < k → ∀ s,
    (inBatches one many k l s).1 = (allOf l s).1 ∧ (inBatches one many k l s).2.2 = (allOf l s).2.2 := by
  induction k with
  | zero => intro l h; omega
  | succ k ih =>
    intro l hl s
    simp only [inBatches]
    have first : ∀ F : PickleAct, F = (if (l.take 1000).length > 1 then andThen (emit [.mark]) (andThen (allOf (l.take 1000)) (emit [many]))
        else if (l.take 1000).length = 1 then andThen (allOf (l.take 1000)) (emit [one]) else emit []) →
        (F s).1 = (allOf (l.take 1000) s).1 ∧ (F s).2.2 = (allOf (l.take 1000) s).2.2 := by
      rintro F rfl
      split
      · have a := emit_andThen (andThen (allOf (l.take 1000)) (emit [many])) [.mark] s
        have b := andThen_emit (allOf (l.take 1000)) [many] s
        exact ⟨a.1.trans b.1, a.2.trans b.2⟩
      · split
        · exact andThen_emit _ _ s
        · have : l.take 1000 = [] := List.eq_nil_of_length_eq_zero (by omega)
          rw [this]; exact ⟨rfl, rfl⟩
    have hF := first _ rfl
    have all := allOf_append (l.take 1000) (l.drop 1000) s
    rw [List.take_append_drop] at all
    rw [all]
    generalize hG : (if (l.take 1000).length > 1 then andThen (emit [.mark]) (andThen (allOf (l.take 1000)) (emit [many]))
        else if (l.take 1000).length = 1 then andThen (allOf (l.take 1000)) (emit [one]) else emit []) = F at hF ⊢
    cases e : allOf (l.take 1000) s with
    | mk s1 r =>
      obtain ⟨t, o⟩ := r
      rw [e] at hF
      obtain ⟨h1, h2⟩ := hF
      cases e' : F s with
      | mk s1' r' =>
        obtain ⟨t', o'⟩ := r'
        rw [e'] at h1 h2
        dsimp only at h1 h2
        subst h1 h2
        cases o' with
        | some x => rw [andThen_err e, andThen_err e']; exact ⟨rfl, rfl⟩
        | none =>
          rw [andThen_ok e, andThen_ok e']
          dsimp only
          split
          · next hlt =>
            have : l.drop 1000 = [] := by simp at hlt ⊢; omega
            rw [this]; exact ⟨rfl, rfl⟩
          · next hlt => exact ih (l.drop 1000) (by simp at hlt ⊢; omega) s1'

/-- Several actions of which some fail, all with `e`, when what they remember does not overlap. -/
theorem allOf_fails {α : Type} {act : α → PickleAct} {ids : α → List Nat} {e : Err} : ∀ (l : List α),
    (∀ x ∈ l, ∀ s i, MemoHas (act x s).1 i → MemoHas s i ∨ i ∈ ids x) →
    (∀ x ∈ l, (∀ s, (∀ i ∈ ids x, ¬ MemoHas s i) → (act x s).2.2 = none) ∨ ∀ s, (∀ i ∈ ids x, ¬ MemoHas s i) → (act x s).2.2 = some e) →
    (∃ x ∈ l, ∀ s, (∀ i ∈ ids x, ¬ MemoHas s i) → (act x s).2.2 = some e) →
    (l.flatMap ids).Nodup → ∀ s, (∀ i ∈ l.flatMap ids, ¬ MemoHas s i) → (allOf (l.map act) s).2.2 = some e
  | [], _, _, h, _, _, _ => by obtain ⟨x, hx, -⟩ := h; cases hx
  | x :: l, adds, each, bad, nd, s, fresh => by
      rw [List.flatMap_cons, List.nodup_append] at nd
      have fx : ∀ i ∈ ids x, ¬ MemoHas s i := fun i hi => fresh i (by simp [hi])
      rw [List.map_cons, allOf]
      cases ex : act x s with
      | mk s1 r =>
        obtain ⟨t, o⟩ := r
        rcases each x (by simp) with h | h
        · have := h s fx
          rw [ex] at this
          dsimp only at this
          subst this
          rw [andThen_ok ex]
          refine allOf_fails l (fun y hy => adds y (by simp [hy])) (fun y hy => each y (by simp [hy])) ?_ nd.2.1 s1 fun i hi hk => ?_
          · obtain ⟨y, hy, hb⟩ := bad
            rcases List.mem_cons.1 hy with rfl | hy
            · have := hb s fx; rw [ex] at this; cases this
            · exact ⟨y, hy, hb⟩
          · have := adds x (by simp) s i (by rw [ex]; exact hk)
            rcases this with h | h
            · exact fresh i (by rw [List.flatMap_cons]; simp [hi]) h
            · exact nd.2.2 i h i hi rfl
        · have := h s fx
          rw [ex] at this
          dsimp only at this
          subst this
          rw [andThen_err ex]

/-- What is wrong inside raises `e`, and is not under a dict if that is TypeError. -/
def Spoilt (e : Err) (v : UVal) : Prop :=
  (e = .exception ∧ NoneStuck v ∧ ¬ AllNamed v) ∨ (e = .typeError ∧ AllNamed v ∧ ¬ NoneStuck v ∧ NoDicts v)

/-- Strings compared as in Python, nothing else compared. -/
def strEnv (D : Dump → Str) : HashEnv where
  lt := fun a b => match a, b with
    | .str _ x, .str _ y => some (!strLe y x)
    | _, _ => none
  digest := D

theorem saveU_good {D : Dump → Str} {v : UVal} (h1 : NoneStuck v) (h2 : AllNamed v) (s : PState) : (saveU D v s).2.2 = none := by
  rw [saveU_does (E := strEnv D) (fun _ _ _ _ => rfl) v h1 h2 s]

/-- The parts of a spoilt value: each is spoilt or fine, and some are spoilt. -/
theorem spoilt_parts {α : Type} {e : Err} {v : UVal} {l : List α} {φ : α → UVal} (sub : ∀ x ∈ l, ∀ u, UInside u (φ x) → UInside u v)
    (cover : ∀ u, UInside u v → u = v ∨ ∃ x ∈ l, UInside u (φ x)) (hs : v ≠ .stuck) (hg : ∀ m n, v ≠ .glob m n false) (h : Spoilt e v) :
    (∀ x ∈ l, (NoneStuck (φ x) ∧ AllNamed (φ x)) ∨ Spoilt e (φ x)) ∧ ∃ x ∈ l, Spoilt e (φ x) := by
  rcases h with ⟨rfl, h1, h2⟩ | ⟨rfl, h1, h2, h3⟩
  · have none : ∀ x ∈ l, NoneStuck (φ x) := fun x hx h => h1 (sub x hx _ h)
    refine ⟨fun x hx => ?_, ?_⟩
    · by_cases hn : AllNamed (φ x)
      · exact .inl ⟨none x hx, hn⟩
      · exact .inr (.inl ⟨rfl, none x hx, hn⟩)
    · refine Classical.byContradiction fun hx => h2 fun m n hi => ?_
      rcases cover _ hi with h | ⟨x, hl, hi⟩
      · exact hg m n h.symm
      · exact hx ⟨x, hl, .inl ⟨rfl, none x hl, fun h => h m n hi⟩⟩
  · have named : ∀ x ∈ l, AllNamed (φ x) := fun x hx m n h => h1 m n (sub x hx _ h)
    have bare : ∀ x ∈ l, NoDicts (φ x) := fun x hx => ⟨fun _ _ h => h3.1 _ _ (sub x hx _ h), fun _ _ _ _ _ h => h3.2 _ _ _ _ _ (sub x hx _ h)⟩
    refine ⟨fun x hx => ?_, ?_⟩
    · by_cases hn : NoneStuck (φ x)
      · exact .inl ⟨hn, named x hx⟩
      · exact .inr (.inr ⟨rfl, named x hx, hn, bare x hx⟩)
    · refine Classical.byContradiction fun hx => h2 fun hi => ?_
      rcases cover _ hi with h | ⟨x, hl, hi⟩
      · exact hs h.symm
      · exact hx ⟨x, hl, .inr ⟨rfl, named x hl, fun h => h hi, bare x hl⟩⟩

theorem nodup_part {α : Type} {f : α → List Nat} {l : List α} (h : (l.flatMap f).Nodup) {x : α} (hx : x ∈ l) : (f x).Nodup := by
  induction l with
  | nil => cases hx
  | cons y l ih =>
    rw [List.flatMap_cons, List.nodup_append] at h
    rcases List.mem_cons.1 hx with rfl | hx
    · exact h.1
    · exact ih h.2.1 hx

theorem spoilt_items {D : Dump → Str} {e : Err} {kvs : List (Str × UVal)}
    (ih : ∀ x ∈ kvs, Spoilt e x.2 → (uids x.2).Nodup → ∀ s, (∀ i ∈ uids x.2, ¬ MemoHas s i) → (saveU D x.2 s).2.2 = some e)
    (parts : (∀ x ∈ kvs, (NoneStuck x.2 ∧ AllNamed x.2) ∨ Spoilt e x.2) ∧ ∃ x ∈ kvs, Spoilt e x.2) (ne : e ≠ .typeError)
    (nd : (uidsK kvs).Nodup) (s : PState) (fresh : ∀ i ∈ uidsK kvs, ¬ MemoHas s i) : (itemsInOrder D (saveUKs D kvs) s).2.2 = some e := by
  rw [uidsK_flat] at nd fresh
  have p : ((sortBy keyLe kvs).flatMap fun kv => uids kv.2).Perm (kvs.flatMap fun kv => uids kv.2) := (sortBy_perm keyLe kvs).flatMap_right _
  have ndx : ∀ x ∈ kvs, (uids x.2).Nodup := fun x hx => nodup_part (f := fun kv : Str × UVal => uids kv.2) nd hx
  have run : ∀ (x : Str × UVal) s, (itemAct D x s).1 = (saveU D x.2 s).1 ∧ (itemAct D x s).2.2 = (saveU D x.2 s).2.2 := fun x s => emit_andThen _ _ s
  have first : (setItems (sortBy (fun a b => strLe a.1 b.1) (saveUKs D kvs)) s).2.2 = some e := by
    rw [setItems_sorted, (inBatches_run _ _ _ _ (by rw [List.length_map, (sortBy_perm _ _).length_eq]; omega) s).2]
    refine allOf_fails (ids := fun kv => uids kv.2) (sortBy keyLe kvs) (fun x hx s i h => ?_) (fun x hx => ?_) ?_ (p.nodup_iff.2 nd) s
      fun i hi => fresh i (p.mem_iff.1 hi)
    · rw [(run x s).1] at h; exact saveU_adds D x.2 s i h
    · have hx := mem_sortBy.1 hx
      rcases parts.1 x hx with ⟨h1, h2⟩ | h
      · exact .inl fun s _ => by rw [(run x s).2]; exact saveU_good h1 h2 s
      · exact .inr fun s hf => by rw [(run x s).2]; exact ih x hx h (ndx x hx) s hf
    · obtain ⟨x, hx, h⟩ := parts.2
      exact ⟨x, mem_sortBy.2 hx, fun s hf => by rw [(run x s).2]; exact ih x hx h (ndx x hx) s hf⟩
  rw [itemsInOrder]
  cases ef : setItems (sortBy (fun a b => strLe a.1 b.1) (saveUKs D kvs)) s with
  | mk s1 r =>
    obtain ⟨t, o⟩ := r
    rw [ef] at first
    dsimp only at first
    subst first
    rw [orElse, ef]
    cases e <;> first | rfl | exact absurd rfl ne

theorem spoilt_elems {D : Dump → Str} {e : Err} {xs : List UVal}
    (ih : ∀ x ∈ xs, Spoilt e x → (uids x).Nodup → ∀ s, (∀ i ∈ uids x, ¬ MemoHas s i) → (saveU D x s).2.2 = some e)
    (parts : (∀ x ∈ xs, (NoneStuck x ∧ AllNamed x) ∨ Spoilt e x) ∧ ∃ x ∈ xs, Spoilt e x) (nd : (uidsL xs).Nodup) (s : PState)
    (fresh : ∀ i ∈ uidsL xs, ¬ MemoHas s i) : (allOf (saveUs D xs) s).2.2 = some e := by
  rw [uidsL_flat] at nd fresh
  have ndx : ∀ x ∈ xs, (uids x).Nodup := fun x hx => nodup_part nd hx
  rw [saveUs_map]
  refine allOf_fails (ids := uids) xs (fun x hx s i h => saveU_adds D x s i h) (fun x hx => ?_) ?_ nd s fresh
  · rcases parts.1 x hx with ⟨h1, h2⟩ | h
    · exact .inl fun s _ => saveU_good h1 h2 s
    · exact .inr fun s hf => ih x hx h (ndx x hx) s hf
  · obtain ⟨x, hx, h⟩ := parts.2
    exact ⟨x, hx, fun s hf => ih x hx h (ndx x hx) s hf⟩

theorem andThen_fails {f g : PickleAct} {s : PState} {e : Err} (h : (f s).2.2 = some e) : (andThen f g s).2.2 = some e := by
  cases ef : f s with
  | mk s1 r =>
    obtain ⟨t, o⟩ := r
    rw [ef] at h
    dsimp only at h
    subst h
    rw [andThen_err ef]

mutual
theorem saveU_spoilt {D : Dump → Str} {e : Err} : ∀ v : UVal, Spoilt e v → (uids v).Nodup → ∀ s, (∀ i ∈ uids v, ¬ MemoHas s i) → (saveU D v s).2.2 = some e
  | .none, h, _, _, _ => by
      rcases h with ⟨-, -, h⟩ | ⟨-, -, h, -⟩
      · exact absurd (fun m n h => by cases h) h
      · exact absurd (fun h => by cases h) h
  | .int _, h, _, _, _ => by
      rcases h with ⟨-, -, h⟩ | ⟨-, -, h, -⟩
      · exact absurd (fun m n h => by cases h) h
      · exact absurd (fun h => by cases h) h
  | .str _, h, _, _, _ => by
      rcases h with ⟨-, -, h⟩ | ⟨-, -, h, -⟩
      · exact absurd (fun m n h => by cases h) h
      · exact absurd (fun h => by cases h) h
  | .stuck, h, _, _, _ => by
      rcases h with ⟨-, h, -⟩ | ⟨rfl, -, -, -⟩
      · exact absurd (.refl _) h
      · rfl
  | .glob m n found, h, _, s, _ => by
      rcases h with ⟨rfl, -, h⟩ | ⟨-, -, h, -⟩
      · cases found with
        | true => exact absurd (fun m n h => by cases h) h
        | false =>
          simp only [saveU, saveName]
          cases s.globs.find? fun p => p.1 == (m, n) <;> rfl
      · exact absurd (fun h => by cases h) h
  | .tuple id xs, h, nd, s, fresh => by
      simp only [uids, List.nodup_cons] at nd
      simp only [uids, List.mem_cons] at fresh
      have parts := spoilt_parts (l := xs) (φ := fun x => x) (fun x hx u h => .tuple hx h) (fun u h => by
        cases h with
        | refl => exact .inl rfl
        | tuple hx h => exact .inr ⟨_, hx, h⟩) (by simp) (by simp) h
      have body := spoilt_elems (D := D) (saveUs_spoilt xs) parts nd.2 s fun i hi => fresh i (.inr hi)
      obtain ⟨x, hx, -⟩ := parts.2
      simp only [saveU]
      rw [if_neg (by cases xs <;> simp_all), onlyNew_new (fresh id (.inl rfl))]
      split
      · exact andThen_fails body
      · rw [(emit_andThen _ _ s).2]; exact andThen_fails body
  | .list id xs, h, nd, s, fresh => by
      simp only [uids, List.nodup_cons] at nd
      simp only [uids, List.mem_cons] at fresh
      have parts := spoilt_parts (l := xs) (φ := fun x => x) (fun x hx u h => .list hx h) (fun u h => by
        cases h with
        | refl => exact .inl rfl
        | list hx h => exact .inr ⟨_, hx, h⟩) (by simp) (by simp) h
      have body := spoilt_elems (D := D) (saveUs_spoilt xs) parts nd.2 (s.put (some id)) fun i hi hk => by
        rcases knows_put.1 hk with rfl | hk
        · exact nd.1 hi
        · exact fresh i (.inr hi) hk
      simp only [saveU]
      rw [onlyNew_new (fresh id (.inl rfl)), (emit_andThen _ _ s).2, andThen_ok (s1 := s.put (some id)) (ts := [.memoize]) rfl]
      rw [(inBatches_run _ _ _ _ (by rw [saveUs_map, List.length_map]; omega) _).2]
      exact body
  | .dict id kvs, h, nd, s, fresh => by
      simp only [uids, List.nodup_cons] at nd
      simp only [uids, List.mem_cons] at fresh
      have parts := spoilt_parts (l := kvs) (φ := Prod.snd) (fun x hx u h => .dict hx h) (fun u h => by
        cases h with
        | refl => exact .inl rfl
        | dict hx h => exact .inr ⟨_, hx, h⟩) (by simp) (by simp) h
      have ne : e ≠ .typeError := by
        rcases h with ⟨rfl, -⟩ | ⟨-, -, -, h⟩
        · simp
        · exact absurd (.refl _) (h.1 _ _)
      simp only [saveU]
      rw [onlyNew_new (fresh id (.inl rfl)), (emit_andThen _ _ s).2, andThen_ok (s1 := s.put (some id)) (ts := [.memoize]) rfl]
      exact spoilt_items (saveUKs_spoilt kvs) parts ne nd.2 (s.put (some id)) fun i hi hk => by
        rcases knows_put.1 hk with rfl | hk
        · exact nd.1 hi
        · exact fresh i (.inr hi) hk
  | .obj id m n did kvs, h, nd, s, fresh => by
      simp only [uids, List.nodup_cons, List.mem_cons, not_or] at nd
      simp only [uids, List.mem_cons] at fresh
      have parts := spoilt_parts (l := kvs) (φ := Prod.snd) (fun x hx u h => .obj hx h) (fun u h => by
        cases h with
        | refl => exact .inl rfl
        | obj hx h => exact .inr ⟨_, hx, h⟩) (by simp) (by simp) h
      have ne : e ≠ .typeError := by
        rcases h with ⟨rfl, -⟩ | ⟨-, -, -, h⟩
        · simp
        · exact absurd (.refl _) (h.2 _ _ _ _ _)
      have g : saveName m n true s = ((saveGlob m n s).2, (saveGlob m n s).1, none) := by
        simp only [saveName, saveGlob]
        cases s.globs.find? fun p => p.1 == (m, n) <;> rfl
      obtain ⟨x, hx, -⟩ := parts.2
      have body := spoilt_items (D := D) (saveUKs_spoilt kvs) parts ne nd.2.2 (((saveGlob m n s).2.put (some id)).put (some did)) fun i hi hk => by
        rcases knows_put.1 hk with rfl | hk
        · exact nd.2.1 hi
        · rcases knows_put.1 hk with rfl | hk
          · exact nd.1.2 hi
          · exact fresh i (.inr (.inr hi)) (knows_glob.1 hk)
      simp only [saveU]
      rw [onlyNew_new (fresh id (.inl rfl)), andThen_ok g]
      dsimp only
      rw [(emit_andThen _ _ _).2, andThen_ok (s1 := (saveGlob m n s).2.put (some id)) (ts := [.memoize]) rfl]
      dsimp only
      rw [if_neg (by cases kvs <;> simp_all)]
      refine andThen_fails ?_
      rw [onlyNew_new (fun hk => by
        rcases knows_put.1 hk with h | hk
        · exact nd.1.1 h
        · exact fresh did (.inr (.inl rfl)) (knows_glob.1 hk)), (emit_andThen _ _ _).2,
        andThen_ok (s1 := ((saveGlob m n s).2.put (some id)).put (some did)) (ts := [.memoize]) rfl]
      exact body
theorem saveUs_spoilt {D : Dump → Str} {e : Err} : ∀ xs : List UVal, ∀ x ∈ xs, Spoilt e x → (uids x).Nodup → ∀ s, (∀ i ∈ uids x, ¬ MemoHas s i) →
    (saveU D x s).2.2 = some e
  | [], x, hx => by cases hx
  | y :: ys, x, hx => by
      by_cases e : x ∈ ys
      · exact saveUs_spoilt ys x e
      · rw [(List.mem_cons.1 hx).resolve_right e]
        exact saveU_spoilt y
theorem saveUKs_spoilt {D : Dump → Str} {e : Err} : ∀ kvs : List (Str × UVal), ∀ x ∈ kvs, Spoilt e x.2 → (uids x.2).Nodup →
    ∀ s, (∀ i ∈ uids x.2, ¬ MemoHas s i) → (saveU D x.2 s).2.2 = some e
  | [], x, hx => by cases hx
  | (k, y) :: ys, x, hx => by
      by_cases e : x ∈ ys
      · exact saveUKs_spoilt ys x e
      · rw [(List.mem_cons.1 hx).resolve_right e]
        exact saveU_spoilt y
end

theorem hashU_spoilt {D : Dump → Str} {e : Err} {v : UVal} (h : Spoilt e v) (nd : (uids v).Nodup) : hashU D v = .error e := by
  have := saveU_spoilt (D := D) v h nd {} fun i _ hk => by simp [MemoHas, PState.find] at hk
  simp only [hashU]
  cases ef : saveU D v {} with
  | mk s1 r =>
    obtain ⟨t, o⟩ := r
    rw [ef] at this
    dsimp only at this
    subst this
    rfl

/-- C104. A function or class inside that is not found under its name: PicklingError, wherever it is. -/
theorem c104_named (D : Dump → Str) (v : UVal) (nd : (uids v).Nodup) (stuck : NoneStuck v) (m n : Str) (inside : UInside (.glob m n false) v) :
    hashU D v = .error .exception := hashU_spoilt (.inl ⟨rfl, stuck, fun h => h m n inside⟩) nd

/-- C104. Something inside that raises TypeError, in lists and tuples only: TypeError. -/
theorem c104_bare (D : Dump → Str) (v : UVal) (nd : (uids v).Nodup) (named : AllNamed v) (bare : NoDicts v) (inside : UInside .stuck v) :
    hashU D v = .error .typeError := hashU_spoilt (.inr ⟨rfl, named, fun h => h inside, bare⟩) nd

/-! ### Under a dict -/

/-- What can be referred to while it is being pickled: lists, dicts and instances. -/
def ownId : UVal → Option Nat
  | .list id _ => some id
  | .dict id _ => some id
  | .obj id _ _ _ _ => some id
  | _ => none

theorem saveU_known {D : Dump → Str} {v : UVal} {i : Nat} (h : ownId v = some i) {s : PState} (hk : MemoHas s i) : ∃ ts, saveU D v s = (s, ts, none) := by
  cases v <;> cases h <;> exact onlyNew_known hk

theorem saveU_knows {D : Dump → Str} {v : UVal} {i : Nat} (h : ownId v = some i) (s : PState) : MemoHas (saveU D v s).1 i := by
  by_cases hk : MemoHas s i
  · exact saveU_keeps D v s i hk
  have rfl' : ∀ s : PState, (fun s s' => ∀ i, MemoHas s i → MemoHas s' i) s s := fun _ _ h => h
  have tr : ∀ {a b c : PState}, (∀ i, MemoHas a i → MemoHas b i) → (∀ i, MemoHas b i → MemoHas c i) → ∀ i, MemoHas a i → MemoHas c i := fun h h' i hi => h' i (h i hi)
  have items : ∀ (kvs : List (Str × UVal)) s i, MemoHas s i → MemoHas (itemsInOrder D (saveUKs D kvs) s).1 i := fun kvs s i =>
    rel_sortedItems (Rel := fun s s' => ∀ i, MemoHas s i → MemoHas s' i) rfl' tr (fun f hf s i hi => by
      rw [saveUKs_map] at hf
      obtain ⟨x, -, rfl⟩ := List.mem_map.1 hf
      exact saveU_keeps D x.2 s i hi) s i
  cases v with
  | none | int | str | glob | tuple | stuck => cases h
  | list i' xs =>
    cases h
    simp only [saveU]
    rw [onlyNew_new hk, (emit_andThen _ _ s).1, andThen_ok (s1 := s.put (some i)) (ts := [.memoize]) rfl]
    refine rel_inBatches (Rel := fun s s' => ∀ i, MemoHas s i → MemoHas s' i) rfl' tr _ (fun f hf s i hi => ?_) _ i (knows_put.2 (.inl rfl))
    rw [saveUs_map] at hf
    obtain ⟨x, -, rfl⟩ := List.mem_map.1 hf
    exact saveU_keeps D x s i hi
  | dict i' kvs =>
    cases h
    simp only [saveU]
    rw [onlyNew_new hk, (emit_andThen _ _ s).1, andThen_ok (s1 := s.put (some i)) (ts := [.memoize]) rfl]
    exact items kvs _ i (knows_put.2 (.inl rfl))
  | obj i' m n did kvs =>
    cases h
    have g : saveName m n true s = ((saveGlob m n s).2, (saveGlob m n s).1, none) := by
      simp only [saveName, saveGlob]
      cases s.globs.find? fun p => p.1 == (m, n) <;> rfl
    simp only [saveU]
    rw [onlyNew_new hk, andThen_ok g]
    dsimp only
    rw [(emit_andThen _ _ _).1, andThen_ok (s1 := (saveGlob m n s).2.put (some i)) (ts := [.memoize]) rfl]
    dsimp only
    split
    · exact knows_put.2 (.inl rfl)
    · rw [(andThen_emit _ _ _).1]
      have r : ∀ s i, MemoHas s i → MemoHas (remember did s).1 i := fun s i h => knows_put.2 (.inr h)
      have e : ∀ ts s i, MemoHas s i → MemoHas (emit ts s).1 i := fun _ _ _ h => h
      have inner := rel_andThen (Rel := fun s s' => ∀ i, MemoHas s i → MemoHas s' i) rfl' tr r (items kvs)
      have outer := rel_andThen (Rel := fun s s' => ∀ i, MemoHas s i → MemoHas s' i) rfl' tr (e [.emptyDict]) inner
      exact rel_onlyNew (Rel := fun s s' => ∀ i, MemoHas s i → MemoHas s' i) rfl' tr outer _ i (knows_put.2 (.inl rfl))

theorem setItems_one (k : Str) (f : PickleAct) (s : PState) : setItems [(k, f)] s =
    ((f s).1, .str k :: ((f s).2.1 ++ (if (f s).2.2 = none then [.setitem] else [])), (f s).2.2) := by
  have e : setItems [(k, f)] = andThen (andThen (andThen (andThen (emit [.str k]) f) (emit [])) (emit [.setitem])) (emit []) := rfl
  rw [e]
  cases ef : f s with
  | mk s1 r =>
    obtain ⟨t, o⟩ := r
    cases o <;> simp [andThen, emit, ef]

theorem hashU_one (D : Dump → Str) (id : Nat) (k : Str) (v : UVal) : hashU D (.dict id [(k, v)]) =
    match (itemsInOrder D [(k, saveU D v)]) (PState.put {} (some id)) with
    | (s, ts, none) => .ok (D (s.fed, .emptyDict :: .memoize :: (ts ++ [.stop])))
    | (_, _, some e) => .error e := by
  have e : saveU D (.dict id [(k, v)]) {} = andThen (emit [.emptyDict]) (andThen (remember id) (itemsInOrder D [(k, saveU D v)])) {} := rfl
  rw [hashU, e, andThen_ok (s1 := {}) (ts := [.emptyDict]) rfl, andThen_ok (s1 := PState.put {} (some id)) (ts := [.memoize]) rfl]
  cases ef : itemsInOrder D [(k, saveU D v)] (PState.put {} (some id)) with
  | mk s1 r =>
    obtain ⟨t, o⟩ := r
    cases o <;> simp

/-- C104. A dict of one item hides TypeErrors: whatever the value (a list, dict or instance) has inside, the hash does not raise TypeError. -/
theorem c104_never (D : Dump → Str) (id : Nat) (k : Str) (v : UVal) (container : (∃ i xs, v = .list i xs) ∨ (∃ i kvs, v = .dict i kvs) ∨
    ∃ i m n did kvs, v = .obj i m n did kvs) : hashU D (.dict id [(k, v)]) ≠ .error .typeError := by
  have own : ∃ i, ownId v = some i := by
    rcases container with ⟨i, xs, rfl⟩ | ⟨i, kvs, rfl⟩ | ⟨i, m, n, did, kvs, rfl⟩ <;> exact ⟨i, rfl⟩
  obtain ⟨i, hi⟩ := own
  rw [hashU_one]
  have e : itemsInOrder D [(k, saveU D v)] = orElse (setItems [(k, saveU D v)]) (setItems [(D ([], [.str k, .stop]), saveU D v)]) := rfl
  rw [e, orElse, setItems_one]
  have hk := saveU_knows (D := D) hi (PState.put {} (some id))
  cases ef : saveU D v (PState.put {} (some id)) with
  | mk s1 r =>
    obtain ⟨t, o⟩ := r
    rw [ef] at hk
    obtain ⟨ts, h2⟩ := saveU_known (D := D) hi hk
    cases o with
    | none => simp
    | some x =>
      cases x <;> simp [setItems_one, h2]

theorem allOf_stuck (P : List PickleAct) (e : Err) (R R' : List PickleAct) (s : PState) :
    allOf (P ++ raiseWith e :: R) s = allOf (P ++ raiseWith e :: R') s := by
  rw [allOf_append, allOf_append]
  cases ef : allOf P s with
  | mk s1 r =>
    obtain ⟨t, o⟩ := r
    cases o with
    | none => rw [andThen_ok ef, andThen_ok ef]; rfl
    | some x => rw [andThen_err ef, andThen_err ef]

theorem allOf_stuck_fails (P : List PickleAct) (e : Err) (R : List PickleAct) (s : PState) : (allOf (P ++ raiseWith e :: R) s).2.2 ≠ none := by
  rw [allOf_append]
  cases ef : allOf P s with
  | mk s1 r =>
    obtain ⟨t, o⟩ := r
    cases o with
    | none => rw [andThen_ok ef]; simp [allOf, andThen, raiseWith]
    | some x => rw [andThen_err ef]; simp

/-- Nothing after what raises is looked at. -/
theorem inBatches_stuck (one many : PTok) (e : Err) (k : Nat) : ∀ (k' : Nat) (P R R' : List PickleAct), R ≠ [] → R' ≠ [] → P.length < k → P.length < k' →
    ∀ s, inBatches one many k (P ++ raiseWith e :: R) s = inBatches one many k' (P ++ raiseWith e :: R') s := by
  induction k with
  | zero => intro k' P R R' _ _ h; omega
  | succ k ih =>
    intro k' P R R' hR hR' h h' s
    cases k' with
    | zero => omega
    | succ k' =>
      obtain ⟨y, Y, rfl⟩ := List.exists_cons_of_ne_nil hR
      obtain ⟨z, Z, rfl⟩ := List.exists_cons_of_ne_nil hR'
      simp only [inBatches]
      by_cases hp : P.length < 1000
      · -- the batch it is in
        have t : ∀ Q : List PickleAct, ∃ Q', (P ++ raiseWith e :: Q).take 1000 = P ++ raiseWith e :: Q' := fun Q => by
          refine ⟨Q.take (1000 - P.length - 1), ?_⟩
          rw [List.take_append, List.take_of_length_le (by omega), show 1000 - P.length = (1000 - P.length - 1) + 1 by omega, List.take_succ_cons]
          simp
        have one' : ∀ (y : PickleAct) Q, ∃ Q', (P ++ raiseWith e :: y :: Q).take 1000 = P ++ raiseWith e :: Q' ∧
            ((P ++ raiseWith e :: y :: Q).take 1000).length = min 1000 (P.length + 2 + Q.length) := fun y Q => by
          obtain ⟨Q', h⟩ := t (y :: Q)
          exact ⟨Q', h, by simp; omega⟩
        obtain ⟨A, hA, lA⟩ := one' y Y
        obtain ⟨B, hB, lB⟩ := one' z Z
        have len : ∀ a, 1 < min 1000 (P.length + 2 + a) := fun a => by omega
        have fails : ∀ (Q : List PickleAct) (F : PickleAct), andThen (andThen (emit [.mark]) (andThen (allOf (P ++ raiseWith e :: Q)) (emit [many]))) F s =
            andThen (emit [.mark]) (allOf (P ++ raiseWith e :: Q)) s := by
          intro Q F
          have nf := allOf_stuck_fails P e Q s
          cases ef : allOf (P ++ raiseWith e :: Q) s with
          | mk s1 r =>
            obtain ⟨t, o⟩ := r
            cases o with
            | none => rw [ef] at nf; exact absurd rfl nf
            | some x => simp [andThen, emit, ef]
        have side : ∀ (y : PickleAct) Q A (G : PickleAct), (P ++ raiseWith e :: y :: Q).take 1000 = P ++ raiseWith e :: A →
            ((P ++ raiseWith e :: y :: Q).take 1000).length = min 1000 (P.length + 2 + Q.length) →
            andThen (if ((P ++ raiseWith e :: y :: Q).take 1000).length > 1 then
                andThen (emit [.mark]) (andThen (allOf ((P ++ raiseWith e :: y :: Q).take 1000)) (emit [many]))
              else if ((P ++ raiseWith e :: y :: Q).take 1000).length = 1 then
                andThen (allOf ((P ++ raiseWith e :: y :: Q).take 1000)) (emit [one]) else emit []) G s =
              andThen (emit [.mark]) (allOf (P ++ raiseWith e :: A)) s := by
          intro y Q A G h l
          rw [if_pos (by rw [l]; exact len _), h, fails]
        rw [side y Y A _ hA lA, side z Z B _ hB lB]
        rw [andThen_ok (s1 := s) (ts := [.mark]) rfl, andThen_ok (s1 := s) (ts := [.mark]) rfl, allOf_stuck P e A B]
      · have tk : ∀ Q : List PickleAct, (P ++ raiseWith e :: Q).take 1000 = P.take 1000 := fun Q => by
          rw [List.take_append, show 1000 - P.length = 0 by omega]; simp
        have dr : ∀ Q : List PickleAct, (P ++ raiseWith e :: Q).drop 1000 = P.drop 1000 ++ raiseWith e :: Q := fun Q => by
          rw [List.drop_append, show 1000 - P.length = 0 by omega]; simp
        have l : (P.take 1000).length = 1000 := by simp; omega
        rw [tk, tk, dr, dr, l]
        simp only [show (1000 : Nat) > 1 by omega, if_true, show ¬ (1000 : Nat) < 1000 by omega, if_false]
        cases ef : andThen (emit [.mark]) (andThen (allOf (P.take 1000)) (emit [many])) s with
        | mk s1 r =>
          obtain ⟨t, o⟩ := r
          cases o with
          | none =>
            rw [andThen_ok ef, andThen_ok ef,
              ih k' (P.drop 1000) (y :: Y) (z :: Z) (by simp) (by simp) (by simp; omega) (by simp; omega) s1]
          | some x => rw [andThen_err ef, andThen_err ef]

/-- C104. So what comes after such a thing in a list under a dict is not told apart: the hashes collide, whatever the hash function, without any error. -/
theorem c104_hidden (D : Dump → Str) (id i : Nat) (k : Str) (pre rest rest' : List UVal) (h : rest ≠ []) (h' : rest' ≠ [])
    (fine : ∀ x ∈ pre, NoneStuck x ∧ AllNamed x) (other : i ≠ id) :
    ∃ t, hashU D (.dict id [(k, .list i (pre ++ .stuck :: rest))]) = .ok t ∧ hashU D (.dict id [(k, .list i (pre ++ .stuck :: rest'))]) = .ok t := by
  have fresh : ¬ MemoHas (PState.put {} (some id)) i := by
    rw [knows_put]; rintro (h | h)
    · exact other h.symm
    · simp [MemoHas, PState.find] at h
  have err : ∀ r, (saveU D (.list i (pre ++ .stuck :: r)) (PState.put {} (some id))).2.2 = some .typeError := by
    intro r
    simp only [saveU]
    rw [onlyNew_new fresh, (emit_andThen _ _ _).2, andThen_ok (s1 := (PState.put {} (some id)).put (some i)) (ts := [.memoize]) rfl]
    dsimp only
    rw [(inBatches_run _ _ _ _ (by rw [saveUs_map, List.length_map]; omega) _).2, saveUs_map, List.map_append, allOf_append]
    have all := allOf_does (act := saveU D) (g := fun x => savePickle (arrange (strEnv D) x.toJ)) (l := pre)
      (fun x hx => saveU_does (E := strEnv D) (fun _ _ _ _ => rfl) x (fine x hx).1 (fine x hx).2) ((PState.put {} (some id)).put (some i))
    rw [andThen_ok all]
    rfl
  have same : saveU D (.list i (pre ++ .stuck :: rest)) (PState.put {} (some id)) = saveU D (.list i (pre ++ .stuck :: rest')) (PState.put {} (some id)) := by
    simp only [saveU]
    rw [onlyNew_new fresh, onlyNew_new fresh]
    simp only [saveUs_map, List.map_append, List.map_cons]
    have e : saveU D .stuck = raiseWith .typeError := rfl
    rw [e]
    simp only [andThen, emit, remember]
    rw [inBatches_stuck .append .appends .typeError _ ((pre ++ .stuck :: rest').length + 1) (pre.map (saveU D)) (rest.map (saveU D)) (rest'.map (saveU D))
      (by simpa using h) (by simpa using h') (by simp; omega) (by simp; omega)]
  have run : ∀ r, hashU D (.dict id [(k, .list i (pre ++ .stuck :: r))]) =
      match setItems [(D ([], [.str k, .stop]), saveU D (.list i (pre ++ .stuck :: r)))] (saveU D (.list i (pre ++ .stuck :: r)) (PState.put {} (some id))).1 with
      | (s, ts, none) => .ok (D (s.fed, .emptyDict :: .memoize :: .str k :: ((saveU D (.list i (pre ++ .stuck :: r)) (PState.put {} (some id))).2.1 ++
          ts ++ [.stop])))
      | (_, _, some e) => .error e := by
    intro r
    rw [hashU_one]
    have e : itemsInOrder D [(k, saveU D (.list i (pre ++ .stuck :: r)))] = orElse (setItems [(k, saveU D (.list i (pre ++ .stuck :: r)))])
      (setItems [(D ([], [.str k, .stop]), saveU D (.list i (pre ++ .stuck :: r)))]) := rfl
    rw [e, orElse, setItems_one, err]
    dsimp only
    cases setItems [(D ([], [.str k, .stop]), saveU D (.list i (pre ++ .stuck :: r)))] (saveU D (.list i (pre ++ .stuck :: r)) (PState.put {} (some id))).1 with
    | mk s1 x =>
      obtain ⟨t, o⟩ := x
      cases o <;> simp
  have known : ∀ r, ∃ j, saveU D (.list i (pre ++ .stuck :: r)) (saveU D (.list i (pre ++ .stuck :: r)) (PState.put {} (some id))).1 =
      ((saveU D (.list i (pre ++ .stuck :: r)) (PState.put {} (some id))).1, [.get j], none) ∧
      (saveU D (.list i (pre ++ .stuck :: r)) (PState.put {} (some id))).1.find (some i) = some j := by
    intro r
    have hk := saveU_knows (D := D) (v := .list i (pre ++ .stuck :: r)) rfl (PState.put {} (some id))
    cases ef : (saveU D (.list i (pre ++ .stuck :: r)) (PState.put {} (some id))).1.find (some i) with
    | none => simp [MemoHas, ef] at hk
    | some j =>
      refine ⟨j, ?_, rfl⟩
      generalize (saveU D (.list i (pre ++ .stuck :: r)) (PState.put {} (some id))).1 = s at ef
      simp only [saveU, onlyNew, ef]
  obtain ⟨j, hj, fj⟩ := known rest
  obtain ⟨j', hj', fj'⟩ := known rest'
  rw [run rest, run rest', setItems_one, setItems_one, hj, hj', ← same]
  rw [← same, fj] at fj'
  cases fj'
  exact ⟨_, rfl, rfl⟩

/-! ### Order -/

/-- C104. Whatever cannot be pickled, the order of the items of dicts does not matter (if the hashes of keys do not collide). -/
theorem c104_order (D : Dump → Str) (inj : ∀ k k' : Str, D ([], [.str k, .stop]) = D ([], [.str k', .stop]) → k = k') (v v' : UVal) (h : UReorder v v') :
    hashU D v = hashU D v' := by
  have items : ∀ kvs kvs' : List (Str × UVal), (kvs.map (·.1)).Nodup → kvs.Perm kvs' → itemsInOrder D (saveUKs D kvs) = itemsInOrder D (saveUKs D kvs') := by
    intro kvs kvs' nd p
    have e1 : sortBy (fun a b : Str × PickleAct => strLe a.1 b.1) (saveUKs D kvs) = sortBy (fun a b => strLe a.1 b.1) (saveUKs D kvs') := by
      rw [saveUKs_map, saveUKs_map]
      exact sortKeys_perm_eq (by rw [UniqueKeys, List.map_map]; exact nd) (p.map _)
    have e2 : sortBy (fun a b : Str × PickleAct => strLe a.1 b.1) ((saveUKs D kvs).map fun kv => (D ([], [.str kv.1, .stop]), kv.2)) =
        sortBy (fun a b => strLe a.1 b.1) ((saveUKs D kvs').map fun kv => (D ([], [.str kv.1, .stop]), kv.2)) := by
      rw [saveUKs_map, saveUKs_map, List.map_map, List.map_map]
      refine sortKeys_perm_eq ?_ (p.map _)
      have : ((kvs.map (·.1)).map fun k => D ([], [.str k, .stop])).Nodup := by
        rw [List.nodup_iff_pairwise_ne, List.pairwise_map]
        exact (List.nodup_iff_pairwise_ne.1 nd).imp fun h e => h (inj _ _ e)
      rw [List.map_map] at this
      rw [UniqueKeys, List.map_map]
      exact this
    rw [itemsInOrder, itemsInOrder, e1, e2]
  have all : saveU D v = saveU D v' := by
    induction h with
    | refl => rfl
    | trans _ _ h1 h2 => exact h1.trans h2
    | dict nd p => simp only [saveU, items _ _ nd p]
    | obj nd p => simp only [saveU, items _ _ nd p, List.isEmpty_iff_length_eq_zero, p.length_eq]
    | inTuple _ ih => simp only [saveU, saveUs_map, List.map_append, List.map_cons, ih, List.length_append, List.length_cons, List.isEmpty_iff_length_eq_zero]
    | inList _ ih => simp only [saveU, saveUs_map, List.map_append, List.map_cons, ih, List.length_append, List.length_cons]
    | inDict _ ih => simp only [saveU, saveUKs_map, List.map_append, List.map_cons, ih]
    | inObj _ ih => simp only [saveU, saveUKs_map, List.map_append, List.map_cons, ih, List.isEmpty_iff_length_eq_zero, List.length_append, List.length_cons]
  simp only [hashU, all]

/-! ### Examples -/

/-- `hasher([1, generator])` -/
example (D : Dump → Str) : hashU D (.list 0 [.int 1, .stuck]) = .error .typeError := by rfl
/-- `hasher({'a': [1, generator, 2]}) == hasher({'a': [1, generator, 3]})` -/
example (D : Dump → Str) : ∃ t, hashU D (.dict 0 [(c!"a", .list 1 [.int 1, .stuck, .int 2])]) = .ok t ∧
    hashU D (.dict 0 [(c!"a", .list 1 [.int 1, .stuck, .int 3])]) = .ok t :=
  c104_hidden D 0 1 c!"a" [.int 1] [.int 2] [.int 3] (by simp) (by simp)
    (fun x hx => by simp only [List.mem_cons, List.not_mem_nil, or_false] at hx; subst hx; exact ⟨fun h => (by cases h), fun m n h => (by cases h)⟩) (by decide)
/-- Two of them are too many: the first pass ends at the first, so the second pass ends at the second. -/
example : hashU (fun d => (toString d.2.length).toList) (.dict 0 [(c!"a", .list 1 [.stuck]), (c!"b", .list 2 [.stuck])]) = .error .typeError := by rfl
/-- `hasher({'f': lambda: 0})` -/
example (D : Dump → Str) : hashU D (.dict 0 [(c!"f", .glob c!"m" c!"<lambda>" false)]) = .error .exception :=
  c104_named D _ (by decide) (fun h => by
    cases h with
    | dict hx h => simp only [List.mem_cons, List.not_mem_nil, or_false] at hx; subst hx; cases h) c!"m" c!"<lambda>" (.dict (x := (c!"f", _)) (by simp) (.refl _))
/-- `hasher({'a': obj})` where `obj` has a lock. -/
example (D : Dump → Str) : hashU D (.dict 0 [(c!"a", .obj 1 c!"m" c!"A" 2 [(c!"lock", .stuck)])]) ≠ .error .typeError :=
  c104_never D 0 c!"a" _ (.inr (.inr ⟨_, _, _, _, _, rfl⟩))
example (D : Dump → Str) : hashU D (.obj 1 c!"m" c!"A" 2 [(c!"lock", .stuck)]) = .error .typeError := by rfl
example : hashU (fun d => (toString d.2.length).toList) (.list 0 [.int 1, .tuple 1 [.str c!"a"]]) =
    .ok (hasherOf (strEnv fun d => (toString d.2.length).toList) (.list 0 [.int 1, .tuple 1 [.str 0 c!"a"]])) :=
  c104_fine (strEnv _) (fun _ _ _ _ => rfl) (.list 0 [.int 1, .tuple 1 [.str c!"a"]])
    (fun h => by
      cases h with
      | list hx h =>
        simp only [List.mem_cons, List.not_mem_nil, or_false] at hx
        rcases hx with rfl | rfl
        · cases h
        · cases h with | tuple hx h => simp only [List.mem_cons, List.not_mem_nil, or_false] at hx; subst hx; cases h)
    (fun m n h => by
      cases h with
      | list hx h =>
        simp only [List.mem_cons, List.not_mem_nil, or_false] at hx
        rcases hx with rfl | rfl
        · cases h
        · cases h with | tuple hx h => simp only [List.mem_cons, List.not_mem_nil, or_false] at hx; subst hx; cases h)

end Whatami
