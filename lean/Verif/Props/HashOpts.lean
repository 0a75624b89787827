import Verif.HashOpts
import Verif.Props.Hasher
import Verif.Props.HashSort

/-! C102: minijoblib's hash with its options. -/
namespace Whatami

mutual
/-- The value with an `ndarray` in the place of every memory map. -/
def asArrays (mmap : Str → Bool) : JVal → JVal
  | .tuple id xs => .tuple id (asArraysL mmap xs)
  | .list id xs => .list id (asArraysL mmap xs)
  | .dict id kvs => .dict id (asArraysD mmap kvs)
  | .set id xs => .set id (asArraysL mmap xs)
  | .fset id xs => .fset id (asArraysL mmap xs)
  | .obj id m n did kvs => .obj id m n did (asArraysD mmap kvs)
  | .meth f x m n => .meth f (asArrays mmap x) m n
  | .arr a => .arr (if mmap a.cls then { a with cls := c!"ndarray" } else a)
  | v => v
termination_by structural v => v
/-- In the elements. -/
def asArraysL (mmap : Str → Bool) : List JVal → List JVal
  | [] => []
  | x :: xs => asArrays mmap x :: asArraysL mmap xs
termination_by structural xs => xs
/-- In the items. -/
def asArraysD (mmap : Str → Bool) : List (JVal × JVal) → List (JVal × JVal)
  | [] => []
  | (k, v) :: xs => (asArrays mmap k, asArrays mmap v) :: asArraysD mmap xs
termination_by structural xs => xs
end

/-- Comparing keys and elements makes no difference between memory maps and arrays inside them. -/
def ComparesArrays (E : HashEnv) (mmap : Str → Bool) : Prop := ∀ a b, E.lt (asArrays mmap a) (asArrays mmap b) = E.lt a b

/-- Keys or elements can be sorted, or there are no memory maps inside them. -/
def SortsOrFree (E : HashEnv) (mmap : Str → Bool) (l : List JVal) : Prop := (∃ l', sortLt E.lt l = some l') ∨ ∀ x ∈ l, asArrays mmap x = x

/-! ### The orders -/

theorem insertLt_map {α β : Type} (g : α → β) (lt : β → β → Option Bool) (a : α) (l : List α) :
    insertLt lt (g a) (l.map g) = (insertLt (fun a b => lt (g a) (g b)) a l).map (·.map g) := by
  induction l with
  | nil => rfl
  | cons b l ih =>
    simp only [List.map_cons, insertLt]
    rcases lt (g b) (g a) with _ | _ | _
    · rfl
    · rfl
    · dsimp only
      rw [ih]
      cases insertLt (fun a b => lt (g a) (g b)) a l <;> rfl

theorem sortLt_map {α β : Type} (g : α → β) (lt : β → β → Option Bool) (l : List α) :
    sortLt lt (l.map g) = (sortLt (fun a b => lt (g a) (g b)) l).map (·.map g) := by
  induction l with
  | nil => rfl
  | cons a l ih =>
    simp only [List.map_cons, sortLt, ih]
    cases sortLt (fun a b => lt (g a) (g b)) l with
    | none => rfl
    | some m => exact insertLt_map g lt a m

section
variable {E : HashEnv} {f : JVal → JVal} (hlt : ∀ a b, E.lt (f a) (f b) = E.lt a b)
include hlt

theorem orderElems_opt {l : List (JVal × PNode)} (hn : ∀ x ∈ l, x.2 = arrange E (f x.1))
    (hf : (∃ l', sortLt E.lt (l.map (·.1)) = some l') ∨ ∀ x ∈ l, f x.1 = x.1) : orderElemsOpt E l = orderElems E (l.map fun x => (f x.1, x.2)) := by
  unfold orderElemsOpt orderElems
  rw [sortLt_map]
  simp only [hlt]
  cases hs : sortLt (fun a b : JVal × PNode => E.lt a.1 b.1) l with
  | some l' => simp [List.map_map, Function.comp_def]
  | none =>
    have hf : ∀ x ∈ l, f x.1 = x.1 := by
      rcases hf with ⟨l', h⟩ | h
      · rw [sortLt_map, hs] at h; cases h
      · exact h
    simp only [Option.map_none, List.map_map, Function.comp_def]
    congr 2
    refine List.map_congr_left fun x hx => ?_
    rw [hn x hx, hf x hx]; rfl

theorem orderItems_opt {l : List ((JVal × JVal) × (PNode × PNode))} {g : JVal → JVal} (hn : ∀ x ∈ l, x.2.1 = arrange E (f x.1.1))
    (hf : (∃ l', sortLt E.lt (l.map (·.1.1)) = some l') ∨ ∀ x ∈ l, f x.1.1 = x.1.1) :
    orderItemsOpt E l = orderItems E (l.map fun x => ((f x.1.1, g x.1.2), x.2)) := by
  unfold orderItemsOpt orderItems
  rw [sortLt_map]
  simp only [hlt]
  cases hs : sortLt (fun a b : (JVal × JVal) × (PNode × PNode) => E.lt a.1.1 b.1.1) l with
  | some l' => simp [List.map_map, Function.comp_def]
  | none =>
    have hf : ∀ x ∈ l, f x.1.1 = x.1.1 := by
      rcases hf with ⟨l', h⟩ | h
      · rw [show (fun x : (JVal × JVal) × (PNode × PNode) => x.1.1) = (fun x => x.1.1) from rfl, sortLt_map, hs] at h; cases h
      · exact h
    simp only [Option.map_none, List.map_map, Function.comp_def]
    congr 2
    refine List.map_congr_left fun x hx => ?_
    rw [hn x hx, hf x hx]; rfl

end

theorem optL_keys (E : HashEnv) (mmap : Str → Bool) (c : Bool) (xs : List JVal) : (arrangeOptL E mmap c xs).map (·.1) = xs := by
  induction xs with
  | nil => rfl
  | cons x xs ih => simp [arrangeOptL, ih]

theorem optD_keys (E : HashEnv) (mmap : Str → Bool) (c : Bool) (kvs : List (JVal × JVal)) : (arrangeOptD E mmap c kvs).map (·.1.1) = kvs.map Prod.fst := by
  induction kvs with
  | nil => rfl
  | cons x xs ih => obtain ⟨k, v⟩ := x; simp [arrangeOptD, ih]

/-! ### Without coercion -/

mutual
theorem opt_plain {E : HashEnv} {mmap : Str → Bool} : ∀ v, arrangeOpt E mmap false v = arrange E v
  | .none | .bool _ | .int _ | .float _ | .str _ _ | .glob _ _ | .builtin _ _ | .unbound _ | .dtype _ => rfl
  | .arr a => rfl
  | .tuple id xs | .list id xs | .fset id xs => by simp only [arrangeOpt, arrange, (opt_plainL xs).1]
  | .set _ xs => by
    simp only [arrangeOpt, arrange]
    rw [orderElems_opt (f := id) (fun _ _ => rfl) (opt_plainL xs).2 (.inr fun _ _ => rfl), (opt_plainL xs).1]
    simp
  | .dict id kvs => by
    simp only [arrangeOpt, arrange]
    rw [orderItems_opt (f := fun x => x) (g := fun x => x) (fun _ _ => rfl) (opt_plainD kvs).2 (.inr fun _ _ => rfl), (opt_plainD kvs).1]
    simp
  | .obj id m n did kvs => by
    simp only [arrangeOpt, arrange]
    rw [orderItems_opt (f := fun x => x) (g := fun x => x) (fun _ _ => rfl) (opt_plainD kvs).2 (.inr fun _ _ => rfl), (opt_plainD kvs).1]
    simp
  | .meth f x m n => by simp only [arrangeOpt, arrange, opt_plain x]
theorem opt_plainL {E : HashEnv} {mmap : Str → Bool} : ∀ xs, arrangeOptL E mmap false xs = arrangeL E xs ∧ ∀ x ∈ arrangeOptL E mmap false xs, x.2 = arrange E x.1
  | [] => ⟨rfl, by simp [arrangeOptL]⟩
  | x :: xs => by
    refine ⟨by simp only [arrangeOptL, arrangeL, opt_plain x, (opt_plainL xs).1], ?_⟩
    simp only [arrangeOptL, List.mem_cons]
    rintro y (rfl | h)
    · exact opt_plain x
    · exact (opt_plainL xs).2 y h
theorem opt_plainD {E : HashEnv} {mmap : Str → Bool} : ∀ xs, arrangeOptD E mmap false xs = arrangeD E xs ∧ ∀ x ∈ arrangeOptD E mmap false xs, x.2.1 = arrange E x.1.1
  | [] => ⟨rfl, by simp [arrangeOptD]⟩
  | (k, v) :: xs => by
    refine ⟨by simp only [arrangeOptD, arrangeD, opt_plain k, opt_plain v, (opt_plainD xs).1], ?_⟩
    simp only [arrangeOptD, List.mem_cons]
    rintro y (rfl | h)
    · exact opt_plain k
    · exact (opt_plainD xs).2 y h
end

/-- **C102, plain** Without `coerce_mmap`, `hash_name` changes nothing but the hash function that everything goes to at the end; with md5 it is the hash of C65. -/
theorem c102_plain (E : HashEnv) (mmap : Str → Bool) (digest : Dump → Str) (v : JVal) :
    hasherOpt E mmap digest false v = digest (hashDump E v) ∧ hasherOpt E mmap E.digest false v = hasherOf E v := by
  unfold hasherOpt hashDumpOpt
  rw [opt_plain]
  exact ⟨rfl, rfl⟩

/-! ### With coercion -/

mutual
theorem opt_coerced {E : HashEnv} {mmap : Str → Bool} (hlt : ComparesArrays E mmap) : ∀ v, Inside (SortsOrFree E mmap) (SortsOrFree E mmap) v →
    arrangeOpt E mmap true v = arrange E (asArrays mmap v)
  | .none, _ | .bool _, _ | .int _, _ | .float _, _ | .str _ _, _ | .glob _ _, _ | .builtin _ _, _ | .unbound _, _ | .dtype _, _ => rfl
  | .arr a, _ => by
    simp only [arrangeOpt, asArrays, klassOf, Bool.true_and]
    split <;> rfl
  | .tuple id xs, h | .list id xs, h | .fset id xs, h => by
    simp only [arrangeOpt, arrange, asArrays]
    rw [← (opt_coercedL hlt xs h).1, List.map_map]; rfl
  | .set _ xs, h => by
    simp only [arrangeOpt, arrange, asArrays]
    rw [orderElems_opt (f := asArrays mmap) hlt (opt_coercedL hlt xs h.2).2 ?_, (opt_coercedL hlt xs h.2).1]
    rw [optL_keys]
    exact h.1.imp id fun h x hx => h _ (by rw [← optL_keys E mmap true xs]; exact List.mem_map_of_mem hx)
  | .dict id kvs, h => by
    simp only [arrangeOpt, arrange, asArrays]
    rw [orderItems_opt (f := asArrays mmap) (g := asArrays mmap) hlt (opt_coercedD hlt kvs h.2).2 ?_, (opt_coercedD hlt kvs h.2).1]
    rw [optD_keys]
    refine h.1.imp (fun h => h) fun h x hx => h _ (by rw [← optD_keys E mmap true kvs]; exact List.mem_map.2 ⟨x, hx, rfl⟩)
  | .obj id m n did kvs, h => by
    simp only [arrangeOpt, arrange, asArrays]
    rw [orderItems_opt (f := asArrays mmap) (g := asArrays mmap) hlt (opt_coercedD hlt kvs h.2).2 ?_, (opt_coercedD hlt kvs h.2).1]
    rw [optD_keys]
    refine h.1.imp (fun h => h) fun h x hx => h _ (by rw [← optD_keys E mmap true kvs]; exact List.mem_map.2 ⟨x, hx, rfl⟩)
  | .meth f x m n, h => by simp only [arrangeOpt, arrange, asArrays]; rw [opt_coerced hlt x h]
theorem opt_coercedL {E : HashEnv} {mmap : Str → Bool} (hlt : ComparesArrays E mmap) : ∀ xs, InsideL (SortsOrFree E mmap) (SortsOrFree E mmap) xs →
    (arrangeOptL E mmap true xs).map (fun x => (asArrays mmap x.1, x.2)) = arrangeL E (asArraysL mmap xs) ∧
      ∀ x ∈ arrangeOptL E mmap true xs, x.2 = arrange E (asArrays mmap x.1)
  | [], _ => ⟨rfl, by simp [arrangeOptL]⟩
  | x :: xs, h => by
    refine ⟨by simp only [arrangeOptL, arrangeL, asArraysL, List.map_cons, opt_coerced hlt x h.1, (opt_coercedL hlt xs h.2).1], ?_⟩
    simp only [arrangeOptL, List.mem_cons]
    rintro y (rfl | hy)
    · exact opt_coerced hlt x h.1
    · exact (opt_coercedL hlt xs h.2).2 y hy
theorem opt_coercedD {E : HashEnv} {mmap : Str → Bool} (hlt : ComparesArrays E mmap) : ∀ xs, InsideD (SortsOrFree E mmap) (SortsOrFree E mmap) xs →
    (arrangeOptD E mmap true xs).map (fun x => ((asArrays mmap x.1.1, asArrays mmap x.1.2), x.2)) = arrangeD E (asArraysD mmap xs) ∧
      ∀ x ∈ arrangeOptD E mmap true xs, x.2.1 = arrange E (asArrays mmap x.1.1)
  | [], _ => ⟨rfl, by simp [arrangeOptD]⟩
  | (k, v) :: xs, h => by
    refine ⟨by simp only [arrangeOptD, arrangeD, asArraysD, List.map_cons, opt_coerced hlt k h.1, opt_coerced hlt v h.2.1, (opt_coercedD hlt xs h.2.2).1], ?_⟩
    simp only [arrangeOptD, List.mem_cons]
    rintro y (rfl | hy)
    · exact opt_coerced hlt k h.1
    · exact (opt_coercedD hlt xs h.2.2).2 y hy
end

/-- **C102, coerced** With `coerce_mmap`, the hash is that of the value with arrays in the place of its memory maps: these make no difference.  Keys of dicts
and elements of sets that cannot be sorted must have no memory maps inside (`c102_inside`). -/
theorem c102_coerced {E : HashEnv} {mmap : Str → Bool} (hlt : ComparesArrays E mmap) (digest : Dump → Str) {v : JVal}
    (h : Inside (SortsOrFree E mmap) (SortsOrFree E mmap) v) :
    hasherOpt E mmap digest true v = digest (hashDump E (asArrays mmap v)) := by
  unfold hasherOpt hashDumpOpt
  rw [opt_coerced hlt v h]
  rfl

mutual
theorem asArrays_ids (mmap : Str → Bool) : ∀ v, idsH (asArrays mmap v) = idsH v
  | .none | .bool _ | .int _ | .float _ | .str _ _ | .glob _ _ | .builtin _ _ | .unbound _ | .dtype _ => rfl
  | .arr a => rfl
  | .tuple id xs => by
    simp only [asArrays, idsH, asArrays_idsL mmap xs]
    cases xs <;> rfl
  | .list id xs | .fset id xs | .set id xs => by simp only [asArrays, idsH, asArrays_idsL mmap xs]
  | .dict id kvs => by simp only [asArrays, idsH, asArrays_idsD mmap kvs]
  | .obj id m n did kvs => by
    simp only [asArrays, idsH, asArrays_idsD mmap kvs]
    rcases kvs with _ | ⟨⟨k, v⟩, l⟩ <;> rfl
  | .meth f x m n => by simp only [asArrays, idsH, asArrays_ids mmap x]
theorem asArrays_idsL (mmap : Str → Bool) : ∀ xs, idsHL (asArraysL mmap xs) = idsHL xs
  | [] => rfl
  | x :: xs => by simp only [asArraysL, idsHL, asArrays_ids mmap x, asArrays_idsL mmap xs]
theorem asArrays_idsD (mmap : Str → Bool) : ∀ xs, idsHD (asArraysD mmap xs) = idsHD xs
  | [] => rfl
  | (k, v) :: xs => by simp only [asArraysD, idsHD, asArrays_ids mmap k, asArrays_ids mmap v, asArrays_idsD mmap xs]
end

theorem asArraysL_map (mmap : Str → Bool) (xs : List JVal) : asArraysL mmap xs = xs.map (asArrays mmap) := by
  induction xs with
  | nil => rfl
  | cons x xs ih => simp [asArraysL, ih]

theorem asArraysD_map (mmap : Str → Bool) (xs : List (JVal × JVal)) : (asArraysD mmap xs).map Prod.fst = (xs.map Prod.fst).map (asArrays mmap) := by
  induction xs with
  | nil => rfl
  | cons x xs ih => obtain ⟨k, v⟩ := x; simp [asArraysD, ih]

mutual
theorem asArrays_inside {mmap : Str → Bool} {P Q : List JVal → Prop} (hP : ∀ l, P l → Q (l.map (asArrays mmap))) : ∀ v, Inside P P v → Inside Q Q (asArrays mmap v)
  | .none, _ | .bool _, _ | .int _, _ | .float _, _ | .str _ _, _ | .glob _ _, _ | .builtin _ _, _ | .unbound _, _ | .dtype _, _ => trivial
  | .arr a, _ => trivial
  | .tuple id xs, h | .list id xs, h | .fset id xs, h => asArrays_insideL hP xs h
  | .set _ xs, h => ⟨by rw [asArraysL_map]; exact hP _ h.1, asArrays_insideL hP xs h.2⟩
  | .dict _ kvs, h => ⟨by rw [asArraysD_map]; exact hP _ h.1, asArrays_insideD hP kvs h.2⟩
  | .obj _ _ _ _ kvs, h => ⟨by rw [asArraysD_map]; exact hP _ h.1, asArrays_insideD hP kvs h.2⟩
  | .meth f x m n, h => asArrays_inside hP x h
theorem asArrays_insideL {mmap : Str → Bool} {P Q : List JVal → Prop} (hP : ∀ l, P l → Q (l.map (asArrays mmap))) : ∀ xs, InsideL P P xs → InsideL Q Q (asArraysL mmap xs)
  | [], _ => trivial
  | x :: xs, h => ⟨asArrays_inside hP x h.1, asArrays_insideL hP xs h.2⟩
theorem asArrays_insideD {mmap : Str → Bool} {P Q : List JVal → Prop} (hP : ∀ l, P l → Q (l.map (asArrays mmap))) : ∀ xs, InsideD P P xs → InsideD Q Q (asArraysD mmap xs)
  | [], _ => trivial
  | (k, v) :: xs, h => ⟨asArrays_inside hP k h.1, asArrays_inside hP v h.2.1, asArrays_insideD hP xs h.2.2⟩
end

theorem asArrays_hashed {mmap : Str → Bool} {xs : List JVal} (h : ∀ id ys, xs ≠ .str id c!"HASHED" :: ys) : ∀ id ys, asArraysL mmap xs ≠ .str id c!"HASHED" :: ys := by
  intro id ys e
  rcases xs with _ | ⟨x, xs⟩
  · cases e
  · simp only [asArraysL, List.cons.injEq] at e
    cases x <;> simp only [asArrays, reduceCtorEq, false_and] at e
    exact h id xs (by rw [e.1])

mutual
theorem asArrays_ordinary {mmap : Str → Bool} {size : Str → Nat} : ∀ v, Ordinary size v → Ordinary size (asArrays mmap v)
  | .none, _ | .bool _, _ | .int _, _ | .float _, _ | .str _ _, _ | .glob _ _, _ | .builtin _ _, _ | .unbound _, _ => trivial
  | .dtype _, h => h
  | .arr a, h => by
    simp only [asArrays]
    split
    · exact h
    · exact h
  | .tuple id xs, h => ⟨asArrays_hashed h.1, asArrays_ordinaryL xs h.2⟩
  | .list id xs, h | .fset id xs, h | .set id xs, h => asArrays_ordinaryL xs h
  | .dict _ kvs, h => asArrays_ordinaryD kvs h
  | .obj _ _ _ _ kvs, h => ⟨h.1, asArrays_ordinaryD kvs h.2⟩
  | .meth f x m n, h => asArrays_ordinary x h
theorem asArrays_ordinaryL {mmap : Str → Bool} {size : Str → Nat} : ∀ xs, OrdinaryL size xs → OrdinaryL size (asArraysL mmap xs)
  | [], _ => trivial
  | x :: xs, h => ⟨asArrays_ordinary x h.1, asArrays_ordinaryL xs h.2⟩
theorem asArrays_ordinaryD {mmap : Str → Bool} {size : Str → Nat} : ∀ xs, OrdinaryD size xs → OrdinaryD size (asArraysD mmap xs)
  | [], _ => trivial
  | (k, v) :: xs, h => ⟨asArrays_ordinary k h.1, asArrays_ordinary v h.2.1, asArrays_ordinaryD xs h.2.2⟩
end

theorem Sortable.asArrays {E : HashEnv} {mmap : Str → Bool} (hlt : ComparesArrays E mmap) {l : List JVal} (h : Sortable E.lt l) : Sortable E.lt (l.map (asArrays mmap)) where
  compared := by
    rw [List.pairwise_map]
    exact h.compared.imp fun h => by rw [hlt, hlt]; exact h
  trans := by
    intro a ha b hb c hc
    obtain ⟨a, ha', rfl⟩ := List.mem_map.1 ha
    obtain ⟨b, hb', rfl⟩ := List.mem_map.1 hb
    obtain ⟨c, hc', rfl⟩ := List.mem_map.1 hc
    rw [hlt, hlt, hlt]
    exact h.trans a ha' b hb' c hc'

/-- **C102, coerced** With `coerce_mmap`, two values have the same hash exactly if they are the same but for memory maps and arrays (and order, and identities),
unless the hash function collides. -/
theorem c102_iff {E : HashEnv} (hE : ComparesValues E) {mmap : Str → Bool} (hlt : ComparesArrays E mmap) {size : Str → Nat} {digest : Dump → Str} {v w : JVal}
    (hv : NoSharing v) (hw : NoSharing w) (sv : AllSortable E v) (sw : AllSortable E w) (ov : Ordinary size v) (ow : Ordinary size w)
    (hd : digest (hashDump E (asArrays mmap v)) = digest (hashDump E (asArrays mmap w)) → hashDump E (asArrays mmap v) = hashDump E (asArrays mmap w)) :
    hasherOpt E mmap digest true v = hasherOpt E mmap digest true w ↔ Alike (asArrays mmap v) (asArrays mmap w) := by
  have free : ∀ l, Sortable E.lt l → SortsOrFree E mmap l := fun l h => .inl ((sortLt_sorted h).imp fun _ h => h.1)
  rw [c102_coerced hlt digest (inside_mono free free v sv), c102_coerced hlt digest (inside_mono free free w sw)]
  have nv : NoSharing (asArrays mmap v) := by unfold NoSharing; rw [asArrays_ids]; exact hv
  have nw : NoSharing (asArrays mmap w) := by unfold NoSharing; rw [asArrays_ids]; exact hw
  have tv : AllSortable E (asArrays mmap v) := asArrays_inside (fun l h => h.asArrays hlt) v sv
  have tw : AllSortable E (asArrays mmap w) := asArrays_inside (fun l h => h.asArrays hlt) w sw
  refine ⟨fun h => c65_distinguishes nv nw tv tw (asArrays_ordinary v ov) (asArrays_ordinary w ow) (hd h), fun h => ?_⟩
  unfold hashDump
  rw [erase_dump nv.arrange nw.arrange (arrange_alike hE h nv nw (inside_mono (fun _ => .inl) (fun _ => .inl) _ tv))]

/-! ### What the options do not reach -/

theorem sort_two (s t : Str) : sortBy strLe [s, t] = if strLe s t then [s, t] else [t, s] := rfl

/-- What is pickled of a set of two elements that do not compare: their md5 hashes, in order. -/
theorem opt_two (E : HashEnv) (mmap : Str → Bool) (c : Bool) (id : Nat) {x y : JVal} (h : E.lt y x = none) :
    arrangeOpt E mmap c (.set id [x, y]) = consistentSet ((sortBy strLe [hasherOf E x, hasherOf E y]).map .str) := by
  simp only [arrangeOpt, arrangeOptL, orderElemsOpt, sortLt, insertLt, Option.bind, h, List.map]

theorem sort_two_inj {s t u : Str} (h : sortBy strLe [s, u] = sortBy strLe [t, u]) : s = t := by
  have p := (sortBy_perm strLe [s, u]).symm.trans (h ▸ sortBy_perm strLe [t, u])
  have : s ∈ [t, u] := p.mem_iff.1 (.head _)
  have h2 : t ∈ [s, u] := p.mem_iff.2 (.head _)
  simp only [List.mem_cons, List.not_mem_nil, or_false] at this h2
  rcases this with h | h
  · exact h
  · rcases h2 with h2 | h2
    · exact h2.symm
    · rw [h, h2]

/-- **C102, finding** `coerce_mmap` does not reach the elements of a set that cannot be sorted: two sets that differ in nothing but that an attribute of an element is
a memory map in one and an array in the other are told apart (unless the md5 hashes of the elements collide). -/
theorem c102_inside {E : HashEnv} {mmap : Str → Bool} {a : Arr} (ha : a.Ok) (hm : mmap a.cls = true) (hn : a.cls ≠ c!"ndarray") {m n s : Str}
    (hmn : m ≠ c!"whatami.minijoblib.hashing") (i : Int) :
    let obj (b : Arr) : JVal := .obj 1 m n 2 [(.str 3 s, .arr b)]
    (∀ b, E.lt (.int i) (obj b) = none) → (hasherOf E (obj a) = hasherOf E (obj a.asNdarray) → hashDump E (obj a) = hashDump E (obj a.asNdarray)) →
    asArrays mmap (.set 0 [obj a, .int i]) = .set 0 [obj a.asNdarray, .int i] ∧
      hashDumpOpt E mmap true (.set 0 [obj a, .int i]) ≠ hashDumpOpt E mmap true (.set 0 [obj a.asNdarray, .int i]) := by
  intro obj hlt hd
  refine ⟨by simp only [obj, asArrays, asArraysL, asArraysD, hm]; rfl, fun h => ?_⟩
  unfold hashDumpOpt at h
  rw [opt_two E mmap true 0 (hlt _), opt_two E mmap true 0 (hlt _)] at h
  have ids : ∀ l : List Str, (idsP (consistentSet (l.map .str))).Nodup := by
    intro l
    have : idsPL (l.map PNode.str) = [] := by
      induction l with
      | nil => rfl
      | cons x l ih => simp [idsPL, idsP, ih]
    simp [consistentSet, idsP, idsPD, this]
  have e := dump_strip (ids _) (ids _) (congrArg Prod.snd h)
  have strs : ∀ l : List Str, stripL (l.map PNode.str) = l.map PNode.str := by
    intro l
    induction l with
    | nil => rfl
    | cons x l ih => simp [stripL, strip, ih]
  simp only [consistentSet, strip, stripD, stripL, strs] at e
  have e : (sortBy strLe [hasherOf E (obj a), hasherOf E (.int i)]).map PNode.str = (sortBy strLe [hasherOf E (obj a.asNdarray), hasherOf E (.int i)]).map PNode.str := by
    injection e with _ _ _ _ e
    injection e with e _
    injection e with _ e
    injection e with _ e
  have e := sort_two_inj ((List.map_inj_right fun x y h => by cases h; rfl).1 e)
  have nodup : ∀ b, NoSharing (obj b) := fun b => by simp [obj, NoSharing, idsH, idsHD]
  have sortable : ∀ b, AllSortable E (obj b) := fun b =>
    ⟨⟨by simp, by intro x hx y hy z hz h _; simp only [List.map_cons, List.map_nil, List.mem_cons, List.not_mem_nil, or_false] at hx hy hz; subst hx hy hz; exact h⟩,
      trivial, trivial, trivial⟩
  have := c65_distinguishes (size := fun _ => a.dtype.itemsize) (nodup a) (nodup a.asNdarray) (sortable a) (sortable a.asNdarray) ⟨hmn, trivial, ⟨ha, rfl⟩, trivial⟩
    ⟨hmn, trivial, ⟨ha, rfl⟩, trivial⟩ (hd e)
  cases this with
  | @obj _ _ _ _ _ _ _ _ l l' pl pl' hl _ hv =>
    have h1 := List.perm_singleton.1 pl.symm
    have h2 := List.perm_singleton.1 pl'.symm
    subst h1 h2
    have := hv 0 _ _ rfl rfl
    cases this with
    | arr _ h => exact hn h

/-- What is pickled of a dict of two items whose keys do not compare. -/
theorem opt_two_items (E : HashEnv) (mmap : Str → Bool) (c : Bool) (id : Nat) {x y v w : JVal} (h : E.lt y x = none) :
    arrangeOpt E mmap c (.dict id [(x, v), (y, w)]) =
      .dict (some id) ((sortBy (fun a b => strLe a.1 b.1) [(hasherOf E x, arrangeOpt E mmap c v), (hasherOf E y, arrangeOpt E mmap c w)]).map fun p => (.str p.1, p.2)) := by
  simp only [arrangeOpt, arrangeOptD, orderItemsOpt, sortLt, insertLt, Option.bind, h, List.map]

/-- **C102, finding** `hash_name='sha1'` does not protect sets and dicts whose elements or keys cannot be sorted: if the md5 hashes of two of them collide, so does the
hash of the whole, whatever the hash function and the options. -/
theorem c102_weak {E : HashEnv} {x y z : JVal} (hx : E.lt z x = none) (hy : E.lt z y = none) (h : hasherOf E x = hasherOf E y)
    (mmap : Str → Bool) (digest : Dump → Str) (c : Bool) (id : Nat) (v w : JVal) :
    hasherOpt E mmap digest c (.set id [x, z]) = hasherOpt E mmap digest c (.set id [y, z]) ∧
      hasherOpt E mmap digest c (.dict id [(x, v), (z, w)]) = hasherOpt E mmap digest c (.dict id [(y, v), (z, w)]) := by
  unfold hasherOpt hashDumpOpt
  rw [opt_two E mmap c id hx, opt_two E mmap c id hy, opt_two_items E mmap c id hx, opt_two_items E mmap c id hy, h]
  exact ⟨rfl, rfl⟩

/-! ### Examples -/

/-- The class `memmap`. -/
def exMmap (c : Str) : Bool := c == c!"memmap"

/-- Two bytes, mapped from a file. -/
def exMapped : Arr := { cls := c!"memmap", dtype := ⟨c!"|u1", 1⟩, shape := [2], strides := [1], start := 0, memory := fun i => if i = 0 then 7 else 9 }

theorem exPlain_arrays (mmap : Str → Bool) : ComparesArrays exPlain mmap := by
  intro a b
  cases a <;> cases b <;> rfl

-- the memory map in a dict and the array in an equal dict have the same hash
example (digest : Dump → Str) : hasherOpt exPlain exMmap digest true (.dict 0 [(.str 1 c!"a", .arr exMapped), (.int 1, .none)]) =
    hasherOpt exPlain exMmap digest true (.dict 0 [(.str 1 c!"a", .arr exMapped.asNdarray), (.int 1, .none)]) := by
  rw [c102_coerced (exPlain_arrays _), c102_coerced (exPlain_arrays _)]
  · rfl
  all_goals exact ⟨.inr (by simp [asArrays]), trivial, trivial, trivial, trivial, trivial⟩

-- without the option they are told apart
example (digest : Dump → Str) (hd : ∀ x y, digest x = digest y → x = y) : hasherOpt exPlain exMmap digest false (.list 0 [.arr exMapped]) ≠
    hasherOpt exPlain exMmap digest false (.list 0 [.arr exMapped.asNdarray]) := by
  rw [(c102_plain _ _ _ _).1, (c102_plain _ _ _ _).1]
  intro h
  have := c65_distinguishes (E := exPlain) (v := .list 0 [.arr exMapped]) (w := .list 0 [.arr exMapped.asNdarray]) (size := fun _ => 1) (by simp [NoSharing, idsH, idsHL]) (by simp [NoSharing, idsH, idsHL]) ⟨trivial, trivial⟩ ⟨trivial, trivial⟩
    ⟨⟨rfl, rfl⟩, trivial⟩ ⟨⟨rfl, rfl⟩, trivial⟩ (hd _ _ h)
  cases this with
  | list _ h =>
    have := h 0 _ _ rfl rfl
    cases this with
    | arr _ h => revert h; decide

-- c102_iff with its hypotheses
example (digest : Dump → Str) (hd : ∀ x y, digest x = digest y → x = y) (i j : Int) :
    hasherOpt exPlain exMmap digest true (.list 0 [.arr exMapped, .int i]) = hasherOpt exPlain exMmap digest true (.list 5 [.arr exMapped.asNdarray, .int j]) ↔ i = j := by
  rw [c102_iff (v := .list 0 [.arr exMapped, .int i]) (w := .list 5 [.arr exMapped.asNdarray, .int j]) exPlain_values (exPlain_arrays _) (size := fun _ => 1) (by simp [NoSharing, idsH, idsHL]) (by simp [NoSharing, idsH, idsHL]) ⟨trivial, trivial, trivial⟩
    ⟨trivial, trivial, trivial⟩ ⟨⟨rfl, rfl⟩, trivial, trivial⟩ ⟨⟨rfl, rfl⟩, trivial, trivial⟩ (hd _ _)]
  constructor
  · intro h
    cases h with
    | list _ h => have := h 1 _ _ rfl rfl; cases this; rfl
  · rintro rfl
    refine .list rfl fun n x y hx hy => ?_
    rcases n with _ | _ | n
    · cases hx; cases hy; exact .arr rfl rfl rfl rfl rfl fun _ _ _ _ => rfl
    · cases hx; cases hy; exact .int i
    · simp [asArraysL] at hx

-- an object with a memory map, in a set with a number
example : exMapped.Ok ∧ exMmap exMapped.cls = true ∧ exMapped.cls ≠ c!"ndarray" ∧
    ∀ b, exPlain.lt (.int 1) (.obj 1 c!"mod" c!"Data" 2 [(.str 3 c!"x", .arr b)]) = none := ⟨rfl, rfl, by decide, fun _ => rfl⟩

/-- A hash function that sees the number of tokens only. -/
def exPoor : HashEnv := { exPlain with digest := fun d => List.replicate d.2.length 'x' }

-- two strings with the same poor hash, next to a number
example : exPoor.lt (.int 1) (.str 0 c!"a") = none ∧ exPoor.lt (.int 1) (.str 0 c!"b") = none ∧ hasherOf exPoor (.str 0 c!"a") = hasherOf exPoor (.str 0 c!"b") := ⟨rfl, rfl, rfl⟩

end Whatami
