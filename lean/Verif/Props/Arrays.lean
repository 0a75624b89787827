import Verif.Spec.Arrays
import Verif.BasicLemmas
import Verif.DefaultChain

/-
C56: the ids of numpy arrays.

Specification: Spec/Arrays, and what is assumed of `pickle`.
-/
namespace Whatami

/-- What is assumed of `pickle`: no pickle ends in the pickle of something else (so that it can be told where the data end and
the pickle begins). -/
def SuffixFree (pickle : Header → Bytes) : Prop := ∀ x y, pickle x <:+ pickle y → x = y

theorem bytesAt_length (m : Int → UInt8) (a : Int) (n : Nat) : (bytesAt m a n).length = n := by
  induction n generalizing a with
  | zero => rfl
  | succ n ih => simp [bytesAt, ih]

theorem bytesAt_append (m : Int → UInt8) (a : Int) (n k : Nat) : bytesAt m a (n + k) = bytesAt m a n ++ bytesAt m (a + n) k := by
  induction n generalizing a with
  | zero => simp [bytesAt]
  | succ n ih =>
    rw [Nat.add_right_comm, bytesAt, ih, bytesAt, List.cons_append]
    congr 3
    omega

theorem bytesAt_eq (m m' : Int → UInt8) (a a' : Int) (n : Nat) : bytesAt m a n = bytesAt m' a' n ↔ ∀ j : Nat, j < n → m (a + j) = m' (a' + j) := by
  induction n generalizing a a' with
  | zero => simp [bytesAt]
  | succ n ih =>
    simp only [bytesAt, List.cons.injEq, ih]
    constructor
    · rintro ⟨h0, h⟩ j hj
      cases j with
      | zero => simpa using h0
      | succ j =>
        have := h j (by omega)
        rwa [show a + ((j + 1 : Nat) : Int) = a + 1 + j by omega, show a' + ((j + 1 : Nat) : Int) = a' + 1 + j by omega]
    · intro h
      refine ⟨by simpa using h 0 (by omega), fun j hj => ?_⟩
      have := h (j + 1) (by omega)
      rwa [show a + ((j + 1 : Nat) : Int) = a + 1 + j by omega, show a' + ((j + 1 : Nat) : Int) = a' + 1 + j by omega] at this

/-- The number of elements of a shape. -/
def sizeOfShape (shape : List Nat) : Nat := shape.foldr (· * ·) 1

theorem range_flatMap (d : Nat) (f : Nat → Bytes) : (List.range (d + 1)).flatMap f = f 0 ++ (List.range d).flatMap fun i => f (i + 1) := by
  rw [List.range_succ_eq_map, List.flatMap_cons, List.flatMap_map]

theorem flatMap_length (k d : Nat) (f : Nat → Bytes) (h : ∀ i, (f i).length = k) : ((List.range d).flatMap f).length = d * k := by
  induction d generalizing f with
  | zero => simp
  | succ d ih =>
    rw [range_flatMap, List.length_append, h, ih _ (fun i => h (i + 1)), Nat.succ_mul, Nat.add_comm]

theorem flatMap_eq (k d : Nat) (f g : Nat → Bytes) (hf : ∀ i, (f i).length = k) (hg : ∀ i, (g i).length = k) :
    (List.range d).flatMap f = (List.range d).flatMap g ↔ ∀ i, i < d → f i = g i := by
  induction d generalizing f g with
  | zero => simp
  | succ d ih =>
    rw [range_flatMap, range_flatMap]
    have ih := ih (fun i => f (i + 1)) (fun i => g (i + 1)) (fun i => hf _) (fun i => hg _)
    constructor
    · intro h i hi
      obtain ⟨h0, h⟩ := List.append_inj h (by rw [hf, hg])
      cases i with
      | zero => exact h0
      | succ i => exact ih.1 h i (by omega)
    · intro h
      rw [h 0 (by omega), ih.2 fun i hi => h (i + 1) (by omega)]

theorem flatten_length (m : Int → UInt8) (k : Nat) (shape : List Nat) (strides : List Int) (a : Int) :
    (flattenBytes m k shape strides a).length = sizeOfShape shape * k := by
  induction shape generalizing strides a with
  | nil => simp [flattenBytes, bytesAt_length, sizeOfShape]
  | cons d shape ih =>
    simp only [flattenBytes]
    rw [flatMap_length (sizeOfShape shape * k) d _ (fun i => ih ..)]
    simp only [sizeOfShape, List.foldr_cons, Nat.mul_assoc]

theorem flatten_eq (m m' : Int → UInt8) (k : Nat) (shape : List Nat) (strides : List Int) (hl : strides.length = shape.length) (a a' : Int) :
    flattenBytes m k shape strides a = flattenBytes m' k shape strides a' ↔
      ∀ idx (j : Nat), ValidIndex idx shape → j < k → m (a + offsetOf idx strides + j) = m' (a' + offsetOf idx strides + j) := by
  induction shape generalizing strides a a' with
  | nil =>
    rw [flattenBytes, flattenBytes, bytesAt_eq]
    constructor
    · rintro h idx j ⟨⟩ hj
      simpa [offsetOf] using h j hj
    · intro h j hj
      simpa [offsetOf] using h [] j .nil hj
  | cons d shape ih =>
    cases strides with
    | nil => simp at hl
    | cons s strides =>
      simp only [flattenBytes, List.tail_cons, List.headD_cons]
      rw [flatMap_eq _ _ _ _ (fun i => flatten_length ..) (fun i => flatten_length ..)]
      constructor
      · rintro h idx j (_ | ⟨hi, hv⟩) hj
        rename_i i idx
        have := (ih strides (by simpa using hl) _ _).1 (h i hi) idx j hv hj
        simpa only [offsetOf, Int.add_assoc] using this
      · intro h i hi
        refine (ih strides (by simpa using hl) _ _).2 fun idx j hv hj => ?_
        have := h (i :: idx) j (.cons hi hv) hj
        simpa only [offsetOf, Int.add_assoc] using this

theorem rows_eq (m : Int → UInt8) (b d : Nat) (a : Int) : (List.range d).flatMap (fun i : Nat => bytesAt m (a + i * (b : Int)) b) = bytesAt m a (d * b) := by
  induction d generalizing a with
  | zero => simp [bytesAt]
  | succ d ih =>
    rw [range_flatMap, Nat.succ_mul, Nat.add_comm, bytesAt_append]
    congr 1
    · simp
    · rw [← ih]
      congr 1
      funext i
      congr 1
      rw [Int.natCast_add, Int.add_mul, ← Int.add_assoc]
      simp only [Int.natCast_one, Int.one_mul]
      omega

theorem contiguous_eq (m : Int → UInt8) (k : Nat) (shape : List Nat) (strides : List Int) (b : Nat) (h : contiguousBytes k shape strides = some b) :
    b = sizeOfShape shape * k ∧ ∀ a, flattenBytes m k shape strides a = bytesAt m a b := by
  induction shape generalizing strides b with
  | nil =>
    cases h
    exact ⟨by simp [sizeOfShape], fun a => rfl⟩
  | cons d shape ih =>
    cases strides with
    | nil => cases h
    | cons s strides =>
      simp only [contiguousBytes] at h
      split at h
      · cases h
      · rename_i c hc
        obtain ⟨hb, hf⟩ := ih strides c hc
        split at h
        · rename_i hs
          cases h
          refine ⟨by rw [hb]; simp only [sizeOfShape, List.foldr_cons, Nat.mul_assoc], fun a => ?_⟩
          simp only [flattenBytes, List.tail_cons, List.headD_cons, hf]
          rcases hs with rfl | rfl
          · simp
          · exact rows_eq m c d a
        · cases h

theorem size_zero {shape : List Nat} (h : 0 ∈ shape) : sizeOfShape shape = 0 := by
  induction shape with
  | nil => cases h
  | cons d shape ih =>
    simp only [sizeOfShape, List.foldr_cons]
    rcases List.mem_cons.1 h with rfl | h
    · simp
    · have : shape.foldr (· * ·) 1 = 0 := ih h
      rw [this, Nat.mul_zero]

theorem cContiguous_eq (m : Int → UInt8) {k : Nat} {shape : List Nat} {strides : List Int} (h : cContiguous k shape strides = true) (a : Int) :
    bytesAt m a (sizeOfShape shape * k) = flattenBytes m k shape strides a := by
  simp only [cContiguous, Bool.or_eq_true, List.contains_iff_mem, Option.isSome_iff_exists] at h
  rcases h with h | ⟨b, h⟩
  · have h0 := size_zero h
    have : flattenBytes m k shape strides a = [] := List.eq_nil_of_length_eq_zero (by rw [flatten_length, h0, Nat.zero_mul])
    rw [this, h0, Nat.zero_mul]
    rfl
  · obtain ⟨rfl, hf⟩ := contiguous_eq m k shape strides b h
    exact (hf a).symm

theorem size_append (s t : List Nat) : sizeOfShape (s ++ t) = sizeOfShape s * sizeOfShape t := by
  induction s with
  | nil => simp [sizeOfShape]
  | cons d s ih =>
    have : sizeOfShape (d :: (s ++ t)) = d * sizeOfShape (s ++ t) := rfl
    rw [List.cons_append, this, ih, ← Nat.mul_assoc]
    rfl

theorem size_reverse (s : List Nat) : sizeOfShape s.reverse = sizeOfShape s := by
  induction s with
  | nil => rfl
  | cons d s ih =>
    rw [List.reverse_cons, size_append, ih, Nat.mul_comm]
    simp [sizeOfShape]

theorem offset_append (i : List Nat) (s : List Int) (h : i.length = s.length) (i' : List Nat) (s' : List Int) :
    offsetOf (i ++ i') (s ++ s') = offsetOf i s + offsetOf i' s' := by
  induction i generalizing s with
  | nil =>
    cases s with
    | nil => simp [offsetOf]
    | cons => simp at h
  | cons x i ih =>
    cases s with
    | nil => simp at h
    | cons y s =>
      simp only [List.cons_append, offsetOf]
      rw [ih s (by simpa using h), Int.add_assoc]

theorem offset_reverse (i : List Nat) (s : List Int) (h : i.length = s.length) : offsetOf i.reverse s.reverse = offsetOf i s := by
  induction i generalizing s with
  | nil =>
    cases s with
    | nil => rfl
    | cons => simp at h
  | cons x i ih =>
    cases s with
    | nil => simp at h
    | cons y s =>
      rw [List.reverse_cons, List.reverse_cons, offset_append _ _ (by simpa using h), ih s (by simpa using h)]
      simp [offsetOf, Int.add_comm]

theorem valid_length {i s : List Nat} (h : ValidIndex i s) : i.length = s.length := by
  induction h with
  | nil => rfl
  | cons _ _ ih => simp [ih]

theorem valid_append {i s i' s' : List Nat} (h : ValidIndex i s) (h' : ValidIndex i' s') : ValidIndex (i ++ i') (s ++ s') := by
  induction h with
  | nil => exact h'
  | cons hi _ ih => exact .cons hi ih

theorem valid_reverse {i s : List Nat} (h : ValidIndex i s) : ValidIndex i.reverse s.reverse := by
  induction h with
  | nil => exact .nil
  | cons hi _ ih =>
    rw [List.reverse_cons, List.reverse_cons]
    exact valid_append ih (.cons hi .nil)

/-- Whether the elements are taken in reverse order of the axes. -/
def Arr.useF (a : Arr) : Bool :=
  !cContiguous a.dtype.itemsize a.shape a.strides && fContiguous a.dtype.itemsize a.shape a.strides

theorem data_eq (a : Arr) : a.data = if a.useF then flattenBytes a.memory a.dtype.itemsize a.shape.reverse a.strides.reverse a.start
    else flattenBytes a.memory a.dtype.itemsize a.shape a.strides a.start := by
  unfold Arr.data Arr.useF
  have hs : a.size = sizeOfShape a.shape := rfl
  by_cases h0 : a.shape = []
  · rw [if_pos h0]
    have : cContiguous a.dtype.itemsize a.shape a.strides = true := by
      rw [h0]
      cases a.strides <;> rfl
    simp [this]
  · rw [if_neg h0]
    by_cases hc : cContiguous a.dtype.itemsize a.shape a.strides = true
    · rw [if_pos hc]
      simp only [hc, Bool.not_true, Bool.false_and, Bool.false_eq_true, if_false]
      rw [hs, cContiguous_eq _ hc]
    · rw [if_neg hc]
      by_cases hf : fContiguous a.dtype.itemsize a.shape a.strides = true
      · rw [if_pos hf]
        simp only [hf, hc, Bool.not_false, Bool.and_true, if_true]
        rw [hs, ← size_reverse, cContiguous_eq _ hf]
      · rw [if_neg hf]
        simp [hf]

theorem data_iff {a b : Arr} (ha : a.Ok) (hd : a.dtype = b.dtype) (hs : a.shape = b.shape) (ht : a.strides = b.strides) :
    a.data = b.data ↔ SameItems a b := by
  have hu : a.useF = b.useF := by simp only [Arr.useF, hd, hs, ht]
  rw [data_eq, data_eq, ← hu, ← hd, ← hs, ← ht]
  have ho : a.strides.length = a.shape.length := ha
  unfold SameItems Arr.item
  rw [← ht]
  cases a.useF with
  | false =>
    simp only [Bool.false_eq_true, if_false]
    exact flatten_eq _ _ _ _ _ ha _ _
  | true =>
    simp only [if_true]
    rw [flatten_eq _ _ _ _ _ (by simpa using ho)]
    constructor
    · intro h idx j hv hj
      have := h idx.reverse j (valid_reverse hv) hj
      rwa [offset_reverse _ _ (by rw [valid_length hv, ho])] at this
    · intro h idx j hv hj
      have hv' : ValidIndex idx.reverse a.shape := by simpa using valid_reverse hv
      have := h idx.reverse j hv' hj
      have hl : idx.reverse.length = a.strides.length := by rw [valid_length hv', ho]
      rwa [← offset_reverse _ _ hl, List.reverse_reverse] at this

/-- **C56**: two arrays give the same input to the hash function exactly if they have the same class, type, shape, strides and
elements; where they are in memory, and what is around them there, does not matter. -/
theorem c56_iff {pickle : Header → Bytes} (hp : SuffixFree pickle) {a b : Arr} (ha : a.Ok) :
    a.hashInput pickle = b.hashInput pickle ↔
      a.cls = b.cls ∧ a.dtype = b.dtype ∧ a.shape = b.shape ∧ a.strides = b.strides ∧ SameItems a b := by
  unfold Arr.hashInput
  constructor
  · intro h
    have hx : (a.cls, a.dtype, a.shape, a.strides) = (b.cls, b.dtype, b.shape, b.strides) := by
      rcases List.append_eq_append_iff.1 h with ⟨c, h1, h2⟩ | ⟨c, h1, h2⟩
      · exact (hp _ _ ⟨c, h2.symm⟩).symm
      · exact hp _ _ ⟨c, h2.symm⟩
    rw [hx] at h
    have hd := List.append_cancel_right h
    simp only [Prod.mk.injEq] at hx
    exact ⟨hx.1, hx.2.1, hx.2.2.1, hx.2.2.2, (data_iff ha hx.2.1 hx.2.2.1 hx.2.2.2).1 hd⟩
  · rintro ⟨h1, h2, h3, h4, h5⟩
    rw [(data_iff ha h2 h3 h4).2 h5, h1, h2, h3, h4]

/-- C56: the texts of two arrays in an id are the same only if the arrays are, unless two different inputs have the same digest. -/
theorem c56_text {md5 : Bytes → Str} (hm : ∀ x, (md5 x).length = 32) {pickle : Header → Bytes} (hp : SuffixFree pickle) {a b : Arr} (ha : a.Ok)
    (h : arrayText md5 pickle a = arrayText md5 pickle b) :
    (a.cls = b.cls ∧ a.dtype = b.dtype ∧ a.shape = b.shape ∧ a.strides = b.strides ∧ SameItems a b) ∨
      ∃ x y, x ≠ y ∧ md5 x = md5 y := by
  unfold arrayText at h
  have h1 := List.append_cancel_right h
  have h2 : md5 (a.hashInput pickle) = md5 (b.hashInput pickle) := by
    have := congrArg List.reverse h1
    simp only [List.reverse_append] at this
    have := (List.append_inj this (by simp [hm])).1
    simpa using this
  by_cases he : a.hashInput pickle = b.hashInput pickle
  · exact .inl ((c56_iff hp ha).1 he)
  · exact .inr ⟨_, _, he, h2⟩

/-- C56: it is the text with which an id shows the array (plugins.py:218-222): class and digest. -/
theorem c56_in_id (md5 : Bytes → Str) (pickle : Header → Bytes) (a : Arr) :
    buildD (.array a.cls (md5 (a.hashInput pickle))) = .ok (some (arrayText md5 pickle a)) := buildD_array ..

/-- C56: equal arrays have equal texts, wherever they are in memory. -/
theorem c56_equal (md5 : Bytes → Str) {pickle : Header → Bytes} {a b : Arr} (ha : a.Ok) (h1 : a.cls = b.cls) (h2 : a.dtype = b.dtype)
    (h3 : a.shape = b.shape) (h4 : a.strides = b.strides) (h5 : SameItems a b) : arrayText md5 pickle a = arrayText md5 pickle b := by
  unfold arrayText Arr.hashInput
  rw [(data_iff ha h2 h3 h4).2 h5, h1, h2, h3, h4]

/-- Strides are part of it, unlike what one would expect: two arrays with the same elements but another layout (a slice and its
copy, a matrix in C and in Fortran order) never have the same input. -/
theorem c56_layout {pickle : Header → Bytes} (hp : SuffixFree pickle) {a b : Arr} (ha : a.Ok) (h : a.strides ≠ b.strides) :
    a.hashInput pickle ≠ b.hashInput pickle := fun he => h ((c56_iff hp ha).1 he).2.2.2.1

/-- Nor is what subclasses add part of it: masked arrays with different masks have the same id. -/
theorem c56_state (md5 : Bytes → Str) (pickle : Header → Bytes) (a : Arr) (st : List (Str × Str)) :
    arrayText md5 pickle { a with state := st } = arrayText md5 pickle a := rfl

/-! A matrix `[[1, 2, 3], [4, 5, 6]]` of bytes in C order, its copy in Fortran order, and every other column of a wider one. -/
def exMem (l : List UInt8) : Int → UInt8 := fun i => l.getD i.toNat 0
def exMatC : Arr := { cls := c!"ndarray", dtype := ⟨c!"|u1", 1⟩, shape := [2, 3], strides := [3, 1], start := 0, memory := exMem [1, 2, 3, 4, 5, 6] }
def exMatF : Arr := { exMatC with strides := [1, 2], memory := exMem [1, 4, 2, 5, 3, 6] }
def exMatS : Arr := { exMatC with strides := [6, 2], start := 1, memory := exMem [9, 1, 9, 2, 9, 3, 9, 4, 9, 5, 9, 6] }
example : exMatC.data = [1, 2, 3, 4, 5, 6] ∧ exMatF.data = [1, 4, 2, 5, 3, 6] ∧ exMatS.data = [1, 2, 3, 4, 5, 6] := by decide
example : exMatC.Ok ∧ exMatF.item [1, 2] 0 = 6 ∧ exMatC.item [1, 2] 0 = 6 ∧ exMatS.item [1, 2] 0 = 6 ∧ ValidIndex [1, 2] exMatC.shape :=
  ⟨rfl, rfl, rfl, rfl, .cons (by decide) (.cons (by decide) .nil)⟩
/-- A 0-dimensional array has one element; an array with an axis of length 0 has none. -/
example : ({ exMatC with shape := [], strides := [] } : Arr).data = [1] ∧ ({ exMatC with shape := [2, 0], strides := [5, 7] } : Arr).data = [] := by decide

/-- Pickles of which none ends in another exist: the length of what precedes at the end, in base 1. -/
def exPickle (enc : Header → Bytes) : Header → Bytes := fun x => List.replicate (enc x).length 1 ++ [0] ++ enc x
theorem exPickle_ok {enc : Header → Bytes} (hi : ∀ x y, enc x = enc y → x = y) (h0 : ∀ x, (0 : UInt8) ∉ enc x) :
    SuffixFree (exPickle enc) := by
  rintro x y ⟨t, ht⟩
  have hr := congrArg List.reverse ht
  simp only [exPickle, List.reverse_append, List.append_assoc, List.reverse_replicate, List.reverse_cons,
    List.singleton_append] at hr
  have key : ∀ (p q r s : Bytes), (0 : UInt8) ∉ p → (0 : UInt8) ∉ q → p ++ 0 :: r = q ++ 0 :: s → p = q := by
    intro p
    induction p with
    | nil =>
      intro q r s _ hq h
      cases q with
      | nil => rfl
      | cons c q =>
        simp only [List.nil_append, List.cons_append, List.cons.injEq] at h
        exact absurd h.1 (fun e => hq (e ▸ List.mem_cons_self ..))
    | cons c p ih =>
      intro q r s hp hq h
      cases q with
      | nil =>
        simp only [List.nil_append, List.cons_append, List.cons.injEq] at h
        exact absurd h.1.symm (fun e => hp (e ▸ List.mem_cons_self ..))
      | cons c' q =>
        simp only [List.cons_append, List.cons.injEq] at h
        rw [h.1, ih q r s (fun e => hp (List.mem_cons_of_mem _ e)) (fun e => hq (List.mem_cons_of_mem _ e)) h.2]
  have := key _ _ _ _ (by simpa using h0 x) (by simpa using h0 y) hr
  exact hi x y (by simpa using this)

/-- One such encoding: a number as that many twos and a three, anything else as numbers. -/
def exNat (n : Nat) : Bytes := List.replicate n 2 ++ [3]
def exList {α : Type} (e : α → Bytes) (l : List α) : Bytes := exNat l.length ++ l.flatMap e
def exInt (i : Int) : Bytes := exNat i.toNat ++ exNat (-i).toNat
def exEnc : Header → Bytes := fun (c, d, sh, st) =>
  exList (fun ch : Char => exNat ch.toNat) c ++ (exList (fun ch : Char => exNat ch.toNat) d.descr ++ (exNat d.itemsize ++ (exList exNat sh ++ exList exInt st)))
/-- What is encoded can be read off the beginning. -/
def Prefixed {α : Type} (e : α → Bytes) : Prop := ∀ x y r s, e x ++ r = e y ++ s → x = y ∧ r = s
theorem exNat_ok : Prefixed exNat := by
  intro x
  induction x with
  | zero =>
    rintro (_ | y) r s h
    · simpa [exNat] using h
    · simp [exNat, List.replicate_succ] at h
  | succ x ih =>
    rintro (_ | y) r s h
    · simp [exNat, List.replicate_succ] at h
    · simp only [exNat, List.replicate_succ, List.cons_append, List.cons.injEq, true_and] at h
      obtain ⟨h1, h2⟩ := ih y r s h
      exact ⟨by rw [h1], h2⟩
theorem exList_ok {α : Type} {e : α → Bytes} (he : Prefixed e) : Prefixed (exList e) := by
  intro x y r s h
  simp only [exList, List.append_assoc] at h
  obtain ⟨hl, h'⟩ := exNat_ok _ _ _ _ h
  clear h
  revert hl h'
  induction x generalizing y with
  | nil =>
    intro hl h
    cases y with
    | nil => exact ⟨rfl, by simpa using h⟩
    | cons => simp at hl
  | cons a x ih =>
    intro hl h
    cases y with
    | nil => simp at hl
    | cons b y =>
      simp only [List.flatMap_cons, List.append_assoc] at h
      obtain ⟨h1, h⟩ := he _ _ _ _ h
      obtain ⟨h2, h3⟩ := ih y (by simpa using hl) h
      exact ⟨by rw [h1, h2], h3⟩
theorem exInt_ok : Prefixed exInt := by
  intro x y r s h
  simp only [exInt, List.append_assoc] at h
  obtain ⟨h1, h⟩ := exNat_ok _ _ _ _ h
  obtain ⟨h2, h⟩ := exNat_ok _ _ _ _ h
  exact ⟨by omega, h⟩
theorem exChar_ok : Prefixed (fun ch : Char => exNat ch.toNat) := by
  intro x y r s h
  obtain ⟨h1, h2⟩ := exNat_ok _ _ _ _ h
  exact ⟨Char.toNat_inj.1 h1, h2⟩
theorem exEnc_inj (x y : Header) (h : exEnc x = exEnc y) : x = y := by
  obtain ⟨c, ⟨d, i⟩, sh, st⟩ := x
  obtain ⟨c', ⟨d', i'⟩, sh', st'⟩ := y
  simp only [exEnc] at h
  obtain ⟨ha, h⟩ := exList_ok exChar_ok _ _ _ _ h
  obtain ⟨hb, h⟩ := exList_ok exChar_ok _ _ _ _ h
  obtain ⟨hc, h⟩ := exNat_ok _ _ _ _ h
  obtain ⟨hd, h⟩ := exList_ok exNat_ok _ _ _ _ h
  obtain ⟨he, -⟩ := exList_ok exInt_ok st st' [] [] (by simpa using h)
  rw [ha, hb, hc, hd, he]
theorem exNat_zero (n : Nat) : (0 : UInt8) ∉ exNat n := by simp [exNat, List.mem_replicate]
theorem exList_zero {α : Type} {e : α → Bytes} (he : ∀ x, (0 : UInt8) ∉ e x) (l : List α) : (0 : UInt8) ∉ exList e l := by
  simp only [exList, List.mem_append, List.mem_flatMap, not_or, not_exists, not_and]
  exact ⟨exNat_zero _, fun x _ => he x⟩
theorem exEnc_zero (x : Header) : (0 : UInt8) ∉ exEnc x := by
  simp only [exEnc, List.mem_append, not_or]
  exact ⟨exList_zero (fun _ => exNat_zero _) _, exList_zero (fun _ => exNat_zero _) _, exNat_zero _, exList_zero exNat_zero _,
    exList_zero (fun i => by simp only [exInt, List.mem_append, not_or]; exact ⟨exNat_zero _, exNat_zero _⟩) _⟩
example : SuffixFree (exPickle exEnc) := exPickle_ok exEnc_inj exEnc_zero
example : exMatC.hashInput (exPickle exEnc) ≠ exMatS.hashInput (exPickle exEnc) :=
  c56_layout (exPickle_ok exEnc_inj exEnc_zero) rfl (by decide)

end Whatami
