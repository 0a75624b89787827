import Verif.WhatOps
import Verif.Spec.Within
import Verif.IdLemmas
import Verif.Props.Id

/-
Lemmas about flatten and [].
Definitions here are vocabulary for statements and proofs: the code they are about is cited in the model modules.
-/
namespace Whatami

/-! ### keys of dicts -/

mutual
/-- The dict keys considered: None, booleans, numbers, strings, classes and tuples of those. -/
def isKey : Val → Bool
  | .none | .bool _ | .int _ | .float _ | .str _ | .cls _ | .numtype _ => true
  | .tuple xs => isKeyL xs
  | _ => false
termination_by structural v => v
/-- All elements are keys. -/
def isKeyL : List Val → Bool
  | [] => true
  | x :: xs => isKey x && isKeyL xs
termination_by structural xs => xs
end

theorem numEq_refl (n : Int ⊕ Str) : numEq true n n = true := by
  cases n <;> simp [numEq]

mutual
theorem pyEq_refl (fi : Str → Option Int) : ∀ v : Val, isKey v = true → pyEq fi true v v = true
  | .none, _ => rfl
  | .bool b, _ => by cases b <;> rfl
  | .int i, _ => by simp [pyEq, numKey, numEq]
  | .float t, _ => by
    simp only [pyEq]
    cases h : numKey fi (.float t) with
    | none => simp only [numKey] at h; cases hf : fi t <;> rw [hf] at h <;> cases h
    | some n => exact numEq_refl n
  | .str s, _ => by simp [pyEq]
  | .cls s, _ => by simp [pyEq]
  | .numtype s, _ => by simp [pyEq]
  | .tuple xs, h => by simp only [isKey] at h; simp only [pyEq]; exact pyEqL_refl fi xs h
termination_by structural v => v
theorem pyEqL_refl (fi : Str → Option Int) : ∀ xs : List Val, isKeyL xs = true → pyEqL fi true xs xs = true
  | [], _ => rfl
  | x :: xs, h => by
    simp only [isKeyL, Bool.and_eq_true] at h
    simp only [pyEqL, Bool.and_eq_true]
    exact ⟨pyEq_refl fi x h.1, pyEqL_refl fi xs h.2⟩
termination_by structural xs => xs
end

mutual
theorem hashable_of_isKey : ∀ v : Val, isKey v = true → hashable v = true
  | .none, _ => rfl
  | .bool _, _ => rfl
  | .int _, _ => rfl
  | .float _, _ => rfl
  | .str _, _ => rfl
  | .cls _, _ => rfl
  | .numtype _, _ => rfl
  | .tuple xs, h => by simp only [isKey] at h; simp only [hashable]; exact hashableL_of_isKey xs h
termination_by structural v => v
theorem hashableL_of_isKey : ∀ xs : List Val, isKeyL xs = true → hashableL xs = true
  | [], _ => rfl
  | x :: xs, h => by
    simp only [isKeyL, Bool.and_eq_true] at h
    simp only [hashableL, Bool.and_eq_true]
    exact ⟨hashable_of_isKey x h.1, hashableL_of_isKey xs h.2⟩
termination_by structural xs => xs
end

/-- The items of a Python dict: supported keys, pairwise different. -/
def GoodDict (fi : Str → Option Int) (kvs : List (Val × Val)) : Prop :=
  (∀ kv ∈ kvs, isKey kv.1 = true) ∧ kvs.Pairwise fun a b => pyEq fi true a.1 b.1 = false

theorem vget_of_mem {fi : Str → Option Int} {kvs : List (Val × Val)} (h : GoodDict fi kvs) {k v : Val}
    (hm : (k, v) ∈ kvs) : vget fi kvs k = some v := by
  obtain ⟨h1, h2⟩ := h
  induction kvs with
  | nil => cases hm
  | cons e r ih =>
    obtain ⟨k', v'⟩ := e
    simp only [vget]
    rcases List.mem_cons.1 hm with e | hm'
    · cases e; rw [pyEq_refl fi k (h1 (k, v) (by simp))]; rfl
    · rw [List.pairwise_cons] at h2
      rw [h2.1 _ hm']
      exact ih hm' (fun kv hkv => h1 kv (by simp [hkv])) h2.2

theorem vget_strDict (fi : Str → Option Int) (c : Conf) (k : Str) :
    vget fi (c.map fun kv => ((.str kv.1 : Val), kv.2)) (.str k) = dget c k := by
  induction c with
  | nil => rfl
  | cons e r ih =>
    obtain ⟨k', v⟩ := e
    simp only [List.map_cons, vget, dget, pyEq, ih, beq_iff_eq]

/-! ### what a value must satisfy for its parts to be addressable -/

/-- Well-formed node: the configuration of a What has unique keys, the items of a dict form a dict. -/
def OkNode (fi : Str → Option Int) : Val → Prop
  | .what _ c _ _ => UniqueKeys c
  | .dict kvs | .odict _ _ kvs | .ddict _ _ kvs => GoodDict fi kvs
  | _ => True

/-- One step of `walk`. -/
def walkStep (fi : Str → Option Int) (w key : Val) : R Val :=
  orWhat w (direct fi w key (getItem fi key)) (getItem fi key)

theorem walk_cons (fi : Str → Option Int) (key : Val) (path : List Val) (w : Val) :
    walk fi (key :: path) w = match walkStep fi w key with | .error e => .error e | .ok w' => walk fi path w' := by
  simp only [walk, walkStep]
  cases orWhat w (direct fi w key (getItem fi key)) (getItem fi key) <;> rfl

theorem walk_cons_ok {fi : Str → Option Int} {key w w' : Val} (path : List Val) (h : walkStep fi w key = .ok w') :
    walk fi (key :: path) w = walk fi path w' := by
  rw [walk_cons, h]

theorem mem_enumFrom {i : Nat} {xs : List Val} {k x : Val} (h : (k, x) ∈ enumFrom i xs) :
    ∃ j : Nat, k = .int (i + j) ∧ xs[j]? = some x := by
  induction xs generalizing i with
  | nil => cases h
  | cons y ys ih =>
    simp only [enumFrom] at h
    rcases List.mem_cons.1 h with e | h
    · cases e; exact ⟨0, by simp, by simp⟩
    · obtain ⟨j, h1, h2⟩ := ih h
      refine ⟨j + 1, ?_, by simpa using h2⟩
      rw [h1]; congr 1; push_cast; omega

theorem enum_step {xs : List Val} {k x : Val} (h : (k, x) ∈ enumFrom 0 xs) :
    hashable k = true ∧ (∃ i, asIndex k = some i ∧ pyIndex xs i = .ok x) ∧ x ∈ xs := by
  obtain ⟨j, h1, h2⟩ := mem_enumFrom h
  subst h1
  refine ⟨rfl, ⟨_, rfl, ?_⟩, List.mem_of_getElem? h2⟩
  have e : ((0 : Nat) : Int) + (j : Int) = (j : Int) := by simp
  rw [e]
  have hj : ¬ (j : Int) < 0 := by omega
  simp only [pyIndex, if_neg hj, Int.toNat_natCast, h2]

/-- `srt` returns a rearrangement of the items it is given, or raises. -/
def SortsItems (srt : SortItems) : Prop := ∀ l l', srt l = .ok l' → l'.Perm l

theorem dict_step {fi : Str → Option Int} {kvs : List (Val × Val)} (h : GoodDict fi kvs) {k x : Val} (hm : (k, x) ∈ kvs) :
    hashable k = true ∧ vget fi kvs k = some x :=
  ⟨hashable_of_isKey k (h.1 _ hm), vget_of_mem h hm⟩

theorem flatItems_step {fi : Str → Option Int} {srt : SortItems} (hs : SortsItems srt) {o : FlatOpts} {v : Val}
    (ok : OkNode fi v) {items : List (Val × Val)} (h : flatItems srt o v = .ok items) {k x : Val}
    (hm : (k, x) ∈ items) : hashable k = true ∧ walkStep fi v k = .ok x ∧ Child x v := by
  unfold flatItems at h
  split at h
  · next n conf nonids out =>
    cases h
    simp only [List.mem_map, Prod.mk.injEq] at hm
    obtain ⟨⟨k', x'⟩, hm, rfl, rfl⟩ := hm
    have hm : (k', x') ∈ conf := by
      have := mem_sortBy.1 hm
      split at this
      · exact this
      · exact (List.mem_filter.1 this).1
    refine ⟨rfl, ?_, .what _ _ _ _ hm⟩
    simp only [walkStep, direct, orWhat, getItem, dget_eq_some_of_mem (d := conf) ok hm]
  · split at h <;> cases h
    · obtain ⟨h1, ⟨i, h2, h3⟩, h4⟩ := enum_step hm
      exact ⟨h1, by simp only [walkStep, direct, orWhat, subscript, h2, h3], .list h4⟩
    · cases hm
  · split at h <;> cases h
    · obtain ⟨h1, ⟨i, h2, h3⟩, h4⟩ := enum_step hm
      exact ⟨h1, by simp only [walkStep, direct, orWhat, subscript, h2, h3], .tuple h4⟩
    · cases hm
  · split at h <;> cases h
    · obtain ⟨h1, ⟨i, h2, h3⟩, h4⟩ := enum_step hm
      exact ⟨h1, by simp only [walkStep, direct, orWhat, subscript, h2, h3], .sub _ _ _ h4⟩
    · cases hm
  · split at h <;> cases h
    · obtain ⟨h1, ⟨i, h2, h3⟩, h4⟩ := enum_step hm
      exact ⟨h1, by simp only [walkStep, direct, orWhat, subscript, h2, h3], .sub _ _ _ h4⟩
    · cases hm
  · split at h
    · have hm := (hs _ _ h).mem_iff.1 hm
      obtain ⟨h1, h2⟩ := dict_step ok hm
      exact ⟨h1, by simp only [walkStep, direct, orWhat, subscript, h1, h2, if_true], .dictVal hm⟩
    · cases h; cases hm
  · split at h
    · have hm := (hs _ _ h).mem_iff.1 hm
      obtain ⟨h1, h2⟩ := dict_step ok hm
      exact ⟨h1, by simp only [walkStep, direct, orWhat, subscript, h1, h2, if_true], .odictVal _ _ hm⟩
    · cases h; cases hm
  · split at h
    · have hm := (hs _ _ h).mem_iff.1 hm
      obtain ⟨h1, h2⟩ := dict_step ok hm
      exact ⟨h1, by simp only [walkStep, direct, orWhat, subscript, h1, h2, if_true], .ddictVal _ _ hm⟩
    · cases h; cases hm
  · cases h; cases hm

theorem flatLoop_mem {recursive : Bool} {rec : Val → List Val → R (List (List Val × Val))} {pk : List Val}
    {items : List (Val × Val)} {l : List (List Val × Val)} (h : flatLoop recursive rec pk items = .ok l)
    {p : List Val} {x : Val} (hm : (p, x) ∈ l) :
    ∃ k v, (k, v) ∈ items ∧ ((p = pk ++ [k] ∧ x = v) ∨
      (recursive = true ∧ ∃ sub, rec v (pk ++ [k]) = .ok sub ∧ (p, x) ∈ sub)) := by
  induction items generalizing l with
  | nil => cases h; cases hm
  | cons e r ih =>
    obtain ⟨k, v⟩ := e
    simp only [flatLoop] at h
    cases hr : (if recursive then rec v (pk ++ [k]) else .ok []) with
    | error e => rw [hr] at h; cases h
    | ok sub =>
      rw [hr] at h
      simp only at h
      cases hl : flatLoop recursive rec pk r with
      | error e => rw [hl] at h; cases h
      | ok rest =>
        rw [hl] at h
        cases h
        rw [List.cons_append, List.mem_cons, List.mem_append] at hm
        rcases hm with hm | hm | hm
        · cases hm; exact ⟨k, _, by simp, Or.inl ⟨rfl, rfl⟩⟩
        · cases recursive with
          | false => simp at hr; subst hr; cases hm
          | true => exact ⟨k, v, by simp, Or.inr ⟨rfl, sub, by simpa using hr, hm⟩⟩
        · obtain ⟨k', v', h1, h2⟩ := ih hl hm
          exact ⟨k', v', by simp [h1], h2⟩

theorem flattenN_addr {fi : Str → Option Int} {srt : SortItems} (hs : SortsItems srt) (o : FlatOpts) :
    ∀ (n : Nat) (v : Val) (pk : List Val) (l : List (List Val × Val)),
      (∀ d, Within d v → OkNode fi d) → flattenN srt o n v pk = .ok l → ∀ p x, (p, x) ∈ l →
      ∃ q, p = pk ++ q ∧ q ≠ [] ∧ hashableL q = true ∧ walk fi q v = .ok x := by
  intro n
  induction n with
  | zero => intro v pk l _ h; cases h
  | succ n ih =>
    intro v pk l hok h p x hm
    simp only [flattenN] at h
    cases hi : flatItems srt o v with
    | error e => rw [hi] at h; cases h
    | ok items =>
      rw [hi] at h
      obtain ⟨k, v', hkv, hcase⟩ := flatLoop_mem h hm
      obtain ⟨hh, hw, hc⟩ := flatItems_step hs (hok v (.refl v)) hi hkv
      rcases hcase with ⟨rfl, rfl⟩ | ⟨_, sub, hsub, hmem⟩
      · refine ⟨[k], rfl, by simp, by simp [hashableL, hh], ?_⟩
        rw [walk_cons_ok _ hw, walk]
      · obtain ⟨q, rfl, _, hq, hwq⟩ := ih v' (pk ++ [k]) sub (fun d hd => hok d (hd.trans hc.within)) hsub p x hmem
        refine ⟨k :: q, by simp, by simp, by simp [hashableL, hh, hq], ?_⟩
        rw [walk_cons_ok _ hw, hwq]

/-! ### fuel -/

theorem flatItems_depth {srt : SortItems} (hs : SortsItems srt) {o : FlatOpts} {v : Val}
    {items : List (Val × Val)} (h : flatItems srt o v = .ok items) {k x : Val}
    (hm : (k, x) ∈ items) : depth x < depth v := by
  have en : ∀ xs, (k, x) ∈ enumFrom 0 xs → depth x ≤ depthL xs := fun xs h => depth_mem (enum_step h).2.2
  unfold flatItems at h
  split at h
  · next n conf nonids out =>
    cases h
    simp only [List.mem_map, Prod.mk.injEq] at hm
    obtain ⟨⟨k', x'⟩, hm, rfl, rfl⟩ := hm
    have hm : (k', x') ∈ conf := by
      have := mem_sortBy.1 hm
      split at this
      · exact this
      · exact (List.mem_filter.1 this).1
    have := depth_memA hm
    simp only [depth]; omega
  all_goals try (split at h <;> first | (cases h; done) | skip)
  all_goals try (cases h; cases hm; done)
  all_goals first
    | (cases h; have := en _ hm; simp only [depth]; omega)
    | (have := (depth_memD ((hs _ _ h).mem_iff.1 hm)).2; simp only [depth]; omega)

theorem flatLoop_congr {recursive : Bool} {rec rec' : Val → List Val → R (List (List Val × Val))} {pk : List Val}
    {items : List (Val × Val)} (h : ∀ k v, (k, v) ∈ items → ∀ p, rec v p = rec' v p) :
    flatLoop recursive rec pk items = flatLoop recursive rec' pk items := by
  induction items with
  | nil => rfl
  | cons e r ih =>
    obtain ⟨k, v⟩ := e
    simp only [flatLoop]
    rw [h k v (by simp), ih (fun k v hm => h k v (by simp [hm]))]

theorem flattenN_stable {srt : SortItems} (hs : SortsItems srt) (o : FlatOpts) : ∀ (n m : Nat) (v : Val) (pk : List Val),
    depth v ≤ n → depth v ≤ m → flattenN srt o n v pk = flattenN srt o m v pk := by
  intro n
  induction n with
  | zero => intro m v pk h; have := depth_pos v; omega
  | succ n ih =>
    intro m v pk h1 h2
    cases m with
    | zero => have := depth_pos v; omega
    | succ m =>
      simp only [flattenN]
      cases hi : flatItems srt o v with
      | error e => rfl
      | ok items =>
        exact flatLoop_congr fun k x hm p => by
          have := flatItems_depth hs hi hm
          exact ih m x p (by omega) (by omega)

/-- `flatten` of an arbitrary value, from a partial key. -/
def flattenV (srt : SortItems) (o : FlatOpts) (v : Val) (pk : List Val) : R (List (List Val × Val)) :=
  flattenN srt o (depth v) v pk

/-- The recursive equation of what.py:165-183. -/
theorem flattenV_eq {srt : SortItems} (hs : SortsItems srt) (o : FlatOpts) (v : Val) (pk : List Val) :
    flattenV srt o v pk =
      match flatItems srt o v with
      | .error e => .error e
      | .ok items => flatLoop o.recursive (flattenV srt o) pk items := by
  rw [flattenV]
  cases hd : depth v with
  | zero => have := depth_pos v; omega
  | succ n =>
    simp only [flattenN]
    cases hi : flatItems srt o v with
    | error e => rfl
    | ok items =>
      exact flatLoop_congr fun k x hm p => by
        have := flatItems_depth hs hi hm
        exact flattenN_stable hs o n (depth x) x p (by omega) (Nat.le_refl _)

end Whatami
