import Verif.Spec.Reach

/-
Lemmas about references.
Definitions here are vocabulary for statements and proofs: the code they are about is cited in the model modules.
-/
namespace Whatami

mutual
theorem viewVal_congr {o o' : Nat → Option Val} : ∀ (v : HVal), (∀ b, Mentions b v → o b = o' b) →
    viewVal o v = viewVal o' v
  | .val v, _ => by simp only [viewVal]
  | .ref a, h => by simp only [viewVal]; exact h a .ref
  | .tup xs, h => by
    simp only [viewVal]
    rw [viewVals_congr xs fun x hx b hb => h b (.tup hx hb)]
termination_by structural v => v
theorem viewVals_congr {o o' : Nat → Option Val} : ∀ (xs : List HVal), (∀ x ∈ xs, ∀ b, Mentions b x → o b = o' b) →
    viewVals o xs = viewVals o' xs
  | [], _ => by simp only [viewVals]
  | x :: xs, h => by
    simp only [viewVals]
    rw [viewVal_congr x (h x (by simp)), viewVals_congr xs fun y hy => h y (by simp [hy])]
termination_by structural xs => xs
end

theorem viewItems_congr {o o' : Nat → Option Val} : ∀ (d : HDict),
    (∀ k v, (k, v) ∈ d → ∀ b, Mentions b v → o b = o' b) → viewItems o d = viewItems o' d
  | [], _ => by simp only [viewItems]
  | (k, v) :: r, h => by
    simp only [viewItems]
    rw [viewVal_congr v (h k v (by simp)), viewItems_congr r fun k v hm => h k v (by simp [hm])]

/-- Two heaps that agree on a closed set of objects show the same configurations there. -/
theorem viewObj_congr {h h' : Heap} (P : Nat → Prop)
    (closed : ∀ a b, P a → Holds h a b → P b)
    (objs : ∀ a, P a → h'.objs[a]? = h.objs[a]?)
    (dicts : ∀ a o, P a → h.objs[a]? = some o → h'.dicts[o.conf]? = h.dicts[o.conf]?) :
    ∀ n a, P a → viewObj h' n a = viewObj h n a
  | 0, _, _ => rfl
  | n + 1, a, ha => by
    simp only [viewObj]
    rw [objs a ha]
    cases ho : h.objs[a]? with
    | none => rfl
    | some o =>
      simp only
      rw [dicts a o ha ho]
      cases hd : h.dicts[o.conf]? with
      | none => rfl
      | some d =>
        simp only
        rw [viewItems_congr d]
        intro k v hm b hb
        rw [viewObj_congr P closed objs dicts n b (closed a b ha ⟨o, d, k, v, ho, hd, hm, hb⟩)]

mutual
theorem okIn_mentions {n b : Nat} : ∀ (v : HVal), v.okIn n = true → Mentions b v → b < n
  | .val _, _, h => by cases h
  | .ref a, ho, h => by
    cases h
    simpa [HVal.okIn] using ho
  | .tup xs, ho, h => by
    cases h with
    | tup hx hb => exact okInL_mentions xs (by simpa [HVal.okIn] using ho) _ hx hb
termination_by structural v => v
theorem okInL_mentions {n b : Nat} : ∀ (xs : List HVal), okInL n xs = true → ∀ x ∈ xs, Mentions b x → b < n
  | [], _, x, hx, _ => by cases hx
  | y :: ys, ho, x, hx, hb => by
    simp only [okInL, Bool.and_eq_true] at ho
    rcases List.mem_cons.1 hx with e | hx
    · rw [e] at hb; exact okIn_mentions y ho.1 hb
    · exact okInL_mentions ys ho.2 x hx hb
termination_by structural xs => xs
end

mutual
theorem mentions_shift {k b : Nat} : ∀ (v : HVal), Mentions b (v.shift k) → ∃ b', b = b' + k ∧ Mentions b' v
  | .val _, h => by simp only [HVal.shift] at h; cases h
  | .ref a, h => by simp only [HVal.shift] at h; cases h; exact ⟨a, rfl, .ref⟩
  | .tup xs, h => by
    simp only [HVal.shift] at h
    cases h with
    | tup hx hb =>
      obtain ⟨b', e, x', hx', hm⟩ := mentions_shiftL xs _ hx hb
      exact ⟨b', e, .tup hx' hm⟩
termination_by structural v => v
theorem mentions_shiftL {k b : Nat} : ∀ (xs : List HVal), ∀ x ∈ shiftL k xs, Mentions b x →
    ∃ b', b = b' + k ∧ ∃ x' ∈ xs, Mentions b' x'
  | [], x, hx, _ => by simp [shiftL] at hx
  | y :: ys, x, hx, hb => by
    simp only [shiftL, List.mem_cons] at hx
    rcases hx with rfl | hx
    · obtain ⟨b', e, hm⟩ := mentions_shift y hb
      exact ⟨b', e, y, by simp, hm⟩
    · obtain ⟨b', e, x', hx', hm⟩ := mentions_shiftL ys x hx hb
      exact ⟨b', e, x', by simp [hx'], hm⟩
termination_by structural xs => xs
end

mutual
theorem viewVal_shift {o o' : Nat → Option Val} {k : Nat} : ∀ (v : HVal), (∀ b, Mentions b v → o' (b + k) = o b) →
    viewVal o' (v.shift k) = viewVal o v
  | .val v, _ => by simp only [HVal.shift, viewVal]
  | .ref a, h => by simp only [HVal.shift, viewVal]; exact h a .ref
  | .tup xs, h => by
    simp only [HVal.shift, viewVal]
    rw [viewVals_shift xs fun x hx b hb => h b (.tup hx hb)]
termination_by structural v => v
theorem viewVals_shift {o o' : Nat → Option Val} {k : Nat} : ∀ (xs : List HVal),
    (∀ x ∈ xs, ∀ b, Mentions b x → o' (b + k) = o b) → viewVals o' (shiftL k xs) = viewVals o xs
  | [], _ => by simp only [shiftL, viewVals]
  | x :: xs, h => by
    simp only [shiftL, viewVals]
    rw [viewVal_shift x (h x (by simp)), viewVals_shift xs fun y hy => h y (by simp [hy])]
termination_by structural xs => xs
end

theorem viewItems_shift {o o' : Nat → Option Val} {k : Nat} : ∀ (d : HDict),
    (∀ n v, (n, v) ∈ d → ∀ b, Mentions b v → o' (b + k) = o b) →
    viewItems o' (d.map fun kv => (kv.1, kv.2.shift k)) = viewItems o d
  | [], _ => rfl
  | (n, v) :: r, h => by
    simp only [List.map_cons, viewItems]
    rw [viewVal_shift v (h n v (by simp)), viewItems_shift r fun k v hm => h k v (by simp [hm])]

theorem mem_dset_h {d : HDict} {k k' : Str} {v v' : HVal} (h : (k', v') ∈ dset d k v) : (k', v') ∈ d ∨ (k' = k ∧ v' = v) := by
  induction d with
  | nil => simp only [dset, List.mem_singleton, Prod.mk.injEq] at h; exact .inr h
  | cons e r ih =>
    obtain ⟨a, b⟩ := e
    simp only [dset] at h
    split at h
    · next e =>
      rcases List.mem_cons.1 h with h | h
      · cases h; exact .inr ⟨e, rfl⟩
      · exact .inl (by simp [h])
    · rcases List.mem_cons.1 h with h | h
      · cases h; exact .inl (by simp)
      · rcases ih h with h | h
        · exact .inl (by simp [h])
        · exact .inr h

/-! ### The steps, one by one -/

theorem hCopy_shallow {h : Heap} {a : Nat} {r : Heap × Nat} (he : hCopy h a false = some r) :
    ∃ o d, h.objs[a]? = some o ∧ h.dicts[o.conf]? = some d ∧
      r = (⟨h.dicts ++ [d], h.objs ++ [{ o with conf := h.dicts.length }]⟩, h.objs.length) := by
  simp only [hCopy] at he
  cases ho : h.objs[a]? with
  | none => rw [ho] at he; cases he
  | some o =>
    rw [ho] at he
    simp only [Bool.false_eq_true, if_false] at he
    cases hd : h.dicts[o.conf]? with
    | none => rw [hd] at he; cases he
    | some d =>
      rw [hd] at he
      simp only [hNew, Option.some.injEq] at he
      exact ⟨o, d, rfl, hd, he.symm⟩

theorem hCopy_deep {h : Heap} {a : Nat} {r : Heap × Nat} (he : hCopy h a true = some r) :
    ∃ o, h.objs[a]? = some o ∧
      r = (⟨(hDuplicate h).dicts, (hDuplicate h).objs ++ [{ o with conf := o.conf + h.dicts.length }]⟩,
        (hDuplicate h).objs.length) := by
  simp only [hCopy] at he
  cases ho : h.objs[a]? with
  | none => rw [ho] at he; cases he
  | some o =>
    rw [ho] at he
    simp only [if_true, hNew, Option.some.injEq] at he
    exact ⟨o, rfl, he.symm⟩

theorem hWrite_some {h h' : Heap} {d : Nat} {k : Str} {v : HVal} (he : hWrite h d k v = some h') :
    ∃ items, h.dicts[d]? = some items ∧ h' = ⟨h.dicts.set d (dset items k v), h.objs⟩ := by
  simp only [hWrite] at he
  cases hd : h.dicts[d]? with
  | none => rw [hd] at he; cases he
  | some items => rw [hd] at he; cases he; exact ⟨items, rfl, rfl⟩

theorem hSetIn_some {h : Heap} {a : Nat} {k : Str} {v : HVal} {r : Heap × Nat} (he : hSetIn h a k v = some r) :
    ∃ o items, h.objs[a]? = some o ∧ h.dicts[o.conf]? = some items ∧
      r = (⟨h.dicts.set o.conf (dset items k v), h.objs⟩, a) := by
  simp only [hSetIn] at he
  cases ho : h.objs[a]? with
  | none => rw [ho] at he; cases he
  | some o =>
    rw [ho] at he
    simp only [Option.map_eq_some_iff] at he
    obtain ⟨h', hw, rfl⟩ := he
    obtain ⟨items, hd, rfl⟩ := hWrite_some hw
    exact ⟨o, items, rfl, hd, rfl⟩

theorem getElem?_append_of_some {α : Type} {l l' : List α} {i : Nat} {x : α} (h : l[i]? = some x) : (l ++ l')[i]? = some x := by
  have := (List.getElem?_eq_some_iff.1 h).1
  rw [List.getElem?_append_left this]; exact h

/-- `copy` shows the configuration of the original. -/
theorem hCopy_shallow_view {h : Heap} {a : Nat} {r : Heap × Nat} (he : hCopy h a false = some r) (n : Nat)
    (hold : ∀ n b, b < h.objs.length → viewObj r.1 n b = viewObj h n b) (ok : HeapOk h) :
    viewObj r.1 n r.2 = viewObj h n a := by
  obtain ⟨o, d, ho, hd, rfl⟩ := hCopy_shallow he
  cases n with
  | zero => rfl
  | succ n =>
    simp only [viewObj, List.getElem?_concat_length, ho, hd]
    rw [viewItems_congr d]
    intro k v hm b hb
    rw [hold n b (ok.refs _ _ _ _ _ hd hm hb)]

end Whatami
