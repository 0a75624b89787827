import Verif.HeapLemmas

/-
C21, C22, C23: aliasing between What objects, over all histories.
-/
namespace Whatami

/-! ### Frames -/

/-- `h` still has the objects in `P` and the dictionaries in `Q` of `h0`. -/
def Agree (P Q : Nat → Prop) (h0 h : Heap) : Prop :=
  (∀ a, P a → h.objs[a]? = h0.objs[a]?) ∧ ∀ d, Q d → h.dicts[d]? = h0.dicts[d]?

theorem getElem?_set_other {α : Type} {l : List α} {i j : Nat} {x : α} (h : i ≠ j) : (l.set i x)[j]? = l[j]? := by
  rw [List.getElem?_set_ne h]

theorem step_agree {P Q : Nat → Prop} {h0 h h' : Heap} {op : HOp}
    (exist : ∀ a, P a → a < h0.objs.length) (existD : ∀ d, Q d → d < h0.dicts.length)
    (ag : Agree P Q h0 h) (hs : hStep h op = some h') (av : Avoids P Q h op) : Agree P Q h0 h' := by
  have grow : ∀ (ds : List HDict) (os : List WObj), Agree P Q h0 ⟨h.dicts ++ ds, h.objs ++ os⟩ := by
    intro ds os
    constructor
    · intro a ha
      obtain ⟨o, ho⟩ : ∃ o, h0.objs[a]? = some o := ⟨_, List.getElem?_eq_getElem (exist a ha)⟩
      rw [ho]; exact getElem?_append_of_some (by rw [ag.1 a ha, ho])
    · intro d hd
      obtain ⟨o, ho⟩ : ∃ o, h0.dicts[d]? = some o := ⟨_, List.getElem?_eq_getElem (existD d hd)⟩
      rw [ho]; exact getElem?_append_of_some (by rw [ag.2 d hd, ho])
  have grow' : ∀ (ds : List HDict), Agree P Q h0 ⟨h.dicts ++ ds, h.objs⟩ := fun ds => by simpa using grow ds []
  have grow'' : ∀ (os : List WObj), Agree P Q h0 ⟨h.dicts, h.objs ++ os⟩ := fun os => by simpa using grow [] os
  have write : ∀ d items, ¬ Q d → Agree P Q h0 ⟨h.dicts.set d items, h.objs⟩ := by
    intro d items hnq
    refine ⟨ag.1, fun d' hd' => ?_⟩
    rw [← ag.2 d' hd']
    refine getElem?_set_other ?_
    rintro rfl
    exact hnq hd'
  have obj : ∀ a o, ¬ P a → Agree P Q h0 ⟨h.dicts, h.objs.set a o⟩ := by
    intro a o hnp
    refine ⟨fun b hb => ?_, ag.2⟩
    rw [← ag.1 b hb]
    refine getElem?_set_other ?_
    rintro rfl
    exact hnp hb
  cases op with
  | dict items =>
    simp only [hStep] at hs
    split at hs
    · cases hs; exact grow' _
    · cases hs
  | new name d nonids out =>
    simp only [hStep, hNew] at hs
    split at hs
    · cases hs; exact grow'' _
    · cases hs
  | copy a deep =>
    simp only [hStep, Option.map_eq_some_iff] at hs
    obtain ⟨r, hc, rfl⟩ := hs
    cases deep with
    | false => obtain ⟨o, d, _, _, rfl⟩ := hCopy_shallow hc; exact grow _ _
    | true =>
      obtain ⟨o, _, rfl⟩ := hCopy_deep hc
      simp only [hDuplicate, List.append_assoc]
      exact grow _ _
  | set a k v copy =>
    simp only [hStep] at hs
    split at hs
    · simp only [Option.map_eq_some_iff] at hs
      obtain ⟨r, hc, rfl⟩ := hs
      cases copy with
      | false =>
        simp only [hSet, Bool.false_eq_true, if_false] at hc
        obtain ⟨o, items, ho, _, rfl⟩ := hSetIn_some hc
        exact write _ _ (av o ho)
      | true =>
        simp only [hSet, if_true, Option.bind_eq_some_iff] at hc
        obtain ⟨r1, hc1, hc2⟩ := hc
        obtain ⟨o, d, ho, hd, rfl⟩ := hCopy_shallow hc1
        obtain ⟨o', items, ho', hd', rfl⟩ := hSetIn_some hc2
        simp only [List.getElem?_concat_length, Option.some.injEq] at ho'
        subst ho'
        simp only [List.getElem?_concat_length, Option.some.injEq] at hd'
        subst hd'
        simp only [List.set_append_right _ _ (Nat.le_refl _), Nat.sub_self, List.set_cons_zero]
        exact grow _ _
    · cases hs
  | write d k v =>
    simp only [hStep] at hs
    split at hs
    · obtain ⟨items, _, rfl⟩ := hWrite_some hs
      exact write _ _ av
    · cases hs
  | attrs a name nonids out =>
    simp only [hStep] at hs
    cases ho : h.objs[a]? with
    | none => rw [ho] at hs; cases hs
    | some o => rw [ho] at hs; cases hs; exact obj _ _ av
  | rebind a d =>
    simp only [hStep] at hs
    cases ho : h.objs[a]? with
    | none => rw [ho] at hs; cases hs
    | some o =>
      rw [ho] at hs
      simp only at hs
      split at hs
      · cases hs; exact obj _ _ av
      · cases hs

theorem runs_agree {P Q : Nat → Prop} {h0 h h' : Heap} {ops : List HOp}
    (exist : ∀ a, P a → a < h0.objs.length) (existD : ∀ d, Q d → d < h0.dicts.length)
    (ag : Agree P Q h0 h) (hr : Runs (Avoids P Q) h ops h') : Agree P Q h0 h' := by
  induction hr with
  | nil => exact ag
  | cons hs av _ ih => exact ih (step_agree exist existD ag hs av)

theorem agree_view {P Q : Nat → Prop} {h0 h : Heap} (closed : ∀ a b, P a → Holds h0 a b → P b)
    (hQ : ∀ a o, P a → h0.objs[a]? = some o → Q o.conf) (ag : Agree P Q h0 h)
    (n a : Nat) (ha : P a) : viewObj h n a = viewObj h0 n a :=
  viewObj_congr P closed ag.1 (fun a o ha ho => ag.2 _ (hQ a o ha ho)) n a ha

theorem agree_refl (P Q : Nat → Prop) (h : Heap) : Agree P Q h h := ⟨fun _ _ => rfl, fun _ _ => rfl⟩

theorem holds_lt {h : Heap} (ok : HeapOk h) {a b : Nat} (hh : Holds h a b) : b < h.objs.length := by
  obtain ⟨o, d, k, v, _, hd, hm, hb⟩ := hh
  exact ok.refs _ _ _ _ _ hd hm hb

theorem reach_lt {h : Heap} (ok : HeapOk h) {a b : Nat} (ha : a < h.objs.length) (hr : Reach h a b) : b < h.objs.length := by
  cases hr with
  | refl => exact ha
  | step _ hh => exact holds_lt ok hh

theorem old_view {h h' : Heap} (ok : HeapOk h) (ag : Agree (· < h.objs.length) (· < h.dicts.length) h h') (n a : Nat)
    (ha : a < h.objs.length) : viewObj h' n a = viewObj h n a :=
  agree_view (P := (· < h.objs.length)) (fun _ _ _ hh => holds_lt ok hh) (fun a o _ ho => ok.conf a o ho) ag n a ha

theorem agree_grow (h : Heap) (ds : List HDict) (os : List WObj) :
    Agree (· < h.objs.length) (· < h.dicts.length) h ⟨h.dicts ++ ds, h.objs ++ os⟩ :=
  ⟨fun _ ha => List.getElem?_append_left ha, fun _ ha => List.getElem?_append_left ha⟩

/-! ### Heaps stay well formed -/

theorem heapOk_step {h h' : Heap} {op : HOp} (ok : HeapOk h) (hs : hStep h op = some h') : HeapOk h' := by
  have setIn : ∀ (h : Heap), HeapOk h → ∀ d items k v, h.dicts[d]? = some items → (∀ b, Mentions b v → b < h.objs.length) →
      HeapOk ⟨h.dicts.set d (dset items k v), h.objs⟩ := by
    intro h ok d items k v hd hv
    refine ⟨fun a o ho => by simpa using ok.conf a o ho, fun d' items' k' v' b hd' hm hb => ?_⟩
    by_cases e : d = d'
    · subst e
      have hlt := (List.getElem?_eq_some_iff.1 hd).1
      simp only [List.getElem?_set, if_true, hlt, Option.some.injEq] at hd'
      subst hd'
      rcases mem_dset_h hm with hm | ⟨_, rfl⟩
      · exact ok.refs _ _ _ _ _ hd hm hb
      · exact hv b hb
    · rw [getElem?_set_other e] at hd'
      exact ok.refs _ _ _ _ _ hd' hm hb
  have shallow : ∀ a r, hCopy h a false = some r → HeapOk r.1 := by
    intro a r hc
    obtain ⟨o, d, ho, hd, rfl⟩ := hCopy_shallow hc
    refine ⟨fun b o' ho' => ?_, fun d' items k v b hd' hm hb => ?_⟩
    · simp only [List.length_append, List.length_singleton]
      rw [List.getElem?_append] at ho'
      split at ho'
      · have := ok.conf b o' ho'; omega
      · cases hb : b - h.objs.length with
        | zero => rw [hb] at ho'; cases ho'; simp
        | succ m => rw [hb] at ho'; cases ho'
    · simp only [List.length_append, List.length_singleton]
      rw [List.getElem?_append] at hd'
      split at hd'
      · have := ok.refs _ _ _ _ _ hd' hm hb; omega
      · cases hb' : d' - h.dicts.length with
        | zero => rw [hb'] at hd'; cases hd'; have := ok.refs _ _ _ _ _ hd hm hb; omega
        | succ m => rw [hb'] at hd'; cases hd'
  cases op with
  | dict items =>
    simp only [hStep] at hs
    split at hs
    · next hall =>
      cases hs
      refine ⟨fun a o ho => by have := ok.conf a o ho; simp only [List.length_append, List.length_singleton]; omega,
        fun d' items' k v b hd' hm hb => ?_⟩
      rw [List.getElem?_append] at hd'
      split at hd'
      · exact ok.refs _ _ _ _ _ hd' hm hb
      · cases hb' : d' - h.dicts.length with
        | zero =>
          rw [hb'] at hd'; cases hd'
          exact okIn_mentions v (List.all_eq_true.1 hall (k, v) hm) hb
        | succ m => rw [hb'] at hd'; cases hd'
    · cases hs
  | new name d nonids out =>
    simp only [hStep, hNew] at hs
    split at hs
    · next hlt =>
      cases hs
      refine ⟨fun b o' ho' => ?_, fun d' items k v b hd' hm hb => ?_⟩
      · rw [List.getElem?_append] at ho'
        split at ho'
        · exact ok.conf b o' ho'
        · cases hb : b - h.objs.length with
          | zero => rw [hb] at ho'; cases ho'; exact hlt
          | succ m => rw [hb] at ho'; cases ho'
      · have := ok.refs _ _ _ _ _ hd' hm hb
        simp only [List.length_append, List.length_singleton]; omega
    · cases hs
  | copy a deep =>
    simp only [hStep, Option.map_eq_some_iff] at hs
    obtain ⟨r, hc, rfl⟩ := hs
    cases deep with
    | false => exact shallow a r hc
    | true =>
      obtain ⟨o, ho, rfl⟩ := hCopy_deep hc
      have hoc := ok.conf a o ho
      refine ⟨fun b o' ho' => ?_, fun d' items k v b hd' hm hb => ?_⟩
      · simp only [hDuplicate, List.length_append, List.length_map] at ho' ⊢
        rw [List.getElem?_append] at ho'
        split at ho'
        · rw [List.getElem?_append] at ho'
          split at ho'
          · have := ok.conf b o' ho'; omega
          · simp only [List.getElem?_map, Option.map_eq_some_iff] at ho'
            obtain ⟨o2, h2, rfl⟩ := ho'
            have := ok.conf _ o2 h2
            simp only; omega
        · cases hb : b - (h.objs ++ h.objs.map fun o : WObj => WObj.mk o.name (o.conf + h.dicts.length) o.nonids o.out).length with
          | zero => rw [hb] at ho'; cases ho'; simp only; omega
          | succ m => rw [hb] at ho'; cases ho'
      · simp only [hDuplicate, List.length_append, List.length_map, List.length_singleton] at hd' ⊢
        rw [List.getElem?_append] at hd'
        split at hd'
        · have := ok.refs _ _ _ _ _ hd' hm hb; omega
        · simp only [List.getElem?_map, Option.map_eq_some_iff] at hd'
          obtain ⟨items2, h2, rfl⟩ := hd'
          simp only [List.mem_map, Prod.mk.injEq] at hm
          obtain ⟨kv, hm, rfl, rfl⟩ := hm
          obtain ⟨b', rfl, hb'⟩ := mentions_shift _ hb
          have := ok.refs _ _ _ _ _ h2 hm hb'
          omega
  | set a k v copy =>
    simp only [hStep] at hs
    split at hs
    · next hv =>
      simp only [Option.map_eq_some_iff] at hs
      obtain ⟨r, hc, rfl⟩ := hs
      cases copy with
      | false =>
        simp only [hSet, Bool.false_eq_true, if_false] at hc
        obtain ⟨o, items, ho, hd, rfl⟩ := hSetIn_some hc
        exact setIn h ok _ _ _ _ hd fun b hb => okIn_mentions v hv hb
      | true =>
        simp only [hSet, if_true, Option.bind_eq_some_iff] at hc
        obtain ⟨r1, hc1, hc2⟩ := hc
        have ok1 := shallow a r1 hc1
        obtain ⟨o, d, ho, hd, rfl⟩ := hCopy_shallow hc1
        obtain ⟨o', items, ho', hd', rfl⟩ := hSetIn_some hc2
        refine setIn _ ok1 _ _ _ _ hd' fun b hb => ?_
        have := okIn_mentions v hv hb
        simp only [List.length_append, List.length_singleton]; omega
    · cases hs
  | write d k v =>
    simp only [hStep] at hs
    split at hs
    · next hv =>
      obtain ⟨items, hd, rfl⟩ := hWrite_some hs
      exact setIn h ok _ _ _ _ hd fun b hb => okIn_mentions v hv hb
    · cases hs
  | attrs a name nonids out =>
    simp only [hStep] at hs
    cases ho : h.objs[a]? with
    | none => rw [ho] at hs; cases hs
    | some o =>
      rw [ho] at hs; cases hs
      refine ⟨fun b o' ho' => ?_, fun d' items k v b hd' hm hb => by simpa using ok.refs _ _ _ _ _ hd' hm hb⟩
      rw [List.getElem?_set] at ho'
      split at ho'
      · split at ho'
        · cases ho'; exact ok.conf a o ho
        · cases ho'
      · exact ok.conf b o' ho'
  | rebind a d =>
    simp only [hStep] at hs
    cases ho : h.objs[a]? with
    | none => rw [ho] at hs; cases hs
    | some o =>
      rw [ho] at hs
      simp only at hs
      split at hs
      · next hlt =>
        cases hs
        refine ⟨fun b o' ho' => ?_, fun d' items k v b hd' hm hb => by simpa using ok.refs _ _ _ _ _ hd' hm hb⟩
        rw [List.getElem?_set] at ho'
        split at ho'
        · split at ho'
          · cases ho'; exact hlt
          · cases ho'
        · exact ok.conf b o' ho'
      · cases hs

theorem heapOk_empty : HeapOk {} := ⟨fun a o h => by simp at h, fun d _ _ _ _ h => by simp at h⟩

/-- Every heap a program can build is well formed: the hypothesis `HeapOk` below always holds. -/
theorem c21_reachable_ok {R : Heap → HOp → Prop} {h h' : Heap} {ops : List HOp} (ok : HeapOk h) (hr : Runs R h ops h') : HeapOk h' := by
  induction hr with
  | nil => exact ok
  | cons hs _ _ ih => exact ih (heapOk_step ok hs)

/-! ### C21 -/

/-- C21. Frame: whatever the program does, an object keeps showing the same configuration, at every recursion
limit, unless some operation writes in place to its own dictionary or slots, or to those of a What nested in it. -/
theorem c21_frame {h h' : Heap} (ok : HeapOk h) (x : Nat) (hx : x < h.objs.length) (ops : List HOp)
    (hr : Runs (Avoids (Reach h x) (Owns h x)) h ops h') (n : Nat) : viewObj h' n x = viewObj h n x :=
  agree_view (P := Reach h x) (fun _ _ ha hh => ha.step hh) (fun a o ha ho => ⟨a, o, ha, ho, rfl⟩)
    (runs_agree (fun _ ha => reach_lt ok hx ha) (fun d hd => by obtain ⟨b, o, _, ho, rfl⟩ := hd; exact ok.conf b o ho)
      (agree_refl _ _ h) hr) n x .refl

theorem shift_view {h : Heap} (ok : HeapOk h) (os : List WObj) : ∀ n a, a < h.objs.length →
    viewObj ⟨(hDuplicate h).dicts, (hDuplicate h).objs ++ os⟩ n (a + h.objs.length) = viewObj h n a
  | 0, _, _ => rfl
  | n + 1, a, ha => by
    obtain ⟨o, ho⟩ : ∃ o, h.objs[a]? = some o := ⟨_, List.getElem?_eq_getElem ha⟩
    obtain ⟨d, hd⟩ : ∃ d, h.dicts[o.conf]? = some d := ⟨_, List.getElem?_eq_getElem (ok.conf a o ho)⟩
    have e1 : ((hDuplicate h).objs ++ os)[a + h.objs.length]? = some { o with conf := o.conf + h.dicts.length } := by
      refine getElem?_append_of_some ?_
      simp only [hDuplicate]
      rw [List.getElem?_append_right (by omega)]
      simp [ho]
    have e2 : (hDuplicate h).dicts[o.conf + h.dicts.length]? = some (d.map fun kv => (kv.1, kv.2.shift h.objs.length)) := by
      simp only [hDuplicate]
      rw [List.getElem?_append_right (by omega)]
      simp [hd]
    simp only [viewObj, e1, e2, ho, hd]
    rw [viewItems_shift d]
    intro k v hm b hb
    rw [shift_view ok os n b (ok.refs _ _ _ _ _ hd hm hb)]

/-- C21. `copy` (shallow or deep): the copy is a new object with a new dictionary; it shows the configuration of
the original; and no object that existed before shows anything else than before. -/
theorem c21_copy {h h' : Heap} (ok : HeapOk h) (x c : Nat) (deep : Bool) (he : hCopy h x deep = some (h', c)) :
    (h.objs.length ≤ c ∧ ∃ o, h'.objs[c]? = some o ∧ h.dicts.length ≤ o.conf) ∧
    (∀ n, viewObj h' n c = viewObj h n x) ∧
    ∀ n b, b < h.objs.length → viewObj h' n b = viewObj h n b := by
  cases deep with
  | false =>
    have hold : ∀ n b, b < h.objs.length → viewObj h' n b = viewObj h n b := by
      obtain ⟨o, d, ho, hd, e⟩ := hCopy_shallow he
      cases e
      exact fun n b hb => old_view ok (agree_grow h _ _) n b hb
    have hv := fun n => hCopy_shallow_view he n hold ok
    obtain ⟨o, d, ho, hd, e⟩ := hCopy_shallow he
    cases e
    exact ⟨⟨Nat.le_refl _, _, List.getElem?_concat_length, Nat.le_refl _⟩, hv, hold⟩
  | true =>
    obtain ⟨o, ho, e⟩ := hCopy_deep he
    have hx := (List.getElem?_eq_some_iff.1 ho).1
    cases e
    have hold : ∀ n b, b < h.objs.length → viewObj ⟨(hDuplicate h).dicts,
        (hDuplicate h).objs ++ [{ o with conf := o.conf + h.dicts.length }]⟩ n b = viewObj h n b := by
      intro n b hb
      simp only [hDuplicate, List.append_assoc]
      exact old_view ok (agree_grow h _ _) n b hb
    refine ⟨⟨by simp only [hDuplicate, List.length_append]; omega, _, List.getElem?_concat_length, by simp only; omega⟩, ?_, hold⟩
    intro n
    rw [← shift_view ok [{ o with conf := o.conf + h.dicts.length }] n x hx]
    cases n with
    | zero => rfl
    | succ n =>
      have e1 : ((hDuplicate h).objs ++ [{ o with conf := o.conf + h.dicts.length }])[x + h.objs.length]? =
          some { o with conf := o.conf + h.dicts.length } := by
        refine getElem?_append_of_some ?_
        simp only [hDuplicate]
        rw [List.getElem?_append_right (by omega)]
        simp [ho]
      simp only [viewObj, e1, List.getElem?_concat_length]

theorem reach_old {h h' : Heap} (ok : HeapOk h) (ag : Agree (· < h.objs.length) (· < h.dicts.length) h h')
    {x b : Nat} (hx : x < h.objs.length) (hr : Reach h' x b) : b < h.objs.length := by
  induction hr with
  | refl => exact hx
  | step _ hh ih =>
    obtain ⟨o, d, k, v, ho, hd, hm, hb⟩ := hh
    rw [ag.1 _ ih] at ho
    rw [ag.2 _ (ok.conf _ _ ho)] at hd
    exact ok.refs _ _ _ _ _ hd hm hb

theorem owns_old {h h' : Heap} (ok : HeapOk h) (ag : Agree (· < h.objs.length) (· < h.dicts.length) h h')
    {x d : Nat} (hx : x < h.objs.length) (hr : Owns h' x d) : d < h.dicts.length := by
  obtain ⟨b, o, hb, ho, rfl⟩ := hr
  rw [ag.1 _ (reach_old ok ag hx hb)] at ho
  exact ok.conf _ _ ho

theorem hCopy_agree {h h' : Heap} {x c : Nat} {deep : Bool} (he : hCopy h x deep = some (h', c)) :
    Agree (· < h.objs.length) (· < h.dicts.length) h h' ∧ x < h.objs.length := by
  cases deep with
  | false =>
    obtain ⟨o, d, ho, hd, e⟩ := hCopy_shallow he
    cases e
    exact ⟨agree_grow h _ _, (List.getElem?_eq_some_iff.1 ho).1⟩
  | true =>
    obtain ⟨o, ho, e⟩ := hCopy_deep he
    cases e
    refine ⟨?_, (List.getElem?_eq_some_iff.1 ho).1⟩
    simp only [hDuplicate, List.append_assoc]
    exact agree_grow h _ _

/-- C21. A copy is no part of the original: writing in place to the copy writes to nothing the original
is made of. -/
theorem c21_copy_apart {h h' : Heap} (ok : HeapOk h) (x c : Nat) (deep : Bool) (he : hCopy h x deep = some (h', c))
    (o : WObj) (ho : h'.objs[c]? = some o) : ¬ Reach h' x c ∧ ¬ Owns h' x o.conf := by
  obtain ⟨⟨h1, o', ho', h2⟩, _⟩ := c21_copy ok x c deep he
  obtain ⟨ag, hx⟩ := hCopy_agree he
  rw [ho] at ho'; cases ho'
  exact ⟨fun hr => by have := reach_old ok ag hx hr; omega, fun hr => by have := owns_old ok ag hx hr; omega⟩

/-- C21. A deep copy shares nothing at all with the original: no object and no dictionary is part of both. -/
theorem c21_deep_apart {h h' : Heap} (ok : HeapOk h) (x c : Nat) (he : hCopy h x true = some (h', c)) :
    (∀ b, Reach h' c b → ¬ Reach h' x b) ∧ ∀ d, Owns h' c d → ¬ Owns h' x d := by
  obtain ⟨ag, hx⟩ := hCopy_agree he
  obtain ⟨o, ho, e⟩ := hCopy_deep he
  have hobj : ∀ b o', h.objs.length ≤ b → h'.objs[b]? = some o' → h.dicts.length ≤ o'.conf := by
    cases e
    intro b o' hb ho'
    simp only [hDuplicate, List.append_assoc] at ho'
    rw [List.getElem?_append_right hb, List.getElem?_append] at ho'
    split at ho'
    · simp only [List.getElem?_map, Option.map_eq_some_iff] at ho'
      obtain ⟨o2, _, rfl⟩ := ho'
      simp only; omega
    · cases hb : (b - h.objs.length - (List.map (fun o : WObj => WObj.mk o.name (o.conf + h.dicts.length) o.nonids o.out) h.objs).length) with
      | zero => rw [hb] at ho'; cases ho'; simp only; omega
      | succ m => rw [hb] at ho'; cases ho'
  have hnew : ∀ b, Reach h' c b → h.objs.length ≤ b := by
    intro b hr
    induction hr with
    | refl => cases e; simp only [hDuplicate, List.length_append]; omega
    | step _ hh ih =>
      obtain ⟨o2, d2, k, v, ho2, hd2, hm, hb⟩ := hh
      have := hobj _ _ ih ho2
      cases e
      simp only [hDuplicate] at hd2
      rw [List.getElem?_append_right this] at hd2
      simp only [List.getElem?_map, Option.map_eq_some_iff] at hd2
      obtain ⟨items, _, rfl⟩ := hd2
      simp only [List.mem_map, Prod.mk.injEq] at hm
      obtain ⟨kv, _, _, rfl⟩ := hm
      obtain ⟨b', rfl, _⟩ := mentions_shift _ hb
      omega
  refine ⟨fun b hb hb' => ?_, fun d hd hd' => ?_⟩
  · have := reach_old ok ag hx hb'
    have := hnew b hb
    omega
  · have := owns_old ok ag hx hd'
    obtain ⟨b, o2, hb, ho2, rfl⟩ := hd
    have := hobj b o2 (hnew b hb) ho2
    omega

/-- C21. After a shallow copy, writing in place to the original's own dictionary does not reach the copy either,
unless that dictionary is also the configuration of something nested in the original. -/
theorem c21_original_apart {h h' : Heap} (ok : HeapOk h) (x c : Nat) (he : hCopy h x false = some (h', c))
    (o : WObj) (ho : h.objs[x]? = some o) (hself : ∀ y, Holds h x y → ¬ Owns h y o.conf) : ¬ Owns h' c o.conf := by
  obtain ⟨ag, hx⟩ := hCopy_agree he
  obtain ⟨o', d, ho', hd, e⟩ := hCopy_shallow he
  rw [ho] at ho'; cases ho'
  have hxc := ok.conf _ _ ho
  rintro ⟨b, o2, hb, ho2, hc⟩
  -- reachability from the copy: the copy itself, or something nested in the original
  have key : b = c ∨ ∃ y, Holds h x y ∧ Reach h y b := by
    clear ho2 hc
    induction hb with
    | refl => exact .inl rfl
    | step hr hh ih =>
      obtain ⟨o3, d3, k, v, ho3, hd3, hm, hb⟩ := hh
      rcases ih with rfl | ⟨y, hy, hry⟩
      · cases e
        simp only [List.getElem?_concat_length, Option.some.injEq] at ho3
        subst ho3
        simp only [List.getElem?_concat_length, Option.some.injEq] at hd3
        subst hd3
        exact .inr ⟨_, ⟨_, _, _, _, ho, hd, hm, hb⟩, .refl⟩
      · have hlt := reach_lt ok (holds_lt ok hy) hry
        rw [ag.1 _ hlt] at ho3
        rw [ag.2 _ (ok.conf _ _ ho3)] at hd3
        exact .inr ⟨y, hy, hry.step ⟨_, _, _, _, ho3, hd3, hm, hb⟩⟩
  rcases key with rfl | ⟨y, hy, hry⟩
  · cases e
    simp only [List.getElem?_concat_length, Option.some.injEq] at ho2
    subst ho2
    simp only at hc
    omega
  · have hlt := reach_lt ok (holds_lt ok hy) hry
    rw [ag.1 _ hlt] at ho2
    exact hself y hy ⟨b, o2, hry, ho2, hc⟩

theorem viewItems_dset {o : Nat → Option Val} {d : HDict} {c : Conf} {k : Str} {v : HVal} {v' : Val}
    (hd : viewItems o d = some c) (hv : viewVal o v = some v') : viewItems o (dset d k v) = some (dset c k v') := by
  induction d generalizing c with
  | nil => cases hd; simp [dset, viewItems, hv]
  | cons e r ih =>
    obtain ⟨k', x⟩ := e
    simp only [viewItems] at hd
    cases hx : viewVal o x with
    | none => rw [hx] at hd; cases hd
    | some y =>
      rw [hx] at hd
      cases hr : viewItems o r with
      | none => rw [hr] at hd; cases hd
      | some c' =>
        rw [hr] at hd
        cases hd
        simp only [dset]
        by_cases hk : k' = k
        · simp [hk, viewItems, hv, hr]
        · simp [hk, viewItems, hx, ih hr]

/-- The values a reference stands for, at most `n` levels deep. -/
def resolve (h : Heap) (n : Nat) (b : Nat) : Option Val := (viewObj h n b).map What.toVal

theorem viewObj_some {h : Heap} {n a : Nat} {w : What} (hv : viewObj h (n + 1) a = some w) :
    ∃ o d c, h.objs[a]? = some o ∧ h.dicts[o.conf]? = some d ∧ viewItems (resolve h n) d = some c ∧
      w = ⟨o.name, c, o.nonids, o.out⟩ := by
  simp only [viewObj] at hv
  cases ho : h.objs[a]? with
  | none => rw [ho] at hv; cases hv
  | some o =>
    rw [ho] at hv
    simp only at hv
    cases hd : h.dicts[o.conf]? with
    | none => rw [hd] at hv; cases hv
    | some d =>
      rw [hd] at hv
      simp only [Option.map_eq_some_iff] at hv
      obtain ⟨c, hc, rfl⟩ := hv
      exact ⟨o, d, c, rfl, hd, hc, rfl⟩

/-- C21. `set(k, v, copy=True)`: the result is a new object showing the receiver's configuration with `k` set to
`v`; the receiver and every other object show what they showed. -/
theorem c21_set_copy {h h' : Heap} (ok : HeapOk h) (x c : Nat) (k : Str) (v : HVal) (hv : v.okIn h.objs.length = true)
    (he : hSet h x k v true = some (h', c)) :
    h.objs.length ≤ c ∧
    (∀ n b, b < h.objs.length → viewObj h' n b = viewObj h n b) ∧
    ∀ n w v', viewObj h (n + 1) x = some w → viewVal (resolve h n) v = some v' →
      viewObj h' (n + 1) c = some ⟨w.name, dset w.conf k v', w.nonids, w.out⟩ := by
  simp only [hSet, if_true, Option.bind_eq_some_iff] at he
  obtain ⟨r1, hc1, hc2⟩ := he
  obtain ⟨o, d, ho, hd, rfl⟩ := hCopy_shallow hc1
  obtain ⟨o', items, ho', hd', e⟩ := hSetIn_some hc2
  simp only [List.getElem?_concat_length, Option.some.injEq] at ho'
  subst ho'
  simp only [List.getElem?_concat_length, Option.some.injEq] at hd'
  subst hd'
  simp only [List.set_append_right _ _ (Nat.le_refl _), Nat.sub_self, List.set_cons_zero] at e
  cases e
  have hold : ∀ n b, b < h.objs.length → viewObj ⟨h.dicts ++ [dset d k v], h.objs ++ [{ o with conf := h.dicts.length }]⟩ n b =
      viewObj h n b := fun n b hb => old_view ok (agree_grow h _ _) n b hb
  refine ⟨Nat.le_refl _, hold, fun n w v' hw hvv => ?_⟩
  obtain ⟨o2, d2, c2, ho2, hd2, hc, rfl⟩ := viewObj_some hw
  rw [ho] at ho2; cases ho2
  rw [hd] at hd2; cases hd2
  simp only [viewObj, List.getElem?_concat_length]
  rw [viewItems_congr (o' := resolve h n)]
  · rw [viewItems_dset hc hvv]; rfl
  · intro k' v2 hm b hb
    have hlt : b < h.objs.length := by
      rcases mem_dset_h hm with hm | ⟨_, rfl⟩
      · exact ok.refs _ _ _ _ _ hd hm hb
      · exact okIn_mentions v2 hv hb
    simp only [resolve, hold n b hlt]

/-- A program that, from a moment when there were `n0` objects and `d0` dictionaries, never writes in place to
the objects and dictionaries of that moment, nor makes new objects out of those dictionaries. -/
def Local (n0 d0 : Nat) : HOp → Prop
  | .new _ d _ _ => d0 ≤ d
  | .set a _ _ false => n0 ≤ a
  | .write d _ _ => d0 ≤ d
  | .attrs a _ _ _ => n0 ≤ a
  | .rebind a d => n0 ≤ a ∧ d0 ≤ d
  | _ => True

theorem local_step {n0 d0 : Nat} {h h' : Heap} {op : HOp} (hn : n0 ≤ h.objs.length) (hd0 : d0 ≤ h.dicts.length)
    (inv : ∀ (a : Nat) o, n0 ≤ a → h.objs[a]? = some o → d0 ≤ o.conf)
    (hs : hStep h op = some h') (hl : Local n0 d0 op) :
    (n0 ≤ h'.objs.length ∧ d0 ≤ h'.dicts.length ∧ ∀ (a : Nat) o, n0 ≤ a → h'.objs[a]? = some o → d0 ≤ o.conf) ∧
    Avoids (· < n0) (· < d0) h op := by
  have add : ∀ o : WObj, d0 ≤ o.conf → ∀ (a : Nat) o', n0 ≤ a → (h.objs ++ [o])[a]? = some o' → d0 ≤ o'.conf := by
    intro o ho a o' ha ho'
    rw [List.getElem?_append] at ho'
    split at ho'
    · exact inv a o' ha ho'
    · cases hb : a - h.objs.length with
      | zero => rw [hb] at ho'; cases ho'; exact ho
      | succ m => rw [hb] at ho'; cases ho'
  have upd : ∀ (i : Nat) (o : WObj), d0 ≤ o.conf → ∀ (a : Nat) o', n0 ≤ a → (h.objs.set i o)[a]? = some o' → d0 ≤ o'.conf := by
    intro i o ho a o' ha ho'
    rw [List.getElem?_set] at ho'
    split at ho'
    · split at ho'
      · cases ho'; exact ho
      · cases ho'
    · exact inv a o' ha ho'
  cases op with
  | dict items =>
    simp only [hStep] at hs
    split at hs
    · cases hs; exact ⟨⟨hn, by simp only [List.length_append]; omega, inv⟩, trivial⟩
    · cases hs
  | new name d nonids out =>
    simp only [hStep, hNew] at hs
    split at hs
    · cases hs; exact ⟨⟨by simp only [List.length_append]; omega, hd0, add _ hl⟩, trivial⟩
    · cases hs
  | copy a deep =>
    simp only [hStep, Option.map_eq_some_iff] at hs
    obtain ⟨r, hc, rfl⟩ := hs
    refine ⟨?_, trivial⟩
    cases deep with
    | false =>
      obtain ⟨o, d, _, _, rfl⟩ := hCopy_shallow hc
      exact ⟨by simp only [List.length_append]; omega, by simp only [List.length_append]; omega, add _ hd0⟩
    | true =>
      obtain ⟨o, ho, rfl⟩ := hCopy_deep hc
      refine ⟨by simp only [hDuplicate, List.length_append]; omega, by simp only [hDuplicate, List.length_append]; omega, ?_⟩
      intro a o' ha ho'
      simp only [hDuplicate, List.append_assoc] at ho'
      rw [List.getElem?_append] at ho'
      split at ho'
      · exact inv a o' ha ho'
      · rw [List.getElem?_append] at ho'
        split at ho'
        · simp only [List.getElem?_map, Option.map_eq_some_iff] at ho'
          obtain ⟨o2, _, rfl⟩ := ho'
          simp only; omega
        · cases hb : (a - h.objs.length - (List.map (fun o : WObj => WObj.mk o.name (o.conf + h.dicts.length) o.nonids o.out) h.objs).length) with
          | zero => rw [hb] at ho'; cases ho'; simp only; omega
          | succ m => rw [hb] at ho'; cases ho'
  | set a k v copy =>
    simp only [hStep] at hs
    split at hs
    · simp only [Option.map_eq_some_iff] at hs
      obtain ⟨r, hc, rfl⟩ := hs
      cases copy with
      | false =>
        simp only [hSet, Bool.false_eq_true, if_false] at hc
        obtain ⟨o, items, ho, _, rfl⟩ := hSetIn_some hc
        refine ⟨⟨hn, by simpa using hd0, inv⟩, fun o' ho' => ?_⟩
        have := inv a o' hl ho'
        omega
      | true =>
        simp only [hSet, if_true, Option.bind_eq_some_iff] at hc
        obtain ⟨r1, hc1, hc2⟩ := hc
        obtain ⟨o, d, ho, hd, rfl⟩ := hCopy_shallow hc1
        obtain ⟨o', items, ho', hd', rfl⟩ := hSetIn_some hc2
        exact ⟨⟨by simp only [List.length_append]; omega, by simp only [List.length_set, List.length_append]; omega,
          add _ hd0⟩, trivial⟩
    · cases hs
  | write d k v =>
    simp only [hStep] at hs
    split at hs
    · obtain ⟨items, _, rfl⟩ := hWrite_some hs
      exact ⟨⟨hn, by simpa using hd0, inv⟩, by simp only [Local] at hl; simp only [Avoids]; omega⟩
    · cases hs
  | attrs a name nonids out =>
    simp only [hStep] at hs
    cases ho : h.objs[a]? with
    | none => rw [ho] at hs; cases hs
    | some o =>
      rw [ho] at hs; cases hs
      exact ⟨⟨by simpa using hn, hd0, upd _ _ (inv a o hl ho)⟩, by simp only [Local] at hl; simp only [Avoids]; omega⟩
  | rebind a d =>
    simp only [hStep] at hs
    cases ho : h.objs[a]? with
    | none => rw [ho] at hs; cases hs
    | some o =>
      rw [ho] at hs
      simp only at hs
      split at hs
      · cases hs
        exact ⟨⟨by simpa using hn, hd0, upd _ _ hl.2⟩, by simp only [Local] at hl; simp only [Avoids]; omega⟩
      · cases hs

/-- C21. Histories: a program that only makes dictionaries, Whats, copies and `set(..., copy=True)` of anything,
and writes in place only to objects it made (copies included), changes the id of no object it started with. -/
theorem c21_history (bs : BS) {h h' : Heap} (ok : HeapOk h) (ops : List HOp)
    (hr : Runs (fun _ op => Local h.objs.length h.dicts.length op) h ops h') (x : Nat) (hx : x < h.objs.length) (n : Nat) :
    viewObj h' n x = viewObj h n x ∧ hId bs h' n x = hId bs h n x := by
  have key : ∀ h1 ops h2, Runs (fun _ op => Local h.objs.length h.dicts.length op) h1 ops h2 →
      h.objs.length ≤ h1.objs.length → h.dicts.length ≤ h1.dicts.length →
      (∀ (a : Nat) o, h.objs.length ≤ a → h1.objs[a]? = some o → h.dicts.length ≤ o.conf) →
      Runs (Avoids (· < h.objs.length) (· < h.dicts.length)) h1 ops h2 := by
    intro h1 ops h2 hr
    induction hr with
    | nil => exact fun _ _ _ => .nil _
    | cons hs hl _ ih =>
      intro h1 h2 inv
      obtain ⟨⟨a, b, c⟩, av⟩ := local_step h1 h2 inv hs hl
      exact .cons hs av (ih a b c)
  have hr' := key h ops h' hr (Nat.le_refl _) (Nat.le_refl _) (fun a o ha ho => by
    have := (List.getElem?_eq_some_iff.1 ho).1; omega)
  have := old_view ok (runs_agree (fun _ h => h) (fun _ h => h) (agree_refl _ _ h) hr') n x hx
  exact ⟨this, by simp only [hId, this]⟩

/-- A What `g(a=1)` nested in `f(g=g(a=1), n=3)`, a third What sharing the dictionary of the second. -/
def exHeap : Heap := ⟨[[(c!"a", .val (.int 1))], [(c!"g", .ref 0), (c!"n", .val (.int 3))]],
  [⟨c!"g", 0, [], none⟩, ⟨c!"f", 1, [], none⟩, ⟨c!"alias", 1, [], none⟩]⟩
/-- The heap is what a program builds. -/
example : hStep {} (.dict [(c!"a", .val (.int 1))]) = some ⟨[[(c!"a", .val (.int 1))]], []⟩ := rfl
def exProg : List HOp := [.dict [(c!"a", .val (.int 1))], .new c!"g" 0 [] none, .dict [(c!"g", .ref 0), (c!"n", .val (.int 3))],
  .new c!"f" 1 [] none, .new c!"alias" 1 [] none]
theorem exHeap_runs : Runs (fun _ _ => True) {} exProg exHeap :=
  .cons rfl trivial (.cons rfl trivial (.cons rfl trivial (.cons rfl trivial (.cons rfl trivial (.nil _)))))
theorem exHeap_ok : HeapOk exHeap := c21_reachable_ok heapOk_empty exHeap_runs
example : hId buildD exHeap 5 1 = some (.ok c!"f(g=g(a=1),n=3)") := rfl
/-- In-place `set` on one shows in the other that shares its dictionary... -/
example : (hStep exHeap (.set 2 c!"n" (.val .none) false)).bind (fun h => hId buildD h 5 1) =
    some (.ok c!"f(g=g(a=1),n=None)") := rfl
/-- ... in-place `set` on a nested What shows through a shallow copy ... -/
example : ((hStep exHeap (.copy 1 false)).bind fun h => hStep h (.set 0 c!"a" (.val .none) false)).bind
    (fun h => hId buildD h 5 3) = some (.ok c!"f(g=g(a=None),n=3)") := rfl
/-- ... but not through a deep one (objects 3-5 are the duplicates, 6 the copy). -/
example : ((hStep exHeap (.copy 1 true)).bind fun h => hStep h (.set 0 c!"a" (.val .none) false)).bind
    (fun h => hId buildD h 5 6) = some (.ok c!"f(g=g(a=1),n=3)") := rfl
/-- A history as in `c21_history`: copy `f`, set in place on the copy, put the original in the copy. -/
example : ∃ h', Runs (fun _ op => Local exHeap.objs.length exHeap.dicts.length op) exHeap
    [.copy 1 false, .set 3 c!"n" (.val .none) false, .set 3 c!"o" (.ref 1) false, .set 1 c!"z" (.ref 3) true] h' ∧
    hId buildD h' 9 1 = some (.ok c!"f(g=g(a=1),n=3)") ∧
    hId buildD h' 9 3 = some (.ok c!"f(g=g(a=1),n=None,o=f(g=g(a=1),n=3))") :=
  ⟨_, .cons rfl trivial (.cons rfl (Nat.le_refl 3) (.cons rfl (Nat.le_refl 3) (.cons rfl trivial (.nil _)))), rfl, rfl⟩

/-! ### C22 -/

theorem dset_dset {ν : Type} (d : List (Str × ν)) (k : Str) (v v' : ν) : dset (dset d k v) k v' = dset d k v' := by
  induction d with
  | nil => simp [dset]
  | cons e r ih =>
    obtain ⟨k', x⟩ := e
    by_cases h : k' = k <;> simp [dset, h, ih]

theorem viewItems_dhas {o : Nat → Option Val} {d : HDict} {c : Conf} (hd : viewItems o d = some c) (k : Str) :
    dhas d k = dhas c k := by
  induction d generalizing c with
  | nil => cases hd; rfl
  | cons e r ih =>
    obtain ⟨k', x⟩ := e
    simp only [viewItems] at hd
    cases hx : viewVal o x with
    | none => rw [hx] at hd; cases hd
    | some y =>
      rw [hx] at hd
      cases hr : viewItems o r with
      | none => rw [hr] at hd; cases hd
      | some c' =>
        rw [hr] at hd
        cases hd
        have := ih hr
        simp only [dhas] at this ⊢
        by_cases h : k' = k <;> simp [dget, h, this]

theorem whataddGo_spec (bs : BS) {h : Heap} (ok : HeapOk h) {n : Nat} {o : WObj} {d : HDict} {c : Conf}
    (hd : h.dicts[o.conf]? = some d) (hc : viewItems (resolve h n) d = some c) (key : Str) :
    ∀ (vs : List HVal) (vs' : List Val) (d1 : HDict), (∀ v, dset d1 key v = dset d key v) →
    (∀ v ∈ vs, v.okIn h.objs.length = true) → vs.map (viewVal (resolve h n)) = vs'.map some →
    ∃ d2, whataddGo bs (n + 1) h.objs.length key ⟨h.dicts ++ [d1], h.objs ++ [{ o with conf := h.dicts.length }]⟩ vs =
      some (⟨h.dicts ++ [d2], h.objs ++ [{ o with conf := h.dicts.length }]⟩,
        mapR (fun v' => idStr bs ⟨o.name, dset c key v', o.nonids, o.out⟩ false) vs') := by
  intro vs
  induction vs with
  | nil =>
    intro vs' d1 _ _ hm
    cases vs' with
    | nil => exact ⟨d1, rfl⟩
    | cons _ _ => cases hm
  | cons v vs ih =>
    intro vs' d1 h1 hok hm
    cases vs' with
    | nil => cases hm
    | cons v' vs' =>
      simp only [List.map_cons, List.cons.injEq] at hm
      obtain ⟨hv, hvs⟩ := hm
      have e1 : hSetIn ⟨h.dicts ++ [d1], h.objs ++ [{ o with conf := h.dicts.length }]⟩ h.objs.length key v =
          some (⟨h.dicts ++ [dset d key v], h.objs ++ [{ o with conf := h.dicts.length }]⟩, h.objs.length) := by
        simp only [hSetIn, List.getElem?_concat_length, hWrite, Option.map_some,
          List.set_append_right _ _ (Nat.le_refl _), Nat.sub_self, List.set_cons_zero, h1]
      have e2 : viewObj ⟨h.dicts ++ [dset d key v], h.objs ++ [{ o with conf := h.dicts.length }]⟩ (n + 1) h.objs.length =
          some ⟨o.name, dset c key v', o.nonids, o.out⟩ := by
        simp only [viewObj, List.getElem?_concat_length]
        rw [viewItems_congr (o' := resolve h n)]
        · rw [viewItems_dset hc hv]; rfl
        · intro k' v2 hm b hb
          have hlt : b < h.objs.length := by
            rcases mem_dset_h hm with hm | ⟨_, rfl⟩
            · exact ok.refs _ _ _ _ _ hd hm hb
            · exact okIn_mentions v2 (hok v2 (by simp)) hb
          simp only [resolve, old_view ok (agree_grow h _ _) n b hlt]
      obtain ⟨d2, hgo⟩ := ih vs' (dset d key v) (fun v => dset_dset d key _ v) (fun v hv => hok v (by simp [hv])) hvs
      simp only [whataddGo, e1, hId, e2, Option.map_some, mapR]
      cases hid : idStr bs ⟨o.name, dset c key v', o.nonids, o.out⟩ false with
      | error e => exact ⟨_, rfl⟩
      | ok s =>
        simp only [hgo, Option.map_some]
        refine ⟨d2, ?_⟩
        cases mapR (fun v' => idStr bs ⟨o.name, dset c key v', o.nonids, o.out⟩ false) vs' <;> rfl

/-- C22. `whatadd(what, key, values)`, for a What showing `w` and values showing `vs'`: ValueError iff `key` is a
parameter already; otherwise the ids of `w` with `key` set to each value in turn (the first failing id() raises);
nothing existing is modified. -/
theorem c22_whatadd (bs : BS) {h : Heap} (ok : HeapOk h) (n x : Nat) (w : What) (hw : viewObj h (n + 1) x = some w)
    (key : Str) (vs : List HVal) (vs' : List Val) (exist : ∀ v ∈ vs, v.okIn h.objs.length = true)
    (hvs : vs.map (viewVal (resolve h n)) = vs'.map some) :
    ∃ h' r, whatadd bs (n + 1) h x key vs = some (h', r) ∧
      ((∃ v, (key, v) ∈ w.conf) → r = .error .valueError) ∧
      ((∀ v, (key, v) ∉ w.conf) → r = mapR (fun v' => idStr bs ⟨w.name, w.conf ++ [(key, v')], w.nonids, w.out⟩ false) vs') ∧
      ∀ m b, b < h.objs.length → viewObj h' m b = viewObj h m b := by
  obtain ⟨o, d, c, ho, hd, hc, rfl⟩ := viewObj_some hw
  have hcopy : hCopy h x false = some (⟨h.dicts ++ [d], h.objs ++ [{ o with conf := h.dicts.length }]⟩, h.objs.length) := by
    simp [hCopy, ho, hd, hNew]
  have hhas : dhas d key = true ↔ ∃ v, (key, v) ∈ c := by
    rw [viewItems_dhas hc key, dhas]
    clear hw hc
    induction c with
    | nil => simp [dget]
    | cons e r ih =>
      obtain ⟨k', v⟩ := e
      by_cases hk : k' = key
      · simp [dget, hk]
      · simp [dget, hk, ih, Ne.symm hk]
  have happ : (∀ v, (key, v) ∉ c) → ∀ v', dset c key v' = c ++ [(key, v')] := by
    intro hn v'
    clear hw hc hhas
    induction c with
    | nil => rfl
    | cons e r ih =>
      obtain ⟨k', v⟩ := e
      have hk : k' ≠ key := fun hk => hn v (by simp [hk])
      simp [dset, hk, ih fun v hm => hn v (by simp [hm])]
  by_cases hk : dhas d key = true
  · refine ⟨_, .error .valueError, ?_, fun _ => rfl, fun hn => ?_, fun m b hb => old_view ok (agree_grow h [d] [{ o with conf := h.dicts.length }]) m b hb⟩
    · simp only [whatadd, hcopy, List.getElem?_concat_length, hk, if_true]
    · obtain ⟨v, hv⟩ := hhas.1 hk
      exact absurd hv (hn v)
  · obtain ⟨d2, hgo⟩ := whataddGo_spec bs ok hd hc key vs vs' d (fun _ => rfl) exist hvs
    refine ⟨_, mapR (fun v' => idStr bs ⟨o.name, dset c key v', o.nonids, o.out⟩ false) vs', ?_, fun hn => absurd (hhas.2 hn) hk, fun hn => ?_, fun m b hb => old_view ok (agree_grow h [d2] [{ o with conf := h.dicts.length }]) m b hb⟩
    · simp only [whatadd, hcopy, List.getElem?_concat_length, hk]
      exact hgo
    · simp only [happ hn]

example : (whatadd buildD 5 exHeap 1 c!"out" [.val (.str c!"A"), .ref 0]).map (fun r => r.2) =
    some (.ok [c!"f(g=g(a=1),n=3,out='A')", c!"f(g=g(a=1),n=3,out=g(a=1))"]) := rfl
example : (whatadd buildD 5 exHeap 1 c!"n" []).map (fun r => r.2) = some (.error .valueError) := rfl

/-! ### C23 -/

/-- What the next call of `f.what()` shows. -/
def WFun.reports (f : WFun) (h : Heap) (n : Nat) : Option What := viewObj (f.what h).1 n (f.what h).2

/-- The whole of C23: between two calls of `f.what()`, whatever a program does with the first result `x` (and with
what it makes itself), the second reports what the first did. -/
def NoMemory (f : WFun) : Prop :=
  ∀ (h h' : Heap) (ops : List HOp), HeapOk h → f.conf < h.dicts.length →
    Runs (fun _ op => Local h.objs.length h.dicts.length op) (f.what h).1 ops h' →
    ∀ n, f.reports h' n = f.reports h n

/-- C23 is false: setting a parameter in place on a What obtained from `f.what()` shows in every later
`f.what()`, for every decorated function, parameter and value. -/
theorem c23_leak (f : WFun) {h h' : Heap} (ok : HeapOk h) (k : Str) (v : Val) (n : Nat) (w : What)
    (hw : f.reports h (n + 1) = some w) (d : HDict) (hd : h.dicts[f.conf]? = some d)
    (he : hStep (f.what h).1 (.set (f.what h).2 k (.val v) false) = some h')
    (hself : ∀ b, Holds (f.what h).1 (f.what h).2 b → ¬ Owns h b f.conf) :
    f.reports h' (n + 1) = some ⟨w.name, dset w.conf k v, w.nonids, w.out⟩ := by
  have hstep : h' = ⟨h.dicts.set f.conf (dset d k (.val v)), h.objs ++ [⟨f.name, f.conf, f.excludes, none⟩]⟩ := by
    simp only [hStep, HVal.okIn, if_true, hSet, Bool.false_eq_true, if_false, hSetIn, WFun.what, hNew,
      List.getElem?_concat_length, hWrite, hd, Option.map_some, Option.some.injEq] at he
    exact he.symm
  subst hstep
  have hlt := (List.getElem?_eq_some_iff.1 hd).1
  have hw' := hw
  simp only [WFun.reports, WFun.what, hNew] at hw'
  obtain ⟨o, d', c, ho, hd', hc, rfl⟩ := viewObj_some hw'
  simp only [List.getElem?_concat_length, Option.some.injEq] at ho
  subst ho
  simp only at hd'
  rw [hd] at hd'; cases hd'
  simp only [WFun.reports, WFun.what, hNew]
  -- the new object sees the changed dictionary; what is nested in it does not
  have hP : ∀ b, (∃ y, Holds (f.what h).1 (f.what h).2 y ∧ Reach h y b) → ∀ m,
      viewObj ⟨h.dicts.set f.conf (dset d k (.val v)), (h.objs ++ [⟨f.name, f.conf, f.excludes, none⟩]) ++
        [⟨f.name, f.conf, f.excludes, none⟩]⟩ m b = viewObj h m b := by
    intro b hb m
    have hy : ∀ y, Holds (f.what h).1 (f.what h).2 y → y < h.objs.length := by
      rintro y ⟨o, d', k', v', ho, hd', hm, hb⟩
      exact ok.refs _ _ _ _ _ hd' hm hb
    refine viewObj_congr (fun b => ∃ y, Holds (f.what h).1 (f.what h).2 y ∧ Reach h y b) ?_ ?_ ?_ m b hb
    · rintro a b ⟨y, h1, h2⟩ hh
      exact ⟨y, h1, h2.step hh⟩
    · rintro a ⟨y, h1, h2⟩
      have := reach_lt ok (hy y h1) h2
      simp only [List.append_assoc]
      exact List.getElem?_append_left this
    · rintro a o ⟨y, h1, h2⟩ ho
      refine getElem?_set_other ?_
      intro e
      exact hself y h1 ⟨a, o, h2, ho, e.symm⟩
  simp only [viewObj, List.getElem?_concat_length, List.getElem?_set, if_true, hlt]
  rw [viewItems_congr (o' := resolve h n)]
  · have hc' : viewItems (resolve h n) d = some c := by
      rw [← hc]
      refine viewItems_congr d fun k' v' hm b hb => ?_
      simp only [resolve]
      congr 1
      have := old_view ok (agree_grow h [] [⟨f.name, f.conf, f.excludes, none⟩]) n b (ok.refs _ _ _ _ _ hd hm hb)
      simpa using this.symm
    rw [viewItems_dset hc' (v' := v) (by simp [viewVal])]
    rfl
  · intro k' v2 hm b hb
    simp only [resolve]
    rcases mem_dset_h hm with hm | ⟨_, rfl⟩
    · rw [hP b ⟨b, ⟨⟨f.name, f.conf, f.excludes, none⟩, d, k', v2, by simp [WFun.what, hNew], hd, hm, hb⟩, .refl⟩ n]
    · cases hb

def exFun : WFun := ⟨c!"normalize", 0, [c!"what"]⟩
def exFunHeap : Heap := ⟨[[(c!"mean", .val (.int 3)), (c!"std", .val (.int 2))]], []⟩
theorem exFunHeap_ok : HeapOk exFunHeap :=
  heapOk_step (op := .dict [(c!"mean", .val (.int 3)), (c!"std", .val (.int 2))]) heapOk_empty rfl

/-- C23 is false. -/
theorem c23_has_memory : ¬ NoMemory exFun := by
  intro hno
  have := hno exFunHeap _ [.set 0 c!"mean" (.val (.int 9)) false] exFunHeap_ok (by decide)
    (.cons rfl (Nat.le_refl 0) (.nil _)) 2
  exact absurd this (by simp [WFun.reports, exFun, exFunHeap, WFun.what, hNew, viewObj, viewItems, viewVal, dset])

/-- C23, part that holds: later calls of `f.what()` report the same as the first as long as nobody writes in
place to the function's dictionary (through any What that shares it) or to Whats nested in it.  In particular
reading, copying, `set(..., copy=True)`, and any writes to copies are safe.
Missing: in-place `set` on the What that `f.what()` returns. -/
theorem c23_no_memory_partial (f : WFun) {h h' : Heap} (ok : HeapOk h) (hf : f.conf < h.dicts.length) (ops : List HOp)
    (hr : Runs (Avoids (fun b => ∃ y, Holds (f.what h).1 (f.what h).2 y ∧ Reach (f.what h).1 y b)
      (Owns (f.what h).1 (f.what h).2)) (f.what h).1 ops h') (n : Nat) : f.reports h' n = f.reports h n := by
  have ok1 : HeapOk (f.what h).1 := heapOk_step (op := .new f.name f.conf f.excludes none) ok (by simp [hStep, hf, WFun.what])
  have hx : (f.what h).2 < (f.what h).1.objs.length := by simp [WFun.what, hNew]
  have hxo : (f.what h).1.objs[(f.what h).2]? = some ⟨f.name, f.conf, f.excludes, none⟩ := by simp [WFun.what, hNew]
  have ag := runs_agree (h0 := (f.what h).1) (fun b hb => by
      obtain ⟨y, hy, hr⟩ := hb; exact reach_lt ok1 (holds_lt ok1 hy) hr)
    (fun d hd => by obtain ⟨b, o, _, ho, rfl⟩ := hd; exact ok1.conf b o ho) (agree_refl _ _ _) hr
  cases n with
  | zero => rfl
  | succ n =>
    have hconf : h'.dicts[f.conf]? = h.dicts[f.conf]? := ag.2 f.conf ⟨_, _, .refl, hxo, rfl⟩
    obtain ⟨d, hd⟩ : ∃ d, h.dicts[f.conf]? = some d := ⟨_, List.getElem?_eq_getElem hf⟩
    simp only [WFun.reports]
    rw [show viewObj (f.what h').1 (n + 1) (f.what h').2 = (viewItems (resolve (f.what h').1 n) d).map
        fun c => ⟨f.name, c, f.excludes, none⟩ by simp [viewObj, WFun.what, hNew, hconf, hd]; rfl,
      show viewObj (f.what h).1 (n + 1) (f.what h).2 = (viewItems (resolve (f.what h).1 n) d).map
        fun c => ⟨f.name, c, f.excludes, none⟩ by simp [viewObj, WFun.what, hNew, hd]; rfl]
    congr 1
    refine viewItems_congr d fun k v hm b hb => ?_
    have hh : Holds (f.what h).1 (f.what h).2 b := ⟨_, d, k, v, hxo, hd, hm, hb⟩
    simp only [resolve]
    congr 1
    refine viewObj_congr (fun b => ∃ y, Holds (f.what h).1 (f.what h).2 y ∧ Reach (f.what h).1 y b)
      (fun a b ⟨y, h1, h2⟩ hh => ⟨y, h1, h2.step hh⟩) ?_ ?_ n b ⟨b, hh, .refl⟩
    · rintro a ⟨y, h1, h2⟩
      have e := ag.1 a ⟨y, h1, h2⟩
      have := reach_lt ok1 (holds_lt ok1 h1) h2
      obtain ⟨o, ho⟩ : ∃ o, (f.what h).1.objs[a]? = some o := ⟨_, List.getElem?_eq_getElem this⟩
      rw [ho] at e ⊢
      exact getElem?_append_of_some e
    · rintro a o ⟨y, h1, h2⟩ ho
      refine ag.2 o.conf ⟨a, o, ?_, ho, rfl⟩
      have : ∀ a, Reach (f.what h).1 y a → Reach (f.what h).1 (f.what h).2 a := by
        intro a hr
        induction hr with
        | refl => exact Reach.refl.step h1
        | step _ hh ih => exact ih.step hh
      exact this a h2

end Whatami
