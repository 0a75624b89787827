import Verif.Props.Heap

/-
C21: what an object on the heap stands for, said without the recursion limit; which objects stand for something; and
which operations are possible.
-/
namespace Whatami

mutual
/-- The object at `a` stands for the What `w`: same name, `out_name` and non-id keys, and its dictionary item by item. -/
inductive StandsFor (h : Heap) : Nat → What → Prop
  | obj {a : Nat} {o : WObj} {d : HDict} {c : Conf} : h.objs[a]? = some o → h.dicts[o.conf]? = some d → ItemsStandFor h d c →
      StandsFor h a ⟨o.name, c, o.nonids, o.out⟩
/-- The same keys in the same order, each with a value that stands for the other. -/
inductive ItemsStandFor (h : Heap) : HDict → Conf → Prop
  | nil : ItemsStandFor h [] []
  | cons {k : Str} {x : HVal} {v : Val} {d : HDict} {c : Conf} : ValueStandsFor h x v → ItemsStandFor h d c →
      ItemsStandFor h ((k, x) :: d) ((k, v) :: c)
/-- A plain value stands for itself, a reference for the What of its object, a tuple for the tuple of its elements. -/
inductive ValueStandsFor (h : Heap) : HVal → Val → Prop
  | val (v : Val) : ValueStandsFor h (.val v) v
  | ref {a : Nat} {w : What} : StandsFor h a w → ValueStandsFor h (.ref a) (.what w.name w.conf w.nonids w.out)
  | tup {xs : List HVal} {vs : List Val} : ValuesStandFor h xs vs → ValueStandsFor h (.tup xs) (.tuple vs)
/-- One by one. -/
inductive ValuesStandFor (h : Heap) : List HVal → List Val → Prop
  | nil : ValuesStandFor h [] []
  | cons {x : HVal} {v : Val} {xs : List HVal} {vs : List Val} : ValueStandsFor h x v → ValuesStandFor h xs vs →
      ValuesStandFor h (x :: xs) (v :: vs)
end

section
variable {h : Heap}

mutual
theorem viewVal_stands {o : Nat → Option Val} (ho : ∀ b v, o b = some v → ValueStandsFor h (.ref b) v) :
    ∀ (x : HVal) (v : Val), viewVal o x = some v → ValueStandsFor h x v
  | .val u, v, hv => by simp only [viewVal] at hv; cases hv; exact .val u
  | .ref a, v, hv => by simp only [viewVal] at hv; exact ho a v hv
  | .tup xs, v, hv => by
    simp only [viewVal] at hv
    cases hx : viewVals o xs with
    | none => rw [hx] at hv; cases hv
    | some vs => rw [hx] at hv; cases hv; exact .tup (viewVals_stand ho xs vs hx)
termination_by structural x => x
theorem viewVals_stand {o : Nat → Option Val} (ho : ∀ b v, o b = some v → ValueStandsFor h (.ref b) v) :
    ∀ (xs : List HVal) (vs : List Val), viewVals o xs = some vs → ValuesStandFor h xs vs
  | [], vs, hv => by simp only [viewVals] at hv; cases hv; exact .nil
  | x :: xs, vs, hv => by
    simp only [viewVals] at hv
    cases hx : viewVal o x with
    | none => rw [hx] at hv; cases hv
    | some u =>
      rw [hx] at hv
      cases hxs : viewVals o xs with
      | none => rw [hxs] at hv; cases hv
      | some us => rw [hxs] at hv; cases hv; exact .cons (viewVal_stands ho x u hx) (viewVals_stand ho xs us hxs)
termination_by structural xs => xs
end

theorem viewItems_stand {o : Nat → Option Val} (ho : ∀ b v, o b = some v → ValueStandsFor h (.ref b) v) :
    ∀ (d : HDict) (c : Conf), viewItems o d = some c → ItemsStandFor h d c
  | [], c, hv => by simp only [viewItems] at hv; cases hv; exact .nil
  | (k, x) :: d, c, hv => by
    simp only [viewItems] at hv
    cases hx : viewVal o x with
    | none => rw [hx] at hv; cases hv
    | some u =>
      rw [hx] at hv
      cases hxs : viewItems o d with
      | none => rw [hxs] at hv; cases hv
      | some us => rw [hxs] at hv; cases hv; exact .cons (viewVal_stands ho x u hx) (viewItems_stand ho d us hxs)

theorem viewObj_stands : ∀ (n a : Nat) (w : What), viewObj h n a = some w → StandsFor h a w
  | 0, _, _, hv => by simp only [viewObj] at hv; cases hv
  | n + 1, a, w, hv => by
    obtain ⟨o, d, c, ho, hd, hc, rfl⟩ := viewObj_some hv
    refine .obj ho hd (viewItems_stand (fun b v hb => ?_) d c hc)
    simp only [resolve] at hb
    cases hw : viewObj h n b with
    | none => rw [hw] at hb; cases hb
    | some w' => rw [hw] at hb; cases hb; exact .ref (viewObj_stands n b w' hw)

mutual
theorem viewVal_mono {o o' : Nat → Option Val} (ho : ∀ b v, o b = some v → o' b = some v) :
    ∀ (x : HVal) (v : Val), viewVal o x = some v → viewVal o' x = some v
  | .val u, v, hv => by simpa only [viewVal] using hv
  | .ref a, v, hv => by simp only [viewVal] at hv ⊢; exact ho a v hv
  | .tup xs, v, hv => by
    simp only [viewVal] at hv ⊢
    cases hx : viewVals o xs with
    | none => rw [hx] at hv; cases hv
    | some vs => rw [hx] at hv; rw [viewVals_mono ho xs vs hx]; exact hv
termination_by structural x => x
theorem viewVals_mono {o o' : Nat → Option Val} (ho : ∀ b v, o b = some v → o' b = some v) :
    ∀ (xs : List HVal) (vs : List Val), viewVals o xs = some vs → viewVals o' xs = some vs
  | [], vs, hv => by simpa only [viewVals] using hv
  | x :: xs, vs, hv => by
    simp only [viewVals] at hv ⊢
    cases hx : viewVal o x with
    | none => rw [hx] at hv; cases hv
    | some u =>
      rw [hx] at hv
      cases hxs : viewVals o xs with
      | none => rw [hxs] at hv; cases hv
      | some us => rw [hxs] at hv; rw [viewVal_mono ho x u hx, viewVals_mono ho xs us hxs]; exact hv
termination_by structural xs => xs
end

theorem viewItems_mono {o o' : Nat → Option Val} (ho : ∀ b v, o b = some v → o' b = some v) :
    ∀ (d : HDict) (c : Conf), viewItems o d = some c → viewItems o' d = some c
  | [], c, hv => by simpa only [viewItems] using hv
  | (k, x) :: d, c, hv => by
    simp only [viewItems] at hv ⊢
    cases hx : viewVal o x with
    | none => rw [hx] at hv; cases hv
    | some u =>
      rw [hx] at hv
      cases hxs : viewItems o d with
      | none => rw [hxs] at hv; cases hv
      | some us => rw [hxs] at hv; rw [viewVal_mono ho x u hx, viewItems_mono ho d us hxs]; exact hv

theorem viewObj_more : ∀ (n a : Nat) (w : What), viewObj h n a = some w → viewObj h (n + 1) a = some w
  | 0, _, _, hv => by simp only [viewObj] at hv; cases hv
  | n + 1, a, w, hv => by
    obtain ⟨o, d, c, ho, hd, hc, rfl⟩ := viewObj_some hv
    have := viewItems_mono (o' := resolve h (n + 1)) (fun b v hb => by
      simp only [resolve] at hb ⊢
      cases hw : viewObj h n b with
      | none => rw [hw] at hb; cases hb
      | some w' => rw [hw] at hb; rw [viewObj_more n b w' hw]; exact hb) d c hc
    rw [viewObj]
    simp only [ho, hd]
    unfold resolve at this
    rw [this]
    rfl

theorem viewObj_le {n m a : Nat} {w : What} (hle : n ≤ m) (hv : viewObj h n a = some w) : viewObj h m a = some w := by
  induction hle with
  | refl => exact hv
  | step _ ih => exact viewObj_more _ _ _ ih

theorem resolve_le {n m : Nat} (hle : n ≤ m) : ∀ b v, resolve h n b = some v → resolve h m b = some v := by
  intro b v hb
  simp only [resolve] at hb ⊢
  cases hw : viewObj h n b with
  | none => rw [hw] at hb; cases hb
  | some w' => rw [hw] at hb; rw [viewObj_le hle hw]; exact hb

mutual
theorem stands_view : ∀ {a : Nat} {w : What}, StandsFor h a w → ∃ n, viewObj h n a = some w
  | _, _, .obj ho hd hc => by
    obtain ⟨n, hn⟩ := items_view hc
    refine ⟨n + 1, ?_⟩
    rw [viewObj]
    simp only [ho, hd]
    unfold resolve at hn
    rw [hn]
    rfl
theorem items_view : ∀ {d : HDict} {c : Conf}, ItemsStandFor h d c → ∃ n, viewItems (resolve h n) d = some c
  | _, _, .nil => ⟨0, rfl⟩
  | _, _, .cons hx hc => by
    obtain ⟨n, hn⟩ := value_view hx
    obtain ⟨m, hm⟩ := items_view hc
    refine ⟨n + m, ?_⟩
    simp only [viewItems]
    rw [viewVal_mono (resolve_le (Nat.le_add_right n m)) _ _ hn, viewItems_mono (resolve_le (Nat.le_add_left m n)) _ _ hm]
theorem value_view : ∀ {x : HVal} {v : Val}, ValueStandsFor h x v → ∃ n, viewVal (resolve h n) x = some v
  | _, _, .val v => ⟨0, by simp only [viewVal]⟩
  | _, _, .ref hw => by
    obtain ⟨n, hn⟩ := stands_view hw
    exact ⟨n, by simp only [viewVal, resolve, hn]; rfl⟩
  | _, _, .tup hx => by
    obtain ⟨n, hn⟩ := values_view hx
    exact ⟨n, by simp only [viewVal, hn]; rfl⟩
theorem values_view : ∀ {xs : List HVal} {vs : List Val}, ValuesStandFor h xs vs → ∃ n, viewVals (resolve h n) xs = some vs
  | _, _, .nil => ⟨0, by simp only [viewVals]⟩
  | _, _, .cons hx hc => by
    obtain ⟨n, hn⟩ := value_view hx
    obtain ⟨m, hm⟩ := values_view hc
    refine ⟨n + m, ?_⟩
    simp only [viewVals]
    rw [viewVal_mono (resolve_le (Nat.le_add_right n m)) _ _ hn, viewVals_mono (resolve_le (Nat.le_add_left m n)) _ _ hm]
end

end

/-- C21. With enough depth, what the reader of an object sees is exactly what it stands for. -/
theorem c21_stands (h : Heap) (a : Nat) (w : What) : (∃ n, viewObj h n a = some w) ↔ StandsFor h a w :=
  ⟨fun ⟨n, hn⟩ => viewObj_stands n a w hn, stands_view⟩

/-- C21. An object stands for at most one What. -/
theorem c21_one (h : Heap) (a : Nat) (w w' : What) (hw : StandsFor h a w) (hw' : StandsFor h a w') : w = w' := by
  obtain ⟨n, hn⟩ := stands_view hw
  obtain ⟨m, hm⟩ := stands_view hw'
  have h1 := viewObj_le (Nat.le_add_right n m) hn
  have h2 := viewObj_le (Nat.le_add_left m n) hm
  rw [h1] at h2
  exact Option.some.inj h2

/-- C21. `id()` of the object is the id of the What it stands for. -/
theorem c21_id (bs : BS) (h : Heap) (a : Nat) (r : R Str) :
    (∃ n, hId bs h n a = some r) ↔ ∃ w, StandsFor h a w ∧ idStr bs w false = r := by
  constructor
  · rintro ⟨n, hn⟩
    simp only [hId] at hn
    cases hv : viewObj h n a with
    | none => rw [hv] at hn; cases hn
    | some w => rw [hv] at hn; exact ⟨w, viewObj_stands n a w hv, Option.some.inj hn⟩
  · rintro ⟨w, hw, rfl⟩
    obtain ⟨n, hn⟩ := stands_view hw
    exact ⟨n, by simp only [hId, hn]; rfl⟩

section
variable {h : Heap}

mutual
theorem viewVal_defined {o : Nat → Option Val} : ∀ (x : HVal), (∀ b, Mentions b x → ∃ v, o b = some v) → ∃ v, viewVal o x = some v
  | .val u, _ => ⟨u, by simp only [viewVal]⟩
  | .ref a, hb => by simp only [viewVal]; exact hb a .ref
  | .tup xs, hb => by
    obtain ⟨vs, hvs⟩ := viewVals_defined xs fun x hx b hm => hb b (.tup hx hm)
    exact ⟨.tuple vs, by simp only [viewVal, hvs]; rfl⟩
termination_by structural x => x
theorem viewVals_defined {o : Nat → Option Val} : ∀ (xs : List HVal), (∀ x ∈ xs, ∀ b, Mentions b x → ∃ v, o b = some v) →
    ∃ vs, viewVals o xs = some vs
  | [], _ => ⟨[], by simp only [viewVals]⟩
  | x :: xs, hb => by
    obtain ⟨v, hv⟩ := viewVal_defined x (hb x (by simp))
    obtain ⟨vs, hvs⟩ := viewVals_defined xs fun y hy => hb y (by simp [hy])
    exact ⟨v :: vs, by simp only [viewVals, hv, hvs]⟩
termination_by structural xs => xs
end

theorem viewItems_defined {o : Nat → Option Val} : ∀ (d : HDict), (∀ k x, (k, x) ∈ d → ∀ b, Mentions b x → ∃ v, o b = some v) →
    ∃ c, viewItems o d = some c
  | [], _ => ⟨[], rfl⟩
  | (k, x) :: d, hb => by
    obtain ⟨v, hv⟩ := viewVal_defined x (hb k x (by simp))
    obtain ⟨c, hc⟩ := viewItems_defined d fun k' x' hm => hb k' x' (by simp [hm])
    exact ⟨(k, v) :: c, by simp only [viewItems, hv, hc]⟩

/-- From `a` one comes back to `a` by following at least one reference. -/
def OnCycle (h : Heap) (a : Nat) : Prop := ∃ b, Holds h a b ∧ Reach h b a

theorem nodup_bounded : ∀ {n : Nat} {l : List Nat}, l.Nodup → (∀ x ∈ l, x < n) → l.length ≤ n
  | 0, [], _, _ => Nat.le_refl 0
  | 0, x :: _, _, hb => absurd (hb x (by simp)) (Nat.not_lt_zero x)
  | n + 1, l, hn, hb => by
    have h1 := nodup_bounded (n := n) (l := l.erase n) (hn.erase n) (fun x hx => by
      have := (hn.mem_erase_iff).1 hx
      have := hb x this.2
      omega)
    have h2 : l.length ≤ (l.erase n).length + 1 := by
      rw [List.length_erase]; split <;> omega
    omega

theorem reach_head {a b c : Nat} (hh : Holds h a b) (hr : Reach h b c) : Reach h a c := by
  induction hr with
  | refl => exact .step .refl hh
  | step _ h2 ih => exact .step ih h2

theorem acyclic_view (ok : HeapOk h) : ∀ (n : Nat) (seen : List Nat) (a : Nat), a < h.objs.length → seen.Nodup →
    (∀ y ∈ seen, y < h.objs.length ∧ ∃ b, Holds h y b ∧ Reach h b a) → h.objs.length ≤ seen.length + n →
    (∀ b, Reach h a b → ¬ OnCycle h b) → ∃ w, viewObj h n a = some w
  | n, seen, a, ha, hnd, hs, hlen, hcyc => by
    have hmem : a ∉ seen := fun hm => hcyc a .refl (hs a hm).2
    have hnd' : (a :: seen).Nodup := List.nodup_cons.2 ⟨hmem, hnd⟩
    have hb := nodup_bounded (n := h.objs.length) hnd' (fun x hx => by
      rcases List.mem_cons.1 hx with rfl | hx
      · exact ha
      · exact (hs x hx).1)
    cases n with
    | zero => simp only [List.length_cons] at hb; omega
    | succ n =>
      have ho : h.objs[a]? = some h.objs[a] := by simp [ha]
      have hc := ok.conf _ _ ho
      have hd : h.dicts[(h.objs[a]).conf]? = some h.dicts[(h.objs[a]).conf] := by simp [hc]
      obtain ⟨c, hc'⟩ := viewItems_defined (o := resolve h n) h.dicts[(h.objs[a]).conf] fun k x hm b hmen => by
        have hh : Holds h a b := ⟨_, _, k, x, ho, hd, hm, hmen⟩
        obtain ⟨w, hw⟩ := acyclic_view ok n (a :: seen) b (ok.refs _ _ _ _ _ hd hm hmen) hnd' (fun y hy => by
            rcases List.mem_cons.1 hy with rfl | hy
            · exact ⟨ha, b, hh, .refl⟩
            · obtain ⟨h1, b', h2, h3⟩ := hs y hy
              exact ⟨h1, b', h2, h3.step hh⟩)
          (by simp only [List.length_cons]; omega)
          (fun b' hr => hcyc b' (reach_head hh hr))
        exact ⟨_, by simp only [resolve, hw]; rfl⟩
      refine ⟨⟨(h.objs[a]).name, c, (h.objs[a]).nonids, (h.objs[a]).out⟩, ?_⟩
      rw [viewObj]
      simp only [ho, hd]
      unfold resolve at hc'
      rw [hc']
      rfl

mutual
theorem viewVal_parts {o : Nat → Option Val} : ∀ (x : HVal) (v : Val), viewVal o x = some v → ∀ b, Mentions b x → ∃ u, o b = some u
  | .val _, _, _, _, hm => by cases hm
  | .ref a, v, hv, _, hm => by cases hm; exact ⟨v, by simpa only [viewVal] using hv⟩
  | .tup xs, v, hv, b, hm => by
    simp only [viewVal] at hv
    cases hx : viewVals o xs with
    | none => rw [hx] at hv; cases hv
    | some vs => cases hm with | tup hy hb => exact viewVals_parts xs vs hx _ hy b hb
termination_by structural x => x
theorem viewVals_parts {o : Nat → Option Val} : ∀ (xs : List HVal) (vs : List Val), viewVals o xs = some vs →
    ∀ x ∈ xs, ∀ b, Mentions b x → ∃ u, o b = some u
  | [], _, _, _, hx, _, _ => by cases hx
  | y :: ys, vs, hv, x, hx, b, hm => by
    simp only [viewVals] at hv
    cases hy : viewVal o y with
    | none => rw [hy] at hv; cases hv
    | some u =>
      rw [hy] at hv
      cases hys : viewVals o ys with
      | none => rw [hys] at hv; cases hv
      | some us =>
        rcases List.mem_cons.1 hx with e | hx
        · exact viewVal_parts y u hy b (e ▸ hm)
        · exact viewVals_parts ys us hys x hx b hm
termination_by structural xs => xs
end

theorem viewItems_parts {o : Nat → Option Val} : ∀ (d : HDict) (c : Conf), viewItems o d = some c →
    ∀ k x, (k, x) ∈ d → ∀ b, Mentions b x → ∃ u, o b = some u
  | [], _, _, _, _, hx, _, _ => by cases hx
  | (k', y) :: ys, vs, hv, k, x, hx, b, hm => by
    simp only [viewItems] at hv
    cases hy : viewVal o y with
    | none => rw [hy] at hv; cases hv
    | some u =>
      rw [hy] at hv
      cases hys : viewItems o ys with
      | none => rw [hys] at hv; cases hv
      | some us =>
        rcases List.mem_cons.1 hx with e | hx
        · injection e with _ e; exact viewVal_parts y u hy b (e ▸ hm)
        · exact viewItems_parts ys us hys k x hx b hm

theorem view_held {n a b : Nat} (ha : ∃ w, viewObj h (n + 1) a = some w) (hh : Holds h a b) : ∃ w, viewObj h n b = some w := by
  obtain ⟨w, hw⟩ := ha
  obtain ⟨o, d, c, ho, hd, hc, _⟩ := viewObj_some hw
  obtain ⟨o', d', k, x, ho', hd', hm, hb⟩ := hh
  rw [ho] at ho'; cases ho'
  rw [hd] at hd'; cases hd'
  obtain ⟨u, hu⟩ := viewItems_parts d c hc k x hm b hb
  simp only [resolve] at hu
  cases hv : viewObj h n b with
  | none => rw [hv] at hu; cases hu
  | some w => exact ⟨w, rfl⟩

theorem view_reach {n a b : Nat} (ha : ∃ w, viewObj h n a = some w) (hr : Reach h a b) : ∃ w, viewObj h n b = some w := by
  induction hr with
  | refl => exact ha
  | step _ hh ih =>
    cases n with
    | zero => obtain ⟨w, hw⟩ := ih; cases hw
    | succ n => obtain ⟨w, hw⟩ := view_held ih hh; exact ⟨w, viewObj_more _ _ _ hw⟩

theorem view_acyclic : ∀ {n a : Nat}, (∃ w, viewObj h n a = some w) → ¬ OnCycle h a
  | 0, _, ⟨_, hw⟩, _ => by cases hw
  | n + 1, _, ha, ⟨b, hh, hr⟩ => view_acyclic (n := n) (view_reach (view_held ha hh) hr) ⟨b, hh, hr⟩

end

/-- C21. On any heap a program can build, an object has an id (up to what `build_string` makes of its values) exactly
if no What nested in it, at any depth, contains itself. -/
theorem c21_defined {h : Heap} (ok : HeapOk h) (a : Nat) (ha : a < h.objs.length) :
    (∃ w, StandsFor h a w) ↔ ∀ b, Reach h a b → ¬ OnCycle h b := by
  constructor
  · rintro ⟨w, hw⟩ b hr
    obtain ⟨n, hn⟩ := stands_view hw
    exact view_acyclic (view_reach ⟨w, hn⟩ hr)
  · intro hc
    obtain ⟨w, hw⟩ := acyclic_view ok h.objs.length [] a ha List.nodup_nil (by simp) (by simp) hc
    exact ⟨w, viewObj_stands _ _ _ hw⟩

/-! ### Which operations are possible -/

mutual
theorem mentions_okIn {n : Nat} : ∀ (v : HVal), (∀ b, Mentions b v → b < n) → v.okIn n = true
  | .val _, _ => by simp only [HVal.okIn]
  | .ref a, hb => by simpa only [HVal.okIn, decide_eq_true_eq] using hb a .ref
  | .tup xs, hb => by simpa only [HVal.okIn] using mentions_okInL xs fun x hx b hm => hb b (.tup hx hm)
termination_by structural v => v
theorem mentions_okInL {n : Nat} : ∀ (xs : List HVal), (∀ x ∈ xs, ∀ b, Mentions b x → b < n) → okInL n xs = true
  | [], _ => by simp only [okInL]
  | x :: xs, hb => by
    simp only [okInL, Bool.and_eq_true]
    exact ⟨mentions_okIn x (hb x (by simp)), mentions_okInL xs fun y hy => hb y (by simp [hy])⟩
termination_by structural xs => xs
end

/-- All the operation mentions exists. -/
def ThereIs (h : Heap) : HOp → Prop
  | .dict items => ∀ k v, (k, v) ∈ items → ∀ b, Mentions b v → b < h.objs.length
  | .new _ d _ _ => d < h.dicts.length
  | .copy a _ => a < h.objs.length
  | .set a _ v _ => a < h.objs.length ∧ ∀ b, Mentions b v → b < h.objs.length
  | .write d _ v => d < h.dicts.length ∧ ∀ b, Mentions b v → b < h.objs.length
  | .attrs a _ _ _ => a < h.objs.length
  | .rebind a d => a < h.objs.length ∧ d < h.dicts.length

theorem okIn_iff {n : Nat} {v : HVal} : v.okIn n = true ↔ ∀ b, Mentions b v → b < n :=
  ⟨fun ho _ hm => okIn_mentions v ho hm, mentions_okIn v⟩

/-- C21. The histories the theorems speak of are all there are: an operation can be done exactly if all it mentions
exists. -/
theorem c21_possible {h : Heap} (ok : HeapOk h) (op : HOp) : (∃ h', hStep h op = some h') ↔ ThereIs h op := by
  have hobj : ∀ a, a < h.objs.length → ∃ o, h.objs[a]? = some o ∧ ∃ d, h.dicts[o.conf]? = some d := fun a ha => by
    have ho : h.objs[a]? = some h.objs[a] := by simp [ha]
    have hc := ok.conf _ _ ho
    exact ⟨_, ho, h.dicts[(h.objs[a]).conf], by simp [hc]⟩
  have hobj' : ∀ (a : Nat) o, h.objs[a]? = some o → a < h.objs.length := fun a o ho => (List.getElem?_eq_some_iff.1 ho).1
  have hnone : ∀ a, h.objs[a]? = none → ¬ a < h.objs.length := fun a hn => by
    rw [List.getElem?_eq_none_iff] at hn; omega
  cases op with
  | dict items =>
    have : (items.all fun kv => kv.2.okIn h.objs.length) = true ↔ ∀ k v, (k, v) ∈ items → ∀ b, Mentions b v → b < h.objs.length := by
      simp only [List.all_eq_true, Prod.forall, okIn_iff]
    simp only [hStep, ThereIs, ← this]
    by_cases hb : (items.all fun kv => kv.2.okIn h.objs.length) = true
    · simp only [hb, if_true]; exact ⟨fun _ => trivial, fun _ => ⟨_, rfl⟩⟩
    · simp only [hb]; simp
  | new name d nonids out =>
    simp only [hStep, ThereIs]
    split <;> simp_all
  | copy a deep =>
    simp only [hStep, ThereIs, hCopy]
    cases ho : h.objs[a]? with
    | none => simp [hnone a ho]
    | some o =>
      have ha := hobj' a o ho
      obtain ⟨o', ho', d, hd⟩ := hobj a ha
      rw [ho] at ho'; cases ho'
      cases deep <;> simp [hd, ha]
  | set a k v copy =>
    simp only [hStep, ThereIs, ← okIn_iff]
    cases ho : h.objs[a]? with
    | none =>
      have := hnone a ho
      cases copy <;> simp [hSet, hCopy, hSetIn, ho, this]
    | some o =>
      have ha := hobj' a o ho
      obtain ⟨o', ho', d, hd⟩ := hobj a ha
      rw [ho] at ho'; cases ho'
      refine Iff.trans ?_ (and_iff_right ha).symm
      by_cases hv : v.okIn h.objs.length = true <;> cases copy <;> simp [-List.getElem?_eq_getElem, hSet, hCopy, hSetIn, ho, hd, hWrite, hNew, hv]
  | write d k v =>
    simp only [hStep, ThereIs, ← okIn_iff, hWrite]
    cases hd : h.dicts[d]? with
    | none => rw [List.getElem?_eq_none_iff] at hd; simp; omega
    | some items =>
      have := (List.getElem?_eq_some_iff.1 hd).1
      simp [this]
  | attrs a name nonids out =>
    simp only [hStep, ThereIs]
    cases ho : h.objs[a]? with
    | none => simp [hnone a ho]
    | some o => simp [hobj' a o ho]
  | rebind a d =>
    simp only [hStep, ThereIs]
    cases ho : h.objs[a]? with
    | none => simp [hnone a ho]
    | some o => simp [hobj' a o ho]

/-- A What holding a tuple with another What in it twice, and one that contains itself. -/
def exShared : List HOp := [.dict [(c!"a", .val (.int 1))], .new c!"g" 0 [] none,
  .dict [(c!"p", .tup [.ref 0, .tup [], .val .none, .ref 0])], .new c!"f" 1 [] none, .dict [], .new c!"loop" 2 [] none,
  .write 2 c!"me" (.tup [.ref 2])]

theorem exShared_runs : ∃ h, Runs (fun _ _ => True) {} exShared h ∧ HeapOk h ∧
    (∃ w, StandsFor h 1 w) ∧ hId buildD h 5 1 = some (.ok c!"f(p=(g(a=1),(),None,g(a=1)))") ∧ ¬ ∃ w, StandsFor h 2 w := by
  have hr : Runs (fun _ _ => True) {} exShared _ := .cons rfl trivial (.cons rfl trivial (.cons rfl trivial (.cons rfl trivial
    (.cons rfl trivial (.cons rfl trivial (.cons rfl trivial (.nil _)))))))
  have ok := c21_reachable_ok heapOk_empty hr
  refine ⟨_, hr, ok, ⟨_, (c21_stands _ _ _).1 ⟨5, rfl⟩⟩, rfl, ?_⟩
  rw [c21_defined ok 2 (by decide)]
  intro hc
  exact hc 2 .refl ⟨2, ⟨_, _, c!"me", _, rfl, rfl, List.mem_singleton.2 rfl, .tup (by simp) .ref⟩, .refl⟩

end Whatami
