import Verif.Spec.Meaning
import Verif.Props.Match
import Verif.ParseExact
import Verif.TreeInj

/-
C63: `parse_whatid` against a declarative syntax and meaning.
-/
namespace Whatami

/-! ### Keys -/

theorem numKey_inl_iff {fi : Str → Option Int} {v : Val} {i : Int} : numKey fi v = some (.inl i) ↔ IsInteger fi v i := by
  constructor
  · intro h
    cases v with
    | bool b => cases b <;> (simp only [numKey] at h; cases h; constructor)
    | int j => simp only [numKey] at h; cases h; constructor
    | float t =>
      simp only [numKey] at h
      split at h
      · cases h; constructor; assumption
      · cases h
    | _ => simp [numKey] at h
  · intro h
    cases h with
    | true => rfl
    | false => rfl
    | int => rfl
    | float h => simp only [numKey, h]

theorem numKey_inr_iff {fi : Str → Option Int} {v : Val} {t : Str} : numKey fi v = some (.inr t) ↔ v = .float t ∧ fi t = none := by
  constructor
  · intro h
    cases v with
    | float s =>
      simp only [numKey] at h
      split at h
      · cases h
      · cases h; exact ⟨rfl, by assumption⟩
    | _ => simp [numKey] at h
  · rintro ⟨rfl, h⟩
    simp only [numKey, h]

theorem numEq_iff {fi : Str → Option Int} {a b : Val} {m : Int ⊕ Str} (ha : numKey fi a = some m) :
    (match numKey fi b with | some n => numEq false m n | none => false) = true ↔ SameKey fi a b := by
  constructor
  · intro h
    split at h
    · rename_i n hn
      cases m with
      | inl i =>
        cases n with
        | inl j =>
          simp only [numEq, beq_iff_eq] at h
          subst h
          exact .integer (numKey_inl_iff.1 ha) (numKey_inl_iff.1 hn)
        | inr t => simp [numEq] at h
      | inr t =>
        cases n with
        | inl j => simp [numEq] at h
        | inr u =>
          simp only [numEq, Bool.false_or, Bool.and_eq_true, beq_iff_eq, Bool.not_eq_true', beq_eq_false_iff_ne] at h
          obtain ⟨rfl, hnan⟩ := h
          obtain ⟨rfl, h1⟩ := numKey_inr_iff.1 ha
          obtain ⟨rfl, -⟩ := numKey_inr_iff.1 hn
          exact .float h1 hnan
    · cases h
  · intro h
    cases h with
    | integer h1 h2 =>
      have e1 := numKey_inl_iff.2 h1
      rw [e1] at ha
      cases ha
      rw [numKey_inl_iff.2 h2]
      simp [numEq]
    | float h1 h2 =>
      simp only [numKey, h1] at ha ⊢
      cases ha
      simp [numEq, h2]
    | _ => simp [numKey] at ha

mutual
theorem sameKey_iff {fi : Str → Option Int} : ∀ a b : Val, isKey a = true → (pyEq fi false a b = true ↔ SameKey fi a b)
  | .none, b, _ => by
    cases b with
    | none => exact ⟨fun _ => .none, fun _ => rfl⟩
    | _ =>
      simp only [pyEq]
      constructor
      · intro h; cases h
      · intro h; cases h with | integer h1 _ => cases h1
  | .bool x, b, _ => by
    simp only [pyEq]
    exact numEq_iff rfl
  | .int x, b, _ => by
    simp only [pyEq]
    exact numEq_iff rfl
  | .float x, b, _ => by
    simp only [pyEq]
    have : ∃ m, numKey fi (.float x) = some m := by simp only [numKey]; split <;> exact ⟨_, rfl⟩
    obtain ⟨m, hm⟩ := this
    rw [← numEq_iff hm, hm]
    cases numKey fi b <;> rfl
  | .str x, b, _ => by
    cases b with
    | str y =>
      simp only [pyEq, beq_iff_eq]
      constructor
      · rintro rfl; exact .str _
      · intro h; cases h with
        | str => rfl
        | integer h1 _ => cases h1
    | _ =>
      simp only [pyEq]
      constructor
      · intro h; cases h
      · intro h; cases h with | integer h1 _ => cases h1
  | .cls x, b, _ => by
    cases b with
    | cls y =>
      simp only [pyEq, beq_iff_eq]
      constructor
      · rintro rfl; exact .cls _
      · intro h; cases h with
        | cls => rfl
        | integer h1 _ => cases h1
    | _ =>
      simp only [pyEq]
      constructor
      · intro h; cases h
      · intro h; cases h with | integer h1 _ => cases h1
  | .numtype x, b, _ => by
    cases b with
    | numtype y =>
      simp only [pyEq, beq_iff_eq]
      constructor
      · rintro rfl; exact .numtype _
      · intro h; cases h with
        | numtype => rfl
        | integer h1 _ => cases h1
    | _ =>
      simp only [pyEq]
      constructor
      · intro h; cases h
      · intro h; cases h with | integer h1 _ => cases h1
  | .tuple xs, b, h => by
    simp only [isKey] at h
    cases b with
    | tuple ys =>
      simp only [pyEq]
      rw [sameKeyL_iff xs ys h]
      constructor
      · rintro ⟨h1, h2⟩
        exact .tuple h1 h2
      · intro hh
        cases hh with
        | tuple h1 h2 => exact ⟨h1, h2⟩
        | integer h1 _ => cases h1
    | _ =>
      simp only [pyEq]
      constructor
      · intro h; cases h
      · intro h; cases h with | integer h1 _ => cases h1
termination_by structural a => a
theorem sameKeyL_iff {fi : Str → Option Int} : ∀ xs ys : List Val, isKeyL xs = true →
    (pyEqL fi false xs ys = true ↔ xs.length = ys.length ∧ ∀ (i : Nat) x y, xs[i]? = some x → ys[i]? = some y → SameKey fi x y)
  | [], ys, _ => by cases ys <;> simp [pyEqL]
  | x :: xs, [], _ => by simp [pyEqL]
  | x :: xs, y :: ys, h => by
    simp only [isKeyL, Bool.and_eq_true] at h
    simp only [pyEqL, Bool.and_eq_true]
    rw [sameKey_iff x y h.1, sameKeyL_iff xs ys h.2]
    constructor
    · rintro ⟨h1, h2, h3⟩
      refine ⟨by simp [h2], fun i a b ha hb => ?_⟩
      cases i with
      | zero => simp only [List.getElem?_cons_zero, Option.some.injEq] at ha hb; subst ha; subst hb; exact h1
      | succ i => simp only [List.getElem?_cons_succ] at ha hb; exact h3 i a b ha hb
    · rintro ⟨h2, h3⟩
      exact ⟨h3 0 x y rfl rfl, by simpa using h2, fun i a b ha hb => h3 (i + 1) a b (by simpa using ha) (by simpa using hb)⟩
termination_by structural xs => xs
end

mutual
theorem canHash_of : ∀ v : Val, isKey v = true → CanHash v
  | .none, _ => .none
  | .bool _, _ => .bool _
  | .int _, _ => .int _
  | .float _, _ => .float _
  | .str _, _ => .str _
  | .cls _, _ => .cls _
  | .numtype _, _ => .numtype _
  | .tuple xs, h => .tuple (canHashL_of xs (by simpa only [isKey] using h))
termination_by structural v => v
theorem canHashL_of : ∀ xs : List Val, isKeyL xs = true → ∀ x ∈ xs, CanHash x
  | [], _ => fun x hx => absurd hx (by simp)
  | x :: xs, h => by
    simp only [isKeyL, Bool.and_eq_true] at h
    intro y hy
    rcases List.mem_cons.1 hy with e | hy
    · exact e ▸ canHash_of x h.1
    · exact canHashL_of xs h.2 y hy
termination_by structural xs => xs
end

theorem isKey_of_canHash {v : Val} (h : CanHash v) : isKey v = true := by
  induction h with
  | tuple _ ih =>
    simp only [isKey]
    exact isKeyL_iff.2 ih
  | _ => rfl

theorem isKey_iff_canHash {v : Val} : isKey v = true ↔ CanHash v := ⟨canHash_of v, isKey_of_canHash⟩

theorem hashable_iff_canHash {v : Val} (h : PlainV v) : hashable v = true ↔ CanHash v :=
  ⟨fun hh => canHash_of v (isKey_of_plain v h hh), fun hh => hashable_of_isKey v (isKey_of_canHash hh)⟩

/-! ### Dicts and sets -/

section Generic
variable {κ ν α : Type}

/-- One assignment. -/
def Put (same : κ → κ → Prop) (d : List (κ × ν)) (k : κ) (v : ν) (d' : List (κ × ν)) : Prop :=
  ((∀ p ∈ d, ¬ same p.1 k) ∧ d' = d ++ [(k, v)]) ∨
    ∃ a k' v' e, d = a ++ (k', v') :: e ∧ (∀ p ∈ a, ¬ same p.1 k) ∧ same k' k ∧ d' = a ++ (k', v) :: e

theorem assigned_snoc {same : κ → κ → Prop} {l d' : List (κ × ν)} {k : κ} {v : ν} :
    Assigned same (l ++ [(k, v)]) d' ↔ ∃ d, Assigned same l d ∧ Put same d k v d' := by
  constructor
  · intro h
    generalize hl : l ++ [(k, v)] = l' at h
    cases h with
    | nil => simp at hl
    | new h1 h2 =>
      obtain ⟨rfl, e⟩ := List.append_inj' hl rfl
      cases e
      exact ⟨_, h1, .inl ⟨h2, rfl⟩⟩
    | known h1 h2 h3 =>
      obtain ⟨rfl, e⟩ := List.append_inj' hl rfl
      cases e
      exact ⟨_, h1, .inr ⟨_, _, _, _, rfl, h2, h3, rfl⟩⟩
  · rintro ⟨d, h1, ⟨h2, rfl⟩ | ⟨a, k', v', e, rfl, h2, h3, rfl⟩⟩
    · exact .new h1 h2
    · exact .known h1 h2 h3

theorem assigned_nil {same : κ → κ → Prop} {d : List (κ × ν)} : Assigned same [] d ↔ d = [] := by
  constructor
  · intro h
    generalize hl : ([] : List (κ × ν)) = l at h
    cases h with
    | nil => rfl
    | new => simp at hl
    | known => simp at hl
  · rintro rfl; exact .nil

/-- One addition. -/
def Join (same : α → α → Prop) (d : List α) (x : α) (d' : List α) : Prop :=
  ((∀ y ∈ d, ¬ same y x) ∧ d' = d ++ [x]) ∨ ((∃ y ∈ d, same y x) ∧ d' = d)

theorem added_snoc {same : α → α → Prop} {l d' : List α} {x : α} :
    Added same (l ++ [x]) d' ↔ ∃ d, Added same l d ∧ Join same d x d' := by
  constructor
  · intro h
    generalize hl : l ++ [x] = l' at h
    cases h with
    | nil => simp at hl
    | new h1 h2 =>
      obtain ⟨rfl, e⟩ := List.append_inj' hl rfl
      cases e
      exact ⟨_, h1, .inl ⟨h2, rfl⟩⟩
    | known h1 h2 h3 =>
      obtain ⟨rfl, e⟩ := List.append_inj' hl rfl
      cases e
      exact ⟨_, h1, .inr ⟨⟨_, h2, h3⟩, rfl⟩⟩
  · rintro ⟨d, h1, ⟨h2, rfl⟩ | ⟨⟨y, h2, h3⟩, rfl⟩⟩
    · exact .new h1 h2
    · exact .known h1 h2 h3

theorem added_nil {same : α → α → Prop} {d : List α} : Added same [] d ↔ d = [] := by
  constructor
  · intro h
    generalize hl : ([] : List α) = l at h
    cases h with
    | nil => rfl
    | new => simp at hl
    | known => simp at hl
  · rintro rfl; exact .nil

end Generic

variable {fi : Str → Option Int}

theorem vput_iff {d d' : List (Val × Val)} {k v : Val} (hd : ∀ p ∈ d, isKey p.1 = true) :
    vput fi d k v = d' ↔ Put (SameKey fi) d k v d' := by
  induction d generalizing d' with
  | nil =>
    simp only [vput]
    constructor
    · rintro rfl; exact .inl ⟨by simp, rfl⟩
    · rintro (⟨-, rfl⟩ | ⟨a, k', v', e, h, -⟩)
      · rfl
      · simp at h
  | cons p d ih =>
    obtain ⟨k', v'⟩ := p
    have hk := hd (k', v') (by simp)
    have hd' : ∀ p ∈ d, isKey p.1 = true := fun p hp => hd p (by simp [hp])
    simp only [vput]
    by_cases hs : pyEq fi false k' k = true
    · have hs' := (sameKey_iff k' k hk).1 hs
      simp only [hs, if_true]
      constructor
      · rintro rfl
        exact .inr ⟨[], k', v', d, rfl, by simp, hs', rfl⟩
      · rintro (⟨h, -⟩ | ⟨a, k'', v'', e, h, h1, h2, rfl⟩)
        · exact absurd hs' (h (k', v') (by simp))
        · cases a with
          | nil => cases h; rfl
          | cons q a => cases h; exact absurd hs' (h1 (k', v') (by simp))
    · have hs' : ¬ SameKey fi k' k := fun h => hs ((sameKey_iff k' k hk).2 h)
      simp only [hs]
      constructor
      · rintro rfl
        rcases (ih hd').1 rfl with ⟨h, e⟩ | ⟨a, k'', v'', e, rfl, h1, h2, e'⟩
        · refine .inl ⟨fun p hp => ?_, by simp [e]⟩
          rcases List.mem_cons.1 hp with rfl | hp
          · exact hs'
          · exact h p hp
        · refine .inr ⟨(k', v') :: a, k'', v'', e, rfl, fun p hp => ?_, h2, by simp [e']⟩
          rcases List.mem_cons.1 hp with rfl | hp
          · exact hs'
          · exact h1 p hp
      · rintro (⟨h, rfl⟩ | ⟨a, k'', v'', e, h, h1, h2, rfl⟩)
        · simp [(ih hd').2 (.inl ⟨fun p hp => h p (by simp [hp]), rfl⟩)]
        · cases a with
          | nil => cases h; exact absurd h2 hs'
          | cons q a =>
            obtain ⟨rfl, e'⟩ := List.cons.inj h
            rw [show a.append ((k'', v'') :: e) = a ++ (k'', v'') :: e from rfl] at e'
            subst e'
            simp [(ih hd').2 (.inr ⟨a, k'', v'', e, rfl, fun p hp => h1 p (by simp [hp]), h2, rfl⟩)]

theorem dictFrom_snoc {acc l : List (Val × Val)} {k v : Val} :
    dictFrom fi acc (l ++ [(k, v)]) = (dictFrom fi acc l).bind fun d => if hashable k then .ok (vput fi d k v) else .error .typeError := by
  induction l generalizing acc with
  | nil => simp only [List.nil_append, dictFrom, Except.bind]
  | cons p l ih =>
    obtain ⟨a, b⟩ := p
    simp only [List.cons_append, dictFrom, ih]
    split <;> rfl

theorem list_snoc_induction {α : Type} {P : List α → Prop} (h0 : P []) (h1 : ∀ l x, P l → P (l ++ [x])) : ∀ l, P l := by
  intro l
  have : ∀ r : List α, P r.reverse := by
    intro r
    induction r with
    | nil => exact h0
    | cons x r ih => rw [List.reverse_cons]; exact h1 _ _ ih
  simpa using this l.reverse

theorem dictFrom_iff {l d : List (Val × Val)} (hl : ∀ p ∈ l, PlainV p.1) :
    dictFrom fi [] l = .ok d ↔ (∀ k v, (k, v) ∈ l → CanHash k) ∧ Assigned (SameKey fi) l d := by
  suffices ∀ l : List (Val × Val), (∀ p ∈ l, PlainV p.1) → ∀ d, (dictFrom fi [] l = .ok d ↔ (∀ k v, (k, v) ∈ l → CanHash k) ∧ Assigned (SameKey fi) l d) from this l hl d
  clear hl d l
  intro l
  refine list_snoc_induction (P := fun l => (∀ p ∈ l, PlainV p.1) → ∀ d, (dictFrom fi [] l = .ok d ↔ (∀ k v, (k, v) ∈ l → CanHash k) ∧ Assigned (SameKey fi) l d)) ?_ ?_ l
  · intro _ d
    simp only [dictFrom, Except.ok.injEq, assigned_nil]
    constructor
    · rintro rfl; exact ⟨by simp, rfl⟩
    · rintro ⟨-, rfl⟩; rfl
  · rintro l ⟨k, v⟩ ih hl d
    have hl' : ∀ p ∈ l, PlainV p.1 := fun p hp => hl p (by simp [hp])
    have hk : PlainV k := hl (k, v) (by simp)
    rw [dictFrom_snoc, assigned_snoc]
    have keys : ∀ d, dictFrom fi [] l = .ok d → ∀ p ∈ d, isKey p.1 = true := by
      rintro d hd ⟨a, b⟩ hp
      obtain ⟨q, hq, e⟩ := (mem_dictFrom hd hp).1
      rcases hq with hq | hq
      · cases hq
      · exact (show a = q.1 from e) ▸ isKey_of_canHash (((ih hl' d).1 hd).1 q.1 q.2 hq)
    constructor
    · intro h
      obtain ⟨d0, h0, h⟩ := rbind_ok h
      by_cases hh : hashable k = true
      · simp only [hh, if_true] at h
        cases h
        obtain ⟨h1, h2⟩ := (ih hl' d0).1 h0
        refine ⟨fun a b hm => ?_, d0, h2, (vput_iff (keys d0 h0)).1 rfl⟩
        rcases List.mem_append.1 hm with hm | hm
        · exact h1 a b hm
        · simp at hm; exact hm.1 ▸ (hashable_iff_canHash hk).1 hh
      · simp [hh] at h
    · rintro ⟨h1, d0, h2, h3⟩
      have h0 := (ih hl' d0).2 ⟨fun a b hm => h1 a b (by simp [hm]), h2⟩
      have hh := (hashable_iff_canHash hk).2 (h1 k v (by simp))
      rw [h0]
      simp only [Except.bind, hh, if_true]
      rw [(vput_iff (keys d0 h0)).2 h3]

theorem setFrom_snoc {acc l : List Val} {x : Val} :
    setFrom fi acc (l ++ [x]) = (setFrom fi acc l).bind fun d => if hashable x then .ok (if d.any (fun y => pyEq fi false y x) then d else d ++ [x]) else .error .typeError := by
  induction l generalizing acc with
  | nil => simp only [List.nil_append, setFrom, Except.bind]
  | cons p l ih =>
    simp only [List.cons_append, setFrom, ih]
    split <;> rfl

theorem join_iff {d d' : List Val} {x : Val} (hd : ∀ y ∈ d, isKey y = true) :
    (if d.any (fun y => pyEq fi false y x) then d else d ++ [x]) = d' ↔ Join (SameKey fi) d x d' := by
  by_cases h : d.any (fun y => pyEq fi false y x) = true
  · simp only [h, if_true]
    obtain ⟨y, hy, e⟩ := List.any_eq_true.1 h
    have hs := (sameKey_iff y x (hd y hy)).1 e
    constructor
    · rintro rfl; exact .inr ⟨⟨y, hy, hs⟩, rfl⟩
    · rintro (⟨h1, -⟩ | ⟨-, rfl⟩)
      · exact absurd hs (h1 y hy)
      · rfl
  · simp only [h]
    have hn : ∀ y ∈ d, ¬ SameKey fi y x := fun y hy hs => h (List.any_eq_true.2 ⟨y, hy, (sameKey_iff y x (hd y hy)).2 hs⟩)
    constructor
    · intro e; exact .inl ⟨hn, by simpa using e.symm⟩
    · rintro (⟨-, rfl⟩ | ⟨⟨y, hy, hs⟩, -⟩)
      · simp
      · exact absurd hs (hn y hy)

theorem setFrom_iff {l d : List Val} (hl : ∀ x ∈ l, PlainV x) :
    setFrom fi [] l = .ok d ↔ (∀ v ∈ l, CanHash v) ∧ Added (SameKey fi) l d := by
  suffices ∀ l : List Val, (∀ x ∈ l, PlainV x) → ∀ d, (setFrom fi [] l = .ok d ↔ (∀ v ∈ l, CanHash v) ∧ Added (SameKey fi) l d) from this l hl d
  clear hl d l
  intro l
  refine list_snoc_induction (P := fun l => (∀ x ∈ l, PlainV x) → ∀ d, (setFrom fi [] l = .ok d ↔ (∀ v ∈ l, CanHash v) ∧ Added (SameKey fi) l d)) ?_ ?_ l
  · intro _ d
    simp only [setFrom, Except.ok.injEq, added_nil]
    constructor
    · rintro rfl; exact ⟨by simp, rfl⟩
    · rintro ⟨-, rfl⟩; rfl
  · intro l x ih hl d
    have hl' : ∀ x ∈ l, PlainV x := fun p hp => hl p (by simp [hp])
    have hk : PlainV x := hl x (by simp)
    rw [setFrom_snoc, added_snoc]
    have keys : ∀ d, setFrom fi [] l = .ok d → ∀ y ∈ d, isKey y = true := by
      intro d hd y hy
      rcases mem_setFrom hd hy with hq | hq
      · cases hq
      · exact isKey_of_canHash (((ih hl' d).1 hd).1 y hq)
    constructor
    · intro h
      obtain ⟨d0, h0, h⟩ := rbind_ok h
      by_cases hh : hashable x = true
      · simp only [hh, if_true] at h
        obtain ⟨h1, h2⟩ := (ih hl' d0).1 h0
        refine ⟨fun a hm => ?_, d0, h2, (join_iff (keys d0 h0)).1 (Except.ok.inj h)⟩
        rcases List.mem_append.1 hm with hm | hm
        · exact h1 a hm
        · simp at hm; exact hm ▸ (hashable_iff_canHash hk).1 hh
      · simp [hh] at h
    · rintro ⟨h1, d0, h2, h3⟩
      have h0 := (ih hl' d0).2 ⟨fun a hm => h1 a (by simp [hm]), h2⟩
      have hh := (hashable_iff_canHash hk).2 (h1 x (by simp))
      rw [h0]
      simp only [Except.bind, hh, if_true]
      rw [(join_iff (keys d0 h0)).2 h3]

theorem dset_iff {d d' : List (Str × Val)} {k : Str} {v : Val} : dset d k v = d' ↔ Put Eq d k v d' := by
  induction d generalizing d' with
  | nil =>
    simp only [dset]
    constructor
    · rintro rfl; exact .inl ⟨by simp, rfl⟩
    · rintro (⟨-, rfl⟩ | ⟨a, k', v', e, h, -⟩)
      · rfl
      · simp at h
  | cons p d ih =>
    obtain ⟨k', v'⟩ := p
    simp only [dset]
    by_cases hs : k' = k
    · simp only [hs, if_true]
      subst hs
      constructor
      · rintro rfl
        exact .inr ⟨[], k', v', d, rfl, by simp, rfl, rfl⟩
      · rintro (⟨h, -⟩ | ⟨a, k'', v'', e, h, h1, h2, rfl⟩)
        · exact absurd rfl (h (k', v') (by simp))
        · cases a with
          | nil => cases h; rfl
          | cons q a => cases h; exact absurd rfl (h1 (k', v') (by simp))
    · simp only [hs]
      constructor
      · rintro rfl
        rcases ih.1 rfl with ⟨h, e⟩ | ⟨a, k'', v'', e, rfl, h1, h2, e'⟩
        · refine .inl ⟨fun p hp => ?_, by simp [e]⟩
          rcases List.mem_cons.1 hp with rfl | hp
          · exact hs
          · exact h p hp
        · refine .inr ⟨(k', v') :: a, k'', v'', e, rfl, fun p hp => ?_, h2, by simp [e']⟩
          rcases List.mem_cons.1 hp with rfl | hp
          · exact hs
          · exact h1 p hp
      · rintro (⟨h, rfl⟩ | ⟨a, k'', v'', e, h, h1, h2, rfl⟩)
        · simp [ih.2 (.inl ⟨fun p hp => h p (by simp [hp]), rfl⟩)]
        · cases a with
          | nil => cases h; exact absurd h2 hs
          | cons q a =>
            obtain ⟨rfl, e'⟩ := List.cons.inj h
            rw [show a.append ((k'', v'') :: e) = a ++ (k'', v'') :: e from rfl] at e'
            subst e'
            simp [ih.2 (.inr ⟨a, k'', v'', e, rfl, fun p hp => h1 p (by simp [hp]), h2, rfl⟩)]

theorem dictOf_iff {l d : List (Str × Val)} : dictOf l = d ↔ Assigned Eq l d := by
  refine list_snoc_induction (P := fun l => ∀ d, (dictOf l = d ↔ Assigned Eq l d)) ?_ ?_ l d
  · intro d
    rw [assigned_nil]
    exact eq_comm
  · rintro l ⟨k, v⟩ ih d
    rw [assigned_snoc]
    have : dictOf (l ++ [(k, v)]) = dset (dictOf l) k v := by simp [dictOf, dupdate]
    rw [this, dset_iff]
    constructor
    · intro h; exact ⟨_, (ih _).1 rfl, h⟩
    · rintro ⟨d0, h1, h2⟩
      rw [(ih _).2 h1]
      exact h2

/-! ### Numbers and names -/

theorem natOf_iff {t : Str} {n : Nat} : NatOf t n ↔ Digits t ∧ digitsVal t = n := by
  have hc : ∀ c : Char, isDig c = true ↔ '0' ≤ c ∧ c ≤ '9' := by
    intro c
    simp only [isDig, decide_eq_true_eq]
    exact Iff.rfl
  simp only [NatOf, Digits, List.all_eq_true, hc, and_assoc]
  exact Iff.rfl

theorem intText_iff {t : Str} : IntText t ↔ (pyInt t).isSome = true := by
  constructor
  · rintro ⟨d, n, h, rfl | rfl⟩
    · rw [pyInt_digits (natOf_iff.1 h).1]; rfl
    · rw [pyInt_neg (natOf_iff.1 h).1]; rfl
  · intro h
    cases t with
    | nil => simp [pyInt] at h
    | cons c r =>
      simp only [pyInt] at h
      split at h
      · rename_i hc
        split at h
        · rename_i hd
          exact ⟨r, _, natOf_iff.2 ⟨hd, rfl⟩, .inr (by rw [hc])⟩
        · cases h
      · split at h
        · rename_i hd
          exact ⟨c :: r, _, natOf_iff.2 ⟨⟨by simp, hd⟩, rfl⟩, .inl rfl⟩
        · cases h

theorem number_iff {E : Env} {t : Str} {v : Val} : numberOf E t = v ↔ Means E (.num t) v := by
  constructor
  · rintro rfl
    cases ht : pyInt t with
    | none =>
      have : numberOf E t = .float (E.floatOf t) := by simp only [numberOf, ht]
      rw [this]
      exact .float fun h => by rw [intText_iff, ht] at h; cases h
    | some i =>
      obtain ⟨d, n, h, rfl | rfl⟩ := intText_iff.2 (by rw [ht]; rfl)
      · have h' := natOf_iff.1 h
        simp only [numberOf, pyInt_digits h'.1, h'.2]
        exact .nat h
      · have h' := natOf_iff.1 h
        simp only [numberOf, pyInt_neg h'.1, h'.2]
        exact .neg h
  · intro h
    cases h with
    | nat h =>
      have h' := natOf_iff.1 h
      simp only [numberOf, pyInt_digits h'.1, h'.2]
    | neg h =>
      have h' := natOf_iff.1 h
      simp only [numberOf, pyInt_neg h'.1, h'.2]
    | float h =>
      rw [intText_iff] at h
      simp only [numberOf]
      cases ht : pyInt t with
      | none => rfl
      | some i => simp [ht] at h

theorem takeWhile_dropWhile_split {p : Char → Bool} {a r : Str} {c : Char} (ha : ∀ x ∈ a, p x = true) (hc : p c = false) :
    (a ++ c :: r).takeWhile p = a ∧ (a ++ c :: r).dropWhile p = c :: r := by
  induction a with
  | nil => simp [hc]
  | cons x a ih =>
    have := ih fun y hy => ha y (by simp [hy])
    simp [ha x (by simp), this]

theorem rpartition_iff {b m n : Str} : rpartition b '.' = (m, n) ↔ DottedName b m n := by
  have hd : ∀ m n : Str, '.' ∉ n → rpartition (m ++ '.' :: n) '.' = (m, n) := by
    intro m n hn
    have := takeWhile_dropWhile_split (p := fun c => c != '.') (a := n.reverse) (r := m.reverse) (c := '.')
      (by intro x hx; simp only [bne_iff_ne]; rintro rfl; exact hn (by simpa using hx)) (by simp)
    simp [rpartition, this]
  have hnone : ∀ n : Str, '.' ∉ n → rpartition n '.' = ([], n) := by
    intro n hn
    have : n.reverse.dropWhile (fun c => c != '.') = [] := by
      have hall : ∀ x ∈ n.reverse, (x != '.') = true := by
        intro x hx
        simp only [bne_iff_ne]
        rintro rfl
        exact hn (by simpa using hx)
      generalize n.reverse = l at hall
      induction l with
      | nil => rfl
      | cons x l ih =>
        rw [List.dropWhile_cons, if_pos (hall x (by simp))]
        exact ih fun y hy => hall y (by simp [hy])
    simp [rpartition, this]
  constructor
  · intro h
    by_cases hb : '.' ∈ b
    · have hb' : '.' ∈ b.reverse := by simpa using hb
      obtain ⟨a, r, e, ha⟩ := List.append_of_mem hb' |> fun _ => (show ∃ a r, b.reverse = a ++ '.' :: r ∧ '.' ∉ a from by
        generalize b.reverse = l at hb'
        induction l with
        | nil => cases hb'
        | cons x l ih =>
          by_cases hx : x = '.'
          · exact ⟨[], l, by simp [hx], by simp⟩
          · obtain ⟨a, r, e, ha⟩ := ih (by simpa [Ne.symm hx] using hb')
            exact ⟨x :: a, r, by simp [e], by simp [Ne.symm hx, ha]⟩)
      have eb : b = r.reverse ++ '.' :: a.reverse := by
        have := congrArg List.reverse e
        simpa using this
      rw [eb, hd _ _ (by simpa using ha)] at h
      cases h
      exact ⟨by simpa using ha, .inl eb⟩
    · rw [hnone b hb] at h
      cases h
      exact ⟨hb, .inr ⟨rfl, rfl⟩⟩
  · rintro ⟨hn, rfl | ⟨rfl, rfl⟩⟩
    · exact hd m n hn
    · exact hnone _ hn

theorem clsVal_iff {E : Env} {b : Str} {v : Val} : clsVal E b = .ok v ↔ Means E (.cls b) v := by
  have hr : DottedName b (rpartition b '.').1 (rpartition b '.').2 := rpartition_iff.1 rfl
  constructor
  · intro h
    simp only [clsVal] at h
    split at h
    · cases h
    · rename_i u hu hi
      cases h
      exact .cls hr hi hu
    · rename_i hi; cases h; exact .lost hr hi (.inl rfl)
    · rename_i hi; cases h; exact .lost hr hi (.inr rfl)
    · cases h
  · intro h
    cases h with
    | cls hd hi hv =>
      have := rpartition_iff.2 hd
      simp only [clsVal, this, hi]
    | lost hd hi he =>
      have := rpartition_iff.2 hd
      simp only [clsVal, this, hi]
      rcases he with rfl | rfl <;> rfl

/-! ### Values -/

section Values
variable {E : Env} (hE : FindsClasses E)

theorem cons_pointwise {α β : Type} {P : α → β → Prop} {x : α} {y : β} {xs : List α} {ys : List β} :
    (∀ (i : Nat) a b, (x :: xs)[i]? = some a → (y :: ys)[i]? = some b → P a b) ↔
      P x y ∧ ∀ (i : Nat) a b, xs[i]? = some a → ys[i]? = some b → P a b := by
  constructor
  · intro h
    exact ⟨h 0 x y rfl rfl, fun i a b ha hb => h (i + 1) a b (by simpa using ha) (by simpa using hb)⟩
  · rintro ⟨h1, h2⟩ i a b ha hb
    cases i with
    | zero => simp only [List.getElem?_cons_zero, Option.some.injEq] at ha hb; subst ha; subst hb; exact h1
    | succ i => simp only [List.getElem?_cons_succ] at ha hb; exact h2 i a b ha hb

include hE

mutual
theorem sem_iff : ∀ (a : Ast) (v : Val), sem E a = .ok v ↔ Means E a v
  | .none, v => by
    simp only [sem, Except.ok.injEq]
    exact ⟨fun h => h ▸ .none, fun h => by cases h; rfl⟩
  | .bool b, v => by
    simp only [sem, Except.ok.injEq]
    exact ⟨fun h => h ▸ .bool b, fun h => by cases h; rfl⟩
  | .num t, v => by
    simp only [sem, Except.ok.injEq]
    exact number_iff
  | .str b, v => by
    simp only [sem, Except.ok.injEq]
    exact ⟨fun h => h ▸ .str b, fun h => by cases h; rfl⟩
  | .cls b, v => by
    simp only [sem]
    exact clsVal_iff
  | .tuple xs, v => by
    have ih := semL_iff xs
    simp only [sem]
    constructor
    · intro h
      obtain ⟨l, hl, rfl⟩ := rmap_ok h
      exact .tuple ((ih l).1 hl).1 ((ih l).1 hl).2
    · intro h
      cases h with
      | tuple h1 h2 => rw [(ih _).2 ⟨h1, h2⟩]; rfl
  | .list xs, v => by
    have ih := semL_iff xs
    simp only [sem]
    constructor
    · intro h
      obtain ⟨l, hl, rfl⟩ := rmap_ok h
      exact .list ((ih l).1 hl).1 ((ih l).1 hl).2
    · intro h
      cases h with
      | list h1 h2 => rw [(ih _).2 ⟨h1, h2⟩]; rfl
  | .set xs, v => by
    have ih := semL_iff xs
    have hp := fun l h => plainL_iff.1 (sem_plainL hE xs l h)
    simp only [sem]
    constructor
    · intro h
      obtain ⟨l, hl, h⟩ := rbind_ok h
      obtain ⟨d, hd, rfl⟩ := rmap_ok h
      obtain ⟨h1, h2⟩ := (setFrom_iff (hp l hl)).1 hd
      exact .set ((ih l).1 hl).1 ((ih l).1 hl).2 h1 h2
    · intro h
      cases h with
      | set h1 h2 h3 h4 =>
        have hl := (ih _).2 ⟨h1, h2⟩
        rw [hl]
        simp only [Except.bind]
        rw [(setFrom_iff (hp _ hl)).2 ⟨h3, h4⟩]
        rfl
  | .fset xs, v => by
    have ih := semL_iff xs
    have hp := fun l h => plainL_iff.1 (sem_plainL hE xs l h)
    simp only [sem]
    constructor
    · intro h
      obtain ⟨l, hl, h⟩ := rbind_ok h
      obtain ⟨d, hd, rfl⟩ := rmap_ok h
      obtain ⟨h1, h2⟩ := (setFrom_iff (hp l hl)).1 hd
      exact .fset ((ih l).1 hl).1 ((ih l).1 hl).2 h1 h2
    · intro h
      cases h with
      | fset h1 h2 h3 h4 =>
        have hl := (ih _).2 ⟨h1, h2⟩
        rw [hl]
        simp only [Except.bind]
        rw [(setFrom_iff (hp _ hl)).2 ⟨h3, h4⟩]
        rfl
  | .dict kvs, v => by
    have ih := semD_iff kvs
    have hp : ∀ l, semD E kvs = .ok l → ∀ p ∈ l, PlainV p.1 := fun l h p hp => (sem_plainD hE kvs l h p.1 p.2 hp).1
    simp only [sem]
    constructor
    · intro h
      obtain ⟨l, hl, h⟩ := rbind_ok h
      obtain ⟨d, hd, rfl⟩ := rmap_ok h
      obtain ⟨h1, h2⟩ := (dictFrom_iff (hp l hl)).1 hd
      obtain ⟨h3, h4⟩ := (ih l).1 hl
      exact .dict h3 (fun i k x k' v ha hb => (h4 i (k, x) (k', v) ha hb).1) (fun i k x k' v ha hb => (h4 i (k, x) (k', v) ha hb).2) h1 h2
    · intro h
      cases h with
      | dict h1 h2 h3 h4 h5 =>
        have hl := (ih _).2 ⟨h1, fun i a b ha hb => ⟨h2 i a.1 a.2 b.1 b.2 ha hb, h3 i a.1 a.2 b.1 b.2 ha hb⟩⟩
        rw [hl]
        simp only [Except.bind]
        rw [(dictFrom_iff (hp _ hl)).2 ⟨h4, h5⟩]
        rfl
  | .what o n kvs, v => by
    have ih := semA_iff kvs
    simp only [sem]
    constructor
    · intro h
      obtain ⟨l, hl, h⟩ := rbind_ok h
      obtain ⟨h3, h4⟩ := (ih l).1 hl
      by_cases hc : (o.isSome && kvs.isEmpty) = true
      · simp [hc] at h
      · simp only [hc] at h
        cases h
        refine .what h3 (fun i k x k' v ha hb => h4 i (k, x) (k', v) ha hb) (fun e => ?_) (dictOf_iff.1 rfl)
        subst e
        cases o with
        | none => rfl
        | some o => exact absurd rfl hc
    · intro h
      cases h with
      | what h1 h2 h3 h4 =>
        rw [(ih _).2 ⟨h1, fun i a b ha hb => h2 i a.1 a.2 b.1 b.2 ha hb⟩]
        have hc : (o.isSome && kvs.isEmpty) = false := by
          cases kvs with
          | nil => rw [h3 rfl]; rfl
          | cons => simp
        simp only [Except.bind, hc]
        rw [dictOf_iff.2 h4]
        rfl
termination_by structural a => a
theorem semL_iff : ∀ (xs : List Ast) (l : List Val), semL E xs = .ok l ↔
    xs.length = l.length ∧ ∀ (i : Nat) x v, xs[i]? = some x → l[i]? = some v → Means E x v
  | [], l => by
    simp only [semL, Except.ok.injEq]
    constructor
    · rintro rfl; exact ⟨rfl, fun i x v h => by simp at h⟩
    · rintro ⟨h, -⟩; exact (List.length_eq_zero_iff.1 h.symm).symm
  | x :: xs, l => by
    have h0 := sem_iff x
    have ih := semL_iff xs
    simp only [semL]
    constructor
    · intro h
      obtain ⟨v, hv, h⟩ := rbind_ok h
      obtain ⟨l', hl, rfl⟩ := rmap_ok h
      exact ⟨by simp [((ih l').1 hl).1], cons_pointwise.2 ⟨(h0 v).1 hv, ((ih l').1 hl).2⟩⟩
    · rintro ⟨h1, h2⟩
      cases l with
      | nil => simp at h1
      | cons v l =>
        obtain ⟨h3, h4⟩ := cons_pointwise.1 h2
        rw [(h0 v).2 h3]
        simp only [Except.bind]
        rw [(ih l).2 ⟨by simpa using h1, h4⟩]
        rfl
termination_by structural xs => xs
theorem semD_iff : ∀ (xs : List (Ast × Ast)) (l : List (Val × Val)), semD E xs = .ok l ↔
    xs.length = l.length ∧ ∀ (i : Nat) x v, xs[i]? = some x → l[i]? = some v → Means E x.1 v.1 ∧ Means E x.2 v.2
  | [], l => by
    simp only [semD, Except.ok.injEq]
    constructor
    · rintro rfl; exact ⟨rfl, fun i x v h => by simp at h⟩
    · rintro ⟨h, -⟩; exact (List.length_eq_zero_iff.1 h.symm).symm
  | (k, x) :: xs, l => by
    have hk := sem_iff k
    have h0 := sem_iff x
    have ih := semD_iff xs
    simp only [semD]
    constructor
    · intro h
      obtain ⟨k', hk', h⟩ := rbind_ok h
      obtain ⟨v, hv, h⟩ := rbind_ok h
      obtain ⟨l', hl, rfl⟩ := rmap_ok h
      exact ⟨by simp [((ih l').1 hl).1], cons_pointwise.2 ⟨⟨(hk k').1 hk', (h0 v).1 hv⟩, ((ih l').1 hl).2⟩⟩
    · rintro ⟨h1, h2⟩
      cases l with
      | nil => simp at h1
      | cons v l =>
        obtain ⟨⟨h3, h5⟩, h4⟩ := cons_pointwise.1 h2
        rw [(hk v.1).2 h3]
        simp only [Except.bind]
        rw [(h0 v.2).2 h5]
        simp only
        rw [(ih l).2 ⟨by simpa using h1, h4⟩]
        rfl
termination_by structural xs => xs
theorem semA_iff : ∀ (xs : List (Str × Ast)) (l : List (Str × Val)), semA E xs = .ok l ↔
    xs.map Prod.fst = l.map Prod.fst ∧ ∀ (i : Nat) x v, xs[i]? = some x → l[i]? = some v → Means E x.2 v.2
  | [], l => by
    simp only [semA, Except.ok.injEq]
    constructor
    · rintro rfl; exact ⟨rfl, fun i x v h => by simp at h⟩
    · rintro ⟨h, -⟩; cases l with
      | nil => rfl
      | cons => simp at h
  | (k, x) :: xs, l => by
    have h0 := sem_iff x
    have ih := semA_iff xs
    simp only [semA]
    constructor
    · intro h
      obtain ⟨v, hv, h⟩ := rbind_ok h
      obtain ⟨l', hl, rfl⟩ := rmap_ok h
      exact ⟨by simp [((ih l').1 hl).1], cons_pointwise.2 ⟨(h0 v).1 hv, ((ih l').1 hl).2⟩⟩
    · rintro ⟨h1, h2⟩
      cases l with
      | nil => simp at h1
      | cons v l =>
        obtain ⟨h3, h4⟩ := cons_pointwise.1 h2
        simp only [List.map_cons, List.cons.injEq] at h1
        rw [(h0 v.2).2 h3]
        simp only [Except.bind]
        rw [(ih l).2 ⟨h1.2, h4⟩]
        obtain ⟨k', v⟩ := v
        simp only at h1
        rw [h1.1]
        rfl
termination_by structural xs => xs
end

theorem semTop_iff {o : Option Str} {n : Str} {kvs : List (Str × Ast)} {w : What} :
    semTop E o n kvs = .ok w ↔ Means E (.what o n kvs) (.what w.name w.conf w.nonids w.out) := by
  rw [← sem_iff hE]
  simp only [semTop, sem]
  cases semA E kvs with
  | error e => simp [Except.bind]
  | ok l =>
    simp only [Except.bind]
    cases o.isSome && kvs.isEmpty with
    | true => simp
    | false =>
      obtain ⟨a, b, c, d⟩ := w
      simp

end Values

/-! ### C63 -/

/-- C63. A text of well-formed syntax parses to exactly what the syntax means. -/
theorem c63_reads {E : Env} (hE : FindsClasses E) {s : Str} {o : Option Str} {n : Str} {kvs : List (Str × Ast)} (hw : WellFormed o n kvs)
    (ht : IsText s o n kvs) (w : What) : parseWhatid E s = .ok w ↔ Means E (.what o n kvs) (.what w.name w.conf w.nonids w.out) := by
  rw [parse_spelt hw ht]
  exact semTop_iff hE

/-- C63. A text parses to `w` iff it spells well-formed syntax that means `w`. -/
theorem c63_exact {E : Env} (hE : FindsClasses E) (s : Str) (w : What) : parseWhatid E s = .ok w ↔
    ∃ o n kvs, WellFormed o n kvs ∧ IsText s o n kvs ∧ Means E (.what o n kvs) (.what w.name w.conf w.nonids w.out) := by
  constructor
  · intro h
    rcases parse_spelt_cases (E := E) s with h' | ⟨o, n, kvs, hw, ht⟩
    · rw [h'] at h; cases h
    · exact ⟨o, n, kvs, hw, ht, (c63_reads hE hw ht w).1 h⟩
  · rintro ⟨o, n, kvs, hw, ht, hm⟩
    exact (c63_reads hE hw ht w).2 hm

/-- C63. A text is rejected by the grammar iff it spells no well-formed syntax. -/
theorem c63_rejects {E : Env} (hE : ∀ m n, E.imp m n ≠ .error .noMatch) (s : Str) : parseWhatid E s = .error .noMatch ↔
    ∀ o n kvs, WellFormed o n kvs → ¬ IsText s o n kvs := by
  constructor
  · intro h o n kvs hw ht
    rw [parse_spelt hw ht] at h
    simp only [semTop] at h
    rcases rbind_error h with h | ⟨l, _, h⟩
    · rcases semA_error kvs h with h | h | ⟨m, n, h⟩ | ⟨h, _⟩
      · cases h
      · cases h
      · exact hE m n h
      · cases h
    · split at h <;> cases h
  · intro h
    rcases parse_spelt_cases (E := E) s with h' | ⟨o, n, kvs, hw, ht⟩
    · exact h'
    · exact absurd ht (h o n kvs hw)

/-- C63. No text spells two different syntaxes. -/
theorem c63_unambiguous {s : Str} {o o' : Option Str} {n n' : Str} {kvs kvs' : List (Str × Ast)} (hw : WellFormed o n kvs) (hw' : WellFormed o' n' kvs')
    (ht : IsText s o n kvs) (ht' : IsText s o' n' kvs') : o = o' ∧ n = n' ∧ kvs = kvs' := by
  have := (ev_text hw ht).det (ev_text hw' ht')
  simp only [Out.ok.injEq, List.cons.injEq, and_true, topTree, Tree.node.injEq, true_and] at this
  obtain ⟨e1, e2, e3⟩ := out_inj (ts := elems .kvs (treeA kvs) ++ [tok c!")"]) (us := elems .kvs (treeA kvs') ++ [tok c!")"]) (by simpa using this)
  exact ⟨e1, e2, treeA_inj _ _ (elems_inj e3)⟩

/-! A parameter twice, equal dict keys and set elements, and `set( )`, which is a call and not the empty set. -/

def exSyntax : List (Str × Ast) :=
  [(c!"a", .num c!"1"), (c!"b", .dict [(.num c!"1", .str c!"x"), (.bool true, .str c!"y")]), (c!"a", .what none c!"set" []),
   (c!"c", .set [.num c!"1", .num c!"1.0"]), (c!"d", .fset [])]
def exSpelling : Str := c!" f( a =1,b={1:'x', True: 'y'}, a=set( ), c={1,1.0} ,d=frozenset())\n"

example : WellFormed none c!"f" exSyntax := by
  have i : ∀ c : Char, isIdStart c = true → Ident [c] := fun c h => ⟨c, [], rfl, h, rfl⟩
  have n1 : NumShape c!"1" := NumShape.digits false (ds := c!"1") (fr := []) (ex := []) ⟨by simp, by decide⟩ (.inl rfl) (.inl rfl)
  have n2 : NumShape c!"1.0" := NumShape.digits false (ds := c!"1") (fr := c!".0") (ex := []) ⟨by simp, by decide⟩ (.inr ⟨c!"0", rfl, by decide⟩) (.inl rfl)
  have g : ∀ c : Char, c ≠ '\'' → c ≠ '\\' → isWs c = false → GoodBody [c] := fun c h1 h2 h3 => ⟨.char h1 h2 .nil, fun _ _ e => by cases e; exact h3⟩
  have hs : NestedStart c!"set" := by unfold NestedStart reserved; decide
  refine ⟨by simp, i _ rfl, ?_⟩
  simp only [exSyntax, WfA, Wf, WfL, WfD]
  exact ⟨i _ rfl, n1, i _ rfl, ⟨n1, g _ (by decide) (by decide) rfl, trivial, g _ (by decide) (by decide) rfl, trivial⟩, i _ rfl,
    ⟨by simp, ⟨'s', c!"et", rfl, rfl, rfl⟩, hs, trivial⟩, i _ rfl, ⟨n1, n2, trivial⟩, i _ rfl, trivial, trivial⟩

theorem padded_of (l : List (Str × Str)) (h : (l.all fun p => p.1.all isWs) = true) : Padded (l.map Prod.snd) (l.flatMap fun p => p.1 ++ p.2) := by
  induction l with
  | nil => exact .nil
  | cons p l ih =>
    simp only [List.all_cons, Bool.and_eq_true] at h
    simp only [List.map_cons, List.flatMap_cons, List.append_assoc]
    exact .cons h.1 (ih h.2)

example : IsText exSpelling none c!"f" exSyntax := by
  refine ⟨[[c!"a", c!"=", c!"1"], [c!"b", c!"=", c!"{", c!"1", c!":", c!"'", c!"x'", c!",", c!"True", c!":", c!"'", c!"y'", c!"}"],
      [c!"a", c!"=", c!"set", c!"( ", c!")"], [c!"c", c!"=", c!"{", c!"1", c!",", c!"1.0", c!"}"], [c!"d", c!"=", c!"frozenset()"]], _, c!"\n", ?_,
    padded_of [(c!" ", c!"f"), ([], c!"("), (c!" ", c!"a"), (c!" ", c!"="), ([], c!"1"), ([], c!","), ([], c!"b"), ([], c!"="), ([], c!"{"), ([], c!"1"),
      ([], c!":"), ([], c!"'"), ([], c!"x'"), ([], c!","), (c!" ", c!"True"), ([], c!":"), (c!" ", c!"'"), ([], c!"y'"), ([], c!"}"), ([], c!","),
      (c!" ", c!"a"), ([], c!"="), ([], c!"set"), ([], c!"( "), ([], c!")"), ([], c!","), (c!" ", c!"c"), ([], c!"="), ([], c!"{"), ([], c!"1"), ([], c!","),
      ([], c!"1.0"), ([], c!"}"), (c!" ", c!","), ([], c!"d"), ([], c!"="), ([], c!"frozenset()"), ([], c!")")] (by decide), by decide, rfl⟩
  simp [exSyntax, SpeltA, Spelt, SpeltD, SpeltL, SetCall, toks, sepToks]
  decide

example : parseWhatid exEnv exSpelling = .ok ⟨c!"f", [(c!"a", .what c!"set" [] [] none), (c!"b", .dict [(.int 1, .str c!"y")]), (c!"c", .set [.int 1]), (c!"d", .set [])], [], none⟩ := by rfl

end Whatami
