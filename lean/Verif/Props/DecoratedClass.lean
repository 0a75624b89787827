import Verif.DecoratedClass
import Verif.Props.ClassGraph

/-
C64: decorated classes, over any history of decorations.

Specification: `WhatIs` (Props/ClassGraph: the attribute `what` of a class along its method resolution order), `WhatableClass`.
-/
namespace Whatami

/-- A class counts as whatable: its `what` is a marked function, or a classmethod that gives a `What`. -/
def WhatableClass (W : ClassWorld) (S : ClassState) (c : Nat) : Prop :=
  (∃ f, WhatIs W.mro S.own c (.func f) ∧ S.marked f = true) ∨ ∃ f, WhatIs W.mro S.own c (.classMethod f) ∧ W.gives f c = true

/-- The function is one of the user's, or was made earlier: new functions are different from all there are. -/
structure ClassState.Ok (S : ClassState) : Prop where
  own : ∀ c f, S.own c = some (.func f) → f < S.next
  marked : ∀ f, S.marked f = true → f < S.next

variable {W : ClassWorld} {S : ClassState}

theorem whatIs_unique {F : Type} {mro : Nat → List Nat} {own : WhatAttrs F} {k : Nat} {f g : F} (h : WhatIs mro own k f) (h' : WhatIs mro own k g) : f = g := by
  rw [← lookup_iff] at h h'
  rw [h] at h'
  exact Option.some.inj h'

/-- C64. -/
theorem c64_is_whatable (c : Nat) : isWhatableClass W S c = true ↔ WhatableClass W S c := by
  unfold isWhatableClass WhatableClass
  simp only [← lookup_iff]
  cases h : lookupWhat W.mro S.own c with
  | none => simp
  | some v => cases v <;> simp

theorem not_has {c : Nat} (h : lookupWhat W.mro S.own c = none) : ¬ HasWhat W.mro S.own c := isNone_iff.1 (by rw [h]; rfl)

/-- How a call can go. -/
theorem whatableClass_cases (c : Nat) (wf : Option Nat) (force : Bool) :
    ((¬ HasWhat W.mro S.own c ∨ WhatableClass W S c) ∧ whatableClass W S c wf force = giveWhat W S c wf) ∨
    (¬ WhatableClass W S c ∧ force = true ∧ ∃ f, WhatIs W.mro S.own c (.func f) ∧ whatableClass W S c wf force = (.ok (), S.mark f)) ∨
    (¬ WhatableClass W S c ∧ HasWhat W.mro S.own c ∧ (force = true → ∀ f, ¬ WhatIs W.mro S.own c (.func f)) ∧
      ∃ e, whatableClass W S c wf force = (.error e, S)) := by
  unfold whatableClass
  cases h : lookupWhat W.mro S.own c with
  | none => exact .inl ⟨.inl (not_has h), rfl⟩
  | some v =>
    have hv := lookup_iff.1 h
    cases hw : isWhatableClass W S c with
    | true => exact .inl ⟨.inr ((c64_is_whatable c).1 hw), rfl⟩
    | false =>
      have hn : ¬ WhatableClass W S c := fun h => by rw [(c64_is_whatable c).2 h] at hw; cases hw
      have hh : HasWhat W.mro S.own c := hasWhat_iff.2 ⟨v, hv⟩
      refine .inr ?_
      cases force with
      | false => exact .inr ⟨hn, hh, by simp, _, rfl⟩
      | true =>
        cases v with
        | func f => exact .inl ⟨hn, rfl, f, hv, rfl⟩
        | classMethod f => exact .inr ⟨hn, hh, fun _ g hg => (by cases whatIs_unique hv hg), _, rfl⟩
        | prop => exact .inr ⟨hn, hh, fun _ g hg => (by cases whatIs_unique hv hg), _, rfl⟩
        | other => exact .inr ⟨hn, hh, fun _ g hg => (by cases whatIs_unique hv hg), _, rfl⟩

/-- **C64**: what a refused call raises: AttributeError exactly if the class was to be flagged and its `what` takes no attributes, and else
Exception. -/
theorem c64_error (c : Nat) (wf : Option Nat) (force : Bool) (e : Err) (h : (whatableClass W S c wf force).1 = .error e) :
    (e = .attributeError ∧ (force = true ∧ HasWhat W.mro S.own c ∧ ¬ WhatableClass W S c)) ∨
    (e = .exception ∧ ¬ (force = true ∧ HasWhat W.mro S.own c ∧ ¬ WhatableClass W S c)) := by
  unfold whatableClass at h
  have hg : ∀ {e}, (giveWhat W S c wf).1 = .error e → e = .exception := by
    intro e h
    unfold giveWhat at h
    cases wf <;> cases hs : W.sealed_ c <;> simp [hs] at h <;> exact h.symm
  cases hl : lookupWhat W.mro S.own c with
  | none =>
    rw [hl] at h
    exact .inr ⟨hg h, fun hh => not_has hl hh.2.1⟩
  | some v =>
    rw [hl] at h
    have hh : HasWhat W.mro S.own c := hasWhat_iff.2 ⟨v, lookup_iff.1 hl⟩
    cases hw : isWhatableClass W S c with
    | true =>
      simp only [hw, if_true] at h
      exact .inr ⟨hg h, fun hh => hh.2.2 ((c64_is_whatable c).1 hw)⟩
    | false =>
      have hn : ¬ WhatableClass W S c := fun h => by rw [(c64_is_whatable c).2 h] at hw; cases hw
      cases force with
      | false => simp [hw] at h; exact .inr ⟨h.symm, by simp⟩
      | true => refine .inl ⟨?_, rfl, hh, hn⟩; cases v <;> simp [hw] at h <;> exact h.symm

/-- **C64**: which classes `whatable` accepts. -/
theorem c64_accepts (c : Nat) (wf : Option Nat) (force : Bool) : (whatableClass W S c wf force).1 = .ok () ↔
    ((¬ HasWhat W.mro S.own c ∨ WhatableClass W S c) ∧ W.sealed_ c = false) ∨
    (¬ WhatableClass W S c ∧ force = true ∧ ∃ f, WhatIs W.mro S.own c (.func f)) := by
  rcases whatableClass_cases (W := W) (S := S) c wf force with ⟨h, e⟩ | ⟨h1, h2, f, h3, e⟩ | ⟨h1, h2, h3, x, e⟩
  · rw [e]
    constructor
    · intro hg
      refine .inl ⟨h, ?_⟩
      cases hs : W.sealed_ c with
      | false => rfl
      | true => cases wf <;> simp [giveWhat, hs] at hg
    · rintro (⟨_, hs⟩ | ⟨hn, _, f, hf⟩)
      · cases wf <;> simp [giveWhat, hs]
      · rcases h with h | h
        · exact absurd (hasWhat_iff.2 ⟨_, hf⟩) h
        · exact absurd h hn
  · rw [e]
    exact ⟨fun _ => .inr ⟨h1, h2, f, h3⟩, fun _ => rfl⟩
  · rw [e]
    constructor
    · intro h; cases h
    · rintro (⟨h | h, _⟩ | ⟨_, hf, f, h⟩)
      · exact absurd h2 h
      · exact absurd h h1
      · exact absurd h (h3 hf f)

theorem mro_self (hm : Resolved W.mro) (c : Nat) (f : ClassWhat) (own : WhatAttrs ClassWhat) : WhatIs W.mro (assignWhat own c f) c f := by
  obtain ⟨r, hr⟩ := hm.first c
  exact ⟨[], c, r, hr, by simp, by simp [assignWhat]⟩

/-- What a class has after `what` of some class was assigned. -/
theorem assign_cases {F : Type} {mro : Nat → List Nat} {own : WhatAttrs F} {c k : Nat} {f v : F} (h : WhatIs mro own k v) :
    WhatIs mro (assignWhat own c f) k v ∨ WhatIs mro (assignWhat own c f) k f := by
  obtain ⟨b, d, a, hm, hb, hd⟩ := h
  by_cases hc : c ∈ b
  · obtain ⟨b1, b2, rfl, hb1⟩ := List.eq_append_cons_of_mem hc
    refine .inr ⟨b1, c, b2 ++ d :: a, by simp [hm], fun e he => ?_, by simp [assignWhat]⟩
    have : e ≠ c := fun h => hb1 (h ▸ he)
    simp [assignWhat, this, hb e (by simp [he])]
  · by_cases hdc : d = c
    · subst hdc
      refine .inr ⟨b, d, a, hm, fun e he => ?_, by simp [assignWhat]⟩
      have : e ≠ d := fun h => hc (h ▸ he)
      simp [assignWhat, this, hb e he]
    · refine .inl ⟨b, d, a, hm, fun e he => ?_, by simp [assignWhat, hdc, hd]⟩
      have : e ≠ c := fun h => hc (h ▸ he)
      simp [assignWhat, this, hb e he]

theorem mark_own (f : Nat) : (S.mark f).own = S.own := rfl

theorem mark_iff (f g : Nat) : (S.mark f).marked g = true ↔ g = f ∨ S.marked g = true := by
  unfold ClassState.mark
  by_cases h : g = f <;> simp [h]

/-- The function a call gives: `whatfunc`, or a new one. -/
def given (S : ClassState) (wf : Option Nat) : Nat := wf.getD S.next

theorem give_own {c : Nat} {wf : Option Nat} (hs : W.sealed_ c = false) : (giveWhat W S c wf).2.own = assignWhat S.own c (.func (given S wf)) := by
  cases wf <;> simp [giveWhat, hs, given]

theorem give_sealed {c : Nat} {wf : Option Nat} (hs : W.sealed_ c = true) : (giveWhat W S c wf).2.own = S.own := by
  cases wf <;> simp [giveWhat, hs, mark_own]

theorem give_marked {c : Nat} {wf : Option Nat} (g : Nat) : (giveWhat W S c wf).2.marked g = true ↔ g = given S wf ∨ S.marked g = true := by
  cases hs : W.sealed_ c <;> cases wf <;> simp [giveWhat, hs, given, mark_iff]

/-- Of any call: attributes change only in the class itself, to marked functions; marks are only added. -/
structure Grows (W : ClassWorld) (S S' : ClassState) : Prop where
  own : ∀ k, S'.own k = S.own k ∨ ∃ f, S'.own k = some (.func f) ∧ S'.marked f = true
  marked : ∀ f, S.marked f = true → S'.marked f = true

theorem grows_refl : Grows W S S := ⟨fun _ => .inl rfl, fun _ h => h⟩

theorem Grows.trans {S1 S2 S3 : ClassState} (h1 : Grows W S1 S2) (h2 : Grows W S2 S3) : Grows W S1 S3 := by
  refine ⟨fun k => ?_, fun f h => h2.marked f (h1.marked f h)⟩
  rcases h2.own k with e | h
  · rcases h1.own k with e' | ⟨f, hf, hm⟩
    · exact .inl (e.trans e')
    · exact .inr ⟨f, e.trans hf, h2.marked f hm⟩
  · exact .inr h

theorem grows_call (c : Nat) (wf : Option Nat) (force : Bool) : Grows W S (whatableClass W S c wf force).2 := by
  rcases whatableClass_cases (W := W) (S := S) c wf force with ⟨_, e⟩ | ⟨_, _, f, _, e⟩ | ⟨_, _, _, x, e⟩
  · rw [e]
    refine ⟨fun k => ?_, fun f h => (give_marked f).2 (.inr h)⟩
    cases hs : W.sealed_ c with
    | true => exact .inl (by rw [give_sealed hs])
    | false =>
      rw [give_own hs]
      by_cases hk : k = c
      · exact .inr ⟨given S wf, by simp [assignWhat, hk], (give_marked _).2 (.inl rfl)⟩
      · exact .inl (by simp [assignWhat, hk])
  · rw [e]
    exact ⟨fun _ => .inl rfl, fun g h => (mark_iff f g).2 (.inr h)⟩
  · rw [e]
    exact grows_refl

theorem grows_calls (ks : List ClassCall) : Grows W S (whatableClasses W S ks) := by
  induction ks generalizing S with
  | nil => exact grows_refl
  | cons k ks ih => exact (grows_call ..).trans ih

/-- If classes only get marked functions, the attribute of every class stays or is a marked function. -/
theorem grows_whatIs {S' : ClassState} (h : Grows W S S') {k : Nat} {v : ClassWhat} (hv : WhatIs W.mro S.own k v) :
    WhatIs W.mro S'.own k v ∨ ∃ f, WhatIs W.mro S'.own k (.func f) ∧ S'.marked f = true := by
  obtain ⟨b, d, a, hm, hb, hd⟩ := hv
  suffices H : ∀ b0 b1, b = b0 ++ b1 → (∀ e ∈ b0, S'.own e = none) →
      WhatIs W.mro S'.own k v ∨ ∃ f, WhatIs W.mro S'.own k (.func f) ∧ S'.marked f = true from H [] b rfl (by simp)
  intro b0 b1
  induction b1 generalizing b0 with
  | nil =>
    intro e h0
    simp only [List.append_nil] at e
    subst e
    rcases h.own d with e | ⟨f, hf, hmf⟩
    · exact .inl ⟨b, d, a, hm, h0, e.trans hd⟩
    · exact .inr ⟨f, ⟨b, d, a, hm, h0, hf⟩, hmf⟩
  | cons x b1 ih =>
    intro e h0
    rcases h.own x with e' | ⟨f, hf, hmf⟩
    · refine ih (b0 ++ [x]) (by simp [e]) fun y hy => ?_
      rcases List.mem_append.1 hy with hy | hy
      · exact h0 y hy
      · obtain rfl : y = x := by simpa using hy
        rw [e']; exact hb y (by simp [e])
    · exact .inr ⟨f, ⟨b0, x, b1 ++ d :: a, by simp [hm, e], h0, hf⟩, hmf⟩

/-- **C64**: a class that is whatable stays so, whatever else is decorated afterwards. -/
theorem c64_stays {k : Nat} (h : WhatableClass W S k) (ks : List ClassCall) : WhatableClass W (whatableClasses W S ks) k := by
  have g : Grows W S _ := grows_calls ks
  rcases h with ⟨f, h1, h2⟩ | ⟨f, h1, h2⟩
  · rcases grows_whatIs g h1 with h | h
    · exact .inl ⟨f, h, g.marked f h2⟩
    · exact .inl h
  · rcases grows_whatIs g h1 with h | h
    · exact .inr ⟨f, h, h2⟩
    · exact .inl h

/-- **C64**: a class that was accepted is whatable. -/
theorem c64_accepted (hm : Resolved W.mro) {c : Nat} {wf : Option Nat} {force : Bool} (h : (whatableClass W S c wf force).1 = .ok ()) :
    WhatableClass W (whatableClass W S c wf force).2 c := by
  rcases whatableClass_cases (W := W) (S := S) c wf force with ⟨_, e⟩ | ⟨_, _, f, hf, e⟩ | ⟨_, _, _, x, e⟩
  · rw [e] at h ⊢
    have hs : W.sealed_ c = false := by
      cases hs : W.sealed_ c with
      | false => rfl
      | true => cases wf <;> simp [giveWhat, hs] at h
    refine .inl ⟨given S wf, ?_, (give_marked _).2 (.inl rfl)⟩
    rw [give_own hs]
    exact mro_self hm ..
  · rw [e]
    exact .inl ⟨f, hf, (mark_iff f f).2 (.inl rfl)⟩
  · rw [e] at h; cases h

/-- C64: what decoration does: the class gets the function, `whatfunc` or a new one, which is marked; nothing else changes. -/
theorem c64_decorated {c : Nat} {wf : Option Nat} {force : Bool} (h : ¬ HasWhat W.mro S.own c ∨ WhatableClass W S c) (hs : W.sealed_ c = false) :
    (whatableClass W S c wf force).2.own c = some (.func (wf.getD S.next)) ∧
    (∀ d, d ≠ c → (whatableClass W S c wf force).2.own d = S.own d) ∧
    ∀ g, (whatableClass W S c wf force).2.marked g = true ↔ g = wf.getD S.next ∨ S.marked g = true := by
  have e : whatableClass W S c wf force = giveWhat W S c wf := by
    rcases whatableClass_cases (W := W) (S := S) c wf force with ⟨_, e⟩ | ⟨hn, _, f, hf, _⟩ | ⟨hn, hh, _⟩
    · exact e
    · rcases h with h | h
      · exact absurd (hasWhat_iff.2 ⟨_, hf⟩) h
      · exact absurd h hn
    · rcases h with h | h
      · exact absurd hh h
      · exact absurd h hn
  rw [e]
  exact ⟨by rw [give_own hs]; simp [assignWhat, given], fun d hd => by rw [give_own hs]; simp [assignWhat, hd], fun g => give_marked g⟩

/-- C64: `force_flag_as_whatami` marks the method the class has, its own or inherited, and changes nothing else: all classes with that
same method become whatable too, the ones it is inherited from included. -/
theorem c64_forced {c f : Nat} (wf : Option Nat) (h : WhatIs W.mro S.own c (.func f)) (hn : ¬ WhatableClass W S c) :
    (whatableClass W S c wf true).1 = .ok () ∧ (whatableClass W S c wf true).2.own = S.own ∧
    (∀ g, (whatableClass W S c wf true).2.marked g = true ↔ g = f ∨ S.marked g = true) ∧
    ∀ k, WhatableClass W (whatableClass W S c wf true).2 k ↔ WhatableClass W S k ∨ WhatIs W.mro S.own k (.func f) := by
  rcases whatableClass_cases (W := W) (S := S) c wf true with ⟨h' | h', e⟩ | ⟨_, _, f', hf, e⟩ | ⟨_, _, h3, _⟩
  · exact absurd (hasWhat_iff.2 ⟨_, h⟩) h'
  · exact absurd h' hn
  · cases whatIs_unique h hf
    rw [e]
    refine ⟨rfl, rfl, fun g => mark_iff f g, fun k => ?_⟩
    unfold WhatableClass
    simp only [mark_own, mark_iff]
    constructor
    · rintro (⟨g, h1, rfl | h2⟩ | h)
      · exact .inr h1
      · exact .inl (.inl ⟨g, h1, h2⟩)
      · exact .inl (.inr h)
    · rintro ((⟨g, h1, h2⟩ | h) | h)
      · exact .inl ⟨g, h1, .inr h2⟩
      · exact .inr h
      · exact .inl ⟨f, h, .inl rfl⟩
  · exact absurd h (h3 rfl f)

/-- C64: a refused class changes nothing, except that `whatfunc` has been marked if the class turned out to be built in. -/
theorem c64_refused {c : Nat} {wf : Option Nat} {force : Bool} {e : Err} (h : (whatableClass W S c wf force).1 = .error e) :
    (whatableClass W S c wf force).2.own = S.own ∧
    (W.sealed_ c = false → (whatableClass W S c wf force).2 = S) ∧
    ∀ g, g ≠ wf.getD S.next → ((whatableClass W S c wf force).2.marked g = true ↔ S.marked g = true) := by
  rcases whatableClass_cases (W := W) (S := S) c wf force with ⟨_, e'⟩ | ⟨_, _, f', hf, e'⟩ | ⟨_, _, _, x, e'⟩
  · rw [e'] at h ⊢
    have hs : W.sealed_ c = true := by
      cases hs : W.sealed_ c with
      | true => rfl
      | false => cases wf <;> simp [giveWhat, hs] at h
    exact ⟨give_sealed hs, by simp [hs], fun g hg => (give_marked g).trans (by simp [given, hg])⟩
  · rw [e'] at h; cases h
  · rw [e']; exact ⟨rfl, fun _ => rfl, fun _ _ => Iff.rfl⟩

/-- C64: a class keeps its own `what` as long as it is not itself decorated (or only with force, while it is not whatable). -/
theorem c64_kept (ks : List ClassCall) (c : Nat) (h : ∀ k ∈ ks, k.cls ≠ c) : (whatableClasses W S ks).own c = S.own c := by
  induction ks generalizing S with
  | nil => rfl
  | cons k ks ih =>
    simp only [whatableClasses]
    rw [ih fun k' hk' => h k' (.tail _ hk')]
    have hk := h k (.head _)
    rcases whatableClass_cases (W := W) (S := S) k.cls k.whatfunc k.force with ⟨_, e⟩ | ⟨_, _, f, _, e⟩ | ⟨_, _, _, x, e⟩
    · rw [e]
      cases hs : W.sealed_ k.cls with
      | true => rw [give_sealed hs]
      | false => rw [give_own hs]; simp [assignWhat, Ne.symm hk]
    · rw [e]; rfl
    · rw [e]

/-- C64: and so does every class with none of the decorated ones above it. -/
theorem c64_unrelated (ks : List ClassCall) (k : Nat) (h : ∀ x ∈ ks, x.cls ∉ W.mro k) (v : ClassWhat) :
    WhatIs W.mro (whatableClasses W S ks).own k v ↔ WhatIs W.mro S.own k v := by
  have key : ∀ d ∈ W.mro k, (whatableClasses W S ks).own d = S.own d := fun d hd => c64_kept ks d fun x hx e => h x hx (e ▸ hd)
  constructor
  · rintro ⟨b, d, a, hm, hb, hd⟩
    exact ⟨b, d, a, hm, fun e he => by rw [← key e (by simp [hm, he])]; exact hb e he, by rw [← key d (by simp [hm])]; exact hd⟩
  · rintro ⟨b, d, a, hm, hb, hd⟩
    exact ⟨b, d, a, hm, fun e he => by rw [key e (by simp [hm, he])]; exact hb e he, by rw [key d (by simp [hm])]; exact hd⟩

theorem ok_call (h : S.Ok) (c : Nat) (wf : Option Nat) (hwf : ∀ f, wf = some f → f < S.next) (force : Bool) :
    (whatableClass W S c wf force).2.Ok ∧ S.next ≤ (whatableClass W S c wf force).2.next := by
  rcases whatableClass_cases (W := W) (S := S) c wf force with ⟨_, e⟩ | ⟨_, _, f, hf, e⟩ | ⟨_, _, _, x, e⟩
  · rw [e]
    have hn : S.next ≤ (giveWhat W S c wf).2.next ∧ given S wf < (giveWhat W S c wf).2.next := by
      cases wf with
      | none => cases hs : W.sealed_ c <;> simp [giveWhat, hs, given]
      | some f => cases hs : W.sealed_ c <;> simp [giveWhat, hs, given, ClassState.mark] <;> exact hwf f rfl
    refine ⟨⟨fun d g hd => ?_, fun g hg => ?_⟩, hn.1⟩
    · cases hs : W.sealed_ c with
      | true => rw [give_sealed hs] at hd; exact Nat.lt_of_lt_of_le (h.own d g hd) hn.1
      | false =>
        rw [give_own hs] at hd
        by_cases hdc : d = c
        · simp only [assignWhat, hdc, if_true, Option.some.injEq, ClassWhat.func.injEq] at hd
          exact hd ▸ hn.2
        · simp only [assignWhat, hdc, if_false] at hd
          exact Nat.lt_of_lt_of_le (h.own d g hd) hn.1
    · rcases (give_marked g).1 hg with rfl | hg
      · exact hn.2
      · exact Nat.lt_of_lt_of_le (h.marked g hg) hn.1
  · rw [e]
    refine ⟨⟨h.own, fun g hg => ?_⟩, Nat.le_refl _⟩
    rcases (mark_iff f g).1 hg with rfl | hg
    · obtain ⟨b, d, a, _, _, hd⟩ := hf
      exact h.own d g hd
    · exact h.marked g hg
  · rw [e]
    exact ⟨h, Nat.le_refl _⟩

/-- C64: new functions really are new, at any time: no class has it yet, and it is not marked. -/
theorem c64_new (h : S.Ok) (ks : List ClassCall) (hk : ∀ k ∈ ks, ∀ f, k.whatfunc = some f → f < S.next) :
    (∀ c, (whatableClasses W S ks).own c ≠ some (.func (whatableClasses W S ks).next)) ∧
    (whatableClasses W S ks).marked (whatableClasses W S ks).next = false := by
  have key : (whatableClasses W S ks).Ok := by
    induction ks generalizing S with
    | nil => exact h
    | cons k ks ih =>
      have := ok_call (W := W) h k.cls k.whatfunc (hk k (.head _)) k.force
      exact ih this.1 fun k' hk' f hf => Nat.lt_of_lt_of_le (hk k' (.tail _ hk') f hf) this.2
  refine ⟨fun c hc => Nat.lt_irrefl _ (key.own c _ hc), ?_⟩
  cases hm : (whatableClasses W S ks).marked (whatableClasses W S ks).next with
  | false => rfl
  | true => exact absurd (key.marked _ hm) (Nat.lt_irrefl _)

/-! `object` (built in), A(object) with a method `what` of its own (function 0), B(A), C(object). -/
def exWorld : ClassWorld where
  mro c := if c = 0 then [0] else if c = 1 then [1, 0] else if c = 2 then [2, 1, 0] else [c, 0]
  sealed_ c := c == 0
  gives _ _ := false
def exSession : ClassState where
  own c := if c = 1 then some (.func 0) else none
  marked _ := false
  next := 2

example : Resolved exWorld.mro ∧ exSession.Ok := by
  refine ⟨⟨fun c => ?_, fun k c d hc hd => ?_⟩, fun c f h => ?_, fun f h => by cases h⟩
  · simp only [exWorld]
    split
    · exact ⟨[], by simp [*]⟩
    · split
      · exact ⟨[0], by simp [*]⟩
      · split
        · exact ⟨[1, 0], by simp [*]⟩
        · exact ⟨[0], rfl⟩
  · simp only [exWorld] at hc hd ⊢
    by_cases k0 : k = 0 <;> by_cases k1 : k = 1 <;> by_cases k2 : k = 2 <;> by_cases c0 : c = 0 <;> by_cases c1 : c = 1 <;> by_cases c2 : c = 2 <;> simp_all
  · simp only [exSession] at h
    split at h
    · cases h; decide
    · cases h
/-- A is refused; with force its subclass B is accepted, and so is A from then on. -/
example : (whatableClass exWorld exSession 1 none false).1 = .error .exception ∧ (whatableClass exWorld exSession 2 none true).1 = .ok () ∧
    isWhatableClass exWorld exSession 1 = false ∧ isWhatableClass exWorld (whatableClass exWorld exSession 2 none true).2 1 = true := by decide
/-- `object` cannot be decorated; C can, with a method of the user's (function 1), and with a new one. -/
example : (whatableClass exWorld exSession 0 (some 1) false).1 = .error .exception ∧
    (whatableClasses exWorld exSession [⟨3, some 1, false⟩]).own 3 = some (.func 1) ∧
    (whatableClasses exWorld exSession [⟨3, some 1, false⟩, ⟨0, none, false⟩, ⟨3, none, false⟩]).own 3 = some (.func 3) := by decide

end Whatami
