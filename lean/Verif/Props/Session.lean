import Verif.Session
import Verif.Props.DecoratedClass

/-
C83: classes and objects, decorated in any order.

Specification: `WhatIs` (Props/ClassGraph), `WhatableClass` (Props/DecoratedClass), `ObjWhatIs`, `WhatableObj`.
-/
namespace Whatami

/-- `x` is the attribute `what` of the object: that of a property of its class, else its own, else that of its class. -/
inductive ObjWhatIs (W : ObjWorld) (S : Session) (o : Nat) : ObjWhat → Prop where
  | prop : WhatIs W.classes.mro S.classes.own (W.cls o) .prop → ObjWhatIs W S o .other
  | held (x : ObjWhat) : ¬ WhatIs W.classes.mro S.classes.own (W.cls o) .prop → S.held o = some x → ObjWhatIs W S o x
  | func (f : Nat) : S.held o = none → WhatIs W.classes.mro S.classes.own (W.cls o) (.func f) → ObjWhatIs W S o (.bound f)
  | classMethod (f : Nat) : S.held o = none → WhatIs W.classes.mro S.classes.own (W.cls o) (.classMethod f) → ObjWhatIs W S o (.boundCls f)
  | other : S.held o = none → WhatIs W.classes.mro S.classes.own (W.cls o) .other → ObjWhatIs W S o .other

/-- An object counts as whatable: calling the method gives a What, or its `what` is a function that is not bound, and marked. -/
def WhatableObj (W : ObjWorld) (S : Session) (o : Nat) : Prop :=
  (∃ f, ObjWhatIs W S o (.bound f) ∧ W.yields f o = true) ∨ (∃ f, ObjWhatIs W S o (.boundCls f) ∧ W.classes.gives f (W.cls o) = true) ∨
  ∃ f, ObjWhatIs W S o (.func f) ∧ S.classes.marked f = true

/-- An attribute `what` of its own can be given to the object. -/
def Accepting (W : ObjWorld) (S : Session) (o : Nat) : Prop := W.hasDict o = true ∧ ¬ WhatIs W.classes.mro S.classes.own (W.cls o) .prop

/-- The function a call goes by: `whatfunc`, or a new one. -/
def goesBy (S : Session) (wf : Option Nat) : Nat := wf.getD S.classes.next

variable {W : ObjWorld} {S : Session}

theorem lookupObj_iff {o : Nat} {x : ObjWhat} : lookupObj W S o = some x ↔ ObjWhatIs W S o x := by
  unfold lookupObj
  cases h : lookupWhat W.classes.mro S.classes.own (W.cls o) with
  | none =>
    have hn : ∀ v, ¬ WhatIs W.classes.mro S.classes.own (W.cls o) v := fun v hv => by rw [lookup_iff.2 hv] at h; cases h
    cases hh : S.held o with
    | some y =>
      simp only [Option.some.injEq]
      constructor
      · rintro rfl; exact .held _ (hn _) hh
      · intro hx
        cases hx with
        | prop h => exact absurd h (hn _)
        | held _ _ e => rw [hh] at e; exact Option.some.inj e
        | func f e => rw [hh] at e; cases e
        | classMethod f e => rw [hh] at e; cases e
        | other e => rw [hh] at e; cases e
    | none =>
      simp only [reduceCtorEq, false_iff]
      intro hx
      cases hx with
      | prop h => exact hn _ h
      | held _ _ e => rw [hh] at e; cases e
      | func f _ e => exact hn _ e
      | classMethod f _ e => exact hn _ e
      | other _ e => exact hn _ e
  | some v =>
    have hv := lookup_iff.1 h
    have hu : ∀ u, WhatIs W.classes.mro S.classes.own (W.cls o) u → u = v := fun u hu => whatIs_unique hu hv
    by_cases hp : v = .prop
    · subst hp
      simp only [Option.some.injEq]
      constructor
      · rintro rfl; exact .prop hv
      · intro hx
        cases hx with
        | prop => rfl
        | held _ hn => exact absurd hv hn
        | func f _ e => cases hu _ e
        | classMethod f _ e => cases hu _ e
        | other _ e => cases hu _ e
    · have hn : ¬ WhatIs W.classes.mro S.classes.own (W.cls o) .prop := fun h => hp (hu _ h).symm
      suffices H : (match S.held o with
          | some x => some x
          | none => match some v with
            | none => none
            | some (.func f) => some (.bound f)
            | some (.classMethod f) => some (.boundCls f)
            | some _ => some .other) = some x ↔ ObjWhatIs W S o x by
        cases v <;> first | exact H | exact absurd rfl hp
      cases hh : S.held o with
      | some y =>
        simp only [Option.some.injEq]
        constructor
        · rintro rfl; exact .held _ hn hh
        · intro hx
          cases hx with
          | prop h => exact absurd h hn
          | held _ _ e => rw [hh] at e; exact Option.some.inj e
          | func f e => rw [hh] at e; cases e
          | classMethod f e => rw [hh] at e; cases e
          | other e => rw [hh] at e; cases e
      | none =>
        constructor
        · intro e
          cases v with
          | func f => cases e; exact .func f hh hv
          | classMethod f => cases e; exact .classMethod f hh hv
          | prop => exact absurd rfl hp
          | other => cases e; exact .other hh hv
        · intro hx
          cases hx with
          | prop h => exact absurd h hn
          | held _ _ e => rw [hh] at e; cases e
          | func f _ e => cases hu _ e; rfl
          | classMethod f _ e => cases hu _ e; rfl
          | other _ e => cases hu _ e; rfl

theorem objWhat_unique {o : Nat} {x y : ObjWhat} (h : ObjWhatIs W S o x) (h' : ObjWhatIs W S o y) : x = y := by
  rw [← lookupObj_iff] at h h'
  rw [h] at h'
  exact Option.some.inj h'

/-- **C83**: `is_whatable` on an object. -/
theorem c83_is_whatable (o : Nat) : isWhatableObj W S o = true ↔ WhatableObj W S o := by
  unfold isWhatableObj WhatableObj
  simp only [← lookupObj_iff]
  cases h : lookupObj W S o with
  | none => simp
  | some x => cases x <;> simp

theorem canHold_iff (o : Nat) : canHold W S o = true ↔ Accepting W S o := by
  unfold canHold Accepting
  rw [← lookup_iff]
  simp

theorem hold_ok {o : Nat} (wf : Option Nat) (h : Accepting W S o) : (holdWhat W S o wf).1 = .ok () ∧
    (holdWhat W S o wf).2.held o = some (.bound (goesBy S wf)) ∧ (∀ p, p ≠ o → (holdWhat W S o wf).2.held p = S.held p) := by
  rw [← canHold_iff] at h
  cases wf <;> simp +contextual [holdWhat, h, goesBy]

theorem hold_no {o : Nat} (wf : Option Nat) (h : ¬ Accepting W S o) : (holdWhat W S o wf).1 = .error .exception ∧ (holdWhat W S o wf).2.held = S.held := by
  rw [← canHold_iff] at h
  cases wf <;> simp [holdWhat, h]

theorem hold_classes (o : Nat) (wf : Option Nat) : (holdWhat W S o wf).2.classes.own = S.classes.own ∧
    ∀ g, (holdWhat W S o wf).2.classes.marked g = true ↔ g = goesBy S wf ∨ S.classes.marked g = true := by
  cases wf <;> cases h : canHold W S o <;> simp [holdWhat, h, goesBy, mark_own, mark_iff]

theorem hold_next (o : Nat) (wf : Option Nat) : S.classes.next ≤ (holdWhat W S o wf).2.classes.next := by
  cases wf <;> cases h : canHold W S o <;> simp [holdWhat, h, ClassState.mark]

/-- How a call can go. -/
theorem whatableObject_cases (o : Nat) (wf : Option Nat) (force : Bool) :
    (((¬ ∃ x, ObjWhatIs W S o x) ∨ WhatableObj W S o) ∧ whatableObject W S o wf force = holdWhat W S o wf) ∨
    (¬ WhatableObj W S o ∧ force = true ∧ ∃ f, ObjWhatIs W S o (.func f) ∧
      whatableObject W S o wf force = (.ok (), { S with classes := S.classes.mark f })) ∨
    (¬ WhatableObj W S o ∧ (∃ x, ObjWhatIs W S o x) ∧ (force = true → ∀ f, ¬ ObjWhatIs W S o (.func f)) ∧
      whatableObject W S o wf force = (.error (if force then .attributeError else .exception), S)) := by
  unfold whatableObject
  cases h : lookupObj W S o with
  | none =>
    refine .inl ⟨.inl fun ⟨x, hx⟩ => ?_, rfl⟩
    rw [lookupObj_iff.2 hx] at h; cases h
  | some v =>
    have hv := lookupObj_iff.1 h
    cases hw : isWhatableObj W S o with
    | true => exact .inl ⟨.inr ((c83_is_whatable o).1 hw), rfl⟩
    | false =>
      have hn : ¬ WhatableObj W S o := fun h => by rw [(c83_is_whatable o).2 h] at hw; cases hw
      refine .inr ?_
      cases force with
      | false => exact .inr ⟨hn, ⟨v, hv⟩, by simp, rfl⟩
      | true =>
        cases v with
        | func f => exact .inl ⟨hn, rfl, f, hv, rfl⟩
        | bound f => exact .inr ⟨hn, ⟨_, hv⟩, fun _ g hg => (by cases objWhat_unique hv hg), rfl⟩
        | boundCls f => exact .inr ⟨hn, ⟨_, hv⟩, fun _ g hg => (by cases objWhat_unique hv hg), rfl⟩
        | other => exact .inr ⟨hn, ⟨_, hv⟩, fun _ g hg => (by cases objWhat_unique hv hg), rfl⟩

/-- **C83**: which objects `whatable` accepts. -/
theorem c83_accepts (o : Nat) (wf : Option Nat) (force : Bool) : (whatableObject W S o wf force).1 = .ok () ↔
    (((¬ ∃ x, ObjWhatIs W S o x) ∨ WhatableObj W S o) ∧ Accepting W S o) ∨
    (¬ WhatableObj W S o ∧ force = true ∧ ∃ f, ObjWhatIs W S o (.func f)) := by
  rcases whatableObject_cases (W := W) (S := S) o wf force with ⟨h, e⟩ | ⟨h1, h2, f, h3, e⟩ | ⟨h1, h2, h3, e⟩
  · rw [e]
    constructor
    · intro hg
      refine .inl ⟨h, Classical.byContradiction fun hn => ?_⟩
      rw [(hold_no wf hn).1] at hg; cases hg
    · rintro (⟨_, hs⟩ | ⟨hn, _, f, hf⟩)
      · exact (hold_ok wf hs).1
      · rcases h with h | h
        · exact absurd ⟨_, hf⟩ h
        · exact absurd h hn
  · rw [e]
    exact ⟨fun _ => .inr ⟨h1, h2, f, h3⟩, fun _ => rfl⟩
  · rw [e]
    constructor
    · intro h; cases h
    · rintro (⟨h | h, _⟩ | ⟨_, hf, f, h⟩)
      · exact absurd h2 h
      · exact absurd h h1
      · exact absurd h (h3 hf f)

/-- C83: `force_flag_as_whatami` is of no use with objects: where it would be needed, and the method is a method, AttributeError is raised. -/
theorem c83_force {o f : Nat} (wf : Option Nat) (h : ObjWhatIs W S o (.bound f)) (hn : W.yields f o = false) :
    whatableObject W S o wf true = (.error .attributeError, S) := by
  have hw : ¬ WhatableObj W S o := by
    rintro (⟨g, hg, hy⟩ | ⟨g, hg, _⟩ | ⟨g, hg, _⟩)
    · cases objWhat_unique h hg; rw [hn] at hy; cases hy
    · cases objWhat_unique h hg
    · cases objWhat_unique h hg
  rcases whatableObject_cases (W := W) (S := S) o wf true with ⟨h' | h', _⟩ | ⟨_, _, g, hg, _⟩ | ⟨_, _, _, e⟩
  · exact absurd ⟨_, h⟩ h'
  · exact absurd h' hw
  · cases objWhat_unique h hg
  · exact e

/-- **C83**: what decorating an object does: it gets the function, `whatfunc` or a new one, bound to it, and that function is marked; no other object
and no class gets another attribute. -/
theorem c83_decorated {o : Nat} {wf : Option Nat} {force : Bool} (h : (¬ ∃ x, ObjWhatIs W S o x) ∨ WhatableObj W S o) (ha : Accepting W S o) :
    ObjWhatIs W (whatableObject W S o wf force).2 o (.bound (wf.getD S.classes.next)) ∧
    (∀ p, p ≠ o → ∀ x, ObjWhatIs W (whatableObject W S o wf force).2 p x ↔ ObjWhatIs W S p x) ∧
    (∀ c v, WhatIs W.classes.mro (whatableObject W S o wf force).2.classes.own c v ↔ WhatIs W.classes.mro S.classes.own c v) ∧
    ∀ g, (whatableObject W S o wf force).2.classes.marked g = true ↔ g = wf.getD S.classes.next ∨ S.classes.marked g = true := by
  have e : whatableObject W S o wf force = holdWhat W S o wf := by
    rcases whatableObject_cases (W := W) (S := S) o wf force with ⟨_, e⟩ | ⟨hn, _, f, hf, _⟩ | ⟨hn, hh, _⟩
    · exact e
    · rcases h with h | h
      · exact absurd ⟨_, hf⟩ h
      · exact absurd h hn
    · rcases h with h | h
      · exact absurd hh h
      · exact absurd h hn
  rw [e]
  obtain ⟨-, h1, h2⟩ := hold_ok wf ha
  obtain ⟨h3, h4⟩ := hold_classes (W := W) (S := S) o wf
  refine ⟨.held _ (by rw [h3]; exact ha.2) h1, fun p hp x => ?_, fun c v => by rw [h3], h4⟩
  constructor
  · intro hx
    cases hx with
    | prop h => exact .prop (h3 ▸ h)
    | held _ hn e => exact .held _ (h3 ▸ hn) (h2 p hp ▸ e)
    | func f e h => exact .func f (h2 p hp ▸ e) (h3 ▸ h)
    | classMethod f e h => exact .classMethod f (h2 p hp ▸ e) (h3 ▸ h)
    | other e h => exact .other (h2 p hp ▸ e) (h3 ▸ h)
  · intro hx
    cases hx with
    | prop h => exact .prop (h3.symm ▸ h)
    | held _ hn e => exact .held _ (h3.symm ▸ hn) ((h2 p hp).symm ▸ e)
    | func f e h => exact .func f ((h2 p hp).symm ▸ e) (h3.symm ▸ h)
    | classMethod f e h => exact .classMethod f ((h2 p hp).symm ▸ e) (h3.symm ▸ h)
    | other e h => exact .other ((h2 p hp).symm ▸ e) (h3.symm ▸ h)

/-- **C83**: it is whatable afterwards exactly if that function gives a What for it. -/
theorem c83_after {o : Nat} {wf : Option Nat} {force : Bool} (h : (¬ ∃ x, ObjWhatIs W S o x) ∨ WhatableObj W S o) (ha : Accepting W S o) :
    WhatableObj W (whatableObject W S o wf force).2 o ↔ W.yields (wf.getD S.classes.next) o = true := by
  have hb := (c83_decorated (wf := wf) (force := force) h ha).1
  constructor
  · rintro (⟨f, hf, hy⟩ | ⟨f, hf, _⟩ | ⟨f, hf, _⟩) <;> cases objWhat_unique hb hf
    exact hy
  · exact fun hy => .inl ⟨_, hb, hy⟩

/-- C83: the mark shows elsewhere: classes whose method is that very function count as whatable from then on. -/
theorem c83_marks {o : Nat} {wf : Option Nat} {force : Bool} (h : (¬ ∃ x, ObjWhatIs W S o x) ∨ WhatableObj W S o) (ha : Accepting W S o) (c : Nat) :
    WhatableClass W.classes (whatableObject W S o wf force).2.classes c ↔
    WhatableClass W.classes S.classes c ∨ WhatIs W.classes.mro S.classes.own c (.func (wf.getD S.classes.next)) := by
  obtain ⟨-, -, h3, h4⟩ := c83_decorated (wf := wf) (force := force) h ha
  unfold WhatableClass
  simp only [h3, h4]
  constructor
  · rintro (⟨f, hf, rfl | hm⟩ | h)
    · exact .inr hf
    · exact .inl (.inl ⟨f, hf, hm⟩)
    · exact .inl (.inr h)
  · rintro ((⟨f, hf, hm⟩ | h) | h)
    · exact .inl ⟨f, hf, .inr hm⟩
    · exact .inr h
    · exact .inl ⟨_, h, .inl rfl⟩

/-- C83: a refused object changes nothing, but for the mark of the function if the object could not be given an attribute. -/
theorem c83_refused {o : Nat} {wf : Option Nat} {force : Bool} {e : Err} (h : (whatableObject W S o wf force).1 = .error e) :
    (whatableObject W S o wf force).2.held = S.held ∧ (whatableObject W S o wf force).2.classes.own = S.classes.own ∧
    (Accepting W S o → (whatableObject W S o wf force).2 = S) ∧
    ∀ g, g ≠ wf.getD S.classes.next → ((whatableObject W S o wf force).2.classes.marked g = true ↔ S.classes.marked g = true) := by
  rcases whatableObject_cases (W := W) (S := S) o wf force with ⟨_, e'⟩ | ⟨_, _, f, _, e'⟩ | ⟨_, _, _, e'⟩
  · rw [e'] at h ⊢
    have hn : ¬ Accepting W S o := fun ha => by rw [(hold_ok wf ha).1] at h; cases h
    obtain ⟨h3, h4⟩ := hold_classes (W := W) (S := S) o wf
    exact ⟨(hold_no wf hn).2, h3, fun ha => absurd ha hn, fun g hg => (h4 g).trans (by simp [goesBy, hg])⟩
  · rw [e'] at h; cases h
  · rw [e']; exact ⟨rfl, rfl, fun _ => rfl, fun _ _ => Iff.rfl⟩

/-! ### Histories -/

/-- The call is on the object. -/
def AnyCall.On (o : Nat) : AnyCall → Prop
  | .cls _ => False
  | .obj p _ _ => p = o

/-- The call is on one of the classes. -/
def AnyCall.OnClass (cs : List Nat) : AnyCall → Prop
  | .cls k => k.cls ∈ cs
  | .obj _ _ _ => False

theorem any_held (k : AnyCall) {o : Nat} (h : ¬ k.On o) : (whatableAny W S k).2.held o = S.held o := by
  cases k with
  | cls k => rfl
  | obj p wf force =>
    have hp : o ≠ p := fun e => h e.symm
    show (whatableObject W S p wf force).2.held o = _
    rcases whatableObject_cases (W := W) (S := S) p wf force with ⟨_, e⟩ | ⟨_, _, f, _, e⟩ | ⟨_, _, _, e⟩ <;> rw [e]
    by_cases ha : Accepting W S p
    · exact (hold_ok wf ha).2.2 o hp
    · rw [(hold_no wf ha).2]

theorem any_grows (k : AnyCall) : Grows W.classes S.classes (whatableAny W S k).2.classes := by
  cases k with
  | cls k => exact grows_call ..
  | obj p wf force =>
    show Grows _ _ (whatableObject W S p wf force).2.classes
    rcases whatableObject_cases (W := W) (S := S) p wf force with ⟨_, e⟩ | ⟨_, _, f, _, e⟩ | ⟨_, _, _, e⟩ <;> rw [e]
    · obtain ⟨h3, h4⟩ := hold_classes (W := W) (S := S) p wf
      exact ⟨fun c => .inl (by rw [h3]), fun g hg => (h4 g).2 (.inr hg)⟩
    · exact ⟨fun _ => .inl rfl, fun g hg => (mark_iff f g).2 (.inr hg)⟩
    · exact grows_refl

theorem any_own (k : AnyCall) {d : Nat} (h : ¬ k.OnClass [d]) : (whatableAny W S k).2.classes.own d = S.classes.own d := by
  cases k with
  | cls k =>
    have := c64_kept (W := W.classes) (S := S.classes) [k] d (by simpa [AnyCall.OnClass, eq_comm] using h)
    exact this
  | obj p wf force =>
    show (whatableObject W S p wf force).2.classes.own d = _
    rcases whatableObject_cases (W := W) (S := S) p wf force with ⟨_, e⟩ | ⟨_, _, f, _, e⟩ | ⟨_, _, _, e⟩ <;> rw [e]
    · rw [(hold_classes (W := W) (S := S) p wf).1]
    · rfl

theorem all_held (ks : List AnyCall) {o : Nat} (h : ∀ k ∈ ks, ¬ k.On o) : (whatableAll W S ks).held o = S.held o := by
  induction ks generalizing S with
  | nil => rfl
  | cons k ks ih => exact (ih fun k' hk' => h k' (.tail _ hk')).trans (any_held k (h k (.head _)))

theorem all_own (ks : List AnyCall) {d : Nat} (h : ∀ k ∈ ks, ¬ k.OnClass [d]) : (whatableAll W S ks).classes.own d = S.classes.own d := by
  induction ks generalizing S with
  | nil => rfl
  | cons k ks ih => exact (ih fun k' hk' => h k' (.tail _ hk')).trans (any_own k (h k (.head _)))

theorem all_whatIs (ks : List AnyCall) {c : Nat} (h : ∀ k ∈ ks, ¬ k.OnClass (W.classes.mro c)) (v : ClassWhat) :
    WhatIs W.classes.mro (whatableAll W S ks).classes.own c v ↔ WhatIs W.classes.mro S.classes.own c v := by
  have key : ∀ d ∈ W.classes.mro c, (whatableAll W S ks).classes.own d = S.classes.own d := by
    intro d hd
    refine all_own ks fun k hk hon => h k hk ?_
    cases k with
    | cls k =>
      have : k.cls = d := by simpa [AnyCall.OnClass] using hon
      show k.cls ∈ _
      exact this ▸ hd
    | obj => exact hon
  constructor
  · rintro ⟨b, d, a, hm, hb, hd⟩
    exact ⟨b, d, a, hm, fun e he => by rw [← key e (by simp [hm, he])]; exact hb e he, by rw [← key d (by simp [hm])]; exact hd⟩
  · rintro ⟨b, d, a, hm, hb, hd⟩
    exact ⟨b, d, a, hm, fun e he => by rw [key e (by simp [hm, he])]; exact hb e he, by rw [key d (by simp [hm])]; exact hd⟩

theorem objWhat_congr {S' : Session} {o : Nat} (h : S'.held o = S.held o)
    (hc : ∀ v, WhatIs W.classes.mro S'.classes.own (W.cls o) v ↔ WhatIs W.classes.mro S.classes.own (W.cls o) v) (x : ObjWhat) :
    ObjWhatIs W S' o x ↔ ObjWhatIs W S o x := by
  constructor
  · intro hx
    cases hx with
    | prop h => exact .prop ((hc _).1 h)
    | held _ hn e => exact .held _ (fun h => hn ((hc _).2 h)) (h ▸ e)
    | func f e h' => exact .func f (h ▸ e) ((hc _).1 h')
    | classMethod f e h' => exact .classMethod f (h ▸ e) ((hc _).1 h')
    | other e h' => exact .other (h ▸ e) ((hc _).1 h')
  · intro hx
    cases hx with
    | prop h => exact .prop ((hc _).2 h)
    | held _ hn e => exact .held _ (fun h => hn ((hc _).1 h)) (h.symm ▸ e)
    | func f e h' => exact .func f (h.symm ▸ e) ((hc _).2 h')
    | classMethod f e h' => exact .classMethod f (h.symm ▸ e) ((hc _).2 h')
    | other e h' => exact .other (h.symm ▸ e) ((hc _).2 h')

/-- **C83**: an object keeps its `what` whatever else is decorated: other objects, and classes that are not above it. -/
theorem c83_unrelated (ks : List AnyCall) (o : Nat) (h : ∀ k ∈ ks, ¬ k.On o ∧ ¬ k.OnClass (W.classes.mro (W.cls o))) (x : ObjWhat) :
    ObjWhatIs W (whatableAll W S ks) o x ↔ ObjWhatIs W S o x :=
  objWhat_congr (all_held ks fun k hk => (h k hk).1) (all_whatIs ks fun k hk => (h k hk).2) x

theorem prop_stays {S' : Session} (g : Grows W.classes S.classes S'.classes) {c : Nat} (h : ¬ WhatIs W.classes.mro S.classes.own c .prop) :
    ¬ WhatIs W.classes.mro S'.classes.own c .prop := by
  rintro ⟨b, d, a, hm, hb, hd⟩
  refine h ⟨b, d, a, hm, fun e he => ?_, ?_⟩
  · rcases g.own e with e' | ⟨f, hf, _⟩
    · exact e' ▸ hb e he
    · rw [hb e he] at hf; cases hf
  · rcases g.own d with e' | ⟨f, hf, _⟩
    · exact e' ▸ hd
    · rw [hd] at hf; cases hf

theorem all_grows (ks : List AnyCall) : Grows W.classes S.classes (whatableAll W S ks).classes := by
  induction ks generalizing S with
  | nil => exact grows_refl
  | cons k ks ih => exact (any_grows k).trans ih

/-- C83: the attribute of its own that an object was given is not touched by decorating classes, its own class included, nor other objects. -/
theorem c83_own (ks : List AnyCall) (o : Nat) (h : ∀ k ∈ ks, ¬ k.On o) {x : ObjWhat} (hx : S.held o = some x) (hn : ¬ WhatIs W.classes.mro S.classes.own (W.cls o) .prop) :
    ObjWhatIs W (whatableAll W S ks) o x :=
  .held _ (prop_stays (all_grows ks) hn) ((all_held ks h).trans hx)

/-- **C83**: decorating a class shows in its objects, those without an attribute of their own, and otherwise only in objects of classes below it: without an attribute of
their own they may get the function; and if it hides a property of a class further up, their own comes to light. -/
theorem c83_class (hm : Resolved W.classes.mro) {k : ClassCall} (h : ¬ HasWhat W.classes.mro S.classes.own k.cls ∨ WhatableClass W.classes S.classes k.cls)
    (hs : W.classes.sealed_ k.cls = false) :
    (∀ o, W.cls o = k.cls → S.held o = none → ObjWhatIs W (whatableAny W S (.cls k)).2 o (.bound (k.whatfunc.getD S.classes.next))) ∧
    ∀ o x, ObjWhatIs W (whatableAny W S (.cls k)).2 o x → ObjWhatIs W S o x ∨ (k.cls ∈ W.classes.mro (W.cls o) ∧
      ((S.held o = none ∧ x = .bound (k.whatfunc.getD S.classes.next)) ∨ (WhatIs W.classes.mro S.classes.own (W.cls o) .prop ∧ S.held o = some x))) := by
  obtain ⟨h1, h2, -⟩ := c64_decorated (wf := k.whatfunc) (force := k.force) h hs
  have hown : (whatableAny W S (.cls k)).2.classes.own = (whatableClass W.classes S.classes k.cls k.whatfunc k.force).2.own := rfl
  have hheld : (whatableAny W S (.cls k)).2.held = S.held := rfl
  refine ⟨fun o ho hh => .func _ hh ?_, fun o x hx => ?_⟩
  · obtain ⟨r, hr⟩ := hm.first k.cls
    rw [hown, ho]
    exact ⟨[], k.cls, r, hr, by simp, h1⟩
  · have old : ∀ v, WhatIs W.classes.mro (whatableAny W S (.cls k)).2.classes.own (W.cls o) v → v ≠ .func (k.whatfunc.getD S.classes.next) →
        WhatIs W.classes.mro S.classes.own (W.cls o) v := by
      rintro v ⟨b, d, a, hm, hb, hd⟩ hv
      rw [hown] at hb hd
      have hdk : d ≠ k.cls := by rintro rfl; rw [h1] at hd; exact hv (Option.some.inj hd).symm
      refine ⟨b, d, a, hm, fun e he => ?_, (h2 d hdk).symm.trans hd⟩
      have hek : e ≠ k.cls := by rintro rfl; rw [hb _ he] at h1; cases h1
      exact (h2 e hek).symm.trans (hb e he)
    cases hx with
    | prop h => exact .inl (.prop (old _ h (by simp)))
    | held _ hn e =>
      by_cases hp : WhatIs W.classes.mro S.classes.own (W.cls o) .prop
      · refine .inr ⟨?_, .inr ⟨hp, e⟩⟩
        refine Classical.byContradiction fun hk => hn ?_
        obtain ⟨b, d, a, hm, hb, hd⟩ := hp
        refine ⟨b, d, a, hm, fun y hy => ?_, ?_⟩
        · exact (h2 y fun e => hk (by rw [hm, ← e]; simp [hy])).trans (hb y hy)
        · exact (h2 d fun e => hk (by rw [hm, ← e]; simp)).trans hd
      · exact .inl (.held _ hp e)
    | func f e h =>
      by_cases hf : f = k.whatfunc.getD S.classes.next
      · subst hf
        obtain ⟨b, d, a, hm, hb, hd⟩ := h
        by_cases hdk : d = k.cls
        · subst hdk; exact .inr ⟨by simp [hm], .inl ⟨e, rfl⟩⟩
        · refine .inl (.func _ e ⟨b, d, a, hm, fun x hx => ?_, (h2 d hdk).symm.trans hd⟩)
          have hek : x ≠ k.cls := by rintro rfl; have := hb _ hx; rw [hown, h1] at this; cases this
          exact (h2 x hek).symm.trans (hb x hx)
      · exact .inl (.func _ e (old _ h (by simpa using hf)))
    | classMethod f e h => exact .inl (.classMethod _ e (old _ h (by simp)))
    | other e h => exact .inl (.other e (old _ h (by simp)))

/-- The functions later calls go by all give a What for the object: those of the user's, and the new ones. -/
def AllYield (W : ObjWorld) (S : Session) (o : Nat) (ks : List AnyCall) : Prop :=
  (∀ f, S.classes.next ≤ f → W.yields f o = true) ∧
  ∀ k ∈ ks, (∀ c, k = .cls c → ∀ f, c.whatfunc = some f → W.yields f o = true) ∧ ∀ p wf force, k = .obj p wf force → ∀ f, wf = some f → W.yields f o = true

theorem any_next (k : AnyCall) : S.classes.next ≤ (whatableAny W S k).2.classes.next := by
  cases k with
  | cls k =>
    show _ ≤ (whatableClass W.classes S.classes k.cls k.whatfunc k.force).2.next
    rcases whatableClass_cases (W := W.classes) (S := S.classes) k.cls k.whatfunc k.force with ⟨_, e⟩ | ⟨_, _, f, _, e⟩ | ⟨_, _, _, x, e⟩ <;> rw [e]
    · cases k.whatfunc <;> cases hs : W.classes.sealed_ k.cls <;> simp [giveWhat, hs, ClassState.mark]
    · exact Nat.le_refl _
    · exact Nat.le_refl _
  | obj p wf force =>
    show _ ≤ (whatableObject W S p wf force).2.classes.next
    rcases whatableObject_cases (W := W) (S := S) p wf force with ⟨_, e⟩ | ⟨_, _, f, _, e⟩ | ⟨_, _, _, e⟩ <;> rw [e]
    · exact hold_next p wf
    · exact Nat.le_refl _
    · exact Nat.le_refl _

theorem step_stays {o : Nat} (k : AnyCall) (hy : AllYield W S o [k]) (h : WhatableObj W S o) : WhatableObj W (whatableAny W S k).2 o := by
  have g : Grows W.classes S.classes _ := any_grows (W := W) k
  have hb : ∀ wf : Option Nat, (∀ f, wf = some f → W.yields f o = true) → W.yields (wf.getD S.classes.next) o = true := by
    intro wf hwf
    cases wf with
    | none => exact hy.1 _ (Nat.le_refl _)
    | some f => exact hwf f rfl
  by_cases hon : k.On o
  · cases k with
    | cls k => cases hon
    | obj p wf force =>
      cases hon
      show WhatableObj W (whatableObject W S o wf force).2 o
      rcases whatableObject_cases (W := W) (S := S) o wf force with ⟨_, e⟩ | ⟨hn, _⟩ | ⟨hn, _⟩
      · by_cases ha : Accepting W S o
        · exact (c83_after (.inr h) ha).2 (hb wf ((hy.2 _ (.head _)).2 _ _ _ rfl))
        · rw [e]
          obtain ⟨h3, h4⟩ := hold_classes (W := W) (S := S) o wf
          have hc : ∀ x, ObjWhatIs W (holdWhat W S o wf).2 o x ↔ ObjWhatIs W S o x :=
            objWhat_congr (by rw [(hold_no wf ha).2]) (fun v => by rw [h3])
          rcases h with ⟨f, hf, h⟩ | ⟨f, hf, h⟩ | ⟨f, hf, h⟩
          · exact .inl ⟨f, (hc _).2 hf, h⟩
          · exact .inr (.inl ⟨f, (hc _).2 hf, h⟩)
          · exact .inr (.inr ⟨f, (hc _).2 hf, (h4 f).2 (.inr h)⟩)
      · exact absurd h hn
      · exact absurd h hn
  · have hh := any_held (W := W) (S := S) k hon
    -- a function a class got is one that gives a What for the object
    have key : ∀ f, (∃ v, WhatIs W.classes.mro S.classes.own (W.cls o) v) → S.held o = none →
        WhatIs W.classes.mro (whatableAny W S k).2.classes.own (W.cls o) (.func f) → WhatIs W.classes.mro S.classes.own (W.cls o) (.func f) ∨ W.yields f o = true := by
      rintro f - - hw
      cases k with
      | obj p wf force =>
        left
        have := all_whatIs (W := W) (S := S) [.obj p wf force] (c := W.cls o) (fun k hk => by
          rcases List.mem_cons.1 hk with rfl | hk
          · exact fun h => h
          · cases hk)
        exact (this _).1 hw
      | cls k =>
        have hw : WhatIs W.classes.mro (whatableClass W.classes S.classes k.cls k.whatfunc k.force).2.own (W.cls o) (.func f) := hw
        rcases whatableClass_cases (W := W.classes) (S := S.classes) k.cls k.whatfunc k.force with ⟨_, e⟩ | ⟨_, _, g, _, e⟩ | ⟨_, _, _, x, e⟩ <;> rw [e] at hw
        · cases hs : W.classes.sealed_ k.cls with
          | true => rw [give_sealed hs] at hw; exact .inl hw
          | false =>
            rw [give_own hs] at hw
            by_cases hf : f = given S.classes k.whatfunc
            · subst hf; exact .inr (hb _ ((hy.2 _ (.head _)).1 k rfl))
            · left
              obtain ⟨b, d, a, hm, hb', hd⟩ := hw
              have hdk : d ≠ k.cls := by
                rintro rfl
                simp only [assignWhat, if_true, Option.some.injEq, ClassWhat.func.injEq] at hd
                exact hf hd.symm
              refine ⟨b, d, a, hm, fun y hy => ?_, by simpa [assignWhat, hdk] using hd⟩
              have := hb' y hy
              by_cases hyk : y = k.cls
              · subst hyk; simp [assignWhat] at this
              · simpa [assignWhat, hyk] using this
        · exact .inl hw
        · exact .inl hw
    have fromCls : ∀ v, S.held o = none → WhatIs W.classes.mro S.classes.own (W.cls o) v → (∀ f, v = .func f → W.yields f o = true) →
        (∀ f, v = .classMethod f → W.classes.gives f (W.cls o) = true) → v ≠ .prop → v ≠ .other → WhatableObj W (whatableAny W S k).2 o := by
      intro v hn hv h1 h2 h3 h4
      have new : ∀ f, WhatIs W.classes.mro (whatableAny W S k).2.classes.own (W.cls o) (.func f) → WhatableObj W (whatableAny W S k).2 o := by
        intro f hf
        refine .inl ⟨f, .func f (hh.trans hn) hf, ?_⟩
        rcases key f ⟨v, hv⟩ hn hf with h | h
        · exact h1 f (whatIs_unique hv h)
        · exact h
      rcases grows_whatIs g hv with h | ⟨f, hf, _⟩
      · cases v with
        | func f => exact new f h
        | classMethod f => exact .inr (.inl ⟨f, .classMethod f (hh.trans hn) h, h2 f rfl⟩)
        | prop => exact absurd rfl h3
        | other => exact absurd rfl h4
      · exact new f hf
    have fromHeld : ∀ x, ¬ WhatIs W.classes.mro S.classes.own (W.cls o) .prop → S.held o = some x → ObjWhatIs W (whatableAny W S k).2 o x :=
      fun x hn e => .held x (prop_stays g hn) (hh.trans e)
    rcases h with ⟨f, hf, h⟩ | ⟨f, hf, h⟩ | ⟨f, hf, h⟩
    · cases hf with
      | held _ hn e => exact .inl ⟨f, fromHeld _ hn e, h⟩
      | func _ e hw => exact fromCls _ e hw (fun g hg => by cases hg; exact h) (fun g hg => by cases hg) (by simp) (by simp)
    · cases hf with
      | held _ hn e => exact .inr (.inl ⟨f, fromHeld _ hn e, h⟩)
      | classMethod _ e hw => exact fromCls _ e hw (fun g hg => by cases hg) (fun g hg => by cases hg; exact h) (by simp) (by simp)
    · cases hf with
      | held _ hn e => exact .inr (.inr ⟨f, fromHeld _ hn e, g.marked f h⟩)

/-- **C83**: an object that is whatable stays so, whatever is decorated afterwards, itself included, as long as the functions that are used give a What for it. -/
theorem c83_stays (ks : List AnyCall) (o : Nat) (hy : AllYield W S o ks) (h : WhatableObj W S o) : WhatableObj W (whatableAll W S ks) o := by
  induction ks generalizing S with
  | nil => exact h
  | cons k ks ih =>
    refine ih ⟨fun f hf => hy.1 f (Nat.le_trans (any_next k) hf), fun k' hk' => hy.2 k' (.tail _ hk')⟩ (step_stays k ⟨hy.1, fun k' hk' => ?_⟩ h)
    rcases List.mem_cons.1 hk' with rfl | hk'
    · exact hy.2 _ (.head _)
    · cases hk'

/-- **C83**: with a function that does not give a What an object is accepted, and lost: whatever comes later, it is not whatable and `whatable` refuses it, with or
without force. -/
theorem c83_stuck {o f : Nat} (hx : S.held o = some (.bound f)) (hn : ¬ WhatIs W.classes.mro S.classes.own (W.cls o) .prop) (hy : W.yields f o = false)
    (ks : List AnyCall) : ¬ WhatableObj W (whatableAll W S ks) o ∧ ∀ wf force, ∃ e, whatableObject W (whatableAll W S ks) o wf force = (.error e, whatableAll W S ks) := by
  have bad : ∀ S : Session, S.held o = some (.bound f) → ¬ WhatIs W.classes.mro S.classes.own (W.cls o) .prop →
      ¬ WhatableObj W S o ∧ ∀ wf force, ∃ e, whatableObject W S o wf force = (.error e, S) := by
    intro S hx hn
    have hb : ObjWhatIs W S o (.bound f) := .held _ hn hx
    have hw : ¬ WhatableObj W S o := by
      rintro (⟨g, hg, h⟩ | ⟨g, hg, _⟩ | ⟨g, hg, _⟩) <;> cases objWhat_unique hb hg
      rw [hy] at h; cases h
    refine ⟨hw, fun wf force => ?_⟩
    rcases whatableObject_cases (W := W) (S := S) o wf force with ⟨h | h, _⟩ | ⟨_, _, g, hg, _⟩ | ⟨_, _, _, e⟩
    · exact absurd ⟨_, hb⟩ h
    · exact absurd h hw
    · cases objWhat_unique hb hg
    · exact ⟨_, e⟩
  induction ks generalizing S with
  | nil => exact bad S hx hn
  | cons k ks ih =>
    refine ih ?_ (prop_stays (any_grows k) hn)
    by_cases hon : k.On o
    · cases k with
      | cls k => cases hon
      | obj p wf force =>
        cases hon
        obtain ⟨e, he⟩ := (bad S hx hn).2 wf force
        show (whatableObject W S o wf force).2.held o = _
        rw [he]; exact hx
    · exact (any_held k hon).trans hx

/-- The function, bound or not, is the one that the attribute goes by. -/
def ObjWhat.Uses : ObjWhat → Nat → Prop
  | .bound f, g | .boundCls f, g | .func f, g => f = g
  | .other, _ => False

/-- The functions that are in use are those of the user's and those made earlier. -/
structure Session.Ok (S : Session) : Prop where
  classes : S.classes.Ok
  held : ∀ o x f, S.held o = some x → x.Uses f → f < S.classes.next

theorem ok_hold (h : S.Ok) (o : Nat) (wf : Option Nat) (hwf : ∀ f, wf = some f → f < S.classes.next) : (holdWhat W S o wf).2.Ok := by
  have hn : S.classes.next ≤ (holdWhat W S o wf).2.classes.next ∧ wf.getD S.classes.next < (holdWhat W S o wf).2.classes.next := by
    cases wf with
    | none => cases hc : canHold W S o <;> simp [holdWhat, hc]
    | some f => cases hc : canHold W S o <;> simp [holdWhat, hc, ClassState.mark] <;> exact hwf f rfl
  have hown : (holdWhat W S o wf).2.classes.own = S.classes.own := by
    cases wf <;> cases hc : canHold W S o <;> simp [holdWhat, hc, ClassState.mark]
  have hmark : ∀ g, (holdWhat W S o wf).2.classes.marked g = true → g = wf.getD S.classes.next ∨ S.classes.marked g = true := by
    intro g
    cases wf <;> cases hc : canHold W S o <;> simp [holdWhat, hc, ClassState.mark] <;> intro hg <;> by_cases hgf : g = _ <;> first | exact .inl hgf | exact .inr (by simpa [hgf] using hg)
  refine ⟨⟨fun c f hc => ?_, fun f hf => ?_⟩, fun p x f hp hx => ?_⟩
  · rw [hown] at hc; exact Nat.lt_of_lt_of_le (h.classes.own c f hc) hn.1
  · rcases hmark f hf with rfl | hf
    · exact hn.2
    · exact Nat.lt_of_lt_of_le (h.classes.marked f hf) hn.1
  · have hh : (holdWhat W S o wf).2.held p = some (.bound (wf.getD S.classes.next)) ∨ (holdWhat W S o wf).2.held p = S.held p := by
      cases wf <;> cases hc : canHold W S o <;> simp only [holdWhat, hc, if_true, Bool.false_eq_true, if_false] <;> by_cases hpo : p = o <;> simp [hpo]
    rcases hh with hh | hh
    · rw [hh] at hp; cases hp
      cases hx
      exact hn.2
    · rw [hh] at hp
      exact Nat.lt_of_lt_of_le (h.held p x f hp hx) hn.1

/-- The function the call is told to use, if it is told. -/
def AnyCall.Told : AnyCall → Nat → Prop
  | .cls k, f => k.whatfunc = some f
  | .obj _ wf _, f => wf = some f

theorem ok_any (h : S.Ok) (k : AnyCall) (hk : ∀ f, k.Told f → f < S.classes.next) : (whatableAny W S k).2.Ok := by
  have hn := any_next (W := W) (S := S) k
  cases k with
  | cls k => exact ⟨(ok_call h.classes k.cls k.whatfunc hk k.force).1, fun o x f ho hx => Nat.lt_of_lt_of_le (h.held o x f ho hx) hn⟩
  | obj p wf force =>
    show (whatableObject W S p wf force).2.Ok
    rcases whatableObject_cases (W := W) (S := S) p wf force with ⟨_, e⟩ | ⟨_, _, f, hf, e⟩ | ⟨_, _, _, e⟩ <;> rw [e]
    · exact ok_hold h p wf hk
    · refine ⟨⟨h.classes.own, fun g hg => ?_⟩, h.held⟩
      rcases (mark_iff f g).1 hg with rfl | hg
      · cases hf with
        | held _ _ e => exact h.held p _ _ e rfl
      · exact h.classes.marked g hg
    · exact h

/-- **C83**: at any time in a session a call without `whatfunc` makes a function that is new: no class has it, no object has it, and it is not marked. -/
theorem c83_new (h : S.Ok) (ks : List AnyCall) (hk : ∀ k ∈ ks, ∀ f, k.Told f → f < S.classes.next) :
    (∀ c, (whatableAll W S ks).classes.own c ≠ some (.func (whatableAll W S ks).classes.next)) ∧
    (∀ o x, (whatableAll W S ks).held o = some x → ¬ x.Uses (whatableAll W S ks).classes.next) ∧
    (whatableAll W S ks).classes.marked (whatableAll W S ks).classes.next = false := by
  have key : (whatableAll W S ks).Ok := by
    induction ks generalizing S with
    | nil => exact h
    | cons k ks ih => exact ih (ok_any h k (hk k (.head _))) fun k' hk' f hf => Nat.lt_of_lt_of_le (hk k' (.tail _ hk') f hf) (any_next k)
  refine ⟨fun c hc => Nat.lt_irrefl _ (key.classes.own c _ hc), fun o x ho hx => Nat.lt_irrefl _ (key.held o x _ ho hx), ?_⟩
  cases hm : (whatableAll W S ks).classes.marked (whatableAll W S ks).classes.next with
  | false => rfl
  | true => exact absurd (key.classes.marked _ hm) (Nat.lt_irrefl _)

/-! The classes of `exWorld`; object 0 is of class C, object 1 of class B; function 1 is one of the user's that gives no What. -/
def exObjWorld : ObjWorld := { classes := exWorld, cls := fun o => if o = 0 then 3 else 2, hasDict := fun _ => true, yields := fun f _ => 2 ≤ f }
def exObjects : Session := { classes := exSession, held := fun _ => none }

/-- Object 0 is accepted and whatable, then its class is decorated, which it does not notice; object 1 has a method from A and is refused, with force too. -/
example : (whatableObject exObjWorld exObjects 0 none false).1 = .ok () ∧
    isWhatableObj exObjWorld (whatableAll exObjWorld exObjects [.obj 0 none false, .cls ⟨3, none, false⟩]) 0 = true ∧
    lookupObj exObjWorld (whatableAll exObjWorld exObjects [.obj 0 none false, .cls ⟨3, none, false⟩]) 0 = some (.bound 2) ∧
    lookupObj exObjWorld (whatableAll exObjWorld exObjects [.cls ⟨3, none, false⟩]) 0 = some (.bound 2) ∧
    (whatableObject exObjWorld exObjects 1 none false).1 = .error .exception ∧
    (whatableObject exObjWorld exObjects 1 none true).1 = .error .attributeError := by decide
/-- With function 1 object 0 is accepted and then stuck. -/
example : (whatableObject exObjWorld exObjects 0 (some 1) false).1 = .ok () ∧
    (whatableObject exObjWorld exObjects 0 (some 1) false).2.held 0 = some (.bound 1) ∧
    (whatableObject exObjWorld (whatableObject exObjWorld exObjects 0 (some 1) false).2 0 none true).1 = .error .attributeError := by decide
/-- Using A's own method as whatfunc for object 0 makes the class A whatable. -/
example : isWhatableClass exWorld exSession 1 = false ∧
    isWhatableClass exWorld (whatableObject exObjWorld exObjects 0 (some 0) false).2.classes 1 = true := by decide
/-- The session begins with functions of the user's only; an object and a class get two functions. -/
example : exObjects.Ok := by
  refine ⟨⟨fun c f h => ?_, fun f h => ?_⟩, fun o x f h => by cases h⟩
  · simp only [exObjects, exSession] at h ⊢
    split at h
    · cases h; omega
    · cases h
  · simp [exObjects, exSession] at h
example : ((whatableAll exObjWorld exObjects [.obj 0 none false, .cls ⟨3, none, false⟩]).classes.next) = 4 := by decide
example : AllYield exObjWorld (whatableObject exObjWorld exObjects 0 none false).2 0 [.obj 0 none false, .cls ⟨3, none, false⟩] := by
  refine ⟨fun f hf => ?_, fun k hk => ?_⟩
  · have : 3 ≤ f := hf
    simp only [exObjWorld, decide_eq_true_eq]; omega
  · simp only [List.mem_cons, List.not_mem_nil, or_false] at hk
    rcases hk with rfl | rfl
    · exact ⟨fun c h => (by cases h), fun p wf force h f hf => (by cases h; cases hf)⟩
    · exact ⟨fun c h f hf => (by cases h; cases hf), fun p wf force h => (by cases h)⟩

end Whatami
