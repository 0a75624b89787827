import Verif.ClassGraph
import Verif.BasicLemmas

/-
C57: all_subclasses.  C58: whatamize_object and whatamize_sklearn.

Specification: `DirectSub`, `Descends`, `IsPath` (inheritance), `Precedes` (method resolution order).
-/
namespace Whatami

/-- `j` has `i` among its bases. -/
def DirectSub (g : Bases) (i j : Nat) : Prop := ∃ bases, g[j]? = some bases ∧ i ∈ bases

/-- `j` is a class below `i`. -/
inductive Descends (g : Bases) : Nat → Nat → Prop where
  | direct {i j : Nat} : DirectSub g i j → Descends g i j
  | step {i j k : Nat} : DirectSub g i j → Descends g j k → Descends g i k

/-- A way down from class `i`: every class is a base of the next one. -/
inductive IsPath (g : Bases) : Nat → List Nat → Prop where
  | one {i j : Nat} : DirectSub g i j → IsPath g i [j]
  | more {i j : Nat} {p : List Nat} : DirectSub g i j → IsPath g j p → IsPath g i (j :: p)

/-- Bases are defined before the classes that inherit from them. -/
def Defined (g : Bases) : Prop := ∀ i j, DirectSub g i j → i < j

theorem mem_directSubs {g : Bases} {i j : Nat} : j ∈ directSubs g i ↔ DirectSub g i j := by
  simp only [directSubs, List.mem_filter, List.mem_range, List.contains_iff_mem, DirectSub, List.getD_eq_getElem?_getD]
  constructor
  · rintro ⟨h1, h2⟩
    refine ⟨g[j], by simp [h1], ?_⟩
    simpa [h1] using h2
  · rintro ⟨b, h1, h2⟩
    obtain ⟨h, rfl⟩ := List.getElem?_eq_some_iff.1 h1
    exact ⟨h, by simpa [h] using h2⟩

theorem nodup_directSubs (g : Bases) (i : Nat) : (directSubs g i).Nodup := List.Pairwise.filter _ List.nodup_range

theorem below_paths {g : Bases} {n : Nat}
    (ih : ∀ i l, allSubs g n i = .ok l → ∃ L : List (List Nat), L.Nodup ∧ (∀ p, p ∈ L ↔ IsPath g i p) ∧ l.map some = L.map List.getLast?)
    (S : List Nat) (hS : S.Nodup) (below : List (List Nat)) (h : mapR (allSubs g n) S = .ok below) :
    ∃ L : List (List Nat), L.Nodup ∧ (∀ p, p ∈ L ↔ ∃ s ∈ S, ∃ q, p = s :: q ∧ IsPath g s q) ∧ below.flatten.map some = L.map List.getLast? := by
  induction S generalizing below with
  | nil =>
    cases h
    exact ⟨[], List.nodup_nil, by simp, rfl⟩
  | cons s S ihS =>
    simp only [mapR] at h
    cases h1 : allSubs g n s with
    | error e => simp [h1] at h
    | ok l =>
      cases h2 : mapR (allSubs g n) S with
      | error e => simp [h1, h2] at h
      | ok b =>
        simp only [h1, h2, Except.ok.injEq] at h
        subst h
        obtain ⟨hs, hS⟩ := List.nodup_cons.1 hS
        obtain ⟨L1, a1, a2, a3⟩ := ih s l h1
        obtain ⟨L2, b1, b2, b3⟩ := ihS hS b h2
        refine ⟨L1.map (s :: ·) ++ L2, ?_, ?_, ?_⟩
        · refine List.nodup_append.2 ⟨?_, b1, ?_⟩
          · exact List.Pairwise.map _ (fun x y hxy e => hxy (List.cons.inj e).2) a1
          · rintro x hx y hy rfl
            obtain ⟨q, _, rfl⟩ := List.mem_map.1 hx
            obtain ⟨t, ht, q', e, _⟩ := (b2 _).1 hy
            exact hs ((List.cons.inj e).1 ▸ ht)
        · intro p
          simp only [List.mem_append, List.mem_map, b2, List.mem_cons, exists_eq_or_imp, a2]
          constructor
          · rintro (⟨q, hq, rfl⟩ | h)
            · exact .inl ⟨q, rfl, hq⟩
            · exact .inr h
          · rintro (⟨q, rfl, hq⟩ | h)
            · exact .inl ⟨q, hq, rfl⟩
            · exact .inr h
        · rw [List.flatten_cons, List.map_append, List.map_append, b3, a3, List.map_map]
          congr 1
          refine List.map_congr_left fun q hq => ?_
          cases q with
          | nil => exact absurd ((a2 _).1 hq) (by rintro ⟨⟩)
          | cons x q => simp

/-- **C57**: `all_subclasses(cls)` has one entry for every way down from `cls`: the class it ends in. -/
theorem c57_paths {g : Bases} {n i : Nat} {l : List Nat} (h : allSubs g n i = .ok l) :
    ∃ L : List (List Nat), L.Nodup ∧ (∀ p, p ∈ L ↔ IsPath g i p) ∧ l.map some = L.map List.getLast? := by
  induction n generalizing i l with
  | zero => cases h
  | succ n ih =>
    simp only [allSubs] at h
    cases hm : mapR (allSubs g n) (directSubs g i) with
    | error e => simp [hm] at h
    | ok below =>
      simp only [hm, Except.ok.injEq] at h
      subst h
      obtain ⟨L, a1, a2, a3⟩ := below_paths (fun i l => ih (i := i) (l := l)) _ (nodup_directSubs g i) below hm
      refine ⟨(directSubs g i).map ([·]) ++ L, ?_, ?_, ?_⟩
      · refine List.nodup_append.2 ⟨?_, a1, ?_⟩
        · exact List.Pairwise.map _ (fun x y hxy e => hxy (List.cons.inj e).1) (nodup_directSubs g i)
        · rintro x hx y hy rfl
          obtain ⟨j, _, rfl⟩ := List.mem_map.1 hx
          obtain ⟨t, _, q', e, hq⟩ := (a2 _).1 hy
          rw [← (List.cons.inj e).2] at hq
          cases hq
      · intro p
        simp only [List.mem_append, List.mem_map, a2, mem_directSubs]
        constructor
        · rintro (⟨j, hj, rfl⟩ | ⟨s, hs, q, rfl, hq⟩)
          · exact .one hj
          · exact .more hs hq
        · rintro (h | ⟨hj, hp⟩)
          · exact .inl ⟨_, h, rfl⟩
          · exact .inr ⟨_, hj, _, rfl, hp⟩
      · simp [a3, List.map_map, Function.comp_def]

theorem path_descends {g : Bases} {i j : Nat} : (∃ p, IsPath g i p ∧ p.getLast? = some j) ↔ Descends g i j := by
  constructor
  · rintro ⟨p, h, hl⟩
    induction h with
    | one h =>
      cases hl
      exact .direct h
    | more h hp ih =>
      refine .step h (ih ?_)
      rename_i p
      cases p with
      | nil => cases hp
      | cons x p => simpa using hl
  · intro h
    induction h with
    | direct h => exact ⟨_, .one h, rfl⟩
    | step h _ ih =>
      obtain ⟨p, hp, hl⟩ := ih
      refine ⟨_, .more h hp, ?_⟩
      cases p with
      | nil => cases hp
      | cons x p => simpa using hl

/-- C57: the classes in it are those below `cls` (not `cls` itself, if bases are defined first: `c57_strict`). -/
theorem c57_subclasses {g : Bases} {n i : Nat} {l : List Nat} (h : allSubs g n i = .ok l) (j : Nat) : j ∈ l ↔ Descends g i j := by
  obtain ⟨L, -, h2, h3⟩ := c57_paths h
  rw [← path_descends]
  have : j ∈ l ↔ some j ∈ l.map some := by simp
  rw [this, h3, List.mem_map]
  constructor
  · rintro ⟨p, hp, hl⟩
    exact ⟨p, (h2 p).1 hp, hl⟩
  · rintro ⟨p, hp, hl⟩
    exact ⟨p, (h2 p).2 hp, hl⟩

theorem nodup_map_iff {α β : Type} {f : α → β} {l : List α} (hl : l.Nodup) : (l.map f).Nodup ↔ ∀ x ∈ l, ∀ y ∈ l, f x = f y → x = y := by
  induction l with
  | nil => simp
  | cons a l ih =>
    obtain ⟨ha, hl⟩ := List.nodup_cons.1 hl
    rw [List.map_cons, List.nodup_cons, ih hl]
    constructor
    · rintro ⟨h1, h2⟩ x hx y hy e
      rcases List.mem_cons.1 hx with rfl | hx <;> rcases List.mem_cons.1 hy with rfl | hy
      · rfl
      · exact absurd (List.mem_map.2 ⟨y, hy, e.symm⟩) h1
      · exact absurd (List.mem_map.2 ⟨x, by assumption, e⟩) h1
      · exact h2 x hx y hy e
    · intro h
      refine ⟨?_, fun x hx y hy => h x (.tail _ hx) y (.tail _ hy)⟩
      intro hm
      obtain ⟨x, hx, e⟩ := List.mem_map.1 hm
      exact ha (h x (.tail _ hx) a (.head _) e ▸ hx)

/-- C57: it has duplicates exactly if some class below can be reached in two ways. -/
theorem c57_nodup {g : Bases} {n i : Nat} {l : List Nat} (h : allSubs g n i = .ok l) :
    l.Nodup ↔ ∀ p q, IsPath g i p → IsPath g i q → p.getLast? = q.getLast? → p = q := by
  obtain ⟨L, h1, h2, h3⟩ := c57_paths h
  have : l.Nodup ↔ (l.map some).Nodup := by
    rw [List.Nodup, List.Nodup, List.pairwise_map]
    simp
  rw [this, h3, nodup_map_iff h1]
  constructor
  · intro h p q hp hq
    exact h p ((h2 p).2 hp) q ((h2 q).2 hq)
  · intro h p hp q hq
    exact h p q ((h2 p).1 hp) ((h2 q).1 hq)

theorem descends_lt {g : Bases} (hg : Defined g) {i j : Nat} (h : Descends g i j) : i < j := by
  induction h with
  | direct h => exact hg _ _ h
  | step h _ ih => exact Nat.lt_trans (hg _ _ h) ih

/-- C57: no class is among its own subclasses. -/
theorem c57_strict {g : Bases} (hg : Defined g) {n i : Nat} {l : List Nat} (h : allSubs g n i = .ok l) : i ∉ l :=
  fun hi => Nat.lt_irrefl i (descends_lt hg ((c57_subclasses h i).1 hi))

/-- C57: it never fails (with enough stack for the longest way down). -/
theorem c57_defined {g : Bases} (hg : Defined g) {n i : Nat} (hn : g.length - i < n) : ∃ l, allSubs g n i = .ok l := by
  induction n generalizing i with
  | zero => omega
  | succ n ih =>
    have : ∃ below, mapR (allSubs g n) (directSubs g i) = .ok below := mapR_ok_iff.2 fun j hj => by
      have hd := mem_directSubs.1 hj
      have hlt := hg _ _ hd
      obtain ⟨b, hb, -⟩ := hd
      have := (List.getElem?_eq_some_iff.1 hb).1
      exact ih (by omega)
    obtain ⟨below, hb⟩ := this
    exact ⟨directSubs g i ++ below.flatten, by simp only [allSubs, hb]⟩

/-! `object`, A(object), B(A), C(A), D(B, C): D is listed twice among the subclasses of A. -/
def exBases : Bases := [[], [0], [1], [1], [2, 3]]
example : allSubs exBases 6 1 = .ok [2, 3, 4, 4] ∧ allSubs exBases 6 2 = .ok [4] ∧ allSubs exBases 6 4 = .ok [] := by decide
example : Defined exBases := by
  rintro i j ⟨b, hb, hi⟩
  match j, hb with
  | 0, hb | 1, hb | 2, hb | 3, hb | 4, hb => cases hb; revert hi; simp <;> omega
  | j + 5, hb => simp [exBases] at hb
example : Descends exBases 1 4 := .step ⟨[1], rfl, .head _⟩ (.direct ⟨[2, 3], rfl, .head _⟩)

/-! ### whatamize_object -/

/-- What is known of method resolution orders: a class comes first in its own, and classes have what their bases have in theirs. -/
structure Resolved (mro : Nat → List Nat) : Prop where
  first : ∀ c, ∃ rest, mro c = c :: rest
  trans : ∀ k c d, c ∈ mro k → d ∈ mro c → d ∈ mro k

/-- `k` has, or inherits, an attribute `what`. -/
def HasWhat {F : Type} (mro : Nat → List Nat) (own : WhatAttrs F) (k : Nat) : Prop := ∃ d ∈ mro k, ∃ f, own d = some f

/-- The attribute `what` of class `k` is `f`: the first class in its method resolution order with such an attribute has `f`. -/
def WhatIs {F : Type} (mro : Nat → List Nat) (own : WhatAttrs F) (k : Nat) (f : F) : Prop :=
  ∃ before d after, mro k = before ++ d :: after ∧ (∀ e ∈ before, own e = none) ∧ own d = some f

theorem lookup_iff {F : Type} {mro : Nat → List Nat} {own : WhatAttrs F} {k : Nat} {f : F} : lookupWhat mro own k = some f ↔ WhatIs mro own k f := by
  unfold lookupWhat WhatIs
  rw [List.findSome?_eq_some_iff]
  constructor
  · rintro ⟨a, b, c, h1, h2, h3⟩
    exact ⟨a, b, c, h1, h3, h2⟩
  · rintro ⟨a, b, c, h1, h2, h3⟩
    exact ⟨a, b, c, h1, h3, h2⟩

theorem hasWhat_iff {F : Type} {mro : Nat → List Nat} {own : WhatAttrs F} {k : Nat} : HasWhat mro own k ↔ ∃ f, WhatIs mro own k f := by
  constructor
  · rintro ⟨d, hd, f, hf⟩
    cases hl : lookupWhat mro own k with
    | none =>
      unfold lookupWhat at hl
      rw [List.findSome?_eq_none_iff] at hl
      rw [hl d hd] at hf
      cases hf
    | some f' => exact ⟨f', lookup_iff.1 hl⟩
  · rintro ⟨f, b, d, a, h, -, hd⟩
    exact ⟨d, by simp [h], f, hd⟩

theorem isNone_iff {F : Type} {mro : Nat → List Nat} {own : WhatAttrs F} {k : Nat} : (lookupWhat mro own k).isNone = true ↔ ¬ HasWhat mro own k := by
  rw [hasWhat_iff, Option.isNone_iff_eq_none]
  cases hl : lookupWhat mro own k with
  | none =>
    simp only [not_exists, true_iff]
    intro f hf
    rw [lookup_iff.2 hf] at hl
    cases hl
  | some f =>
    simp only [reduceCtorEq, false_iff, Classical.not_not]
    exact ⟨f, lookup_iff.1 hl⟩

/-- **C58**: without `force`, a class that has or inherits a `what` is left alone, and so is every other class. -/
theorem c58_kept {F : Type} {mro : Nat → List Nat} {own : WhatAttrs F} {c : Nat} (f : F) (fail : Bool) (h : HasWhat mro own c) :
    whatamizeObject mro own (.ok c) f fail false = .ok own := by
  have : ¬ (lookupWhat mro own c).isNone = true := by rw [isNone_iff]; exact fun hn => hn h
  simp [whatamizeObject, this]

/-- The class that `what` is assigned in, and what becomes of the attribute of any class. -/
theorem assign_lookup {F : Type} {mro : Nat → List Nat} {own : WhatAttrs F} {c : Nat} {f : F} (k : Nat) :
    (c ∉ mro k → ∀ f', WhatIs mro (assignWhat own c f) k f' ↔ WhatIs mro own k f') ∧
    (c ∈ mro k → ¬ HasWhat mro own k → WhatIs mro (assignWhat own c f) k f) := by
  constructor
  · intro hc f'
    rw [← lookup_iff, ← lookup_iff]
    have : lookupWhat mro (assignWhat own c f) k = lookupWhat mro own k := by
      unfold lookupWhat
      have : ∀ l : List Nat, c ∉ l → l.findSome? (assignWhat own c f) = l.findSome? own := by
        intro l
        induction l with
        | nil => intro _; rfl
        | cons a l ih =>
          intro h
          have ha : a ≠ c := fun e => h (e ▸ .head _)
          simp only [List.findSome?_cons, assignWhat, if_neg ha]
          cases own a with
          | none => exact ih fun hm => h (.tail _ hm)
          | some x => rfl
      exact this _ hc
    rw [this]
  · intro hc hn
    obtain ⟨b, a, hba, hb⟩ : ∃ b a, mro k = b ++ c :: a ∧ c ∉ b := List.eq_append_cons_of_mem hc
    refine ⟨b, c, a, hba, fun e he => ?_, by simp [assignWhat]⟩
    have hec : e ≠ c := fun h => hb (h ▸ he)
    simp only [assignWhat, if_neg hec]
    cases ho : own e with
    | none => rfl
    | some x => exact absurd ⟨e, by simp [hba, he], x, ho⟩ hn

/-- C58: otherwise the class, and every class below it without a `what`, gets the given one; classes that do not have it in their
method resolution order keep what they had or had not; nothing a class defines itself is lost. -/
theorem c58_given {F : Type} {mro : Nat → List Nat} (hm : Resolved mro) {own : WhatAttrs F} {c : Nat} (f : F) (fail : Bool) (h : ¬ HasWhat mro own c) :
    ∃ own', whatamizeObject mro own (.ok c) f fail false = .ok own' ∧
      (∀ k, c ∈ mro k → ¬ HasWhat mro own k → WhatIs mro own' k f) ∧
      (∀ k, c ∉ mro k → ∀ f', WhatIs mro own' k f' ↔ WhatIs mro own k f') ∧
      (∀ d f', own d = some f' → own' d = some f') := by
  refine ⟨assignWhat own c f, ?_, fun k => (assign_lookup k).2, fun k => (assign_lookup k).1, fun d f' hd => ?_⟩
  · simp [whatamizeObject, isNone_iff.2 h]
  · unfold assignWhat
    split
    · rename_i e
      obtain ⟨r, hr⟩ := hm.first c
      exact absurd ⟨c, by simp [hr], f', e ▸ hd⟩ h
    · exact hd

/-- C58: with `force` the class itself gets it in any case. -/
theorem c58_forced {F : Type} {mro : Nat → List Nat} (hm : Resolved mro) (own : WhatAttrs F) (c : Nat) (f : F) (fail : Bool) :
    ∃ own', whatamizeObject mro own (.ok c) f fail true = .ok own' ∧ WhatIs mro own' c f ∧ ∀ d, d ≠ c → own' d = own d := by
  refine ⟨assignWhat own c f, by simp [whatamizeObject], ?_, fun d hd => by simp [assignWhat, hd]⟩
  obtain ⟨r, hr⟩ := hm.first c
  exact ⟨[], c, r, hr, by simp, by simp [assignWhat]⟩

/-- C58: a class whose module cannot be imported is skipped exactly if that was asked for; any other failure raises. -/
theorem c58_import {F : Type} (mro : Nat → List Nat) (own : WhatAttrs F) (e : Err) (f : F) (fail force : Bool) :
    whatamizeObject mro own (.error e) f fail force = if e = .importError ∧ fail = false then .ok own else .error e := by
  cases e <;> cases fail <;> rfl

/-- What whatamizing a list of classes comes to. -/
structure AllDone {F : Type} (mro : Nat → List Nat) (f : F) (own own' : WhatAttrs F) (cs : List (R Nat)) : Prop where
  kept : ∀ d x, own d = some x → own' d = some x
  new : ∀ d x, own' d = some x → own d = some x ∨ x = f ∧ .ok d ∈ cs
  has : ∀ c, .ok c ∈ cs → HasWhat mro own' c

theorem all_done {F : Type} {mro : Nat → List Nat} (hm : Resolved mro) (f : F) {own own' : WhatAttrs F} {cs : List (R Nat)}
    (h : whatamizeAll mro f own cs = .ok own') : AllDone mro f own own' cs := by
  induction cs generalizing own with
  | nil =>
    cases h
    exact ⟨fun _ _ h => h, fun _ _ h => .inl h, fun c hc => by cases hc⟩
  | cons c cs ih =>
    simp only [whatamizeAll] at h
    cases hw : whatamizeObject mro own c f false false with
    | error e => simp [hw] at h
    | ok own1 =>
      simp only [hw] at h
      have hd := ih h
      have step : (∀ d x, own d = some x → own1 d = some x) ∧ (∀ d x, own1 d = some x → own d = some x ∨ x = f ∧ .ok d ∈ c :: cs) ∧
          ∀ k, c = .ok k → HasWhat mro own1 k := by
        cases c with
        | error e =>
          rw [c58_import] at hw
          split at hw
          · cases hw
            exact ⟨fun _ _ h => h, fun _ _ h => .inl h, fun k hk => by cases hk⟩
          · cases hw
        | ok k =>
          by_cases hk : HasWhat mro own k
          · rw [c58_kept f false hk] at hw
            cases hw
            exact ⟨fun _ _ h => h, fun _ _ h => .inl h, fun j hj => by cases hj; exact hk⟩
          · obtain ⟨own2, h1, h2, -, h4⟩ := c58_given hm f false hk
            rw [hw] at h1
            cases h1
            have h5 : own1 = assignWhat own k f := by
              simp only [whatamizeObject, isNone_iff.2 hk, Bool.true_or, if_true, Except.ok.injEq] at hw
              exact hw.symm
            refine ⟨h4, fun d x hd => ?_, fun j hj => ?_⟩
            · rw [h5, assignWhat] at hd
              split at hd
              · rename_i e
                cases hd
                exact .inr ⟨rfl, e ▸ .head _⟩
              · exact .inl hd
            · cases hj
              obtain ⟨r, hr⟩ := hm.first k
              exact hasWhat_iff.2 ⟨f, h2 k (by simp [hr]) hk⟩
      refine ⟨fun d x hx => hd.kept d x (step.1 d x hx), fun d x hx => ?_, fun k hk => ?_⟩
      · rcases hd.new d x hx with h | ⟨h1, h2⟩
        · exact step.2.1 d x h
        · exact .inr ⟨h1, .tail _ h2⟩
      · rcases List.mem_cons.1 hk with e | hk
        · obtain ⟨d, h1, x, h2⟩ := step.2.2 k e.symm
          exact ⟨d, h1, x, hd.kept d x h2⟩
        · exact hd.has k hk

/-- C58: after `whatamize_sklearn`, every class with one of the (importable) base classes among its ancestors has a `what`, namely
the given one if it had none; whoever defines its own keeps it; classes unrelated to all of these see no change. -/
theorem c58_all {F : Type} {mro : Nat → List Nat} (hm : Resolved mro) (f : F) {own own' : WhatAttrs F} {cs : List (R Nat)}
    (h : whatamizeAll mro f own cs = .ok own') :
    (∀ k c, .ok c ∈ cs → c ∈ mro k → HasWhat mro own' k ∧ (¬ HasWhat mro own k → WhatIs mro own' k f)) ∧
    (∀ d x, own d = some x → own' d = some x) ∧
    (∀ k, (∀ c, .ok c ∈ cs → c ∉ mro k) → ∀ x, WhatIs mro own' k x ↔ WhatIs mro own k x) := by
  have hd := all_done hm f h
  refine ⟨fun k c hc hk => ?_, hd.kept, fun k hk x => ?_⟩
  · have hh : HasWhat mro own' k := by
      obtain ⟨d, h1, x, h2⟩ := hd.has c hc
      exact ⟨d, hm.trans k c d hk h1, x, h2⟩
    refine ⟨hh, fun hn => ?_⟩
    obtain ⟨x, b, d, a, h1, h2, h3⟩ := hasWhat_iff.1 hh
    have : x = f := by
      rcases hd.new d x h3 with h | h
      · exact absurd ⟨d, by simp [h1], x, h⟩ hn
      · exact h.1
    exact this ▸ ⟨b, d, a, h1, h2, h3⟩
  · have key : ∀ d ∈ mro k, own' d = own d := by
      intro d hdk
      cases ho : own d with
      | some y => exact hd.kept d y ho
      | none =>
        cases ho' : own' d with
        | none => rfl
        | some y =>
          rcases hd.new d y ho' with h | h
          · rw [ho] at h; cases h
          · exact absurd hdk (hk d h.2)
    constructor
    · rintro ⟨b, d, a, h1, h2, h3⟩
      exact ⟨b, d, a, h1, fun e he => by rw [← key e (by simp [h1, he])]; exact h2 e he, by rw [← key d (by simp [h1])]; exact h3⟩
    · rintro ⟨b, d, a, h1, h2, h3⟩
      exact ⟨b, d, a, h1, fun e he => by rw [key e (by simp [h1, he])]; exact h2 e he, by rw [key d (by simp [h1])]; exact h3⟩

/-- C58: doing it again changes nothing. -/
theorem c58_again {F : Type} {mro : Nat → List Nat} (hm : Resolved mro) (f g : F) {own own' : WhatAttrs F} {cs : List (R Nat)}
    (h : whatamizeAll mro f own cs = .ok own') : whatamizeAll mro g own' cs = .ok own' := by
  have hd := all_done hm f h
  have herr : ∀ e, .error e ∈ cs → e = .importError := by
    clear hd
    intro e he
    induction cs generalizing own with
    | nil => cases he
    | cons c cs ih =>
      simp only [whatamizeAll] at h
      cases hw : whatamizeObject mro own c f false false with
      | error e => simp [hw] at h
      | ok own1 =>
        simp only [hw] at h
        rcases List.mem_cons.1 he with rfl | he
        · rw [c58_import] at hw
          split at hw
          · rename_i hx; exact hx.1
          · cases hw
        · exact ih h he
  have key : ∀ l : List (R Nat), (∀ c, .ok c ∈ l → HasWhat mro own' c) → (∀ e, .error e ∈ l → e = .importError) → whatamizeAll mro g own' l = .ok own' := by
    intro l
    induction l with
    | nil => intros; rfl
    | cons c l ih =>
      intro h1 h2
      have : whatamizeObject mro own' c g false false = .ok own' := by
        cases c with
        | error e => rw [c58_import, if_pos ⟨h2 e (.head _), rfl⟩]
        | ok c => exact c58_kept g false (h1 c (.head _))
      simp only [whatamizeAll, this]
      exact ih (fun c hc => h1 c (.tail _ hc)) (fun e he => h2 e (.tail _ he))
  exact key cs hd.has herr

/-! BaseEstimator (0), Kernel (1), a mixin with its own `what` (2), an estimator (3), one with the mixin first (4) and one with it
last (5), and another class (6). -/
def exMro : Nat → List Nat
  | 3 => [3, 0]
  | 4 => [4, 2, 0]
  | 5 => [5, 0, 2]
  | c => [c]
def exOwn : WhatAttrs Str := fun c => if c = 2 then some c!"own" else none
theorem exMro_resolved : Resolved exMro := by
  refine ⟨fun c => ?_, fun k c d => ?_⟩
  · match c with
    | 0 | 1 | 2 | 3 | 4 | 5 => exact ⟨_, rfl⟩
    | c + 6 => exact ⟨[], rfl⟩
  · match k with
    | 0 | 1 | 2 | 3 | 4 | 5 => simp only [exMro, List.mem_cons, List.not_mem_nil, or_false]; rintro h; rcases h with rfl | rfl | rfl <;> simp [exMro] <;> omega
    | k + 6 => simp only [exMro, List.mem_singleton]; rintro rfl h; simpa using h
/-- 4 keeps the method of its mixin; 5 had that too, but now finds the one of its other base first. -/
example : (whatamizeAll exMro c!"skl" exOwn [.ok 0, .error .importError, .ok 1]).toOption.map (fun own => [0, 1, 2, 3, 4, 5, 6].map (lookupWhat exMro own))
    = some [some c!"skl", some c!"skl", some c!"own", some c!"skl", some c!"own", some c!"skl", none] := by decide

end Whatami
