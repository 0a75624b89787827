import Verif.DecorateSome
import Verif.BasicLemmas

/-
C62: decorate_some.

Specification: `Decorators`, `Applied` (decorators applied one after the other), `NoIterators`.
-/
namespace Whatami

/-- Applying the decorators to `a`, the first one first, gives `b`. -/
inductive Applied {A : Type} : List (A → R A) → A → A → Prop where
  | nil (a : A) : Applied [] a a
  | cons {f : A → R A} {fs : List (A → R A)} {a b c : A} : f a = .ok b → Applied fs b c → Applied (f :: fs) a c

/-- The decorators given for an attribute, in the order they are to be applied: a single one, or those of a collection or iterator in its
order. -/
inductive Decorators {A : Type} : DecSpec A → List (A → R A) → Prop where
  | one (f : A → R A) : Decorators (.one f) [f]
  | many (fs : List (A → R A)) : Decorators (.many fs) fs
  | iter (fs : List (A → R A)) : Decorators (.iter fs) fs

theorem decorators_iff {A : Type} {s : DecSpec A} {fs : List (A → R A)} : Decorators s fs ↔ fs = s.funs := by
  constructor
  · rintro ⟨⟩ <;> rfl
  · rintro rfl
    cases s <;> constructor

theorem applied_iff {A : Type} {fs : List (A → R A)} {a b : A} : decorateAttr fs a = .ok b ↔ Applied fs a b := by
  induction fs generalizing a with
  | nil =>
    constructor
    · intro h; cases h; exact .nil _
    · rintro ⟨⟩; rfl
  | cons f fs ih =>
    simp only [decorateAttr]
    constructor
    · intro h
      cases hf : f a with
      | error e => simp [hf] at h
      | ok c =>
        simp only [hf] at h
        exact .cons hf (ih.1 h)
    · rintro (_ | ⟨hf, h⟩)
      simp only [hf]
      exact ih.2 h

/-- **C62**: a class has exactly the attributes of its body, in the same order: those that decorators were given for with all of these
applied, in the order they were given; the others as they are. -/
theorem c62_class {A : Type} {decs decs' : List (Str × DecSpec A)} (hd : (decs.map Prod.fst).Nodup) {body d : List (Str × A)}
    (h : newDecorate decs body = .ok (decs', d)) :
    d.map Prod.fst = body.map Prod.fst ∧
      ∀ k a, dget body k = some a → ∃ b, dget d k = some b ∧
        ((∃ s fs, (k, s) ∈ decs ∧ Decorators s fs ∧ Applied fs a b) ∨ (k ∉ decs.map Prod.fst ∧ b = a)) := by
  induction decs generalizing body d decs' with
  | nil =>
    cases h
    exact ⟨rfl, fun k a hk => ⟨a, hk, .inr ⟨by simp, rfl⟩⟩⟩
  | cons p rest ih =>
    obtain ⟨attr, s⟩ := p
    obtain ⟨hn, hd⟩ := List.nodup_cons.1 hd
    simp only [newDecorate] at h
    cases hg : dget body attr with
    | none =>
      simp only [hg] at h
      cases hr : newDecorate rest body with
      | error e => simp [hr] at h
      | ok q =>
        obtain ⟨rest', d'⟩ := q
        simp only [hr, Except.ok.injEq, Prod.mk.injEq] at h
        obtain ⟨-, rfl⟩ := h
        obtain ⟨h1, h2⟩ := ih hd hr
        refine ⟨h1, fun k a hk => ?_⟩
        obtain ⟨b, hb, hh⟩ := h2 k a hk
        refine ⟨b, hb, ?_⟩
        rcases hh with ⟨s', fs, hs, hfs, ha⟩ | ⟨hs, rfl⟩
        · exact .inl ⟨s', fs, .tail _ hs, hfs, ha⟩
        · refine .inr ⟨?_, rfl⟩
          simp only [List.map_cons, List.mem_cons, not_or]
          refine ⟨?_, hs⟩
          rintro rfl
          rw [hg] at hk
          cases hk
    | some a0 =>
      simp only [hg] at h
      cases ha0 : decorateAttr s.funs a0 with
      | error e => simp [ha0] at h
      | ok b0 =>
        simp only [ha0] at h
        cases hr : newDecorate rest (dset body attr b0) with
        | error e => simp [hr] at h
        | ok q =>
          obtain ⟨rest', d'⟩ := q
          simp only [hr, Except.ok.injEq, Prod.mk.injEq] at h
          obtain ⟨-, rfl⟩ := h
          obtain ⟨h1, h2⟩ := ih hd hr
          refine ⟨?_, fun k a hk => ?_⟩
          · rw [h1]
            have : ∀ l : List (Str × A), dget l attr = some a0 → (dset l attr b0).map Prod.fst = l.map Prod.fst := by
              intro l
              induction l with
              | nil => intro h; cases h
              | cons y l ihl =>
                intro h
                obtain ⟨k, v⟩ := y
                by_cases e : k = attr
                · subst e
                  simp [dset]
                · have h' : dget l attr = some a0 := by simpa [dget, e] using h
                  simp [dset, e, ihl h']
            exact this body hg
          · by_cases e : attr = k
            · subst e
              rw [hg] at hk
              cases hk
              obtain ⟨b, hb, hh⟩ := h2 attr b0 (by rw [dget_dset, if_pos rfl])
              refine ⟨b, hb, ?_⟩
              rcases hh with ⟨s', -, hs, -⟩ | ⟨-, rfl⟩
              · exact absurd (List.mem_map.2 ⟨_, hs, rfl⟩) hn
              · exact .inl ⟨s, _, .head _, decorators_iff.2 rfl, applied_iff.1 ha0⟩
            · obtain ⟨b, hb, hh⟩ := h2 k a (by rw [dget_dset, if_neg e]; exact hk)
              refine ⟨b, hb, ?_⟩
              rcases hh with ⟨s', fs, hs, hfs, ha⟩ | ⟨hs, rfl⟩
              · exact .inl ⟨s', fs, .tail _ hs, hfs, ha⟩
              · refine .inr ⟨?_, rfl⟩
                simp only [List.map_cons, List.mem_cons, not_or]
                exact ⟨fun h => e h.symm, hs⟩

theorem newDecorate_defined {A : Type} {decs : List (Str × DecSpec A)} (hd : (decs.map Prod.fst).Nodup) {body : List (Str × A)} :
    (∃ r, newDecorate decs body = .ok r) ↔ ∀ k a s, dget body k = some a → (k, s) ∈ decs → ∃ b, Applied s.funs a b := by
  induction decs generalizing body with
  | nil =>
    constructor
    · intros; simp_all
    · intro _; exact ⟨_, rfl⟩
  | cons p rest ih =>
    obtain ⟨attr, s⟩ := p
    obtain ⟨hn, hd⟩ := List.nodup_cons.1 hd
    simp only [newDecorate]
    cases hg : dget body attr with
    | none =>
      simp only
      have := ih hd (body := body)
      constructor
      · rintro ⟨r, h⟩ k a s' hk hs
        have hex : ∃ r, newDecorate rest body = .ok r := by
          cases hr : newDecorate rest body with
          | error e => simp [hr] at h
          | ok q => exact ⟨q, rfl⟩
        rcases List.mem_cons.1 hs with e | hs
        · cases e
          rw [hg] at hk
          cases hk
        · exact this.1 hex k a s' hk hs
      · intro h
        obtain ⟨q, hq⟩ := this.2 fun k a s' hk hs => h k a s' hk (.tail _ hs)
        exact ⟨_, by rw [hq]⟩
    | some a0 =>
      simp only
      constructor
      · rintro ⟨r, h⟩ k a s' hk hs
        cases ha0 : decorateAttr s.funs a0 with
        | error e => simp [ha0] at h
        | ok b0 =>
          simp only [ha0] at h
          have hex : ∃ r, newDecorate rest (dset body attr b0) = .ok r := by
            cases hr : newDecorate rest (dset body attr b0) with
            | error e => simp [hr] at h
            | ok q => exact ⟨q, rfl⟩
          rcases List.mem_cons.1 hs with e | hs
          · cases e
            rw [hg] at hk
            cases hk
            exact ⟨b0, applied_iff.1 ha0⟩
          · have hne : ¬ attr = k := by
              rintro rfl
              exact hn (List.mem_map.2 ⟨_, hs, rfl⟩)
            exact (ih hd).1 hex k a s' (by rw [dget_dset, if_neg hne]; exact hk) hs
      · intro h
        obtain ⟨b0, hb0⟩ := h attr a0 s hg (.head _)
        rw [applied_iff.2 hb0]
        simp only
        obtain ⟨q, hq⟩ := (ih hd (body := dset body attr b0)).2 fun k a s' hk hs => by
          have hne : ¬ attr = k := by
            rintro rfl
            exact hn (List.mem_map.2 ⟨_, hs, rfl⟩)
          rw [dget_dset, if_neg hne] at hk
          exact h k a s' hk (.tail _ hs)
        exact ⟨_, by rw [hq]⟩

/-- **C62**: creating the class fails exactly if a decorator does, on an attribute of the body. -/
theorem c62_defined {A : Type} {decs : List (Str × DecSpec A)} (hd : (decs.map Prod.fst).Nodup) {body : List (Str × A)} :
    (∃ r, newDecorate decs body = .ok r) ↔
      ∀ k a s fs, dget body k = some a → (k, s) ∈ decs → Decorators s fs → ∃ b, Applied fs a b := by
  rw [newDecorate_defined hd]
  constructor
  · intro h k a s fs hk hs hf
    obtain rfl := decorators_iff.1 hf
    exact h k a s hk hs
  · intro h k a s hk hs
    exact h k a s _ hk hs (decorators_iff.2 rfl)

/-- No iterators among the decorators. -/
def NoIterators {A : Type} (decs : List (Str × DecSpec A)) : Prop := ∀ k fs, (k, .iter fs) ∉ decs

theorem decs_kept {A : Type} {decs decs' : List (Str × DecSpec A)} (hi : NoIterators decs) {body d : List (Str × A)}
    (h : newDecorate decs body = .ok (decs', d)) : decs' = decs := by
  induction decs generalizing body d decs' with
  | nil => cases h; rfl
  | cons p rest ih =>
    obtain ⟨attr, s⟩ := p
    have hi' : NoIterators rest := fun k fs hm => hi k fs (.tail _ hm)
    have hs : s.used = s := by
      cases s with
      | iter fs => exact absurd (.head _) (hi attr fs)
      | one f => rfl
      | many fs => rfl
    simp only [newDecorate] at h
    cases hg : dget body attr with
    | none =>
      simp only [hg] at h
      cases hr : newDecorate rest body with
      | error e => simp [hr] at h
      | ok q =>
        obtain ⟨rest', d'⟩ := q
        simp only [hr, Except.ok.injEq, Prod.mk.injEq] at h
        rw [← h.1, ih hi' hr]
    | some a0 =>
      simp only [hg] at h
      cases ha0 : decorateAttr s.funs a0 with
      | error e => simp [ha0] at h
      | ok b0 =>
        simp only [ha0] at h
        cases hr : newDecorate rest (dset body attr b0) with
        | error e => simp [hr] at h
        | ok q =>
          obtain ⟨rest', d'⟩ := q
          simp only [hr, Except.ok.injEq, Prod.mk.injEq] at h
          rw [← h.1, ih hi' hr, hs]

/-- C62: every class of a hierarchy is decorated by itself: its namespace depends on its own body only, whatever classes were created
before (so overrides are decorated too, and an attribute that is merely inherited is not decorated again). -/
theorem c62_hierarchy {A : Type} {decs : List (Str × DecSpec A)} (hi : NoIterators decs) {bodies ds : List (List (Str × A))}
    (h : createAll decs bodies = .ok ds) :
    ds.length = bodies.length ∧ ∀ (i : Nat) (body d : List (Str × A)), bodies[i]? = some body → ds[i]? = some d → ∃ decs', newDecorate decs body = .ok (decs', d) := by
  induction bodies generalizing ds with
  | nil => cases h; simp
  | cons body bodies ih =>
    simp only [createAll] at h
    cases hn : newDecorate decs body with
    | error e => simp [hn] at h
    | ok q =>
      obtain ⟨decs', d⟩ := q
      have := decs_kept hi hn
      subst this
      simp only [hn] at h
      cases hc : createAll decs' bodies with
      | error e => simp [hc] at h
      | ok ds' =>
        simp only [hc, Except.ok.injEq] at h
        subst h
        obtain ⟨h1, h2⟩ := ih hc
        refine ⟨by simp [h1], fun i b d0 hb hd => ?_⟩
        cases i with
        | zero =>
          simp only [List.getElem?_cons_zero, Option.some.injEq] at hb hd
          subst hb hd
          exact ⟨_, hn⟩
        | succ i => exact h2 i b d0 (by simpa using hb) (by simpa using hd)

/-! Attributes are texts; the decorators mark them. -/
def exMark (m : Char) : Str → R Str := fun s => .ok (m :: s)
def exDecs : List (Str × DecSpec Str) := [(c!"foo", .one (exMark '1')), (c!"bar", .many [exMark '1', exMark '2'])]
def exBodies : List (List (Str × Str)) := [[(c!"bar", c!"b"), (c!"foo", c!"f"), (c!"baz", c!"z")], [(c!"foo", c!"g")], []]
example : createAll exDecs exBodies = .ok [[(c!"bar", c!"21b"), (c!"foo", c!"1f"), (c!"baz", c!"z")], [(c!"foo", c!"1g")], []] := by decide
example : NoIterators exDecs ∧ (exDecs.map Prod.fst).Nodup := ⟨by simp [NoIterators, exDecs], by decide⟩

/-- Without that hypothesis it fails: decorators given as a generator are used up by the first class. -/
theorem c62_iterator : ∃ (decs : List (Str × DecSpec Str)) (bodies : List (List (Str × Str))),
    createAll decs bodies = .ok [[(c!"foo", c!"1f")], [(c!"foo", c!"g")]] ∧ bodies = [[(c!"foo", c!"f")], [(c!"foo", c!"g")]] :=
  ⟨[(c!"foo", .iter [exMark '1'])], _, by decide, rfl⟩

end Whatami
