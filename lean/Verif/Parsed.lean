import Verif.Decode
import Verif.OpsLemmas

/-
What the parser returns is plain data; `==` on plain data.
Definitions here are vocabulary for statements and proofs: the code they are about is cited in the model modules.
-/
namespace Whatami

mutual
/-- Plain data: None, booleans, numbers, strings, classes, and tuples, lists, sets, dicts and Whats of plain data, set elements and
dict keys being hashable. -/
def PlainV : Val → Prop
  | .none | .bool _ | .int _ | .float _ | .str _ | .cls _ | .numtype _ => True
  | .tuple xs | .list xs => PlainL xs
  | .set xs => ∀ x ∈ xs, isKey x = true
  | .dict kvs => PlainD kvs
  | .what _ c nk _ => nk = [] ∧ UniqueKeys c ∧ PlainA c
  | _ => False
termination_by structural v => v
/-- All elements are. -/
def PlainL : List Val → Prop
  | [] => True
  | x :: xs => PlainV x ∧ PlainL xs
termination_by structural xs => xs
/-- All keys are hashable, all values plain. -/
def PlainD : List (Val × Val) → Prop
  | [] => True
  | (k, v) :: xs => isKey k = true ∧ PlainV v ∧ PlainD xs
termination_by structural xs => xs
/-- All values are. -/
def PlainA : List (Str × Val) → Prop
  | [] => True
  | (_, v) :: xs => PlainV v ∧ PlainA xs
termination_by structural xs => xs
end

theorem plainL_iff {xs : List Val} : PlainL xs ↔ ∀ x ∈ xs, PlainV x := by
  induction xs with
  | nil => simp [PlainL]
  | cons x xs ih => simp [PlainL, ih]

theorem plainD_iff {xs : List (Val × Val)} : PlainD xs ↔ ∀ k v, (k, v) ∈ xs → isKey k = true ∧ PlainV v := by
  induction xs with
  | nil => simp [PlainD]
  | cons x xs ih =>
    obtain ⟨k, v⟩ := x
    simp only [PlainD, ih, List.mem_cons, Prod.mk.injEq]
    constructor
    · rintro ⟨h1, h2, h3⟩ a b (⟨rfl, rfl⟩ | hm)
      · exact ⟨h1, h2⟩
      · exact h3 a b hm
    · intro h
      exact ⟨(h k v (.inl ⟨rfl, rfl⟩)).1, (h k v (.inl ⟨rfl, rfl⟩)).2, fun a b hm => h a b (.inr hm)⟩

theorem plainA_iff {xs : List (Str × Val)} : PlainA xs ↔ ∀ k v, (k, v) ∈ xs → PlainV v := by
  induction xs with
  | nil => simp [PlainA]
  | cons x xs ih =>
    obtain ⟨k, v⟩ := x
    simp only [PlainA, ih, List.mem_cons, Prod.mk.injEq]
    constructor
    · rintro ⟨h2, h3⟩ a b (⟨rfl, rfl⟩ | hm)
      · exact h2
      · exact h3 a b hm
    · intro h
      exact ⟨h k v (.inl ⟨rfl, rfl⟩), fun a b hm => h a b (.inr hm)⟩

mutual
theorem isKey_of_plain : ∀ v : Val, PlainV v → hashable v = true → isKey v = true
  | .none, _, _ => rfl
  | .bool _, _, _ => rfl
  | .int _, _, _ => rfl
  | .float _, _, _ => rfl
  | .str _, _, _ => rfl
  | .cls _, _, _ => rfl
  | .numtype _, _, _ => rfl
  | .tuple xs, h, hh => by
    simp only [PlainV] at h
    simp only [hashable] at hh
    simp only [isKey]
    exact isKeyL_of_plain xs h hh
  | .list _, _, hh => by simp [hashable] at hh
  | .set _, _, hh => by simp [hashable] at hh
  | .dict _, _, hh => by simp [hashable] at hh
  | .what _ _ _ _, _, hh => by simp [hashable] at hh
termination_by structural v => v
theorem isKeyL_of_plain : ∀ xs : List Val, PlainL xs → hashableL xs = true → isKeyL xs = true
  | [], _, _ => rfl
  | x :: xs, h, hh => by
    simp only [PlainL] at h
    simp only [hashableL, Bool.and_eq_true] at hh
    simp only [isKeyL, isKey_of_plain x h.1 hh.1, isKeyL_of_plain xs h.2 hh.2, Bool.and_self]
termination_by structural xs => xs
end

mutual
theorem plain_of_isKey : ∀ v : Val, isKey v = true → PlainV v
  | .none, _ => trivial
  | .bool _, _ => trivial
  | .int _, _ => trivial
  | .float _, _ => trivial
  | .str _, _ => trivial
  | .cls _, _ => trivial
  | .numtype _, _ => trivial
  | .tuple xs, h => by
    simp only [isKey] at h
    simp only [PlainV]
    exact plainL_of_isKey xs h
termination_by structural v => v
theorem plainL_of_isKey : ∀ xs : List Val, isKeyL xs = true → PlainL xs
  | [], _ => trivial
  | x :: xs, h => by
    simp only [isKeyL, Bool.and_eq_true] at h
    exact ⟨plain_of_isKey x h.1, plainL_of_isKey xs h.2⟩
termination_by structural xs => xs
end

/-! ### Parsing -/

/-- Whatever `<class '...'>` finds is a class. -/
def FindsClasses (E : Env) : Prop := ∀ m n v, E.imp m n = .ok v → (∃ c, v = .cls c) ∨ ∃ c, v = .numtype c

theorem setFrom_mem {fi : Str → Option Int} {l acc d : List Val} (h : setFrom fi acc l = .ok d) :
    ∀ x ∈ d, x ∈ acc ∨ (x ∈ l ∧ hashable x = true) := by
  induction l generalizing acc with
  | nil => cases h; exact fun x hx => .inl hx
  | cons y ys ih =>
    simp only [setFrom] at h
    split at h
    · rename_i hy
      intro x hx
      rcases ih h x hx with hx | ⟨hx, hh⟩
      · split at hx
        · exact .inl hx
        · rcases List.mem_append.1 hx with hx | hx
          · exact .inl hx
          · rw [List.mem_singleton] at hx
            subst hx
            exact .inr ⟨.head _, hy⟩
      · exact .inr ⟨.tail _ hx, hh⟩
    · cases h

theorem vput_mem {fi : Str → Option Int} {d : List (Val × Val)} {k v k' v' : Val} (h : (k', v') ∈ vput fi d k v) :
    (k' = k ∨ ∃ u, (k', u) ∈ d) ∧ (v' = v ∨ ∃ j, (j, v') ∈ d) := by
  induction d with
  | nil =>
    simp only [vput, List.mem_singleton, Prod.mk.injEq] at h
    exact ⟨.inl h.1, .inl h.2⟩
  | cons e r ih =>
    obtain ⟨a, b⟩ := e
    simp only [vput] at h
    split at h
    · cases h with
      | head => exact ⟨.inr ⟨b, .head _⟩, .inl rfl⟩
      | tail _ h => exact ⟨.inr ⟨v', .tail _ h⟩, .inr ⟨k', .tail _ h⟩⟩
    · cases h with
      | head => exact ⟨.inr ⟨_, .head _⟩, .inr ⟨_, .head _⟩⟩
      | tail _ h =>
        obtain ⟨h1, h2⟩ := ih h
        refine ⟨h1.imp id ?_, h2.imp id ?_⟩
        · rintro ⟨u, hu⟩; exact ⟨u, .tail _ hu⟩
        · rintro ⟨u, hu⟩; exact ⟨u, .tail _ hu⟩

theorem dictFrom_plain {fi : Str → Option Int} {l acc d : List (Val × Val)} (h : dictFrom fi acc l = .ok d) (ha : PlainD acc)
    (hl : ∀ k v, (k, v) ∈ l → PlainV k ∧ PlainV v) : PlainD d := by
  induction l generalizing acc with
  | nil => cases h; exact ha
  | cons y ys ih =>
    obtain ⟨k, v⟩ := y
    simp only [dictFrom] at h
    split at h
    · rename_i hh
      refine ih h ?_ fun k v hm => hl k v (.tail _ hm)
      have hkv := hl k v (.head _)
      rw [plainD_iff] at ha ⊢
      intro k' v' hm
      obtain ⟨h1, h2⟩ := vput_mem hm
      constructor
      · rcases h1 with rfl | ⟨u, hu⟩
        · exact isKey_of_plain _ hkv.1 hh
        · exact (ha _ _ hu).1
      · rcases h2 with rfl | ⟨u, hu⟩
        · exact hkv.2
        · exact (ha _ _ hu).2
    · cases h

theorem except_bind_ok {α β : Type} {r : R α} {f : α → R β} {y : β} (h : r.bind f = .ok y) : ∃ x, r = .ok x ∧ f x = .ok y := by
  cases r with
  | error e => cases h
  | ok x => exact ⟨x, rfl, h⟩

theorem except_map_ok {α β : Type} {r : R α} {f : α → β} {y : β} (h : r.map f = .ok y) : ∃ x, r = .ok x ∧ f x = y := by
  cases r with
  | error e => cases h
  | ok x => cases h; exact ⟨x, rfl, rfl⟩

section
variable {E : Env} (hE : FindsClasses E)
include hE

mutual
theorem sem_plain : ∀ (a : Ast) (v : Val), sem E a = .ok v → PlainV v
  | .none, v, h => by cases h; trivial
  | .bool _, v, h => by cases h; trivial
  | .num t, v, h => by
    cases h
    simp only [numberOf]
    cases pyInt t <;> trivial
  | .str _, v, h => by cases h; trivial
  | .cls b, v, h => by
    simp only [sem, clsVal] at h
    split at h
    · cases h
    · cases h
      rename_i _ hi
      rcases hE _ _ _ hi with ⟨c, rfl⟩ | ⟨c, rfl⟩ <;> trivial
    · cases h; simp [PlainV, PlainD, isKey]
    · cases h; simp [PlainV, PlainD, isKey]
    · cases h
  | .tuple xs, v, h => by
    obtain ⟨l, h1, h2⟩ := except_map_ok h
    rw [← h2]
    exact sem_plainL xs l h1
  | .list xs, v, h => by
    obtain ⟨l, h1, h2⟩ := except_map_ok h
    rw [← h2]
    exact sem_plainL xs l h1
  | .set xs, v, h => by
    obtain ⟨l, h1, h2⟩ := except_bind_ok h
    obtain ⟨d, h3, h4⟩ := except_map_ok h2
    rw [← h4]
    simp only [PlainV]
    intro x hx
    rcases setFrom_mem h3 x hx with hx | ⟨hx, hh⟩
    · cases hx
    · exact isKey_of_plain x (plainL_iff.1 (sem_plainL xs l h1) x hx) hh
  | .fset xs, v, h => by
    obtain ⟨l, h1, h2⟩ := except_bind_ok h
    obtain ⟨d, h3, h4⟩ := except_map_ok h2
    rw [← h4]
    simp only [PlainV]
    intro x hx
    rcases setFrom_mem h3 x hx with hx | ⟨hx, hh⟩
    · cases hx
    · exact isKey_of_plain x (plainL_iff.1 (sem_plainL xs l h1) x hx) hh
  | .dict kvs, v, h => by
    obtain ⟨l, h1, h2⟩ := except_bind_ok h
    obtain ⟨d, h3, h4⟩ := except_map_ok h2
    rw [← h4]
    simp only [PlainV]
    exact dictFrom_plain h3 trivial (sem_plainD kvs l h1)
  | .what o n kvs, v, h => by
    obtain ⟨l, h1, h2⟩ := except_bind_ok h
    split at h2
    · cases h2
    · cases h2
      simp only [PlainV]
      exact ⟨trivial, nodup_dictOf l, plainA_iff.2 fun k v hm => sem_plainA kvs l h1 k v (mem_dictOf hm)⟩
termination_by structural a => a
theorem sem_plainL : ∀ (xs : List Ast) (l : List Val), semL E xs = .ok l → PlainL l
  | [], l, h => by cases h; trivial
  | x :: xs, l, h => by
    obtain ⟨v, h1, h2⟩ := except_bind_ok h
    obtain ⟨r, h3, h4⟩ := except_map_ok h2
    rw [← h4]
    exact ⟨sem_plain x v h1, sem_plainL xs r h3⟩
termination_by structural xs => xs
theorem sem_plainD : ∀ (xs : List (Ast × Ast)) (l : List (Val × Val)), semD E xs = .ok l → ∀ k v, (k, v) ∈ l → PlainV k ∧ PlainV v
  | [], l, h => by cases h; intro k v hm; cases hm
  | (a, b) :: xs, l, h => by
    obtain ⟨k, h1, h2⟩ := except_bind_ok h
    obtain ⟨v, h3, h4⟩ := except_bind_ok h2
    obtain ⟨r, h5, h6⟩ := except_map_ok h4
    rw [← h6]
    intro k' v' hm
    cases hm with
    | head => exact ⟨sem_plain a k h1, sem_plain b v h3⟩
    | tail _ hm => exact sem_plainD xs r h5 k' v' hm
termination_by structural xs => xs
theorem sem_plainA : ∀ (xs : List (Str × Ast)) (l : List (Str × Val)), semA E xs = .ok l → ∀ k v, (k, v) ∈ l → PlainV v
  | [], l, h => by cases h; intro k v hm; cases hm
  | (a, b) :: xs, l, h => by
    obtain ⟨v, h3, h4⟩ := except_bind_ok h
    obtain ⟨r, h5, h6⟩ := except_map_ok h4
    rw [← h6]
    intro k' v' hm
    cases hm with
    | head => exact sem_plain b v h3
    | tail _ hm => exact sem_plainA xs r h5 k' v' hm
termination_by structural xs => xs
end

/-- What the parser returns is plain. -/
theorem parse_plain {s : Str} {w : What} (h : parseWhatid E s = .ok w) : PlainV w.toVal := by
  rcases parse_cases (E := E) s with h' | ⟨o, n, kvs, p, ws, _, _, _, _, _, _, h'⟩
  · rw [h] at h'; cases h'
  · rw [h] at h'
    obtain ⟨l, h1, h2⟩ := except_bind_ok h'.symm
    split at h2
    · cases h2
    · cases h2
      simp only [What.toVal, PlainV]
      exact ⟨trivial, nodup_dictOf l, plainA_iff.2 fun k v hm => sem_plainA hE kvs l h1 k v (mem_dictOf hm)⟩
end

/-! ### `==` on plain data -/

theorem plain_child {v x : Val} (h : PlainV v) (hc : Child x v) : PlainV x := by
  cases hc <;> simp only [PlainV] at h
  case tuple hm => exact plainL_iff.1 h x hm
  case list hm => exact plainL_iff.1 h x hm
  case set hm => exact plain_of_isKey x (h x hm)
  case dictKey hm => exact plain_of_isKey x (plainD_iff.1 h _ _ hm).1
  case dictVal hm => exact (plainD_iff.1 h _ _ hm).2
  case what hm => exact plainA_iff.1 h.2.2 _ _ hm

theorem plain_within {v x : Val} (h : PlainV v) (hc : Within x v) : PlainV x := by
  induction hc with
  | refl => exact h
  | step _ c ih => exact ih (plain_child h c)

end Whatami
