import Verif.Props.Utils

/-
Properties of sort_whats and sort_whatids: C37.
-/
namespace Whatami

/-- The values `w[k]` for the given keys. -/
def ValuesOf (fi : Str → Option Int) (keys : List Val) (w : What) (vals : List Val) : Prop :=
  keys.map (fun k => getItem fi k w.conf) = vals.map .ok

/-- `<` orders the values in `S` linearly, up to `==`. -/
structure Orders (fi : Str → Option Int) (lt : Val → Val → Bool) (S : Val → Prop) : Prop where
  asymm : ∀ x y, S x → S y → lt x y = true → lt y x = false
  linear : ∀ x y z, S x → S y → S z → lt x z = true → lt x y = true ∨ lt y z = true
  equal : ∀ x y, S x → S y → (pyEq fi true x y = true ↔ lt x y = false ∧ lt y x = false)

/-- Non-decreasing, lexicographically: where the two tuples first differ, the first one is less. -/
def LexLe (fi : Str → Option Int) (lt : Val → Val → Bool) (a b : List Val) : Prop :=
  ∀ (i : Nat) x y, a[i]? = some x → b[i]? = some y →
    (∀ (j : Nat) u v, j < i → a[j]? = some u → b[j]? = some v → pyEq fi true u v = true) →
    pyEq fi true x y = false → lt x y = true

section
variable {fi : Str → Option Int} {lt : Val → Val → Bool} {S : Val → Prop}

theorem Orders.eq_symm (h : Orders fi lt S) {x y : Val} (hx : S x) (hy : S y) (e : pyEq fi true x y = true) : pyEq fi true y x = true :=
  (h.equal y x hy hx).2 ((h.equal x y hx hy).1 e).symm

theorem Orders.ne (h : Orders fi lt S) {x y : Val} (hx : S x) (hy : S y) (e : pyEq fi true x y = false) : lt x y = true ∨ lt y x = true := by
  cases h1 : lt x y with
  | true => exact .inl rfl
  | false =>
    cases h2 : lt y x with
    | true => exact .inr rfl
    | false => rw [(h.equal x y hx hy).2 ⟨h1, h2⟩] at e; cases e

theorem Orders.lt_ne (h : Orders fi lt S) {x y : Val} (hx : S x) (hy : S y) (e : lt x y = true) :
    pyEq fi true x y = false ∧ pyEq fi true y x = false := by
  constructor
  · cases h1 : pyEq fi true x y with
    | false => rfl
    | true => rw [((h.equal x y hx hy).1 h1).1] at e; cases e
  · cases h1 : pyEq fi true y x with
    | false => rfl
    | true => rw [((h.equal y x hy hx).1 h1).2] at e; cases e

theorem tupleLt_asymm (h : Orders fi lt S) : ∀ a b : List Val, (∀ x ∈ a, S x) → (∀ x ∈ b, S x) → tupleLt fi lt a b = true → tupleLt fi lt b a = false := by
  intro a
  induction a with
  | nil => intro b _ _ _; cases b <;> rfl
  | cons x xs ih =>
    intro b ha hb e
    cases b with
    | nil => cases e
    | cons y ys =>
      have hx := ha x (by simp)
      have hy := hb y (by simp)
      simp only [tupleLt] at e ⊢
      cases h1 : pyEq fi true x y with
      | true =>
        rw [h1] at e
        rw [h.eq_symm hx hy h1]
        exact ih ys (fun z hz => ha z (by simp [hz])) (fun z hz => hb z (by simp [hz])) e
      | false =>
        rw [h1] at e
        simp only [Bool.false_eq_true, if_false] at e
        rw [(h.lt_ne hx hy e).2]
        simp only [Bool.false_eq_true, if_false]
        exact h.asymm x y hx hy e

theorem tupleLt_linear (h : Orders fi lt S) : ∀ c b a : List Val, (∀ x ∈ c, S x) → (∀ x ∈ b, S x) → (∀ x ∈ a, S x) →
    tupleLt fi lt c a = true → tupleLt fi lt c b = true ∨ tupleLt fi lt b a = true := by
  intro c
  induction c with
  | nil =>
    intro b a _ _ _ e
    cases b with
    | cons y ys => exact .inl rfl
    | nil => exact .inr e
  | cons z zs ih =>
    intro b a hc hb ha e
    cases a with
    | nil => cases e
    | cons x xs =>
      cases b with
      | nil => exact .inr rfl
      | cons y ys =>
        have hx := ha x (by simp)
        have hy := hb y (by simp)
        have hz := hc z (by simp)
        simp only [tupleLt] at e ⊢
        cases hzx : pyEq fi true z x with
        | true =>
          rw [hzx] at e
          simp only [if_true] at e
          have k := (h.equal z x hz hx).1 hzx
          cases hzy : pyEq fi true z y with
          | true =>
            have k2 := (h.equal z y hz hy).1 hzy
            have hyx : pyEq fi true y x = true := by
              refine (h.equal y x hy hx).2 ⟨?_, ?_⟩
              · cases q : lt y x with
                | false => rfl
                | true =>
                  rcases h.linear y z x hy hz hx q with r | r
                  · rw [k2.2] at r; cases r
                  · rw [k.1] at r; cases r
              · cases q : lt x y with
                | false => rfl
                | true =>
                  rcases h.linear x z y hx hz hy q with r | r
                  · rw [k.2] at r; cases r
                  · rw [k2.1] at r; cases r
            rw [hyx]
            simp only [if_true]
            exact ih ys xs (fun z hz => hc z (by simp [hz])) (fun z hz => hb z (by simp [hz])) (fun z hz => ha z (by simp [hz])) e
          | false =>
            simp only [Bool.false_eq_true, if_false]
            rcases h.ne hz hy hzy with q | q
            · exact .inl q
            · right
              rcases h.linear y x z hy hx hz q with r | r
              · rw [(h.lt_ne hy hx r).1]; simpa using r
              · rw [k.2] at r; cases r
        | false =>
          rw [hzx] at e
          simp only [Bool.false_eq_true, if_false] at e
          rcases h.linear z y x hz hy hx e with r | r
          · left; rw [(h.lt_ne hz hy r).1]; simpa using r
          · right; rw [(h.lt_ne hy hx r).1]; simpa using r

/-- For tuples of the same length, the order of the code is the lexicographic one. -/
theorem tupleLt_lex (h : Orders fi lt S) : ∀ a b : List Val, (∀ x ∈ a, S x) → (∀ x ∈ b, S x) → a.length = b.length →
    (tupleLt fi lt b a = false ↔ LexLe fi lt a b) := by
  intro a
  induction a with
  | nil =>
    intro b _ _ hl
    cases b with
    | nil => exact ⟨fun _ i x y hx => by simp at hx, fun _ => rfl⟩
    | cons y ys => simp at hl
  | cons x xs ih =>
    intro b ha hb hl
    cases b with
    | nil => simp at hl
    | cons y ys =>
      have hx := ha x (by simp)
      have hy := hb y (by simp)
      have ih := ih ys (fun z hz => ha z (by simp [hz])) (fun z hz => hb z (by simp [hz])) (by simpa using hl)
      simp only [tupleLt]
      cases hyx : pyEq fi true y x with
      | true =>
        simp only [if_true]
        rw [ih]
        constructor
        · intro hle i u v hu hv heq hne
          cases i with
          | zero =>
            simp only [List.getElem?_cons_zero, Option.some.injEq] at hu hv
            subst hu hv
            rw [h.eq_symm hy hx hyx] at hne; cases hne
          | succ i =>
            simp only [List.getElem?_cons_succ] at hu hv
            exact hle i u v hu hv (fun j p q hj hp hq => heq (j + 1) p q (by omega) (by simpa using hp) (by simpa using hq)) hne
        · intro hle i u v hu hv heq hne
          refine hle (i + 1) u v (by simpa using hu) (by simpa using hv) ?_ hne
          intro j p q hj hp hq
          cases j with
          | zero =>
            simp only [List.getElem?_cons_zero, Option.some.injEq] at hp hq
            subst hp hq
            exact h.eq_symm hy hx hyx
          | succ j => exact heq j p q (by omega) (by simpa using hp) (by simpa using hq)
      | false =>
        simp only [Bool.false_eq_true, if_false]
        have hxy : pyEq fi true x y = false := by
          cases q : pyEq fi true x y with
          | false => rfl
          | true => rw [h.eq_symm hx hy q] at hyx; cases hyx
        constructor
        · intro hlt i u v hu hv heq hne
          cases i with
          | zero =>
            simp only [List.getElem?_cons_zero, Option.some.injEq] at hu hv
            subst hu hv
            rcases h.ne hx hy hne with q | q
            · exact q
            · rw [hlt] at q; cases q
          | succ i =>
            have := heq 0 x y (by omega) rfl rfl
            rw [hxy] at this; cases this
        · intro hle
          have := hle 0 x y rfl rfl (fun j _ _ hj => by omega) hxy
          exact h.asymm x y hx hy this

end

/-! Stable sorting -/

theorem insertBy_sorted_on {α : Type} {le : α → α → Bool} {S : α → Prop}
    (total : ∀ a b, S a → S b → le a b = true ∨ le b a = true)
    (trans : ∀ a b c, S a → S b → S c → le a b = true → le b c = true → le a c = true)
    (a : α) (l : List α) (ha : S a) (hS : ∀ x ∈ l, S x) (hl : l.Pairwise fun x y => le x y = true) :
    (insertBy le a l).Pairwise fun x y => le x y = true := by
  induction l with
  | nil => exact List.pairwise_singleton _ _
  | cons b l ih =>
    rw [List.pairwise_cons] at hl
    simp only [insertBy]
    split
    · rename_i h
      rw [List.pairwise_cons]
      refine ⟨?_, List.pairwise_cons.2 hl⟩
      intro c hc
      cases hc with
      | head => exact h
      | tail _ hc => exact trans a b c ha (hS b (.head _)) (hS c (.tail _ hc)) h (hl.1 c hc)
    · rename_i h
      rw [List.pairwise_cons]
      refine ⟨?_, ih (fun x hx => hS x (by simp [hx])) hl.2⟩
      intro c hc
      have := (insertBy_perm le a l).mem_iff.1 hc
      cases this with
      | head => exact (total a b ha (hS b (by simp))).resolve_left h
      | tail _ hc => exact hl.1 c hc

theorem sortBy_sorted_on {α : Type} {le : α → α → Bool} {S : α → Prop}
    (total : ∀ a b, S a → S b → le a b = true ∨ le b a = true)
    (trans : ∀ a b c, S a → S b → S c → le a b = true → le b c = true → le a c = true)
    (l : List α) (hS : ∀ x ∈ l, S x) : (sortBy le l).Pairwise fun x y => le x y = true := by
  induction l with
  | nil => exact List.Pairwise.nil
  | cons a l ih =>
    exact insertBy_sorted_on total trans a _ (hS a (by simp)) (fun x hx => hS x (by simp [mem_sortBy.1 hx])) (ih fun x hx => hS x (by simp [hx]))

theorem insertBy_sublist {α : Type} (le : α → α → Bool) (a : α) (l : List α) : l.Sublist (insertBy le a l) := by
  induction l with
  | nil => exact List.nil_sublist _
  | cons b l ih =>
    simp only [insertBy]
    split
    · exact List.sublist_cons_self _ _
    · exact ih.cons_cons b

theorem insertBy_before {α : Type} {le : α → α → Bool} {a q : α} {l : List α} (hq : q ∈ l) (h : le a q = true) :
    [a, q].Sublist (insertBy le a l) := by
  induction l with
  | nil => cases hq
  | cons b l ih =>
    simp only [insertBy]
    split
    · exact (List.singleton_sublist.2 hq).cons_cons a
    · rename_i hn
      cases hq with
      | head => exact absurd h hn
      | tail _ hq => exact (ih hq).cons b

/-- `sortBy` is stable. -/
theorem sortBy_stable {α : Type} {le : α → α → Bool} {p q : α} {l : List α} (h : [p, q].Sublist l) (hle : le p q = true) :
    [p, q].Sublist (sortBy le l) := by
  induction l with
  | nil => cases h
  | cons a l ih =>
    cases h with
    | cons _ h => exact (ih h).trans (insertBy_sublist le a _)
    | cons_cons _ h => exact insertBy_before (mem_sortBy.2 (List.singleton_sublist.1 h)) hle

/-! ### The two functions -/

/-- The common part: sorting `xs` along with their values. -/
theorem sorted_spec {α : Type} {fi : Str → Option Int} {lt : Val → Val → Bool} {S : Val → Prop} (ho : Orders fi lt S) (emb : α → Val)
    (vals : α → List Val) (m : Nat) (xs : List α) (hlen : ∀ x ∈ xs, (vals x).length = m) (hS : ∀ x ∈ xs, ∀ v ∈ vals x, S v) :
    ∃ ys : List α, sortedAnswer fi lt (xs.map vals) (xs.map emb) =
        (if xs = [] then .tuple [] else .tuple [.tuple (ys.map emb), .tuple (ys.map fun y => .tuple (vals y))]) ∧
      ys.Perm xs ∧ ys.Pairwise (fun a b => LexLe fi lt (vals a) (vals b)) ∧
      (∀ a b, [a, b].Sublist xs → LexLe fi lt (vals a) (vals b) → [a, b].Sublist ys) := by
  refine ⟨sortBy (fun a b => !tupleLt fi lt (vals b) (vals a)) xs, ?_, sortBy_perm _ _, ?_, ?_⟩
  · have e : (xs.map vals).zip (xs.map emb) = xs.map fun x => (vals x, emb x) := by
      induction xs with
      | nil => rfl
      | cons x xs ih =>
        have := ih (fun y hy => hlen y (by simp [hy])) (fun y hy => hS y (by simp [hy]))
        simp [this]
    rw [sortedAnswer, sortedByFirst, e]
    rw [sortBy_map (le := fun a b => !tupleLt fi lt (vals b) (vals a)) (f := fun x => (vals x, emb x)) (fun a b => rfl)]
    rw [List.map_map]
    cases xs with
    | nil => rfl
    | cons x xs =>
      simp only [reduceCtorEq, if_false]
      generalize hl : sortBy (fun a b => !tupleLt fi lt (vals b) (vals a)) (x :: xs) = l
      cases l with
      | nil =>
        have := (sortBy_perm (fun a b => !tupleLt fi lt (vals b) (vals a)) (x :: xs)).length_eq
        rw [hl] at this; simp at this
      | cons y ys => simp [unzipVal, Function.comp_def]
  · have := sortBy_sorted_on (le := fun a b => !tupleLt fi lt (vals b) (vals a)) (S := fun x => ∀ v ∈ vals x, S v) ?_ ?_ xs hS
    · refine this.imp_of_mem ?_
      intro a b ha hb h
      have ha := mem_sortBy.1 ha
      have hb := mem_sortBy.1 hb
      exact (tupleLt_lex ho (vals a) (vals b) (hS a ha) (hS b hb) ((hlen a ha).trans (hlen b hb).symm)).1 (by simpa using h)
    · intro a b ha hb
      cases h : tupleLt fi lt (vals b) (vals a) with
      | false => exact .inl rfl
      | true => right; simp [tupleLt_asymm ho _ _ hb ha h]
    · intro a b c ha hb hc h1 h2
      simp only [Bool.not_eq_true'] at h1 h2 ⊢
      cases h : tupleLt fi lt (vals c) (vals a) with
      | false => rfl
      | true =>
        rcases tupleLt_linear ho (vals c) (vals b) (vals a) hc hb ha h with q | q
        · rw [h2] at q; cases q
        · rw [h1] at q; cases q
  · intro a b hsub hle
    refine sortBy_stable hsub ?_
    have ha : a ∈ xs := hsub.subset (by simp)
    have hb : b ∈ xs := hsub.subset (by simp)
    simp only [Bool.not_eq_true']
    exact (tupleLt_lex ho (vals a) (vals b) (hS a ha) (hS b hb) ((hlen a ha).trans (hlen b hb).symm)).2 hle

theorem valuesOf_mapR {fi : Str → Option Int} {keys : List Val} {w : What} {vals : List Val} (h : ValuesOf fi keys w vals) :
    mapR (fun k => getItem fi k w.conf) keys = .ok vals := by
  unfold ValuesOf at h
  induction keys generalizing vals with
  | nil => cases vals with
    | nil => rfl
    | cons v vs => cases h
  | cons k ks ih =>
    cases vals with
    | nil => cases h
    | cons v vs =>
      simp only [List.map_cons, List.cons.injEq] at h
      simp only [mapR, h.1, ih h.2]

theorem valuesOf_length {fi : Str → Option Int} {keys : List Val} {w : What} {vals : List Val} (h : ValuesOf fi keys w vals) :
    vals.length = keys.length := by
  have := congrArg List.length h
  simpa using this.symm

/-- C37 for Whats. `sort_whats(whats, *keys)` returns a pair (the empty tuple for no whats): the same whats, and the tuples of
their values for the keys, in lexicographic order of the values; whats in order already keep their order (stability). -/
theorem c37_sort_whats {fi : Str → Option Int} {lt : Val → Val → Bool} {S : Val → Prop} (ho : Orders fi lt S) (whats : List What)
    (keys : List Val) (vals : What → List Val) (hv : ∀ w ∈ whats, ValuesOf fi keys w (vals w)) (hS : ∀ w ∈ whats, ∀ v ∈ vals w, S v) :
    ∃ ws : List What, sortWhats fi lt whats keys =
        .ok (if whats = [] then .tuple [] else .tuple [.tuple (ws.map What.toVal), .tuple (ws.map fun w => .tuple (vals w))]) ∧
      ws.Perm whats ∧ ws.Pairwise (fun a b => LexLe fi lt (vals a) (vals b)) ∧
      (∀ a b, [a, b].Sublist whats → LexLe fi lt (vals a) (vals b) → [a, b].Sublist ws) := by
  obtain ⟨ws, h1, h2⟩ := sorted_spec ho What.toVal vals keys.length whats (fun w hw => valuesOf_length (hv w hw)) hS
  refine ⟨ws, ?_, h2⟩
  have e : mapR (fun w => whatvalues fi w (.tuple keys)) whats = .ok (whats.map vals) :=
    mapR_pure fun w hw => valuesOf_mapR (hv w hw)
  simp only [sortWhats, e, h1]

/-- C37 for ids. -/
theorem c37_sort_whatids {E : Env} {lt : Val → Val → Bool} {S : Val → Prop} (ho : Orders E.fi lt S) (ids : List Str)
    (keys : List Val) (vals : Str → List Val)
    (hv : ∀ s ∈ ids, ∃ w, parseWhatid E s = .ok w ∧ ValuesOf E.fi keys w (vals s)) (hS : ∀ s ∈ ids, ∀ v ∈ vals s, S v) :
    ∃ ss : List Str, sortWhatids E lt ids keys =
        .ok (if ids = [] then .tuple [] else .tuple [.tuple (ss.map .str), .tuple (ss.map fun s => .tuple (vals s))]) ∧
      ss.Perm ids ∧ ss.Pairwise (fun a b => LexLe E.fi lt (vals a) (vals b)) ∧
      (∀ a b, [a, b].Sublist ids → LexLe E.fi lt (vals a) (vals b) → [a, b].Sublist ss) := by
  obtain ⟨ss, h1, h2⟩ := sorted_spec ho Val.str vals keys.length ids (fun s hs => by
    obtain ⟨w, _, h⟩ := hv s hs
    exact valuesOf_length h) hS
  refine ⟨ss, ?_, h2⟩
  have e : mapR (idValues E keys) ids = .ok (ids.map vals) := by
    refine mapR_pure fun s hs => ?_
    obtain ⟨w, hw, h⟩ := hv s hs
    simp only [idValues, hw]
    exact valuesOf_mapR h
  simp only [sortWhatids, e, h1]

/-- C37, exceptions: the first what without one of the keys decides. -/
theorem c37_missing {fi : Str → Option Int} (lt : Val → Val → Bool) (before : List What) (w : What) (after : List What) (keys : List Val)
    (vals : What → List Val) (hv : ∀ w ∈ before, ValuesOf fi keys w (vals w)) (e : Err)
    (he : mapR (fun k => getItem fi k w.conf) keys = .error e) : sortWhats fi lt (before ++ w :: after) keys = .error e := by
  have h1 : mapR (fun w => whatvalues fi w (.tuple keys)) before = .ok (before.map vals) :=
    mapR_pure fun w hw => valuesOf_mapR (hv w hw)
  have h2 : whatvalues fi w (.tuple keys) = .error e := he
  simp only [sortWhats, mapR_append, h1, mapR, h2]

/-- Integers and strings are ordered. -/
def exLt : Val → Val → Bool
  | .int a, .int b => decide (a < b)
  | .str a, .str b => !strLe b a
  | _, _ => false

theorem orders_ints (fi : Str → Option Int) : Orders fi exLt (fun v => ∃ i, v = .int i) where
  asymm := by rintro _ _ ⟨a, rfl⟩ ⟨b, rfl⟩ h; simp only [exLt, decide_eq_true_eq, decide_eq_false_iff_not] at h ⊢; omega
  linear := by rintro _ _ _ ⟨a, rfl⟩ ⟨b, rfl⟩ ⟨c, rfl⟩ h; simp only [exLt, decide_eq_true_eq] at h ⊢; omega
  equal := by
    rintro _ _ ⟨a, rfl⟩ ⟨b, rfl⟩
    simp only [exLt, decide_eq_false_iff_not, pyEq, numKey, numEq, beq_iff_eq]
    omega

theorem orders_strings (fi : Str → Option Int) : Orders fi exLt (fun v => ∃ s, v = .str s) where
  asymm := by
    rintro _ _ ⟨a, rfl⟩ ⟨b, rfl⟩ h
    simp only [exLt, Bool.not_eq_true', Bool.not_eq_false'] at h ⊢
    exact (strLe_total a b).resolve_right (by rw [h]; simp)
  linear := by
    rintro _ _ _ ⟨a, rfl⟩ ⟨b, rfl⟩ ⟨c, rfl⟩ h
    simp only [exLt, Bool.not_eq_true'] at h ⊢
    cases h1 : strLe b a with
    | false => exact .inl rfl
    | true =>
      cases h2 : strLe c b with
      | false => exact .inr rfl
      | true => rw [strLe_trans _ _ _ h2 h1] at h; cases h
  equal := by
    rintro _ _ ⟨a, rfl⟩ ⟨b, rfl⟩
    simp only [exLt, pyEq, beq_iff_eq, Bool.not_eq_false']
    constructor
    · rintro rfl; exact ⟨(strLe_total a a).elim id id, (strLe_total a a).elim id id⟩
    · rintro ⟨h1, h2⟩; exact strLe_antisymm _ _ h2 h1

example : sortWhatids exEnv exLt [c!"L(lag=2,r='a')", c!"L(lag=-1,r='b')", c!"L(lag=2,r='c')", c!"L(lag=0)"] [.str c!"lag"] =
    .ok (.tuple [.tuple [.str c!"L(lag=-1,r='b')", .str c!"L(lag=0)", .str c!"L(lag=2,r='a')", .str c!"L(lag=2,r='c')"],
      .tuple [.tuple [.int (-1)], .tuple [.int 0], .tuple [.int 2], .tuple [.int 2]]]) := by rfl
/-- Without whats, the result is no pair. -/
example : sortWhats exEnv.fi exLt [] [.str c!"lag"] = .ok (.tuple []) := by rfl
example : sortWhats exEnv.fi exLt [⟨c!"f", [(c!"a", .int 1)], [], none⟩, ⟨c!"f", [], [], none⟩] [.str c!"a"] = .error .keyError := by rfl

end Whatami
