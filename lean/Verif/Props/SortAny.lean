import Verif.SortAny
import Verif.Props.GenKeys
import Verif.Props.Sort

/-
C99: sort_whats and sort_whatids when Python cannot compare some values.

Specification: `Clash` (where two tuples of values first differ, the values are of different kinds), `Comparison` (what `<` does with values of these kinds),
and `Spec.StableSort`.
-/
namespace Whatami

/-- Where the two tuples first differ, their values are of different kinds. -/
def Clash (fi : Str → Option Int) (kind : Val → Nat) (a b : List Val) : Prop :=
  ∃ (i : Nat) (x y : Val), a[i]? = some x ∧ b[i]? = some y ∧ (∀ (j : Nat) u v, j < i → a[j]? = some u → b[j]? = some v → pyEq fi true u v = true) ∧
    pyEq fi true x y = false ∧ kind x ≠ kind y

/-- Values in `S` of one kind are ordered by `<`, equal values are of one kind, and `<` between values of different kinds raises TypeError. -/
structure Comparison (fi : Str → Option Int) (kind : Val → Nat) (lt : Val → Val → R Bool) (r : Val → Val → Bool) (S : Val → Prop) : Prop where
  orders : ∀ n, Orders fi r fun v => S v ∧ kind v = n
  equal : ∀ x y, S x → S y → pyEq fi true x y = true → kind x = kind y
  same : ∀ x y, S x → S y → pyEq fi true x y = false → kind x = kind y → lt x y = .ok (r x y)
  differ : ∀ x y, S x → S y → kind x ≠ kind y → lt x y = .error .typeError

section
variable {fi : Str → Option Int} {kind : Val → Nat} {lt : Val → Val → R Bool} {r : Val → Val → Bool} {S : Val → Prop}

/-- The order that ranks kinds by `g`. -/
def ranked (kind : Val → Nat) (r : Val → Val → Bool) (g : Nat → Nat → Bool) (x y : Val) : Bool := if kind x = kind y then r x y else g (kind x) (kind y)

/-- `g` is a strict linear order. -/
def Ranks (g : Nat → Nat → Bool) : Prop :=
  (∀ m n, g m n = true → g n m = false) ∧ (∀ m n, m ≠ n → g m n = true ∨ g n m = true) ∧ ∀ a b c, g a b = true → a ≠ c → c ≠ b → g a c = true ∨ g c b = true

theorem ranked_orders (h : Comparison fi kind lt r S) {g : Nat → Nat → Bool} (hg : Ranks g) : Orders fi (ranked kind r g) S where
  asymm := by
    intro x y hx hy
    unfold ranked
    by_cases e : kind x = kind y
    · rw [if_pos e, if_pos e.symm]; exact (h.orders (kind y)).asymm x y ⟨hx, e⟩ ⟨hy, rfl⟩
    · rw [if_neg e, if_neg (fun e' => e e'.symm)]; exact hg.1 _ _
  linear := by
    intro x y z hx hy hz
    unfold ranked
    by_cases e : kind x = kind z
    · rw [if_pos e]
      by_cases e2 : kind x = kind y
      · rw [if_pos e2, if_pos (e2.symm.trans e)]; exact (h.orders (kind z)).linear x y z ⟨hx, e⟩ ⟨hy, e2.symm.trans e⟩ ⟨hz, rfl⟩
      · intro _
        rw [if_neg e2, if_neg (fun e3 => e2 (e.trans e3.symm)), ← e]
        exact hg.2.1 _ _ e2
    · rw [if_neg e]
      intro hxz
      by_cases e2 : kind x = kind y
      · rw [← e2, if_neg e]; exact .inr hxz
      · by_cases e3 : kind y = kind z
        · rw [if_neg e2, e3]; exact .inl hxz
        · rw [if_neg e2, if_neg e3]; exact hg.2.2 _ _ _ hxz e2 e3
  equal := by
    intro x y hx hy
    unfold ranked
    by_cases e : kind x = kind y
    · rw [if_pos e, if_pos e.symm]; exact (h.orders (kind y)).equal x y ⟨hx, e⟩ ⟨hy, rfl⟩
    · rw [if_neg e, if_neg (fun e' => e e'.symm)]
      constructor
      · intro h'; exact absurd (h.equal x y hx hy h') e
      · rintro ⟨h1, h2⟩
        rcases hg.2.1 _ _ e with h' | h'
        · rw [h1] at h'; cases h'
        · rw [h2] at h'; cases h'

theorem clash_cons {x y : Val} {xs ys : List Val} (e : pyEq fi true x y = true) : Clash fi kind (x :: xs) (y :: ys) ↔ Clash fi kind xs ys := by
  constructor
  · rintro ⟨i, u, v, h1, h2, h3, h4, h5⟩
    cases i with
    | zero =>
      simp only [List.getElem?_cons_zero, Option.some.injEq] at h1 h2
      subst h1 h2; rw [e] at h4; cases h4
    | succ i =>
      exact ⟨i, u, v, by simpa using h1, by simpa using h2, fun j p q hj hp hq => h3 (j + 1) p q (by omega) (by simpa using hp) (by simpa using hq), h4, h5⟩
  · rintro ⟨i, u, v, h1, h2, h3, h4, h5⟩
    refine ⟨i + 1, u, v, by simpa using h1, by simpa using h2, fun j p q hj hp hq => ?_, h4, h5⟩
    cases j with
    | zero =>
      simp only [List.getElem?_cons_zero, Option.some.injEq] at hp hq
      subst hp hq; exact e
    | succ j => exact h3 j p q (by omega) (by simpa using hp) (by simpa using hq)

/-- What comparing two tuples does: it raises if they clash, and otherwise it says what any of the orders says. -/
theorem tupleLtR_spec (h : Comparison fi kind lt r S) (g : Nat → Nat → Bool) : ∀ a b : List Val, (∀ v ∈ a, S v) → (∀ v ∈ b, S v) →
    (Clash fi kind a b ∧ tupleLtR fi lt a b = .error .typeError) ∨
    (¬ Clash fi kind a b ∧ tupleLtR fi lt a b = .ok (tupleLt fi (ranked kind r g) a b) ∧ tupleLt fi (ranked kind r g) a b = tupleLt fi r a b) := by
  intro a
  induction a with
  | nil =>
    intro b _ _
    right
    refine ⟨fun ⟨i, x, y, h1, _⟩ => by simp at h1, ?_, ?_⟩ <;> cases b <;> rfl
  | cons x xs ih =>
    intro b ha hb
    cases b with
    | nil => exact .inr ⟨fun ⟨i, x, y, _, h1, _⟩ => by simp at h1, rfl, rfl⟩
    | cons y ys =>
      have hx := ha x (by simp)
      have hy := hb y (by simp)
      cases e : pyEq fi true x y with
      | true =>
        simp only [tupleLtR, tupleLt, e, if_true, clash_cons e]
        exact ih ys (fun v hv => ha v (by simp [hv])) (fun v hv => hb v (by simp [hv]))
      | false =>
        simp only [tupleLtR, tupleLt, e, Bool.false_eq_true, if_false]
        by_cases hk : kind x = kind y
        · right
          refine ⟨?_, by rw [h.same x y hx hy e hk]; simp [ranked, hk], by simp [ranked, hk]⟩
          rintro ⟨i, u, v, h1, h2, h3, h4, h5⟩
          cases i with
          | zero =>
            simp only [List.getElem?_cons_zero, Option.some.injEq] at h1 h2
            subst h1 h2; exact h5 hk
          | succ i =>
            have := h3 0 x y (by omega) rfl rfl
            rw [e] at this; cases this
        · left
          exact ⟨⟨0, x, y, rfl, rfl, fun j _ _ hj => by omega, e, hk⟩, h.differ x y hx hy hk⟩

/-- Tuples that clash are the one way round or the other, as the order of the kinds is. -/
theorem clash_flip (h : Comparison fi kind lt r S) : ∀ a b : List Val, (∀ v ∈ a, S v) → (∀ v ∈ b, S v) → Clash fi kind a b →
    ∃ m n, m ≠ n ∧ ∀ g, tupleLt fi (ranked kind r g) a b = g m n ∧ tupleLt fi (ranked kind r g) b a = g n m := by
  intro a
  induction a with
  | nil => rintro b _ _ ⟨i, x, y, h1, _⟩; simp at h1
  | cons x xs ih =>
    intro b ha hb hc
    cases b with
    | nil => obtain ⟨i, x, y, _, h1, _⟩ := hc; simp at h1
    | cons y ys =>
      have hx := ha x (by simp)
      have hy := hb y (by simp)
      cases e : pyEq fi true x y with
      | true =>
        have e' : pyEq fi true y x = true := (h.orders (kind y)).eq_symm ⟨hx, h.equal x y hx hy e⟩ ⟨hy, rfl⟩ e
        simp only [tupleLt, e, e', if_true]
        exact ih ys (fun v hv => ha v (by simp [hv])) (fun v hv => hb v (by simp [hv])) ((clash_cons e).1 hc)
      | false =>
        obtain ⟨i, u, v, h1, h2, h3, h4, h5⟩ := hc
        cases i with
        | succ i =>
          have := h3 0 x y (by omega) rfl rfl
          rw [e] at this; cases this
        | zero =>
          simp only [List.getElem?_cons_zero, Option.some.injEq] at h1 h2
          subst h1 h2
          have e' : pyEq fi true y x = false := by
            cases q : pyEq fi true y x with
            | false => rfl
            | true => exact absurd (h.equal y x hy hx q).symm h5
          refine ⟨kind x, kind y, h5, fun g => ?_⟩
          simp only [tupleLt, e, e', Bool.false_eq_true, if_false]
          unfold ranked
          rw [if_neg h5, if_neg (fun q => h5 q.symm)]
          exact ⟨rfl, rfl⟩

end

/-! ### Sorting -/

section
variable {K V : Type}

/-- Comparisons that never raise and are in order: any stable sort is the stable sort. -/
theorem sortedItems_sortBy {alg : Nat → SortProg} (hs : StableSort alg) {ops : KeyOps K} {r : K → K → Bool} {conf : List (K × V)}
    (h : Answers ops r (conf.map (·.1))) (w : WeakOn r (conf.map (·.1))) :
    sortedItems alg ops conf = .ok (sortBy (fun p q => !r q.1 p.1) conf) := by
  cases hc : conf with
  | nil =>
    have : (alg 0).run (askKeys ops []) = .ok [] := by
      obtain ⟨l, e, p, -⟩ := hs 0 (fun _ _ => false) ⟨by simp, by simp⟩
      rw [sort_total (r := fun _ _ => false), e, List.perm_nil.1 p]
      intro i j; unfold askKeys; split <;> simp
    unfold sortedItems
    simp only [List.length_nil, List.map_nil, this]
    rfl
  | cons d rest =>
    rw [← hc]
    let f : Nat → K × V := fun i => conf.getD i d
    have hf : ∀ i (hi : i < conf.length), f i = conf[i] := fun i hi => by simp [f, List.getD, hi]
    have hconf : (List.range conf.length).map f = conf := by
      refine List.ext_getElem (by simp) fun i h1 h2 => ?_
      rw [List.getElem_map, List.getElem_range, hf i h2]
    let le : Nat → Nat → Bool := fun i j => !r (f j).1 (f i).1
    have mem : ∀ i, i < conf.length → (f i).1 ∈ conf.map (·.1) := fun i hi => by
      rw [hf i hi]; exact List.mem_map.2 ⟨_, List.getElem_mem hi, rfl⟩
    have wp := onPos_weak w
    rw [List.length_map] at wp
    obtain ⟨l, e, p, t⟩ := hs conf.length _ wp
    have pos : ∀ i j, i < conf.length → j < conf.length → onPos r (conf.map (·.1)) i j = r (f i).1 (f j).1 := by
      intro i j hi hj
      unfold onPos
      by_cases hij : i = j
      · subst hij
        rw [if_pos rfl]
        cases q : r (f i).1 (f i).1 with
        | false => rfl
        | true => have := w.1 _ (mem i hi) _ (mem i hi) q; rw [q] at this; cases this
      · simp [hij, hi, hj, hf]
    have sorted := sortBy_sorted_on (le := le) (S := (· < conf.length))
      (fun i j hi hj => by
        simp only [le]
        cases q : r (f j).1 (f i).1 with
        | false => exact .inl rfl
        | true => right; rw [w.1 _ (mem j hj) _ (mem i hi) q]; rfl)
      (fun i j k hi hj hk h1 h2 => by
        simp only [le, Bool.not_eq_true'] at h1 h2 ⊢
        cases q : r (f k).1 (f i).1 with
        | false => rfl
        | true =>
          rcases w.2 _ (mem k hk) _ (mem i hi) _ (mem j hj) q with q' | q'
          · rw [h2] at q'; cases q'
          · rw [h1] at q'; cases q') (List.range conf.length) (fun i hi => List.mem_range.1 hi)
    have hl : l = sortBy le (List.range conf.length) := by
      refine perm_sorted_unique (p.trans (sortBy_perm le _).symm) t ?_ fun i _ j _ h1 h2 => ?_
      · have nd : (sortBy le (List.range conf.length)).Nodup := (sortBy_perm le _).nodup_iff.2 List.nodup_range
        refine List.pairwise_iff_forall_sublist.2 fun {i j} hsub => ?_
        have hi := List.mem_range.1 (mem_sortBy.1 (hsub.subset (by simp : i ∈ [i, j])))
        have hj := List.mem_range.1 (mem_sortBy.1 (hsub.subset (by simp : j ∈ [i, j])))
        have h1 : le i j = true := List.pairwise_iff_forall_sublist.1 sorted hsub
        rw [pos j i hj hi, pos i j hi hj]
        refine ⟨by simpa [le] using h1, ?_⟩
        cases q : r (f i).1 (f j).1 with
        | true => exact .inl rfl
        | false =>
          right
          have hne : i ≠ j := by have := nd.sublist hsub; simpa using this
          rcases Nat.lt_or_gt_of_ne hne with h | h
          · exact h
          · exfalso
            have hji : [j, i].Sublist (List.range conf.length) := by
              have hsub2 : [j, i].Sublist (List.range (i + 1)) := by
                rw [List.range_succ]
                exact (List.singleton_sublist.2 (List.mem_range.2 h)).append (.refl [i])
              exact hsub2.trans (List.range_sublist.2 (by omega))
            have hs2 := sortBy_stable (le := le) hji (by simp [le, q])
            -- both before each other
            have both : ∀ {L : List Nat}, L.Nodup → [i, j].Sublist L → [j, i].Sublist L → False := by
              intro L
              induction L with
              | nil => intro _ h; cases h
              | cons x L ih =>
                intro hn h1 h2
                have hn' := List.nodup_cons.1 hn
                cases h1 with
                | cons _ h1 =>
                  cases h2 with
                  | cons _ h2 => exact ih hn'.2 h1 h2
                  | cons_cons _ h2 => exact hn'.1 (h1.subset (by simp))
                | cons_cons _ h1 =>
                  cases h2 with
                  | cons _ h2 => exact hn'.1 (h2.subset (by simp))
                  | cons_cons _ h2 => exact hne rfl
            exact both nd hsub hs2
      · by_cases hij : i = j
        · exact hij
        · have := h1.2.resolve_left (by rw [h2.1]; simp)
          have := h2.2.resolve_left (by rw [h1.1]; simp)
          omega
    unfold sortedItems
    rw [sort_total (askKeys_onPos h), e, hl]
    show Except.ok ((sortBy le (List.range conf.length)).filterMap (conf[·]?)) = _
    have hm : ∀ L : List Nat, (∀ i ∈ L, i < conf.length) → L.filterMap (conf[·]?) = L.map f := by
      intro L
      induction L with
      | nil => intro _; rfl
      | cons i L ih =>
        intro hL
        have hi := hL i (by simp)
        rw [List.filterMap_cons_some (b := conf[i]) (by simp [hi]), ih (fun j hj => hL j (by simp [hj])), List.map_cons, hf i hi]
    rw [hm _ (fun i hi => List.mem_range.1 (mem_sortBy.1 hi)), ← sortBy_map (le := le) (le' := fun p q => !r q.1 p.1) (f := f) (fun a b => rfl), hconf]

/-- Two orders that agree with every comparison that does not raise, but not with each other: any sort raises. -/
theorem sortedItems_raises {alg : Nat → SortProg} (hs : StableSort alg) {ops : KeyOps K} {conf : List (K × V)} {r1 r2 : K → K → Bool}
    (w1 : WeakOn r1 (conf.map (·.1))) (w2 : WeakOn r2 (conf.map (·.1)))
    (ok : ∀ a ∈ conf.map (·.1), ∀ b ∈ conf.map (·.1), (∃ x, ops.lt a b = .ok x ∧ r1 a b = x ∧ r2 a b = x) ∨ ops.lt a b = .error .typeError)
    {a b : K} (ha : a ∈ conf.map (·.1)) (hb : b ∈ conf.map (·.1)) (h1 : r1 a b = true) (h2 : r2 b a = true) (h3 : r2 a b = false) :
    sortedItems alg ops conf = .error .typeError := by
  have hrun : (alg conf.length).run (askKeys ops (conf.map (·.1))) = .error .typeError := by
    cases hrun : (alg conf.length).run (askKeys ops (conf.map (·.1))) with
    | error e =>
      refine congrArg _ (sort_error (e0 := .typeError) ?_ _ hrun)
      intro i j e h
      unfold askKeys at h
      split at h
      · cases h
      · split at h
        · next a b ha hb =>
          rcases ok a (List.mem_of_getElem? ha) b (List.mem_of_getElem? hb) with ⟨x, q, -⟩ | q
          · rw [q] at h; cases h
          · rw [q] at h; cases h; rfl
        · cases h
    | ok l =>
      exfalso
      have one : ∀ r : K → K → Bool, WeakOn r (conf.map (·.1)) →
          (∀ a ∈ conf.map (·.1), ∀ b ∈ conf.map (·.1), ∀ x, ops.lt a b = .ok x → r a b = x) →
          l.Perm (List.range conf.length) ∧ l.Pairwise fun i j => onPos r (conf.map (·.1)) j i = false := by
        intro r hw hok
        have hwo := onPos_weak hw
        rw [List.length_map] at hwo
        obtain ⟨l', e, p, s⟩ := hs _ _ hwo
        have := sort_congr (lt' := fun i j => .ok (onPos r (conf.map (·.1)) i j)) _ hrun (by
          intro i j b h
          unfold askKeys at h
          unfold onPos
          split at h
          · next hij => rw [if_pos hij]; exact h
          · next hij =>
            rw [if_neg hij]
            split at h
            · next a b ha hb =>
              rw [ha, hb]
              exact congrArg _ (hok a (List.mem_of_getElem? ha) b (List.mem_of_getElem? hb) _ h)
            · next hno =>
              cases ha : (conf.map (·.1))[i]? with
              | none => exact h
              | some a =>
                cases hb : (conf.map (·.1))[j]? with
                | none => exact h
                | some b => exact absurd hb (hno a b ha))
        rw [this] at e
        cases e
        exact ⟨p, s.imp fun h => h.1⟩
      obtain ⟨p, s1⟩ := one r1 w1 (fun a ha b hb x hx => by
        rcases ok a ha b hb with ⟨y, q, q1, -⟩ | q
        · rw [hx] at q; cases q; exact q1
        · rw [hx] at q; cases q)
      obtain ⟨-, s2⟩ := one r2 w2 (fun a ha b hb x hx => by
        rcases ok a ha b hb with ⟨y, q, -, q2⟩ | q
        · rw [hx] at q; cases q; exact q2
        · rw [hx] at q; cases q)
      obtain ⟨i, hi, rfl⟩ := List.getElem_of_mem ha
      obtain ⟨j, hj, rfl⟩ := List.getElem_of_mem hb
      have hij : i ≠ j := by rintro rfl; rw [h3] at h2; cases h2
      have hji : ¬ j = i := fun e => hij e.symm
      have see : ∀ r : K → K → Bool, onPos r (conf.map (·.1)) i j = r (conf.map (·.1))[i] (conf.map (·.1))[j] ∧
          onPos r (conf.map (·.1)) j i = r (conf.map (·.1))[j] (conf.map (·.1))[i] := by
        intro r
        have hi' : i < conf.length := by simpa using hi
        have hj' : j < conf.length := by simpa using hj
        constructor
        · simp [onPos, hij, hi', hj']
        · simp [onPos, hji, hi', hj']
      rcases pairwise_either (s1.and s2) (p.mem_iff.2 (List.mem_range.2 (by simpa using hi))) (p.mem_iff.2 (List.mem_range.2 (by simpa using hj))) with h | h | h
      · exact hij h
      · rw [(see r1).2, (see r2).2, h2] at h; cases h.2
      · rw [(see r1).1, (see r2).1, h1] at h; cases h.1
  unfold sortedItems
  rw [hrun]

end

/-! ### The claims -/

/-- The common part. -/
theorem answerAny_spec {alg : Nat → SortProg} (hs : StableSort alg) {fi : Str → Option Int} {kind : Val → Nat} {lt : Val → Val → R Bool} {r : Val → Val → Bool}
    {S : Val → Prop} (h : Comparison fi kind lt r S) {values : List (List Val)} {whats : List Val} (hl : values.length = whats.length)
    (hS : ∀ a ∈ values, ∀ v ∈ a, S v) :
    ((∀ a ∈ values, ∀ b ∈ values, ¬ Clash fi kind a b) → answerAny alg fi lt values whats = .ok (sortedAnswer fi r values whats)) ∧
    ((∃ a ∈ values, ∃ b ∈ values, Clash fi kind a b) → answerAny alg fi lt values whats = .error .typeError) := by
  have hz : (values.zip whats).map (·.1) = values := List.map_fst_zip (by omega)
  have up : Ranks fun m n => decide (m < n) := ⟨fun m n => by simp; omega, fun m n => by simp; omega, fun a b c => by simp; omega⟩
  have down : Ranks fun m n => decide (n < m) := ⟨fun m n => by simp; omega, fun m n => by simp; omega, fun a b c => by simp; omega⟩
  have weak : ∀ {g}, Ranks g → WeakOn (tupleLt fi (ranked kind r g)) values := fun hg =>
    ⟨fun a ha b hb => tupleLt_asymm (ranked_orders h hg) a b (hS a ha) (hS b hb),
      fun a ha b hb c hc => tupleLt_linear (ranked_orders h hg) a c b (hS a ha) (hS c hc) (hS b hb)⟩
  constructor
  · intro hno
    have agree : ∀ a ∈ values, ∀ b ∈ values, tupleLtR fi lt a b = .ok (tupleLt fi r a b) ∧ tupleLt fi (ranked kind r fun m n => decide (m < n)) a b = tupleLt fi r a b := by
      intro a ha b hb
      rcases tupleLtR_spec h (fun m n => decide (m < n)) a b (hS a ha) (hS b hb) with ⟨hc, -⟩ | ⟨-, h1, h2⟩
      · exact absurd hc (hno a ha b hb)
      · exact ⟨by rw [h1, h2], h2⟩
    have w := weak up
    have wr : WeakOn (tupleLt fi r) values := by
      constructor
      · intro a ha b hb
        rw [← (agree a ha b hb).2, ← (agree b hb a ha).2]
        exact w.1 a ha b hb
      · intro a ha b hb c hc
        rw [← (agree a ha b hb).2, ← (agree a ha c hc).2, ← (agree c hc b hb).2]
        exact w.2 a ha b hb c hc
    unfold answerAny sortedAnswer sortedByFirst
    rw [sortedItems_sortBy hs (r := tupleLt fi r) (by
      rw [hz]
      exact fun i j a b _ ha hb => (agree a (List.mem_of_getElem? ha) b (List.mem_of_getElem? hb)).1) (by rw [hz]; exact wr)]
  · rintro ⟨a, ha, b, hb, hc⟩
    obtain ⟨m, n, hmn, hg⟩ := clash_flip h a b (hS a ha) (hS b hb) hc
    have ok : ∀ a ∈ values, ∀ b ∈ values, (∃ x, (tupleOps fi lt).lt a b = .ok x ∧ tupleLt fi (ranked kind r fun m n => decide (m < n)) a b = x ∧
        tupleLt fi (ranked kind r fun m n => decide (n < m)) a b = x) ∨ (tupleOps fi lt).lt a b = .error .typeError := by
      intro a ha b hb
      rcases tupleLtR_spec h (fun m n => decide (m < n)) a b (hS a ha) (hS b hb) with ⟨-, q⟩ | ⟨hc, q1, q2⟩
      · exact .inr q
      · rcases tupleLtR_spec h (fun m n => decide (n < m)) a b (hS a ha) (hS b hb) with ⟨hc', -⟩ | ⟨-, q3, q4⟩
        · exact absurd hc' hc
        · exact .inl ⟨_, q1, rfl, by rw [q4, q2]⟩
    have up' := hg fun m n => decide (m < n)
    have down' := hg fun m n => decide (n < m)
    have raises : sortedItems alg (tupleOps fi lt) (values.zip whats) = .error .typeError := by
      rcases Nat.lt_or_gt_of_ne hmn with hlt | hlt
      · refine sortedItems_raises hs (r1 := tupleLt fi (ranked kind r fun m n => decide (m < n))) (r2 := tupleLt fi (ranked kind r fun m n => decide (n < m)))
          (by rw [hz]; exact weak up) (by rw [hz]; exact weak down) (by rw [hz]; exact ok) (a := a) (b := b) (by rw [hz]; exact ha) (by rw [hz]; exact hb) ?_ ?_ ?_
        · rw [up'.1]; simpa using hlt
        · rw [down'.2]; simpa using hlt
        · rw [down'.1]; simp; omega
      · refine sortedItems_raises hs (r1 := tupleLt fi (ranked kind r fun m n => decide (m < n))) (r2 := tupleLt fi (ranked kind r fun m n => decide (n < m)))
          (by rw [hz]; exact weak up) (by rw [hz]; exact weak down) (by rw [hz]; exact ok) (a := b) (b := a) (by rw [hz]; exact hb) (by rw [hz]; exact ha) ?_ ?_ ?_
        · rw [up'.2]; simpa using hlt
        · rw [down'.1]; simpa using hlt
        · rw [down'.2]; simp; omega
    unfold answerAny
    rw [raises]

/-- `sort_whats` raises TypeError exactly if two of the whats have values that cannot be compared where they first differ, in whichever order they are given
and whatever stable sort is used; otherwise it is as C37 says. -/
theorem c99_sort_whats {alg : Nat → SortProg} (hs : StableSort alg) {fi : Str → Option Int} {kind : Val → Nat} {lt : Val → Val → R Bool} {r : Val → Val → Bool}
    {S : Val → Prop} (h : Comparison fi kind lt r S) (whats : List What) (keys : List Val) (vals : What → List Val)
    (hv : ∀ w ∈ whats, ValuesOf fi keys w (vals w)) (hS : ∀ w ∈ whats, ∀ v ∈ vals w, S v) :
    ((∀ a ∈ whats, ∀ b ∈ whats, ¬ Clash fi kind (vals a) (vals b)) → sortWhatsAny alg fi lt whats keys = sortWhats fi r whats keys) ∧
    ((∃ a ∈ whats, ∃ b ∈ whats, Clash fi kind (vals a) (vals b)) → sortWhatsAny alg fi lt whats keys = .error .typeError) := by
  have e : mapR (fun w => whatvalues fi w (.tuple keys)) whats = .ok (whats.map vals) := mapR_pure fun w hw => valuesOf_mapR (hv w hw)
  have spec := answerAny_spec hs h (values := whats.map vals) (whats := whats.map What.toVal) (by simp) (by
    intro a ha v hv
    obtain ⟨w, hw, rfl⟩ := List.mem_map.1 ha
    exact hS w hw v hv)
  simp only [sortWhatsAny, sortWhats, e]
  constructor
  · intro hno
    refine spec.1 fun a ha b hb => ?_
    obtain ⟨w, hw, rfl⟩ := List.mem_map.1 ha
    obtain ⟨w', hw', rfl⟩ := List.mem_map.1 hb
    exact hno w hw w' hw'
  · rintro ⟨a, ha, b, hb, hc⟩
    exact spec.2 ⟨_, List.mem_map.2 ⟨a, ha, rfl⟩, _, List.mem_map.2 ⟨b, hb, rfl⟩, hc⟩

/-- The same for ids. -/
theorem c99_sort_whatids {alg : Nat → SortProg} (hs : StableSort alg) {E : Env} {kind : Val → Nat} {lt : Val → Val → R Bool} {r : Val → Val → Bool}
    {S : Val → Prop} (h : Comparison E.fi kind lt r S) (ids : List Str) (keys : List Val) (vals : Str → List Val)
    (hv : ∀ s ∈ ids, ∃ w, parseWhatid E s = .ok w ∧ ValuesOf E.fi keys w (vals s)) (hS : ∀ s ∈ ids, ∀ v ∈ vals s, S v) :
    ((∀ a ∈ ids, ∀ b ∈ ids, ¬ Clash E.fi kind (vals a) (vals b)) → sortWhatidsAny alg E lt ids keys = sortWhatids E r ids keys) ∧
    ((∃ a ∈ ids, ∃ b ∈ ids, Clash E.fi kind (vals a) (vals b)) → sortWhatidsAny alg E lt ids keys = .error .typeError) := by
  have e : mapR (idValues E keys) ids = .ok (ids.map vals) := mapR_pure fun s hs => by
    obtain ⟨w, h1, h2⟩ := hv s hs
    simp only [idValues, h1]
    exact valuesOf_mapR h2
  have spec := answerAny_spec hs h (values := ids.map vals) (whats := ids.map Val.str) (by simp) (by
    intro a ha v hv
    obtain ⟨w, hw, rfl⟩ := List.mem_map.1 ha
    exact hS w hw v hv)
  simp only [sortWhatidsAny, sortWhatids, e]
  constructor
  · intro hno
    refine spec.1 fun a ha b hb => ?_
    obtain ⟨w, hw, rfl⟩ := List.mem_map.1 ha
    obtain ⟨w', hw', rfl⟩ := List.mem_map.1 hb
    exact hno w hw w' hw'
  · rintro ⟨a, ha, b, hb, hc⟩
    exact spec.2 ⟨_, List.mem_map.2 ⟨a, ha, rfl⟩, _, List.mem_map.2 ⟨b, hb, rfl⟩, hc⟩

/-- Strings, integers and booleans, None. -/
def scalarKind : Val → Nat
  | .str _ => 0
  | .int _ => 1
  | .bool _ => 1
  | .none => 2
  | _ => 3

/-- `<` on values of one kind. -/
def scalarBelow (x y : Val) : Bool :=
  match scalarLt x y with
  | .ok b => b
  | .error _ => false

/-- Strings, integers, booleans and None are such values. -/
theorem c99_scalars (fi : Str → Option Int) : Comparison fi scalarKind scalarLt scalarBelow fun v => scalarKind v < 3 := by
  have num : ∀ v, scalarKind v = 1 → ∃ i : Int, (v = .int i ∨ ∃ b, v = .bool b ∧ i = if b then 1 else 0) := by
    intro v h
    cases v <;> simp [scalarKind] at h
    · exact ⟨_, .inr ⟨_, rfl, rfl⟩⟩
    · exact ⟨_, .inl rfl⟩
  have ltn : ∀ {x y : Val} {i j : Int}, (x = .int i ∨ ∃ b, x = .bool b ∧ i = if b then 1 else 0) → (y = .int j ∨ ∃ b, y = .bool b ∧ j = if b then 1 else 0) →
      scalarLt x y = .ok (decide (i < j)) ∧ pyEq fi true x y = decide (i = j) := by
    intro x y i j hx hy
    rcases hx with rfl | ⟨a, rfl, rfl⟩ <;> rcases hy with rfl | ⟨b, rfl, rfl⟩
    · exact ⟨rfl, by simp [pyEq, numKey, numEq]; rfl⟩
    · exact ⟨rfl, by simp [pyEq, numKey, numEq]; rfl⟩
    · exact ⟨rfl, by simp [pyEq, numKey, numEq]; rfl⟩
    · cases a <;> cases b <;> exact ⟨rfl, by simp [pyEq, numKey, numEq]⟩
  have txt : ∀ v, scalarKind v = 0 → ∃ s, v = .str s := by
    intro v h; cases v <;> simp [scalarKind] at h; exact ⟨_, rfl⟩
  have any : ∀ v, scalarKind v < 3 → (∃ s, v = .str s) ∨ (∃ i, v = .int i) ∨ (∃ b, v = .bool b) ∨ v = .none := by
    intro v h; cases v <;> simp [scalarKind] at h ⊢
  have non : ∀ v, scalarKind v = 2 → v = .none := by
    intro v h; cases v <;> simp [scalarKind] at h; rfl
  have below : ∀ {x y : Val} {i j : Int}, (x = .int i ∨ ∃ b, x = .bool b ∧ i = if b then 1 else 0) → (y = .int j ∨ ∃ b, y = .bool b ∧ j = if b then 1 else 0) →
      scalarBelow x y = decide (i < j) := by
    intro x y i j hx hy; unfold scalarBelow; rw [(ltn hx hy).1]
  have ex : ∀ s t : Str, scalarBelow (.str s) (.str t) = exLt (.str s) (.str t) := fun s t => rfl
  refine ⟨fun n => ?_, ?_, ?_, ?_⟩
  · match n with
    | 0 =>
      have o := orders_strings fi
      constructor
      · intro x y hx hy
        obtain ⟨s, rfl⟩ := txt x hx.2; obtain ⟨t, rfl⟩ := txt y hy.2
        exact o.asymm _ _ ⟨s, rfl⟩ ⟨t, rfl⟩
      · intro x y z hx hy hz
        obtain ⟨s, rfl⟩ := txt x hx.2; obtain ⟨t, rfl⟩ := txt y hy.2; obtain ⟨u, rfl⟩ := txt z hz.2
        exact o.linear _ _ _ ⟨s, rfl⟩ ⟨t, rfl⟩ ⟨u, rfl⟩
      · intro x y hx hy
        obtain ⟨s, rfl⟩ := txt x hx.2; obtain ⟨t, rfl⟩ := txt y hy.2
        exact o.equal _ _ ⟨s, rfl⟩ ⟨t, rfl⟩
    | 1 =>
      constructor
      · intro x y hx hy
        obtain ⟨i, hi⟩ := num x hx.2; obtain ⟨j, hj⟩ := num y hy.2
        rw [below hi hj, below hj hi]; simp; omega
      · intro x y z hx hy hz
        obtain ⟨i, hi⟩ := num x hx.2; obtain ⟨j, hj⟩ := num y hy.2; obtain ⟨k, hk⟩ := num z hz.2
        rw [below hi hk, below hi hj, below hj hk]; simp; omega
      · intro x y hx hy
        obtain ⟨i, hi⟩ := num x hx.2; obtain ⟨j, hj⟩ := num y hy.2
        rw [below hi hj, below hj hi, (ltn hi hj).2]; simp; omega
    | 2 =>
      constructor
      · intro x y hx hy
        rw [non x hx.2, non y hy.2]; intro h; cases h
      · intro x y z hx hy hz
        rw [non x hx.2, non y hy.2, non z hz.2]; intro h; cases h
      · intro x y hx hy
        rw [non x hx.2, non y hy.2]; exact ⟨fun _ => ⟨rfl, rfl⟩, fun _ => rfl⟩
    | n + 3 =>
      have no : ∀ v, ¬ (scalarKind v < 3 ∧ scalarKind v = n + 3) := fun v h => by omega
      exact ⟨fun x y hx => absurd hx (no x), fun x y z hx => absurd hx (no x), fun x y hx => absurd hx (no x)⟩
  · intro x y hx hy h
    rcases any x hx with ⟨s, rfl⟩ | ⟨a, rfl⟩ | ⟨a, rfl⟩ | rfl <;> rcases any y hy with ⟨t, rfl⟩ | ⟨b, rfl⟩ | ⟨b, rfl⟩ | rfl <;>
      first | rfl | (simp [pyEq, numKey] at h)
  · intro x y hx hy hne hk
    rcases any x hx with ⟨s, rfl⟩ | ⟨a, rfl⟩ | ⟨a, rfl⟩ | rfl <;> rcases any y hy with ⟨t, rfl⟩ | ⟨b, rfl⟩ | ⟨b, rfl⟩ | rfl <;>
      first | rfl | (simp [scalarKind] at hk; done) | (simp [pyEq] at hne; done)
  · intro x y hx hy hk
    rcases any x hx with ⟨s, rfl⟩ | ⟨a, rfl⟩ | ⟨a, rfl⟩ | rfl <;> rcases any y hy with ⟨t, rfl⟩ | ⟨b, rfl⟩ | ⟨b, rfl⟩ | rfl <;>
      first | rfl | exact absurd rfl hk

/-! ### Examples -/

/-- Numbers and None: TypeError, whatever the sort. -/
example {alg : Nat → SortProg} (hs : StableSort alg) (fi : Str → Option Int) :
    sortWhatsAny alg fi scalarLt [⟨c!"f", [(c!"a", .int 1)], [], none⟩, ⟨c!"f", [(c!"a", .none)], [], none⟩, ⟨c!"f", [(c!"a", .int 0)], [], none⟩] [.str c!"a"] = .error .typeError :=
  (c99_sort_whats hs (c99_scalars fi) _ _ (fun w => [(dget w.conf c!"a").getD .none]) (by simp [ValuesOf]; exact ⟨rfl, rfl, rfl⟩) (by simp [scalarKind, dget])).2
    ⟨⟨c!"f", [(c!"a", .int 1)], [], none⟩, by simp, ⟨c!"f", [(c!"a", .none)], [], none⟩, by simp, 0, .int 1, .none, rfl, rfl, by intro j _ _ h; omega, rfl, by decide⟩

/-- A tie in the first key lets the second key raise; without the tie it is not looked at. -/
example {alg : Nat → SortProg} (hs : StableSort alg) (fi : Str → Option Int) :
    sortWhatsAny alg fi scalarLt [⟨c!"f", [(c!"a", .int 1), (c!"b", .int 0)], [], none⟩, ⟨c!"f", [(c!"a", .bool true), (c!"b", .str c!"x")], [], none⟩] [.str c!"a", .str c!"b"] =
      .error .typeError ∧
    sortWhatsAny insertionAlg fi scalarLt [⟨c!"f", [(c!"a", .int 1), (c!"b", .int 0)], [], none⟩, ⟨c!"f", [(c!"a", .int 0), (c!"b", .str c!"x")], [], none⟩] [.str c!"a", .str c!"b"] =
      .ok (.tuple [.tuple [.what c!"f" [(c!"a", .int 0), (c!"b", .str c!"x")] [] none, .what c!"f" [(c!"a", .int 1), (c!"b", .int 0)] [] none],
        .tuple [.tuple [.int 0, .str c!"x"], .tuple [.int 1, .int 0]]]) := by
  refine ⟨(c99_sort_whats hs (c99_scalars fi) _ _ (fun w => [(dget w.conf c!"a").getD .none, (dget w.conf c!"b").getD .none]) (by simp [ValuesOf]; exact ⟨⟨rfl, rfl⟩, rfl, rfl⟩)
    (by simp [scalarKind, dget])).2 ⟨_, by simp; left; rfl, _, by simp; right; rfl, 1, .int 0, .str c!"x", rfl, rfl, ?_, rfl, by decide⟩, rfl⟩
  intro j u v hj hu hv
  obtain rfl : j = 0 := by omega
  cases hu; cases hv; rfl

example {alg : Nat → SortProg} (hs : StableSort alg) :
    sortWhatidsAny alg exEnv scalarLt [c!"L(lag=2)", c!"L(lag='a')"] [.str c!"lag"] = .error .typeError :=
  (c99_sort_whatids hs (c99_scalars exEnv.fi) _ _ (fun s => if s = c!"L(lag=2)" then [.int 2] else [.str c!"a"])
    (by
      intro s h
      simp only [List.mem_cons, List.not_mem_nil, or_false] at h
      rcases h with rfl | rfl
      · exact ⟨⟨c!"L", [(c!"lag", .int 2)], [], none⟩, rfl, rfl⟩
      · exact ⟨⟨c!"L", [(c!"lag", .str c!"a")], [], none⟩, rfl, rfl⟩)
    (by
      intro s h v hv
      split at hv <;> simp only [List.mem_cons, List.not_mem_nil, or_false] at hv <;> subst hv <;> decide)).2
    ⟨c!"L(lag=2)", by simp, c!"L(lag='a')", by simp, 0, .int 2, .str c!"a", rfl, rfl, by intro j _ _ h; omega, rfl, by decide⟩

end Whatami
