import Verif.HashSort
import Verif.Props.Hasher
import Verif.Props.SortAny

/-
C100: minijoblib's hash does not depend on how Python sorts.

Specification: `Spec.StableSort` (what is relied on of `sorted`), `Spec.Hash` (values that are alike), and `ByKind` below.
-/
namespace Whatami

/-- The elements are of one or more kinds: those of one kind are in order, those of different kinds cannot be compared; none is below itself. -/
def ByKind {α : Type} (lt : α → α → Option Bool) (l : List α) : Prop :=
  ∃ kind : α → Nat, (∀ n, Sortable lt (l.filter fun a => kind a == n)) ∧ (∀ a ∈ l, ∀ b ∈ l, kind a ≠ kind b → lt a b = none) ∧ ∀ a ∈ l, lt a a ≠ some true

/-- All dicts and sets inside are by kind; the keys of a dict that are of more than one kind have different hashes. -/
def AllByKind (E : HashEnv) : JVal → Prop :=
  Inside (fun ks => ByKind E.lt ks ∧ (Sortable E.lt ks ∨ (ks.map (hasherOf E)).Nodup)) (ByKind E.lt)

section Sorting
variable {α : Type} {lt : α → α → Option Bool}

theorem insertLt_insertBy {a : α} {l : List α} (h : ∀ b ∈ l, ∃ x, lt b a = some x) : insertLt lt a l = some (insertBy (fun p q => !(lt q p == some true)) a l) := by
  induction l with
  | nil => rfl
  | cons b l ih =>
    obtain ⟨x, hx⟩ := h b (.head _)
    simp only [insertLt, insertBy, hx]
    cases x with
    | true => simp [ih fun c hc => h c (.tail _ hc)]
    | false => simp

theorem sortLt_sortBy {l : List α} (h : l.Pairwise fun a b => ∃ x, lt b a = some x) : sortLt lt l = some (sortBy (fun p q => !(lt q p == some true)) l) := by
  induction l with
  | nil => rfl
  | cons a l ih =>
    obtain ⟨ha, hl⟩ := List.pairwise_cons.1 h
    simp only [sortLt, sortBy, ih hl, Option.bind_some]
    exact insertLt_insertBy fun b hb => ha b (mem_sortBy.1 hb)

/-- One below the other at different places. -/
theorem Sortable.either {l : List α} (h : Sortable lt l) {a b : α} (ha : a ∈ l) (hb : b ∈ l) :
    a = b ∨ (lt a b = some true ∧ lt b a = some false) ∨ (lt a b = some false ∧ lt b a = some true) := by
  rcases pairwise_either h.compared ha hb with e | e | e | e
  · exact .inl e
  · exact .inr e
  · exact .inr (.inr ⟨e.2, e.1⟩)
  · exact .inr (.inl ⟨e.2, e.1⟩)

/-- The order that ranks the kinds by `g`. -/
def kindOrder (lt : α → α → Option Bool) (kind : α → Nat) (g : Nat → Nat → Bool) (a b : α) : Bool :=
  if kind a = kind b then lt a b == some true else g (kind a) (kind b)

theorem kindOrder_weak {l : List α} {kind : α → Nat} (hs : ∀ n, Sortable lt (l.filter fun a => kind a == n)) (irr : ∀ a ∈ l, lt a a ≠ some true)
    {g : Nat → Nat → Bool} (hg : Ranks g) : WeakOn (kindOrder lt kind g) l := by
  have mem : ∀ a ∈ l, ∀ n, kind a = n → a ∈ l.filter fun a => kind a == n := fun a ha n e => List.mem_filter.2 ⟨ha, by simp [e]⟩
  constructor
  · intro a ha b hb
    unfold kindOrder
    by_cases e : kind a = kind b
    · rw [if_pos e, if_pos e.symm]
      rcases (hs (kind b)).either (mem a ha _ e) (mem b hb _ rfl) with q | q | q
      · subst q; intro h; exact absurd (by simpa using h) (irr a ha)
      · simp [q]
      · simp [q]
    · rw [if_neg e, if_neg (fun e' => e e'.symm)]; exact hg.1 _ _
  · intro a ha b hb c hc
    unfold kindOrder
    by_cases e : kind a = kind b
    · rw [if_pos e]
      by_cases e2 : kind a = kind c
      · rw [if_pos e2, if_pos (e2.symm.trans e)]
        intro h
        rcases (hs (kind b)).either (mem a ha _ e) (mem c hc _ (e2.symm.trans e)) with q | q | q
        · subst q; exact .inr h
        · left; simp [q]
        · right
          have := (hs (kind b)).trans c (mem c hc _ (e2.symm.trans e)) a (mem a ha _ e) b (mem b hb _ rfl) q.2 (by simpa using h)
          simp [this]
      · intro _
        rw [if_neg e2, if_neg (fun e3 => e2 (e.trans e3.symm)), ← e]
        exact hg.2.1 _ _ e2
    · rw [if_neg e]
      intro hab
      by_cases e2 : kind a = kind c
      · rw [← e2, if_neg e]; exact .inr hab
      · by_cases e3 : kind c = kind b
        · rw [if_neg e2, e3]; exact .inl hab
        · rw [if_neg e2, if_neg e3]; exact hg.2.2 _ _ _ hab e2 e3

theorem ranks_lt : Ranks fun m n => decide (m < n) := by
  refine ⟨fun m n h => ?_, fun m n h => ?_, fun a b c h h1 h2 => ?_⟩ <;> simp only [decide_eq_true_eq, decide_eq_false_iff_not] at * <;> omega

theorem ranks_gt : Ranks fun m n => decide (n < m) := by
  refine ⟨fun m n h => ?_, fun m n h => ?_, fun a b c h h1 h2 => ?_⟩ <;> simp only [decide_eq_true_eq, decide_eq_false_iff_not] at * <;> omega

theorem sorted_units (l : List α) (le : α → α → Bool) : (sortBy (fun p q : α × Unit => le p.1 q.1) (l.map fun a => (a, ()))).map (·.1) = sortBy le l := by
  rw [sortBy_map (le := le) (le' := fun p q : α × Unit => le p.1 q.1) (f := fun a => (a, ())) (fun a b => rfl), List.map_map]
  simp [Function.comp_def]

/-- One kind, or several. -/
theorem ByKind.cases {l : List α} (h : ByKind lt l) : Sortable lt l ∨ Clashing lt l := by
  obtain ⟨kind, hs, hn, -⟩ := h
  by_cases hk : ∃ a ∈ l, ∃ b ∈ l, kind a ≠ kind b
  · exact .inr ⟨kind, hk, hn⟩
  · left
    cases l with
    | nil => exact ⟨.nil, by simp⟩
    | cons d l =>
      have := hs (kind d)
      rwa [List.filter_eq_self.2 fun a ha => by simpa using Classical.byContradiction fun e => hk ⟨a, ha, d, .head _, e⟩] at this

/-- **C100, sorting** What is in order by kinds is sorted alike by every sort, and every sort raises TypeError if there are two kinds. -/
theorem c100_sort {alg : Nat → SortProg} (hs : StableSort alg) {l : List α} (h : ByKind lt l) :
    sortAny alg lt l = sortLt lt l ∧ (sortAny alg lt l = none ↔ Clashing lt l) ∧
    ∀ l', sortAny alg lt l = some l' → l'.Perm l ∧ l'.Pairwise fun a b => lt a b = some true := by
  have hkeys : (l.map fun a => (a, ())).map (·.1) = l := by rw [List.map_map]; simp [Function.comp_def]
  have main : sortAny alg lt l = sortLt lt l := by
    obtain ⟨kind, hsort, hnone, irr⟩ := h
    by_cases hk : ∃ a ∈ l, ∃ b ∈ l, kind a ≠ kind b
    · rw [clash_none ⟨kind, hk, hnone⟩]
      obtain ⟨a, ha, b, hb, hab⟩ := hk
      unfold sortAny
      have key : ∀ a b, a ∈ l → b ∈ l → kind a < kind b →
          sortedItems alg (ltOps lt) (l.map fun a => (a, ())) = .error .typeError := by
        intro a b ha hb hlt
        refine sortedItems_raises hs (r1 := kindOrder lt kind fun m n => decide (m < n)) (r2 := kindOrder lt kind fun m n => decide (n < m)) (a := a) (b := b)
          (by rw [hkeys]; exact kindOrder_weak hsort irr ranks_lt) (by rw [hkeys]; exact kindOrder_weak hsort irr ranks_gt) ?_ (by rwa [hkeys]) (by rwa [hkeys]) ?_ ?_ ?_
        · rw [hkeys]
          intro x hx y hy
          by_cases e : kind x = kind y
          · cases q : lt x y with
            | none => right; simp [ltOps, q]
            | some z => left; refine ⟨z, by simp [ltOps, q], ?_, ?_⟩ <;> unfold kindOrder <;> rw [if_pos e, q] <;> cases z <;> rfl
          · right; simp [ltOps, hnone x hx y hy e]
        · unfold kindOrder; rw [if_neg (by omega)]; simpa using hlt
        · unfold kindOrder; rw [if_neg (by omega)]; simpa using hlt
        · unfold kindOrder; rw [if_neg (by omega)]; simpa using Nat.le_of_lt hlt
      rcases Nat.lt_or_gt_of_ne hab with hlt | hlt
      · rw [key a b ha hb hlt]
      · rw [key b a hb ha hlt]
    · have hsl : Sortable lt l := by
        refine (ByKind.cases ⟨kind, hsort, hnone, irr⟩).resolve_right ?_
        rintro ⟨kind', ⟨a, ha, b, hb, hab⟩, hn⟩
        have e : kind a = kind b := Classical.byContradiction fun e => hk ⟨a, ha, b, hb, e⟩
        rcases (hsort (kind b)).either (a := a) (b := b) (List.mem_filter.2 ⟨ha, by simp [e]⟩) (List.mem_filter.2 ⟨hb, by simp⟩) with q | q | q
        · exact hab (by rw [q])
        · rw [hn a ha b hb hab] at q; cases q.1
        · rw [hn a ha b hb hab] at q; cases q.1
      have hw : WeakOn (fun a b => lt a b == some true) l := by
        have := kindOrder_weak (kind := fun _ => 0) (lt := lt) (l := l) (g := fun m n => decide (m < n)) (fun n => ?_) irr ranks_lt
        · have e : kindOrder lt (fun _ : α => 0) (fun m n => decide (m < n)) = fun a b => lt a b == some true := by funext a b; simp [kindOrder]
          rwa [e] at this
        · by_cases hn : n = 0
          · subst hn
            rw [List.filter_eq_self.2 (by simp)]; exact hsl
          · have : (l.filter fun _ => (0 == n)) = [] := by
              rw [List.filter_eq_nil_iff]; intro a _; simpa using fun e => hn e.symm
            rw [this]; exact ⟨.nil, by simp⟩
      have hans : Answers (ltOps lt) (fun a b => lt a b == some true) l := by
        intro i j a b hij hi hj
        have := List.pairwise_iff_getElem.1 hsl.compared
        have hi' := List.getElem?_eq_some_iff.1 hi
        have hj' := List.getElem?_eq_some_iff.1 hj
        obtain ⟨hi1, hi2⟩ := hi'
        obtain ⟨hj1, hj2⟩ := hj'
        rcases Nat.lt_or_gt_of_ne hij with h | h
        · have := this i j hi1 hj1 h
          rw [hi2, hj2] at this
          rcases this with q | q <;> simp [ltOps, q]
        · have := this j i hj1 hi1 h
          rw [hi2, hj2] at this
          rcases this with q | q <;> simp [ltOps, q]
      unfold sortAny
      rw [sortedItems_sortBy hs (r := fun a b => lt a b == some true) (by rw [hkeys]; exact hans) (by rw [hkeys]; exact hw)]
      rw [sortLt_sortBy (hsl.compared.imp fun {a b} q => by rcases q with q | q <;> exact ⟨_, q.2⟩)]
      exact congrArg some (sorted_units l fun p q => !(lt q p == some true))
  refine ⟨main, ?_, ?_⟩
  · rw [main]
    constructor
    · intro hn
      refine h.cases.resolve_left fun hs => ?_
      obtain ⟨l', e, _⟩ := sortLt_sorted hs
      rw [e] at hn; cases hn
    · exact clash_none
  · intro l' e
    rw [main] at e
    refine ⟨sortLt_perm e, ?_⟩
    rcases h.cases with hs | hc
    · obtain ⟨l'', e', hp⟩ := sortLt_sorted hs
      rw [e] at e'; cases e'; exact hp
    · rw [clash_none hc] at e; cases e

theorem hex_sort {β : Type} {alg : Nat → SortProg} (hs : StableSort alg) (f : β → Str) (l : List β) :
    sortAny alg (fun a b => hexLt (f a) (f b)) l = some (sortBy (fun a b => strLe (f a) (f b)) l) := by
  have hkeys : (l.map fun a => (a, ())).map (·.1) = l := by rw [List.map_map]; simp [Function.comp_def]
  unfold sortAny
  rw [sortedItems_sortBy hs (r := fun a b => !strLe (f b) (f a))]
  · have : (fun p q : β × Unit => !!strLe (f p.1) (f q.1)) = fun p q => strLe (f p.1) (f q.1) := by funext p q; simp
    rw [this]
    exact congrArg some (sorted_units l fun p q => strLe (f p) (f q))
  · intro i j a b _ _ _; rfl
  · refine ⟨fun a _ b _ h => ?_, fun a _ b _ c _ h => ?_⟩
    · rcases strLe_total (f a) (f b) with q | q
      · simp [q]
      · simp [q] at h
    · dsimp only at h ⊢
      cases q : strLe (f c) (f a) with
      | false => simp
      | true =>
        right
        cases q' : strLe (f b) (f c) with
        | false => rfl
        | true => rw [strLe_trans _ _ _ q' q] at h; cases h

theorem ByKind.ofMap {β : Type} {f : β → α} {l : List β} (h : ByKind lt (l.map f)) : ByKind (fun a b => lt (f a) (f b)) l := by
  obtain ⟨kind, h1, h2, h3⟩ := h
  refine ⟨fun a => kind (f a), fun n => ?_, fun a ha b hb => h2 _ (List.mem_map_of_mem ha) _ (List.mem_map_of_mem hb), fun a ha => h3 _ (List.mem_map_of_mem ha)⟩
  have := h1 n
  rw [List.filter_map] at this
  exact this.ofMap

end Sorting

/-! ### The hash -/

theorem orderItems_any {alg : Nat → SortProg} (hs : StableSort alg) {E : HashEnv} {l : List ((JVal × JVal) × (PNode × PNode))} (h : ByKind E.lt (l.map (·.1.1))) :
    orderItemsAny alg E l = orderItems E l := by
  unfold orderItemsAny orderItems
  rw [(c100_sort hs (h.ofMap (f := fun x : (JVal × JVal) × (PNode × PNode) => x.1.1))).1, hex_sort hs (fun x : Str × PNode => x.1)]
  rfl

theorem orderElems_any {alg : Nat → SortProg} (hs : StableSort alg) {E : HashEnv} {l : List (JVal × PNode)} (h : ByKind E.lt (l.map (·.1))) :
    orderElemsAny alg E l = orderElems E l := by
  unfold orderElemsAny orderElems
  rw [(c100_sort hs (h.ofMap (f := fun x : JVal × PNode => x.1))).1]
  have := hex_sort hs (fun s : Str => s) (l.map fun x => E.digest (dumpNode x.2))
  rw [this]
  rfl

theorem arrangeL_keys (E : HashEnv) (xs : List JVal) : (arrangeL E xs).map (·.1) = xs := by
  rw [arrangeL_map, List.map_map]; simp [Function.comp_def]

theorem arrangeD_keys (E : HashEnv) (kvs : List (JVal × JVal)) : (arrangeD E kvs).map (·.1.1) = kvs.map Prod.fst := by
  rw [arrangeD_map, List.map_map]; simp [Function.comp_def]

mutual
theorem arrange_any {alg : Nat → SortProg} (hs : StableSort alg) {E : HashEnv} : ∀ v, AllByKind E v → arrangeAny alg E v = arrange E v
  | .none, _ => rfl
  | .bool _, _ => rfl
  | .int _, _ => rfl
  | .float _, _ => rfl
  | .str _ _, _ => rfl
  | .tuple _ xs, h => by simp only [arrangeAny, arrange, arrange_anyL hs xs h]
  | .list _ xs, h => by simp only [arrangeAny, arrange, arrange_anyL hs xs h]
  | .dict _ kvs, h => by
    simp only [arrangeAny, arrange, arrange_anyD hs kvs h.2]
    rw [orderItems_any hs (by rw [arrangeD_keys]; exact h.1.1)]
  | .set _ xs, h => by
    simp only [arrangeAny, arrange, arrange_anyL hs xs h.2]
    rw [orderElems_any hs (by rw [arrangeL_keys]; exact h.1)]
  | .fset _ xs, h => by simp only [arrangeAny, arrange, arrange_anyL hs xs h]
  | .glob _ _, _ => rfl
  | .obj _ _ _ _ kvs, h => by
    simp only [arrangeAny, arrange, arrange_anyD hs kvs h.2]
    rw [orderItems_any hs (by rw [arrangeD_keys]; exact h.1.1)]
  | .builtin _ _, _ => rfl
  | .unbound _, _ => rfl
  | .meth _ x _ _, h => by simp only [arrangeAny, arrange, arrange_any hs x h]
  | .dtype _, _ => rfl
  | .arr _, _ => rfl
termination_by structural v => v
theorem arrange_anyL {alg : Nat → SortProg} (hs : StableSort alg) {E : HashEnv} : ∀ xs,
    InsideL (fun ks => ByKind E.lt ks ∧ (Sortable E.lt ks ∨ (ks.map (hasherOf E)).Nodup)) (ByKind E.lt) xs → arrangeAnyL alg E xs = arrangeL E xs
  | [], _ => rfl
  | x :: xs, h => by simp only [arrangeAnyL, arrangeL, arrange_any hs x h.1, arrange_anyL hs xs h.2]
termination_by structural xs => xs
theorem arrange_anyD {alg : Nat → SortProg} (hs : StableSort alg) {E : HashEnv} : ∀ kvs,
    InsideD (fun ks => ByKind E.lt ks ∧ (Sortable E.lt ks ∨ (ks.map (hasherOf E)).Nodup)) (ByKind E.lt) kvs → arrangeAnyD alg E kvs = arrangeD E kvs
  | [], _ => rfl
  | (k, v) :: xs, h => by simp only [arrangeAnyD, arrangeD, arrange_any hs k h.1, arrange_any hs v h.2.1, arrange_anyD hs xs h.2.2]
termination_by structural xs => xs
end

/-- **C100** The hash of a value is the same whatever Python's sort does, as long as it sorts. -/
theorem c100_hash {alg alg' : Nat → SortProg} (hs : StableSort alg) (hs' : StableSort alg') {E : HashEnv} {v : JVal} (h : AllByKind E v) :
    hasherAny alg E v = hasherAny alg' E v ∧ hasherAny alg E v = hasherOf E v := by
  unfold hasherAny hashDumpAny hasherOf hashDump
  rw [arrange_any hs v h, arrange_any hs' v h]
  exact ⟨rfl, rfl⟩

mutual
theorem insideV_weaken {D D' S S' : List JVal → Prop} (hd : ∀ l, D l → D' l) (hs : ∀ l, S l → S' l) : ∀ v, Inside D S v → Inside D' S' v
  | .tuple _ xs, h => insideL_weaken hd hs xs h
  | .list _ xs, h => insideL_weaken hd hs xs h
  | .fset _ xs, h => insideL_weaken hd hs xs h
  | .dict _ kvs, h => ⟨hd _ h.1, insideD_weaken hd hs kvs h.2⟩
  | .obj _ _ _ _ kvs, h => ⟨hd _ h.1, insideD_weaken hd hs kvs h.2⟩
  | .set _ xs, h => ⟨hs _ h.1, insideL_weaken hd hs xs h.2⟩
  | .meth _ x _ _, h => insideV_weaken hd hs x h
  | .none, _ | .bool _, _ | .int _, _ | .float _, _ | .str _ _, _ | .glob _ _, _ | .builtin _ _, _ | .unbound _, _ | .dtype _, _ | .arr _, _ => trivial
termination_by structural v => v
theorem insideL_weaken {D D' S S' : List JVal → Prop} (hd : ∀ l, D l → D' l) (hs : ∀ l, S l → S' l) : ∀ xs, InsideL D S xs → InsideL D' S' xs
  | [], _ => trivial
  | x :: xs, h => ⟨insideV_weaken hd hs x h.1, insideL_weaken hd hs xs h.2⟩
termination_by structural xs => xs
theorem insideD_weaken {D D' S S' : List JVal → Prop} (hd : ∀ l, D l → D' l) (hs : ∀ l, S l → S' l) : ∀ xs, InsideD D S xs → InsideD D' S' xs
  | [], _ => trivial
  | (k, v) :: xs, h => ⟨insideV_weaken hd hs k h.1, insideV_weaken hd hs v h.2.1, insideD_weaken hd hs xs h.2.2⟩
termination_by structural xs => xs
end

/-- **C100, order** Two values with the same contents have the same hash, also if they are hashed by Pythons that sort differently, whatever the order in which
dicts and sets are iterated. -/
theorem c100_order {alg alg' : Nat → SortProg} (hs : StableSort alg) (hs' : StableSort alg') {E : HashEnv} (hE : ComparesValues E) {v w : JVal}
    (hv : NoSharing v) (hw : NoSharing w) (bv : AllByKind E v) (bw : AllByKind E w) (h : Alike v w) : hasherAny alg E v = hasherAny alg' E w := by
  rw [(c100_hash hs hs bv).2, (c100_hash hs' hs' bw).2]
  refine c65_order hE hv hw (insideV_weaken (fun ks h => ?_) (fun xs h => ByKind.cases h) v bv) h
  rcases h with ⟨hk, h | h⟩
  · exact .inl h
  · rcases hk.cases with h' | h'
    · exact .inl h'
    · exact .inr ⟨h', h⟩

/-! ### Strings, numbers and None -/

/-- Strings, integers and booleans, None. -/
def plainKind : JVal → Option Nat
  | .str _ _ => some 0
  | .int _ | .bool _ => some 1
  | .none => some 2
  | _ => Option.none

/-- The number that a value is. -/
def plainNum : JVal → Option Int
  | .int i => some i
  | .bool b => some (if b then 1 else 0)
  | _ => Option.none

/-- `a == b`, for strings, numbers and None. -/
def PlainSame : JVal → JVal → Prop
  | .str _ s, .str _ t => s = t
  | .none, .none => True
  | a, b => ∃ i, plainNum a = some i ∧ plainNum b = some i

theorem plain_cases {a : JVal} {n : Nat} (h : plainKind a = some n) :
    (n = 0 ∧ ∃ i s, a = .str i s) ∨ (n = 1 ∧ ∃ i, plainNum a = some i) ∨ (n = 2 ∧ a = .none) := by
  cases a <;> simp [plainKind] at h <;> subst h <;> simp [plainNum]

theorem plainLt_num {a b : JVal} {i j : Int} (ha : plainNum a = some i) (hb : plainNum b = some j) : plainLt a b = some (decide (i < j)) := by
  cases a <;> simp [plainNum] at ha <;> cases b <;> simp [plainNum] at hb <;> subst ha <;> subst hb <;> simp [plainLt]
  rename_i x y
  cases x <;> cases y <;> rfl

theorem plainSame_num {a b : JVal} {i j : Int} (ha : plainNum a = some i) (hb : plainNum b = some j) : PlainSame a b ↔ i = j := by
  have e : PlainSame a b ↔ ∃ k, plainNum a = some k ∧ plainNum b = some k := by
    cases a <;> simp [plainNum] at ha <;> cases b <;> simp [plainNum] at hb <;> exact Iff.rfl
  rw [e, ha, hb]
  constructor
  · rintro ⟨k, h1, h2⟩; cases h1; cases h2; rfl
  · rintro rfl; exact ⟨i, rfl, rfl⟩

/-- **C100, plain** Strings, integers, booleans and None, no two of which are equal, are in order by kinds: sets of them, and dicts with such keys, are hashed
whatever the sort. -/
theorem c100_plain {l : List JVal} (hp : ∀ a ∈ l, (plainKind a).isSome) (hd : l.Pairwise fun a b => ¬ PlainSame a b) : ByKind plainLt l := by
  have irr : ∀ a, (plainKind a).isSome → plainLt a a ≠ some true := by
    intro a ha
    obtain ⟨n, hn⟩ := Option.isSome_iff_exists.1 ha
    rcases plain_cases hn with ⟨-, i, s, rfl⟩ | ⟨-, i, hi⟩ | ⟨-, rfl⟩
    · simp only [plainLt]; rcases strLe_total s s with h | h <;> simp [h]
    · rw [plainLt_num hi hi]; simp
    · simp [plainLt]
  refine ⟨fun a => (plainKind a).getD 3, fun n => ⟨?_, ?_⟩, ?_, fun a ha => irr a (hp a ha)⟩
  · refine List.Pairwise.imp_of_mem ?_ (hd.sublist List.filter_sublist)
    intro a b ha hb hne
    obtain ⟨ha1, ha2⟩ := List.mem_filter.1 ha
    obtain ⟨hb1, hb2⟩ := List.mem_filter.1 hb
    obtain ⟨x, hx⟩ := Option.isSome_iff_exists.1 (hp a ha1)
    obtain ⟨y, hy⟩ := Option.isSome_iff_exists.1 (hp b hb1)
    simp only [hx, hy, Option.getD_some, beq_iff_eq] at ha2 hb2
    subst ha2 hb2
    rcases plain_cases hx with ⟨h0, i, s, rfl⟩ | ⟨h0, i, hi⟩ | ⟨h0, rfl⟩ <;> rcases plain_cases hy with ⟨h1, j, t, rfl⟩ | ⟨h1, j, hj⟩ | ⟨h1, rfl⟩ <;>
      first | (exfalso; omega) | skip
    · have hst : s ≠ t := hne
      simp only [plainLt]
      rcases strLe_total s t with h | h
      · left
        have : strLe t s = false := by
          cases q : strLe t s with
          | false => rfl
          | true => exact absurd (strLe_antisymm _ _ h q) hst
        simp [h, this]
      · right
        have : strLe s t = false := by
          cases q : strLe s t with
          | false => rfl
          | true => exact absurd (strLe_antisymm _ _ q h) hst
        simp [h, this]
    · rw [plainSame_num hi hj] at hne
      rw [plainLt_num hi hj, plainLt_num hj hi]
      rcases Int.lt_or_gt_of_ne hne with h | h
      · left; refine ⟨by simp [h], by simp; omega⟩
      · right; refine ⟨by simp; omega, by simpa using h⟩
    · exact absurd trivial hne
  · intro a ha b hb c hc h1 h2
    obtain ⟨ha1, ha2⟩ := List.mem_filter.1 ha
    obtain ⟨hb1, hb2⟩ := List.mem_filter.1 hb
    obtain ⟨hc1, hc2⟩ := List.mem_filter.1 hc
    obtain ⟨x, hx⟩ := Option.isSome_iff_exists.1 (hp a ha1)
    obtain ⟨y, hy⟩ := Option.isSome_iff_exists.1 (hp b hb1)
    obtain ⟨z, hz⟩ := Option.isSome_iff_exists.1 (hp c hc1)
    simp only [hx, hy, hz, Option.getD_some, beq_iff_eq] at ha2 hb2 hc2
    subst ha2 hb2 hc2
    rcases plain_cases hx with ⟨h0, i, s, rfl⟩ | ⟨h0, i, hi⟩ | ⟨h0, rfl⟩ <;> rcases plain_cases hy with ⟨h1', j, t, rfl⟩ | ⟨h1', j, hj⟩ | ⟨h1', rfl⟩ <;>
      first | (exfalso; omega) | skip
    · rcases plain_cases hz with ⟨h2', k, u, rfl⟩ | ⟨h2', k, hk⟩ | ⟨h2', rfl⟩ <;> first | (exfalso; omega) | skip
      simp only [plainLt, Option.some.injEq, Bool.not_eq_true'] at h1 h2 ⊢
      cases q : strLe u s with
      | false => rfl
      | true =>
        rcases strLe_total s t with h | h
        · rw [strLe_trans _ _ _ q h] at h2; cases h2
        · rw [h] at h1; cases h1
    · rcases plain_cases hz with ⟨h2', k, u, rfl⟩ | ⟨h2', k, hk⟩ | ⟨h2', rfl⟩ <;> first | (exfalso; omega) | skip
      rw [plainLt_num hi hj] at h1
      rw [plainLt_num hj hk] at h2
      rw [plainLt_num hi hk]
      simp at h1 h2 ⊢
      omega
    · simp [plainLt] at h1
  · intro a ha b hb hab
    obtain ⟨x, hx⟩ := Option.isSome_iff_exists.1 (hp a ha)
    obtain ⟨y, hy⟩ := Option.isSome_iff_exists.1 (hp b hb)
    simp only [hx, hy, Option.getD_some] at hab
    rcases plain_cases hx with ⟨h0, i, s, rfl⟩ | ⟨h0, i, hi⟩ | ⟨h0, rfl⟩ <;> rcases plain_cases hy with ⟨h1, j, t, rfl⟩ | ⟨h1, j, hj⟩ | ⟨h1, rfl⟩ <;>
      first | (exfalso; omega) | rfl | skip
    · cases b <;> simp [plainNum] at hj <;> rfl
    · cases a <;> simp [plainNum] at hi <;> rfl
    · cases a <;> simp [plainNum] at hi <;> rfl

/-! ### When only some pairs cannot be compared -/

theorem askAll_run {r : Nat → Nat → Bool} (l : List (Nat × Nat)) (p : SortProg) : (askAll l p).run (fun i j => .ok (r i j)) = p.run fun i j => .ok (r i j) := by
  induction l with
  | nil => rfl
  | cons x l ih => exact ih

theorem eager_sorts : StableSort eagerAlg := by
  intro n lt h
  obtain ⟨l, e, r⟩ := insertion_sorts n lt h
  exact ⟨l, by rw [eagerAlg, askAll_run, e], r⟩

/-- `Fraction(1, 2)`, 1 and `Decimal(2)`. -/
def exFraction : JVal := .obj 1 c!"fractions" c!"Fraction" 2 []
/-- `Decimal(2)`. -/
def exDecimal : JVal := .obj 3 c!"decimal" c!"Decimal" 4 []

/-- Fractions and decimals are compared with integers, but not with each other; here the fraction is below the integers and the decimal is above. -/
def fracLt : JVal → JVal → Option Bool
  | .obj 1 _ _ _ _, .int _ => some true
  | .int _, .obj 1 _ _ _ _ => some false
  | .obj 3 _ _ _ _, .int _ => some false
  | .int _, .obj 3 _ _ _ _ => some true
  | _, _ => none

/-- **C100, finding** Where only some pairs cannot be compared, as a fraction and a decimal beside an integer, the hash depends on the sort and on the order of
iteration: a sort may or may not meet such a pair. -/
theorem c100_some_pairs (digest : Dump → Str) : StableSort insertionAlg ∧ StableSort eagerAlg ∧
    hashDumpAny insertionAlg ⟨fracLt, digest⟩ (.set 0 [.int 1, exDecimal, exFraction]) ≠ hashDumpAny eagerAlg ⟨fracLt, digest⟩ (.set 0 [.int 1, exDecimal, exFraction]) ∧
    hashDumpAny insertionAlg ⟨fracLt, digest⟩ (.set 0 [.int 1, exDecimal, exFraction]) ≠ hashDumpAny insertionAlg ⟨fracLt, digest⟩ (.set 0 [exFraction, exDecimal, .int 1]) ∧
    Alike (.set 0 [.int 1, exDecimal, exFraction]) (.set 0 [exFraction, exDecimal, .int 1]) := by
  have short : ∀ L : List Str, L.length = 3 → (dumpNode (consistentSet (L.map .str))).2.length = 20 := by
    intro L hL
    match L, hL with
    | [a, b, c], _ => rfl
  have e1 : (hashDumpAny insertionAlg ⟨fracLt, digest⟩ (.set 0 [.int 1, exDecimal, exFraction])).2.length = 32 := by
    have h1 : arrangeAny insertionAlg ⟨fracLt, digest⟩ (.set 0 [.int 1, exDecimal, exFraction]) =
        consistentSet [.inst (some 1) c!"fractions" c!"Fraction" (some 2) [], .int 1, .inst (some 3) c!"decimal" c!"Decimal" (some 4) []] := rfl
    unfold hashDumpAny
    rw [h1]
    decide
  have fall : ∀ (alg : Nat → SortProg), StableSort alg → ∀ xs : List JVal, xs.length = 3 →
      sortAny alg (fun a b : JVal × PNode => fracLt a.1 b.1) (arrangeAnyL alg ⟨fracLt, digest⟩ xs) = none → (arrangeAnyL alg ⟨fracLt, digest⟩ xs).length = 3 →
      (hashDumpAny alg ⟨fracLt, digest⟩ (.set 0 xs)).2.length = 20 := by
    intro alg hs xs hx hn hl
    unfold hashDumpAny
    simp only [arrangeAny, orderElemsAny, hn]
    refine short _ ?_
    have := hex_sort hs (fun s : Str => s) ((arrangeAnyL alg ⟨fracLt, digest⟩ xs).map fun x => digest (dumpNode x.2))
    rw [show sortAny alg hexLt _ = _ from this, Option.getD_some, (sortBy_perm _ _).length_eq, List.length_map, hl]
  refine ⟨insertion_sorts, eager_sorts, fun e => ?_, fun e => ?_, ?_⟩
  · have e2 := fall eagerAlg eager_sorts [.int 1, exDecimal, exFraction] rfl rfl rfl
    rw [← e, e1] at e2
    omega
  · have e2 := fall insertionAlg insertion_sorts [exFraction, exDecimal, .int 1] rfl rfl rfl
    rw [← e, e1] at e2
    omega
  · have obj : ∀ a m n b, Alike (.obj a m n b []) (.obj a m n b []) := fun a m n b =>
      .obj (l := []) (l' := []) (.refl _) (.refl _) rfl (fun i x y h => by simp at h) (fun i x y h => by simp at h)
    refine .set (l := [.int 1, exDecimal, exFraction]) (l' := [.int 1, exDecimal, exFraction]) (.refl _)
      ((List.Perm.swap _ _ _).trans (((List.Perm.swap _ _ _).cons _).trans (List.Perm.swap _ _ _)) |>.trans ?_) rfl ?_
    · exact .refl _
    · intro i x y h h'
      rw [h] at h'
      cases h'
      match i, h with
      | 0, h => cases h; exact .int 1
      | 1, h => cases h; exact obj _ _ _ _
      | 2, h => cases h; exact obj _ _ _ _

/-! ### An example -/

/-- Strings, numbers and None are compared as in Python; the "hash" tells pickles with the number 1 from the others. -/
def exPlain : HashEnv where
  lt := plainLt
  digest d := if .int 1 ∈ d.2 then c!"b" else c!"a"

theorem exPlain_values : ComparesValues exPlain := by
  intro a a' b b' h h'
  cases h <;> cases h' <;> rfl

/-- `{1: True, 'k': {None, 2, 'b', False}}`. -/
def exMixedV : JVal := .dict 0 [(.int 1, .bool true), (.str 1 c!"k", .set 2 [.none, .int 2, .str 3 c!"b", .bool false])]

/-- `{'k': {'b', False, 2, None}, 1: True}`. -/
def exMixedW : JVal := .dict 7 [(.str 8 c!"k", .set 9 [.str 6 c!"b", .bool false, .int 2, .none]), (.int 1, .bool true)]

theorem exMixedV_kinds : AllByKind exPlain exMixedV := by
  refine ⟨⟨c100_plain (by simp [plainKind]) ?_, .inr (by decide)⟩, trivial, trivial, trivial, ⟨c100_plain (by simp [plainKind]) ?_, trivial, trivial, trivial, trivial, trivial⟩, trivial⟩ <;>
    simp [PlainSame, plainNum]

theorem exMixedW_kinds : AllByKind exPlain exMixedW := by
  refine ⟨⟨c100_plain (by simp [plainKind]) ?_, .inr (by decide)⟩, trivial, ⟨c100_plain (by simp [plainKind]) ?_, trivial, trivial, trivial, trivial, trivial⟩, trivial, trivial, trivial⟩ <;>
    simp [PlainSame, plainNum]

theorem exMixed_alike : Alike exMixedV exMixedW := by
  refine .dict (l := [(.int 1, .bool true), (.str 1 c!"k", .set 2 [.none, .int 2, .str 3 c!"b", .bool false])])
    (l' := [(.int 1, .bool true), (.str 8 c!"k", .set 9 [.str 6 c!"b", .bool false, .int 2, .none])]) (.refl _) (.swap _ _ _) rfl ?_ ?_
  · intro i x y h h'
    match i, h, h' with
    | 0, h, h' => cases h; cases h'; exact .int 1
    | 1, h, h' => cases h; cases h'; exact .str _ _ _
  · intro i x y h h'
    match i, h, h' with
    | 0, h, h' => cases h; cases h'; exact .bool _
    | 1, h, h' =>
      cases h; cases h'
      refine .set (l := [.none, .int 2, .str 3 c!"b", .bool false]) (l' := [.none, .int 2, .str 6 c!"b", .bool false]) (.refl _)
        (List.Perm.trans (l₂ := [.str 6 c!"b", .bool false, .none, .int 2]) (((List.Perm.swap _ _ _).cons _).cons _) ?_) rfl ?_
      · exact (List.perm_append_comm (l₁ := [JVal.str 6 c!"b", .bool false]) (l₂ := [.none, .int 2]))
      · intro i x y h h'
        match i, h, h' with
        | 0, h, h' => cases h; cases h'; exact .none
        | 1, h, h' => cases h; cases h'; exact .int 2
        | 2, h, h' => cases h; cases h'; exact .str _ _ _
        | 3, h, h' => cases h; cases h'; exact .bool _

example : hasherAny insertionAlg exPlain exMixedV = hasherAny eagerAlg exPlain exMixedW :=
  c100_order insertion_sorts eager_sorts exPlain_values (by decide) (by decide) exMixedV_kinds exMixedW_kinds exMixed_alike

-- both cases of `c100_sort`
example : sortAny eagerAlg plainLt [.int 2, .bool true, .int 0] = some [.int 0, .bool true, .int 2] := rfl
example : sortAny eagerAlg plainLt [.int 2, .str 0 c!"a", .none] = none := rfl
example : Clashing plainLt [.int 2, .str 0 c!"a", .none] :=
  (c100_sort eager_sorts (c100_plain (by simp [plainKind]) (by simp [PlainSame, plainNum]))).2.1.1 rfl

end Whatami
