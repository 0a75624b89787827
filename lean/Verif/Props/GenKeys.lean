import Verif.Spec.StableSort
import Verif.BasicLemmas
import Verif.Encode

/-! # C98: configurations whose keys are not strings -/
namespace Whatami

variable {K V : Type}

/-! ### The example of a sort -/

theorem insertAsk_run {n : Nat} {lt : Nat → Nat → Bool} (w : WeakOrder n lt) {i : Nat} (hi : i < n) : ∀ (r : List Nat) (k : List Nat → SortProg),
    (∀ j ∈ r, j < i) → r.Pairwise (fun i j => lt j i = false ∧ (lt i j = true ∨ i < j)) →
    ∃ r', (insertAsk i r k).run (fun i j => .ok (lt i j)) = (k r').run (fun i j => .ok (lt i j)) ∧ r'.Perm (i :: r) ∧
      r'.Pairwise fun i j => lt j i = false ∧ (lt i j = true ∨ i < j) := by
  intro r
  induction r with
  | nil => exact fun k _ _ => ⟨[i], rfl, .refl _, by simp⟩
  | cons j r ih =>
    intro k hr hp
    have hj := hr j (by simp)
    obtain ⟨hp1, hp2⟩ := List.pairwise_cons.1 hp
    cases hb : lt i j with
    | true =>
      refine ⟨i :: j :: r, by simp [insertAsk, SortProg.run, hb], .refl _, List.pairwise_cons.2 ⟨fun x hx => ?_, hp⟩⟩
      rcases List.mem_cons.1 hx with rfl | hx
      · exact ⟨w.1 _ _ hi (by omega) hb, .inl hb⟩
      · have hxi := hr x (by simp [hx])
        have : lt i x = true := by
          rcases w.2 i j x hi (by omega) (by omega) hb with h | h
          · exact h
          · rw [(hp1 x hx).1] at h; cases h
        exact ⟨w.1 _ _ hi (by omega) this, .inl this⟩
    | false =>
      obtain ⟨r', h1, h2, h3⟩ := ih (fun r' => k (j :: r')) (fun x hx => hr x (by simp [hx])) hp2
      refine ⟨j :: r', by simp [insertAsk, SortProg.run, hb]; exact h1, ?_, List.pairwise_cons.2 ⟨fun x hx => ?_, h3⟩⟩
      · exact (List.Perm.cons j h2).trans (.swap _ _ _)
      · rcases List.mem_cons.1 (h2.mem_iff.1 hx) with rfl | hx
        · exact ⟨hb, .inr hj⟩
        · exact hp1 x hx

/-- Insertion sort is a stable sort. -/
theorem insertion_sorts : StableSort insertionAlg := by
  intro n lt w
  have go : ∀ (m i : Nat) (acc : List Nat), i + m = n → acc.Perm (List.range i) → acc.Pairwise (fun i j => lt j i = false ∧ (lt i j = true ∨ i < j)) →
      ∃ l, (insertionFrom i m acc).run (fun i j => .ok (lt i j)) = .ok l ∧ l.Perm (List.range n) ∧ l.Pairwise fun i j => lt j i = false ∧ (lt i j = true ∨ i < j) := by
    intro m
    induction m with
    | zero => 
      intro i acc h h1 h2
      have e : i = n := by omega
      rw [e] at h1
      exact ⟨acc, rfl, h1, h2⟩
    | succ m ih =>
      intro i acc h h1 h2
      obtain ⟨acc', e, p, s⟩ := insertAsk_run w (i := i) (by omega) acc (fun acc' => insertionFrom (i + 1) m acc')
        (fun j hj => List.mem_range.1 (h1.mem_iff.1 hj)) h2
      obtain ⟨l, hl⟩ := ih (i + 1) acc' (by omega) (by rw [List.range_succ]; exact (p.trans (.cons _ h1)).trans (List.perm_append_comm (l₁ := [i]))) s
      exact ⟨l, by rw [insertionFrom, e]; exact hl.1, hl.2⟩
  exact go n 0 [] (by omega) (.refl _) .nil

/-! ### Runs -/

theorem sort_congr {lt lt' : Nat → Nat → R Bool} : ∀ (p : SortProg) {l : List Nat}, p.run lt = .ok l → (∀ i j b, lt i j = .ok b → lt' i j = .ok b) →
    p.run lt' = .ok l := by
  intro p
  induction p with
  | done l => exact fun h _ => h
  | ask i j k ih =>
    intro l h hc
    simp only [SortProg.run] at h ⊢
    cases hl : lt i j with
    | error e => rw [hl] at h; cases h
    | ok b =>
      rw [hl] at h
      rw [hc i j b hl]
      exact ih b h hc

theorem sort_error {lt : Nat → Nat → R Bool} {e0 : Err} (he : ∀ i j e, lt i j = .error e → e = e0) : ∀ (p : SortProg) {e : Err}, p.run lt = .error e → e = e0 := by
  intro p
  induction p with
  | done l => intro e h; cases h
  | ask i j k ih =>
    intro e h
    simp only [SortProg.run] at h
    cases hl : lt i j with
    | error e' => rw [hl] at h; cases h; exact he i j _ hl
    | ok b => rw [hl] at h; exact ih b h

/-- No comparison raises. -/
theorem sort_total {lt : Nat → Nat → R Bool} {r : Nat → Nat → Bool} (h : ∀ i j, lt i j = .ok (r i j)) (p : SortProg) :
    p.run lt = p.run fun i j => .ok (r i j) := by
  have : lt = fun i j => .ok (r i j) := by funext i j; exact h i j
  rw [this]

/-- What is known of keys that are in order, at different places: comparisons do not raise and say `r`. -/
def Answers (ops : KeyOps K) (r : K → K → Bool) (ks : List K) : Prop :=
  ∀ (i j : Nat) a b, i ≠ j → ks[i]? = some a → ks[j]? = some b → ops.lt a b = .ok (r a b)

/-- `r` is a strict weak order of the keys. -/
def WeakOn (r : K → K → Bool) (ks : List K) : Prop :=
  (∀ a ∈ ks, ∀ b ∈ ks, r a b = true → r b a = false) ∧ ∀ a ∈ ks, ∀ b ∈ ks, ∀ c ∈ ks, r a b = true → r a c = true ∨ r c b = true

/-- The comparison of positions that a comparison of keys is. -/
def onPos (r : K → K → Bool) (ks : List K) (i j : Nat) : Bool :=
  if i = j then false
  else
    match ks[i]?, ks[j]? with
    | some a, some b => r a b
    | _, _ => false

theorem askKeys_onPos {ops : KeyOps K} {r : K → K → Bool} {ks : List K} (h : Answers ops r ks) (i j : Nat) : askKeys ops ks i j = .ok (onPos r ks i j) := by
  unfold askKeys onPos
  by_cases hij : i = j
  · simp [hij]
  · rw [if_neg hij, if_neg hij]
    cases hi : ks[i]? with
    | none => rfl
    | some a =>
      cases hj : ks[j]? with
      | none => rfl
      | some b => exact h i j a b hij hi hj

theorem onPos_weak {r : K → K → Bool} {ks : List K} (w : WeakOn r ks) : WeakOrder ks.length (onPos r ks) := by
  have irr : ∀ a ∈ ks, r a a = false := by
    intro a ha
    cases h : r a a with
    | false => rfl
    | true => have := w.1 a ha a ha h; rw [h] at this; cases this
  have key : ∀ i j (hi : i < ks.length) (hj : j < ks.length), onPos r ks i j = r ks[i] ks[j] := by
    intro i j hi hj
    unfold onPos
    by_cases h : i = j
    · subst h; simp [irr _ (List.getElem_mem hi)]
    · simp [h, hi, hj]
  constructor
  · intro i j hi hj h
    rw [key i j hi hj] at h
    rw [key j i hj hi]
    exact w.1 _ (List.getElem_mem _) _ (List.getElem_mem _) h
  · intro i j k hi hj hk h
    rw [key i j hi hj] at h
    rw [key i k hi hk, key k j hk hj]
    exact w.2 _ (List.getElem_mem _) _ (List.getElem_mem _) _ (List.getElem_mem _) h

theorem filterMap_range {α : Type} (l : List α) : (List.range l.length).filterMap (l[·]?) = l := by
  induction l with
  | nil => rfl
  | cons a l ih =>
    rw [List.length_cons, List.range_succ_eq_map, List.filterMap_cons_some (b := a) (by simp), List.filterMap_map]
    congr 1

/-- What `sorted` gives: the items, each below those after it or not comparable with them and before them at first. -/
theorem sortedItems_spec {alg : Nat → SortProg} (hs : StableSort alg) {ops : KeyOps K} {r : K → K → Bool} {conf : List (K × V)}
    (h : Answers ops r (conf.map (·.1))) (w : WeakOn r (conf.map (·.1))) :
    ∃ items, sortedItems alg ops conf = .ok items ∧ items.Perm conf ∧ items.Pairwise fun a b => r b.1 a.1 = false := by
  have w' := onPos_weak w
  rw [List.length_map] at w'
  obtain ⟨l, e, p, s⟩ := hs conf.length _ w'
  refine ⟨l.filterMap (conf[·]?), ?_, ?_, ?_⟩
  · unfold sortedItems
    rw [sort_total (askKeys_onPos h), e]
  · have := p.filterMap (conf[·]?)
    rwa [filterMap_range] at this
  · rw [List.pairwise_filterMap]
    refine (List.Pairwise.and s (List.Pairwise.imp (S := fun i j : Nat => i ≠ j) (fun h => h) ?_)).imp ?_
    · exact (p.nodup_iff.2 List.nodup_range)
    · intro i j hij a ha b hb
      have h1 := hij.1.1
      unfold onPos at h1
      rw [if_neg (fun h => hij.2 h.symm)] at h1
      simpa [ha, hb] using h1

theorem perm_sorted_unique {α : Type} {S : α → α → Prop} {l l' : List α} (p : l.Perm l') (h : l.Pairwise S) (h' : l'.Pairwise S)
    (anti : ∀ a ∈ l, ∀ b ∈ l, S a b → S b a → a = b) : l = l' := by
  induction l generalizing l' with
  | nil => exact (List.nil_perm.1 p).symm
  | cons a l ih =>
    cases l' with
    | nil => exact absurd p.length_eq (by simp)
    | cons b l' =>
      obtain ⟨h1, h2⟩ := List.pairwise_cons.1 h
      obtain ⟨h1', h2'⟩ := List.pairwise_cons.1 h'
      have hab : a = b := by
        rcases List.mem_cons.1 (p.mem_iff.1 (List.mem_cons_self ..) : a ∈ b :: l') with e | ha
        · exact e
        · rcases List.mem_cons.1 (p.mem_iff.2 (List.mem_cons_self ..) : b ∈ a :: l) with e | hb
          · exact e.symm
          · exact anti a (by simp) b (by simp [hb]) (h1 b hb) (h1' a ha)
      subst hab
      rw [ih p.cons_inv h2 h2' (fun x hx y hy => anti x (by simp [hx]) y (by simp [hy]))]

/-- Of two members of a list one comes before the other. -/
theorem pairwise_either {α : Type} {S : α → α → Prop} {l : List α} (h : l.Pairwise S) {a b : α} (ha : a ∈ l) (hb : b ∈ l) : a = b ∨ S a b ∨ S b a := by
  induction l with
  | nil => cases ha
  | cons x l ih =>
    obtain ⟨h1, h2⟩ := List.pairwise_cons.1 h
    rcases List.mem_cons.1 ha with rfl | ha'
    · rcases List.mem_cons.1 hb with rfl | hb'
      · exact .inl rfl
      · exact .inr (.inl (h1 b hb'))
    · rcases List.mem_cons.1 hb with rfl | hb'
      · exact .inr (.inr (h1 a ha'))
      · exact ih h2 ha' hb'

/-- Keys that are in order: the result of `sorted` does not depend on how they are given. -/
theorem sortedItems_perm {alg : Nat → SortProg} (hs : StableSort alg) {ops : KeyOps K} {conf conf' : List (K × V)} {r : K → K → Bool}
    (p : conf.Perm conf') (hr : ∀ a ∈ conf.map (·.1), ∀ b ∈ conf.map (·.1), ops.lt a b = .ok (r a b)) (hw : WeakOn r (conf.map (·.1)))
    (tot : (conf.map (·.1)).Pairwise fun a b => r a b = true ∨ r b a = true) : sortedItems alg ops conf = sortedItems alg ops conf' := by
  have pm := (p.map (·.1))
  obtain ⟨s, e, q, t⟩ := sortedItems_spec hs (fun i j a b _ ha hb => hr a (List.mem_of_getElem? ha) b (List.mem_of_getElem? hb)) hw
  obtain ⟨s', e', q', t'⟩ := sortedItems_spec (conf := conf') (r := r) hs
    (fun i j a b _ ha hb => hr a (pm.mem_iff.2 (List.mem_of_getElem? ha)) b (pm.mem_iff.2 (List.mem_of_getElem? hb)))
    ⟨fun a ha b hb => hw.1 a (pm.mem_iff.2 ha) b (pm.mem_iff.2 hb), fun a ha b hb c hc => hw.2 a (pm.mem_iff.2 ha) b (pm.mem_iff.2 hb) c (pm.mem_iff.2 hc)⟩
  rw [e, e']
  congr 1
  refine perm_sorted_unique (q.trans (p.trans q'.symm)) t t' fun a ha b hb h1 h2 => ?_
  rcases pairwise_either (List.pairwise_map.1 tot) (q.mem_iff.1 ha) (q.mem_iff.1 hb) with h | h | h
  · exact h
  · simp [h1, h2] at h
  · simp [h1, h2] at h

/-! ### The claims -/

/-- With string keys this is the model of the other claims. -/
theorem c98_strings {alg : Nat → SortProg} (hs : StableSort alg) (sha1 : Str → Str) (bs : BS) (w : What) (u : (w.conf.map (·.1)).Nodup) (nonidsToo : Bool)
    (maxlength : Int) :
    genId alg sha1 pyKeyOps bs ⟨w.name, w.conf.map fun kv => (.str kv.1, kv.2), w.nonids.map .str, w.out⟩ nonidsToo maxlength =
      whatId sha1 bs w nonidsToo maxlength := by
  let f : Str × Val → PyKey × Val := fun kv => (.str kv.1, kv.2)
  let r : PyKey → PyKey → Bool := fun a b => match a, b with | .str a, .str b => !strLe b a | _, _ => false
  have hks : ∀ k, k ∈ (w.conf.map f).map (·.1) ↔ ∃ s ∈ w.conf.map (·.1), k = .str s := by
    intro k
    simp only [List.map_map, List.mem_map, Function.comp]
    constructor
    · rintro ⟨a, ha, rfl⟩; exact ⟨a.1, ⟨a, ha, rfl⟩, rfl⟩
    · rintro ⟨s, ⟨a, ha, rfl⟩, rfl⟩; exact ⟨a, ha, rfl⟩
  obtain ⟨s, e, q, t⟩ := sortedItems_spec (alg := alg) (ops := pyKeyOps) (r := r) (conf := w.conf.map f) hs
    (by
      intro i j a b _ ha hb
      obtain ⟨x, -, rfl⟩ := (hks a).1 (List.mem_of_getElem? ha)
      obtain ⟨y, -, rfl⟩ := (hks b).1 (List.mem_of_getElem? hb)
      rfl)
    (by
      constructor
      · intro a ha b hb
        obtain ⟨x, -, rfl⟩ := (hks a).1 ha
        obtain ⟨y, -, rfl⟩ := (hks b).1 hb
        show (!strLe y x) = true → (!strLe x y) = false
        rcases strLe_total x y with h | h <;> simp [h]
      · intro a ha b hb c hc
        obtain ⟨x, -, rfl⟩ := (hks a).1 ha
        obtain ⟨y, -, rfl⟩ := (hks b).1 hb
        obtain ⟨z, -, rfl⟩ := (hks c).1 hc
        show (!strLe y x) = true → (!strLe z x) = true ∨ (!strLe y z) = true
        cases h1 : strLe z x <;> cases h2 : strLe y z <;> simp
        exact strLe_trans _ _ _ h2 h1)
  have hsort : s = (sortBy keyLe w.conf).map f := by
    refine perm_sorted_unique (q.trans ((sortBy_perm keyLe w.conf).symm.map f)) t ?_ ?_
    · rw [List.pairwise_map]
      refine (sortBy_sorted (le := keyLe) (fun a b => strLe_total _ _) (fun a b c => strLe_trans _ _ _) w.conf).imp fun {a b} h => ?_
      show (!strLe a.1 b.1) = false
      have : strLe a.1 b.1 = true := h
      simp [this]
    · intro a ha b hb h1 h2
      obtain ⟨x, hx, rfl⟩ := List.mem_map.1 (q.mem_iff.1 ha)
      obtain ⟨y, hy, rfl⟩ := List.mem_map.1 (q.mem_iff.1 hb)
      have h1 : strLe x.1 y.1 = true := by simpa [r, f] using h1
      have h2 : strLe y.1 x.1 = true := by simpa [r, f] using h2
      have hk := strLe_antisymm _ _ h1 h2
      rcases pairwise_either (List.pairwise_map.1 u) hx hy with h | h | h
      · rw [h]
      · exact absurd hk h
      · exact absurd hk.symm h
  have hstr : genIdStr alg pyKeyOps bs ⟨w.name, w.conf.map f, w.nonids.map .str, w.out⟩ nonidsToo = idStr bs w nonidsToo := by
    unfold genIdStr idStr idItems
    rw [show sortedItems alg pyKeyOps (w.conf.map f) = _ from e, hsort]
    have hn : ∀ kv, GenWhat.nonId pyKeyOps ⟨w.name, w.conf.map f, w.nonids.map .str, w.out⟩ (f kv).1 = w.nonids.contains kv.1 := by
      intro kv
      simp only [GenWhat.nonId, List.any_map, Function.comp, pyKeyOps, PyKey.same, f]
      induction w.nonids with
      | nil => rfl
      | cons a l ih => simp only [List.any_cons, List.contains_cons, ih]; by_cases h : kv.1 = a <;> simp [h]
    have hm : ∀ l : Conf, mapR (genKvStr pyKeyOps bs) ((l.map f).filter fun kv => nonidsToo || !GenWhat.nonId pyKeyOps ⟨w.name, w.conf.map f, w.nonids.map .str, w.out⟩ kv.1) =
        mapR (kvStr bs) (l.filter fun kv => nonidsToo || !w.nonids.contains kv.1) := by
      intro l
      induction l with
      | nil => rfl
      | cons a l ih =>
        simp only [List.map_cons, List.filter_cons, hn]
        split
        · simp only [mapR, ih]; rfl
        · exact ih
    simp only [hm]
    rfl
  unfold genId whatId
  rw [show genIdStr alg pyKeyOps bs ⟨w.name, w.conf.map fun kv => (.str kv.1, kv.2), w.nonids.map .str, w.out⟩ nonidsToo = _ from hstr]
  rfl

/-- If the keys can be compared and are in order, the id does not depend on the order in which they were given. -/
theorem c98_order {alg : Nat → SortProg} (hs : StableSort alg) (sha1 : Str → Str) (ops : KeyOps K) (bs : BS) {w w' : GenWhat K} {r : K → K → Bool}
    (same : w'.name = w.name ∧ w'.nonids = w.nonids ∧ w'.out = w.out) (p : w.conf.Perm w'.conf)
    (hr : ∀ a ∈ w.conf.map (·.1), ∀ b ∈ w.conf.map (·.1), ops.lt a b = .ok (r a b)) (hw : WeakOn r (w.conf.map (·.1)))
    (tot : (w.conf.map (·.1)).Pairwise fun a b => r a b = true ∨ r b a = true) (nonidsToo : Bool) (maxlength : Int) :
    genId alg sha1 ops bs w nonidsToo maxlength = genId alg sha1 ops bs w' nonidsToo maxlength ∧
      genKeys alg ops w nonidsToo = genKeys alg ops w' nonidsToo := by
  obtain ⟨h1, h2, h3⟩ := same
  have hn : ∀ k, w'.nonId ops k = w.nonId ops k := fun k => by unfold GenWhat.nonId; rw [h2]
  constructor
  · unfold genId genIdStr
    rw [sortedItems_perm hs p hr hw tot, h1, h3]
    simp only [hn]
  · unfold genKeys
    cases nonidsToo with
    | true => simp only [if_true]; rw [sortedItems_perm hs p hr hw tot]
    | false =>
      simp only [Bool.false_eq_true, if_false, hn]
      have sub : (w.conf.filter fun kv => !w.nonId ops kv.1).Sublist w.conf := List.filter_sublist
      have mem : ∀ a ∈ (w.conf.filter fun kv => !w.nonId ops kv.1).map (·.1), a ∈ w.conf.map (·.1) := fun a ha => (sub.map _).subset ha
      rw [sortedItems_perm hs (p.filter _) (fun a ha b hb => hr a (mem a ha) b (mem b hb))
        ⟨fun a ha b hb => hw.1 a (mem a ha) b (mem b hb), fun a ha b hb c hc => hw.2 a (mem a ha) b (mem b hb) c (mem c hc)⟩ (tot.sublist (sub.map _))]

/-- Keys of two kinds that Python does not compare: `id` raises TypeError, in whichever order they were given, even if all keys of one kind are not for the
id.  `keys` raises as well if it lists them. -/
theorem c98_mixed {alg : Nat → SortProg} (hs : StableSort alg) (sha1 : Str → Str) (ops : KeyOps K) (bs : BS) {w : GenWhat K} {r : K → K → Bool} {kind : K → Nat}
    (hr : ∀ (i j : Nat) a b, i ≠ j → (w.conf.map (·.1))[i]? = some a → (w.conf.map (·.1))[j]? = some b →
      ops.lt a b = if kind a = kind b then .ok (r a b) else .error .typeError)
    (hw : ∀ n, WeakOn r ((w.conf.map (·.1)).filter fun k => kind k = n))
    (two : ∃ a ∈ w.conf, ∃ b ∈ w.conf, kind a.1 ≠ kind b.1) (nonidsToo : Bool) (maxlength : Int) :
    genId alg sha1 ops bs w nonidsToo maxlength = .error .typeError ∧ genKeys alg ops w true = .error .typeError := by
  have main : sortedItems alg ops w.conf = .error .typeError := by
    let ks := w.conf.map (·.1)
    have hbad : ∀ i j e, askKeys ops ks i j = .error e → e = .typeError := by
      intro i j e h
      unfold askKeys at h
      split at h
      · cases h
      · next hij =>
        split at h
        · next a b ha hb =>
          rw [hr i j a b hij ha hb] at h
          split at h
          · cases h
          · cases h; rfl
        · cases h
    have hrun : (alg w.conf.length).run (askKeys ops ks) = .error .typeError := by
      cases hrun : (alg w.conf.length).run (askKeys ops ks) with
      | error e => rw [sort_error hbad _ hrun]
      | ok l =>
        exfalso
        -- the answers that were given do not say which kind is below which
        have one : ∀ g : Nat → Nat → Bool, (∀ m n, m ≠ n → g m n = true → g n m = false) → (∀ m n, m ≠ n → g m n = true ∨ g n m = true) →
            (∀ a b c, g a b = true → a ≠ c → c ≠ b → g a c = true ∨ g c b = true) →
            (l.Perm (List.range w.conf.length) ∧ l.Pairwise fun i j => onPos (fun a b => if kind a = kind b then r a b else g (kind a) (kind b)) ks j i = false) := by
          intro g g1 gt g2
          have hwk : WeakOn (fun a b => if kind a = kind b then r a b else g (kind a) (kind b)) ks := by
            have hm : ∀ a ∈ ks, ∀ n, kind a = n → a ∈ ks.filter fun k => kind k = n := fun a ha n h => List.mem_filter.2 ⟨ha, by simp [h]⟩
            constructor
            · intro a ha b hb
              by_cases h : kind a = kind b
              · simp only [h, if_true]
                exact (hw (kind b)).1 a (hm a ha _ h) b (hm b hb _ rfl)
              · have h' : kind b ≠ kind a := fun e => h e.symm
                simp only [h, h', if_false]
                exact g1 _ _ h
            · intro a ha b hb c hc
              by_cases h : kind a = kind b
              · by_cases h2 : kind a = kind c
                · have h3 : kind c = kind b := h2 ▸ h
                  simp only [h, h3, if_true]
                  exact (hw (kind b)).2 a (hm a ha _ h) b (hm b hb _ rfl) c (hm c hc _ h3)
                · have h3 : kind c ≠ kind b := fun e => h2 (h.trans e.symm)
                  simp only [h2, h3, if_false]
                  intro _
                  rw [h]
                  exact gt _ _ (fun e => h3 e.symm)
              · simp only [h, if_false]
                intro hg
                by_cases h2 : kind a = kind c
                · rw [← h2, if_neg h]; exact .inr hg
                · by_cases h3 : kind c = kind b
                  · rw [if_neg h2, h3]; exact .inl hg
                  · rw [if_neg h2, if_neg h3]; exact g2 _ _ _ hg h2 h3
          have hwo := onPos_weak hwk
          rw [List.length_map] at hwo
          obtain ⟨l', e, p, s⟩ := hs _ _ hwo
          have := sort_congr (lt' := fun i j => .ok (onPos (fun a b => if kind a = kind b then r a b else g (kind a) (kind b)) ks i j)) _ hrun (by
            intro i j b h
            unfold askKeys at h
            unfold onPos
            by_cases hij : i = j
            · simp only [hij, if_true] at h ⊢; exact h
            · simp only [hij, if_false] at h ⊢
              cases ha : ks[i]? with
              | none => rw [ha] at h; exact h
              | some x =>
                cases hb : ks[j]? with
                | none => rw [ha, hb] at h; exact h
                | some y =>
                  rw [ha, hb] at h
                  simp only at h ⊢
                  rw [hr i j x y hij ha hb] at h
                  split at h
                  · next hk => rw [if_pos hk]; exact h
                  · cases h)
          rw [this] at e
          cases e
          exact ⟨p, s.imp fun h => h.1⟩
        obtain ⟨p, s1⟩ := one (fun m n => decide (m < n)) (fun m n _ => by simp; omega) (fun m n _ => by simp; omega) (fun a b c => by simp; omega)
        obtain ⟨-, s2⟩ := one (fun m n => decide (n < m)) (fun m n _ => by simp; omega) (fun m n _ => by simp; omega) (fun a b c => by simp; omega)
        obtain ⟨a, ha, b, hb, hab⟩ := two
        obtain ⟨i, hi, rfl⟩ := List.getElem_of_mem ha
        obtain ⟨j, hj, rfl⟩ := List.getElem_of_mem hb
        have hij : i ≠ j := by rintro rfl; exact hab rfl
        have see : ∀ g : Nat → Nat → Bool, onPos (fun a b => if kind a = kind b then r a b else g (kind a) (kind b)) ks i j = g (kind w.conf[i].1) (kind w.conf[j].1) ∧
            onPos (fun a b => if kind a = kind b then r a b else g (kind a) (kind b)) ks j i = g (kind w.conf[j].1) (kind w.conf[i].1) := by
          intro g
          have hji : ¬ j = i := fun e => hij e.symm
          have hba : ¬ kind w.conf[j].1 = kind w.conf[i].1 := fun e => hab e.symm
          constructor
          · simp [onPos, hij, ks, hi, hj, hab]
          · simp [onPos, hji, ks, hi, hj, hba]
        rcases pairwise_either (s1.and s2) (p.mem_iff.2 (List.mem_range.2 hi)) (p.mem_iff.2 (List.mem_range.2 hj)) with h | h | h
        · exact hij h
        · have e1 := (see fun m n => decide (m < n)).2.symm.trans h.1
          have e2 := (see fun m n => decide (n < m)).2.symm.trans h.2
          simp at e1 e2; omega
        · have e1 := (see fun m n => decide (m < n)).1.symm.trans h.1
          have e2 := (see fun m n => decide (n < m)).1.symm.trans h.2
          simp at e1 e2; omega
    unfold sortedItems
    rw [hrun]
  constructor
  · unfold genId genIdStr; rw [main]
  · unfold genKeys; simp only [if_true]; rw [main]

/-- Keys of which none is below another (frozensets of which none is part of another, NaN): they are listed as they were given. -/
theorem c98_unordered {alg : Nat → SortProg} (hs : StableSort alg) (ops : KeyOps K) (bs : BS) {w : GenWhat K}
    (hr : ∀ (i j : Nat) a b, i ≠ j → (w.conf.map (·.1))[i]? = some a → (w.conf.map (·.1))[j]? = some b → ops.lt a b = .ok false) (nonidsToo : Bool) :
    sortedItems alg ops w.conf = .ok w.conf ∧ genKeys alg ops w true = .ok (w.conf.map (·.1)) := by
  have main : sortedItems alg ops w.conf = .ok w.conf := by
    obtain ⟨l, e, p, s⟩ := hs w.conf.length (fun _ _ => false) ⟨by simp, by simp⟩
    have : l = List.range w.conf.length := perm_sorted_unique (S := (· < ·)) p (s.imp (by simp)) List.pairwise_lt_range (fun a _ b _ h1 h2 => by omega)
    unfold sortedItems
    rw [sort_total (r := fun _ _ => false) (lt := askKeys ops (w.conf.map (·.1))), e, this]
    · show Except.ok ((List.range w.conf.length).filterMap (w.conf[·]?)) = _
      rw [filterMap_range]
    intro i j
    unfold askKeys
    split
    · rfl
    · next hij =>
      split
      · next a b ha hb => exact hr i j a b hij ha hb
      · rfl
  refine ⟨main, ?_⟩
  unfold genKeys; simp only [if_true]; rw [main]

/-! ### Keys of the built-in types -/

/-- `<` between keys of one kind, as a truth value. -/
def pyBelow (a b : PyKey) : Bool :=
  match a.lt b with
  | .ok x => x
  | .error _ => false

theorem kind_cases {k : PyKey} {x : KeyKind} (h : k.kind? = some x) :
    (∃ s, k = .str s ∧ x = .text) ∨ (∃ i, k.toInt? = some i ∧ x = .number ∧ ((∃ i, k = .int i) ∨ ∃ b, k = .bool b)) ∨ (k = .none ∧ x = .nothing) := by
  cases k <;> simp [PyKey.kind?, PyKey.toInt?] at h ⊢ <;> exact h.symm

theorem pyLt_number {a b : PyKey} {x y : Int} (ha : a.toInt? = some x) (hb : b.toInt? = some y) : a.lt b = .ok (decide (x < y)) := by
  cases a <;> cases b <;> simp_all [PyKey.lt, PyKey.toInt?]

theorem pySame_number {a b : PyKey} {x y : Int} (ha : a.toInt? = some x) (hb : b.toInt? = some y) : a.same b = decide (x = y) := by
  cases a <;> cases b <;> simp_all [PyKey.same, PyKey.toInt?]

/-- Comparing keys of these kinds. -/
theorem pyLt_kinds {a b : PyKey} {x y : KeyKind} (ha : a.kind? = some x) (hb : b.kind? = some y) (hs : a.same b = false) :
    a.lt b = if x = y then .ok (pyBelow a b) else .error .typeError := by
  unfold pyBelow
  cases a <;> cases b <;> simp [PyKey.kind?] at ha hb <;> subst ha <;> subst hb <;> simp [PyKey.lt, PyKey.toInt?, PyKey.same] at hs ⊢

theorem pyBelow_weak {ks : List PyKey} {x : KeyKind} (h : ∀ k ∈ ks, k.kind? = some x) : WeakOn pyBelow ks := by
  have num : ∀ {a b : PyKey} {i j : Int}, a.toInt? = some i → b.toInt? = some j → pyBelow a b = decide (i < j) := by
    intro a b i j ha hb; unfold pyBelow; rw [pyLt_number ha hb]
  have txt : ∀ s t : Str, pyBelow (.str s) (.str t) = !strLe t s := fun s t => rfl
  constructor
  · intro a ha b hb
    rcases kind_cases (h a ha) with ⟨s, rfl, rfl⟩ | ⟨i, hi, rfl, -⟩ | ⟨rfl, rfl⟩ <;> rcases kind_cases (h b hb) with ⟨t, rfl, e⟩ | ⟨j, hj, e, -⟩ | ⟨rfl, e⟩ <;> try cases e
    · rw [txt, txt]; rcases strLe_total s t with h | h <;> simp [h]
    · rw [num hi hj, num hj hi]; simp; omega
    · intro h; exact absurd h (by decide)
  · intro a ha b hb c hc
    rcases kind_cases (h a ha) with ⟨s, rfl, rfl⟩ | ⟨i, hi, rfl, -⟩ | ⟨rfl, rfl⟩ <;> rcases kind_cases (h b hb) with ⟨t, rfl, e⟩ | ⟨j, hj, e, -⟩ | ⟨rfl, e⟩ <;>
      rcases kind_cases (h c hc) with ⟨u, rfl, e'⟩ | ⟨k, hk, e', -⟩ | ⟨rfl, e'⟩ <;> try cases e <;> try cases e'
    · rw [txt, txt, txt]
      cases h1 : strLe u s <;> cases h2 : strLe t u <;> simp
      exact strLe_trans _ _ _ h2 h1
    · rw [num hi hj, num hi hk, num hk hj]; simp; omega
    · intro h; exact absurd h (by decide)

/-- Keys of one kind, no two of them equal for Python: the id does not depend on the order in which they were given. -/
theorem c98_one_kind {alg : Nat → SortProg} (hs : StableSort alg) (sha1 : Str → Str) (bs : BS) {w w' : GenWhat PyKey} {x : KeyKind}
    (same : w'.name = w.name ∧ w'.nonids = w.nonids ∧ w'.out = w.out) (p : w.conf.Perm w'.conf)
    (hk : ∀ kv ∈ w.conf, kv.1.kind? = some x) (hd : (w.conf.map (·.1)).Pairwise fun a b => a.same b = false) (nonidsToo : Bool) (maxlength : Int) :
    genId alg sha1 pyKeyOps bs w nonidsToo maxlength = genId alg sha1 pyKeyOps bs w' nonidsToo maxlength ∧
      genKeys alg pyKeyOps w nonidsToo = genKeys alg pyKeyOps w' nonidsToo := by
  by_cases hx : x = .nothing
  · -- there is at most one None
    have hnone : ∀ kv ∈ w.conf, kv.1 = .none := fun kv h => by
      rcases kind_cases (hk kv h) with ⟨s, -, e⟩ | ⟨i, -, e, -⟩ | ⟨e, -⟩
      · rw [hx] at e; cases e
      · rw [hx] at e; cases e
      · exact e
    have : w.conf = w'.conf := by
      cases hc : w.conf with
      | nil => rw [hc] at p; exact (List.nil_perm.1 p).symm
      | cons a l =>
        cases l with
        | nil => rw [hc] at p; exact (List.singleton_perm.1 p)
        | cons b l =>
          exfalso
          rw [hc] at hd hnone
          simp only [List.map_cons] at hd
          have := (List.pairwise_cons.1 hd).1 b.1 (by simp)
          rw [hnone a (by simp), hnone b (by simp)] at this
          cases this
    have : w = w' := by
      cases w; cases w'; simp only at this same; obtain ⟨rfl, rfl, rfl⟩ := same; subst this; rfl
    rw [this]; exact ⟨rfl, rfl⟩
  · have hk' : ∀ k ∈ w.conf.map (·.1), k.kind? = some x := by
      intro k h; obtain ⟨kv, h2, rfl⟩ := List.mem_map.1 h; exact hk kv h2
    refine c98_order (r := pyBelow) hs sha1 pyKeyOps bs same p (fun a ha b hb => ?_) (pyBelow_weak hk') ?_ nonidsToo maxlength
    · rcases kind_cases (hk' a ha) with ⟨s, rfl, rfl⟩ | ⟨i, hi, rfl, -⟩ | ⟨rfl, rfl⟩ <;> rcases kind_cases (hk' b hb) with ⟨t, rfl, e⟩ | ⟨j, hj, e, -⟩ | ⟨rfl, e⟩ <;> try cases e
      · rfl
      · show a.lt b = _; unfold pyBelow; rw [pyLt_number hi hj]
      · exact absurd rfl hx
    · refine hd.imp_of_mem fun {a b} ha hb hab => ?_
      rcases kind_cases (hk' a ha) with ⟨s, rfl, rfl⟩ | ⟨i, hi, rfl, -⟩ | ⟨rfl, rfl⟩ <;> rcases kind_cases (hk' b hb) with ⟨t, rfl, e⟩ | ⟨j, hj, e, -⟩ | ⟨rfl, e⟩ <;> try cases e
      · have hne : s ≠ t := by simpa [PyKey.same] using hab
        show (!strLe t s) = true ∨ (!strLe s t) = true
        cases h1 : strLe t s <;> cases h2 : strLe s t <;> simp
        exact hne (strLe_antisymm _ _ h2 h1)
      · rw [pySame_number hi hj] at hab
        unfold pyBelow
        rw [pyLt_number hi hj, pyLt_number hj hi]
        simp at hab ⊢; omega
      · exact absurd rfl hx

/-- Keys of two kinds: `id` raises TypeError, in whichever order they were given and even if those of one kind are not for the id. -/
theorem c98_two_kinds {alg : Nat → SortProg} (hs : StableSort alg) (sha1 : Str → Str) (bs : BS) {w : GenWhat PyKey}
    (hk : ∀ kv ∈ w.conf, kv.1.kind? ≠ none) (hd : (w.conf.map (·.1)).Pairwise fun a b => a.same b = false)
    (two : ∃ a ∈ w.conf, ∃ b ∈ w.conf, a.1.kind? ≠ b.1.kind?) (nonidsToo : Bool) (maxlength : Int) :
    genId alg sha1 pyKeyOps bs w nonidsToo maxlength = .error .typeError ∧ genKeys alg pyKeyOps w true = .error .typeError := by
  let num : PyKey → Nat := fun k => match k.kind? with | some .text => 0 | some .number => 1 | some .nothing => 2 | none => 3
  have hnum : ∀ {a b : PyKey}, num a = num b ↔ a.kind? = b.kind? := by
    intro a b
    simp only [num]
    constructor
    · intro h
      rcases ha : a.kind? with _ | _ | _ | _ <;> rcases hb : b.kind? with _ | _ | _ | _ <;> simp [ha, hb] at h <;> rfl
    · intro h; rw [h]
  have hk' : ∀ k ∈ w.conf.map (·.1), ∃ x, k.kind? = some x := by
    intro k h
    obtain ⟨kv, h2, rfl⟩ := List.mem_map.1 h
    rcases hx : kv.1.kind? with _ | x
    · exact absurd hx (hk kv h2)
    · exact ⟨x, rfl⟩
  have sym : ∀ a b : PyKey, a.same b = b.same a := by
    intro a b
    cases a <;> cases b <;> simp [PyKey.same, PyKey.toInt?, eq_comm, Bool.and_comm]
  refine c98_mixed (r := pyBelow) (kind := num) hs sha1 pyKeyOps bs ?_ ?_ ?_ nonidsToo maxlength
  · intro i j a b hij ha hb
    obtain ⟨x, hx⟩ := hk' a (List.mem_of_getElem? ha)
    obtain ⟨y, hy⟩ := hk' b (List.mem_of_getElem? hb)
    have hne : a.same b = false := by
      have hp := List.pairwise_iff_getElem.1 hd
      obtain ⟨hi, ea⟩ := List.getElem?_eq_some_iff.1 ha
      obtain ⟨hj, eb⟩ := List.getElem?_eq_some_iff.1 hb
      rcases Nat.lt_or_gt_of_ne hij with h | h
      · have := hp i j hi hj h; rwa [ea, eb] at this
      · have := hp j i hj hi h; rw [ea, eb] at this; rw [sym]; exact this
    show a.lt b = _
    rw [pyLt_kinds hx hy hne]
    simp only [hnum, hx, hy, Option.some.injEq]
  · intro n
    cases hl : (w.conf.map (·.1)).filter fun k => num k = n with
    | nil => exact ⟨by simp, by simp⟩
    | cons a l =>
      have ha : a ∈ (w.conf.map (·.1)).filter fun k => num k = n := by rw [hl]; simp
      obtain ⟨x, hx⟩ := hk' a (List.mem_filter.1 ha).1
      rw [← hl]
      refine pyBelow_weak (x := x) fun k hk => ?_
      have h1 : num a = n := by simpa using (List.mem_filter.1 ha).2
      have h2 : num k = n := by simpa using (List.mem_filter.1 hk).2
      rw [hnum.1 (h2.trans h1.symm), hx]
  · obtain ⟨a, ha, b, hb, h⟩ := two
    exact ⟨a, ha, b, hb, fun e => h (hnum.1 e)⟩

theorem intStr_inj {i j : Int} (h : intStr i = intStr j) : i = j := by
  have nat : ∀ {m n : Nat}, natStr m = natStr n → m = n := fun {m n} h => by rw [← (natStr_spec m).2, ← (natStr_spec n).2, h]
  have neg : ∀ {m n : Nat}, natStr m ≠ '-' :: natStr n := fun {m n} h => by
    have := List.all_eq_true.1 (natStr_spec m).1.2 '-' (by rw [h]; simp)
    exact absurd this (by decide)
  cases i <;> cases j <;> simp only [intStr] at h
  · rw [nat h]
  · exact absurd h neg
  · exact absurd h.symm neg
  · have := nat (List.cons.inj h).2
    simp at this
    rw [this]

theorem intStr_plain (i : Int) : '}' ∉ intStr i := by
  have nat : ∀ n, '}' ∉ natStr n := fun n h => absurd (List.all_eq_true.1 (natStr_spec n).1.2 _ h) (by decide)
  cases i with
  | ofNat n => exact nat n
  | negSucc n => intro h; rcases List.mem_cons.1 h with h | h; · exact absurd h (by decide)
                 exact nat _ h

/-- The text before the first `x` is determined. -/
theorem before_unique {x : Char} {a b c d : Str} (ha : x ∉ a) (hb : x ∉ b) (h : a ++ x :: c = b ++ x :: d) : a = b := by
  induction a generalizing b with
  | nil =>
    cases b with
    | nil => rfl
    | cons y b => simp only [List.nil_append, List.cons_append, List.cons.injEq] at h; exact absurd (by simp [h.1]) hb
  | cons y a ih =>
    cases b with
    | nil => simp only [List.nil_append, List.cons_append, List.cons.injEq] at h; exact absurd (by simp [h.1]) ha
    | cons z b =>
      simp only [List.cons_append, List.cons.injEq] at h
      rw [h.1, ih (fun h' => ha (by simp [h'])) (fun h' => hb (by simp [h'])) h.2]

/-- The same two frozensets as keys, the other way round: an equal configuration, another id. -/
theorem c98_frozensets {alg : Nat → SortProg} (hs : StableSort alg) (bs : BS) (name : Str) {i j : Int} (hij : i ≠ j) {v v' : Val} {s s' : Option Str}
    (hv : bs v = .ok s) (hv' : bs v' = .ok s') :
    ∃ t t', genIdStr alg pyKeyOps bs ⟨name, [(.set [i], v), (.set [j], v')], [], none⟩ false = .ok t ∧
      genIdStr alg pyKeyOps bs ⟨name, [(.set [j], v'), (.set [i], v)], [], none⟩ false = .ok t' ∧ t ≠ t' := by
  have two : ∀ (a b : Int) (x y : Val) (p q : Option Str), a ≠ b → bs x = .ok p → bs y = .ok q →
      genIdStr alg pyKeyOps bs ⟨name, [(.set [a], x), (.set [b], y)], [], none⟩ false =
        .ok (name ++ c!"(" ++ (c!"frozenset({" ++ intStr a ++ c!"})" ++ c!"=" ++ showOpt p ++ c!"," ++ (c!"frozenset({" ++ intStr b ++ c!"})" ++ c!"=" ++ showOpt q)) ++ c!")") := by
    intro a b x y p q hab hx hy
    have hab' : ¬ b = a := fun e => hab e.symm
    have := (c98_unordered (w := ⟨name, [(.set [a], x), (.set [b], y)], [], none⟩) hs pyKeyOps bs (by
      intro m n k k' hmn hk hk'
      match m, n with
      | 0, 0 => exact absurd rfl hmn
      | 1, 1 => exact absurd rfl hmn
      | 0, 1 => cases hk; cases hk'; simp [pyKeyOps, PyKey.lt, hab]
      | 1, 0 => cases hk; cases hk'; simp [pyKeyOps, PyKey.lt, hab']
      | m + 2, _ => simp at hk
      | _, n + 2 => simp at hk') false).1
    unfold genIdStr
    rw [this]
    simp [mapR, genKvStr, hx, hy, pyKeyOps, PyKey.text, wrapId, pyJoin, GenWhat.nonId]
  refine ⟨_, _, two i j v v' s s' hij hv hv', two j i v' v s' s (fun e => hij e.symm) hv' hv, fun h => hij (intStr_inj ?_)⟩
  simp only [List.append_assoc, List.append_cancel_left_eq] at h
  exact before_unique (x := '}') (intStr_plain i) (intStr_plain j) h

/-- A key and its text give the same id although Python tells them apart; `1` and `True` give different ids although Python does not. -/
theorem c98_texts {alg : Nat → SortProg} (hs : StableSort alg) (sha1 : Str → Str) (bs : BS) (name : Str) (v : Val) (nonidsToo : Bool) (maxlength : Int) :
    (∀ k t, (∃ i, k = .int i ∧ t = intStr i) ∨ (k, t) ∈ [(PyKey.bool true, c!"True"), (.bool false, c!"False"), (.none, c!"None"), (.nan, c!"nan")] →
      genId alg sha1 pyKeyOps bs ⟨name, [(k, v)], [], none⟩ nonidsToo maxlength = genId alg sha1 pyKeyOps bs ⟨name, [(.str t, v)], [], none⟩ nonidsToo maxlength ∧
      PyKey.same k (.str t) = false) ∧
    PyKey.same (.int 1) (.bool true) = true ∧
    ∀ s, bs v = .ok s → ∃ t t', genIdStr alg pyKeyOps bs ⟨name, [(.int 1, v)], [], none⟩ false = .ok t ∧
      genIdStr alg pyKeyOps bs ⟨name, [(.bool true, v)], [], none⟩ false = .ok t' ∧ t ≠ t' := by
  have one : ∀ (k : PyKey) (b : Bool), genIdStr alg pyKeyOps bs ⟨name, [(k, v)], [], none⟩ b =
      match bs v with | .error e => .error e | .ok s => .ok (name ++ c!"(" ++ (k.text ++ c!"=" ++ showOpt s) ++ c!")") := by
    intro k b
    have := (c98_unordered (w := ⟨name, [(k, v)], [], none⟩) hs pyKeyOps bs (by
      intro m n k k' hmn hk hk'
      match m, n with
      | 0, 0 => exact absurd rfl hmn
      | m + 1, _ => simp at hk
      | _, n + 1 => simp at hk') false).1
    unfold genIdStr
    rw [this]
    cases h : bs v with
    | error e => simp [mapR, genKvStr, h, GenWhat.nonId]
    | ok s => simp [mapR, genKvStr, h, pyKeyOps, wrapId, pyJoin, GenWhat.nonId]
  refine ⟨fun k t hk => ?_, rfl, fun s hv => ?_⟩
  · have : k.text = t ∧ k.same (.str t) = false := by
      rcases hk with ⟨i, rfl, rfl⟩ | hk
      · exact ⟨rfl, rfl⟩
      · simp only [List.mem_cons, Prod.mk.injEq, List.not_mem_nil, or_false] at hk
        rcases hk with ⟨rfl, rfl⟩ | ⟨rfl, rfl⟩ | ⟨rfl, rfl⟩ | ⟨rfl, rfl⟩ <;> exact ⟨rfl, rfl⟩
    refine ⟨?_, this.2⟩
    unfold genId
    rw [one, one, this.1]
    rfl
  · refine ⟨_, _, by rw [one, hv], by rw [one, hv], fun h => ?_⟩
    simp only [List.append_assoc, List.append_cancel_left_eq] at h
    exact absurd (congrArg List.head? h) (by simp [PyKey.text, intStr, natStr, natStrAux, digitChar])

/-- A key that is not for the id and not a string, next to string keys: `id` raises, `keys` lists the others. -/
theorem c98_nonid {alg : Nat → SortProg} (hs : StableSort alg) (sha1 : Str → Str) (bs : BS) (name : Str) {conf : Conf} (hne : conf ≠ [])
    (u : (conf.map (·.1)).Nodup) (v : Val) (nonidsToo : Bool) (maxlength : Int) :
    let w : GenWhat PyKey := ⟨name, (.none, v) :: conf.map fun kv => (.str kv.1, kv.2), [.none], none⟩
    genId alg sha1 pyKeyOps bs w nonidsToo maxlength = .error .typeError ∧ ∃ ks, genKeys alg pyKeyOps w false = .ok ks ∧ ks.Perm (conf.map fun kv => .str kv.1) := by
  intro w
  constructor
  · refine (c98_two_kinds hs sha1 bs (w := w) ?_ ?_ ?_ nonidsToo maxlength).1
    · intro kv h
      rcases List.mem_cons.1 h with rfl | h
      · simp [PyKey.kind?]
      · obtain ⟨x, -, rfl⟩ := List.mem_map.1 h; simp [PyKey.kind?]
    · show ((.none : PyKey) :: ((conf.map fun kv => (PyKey.str kv.1, kv.2)).map (·.1))).Pairwise _
      refine List.pairwise_cons.2 ⟨?_, ?_⟩
      · intro k hk
        simp only [List.map_map, List.mem_map, Function.comp] at hk
        obtain ⟨x, -, rfl⟩ := hk
        rfl
      · rw [List.map_map, List.pairwise_map]
        refine (List.pairwise_map.1 u).imp fun {a b} h => ?_
        simpa [PyKey.same] using h
    · obtain ⟨a, ha⟩ := List.exists_mem_of_ne_nil conf hne
      exact ⟨_, List.mem_cons_self .., (.str a.1, a.2), List.mem_cons_of_mem _ (List.mem_map.2 ⟨a, ha, rfl⟩), by simp [PyKey.kind?]⟩
  · have hf : (w.conf.filter fun kv => !w.nonId pyKeyOps kv.1) = conf.map fun kv => (PyKey.str kv.1, kv.2) := by
      have : ∀ l : Conf, ((l.map fun kv => (PyKey.str kv.1, kv.2)).filter fun kv => !w.nonId pyKeyOps kv.1) = l.map fun kv => (PyKey.str kv.1, kv.2) := by
        intro l
        rw [List.filter_eq_self]
        intro a ha
        obtain ⟨x, -, rfl⟩ := List.mem_map.1 ha
        rfl
      show (((PyKey.none, v) :: conf.map fun kv => (PyKey.str kv.1, kv.2)).filter fun kv => !w.nonId pyKeyOps kv.1) = _
      rw [List.filter_cons_of_neg (by simp [w, GenWhat.nonId, pyKeyOps, PyKey.same]), this]
    have hk : ∀ k ∈ (conf.map fun kv => (PyKey.str kv.1, kv.2)).map (·.1), k.kind? = some .text := by
      intro k h
      simp only [List.map_map, List.mem_map, Function.comp] at h
      obtain ⟨x, -, rfl⟩ := h
      rfl
    obtain ⟨s, e, p, -⟩ := sortedItems_spec (ops := pyKeyOps) (r := pyBelow) (conf := conf.map fun kv => (PyKey.str kv.1, kv.2)) hs
      (fun i j a b _ ha hb => by
        rcases kind_cases (hk a (List.mem_of_getElem? ha)) with ⟨s, rfl, -⟩ | ⟨_, _, e, _⟩ | ⟨_, e⟩
        · rcases kind_cases (hk b (List.mem_of_getElem? hb)) with ⟨t, rfl, -⟩ | ⟨_, _, e, _⟩ | ⟨_, e⟩
          · rfl
          · cases e
          · cases e
        · cases e
        · cases e) (pyBelow_weak hk)
    refine ⟨s.map (·.1), ?_, ?_⟩
    · unfold genKeys
      simp only [Bool.false_eq_true, if_false]
      rw [hf, e]
    · have := p.map (·.1)
      rwa [List.map_map] at this

/-! ### Examples -/

/-- Every claim above is about insertion sort, among others. -/
example : StableSort insertionAlg := insertion_sorts

example (sha1 : Str → Str) (bs : BS) (v : Val) := c98_one_kind insertion_sorts sha1 bs (w := ⟨c!"a", [(.int 3, v), (.bool true, v), (.int (-2), v)], [], none⟩)
  (w' := ⟨c!"a", [(.int (-2), v), (.int 3, v), (.bool true, v)], [], none⟩) (x := .number) ⟨rfl, rfl, rfl⟩
  (.trans (.cons _ (.swap _ _ _)) (.swap _ _ _)) (by simp [PyKey.kind?]) (by simp [PyKey.same, PyKey.toInt?]) false 0

example (sha1 : Str → Str) (bs : BS) (v : Val) := c98_two_kinds insertion_sorts sha1 bs (w := ⟨c!"a", [(.int 3, v), (.str c!"x", v), (.none, v), (.str c!"b", v)], [], none⟩)
  (by simp [PyKey.kind?]) (by simp [PyKey.same, PyKey.toInt?]) ⟨(.none, v), by simp, (.int 3, v), by simp, by simp [PyKey.kind?]⟩ false 0

/-- The order of the items is found. -/
example (v : Val) : sortedItems insertionAlg pyKeyOps [(.int 3, v), (.bool true, v), (.int (-2), v)] = .ok [(.int (-2), v), (.bool true, v), (.int 3, v)] := rfl

example (sha1 : Str → Str) (bs : BS) := c98_strings insertion_sorts sha1 bs ⟨c!"a", [(c!"y", .int 1), (c!"x", .none)], [c!"y"], none⟩ (by decide) false 0

example := c98_frozensets insertion_sorts (fun _ => .ok (some c!"0")) c!"a" (i := 1) (j := 2) (by decide) (v := .int 0) (v' := .none) rfl rfl

example (sha1 : Str → Str) (bs : BS) := c98_nonid insertion_sorts sha1 bs c!"a" (conf := [(c!"y", .int 1), (c!"x", .none)]) (by simp) (by decide) (.int 5) false 0

end Whatami
