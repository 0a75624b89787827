import Verif.CostFails
import Verif.ParseSem

/-
What loads was read in linear time: keys of dicts are hashable, so that no dict is read twice.
Definitions here are vocabulary for statements and proofs: the code they are about is cited in the model modules.
-/
namespace Whatami

variable {E : Env}

theorem sep_load (ts : List Tree) : loadL (sepTrees ts) = loadL ts + (ts.length - 1) ∧
    (leavesL (sepTrees ts)).length = (leavesL ts).length + (ts.length - 1) := by
  induction ts with
  | nil => exact ⟨rfl, rfl⟩
  | cons t ts ih =>
    cases ts with
    | nil => exact ⟨rfl, rfl⟩
    | cons u ts =>
      simp only [sepTrees, loadL, leavesL, load, leaves, List.length_append, List.length_cons, List.length_nil] at ih ⊢
      omega

theorem elems_load {r : Rule} (hr : r ≠ .aDict) (ts : List Tree) : loadL (elems r ts) = loadL ts + (ts.length - 1) ∧
    (leavesL (elems r ts)).length = (leavesL ts).length + (ts.length - 1) := by
  cases ts with
  | nil => exact ⟨rfl, rfl⟩
  | cons t ts =>
    obtain ⟨h1, h2⟩ := sep_load (t :: ts)
    simp only [elems, List.isEmpty_cons, Bool.false_eq_true, if_false, leavesL, leaves, List.append_nil, loadL, load_node hr, Nat.add_zero] at h1 h2 ⊢
    exact ⟨h1, h2⟩

theorem strTree_load (b : Str) : load (strTree b) = (leaves (strTree b)).length := by
  unfold strTree
  refine nodict_node (by decide) ?_
  simp only [NoDictL, List.cons_append, loadL, leavesL, tok, load, leaves, loadL_append, leavesL_append, List.length_append]
  split <;> simp [loadL, leavesL, load, leaves] <;> omega

theorem semL_cons {x : Ast} {xs : List Ast} {vs : List Val} (h : semL E (x :: xs) = .ok vs) :
    ∃ v ws, sem E x = .ok v ∧ semL E xs = .ok ws ∧ vs = v :: ws := by
  simp only [semL] at h
  cases h1 : sem E x with
  | error e => rw [h1] at h; cases h
  | ok v =>
    rw [h1] at h
    simp only [Except.bind] at h
    cases h2 : semL E xs with
    | error e => rw [h2] at h; cases h
    | ok ws => rw [h2] at h; cases h; exact ⟨v, ws, rfl, rfl, rfl⟩

theorem map_ok_inv {α β : Type} {f : α → β} {x : R α} {v : β} (h : x.map f = .ok v) : ∃ a, x = .ok a ∧ f a = v := by
  cases x with
  | error e => cases h
  | ok a => exact ⟨a, rfl, Except.ok.inj h⟩

theorem bind_ok_inv {α β : Type} {f : α → R β} {x : R α} {v : β} (h : x.bind f = .ok v) : ∃ a, x = .ok a ∧ f a = .ok v := by
  cases x with
  | error e => cases h
  | ok a => exact ⟨a, rfl, h⟩

mutual
/-- A key is read without reading any dict. -/
theorem key_load : ∀ (a : Ast) (v : Val), sem E a = .ok v → hashable v = true → load (tree a) = (leaves (tree a)).length
  | .none, _, _, _ => rfl
  | .bool b, _, _, _ => by cases b <;> rfl
  | .num t, _, _, _ => by simp [tree, load, loadL, leaves, leavesL]
  | .str b, _, _, _ => by
      have := strTree_load b
      simp only [tree]; exact nodict_node (by decide) (by simp [NoDictL, loadL, leavesL, this])
  | .cls b, _, _, _ => by
      have := strTree_load b
      simp only [tree]
      refine nodict_node (by decide) ?_
      simp [NoDictL, load, leaves, loadL, leavesL, tok, this]
      omega
  | .tuple xs, v, h, hh => by
      simp only [sem] at h
      obtain ⟨vs, h1, rfl⟩ := map_ok_inv h
      simp only [hashable] at hh
      have ih := keys_load xs vs h1 hh
      obtain ⟨e1, e2⟩ := elems_load (r := .listElements) (by decide) (treeL xs)
      simp only [tree, load, leaves, loadL, leavesL, loadL_append, leavesL_append, List.cons_append, tok, List.length_append, List.length_cons,
        List.length_nil, List.append_nil]
      omega
  | .list xs, v, h, hh => by
      simp only [sem] at h
      obtain ⟨vs, h1, rfl⟩ := map_ok_inv h
      simp [hashable] at hh
  | .set xs, v, h, hh => by
      simp only [sem] at h
      obtain ⟨vs, h1, h2⟩ := bind_ok_inv h
      obtain ⟨ws, h3, rfl⟩ := map_ok_inv h2
      simp [hashable] at hh
  | .fset xs, v, h, hh => by
      simp only [sem] at h
      obtain ⟨vs, h1, h2⟩ := bind_ok_inv h
      obtain ⟨ws, h3, rfl⟩ := map_ok_inv h2
      simp [hashable] at hh
  | .dict kvs, v, h, hh => by
      simp only [sem] at h
      obtain ⟨vs, h1, h2⟩ := bind_ok_inv h
      obtain ⟨ws, h3, rfl⟩ := map_ok_inv h2
      simp [hashable] at hh
  | .what o n kvs, v, h, hh => by
      simp only [sem] at h
      obtain ⟨vs, h1, h2⟩ := bind_ok_inv h
      split at h2
      · cases h2
      · cases h2; simp [hashable] at hh
termination_by structural a => a
theorem keys_load : ∀ (xs : List Ast) (vs : List Val), semL E xs = .ok vs → hashableL vs = true → loadL (treeL xs) = (leavesL (treeL xs)).length
  | [], _, _, _ => rfl
  | x :: xs, _, h, hh => by
      obtain ⟨v, ws, h1, h2, rfl⟩ := semL_cons h
      simp only [hashableL, Bool.and_eq_true] at hh
      have ih1 := key_load x v h1 hh.1
      have ih2 := keys_load xs ws h2 hh.2
      simp only [treeL, loadL, leavesL, List.length_append]
      omega
termination_by structural xs => xs
end

theorem dictFrom_keys {fi : Str → Option Int} {l acc d : List (Val × Val)} (h : dictFrom fi acc l = .ok d) : ∀ p ∈ l, hashable p.1 = true := by
  induction l generalizing acc with
  | nil => simp
  | cons p l ih =>
    obtain ⟨k, v⟩ := p
    simp only [dictFrom] at h
    split at h
    · next hk =>
      intro q hq
      rcases List.mem_cons.1 hq with rfl | hq
      · exact hk
      · exact ih h q hq
    · cases h

/-- The load of the first key. -/
def keyCost : List (Ast × Ast) → Nat
  | [] => 0
  | kv :: _ => load (tree kv.1)

mutual
/-- What means something is read in linear time. -/
theorem sem_load : ∀ (a : Ast) (v : Val), sem E a = .ok v → load (tree a) ≤ 2 * (leaves (tree a)).length
  | .none, v, h => by rw [key_load (E := E) .none v h (by simp only [sem] at h; cases h; rfl)]; omega
  | .bool b, v, h => by rw [key_load (E := E) (.bool b) v h (by simp only [sem] at h; cases h; rfl)]; omega
  | .num t, v, h => by simp [tree, load, loadL, leaves, leavesL]; omega
  | .str b, v, h => by rw [key_load (E := E) (.str b) v h (by simp only [sem] at h; cases h; rfl)]; omega
  | .cls b, v, h => by
      have := strTree_load b
      simp [tree, load, leaves, loadL, leavesL, tok, this]
      omega
  | .tuple xs, v, h => by
      simp only [sem] at h
      obtain ⟨vs, h1, rfl⟩ := map_ok_inv h
      have ih := semL_load xs vs h1
      obtain ⟨e1, e2⟩ := elems_load (r := .listElements) (by decide) (treeL xs)
      simp only [tree, load, leaves, loadL, leavesL, loadL_append, leavesL_append, List.cons_append, tok, List.length_append, List.length_cons,
        List.length_nil, List.append_nil]
      omega
  | .list xs, v, h => by
      simp only [sem] at h
      obtain ⟨vs, h1, rfl⟩ := map_ok_inv h
      have ih := semL_load xs vs h1
      obtain ⟨e1, e2⟩ := elems_load (r := .listElements) (by decide) (treeL xs)
      simp only [tree, load, leaves, loadL, leavesL, loadL_append, leavesL_append, List.cons_append, tok, List.length_append, List.length_cons,
        List.length_nil, List.append_nil]
      omega
  | .set xs, v, h => by
      simp only [sem] at h
      obtain ⟨vs, h1, _⟩ := bind_ok_inv h
      have ih := semL_load xs vs h1
      obtain ⟨e1, e2⟩ := elems_load (r := .listElements) (by decide) (treeL xs)
      simp only [tree]
      split
      · simp [load, loadL, leaves, leavesL]
      · simp only [load, leaves, loadL, leavesL, loadL_append, leavesL_append, List.cons_append, tok, List.length_append, List.length_cons,
          List.length_nil, List.append_nil]
        omega
  | .fset xs, v, h => by
      simp only [sem] at h
      obtain ⟨vs, h1, _⟩ := bind_ok_inv h
      have ih := semL_load xs vs h1
      obtain ⟨e1, e2⟩ := elems_load (r := .listElements) (by decide) (treeL xs)
      simp only [tree]
      split
      · simp [load, loadL, leaves, leavesL]
      · simp only [load, leaves, loadL, leavesL, loadL_append, leavesL_append, List.cons_append, tok, List.length_append, List.length_cons,
          List.length_nil, List.append_nil]
        omega
  | .dict kvs, v, h => by
      simp only [sem] at h
      obtain ⟨vs, h1, h2⟩ := bind_ok_inv h
      obtain ⟨ws, h3, rfl⟩ := map_ok_inv h2
      have ih := semD_load kvs vs h1 (dictFrom_keys h3)
      obtain ⟨e1, e2⟩ := elems_load (r := .dictElements) (by decide) (treeD kvs)
      have e3 : keyLoads (elems .dictElements (treeD kvs)) = keyCost kvs := by
        cases kvs with
        | nil => rfl
        | cons kv kvs =>
          obtain ⟨k, v⟩ := kv
          simp only [treeD, elems, List.isEmpty_cons, Bool.false_eq_true, if_false, keyLoads, keyLoad]
          cases treeD kvs <;> simp [keyCost, sepTrees, firstLoad, keyLoad, headLoad]
      simp only [tree, load, leaves, loadL, leavesL, loadL_append, leavesL_append, List.cons_append, tok, List.length_append, List.length_cons,
        List.length_nil, List.append_nil, keyLoads, keyLoads_append, keyLoad, e3]
      omega
  | .what o n kvs, v, h => by
      simp only [sem] at h
      obtain ⟨vs, h1, _⟩ := bind_ok_inv h
      have ih := semA_load kvs vs h1
      obtain ⟨e1, e2⟩ := elems_load (r := .kvs) (by decide) (treeA kvs)
      cases o <;>
      · simp only [tree, load, leaves, loadL, leavesL, loadL_append, leavesL_append, List.cons_append, tok, idTree, outTrees, List.length_append,
          List.length_cons, List.length_nil, List.append_nil, List.nil_append]
        omega
termination_by structural a => a
theorem semL_load : ∀ (xs : List Ast) (vs : List Val), semL E xs = .ok vs → loadL (treeL xs) ≤ 2 * (leavesL (treeL xs)).length
  | [], _, _ => Nat.zero_le _
  | x :: xs, _, h => by
      obtain ⟨v, ws, h1, h2, rfl⟩ := semL_cons h
      have ih1 := sem_load x v h1
      have ih2 := semL_load xs ws h2
      simp only [treeL, loadL, leavesL, List.length_append]
      omega
termination_by structural xs => xs
theorem semD_load : ∀ (kvs : List (Ast × Ast)) (ps : List (Val × Val)), semD E kvs = .ok ps → (∀ p ∈ ps, hashable p.1 = true) →
    loadL (treeD kvs) + keyCost kvs ≤ 2 * (leavesL (treeD kvs)).length
  | [], _, _, _ => Nat.zero_le _
  | (k, v) :: kvs, ps, h, hh => by
      simp only [semD] at h
      obtain ⟨k', h1, h2⟩ := bind_ok_inv h
      obtain ⟨v', h3, h4⟩ := bind_ok_inv h2
      obtain ⟨l, h5, rfl⟩ := map_ok_inv h4
      have ih1 := key_load k k' h1 (hh (k', v') (by simp))
      have ih2 := sem_load v v' h3
      have ih3 := semD_load kvs l h5 (fun p hp => hh p (by simp [hp]))
      have ih3' : loadL (treeD kvs) ≤ 2 * (leavesL (treeD kvs)).length := Nat.le_trans (Nat.le_add_right _ _) ih3
      simp only [keyCost, treeD, loadL, leavesL, load, leaves, tok, List.length_append, List.length_cons, List.length_nil, List.append_nil]
      omega
termination_by structural kvs => kvs
theorem semA_load : ∀ (kvs : List (Str × Ast)) (ps : List (Str × Val)), semA E kvs = .ok ps → loadL (treeA kvs) ≤ 2 * (leavesL (treeA kvs)).length
  | [], _, _ => Nat.zero_le _
  | (k, v) :: kvs, ps, h => by
      simp only [semA] at h
      obtain ⟨v', h3, h4⟩ := bind_ok_inv h
      obtain ⟨l, h5, rfl⟩ := map_ok_inv h4
      have ih2 := sem_load v v' h3
      have ih3 := semA_load kvs l h5
      simp only [treeA, loadL, leavesL, load, leaves, tok, idTree, List.length_append, List.length_cons, List.length_nil, List.append_nil]
      omega
termination_by structural kvs => kvs
end

/-- The run behind `parse_whatid`. -/
theorem parse_took (s : Str) : Took newGrammar false (.ref .whatamiIdTop) s
    (run newGrammar ((s.length + 1) * stepsPerChar) false (.ref .whatamiIdTop) s) (parseTries newGrammar s) :=
  ⟨_, rfl, rfl, top_terminates newGrammar_noLeftRec (Nat.le_refl _)⟩

theorem tries_general (s : Str) : parseTries newGrammar s ≤ 96 * 2 ^ braces s * s.length + 7 := by
  obtain ⟨o1, k1, h1, h2, _⟩ := took_top (parse_took s)
  have := lose_what (β := braces s) (lose_value s.length) (by omega) (Nat.le_refl _) h1
  omega

theorem tries_linear {s : Str} {w : What} (h : parseWhatid E s = .ok w) : parseTries newGrammar s ≤ 192 * s.length := by
  have ht := parse_took s
  cases hr : run newGrammar ((s.length + 1) * stepsPerChar) false (.ref .whatamiIdTop) s with
  | timeout => exact absurd hr (top_terminates newGrammar_noLeftRec (Nat.le_refl _))
  | fail => simp only [parseWhatid, parseWith, parseTree, hr] at h; cases h
  | ok ts r =>
    rw [hr] at ht
    obtain ⟨o, n, kvs, p, ws, ho, hn, hk, hs, hp, hw, rfl⟩ := sound_top hr
    have hsem : parseWhatid E s = semTop E o n kvs := by
      simp only [parseWhatid, parseWith, parseTree, hr]
      exact visit_top hn hk
    rw [hsem] at h
    simp only [semTop] at h
    obtain ⟨l, h1, _⟩ := bind_ok_inv h
    have ih := semA_load kvs l h1
    obtain ⟨e1, e2⟩ := elems_load (r := .kvs) (by decide) (treeA kvs)
    obtain ⟨o1, k1, h2, h3, h4⟩ := took_top ht
    obtain ⟨us, eof, s1, rfl, e, _⟩ := h4 _ _ rfl
    have hus : us = outTrees o ++ idTree n :: tok c!"(" :: elems .kvs (treeA kvs) ++ [tok c!")"] := by
      simp only [topTree, List.cons.injEq, Tree.node.injEq, true_and, and_true] at e
      exact e.1.symm
    have hwin := (win_what (L := s.length) (win_value _) (by omega) h2).1
    have hu := h2.used.1
    have hload : loadL us ≤ 2 * (leavesL us).length := by
      rw [hus]
      cases o <;>
      · simp only [load, leaves, loadL, leavesL, loadL_append, leavesL_append, List.cons_append, tok, idTree, outTrees, List.length_append,
          List.length_cons, List.length_nil, List.append_nil, List.nil_append]
        omega
    omega

end Whatami
