import Verif.ParseSem

/-
Different syntax has different parse trees.
Definitions here are vocabulary for statements and proofs: the code they are about is cited in the model modules.
-/
namespace Whatami

theorem starTrees_inj {ts us : List Tree} (h : starTrees ts = starTrees us) : ts = us := by
  induction ts generalizing us with
  | nil => cases us with | nil => rfl | cons u us => simp [starTrees] at h
  | cons t ts ih =>
    cases us with
    | nil => simp [starTrees] at h
    | cons u us =>
      simp only [starTrees, List.cons.injEq, true_and] at h
      rw [h.1, ih h.2]

theorem elems_inj {r : Rule} {ts us : List Tree} {x y : Tree} (h : elems r ts ++ [x] = elems r us ++ [y]) : ts = us := by
  cases ts with
  | nil =>
    cases us with
    | nil => rfl
    | cons u us => simp [elems] at h
  | cons t ts =>
    cases us with
    | nil => simp [elems] at h
    | cons u us =>
      simp only [elems, List.isEmpty_cons, Bool.false_eq_true, if_false, sepTrees_cons, List.cons_append, List.nil_append,
        List.cons.injEq, Tree.node.injEq, true_and] at h
      rw [h.1.1, starTrees_inj h.1.2]

theorem elems_inj' {r : Rule} {ts us : List Tree} (h : elems r ts = elems r us) : ts = us :=
  elems_inj (x := tok []) (y := tok []) (by rw [h])

theorem strTree_inj {a b : Str} (h : strTree a = strTree b) : a = b := by
  cases a <;> cases b <;> simp_all [strTree, tok]

theorem out_inj {o o' : Option Str} {n n' : Str} {ts us : List Tree}
    (h : outTrees o ++ idTree n :: tok c!"(" :: ts = outTrees o' ++ idTree n' :: tok c!"(" :: us) : o = o' ∧ n = n' ∧ ts = us := by
  cases o <;> cases o' <;> simp_all [outTrees, idTree, tok]

mutual
theorem tree_inj : ∀ a b : Ast, tree a = tree b → a = b
  | .none, b, h => by cases b <;> simp [tree, strTree] at h; rfl
  | .bool x, b, h => by
      cases b <;> simp [tree, strTree] at h
      rename_i y
      cases x <;> cases y <;> simp_all
  | .num t, b, h => by cases b <;> simp [tree, strTree] at h; rw [h]
  | .str x, b, h => by
      cases b <;> simp [tree] at h
      all_goals first
        | rw [strTree_inj h]
        | simp [strTree] at h
  | .cls x, b, h => by
      cases b <;> simp [tree, strTree] at h
      rename_i y
      have : strTree x = strTree y := by simp only [strTree, Tree.node.injEq, true_and, List.cons_append]; simpa [tok] using h
      rw [strTree_inj this]
  | .tuple xs, b, h => by
      cases b <;> simp [tree, strTree] at h
      rw [treeL_inj xs _ (elems_inj' h)]
  | .list xs, b, h => by
      cases b <;> simp [tree, strTree] at h
      rw [treeL_inj xs _ (elems_inj' h)]
  | .set [], b, h => by
      cases b <;> simp [tree, strTree] at h
      · rename_i ys; cases ys <;> simp_all
      · rename_i ys; cases ys <;> simp_all
  | .set (x :: xs), b, h => by
      cases b <;> simp [tree, strTree] at h
      · rename_i ys
        cases ys with
        | nil => simp at h
        | cons y ys =>
          simp [tok] at h
          rw [treeL_inj (x :: xs) _ (elems_inj' h)]
      · rename_i ys
        cases ys with
        | nil => simp at h
        | cons y ys => simp [tok] at h
  | .fset [], b, h => by
      cases b <;> simp [tree, strTree] at h
      · rename_i ys; cases ys <;> simp_all
      · rename_i ys; cases ys <;> simp_all
  | .fset (x :: xs), b, h => by
      cases b <;> simp [tree, strTree] at h
      · rename_i ys
        cases ys with
        | nil => simp at h
        | cons y ys => simp [tok] at h
      · rename_i ys
        cases ys with
        | nil => simp at h
        | cons y ys =>
          simp [tok] at h
          rw [treeL_inj (x :: xs) _ (elems_inj' h)]
  | .dict kvs, b, h => by
      cases b <;> simp [tree, strTree] at h
      rw [treeD_inj kvs _ (elems_inj' h)]
  | .what o n kvs, b, h => by
      cases b <;> simp [tree, strTree] at h
      obtain ⟨h1, h2, h3⟩ := out_inj h
      rw [h1, h2, treeA_inj kvs _ (elems_inj h3)]
termination_by structural a => a
theorem treeL_inj : ∀ xs ys : List Ast, treeL xs = treeL ys → xs = ys
  | [], ys, h => by cases ys <;> simp [treeL] at h; rfl
  | x :: xs, ys, h => by
      cases ys <;> simp [treeL] at h
      rw [tree_inj x _ h.1, treeL_inj xs _ h.2]
termination_by structural xs => xs
theorem treeD_inj : ∀ xs ys : List (Ast × Ast), treeD xs = treeD ys → xs = ys
  | [], ys, h => by
      cases ys with
      | nil => rfl
      | cons y ys => obtain ⟨k, v⟩ := y; simp [treeD] at h
  | (k, v) :: xs, ys, h => by
      cases ys with
      | nil => simp [treeD] at h
      | cons y ys =>
        obtain ⟨k', v'⟩ := y
        simp [treeD] at h
        rw [tree_inj k _ h.1.1, tree_inj v _ h.1.2, treeD_inj xs _ h.2]
termination_by structural xs => xs
theorem treeA_inj : ∀ xs ys : List (Str × Ast), treeA xs = treeA ys → xs = ys
  | [], ys, h => by
      cases ys with
      | nil => rfl
      | cons y ys => obtain ⟨k, v⟩ := y; simp [treeA] at h
  | (k, v) :: xs, ys, h => by
      cases ys with
      | nil => simp [treeA] at h
      | cons y ys =>
        obtain ⟨k', v'⟩ := y
        simp [treeA, idTree] at h
        rw [h.1.1, tree_inj v _ h.1.2, treeA_inj xs _ h.2]
termination_by structural xs => xs
end

theorem padded_text (a : Ast) : Padded (toks a) (text a) := by
  have : ∀ ts : List Str, Padded ts ts.flatten := by
    intro ts
    induction ts with
    | nil => exact .nil
    | cons t ts ih => exact .cons (ws := []) rfl ih
  exact this _

/-- The text of well-formed syntax tells the syntax. -/
theorem text_inj {o o' : Option Str} {n n' : Str} {kvs kvs' : List (Str × Ast)} (ho : ∀ x, o = some x → Ident x) (hn : Ident n)
    (hk : WfA kvs) (hc : NoSetCallA kvs) (ho' : ∀ x, o' = some x → Ident x) (hn' : Ident n') (hk' : WfA kvs') (hc' : NoSetCallA kvs')
    (h : text (.what o n kvs) = text (.what o' n' kvs')) : o = o' ∧ n = n' ∧ kvs = kvs' := by
  have h1 := reads_top (ws := []) ho hn hk hc (padded_text _) rfl
  have h2 := reads_top (ws := []) ho' hn' hk' hc' (padded_text _) rfl
  rw [h] at h1
  have := h1.det h2
  simp only [Out.ok.injEq, List.cons.injEq, and_true, topTree, Tree.node.injEq, true_and] at this
  obtain ⟨e1, e2, e3⟩ := out_inj (ts := elems .kvs (treeA kvs) ++ [tok c!")"]) (us := elems .kvs (treeA kvs') ++ [tok c!")"]) (by simpa using this)
  exact ⟨e1, e2, treeA_inj _ _ (elems_inj e3)⟩

theorem parse_text {E : Env} {o : Option Str} {n : Str} {kvs : List (Str × Ast)} (ho : ∀ x, o = some x → Ident x) (hn : Ident n) (hk : WfA kvs)
    (hc : NoSetCallA kvs) : parseWhatid E (text (.what o n kvs)) = semTop E o n kvs := by
  have := parse_padded (E := E) (ws := []) ho hn hk hc (padded_text _) rfl
  simpa using this

end Whatami
