import Verif.Old.Sound

/-
From old-style text to values: what the visitor makes of the trees of old-style ids.
Definitions here are vocabulary for statements and proofs: the code they are about is cited in the model modules.
-/
namespace Whatami

mutual
/-- The value that old-style syntax denotes: like the same value in new style, but `{}` is an error (it is taken for a set with
elements). -/
def osem (E : Env) : OAst → R Val
  | .none => .ok .none
  | .bool b => .ok (.bool b)
  | .num t => .ok (numberOf E t)
  | .str b => .ok (.str b)
  | .tuple xs => (osemL E xs).map .tuple
  | .list xs => (osemL E xs).map .list
  | .set xs => (osemL E xs).bind fun l => (setFrom E.fi [] l).map .set
  | .braces => .error .indexError
  | .dict kvs => (osemD E kvs).bind fun l => (dictFrom E.fi [] l).map .dict
  | .what _ n kvs => (osemA E kvs).bind fun l => .ok (.what n (dictOf l) [] none)
termination_by structural a => a
/-- The values of elements. -/
def osemL (E : Env) : List OAst → R (List Val)
  | [] => .ok []
  | x :: xs => (osem E x).bind fun v => (osemL E xs).map fun l => v :: l
termination_by structural xs => xs
/-- The values of the items of a dict. -/
def osemD (E : Env) : List (OAst × OAst) → R (List (Val × Val))
  | [] => .ok []
  | (k, v) :: xs => (osem E k).bind fun k' => (osem E v).bind fun v' => (osemD E xs).map fun l => (k', v') :: l
termination_by structural xs => xs
/-- The values of parameters. -/
def osemA (E : Env) : List (Str × OAst) → R (List (Str × Val))
  | [] => .ok []
  | (k, v) :: xs => (osem E v).bind fun v' => (osemA E xs).map fun l => (k, v') :: l
termination_by structural xs => xs
end

/-- The What that a whole old-style id denotes. -/
def osemTop (E : Env) (n : Str) (kvs : List (Str × OAst)) : R What :=
  (osemA E kvs).bind fun l => .ok ⟨n, dictOf l, [], none⟩

end Whatami

namespace Whatami.Old

variable {E : Env}

/-- The visitor's result for a value. -/
def VisitsTo (E : Env) (a : OAst) : Prop := visit E (otree a) = (osem E a).map fun v => some (toSem v)

theorem visitAll_vals {xs : List OAst} (h : ∀ x ∈ xs, VisitsTo E x) :
    visitAll E (otreeL xs) = (osemL E xs).map fun l => l.map toSem := by
  induction xs with
  | nil => rfl
  | cons x xs ih =>
    simp only [otreeL, visitAll, osemL]
    rw [h x (by simp), ih fun y hy => h y (by simp [hy])]
    cases osem E x with
    | error e => rfl
    | ok v => cases osemL E xs <;> rfl

/-- The list of elements. -/
theorem visit_elements {xs : List OAst} (h : ∀ x ∈ xs, VisitsTo E x) :
    visitAll E (elems .listElements (otreeL xs)) =
      if xs.isEmpty then .ok [] else (osemL E xs).map fun l => [.val (.list l)] := by
  cases xs with
  | nil => rfl
  | cons x xs =>
    have hv := visitAll_vals h
    have he : elems .listElements (otreeL (x :: xs)) = [.node .listElements (sepTrees (otreeL (x :: xs)))] := rfl
    rw [he]
    simp only [visitAll, visit, visitAll_sep]
    rw [hv]
    cases osemL E (x :: xs) with
    | error e => rfl
    | ok l => simp [Except.map, visitNode, mapR_toSem]

theorem visitAll_pairs {xs : List (OAst × OAst)} (h : ∀ x ∈ xs, VisitsTo E x.1 ∧ VisitsTo E x.2) :
    visitAll E (otreeD xs) = (osemD E xs).map fun l => l.map fun p => .pair p.1 p.2 := by
  induction xs with
  | nil => rfl
  | cons x xs ih =>
    obtain ⟨k, v⟩ := x
    obtain ⟨hk, hv⟩ := h (k, v) (by simp)
    simp only [otreeD, visitAll, osemD, visit, visit_tok]
    simp only [VisitsTo] at hk hv
    rw [hk, hv, ih fun y hy => h y (by simp [hy])]
    cases osem E k with
    | error e => rfl
    | ok k' =>
      cases osem E v with
      | error e => rfl
      | ok v' =>
        simp only [Except.map, visitNode, toSem_toVal]
        cases osemD E xs <;> rfl

theorem visitAll_kvs {xs : List (Str × OAst)} (h : ∀ x ∈ xs, VisitsTo E x.2) :
    visitAll E (otreeA xs) = (osemA E xs).map fun l => l.map fun p => .kv p.1 p.2 := by
  induction xs with
  | nil => rfl
  | cons x xs ih =>
    obtain ⟨k, v⟩ := x
    have hv := h (k, v) (by simp)
    simp only [otreeA, visitAll, osemA, visit, visit_tok, visit_id]
    simp only [VisitsTo] at hv
    rw [hv, ih fun y hy => h y (by simp [hy])]
    cases osem E v with
    | error e => rfl
    | ok v' =>
      simp only [Except.map, visitNode, toSem_toVal]
      cases osemA E xs <;> rfl

theorem visitAll_hashRest (ts : List Tree) : visitAll E (hashRestTrees ts) = visitAll E ts := by
  induction ts with
  | nil => rfl
  | cons u ts ih =>
    rw [hashRestTrees, visitAll_drop (visit_tok _)]
    simp only [visitAll, ih]

/-- The visitor on the tree of an id. -/
theorem visit_what {q : Bool} {n : Str} {kvs : List (Str × OAst)} (h : ∀ x ∈ kvs, VisitsTo E x.2) :
    visit E (oidTree q n (otreeA kvs)) = (osem E (.what q n kvs)).map fun v => some (toSem v) := by
  have h1 : visitAll E (quoteTree q ++ (idTree n :: tok c!"#" :: hashElems (otreeA kvs)) ++ quoteTree q) =
      (visitAll E (hashElems (otreeA kvs))).map fun l => .id n :: l := by
    have h2 : visitAll E (idTree n :: tok c!"#" :: hashElems (otreeA kvs)) = (visitAll E (hashElems (otreeA kvs))).map fun l => .id n :: l := by
      simp only [visitAll, visit_id, visit_tok]
    cases q with
    | false => simpa [quoteTree] using h2
    | true =>
      rw [← h2]
      exact visitAll_bracket _ _ _
  simp only [oidTree, visit]
  rw [h1]
  cases kvs with
  | nil =>
    simp only [otreeA, hashElems, visitAll, osem, osemA]
    rfl
  | cons x kvs =>
    have he : hashElems (otreeA (x :: kvs)) = [.node .kvs (.node .kv [idTree x.1, tok c!"=", otree x.2] :: hashRestTrees (otreeA kvs))] := by
      obtain ⟨k, v⟩ := x
      rfl
    have hs : visitAll E (.node .kv [idTree x.1, tok c!"=", otree x.2] :: hashRestTrees (otreeA kvs)) = visitAll E (otreeA (x :: kvs)) := by
      obtain ⟨k, v⟩ := x
      simp only [otreeA, visitAll, visitAll_hashRest]
    rw [he]
    rw [visitAll, visit, hs, visitAll_kvs h]
    simp only [osem]
    cases osemA E (x :: kvs) with
    | error e => rfl
    | ok l => simp [Except.map, Except.bind, visitNode, visitWhat, visitAll, semKvs_kvs, toSem]

mutual
theorem visits : ∀ (a : OAst), OWf a → VisitsTo E a
  | .none, _ => rfl
  | .bool b, _ => by cases b <;> rfl
  | .num t, _ => by
      simp only [VisitsTo, otree, osem, visit_value]
      have : treeText (.node .aNumber [.term .none false t]) = t := by simp [treeText, treeText.texts, pyJoin]
      simp only [visit, visitAll, visitTerm]
      rw [this]
      simp only [Except.map, visitNode, numberOf]
      cases pyInt t <;> rfl
  | .str b, _ => by
      simp only [VisitsTo, otree, osem, visit_value, visit_string, Except.map, toSem]
  | .tuple xs, h => by
      have hx := visitsL xs (by simpa only [OWf] using h)
      simp only [VisitsTo, otree, osem, visit_value]
      simp only [visit, visitAll_bracket, visit_elements hx]
      cases xs with
      | nil => rfl
      | cons x xs =>
        simp only [List.isEmpty_cons]
        cases osemL E (x :: xs) <;> rfl
  | .list xs, h => by
      have hx := visitsL xs (by simpa only [OWf] using h)
      simp only [VisitsTo, otree, osem, visit_value]
      simp only [visit, visitAll_bracket, visit_elements hx]
      cases xs with
      | nil => rfl
      | cons x xs =>
        simp only [List.isEmpty_cons]
        cases osemL E (x :: xs) <;> rfl
  | .set xs, h => by
      have hx := visitsL xs (by simpa only [OWf] using h)
      simp only [VisitsTo, otree, osem, visit_value]
      cases xs with
      | nil => rfl
      | cons x xs =>
        simp only [List.isEmpty_cons, Bool.false_eq_true, if_false]
        simp only [visit, visitAll, visitAll_bracket, visit_elements hx, List.isEmpty_cons]
        cases osemL E (x :: xs) with
        | error e => rfl
        | ok l =>
          simp only [Except.map, Except.bind, visitNode]
          cases hs : setFrom E.fi [] l <;> simp [hs, visitNode, Except.map, toSem]
  | .braces, _ => rfl
  | .dict kvs, h => by
      have hx := visitsD kvs (by simp only [OWf] at h; exact h.2)
      simp only [VisitsTo, otree, osem, visit_value]
      simp only [visit, visitAll_bracket]
      cases kvs with
      | nil => rfl
      | cons x kvs =>
        have he : elems .dictElements (otreeD (x :: kvs)) = [.node .dictElements (sepTrees (otreeD (x :: kvs)))] := by
          obtain ⟨k, v⟩ := x
          rfl
        rw [he]
        simp only [visitAll, visit, visitAll_sep]
        rw [visitAll_pairs hx]
        cases osemD E (x :: kvs) with
        | error e => rfl
        | ok l =>
          simp only [Except.map, Except.bind, visitNode, semPairs_pairs]
          cases hs : dictFrom E.fi [] l <;> simp [Except.map, toSem]
  | .what q n kvs, h => by
      simp only [OWf] at h
      have hx := visitsA kvs h.2.2
      simp only [VisitsTo, otree, visit_value]
      rw [visit_what hx]
      cases osem E (.what q n kvs) <;> rfl
termination_by structural a => a
theorem visitsL : ∀ (xs : List OAst), OWfL xs → ∀ x ∈ xs, VisitsTo E x
  | [], _ => fun x hx => absurd hx (by simp)
  | y :: ys, h => by
      simp only [OWfL] at h
      intro x hx
      rcases List.mem_cons.1 hx with e | hx
      · rw [e]; exact visits y h.1
      · exact visitsL ys h.2 x hx
termination_by structural xs => xs
theorem visitsD : ∀ (xs : List (OAst × OAst)), OWfD xs → ∀ x ∈ xs, VisitsTo E x.1 ∧ VisitsTo E x.2
  | [], _ => fun x hx => absurd hx (by simp)
  | (k, v) :: ys, h => by
      simp only [OWfD] at h
      intro x hx
      rcases List.mem_cons.1 hx with e | hx
      · rw [e]; exact ⟨visits k h.1, visits v h.2.1⟩
      · exact visitsD ys h.2.2 x hx
termination_by structural xs => xs
theorem visitsA : ∀ (xs : List (Str × OAst)), OWfA xs → ∀ x ∈ xs, VisitsTo E x.2
  | [], _ => fun x hx => absurd hx (by simp)
  | (k, v) :: ys, h => by
      simp only [OWfA] at h
      intro x hx
      rcases List.mem_cons.1 hx with e | hx
      · rw [e]; exact visits v h.2.1
      · exact visitsA ys h.2.2.2 x hx
termination_by structural xs => xs
end

theorem visit_top {q : Bool} {n : Str} {kvs : List (Str × OAst)} (hk : OWfA kvs) :
    (match visit E (otopTree q n kvs) with
      | .error e => .error e
      | .ok (some (.val (.what n c nk o))) => .ok ⟨n, c, nk, o⟩
      | .ok _ => .error .exception : R What) = osemTop E n kvs := by
  have h := visit_what (E := E) (q := q) (n := n) (visitsA kvs hk)
  unfold otopTree
  rw [visit, visitAll, h]
  simp only [osem, osemTop]
  cases osemA E kvs <;> rfl

/-- What is parsed is what the syntax means. -/
theorem parse_layout {q : Bool} {n : Str} {kvs : List (Str × OAst)} {s : Str} (hw : OldWf n kvs) (hl : OldLayout q n kvs s) :
    parseWith E oldGrammar s = osemTop E n kvs := by
  obtain ⟨p, ws, rfl, hp, hws⟩ := hl
  have h1 := reads_top hw.1 hw.2 hp hws
  have h2 : Ev oldGrammar false (.ref .whatamiIdTop) (p ++ ws) (run oldGrammar (((p ++ ws).length + 1) * stepsPerChar) false (.ref .whatamiIdTop) (p ++ ws)) :=
    ⟨top_terminates oldGrammar_noLeftRec (Nat.le_refl _), _, rfl⟩
  have h3 := h2.det h1
  simp only [parseWith, parseTree, h3]
  exact visit_top hw.2

/-- What is not an old-style id is refused. -/
theorem parse_cases (s : Str) : (parseWith E oldGrammar s = .error .noMatch ∧ ∀ q n kvs, OldWf n kvs → ¬ OldLayout q n kvs s) ∨
    ∃ q n kvs, OldWf n kvs ∧ OldLayout q n kvs s ∧ parseWith E oldGrammar s = osemTop E n kvs := by
  cases h : run oldGrammar ((s.length + 1) * stepsPerChar) false (.ref .whatamiIdTop) s with
  | timeout => exact absurd h (top_terminates oldGrammar_noLeftRec (Nat.le_refl _))
  | fail =>
    refine .inl ⟨by simp only [parseWith, parseTree, h], ?_⟩
    rintro q n kvs hw ⟨p, ws, rfl, hp, hws⟩
    cases (reads_top hw.1 hw.2 hp hws).det ⟨by simp, _, h⟩
  | ok ts r =>
    obtain ⟨q, n, kvs, hw, hl, rfl⟩ := sound_top h
    exact .inr ⟨q, n, kvs, hw, hl, parse_layout hw hl⟩

/-! ### The meaning in new style -/

mutual
theorem osem_modern : ∀ a : OAst, NoBraces a → osem E a = sem E (modern a)
  | .none, _ => rfl
  | .bool _, _ => rfl
  | .num _, _ => rfl
  | .str _, _ => rfl
  | .tuple xs, h => by simp only [NoBraces] at h; simp only [osem, modern, sem, osemL_modern xs h]
  | .list xs, h => by simp only [NoBraces] at h; simp only [osem, modern, sem, osemL_modern xs h]
  | .set xs, h => by simp only [NoBraces] at h; simp only [osem, modern, sem, osemL_modern xs h]
  | .braces, h => by simp only [NoBraces] at h
  | .dict kvs, h => by simp only [NoBraces] at h; simp only [osem, modern, sem, osemD_modern kvs h]
  | .what q n kvs, h => by simp only [NoBraces] at h; simp [osem, modern, sem, osemA_modern kvs h]
termination_by structural a => a
theorem osemL_modern : ∀ xs : List OAst, NoBracesL xs → osemL E xs = semL E (modernL xs)
  | [], _ => rfl
  | x :: xs, h => by simp only [NoBracesL] at h; simp only [osemL, modernL, semL, osem_modern x h.1, osemL_modern xs h.2]
termination_by structural xs => xs
theorem osemD_modern : ∀ xs : List (OAst × OAst), NoBracesD xs → osemD E xs = semD E (modernD xs)
  | [], _ => rfl
  | (k, v) :: xs, h => by
    simp only [NoBracesD] at h
    simp only [osemD, modernD, semD, osem_modern k h.1, osem_modern v h.2.1, osemD_modern xs h.2.2]
termination_by structural xs => xs
theorem osemA_modern : ∀ xs : List (Str × OAst), NoBracesA xs → osemA E xs = semA E (modernA xs)
  | [], _ => rfl
  | (k, v) :: xs, h => by simp only [NoBracesA] at h; simp only [osemA, modernA, semA, osem_modern v h.1, osemA_modern xs h.2]
termination_by structural xs => xs
end

theorem osemTop_modern {n : Str} {kvs : List (Str × OAst)} (h : NoBracesA kvs) : osemTop E n kvs = semTop E none n (modernA kvs) := by
  simp [osemTop, semTop, osemA_modern kvs h]

end Whatami.Old
