import Verif.ParseSound

/-
From text to values: the parser stops on every input, and `parse_whatid` is the meaning of the syntax.
Definitions here are vocabulary for statements and proofs: the code they are about is cited in the model modules.
-/
namespace Whatami

/-! ### Termination -/

/-- Steps each rule may take before consuming input. -/
def ruleRank : Rule → Nat
  | .listSep | .anId | .aTrue | .aFalse | .aNone => 2
  | .aString | .aClass | .aList | .aTuple | .aDict => 3
  | .anEmptySet | .kv => 4
  | .aBool | .aNonEmptySet => 5
  | .aNumber | .kvs | .whatamiId => 6
  | .aSet | .whatamiIdTop => 8
  | .value => 17
  | .listElements | .dictkv => 19
  | .dictElements => 21

theorem newGrammar_noLeftRec : NoLeftRec newGrammar ruleRank stepsPerChar where
  nonnull := by intro r; cases r <;> rfl
  lt := by intro r; cases r <;> decide
  bounded := by intro r; cases r <;> decide

theorem oldGrammar_noLeftRec : NoLeftRec oldGrammar ruleRank stepsPerChar where
  nonnull := by intro r; cases r <;> rfl
  lt := by intro r; cases r <;> decide
  bounded := by intro r; cases r <;> decide

theorem top_terminates {g : Rule → Peg} (hg : NoLeftRec g ruleRank stepsPerChar) {n : Nat} {b : Bool} {s : Str}
    (hn : (s.length + 1) * stepsPerChar ≤ n) : run g n b (.ref .whatamiIdTop) s ≠ .timeout := by
  refine run_terminates hg (by decide) ?_
  have : cost ruleRank (.ref .whatamiIdTop) = 8 := rfl
  rw [this]
  simp only [stepsPerChar] at hn ⊢
  omega

/-! ### The meaning of syntax -/

/-- The class (or whatever else) found under a dotted name; what cannot be found becomes a dict. -/
def clsVal (E : Env) (b : Str) : R Val :=
  match E.imp (rpartition b '.').1 (rpartition b '.').2 with
  | .ok .none => .error .indexError
  | .ok v => .ok v
  | .error .importError => .ok (.dict [(.str c!"class", .str b)])
  | .error .attributeError => .ok (.dict [(.str c!"class", .str b)])
  | .error e => .error e

mutual
/-- The value that syntax denotes. -/
def sem (E : Env) : Ast → R Val
  | .none => .ok .none
  | .bool b => .ok (.bool b)
  | .num t => .ok (numberOf E t)
  | .str b => .ok (.str b)
  | .cls b => clsVal E b
  | .tuple xs => (semL E xs).map .tuple
  | .list xs => (semL E xs).map .list
  | .set xs => (semL E xs).bind fun l => (setFrom E.fi [] l).map .set
  | .fset xs => (semL E xs).bind fun l => (setFrom E.fi [] l).map .set
  | .dict kvs => (semD E kvs).bind fun l => (dictFrom E.fi [] l).map .dict
  | .what o n kvs => (semA E kvs).bind fun l =>
      if o.isSome && kvs.isEmpty then .error .valueError else .ok (.what n (dictOf l) [] o)
termination_by structural a => a
/-- The values of elements. -/
def semL (E : Env) : List Ast → R (List Val)
  | [] => .ok []
  | x :: xs => (sem E x).bind fun v => (semL E xs).map fun l => v :: l
termination_by structural xs => xs
/-- The values of the items of a dict. -/
def semD (E : Env) : List (Ast × Ast) → R (List (Val × Val))
  | [] => .ok []
  | (k, v) :: xs => (sem E k).bind fun k' => (sem E v).bind fun v' => (semD E xs).map fun l => (k', v') :: l
termination_by structural xs => xs
/-- The values of parameters. -/
def semA (E : Env) : List (Str × Ast) → R (List (Str × Val))
  | [] => .ok []
  | (k, v) :: xs => (sem E v).bind fun v' => (semA E xs).map fun l => (k, v') :: l
termination_by structural xs => xs
end

/-- The What that a whole id denotes. -/
def semTop (E : Env) (o : Option Str) (n : Str) (kvs : List (Str × Ast)) : R What :=
  (semA E kvs).bind fun l => if o.isSome && kvs.isEmpty then .error .valueError else .ok ⟨n, dictOf l, [], o⟩

/-- A value as the visitor passes it around. -/
def toSem : Val → Sem
  | .none => .noneNode
  | v => .val v

theorem toSem_toVal (v : Val) : (toSem v).toVal = .ok v := by cases v <;> rfl

variable {E : Env}

theorem visitAll_append (xs ys : List Tree) :
    visitAll E (xs ++ ys) = (visitAll E xs).bind fun l => (visitAll E ys).map fun m => l ++ m := by
  induction xs with
  | nil =>
    simp only [List.nil_append, visitAll]
    cases visitAll E ys <;> rfl
  | cons x xs ih =>
    simp only [List.cons_append, visitAll]
    cases visit E x with
    | error e => rfl
    | ok c =>
      cases c with
      | none => exact ih
      | some c =>
        simp only [ih]
        cases visitAll E xs with
        | error e => rfl
        | ok l => cases visitAll E ys <;> rfl

theorem visit_tok (t : Str) : visit E (tok t) = .ok none := rfl
theorem visit_id (t : Str) : visit E (idTree t) = .ok (some (.id t)) := rfl
theorem visit_comma : visit E (.term (some .listSep) true c!",") = .ok none := rfl

theorem visitAll_drop {t : Tree} {ts : List Tree} (h : visit E t = .ok none) : visitAll E (t :: ts) = visitAll E ts := by
  simp only [visitAll, h]

/-- Brackets disappear. -/
theorem visitAll_bracket (op cl : Str) (ts : List Tree) : visitAll E (tok op :: ts ++ [tok cl]) = visitAll E ts := by
  rw [List.cons_append, visitAll_drop (visit_tok op), visitAll_append, visitAll_drop (visit_tok cl)]
  simp only [visitAll]
  cases visitAll E ts with
  | error e => rfl
  | ok l => simp [Except.bind, Except.map]

/-- The results of a separated list are those of its elements. -/
theorem visitAll_sep (ts : List Tree) : visitAll E (sepTrees ts) = visitAll E ts := by
  cases ts with
  | nil => rfl
  | cons t ts =>
    rw [sepTrees_cons]
    have h : ∀ ts, visitAll E (starTrees ts) = visitAll E ts := by
      intro ts
      induction ts with
      | nil => rfl
      | cons u ts ih =>
        rw [starTrees, visitAll_drop visit_comma]
        simp only [visitAll, ih]
    simp only [visitAll, h]

/-- The visitor's result for a value. -/
def VisitsTo (E : Env) (a : Ast) : Prop := visit E (tree a) = (sem E a).map fun v => some (toSem v)

theorem visit_value (t : Tree) : visit E (.node .value [t]) =
    match visit E t with | .error e => .error e | .ok none => .error .indexError | .ok (some c) => .ok (some c) := by
  simp only [visit, visitAll]
  cases visit E t with
  | error e => rfl
  | ok c => cases c <;> rfl

theorem visit_string (b : Str) : visit E (strTree b) = .ok (some (.val (.str b))) := by
  unfold strTree
  simp only [visit, visitAll_bracket]
  cases b <;> rfl

theorem visitAll_vals {xs : List Ast} (h : ∀ x ∈ xs, VisitsTo E x) :
    visitAll E (treeL xs) = (semL E xs).map fun l => l.map toSem := by
  induction xs with
  | nil => rfl
  | cons x xs ih =>
    simp only [treeL, visitAll, semL]
    rw [h x (by simp), ih fun y hy => h y (by simp [hy])]
    cases sem E x with
    | error e => rfl
    | ok v => cases semL E xs <;> rfl

theorem mapR_toSem (l : List Val) : mapR Sem.toVal (l.map toSem) = .ok l := by
  induction l with
  | nil => rfl
  | cons v l ih => simp only [List.map_cons, mapR, toSem_toVal, ih]

/-- The list of elements. -/
theorem visit_elements {xs : List Ast} (h : ∀ x ∈ xs, VisitsTo E x) :
    visitAll E (elems .listElements (treeL xs)) =
      if xs.isEmpty then .ok [] else (semL E xs).map fun l => [.val (.list l)] := by
  cases xs with
  | nil => rfl
  | cons x xs =>
    have hv := visitAll_vals h
    have he : elems .listElements (treeL (x :: xs)) = [.node .listElements (sepTrees (treeL (x :: xs)))] := rfl
    rw [he]
    simp only [visitAll, visit, visitAll_sep]
    rw [hv]
    cases semL E (x :: xs) with
    | error e => rfl
    | ok l => simp [Except.map, visitNode, mapR_toSem]

theorem visitAll_pairs {xs : List (Ast × Ast)} (h : ∀ x ∈ xs, VisitsTo E x.1 ∧ VisitsTo E x.2) :
    visitAll E (treeD xs) = (semD E xs).map fun l => l.map fun p => .pair p.1 p.2 := by
  induction xs with
  | nil => rfl
  | cons x xs ih =>
    obtain ⟨k, v⟩ := x
    obtain ⟨hk, hv⟩ := h (k, v) (by simp)
    simp only [treeD, visitAll, semD, visit, visit_tok]
    simp only [VisitsTo] at hk hv
    rw [hk, hv, ih fun y hy => h y (by simp [hy])]
    cases sem E k with
    | error e => rfl
    | ok k' =>
      cases sem E v with
      | error e => rfl
      | ok v' =>
        simp only [Except.map, visitNode, toSem_toVal]
        cases semD E xs <;> rfl

theorem semPairs_pairs (l : List (Val × Val)) : semPairs (l.map fun p => .pair p.1 p.2) = .ok l := by
  induction l with
  | nil => rfl
  | cons p l ih => simp only [List.map_cons, semPairs, ih]; rfl

theorem visitAll_kvs {xs : List (Str × Ast)} (h : ∀ x ∈ xs, VisitsTo E x.2) :
    visitAll E (treeA xs) = (semA E xs).map fun l => l.map fun p => .kv p.1 p.2 := by
  induction xs with
  | nil => rfl
  | cons x xs ih =>
    obtain ⟨k, v⟩ := x
    have hv := h (k, v) (by simp)
    simp only [treeA, visitAll, semA, visit, visit_tok, visit_id]
    simp only [VisitsTo] at hv
    rw [hv, ih fun y hy => h y (by simp [hy])]
    cases sem E v with
    | error e => rfl
    | ok v' =>
      simp only [Except.map, visitNode, toSem_toVal]
      cases semA E xs <;> rfl

theorem semKvs_kvs (l : List (Str × Val)) : semKvs (l.map fun p => .kv p.1 p.2) = .ok l := by
  induction l with
  | nil => rfl
  | cons p l ih => simp only [List.map_cons, semKvs, ih]; rfl

/-- The visitor on the tree of an id. -/
theorem visit_what {o : Option Str} {n : Str} {kvs : List (Str × Ast)} (hn : n ≠ []) (h : ∀ x ∈ kvs, VisitsTo E x.2) :
    visit E (.node .whatamiId (outTrees o ++ idTree n :: tok c!"(" :: elems .kvs (treeA kvs) ++ [tok c!")"])) =
      (sem E (.what o n kvs)).map fun v => some (toSem v) := by
  have h1 : visitAll E (outTrees o ++ idTree n :: tok c!"(" :: elems .kvs (treeA kvs) ++ [tok c!")"]) =
      (visitAll E (elems .kvs (treeA kvs))).map fun l => (o.toList.map .id) ++ .id n :: l := by
    rw [List.append_assoc, visitAll_append]
    have : visitAll E (idTree n :: tok c!"(" :: elems .kvs (treeA kvs) ++ [tok c!")"]) =
        (visitAll E (elems .kvs (treeA kvs))).map fun l => .id n :: l := by
      rw [List.cons_append]
      simp only [visitAll, visit_id, visitAll_bracket]
    rw [this]
    cases o with
    | none =>
      simp only [outTrees, visitAll]
      cases visitAll E (elems .kvs (treeA kvs)) <;> rfl
    | some x =>
      simp only [outTrees, visitAll, visit_id, visit_tok]
      cases visitAll E (elems .kvs (treeA kvs)) <;> rfl
  simp only [visit]
  rw [h1]
  cases kvs with
  | nil =>
    simp only [treeA, elems, List.isEmpty_nil, if_true, visitAll, sem, semA]
    cases o with
    | none => rfl
    | some x => simp [Except.map, visitNode, visitWhat, Except.bind, hn]
  | cons x kvs =>
    have he : elems .kvs (treeA (x :: kvs)) = [.node .kvs (sepTrees (treeA (x :: kvs)))] := by
      obtain ⟨k, v⟩ := x
      rfl
    rw [he]
    simp only [visitAll, visit, visitAll_sep]
    rw [visitAll_kvs h]
    simp only [sem]
    cases semA E (x :: kvs) with
    | error e => rfl
    | ok l =>
      simp only [Except.map, Except.bind, visitNode, visitWhat]
      cases o with
      | none => simp [visitWhat, semKvs_kvs, Except.map, toSem]
      | some y => simp [visitWhat, semKvs_kvs, Except.map, toSem]

theorem visit_class (b : Str) : VisitsTo E (.cls b) := by
  simp only [VisitsTo, tree, visit_value]
  simp only [visit, visitAll, visit_tok, visit_string, Except.map, visitNode, visitClass, sem, clsVal]
  cases E.imp (rpartition b '.').1 (rpartition b '.').2 with
  | error e => cases e <;> rfl
  | ok v => cases v <;> rfl

mutual
theorem visits : ∀ (a : Ast), Wf a → VisitsTo E a
  | .none, _ => rfl
  | .bool b, _ => by cases b <;> rfl
  | .num t, _ => by
      simp only [VisitsTo, tree, sem, visit_value]
      have : treeText (.node .aNumber [.term .none false t]) = t := by simp [treeText, treeText.texts, pyJoin]
      simp only [visit, visitAll, visitTerm]
      rw [this]
      simp only [Except.map, visitNode, numberOf]
      cases pyInt t <;> rfl
  | .str b, _ => by
      simp only [VisitsTo, tree, sem, visit_value, visit_string, Except.map, toSem]
  | .cls b, _ => visit_class b
  | .tuple xs, h => by
      have hx := visitsL xs (by simpa only [Wf] using h)
      simp only [VisitsTo, tree, sem, visit_value]
      simp only [visit, visitAll_bracket, visit_elements hx]
      cases xs with
      | nil => rfl
      | cons x xs =>
        simp only [List.isEmpty_cons]
        cases semL E (x :: xs) <;> rfl
  | .list xs, h => by
      have hx := visitsL xs (by simpa only [Wf] using h)
      simp only [VisitsTo, tree, sem, visit_value]
      simp only [visit, visitAll_bracket, visit_elements hx]
      cases xs with
      | nil => rfl
      | cons x xs =>
        simp only [List.isEmpty_cons]
        cases semL E (x :: xs) <;> rfl
  | .set xs, h => by
      have hx := visitsL xs (by simpa only [Wf] using h)
      simp only [VisitsTo, tree, sem, visit_value]
      cases xs with
      | nil => rfl
      | cons x xs =>
        simp only [List.isEmpty_cons, Bool.false_eq_true, if_false]
        simp only [visit, visitAll, visitAll_bracket, visit_elements hx, List.isEmpty_cons]
        cases semL E (x :: xs) with
        | error e => rfl
        | ok l =>
          simp only [Except.map, Except.bind, visitNode]
          cases hs : setFrom E.fi [] l <;> simp [hs, visitNode, Except.map, toSem]
  | .fset xs, h => by
      have hx := visitsL xs (by simpa only [Wf] using h)
      simp only [VisitsTo, tree, sem, visit_value]
      cases xs with
      | nil => rfl
      | cons x xs =>
        simp only [List.isEmpty_cons, Bool.false_eq_true, if_false]
        simp only [visit, visitAll, visitAll_bracket, visit_elements hx, List.isEmpty_cons]
        cases semL E (x :: xs) with
        | error e => rfl
        | ok l =>
          simp only [Except.map, Except.bind, visitNode]
          cases hs : setFrom E.fi [] l <;> simp [hs, visitNode, Except.map, toSem]
  | .dict kvs, h => by
      have hx := visitsD kvs (by simpa only [Wf] using h)
      simp only [VisitsTo, tree, sem, visit_value]
      simp only [visit, visitAll_bracket]
      cases kvs with
      | nil => rfl
      | cons x kvs =>
        have he : elems .dictElements (treeD (x :: kvs)) = [.node .dictElements (sepTrees (treeD (x :: kvs)))] := by
          obtain ⟨k, v⟩ := x
          rfl
        rw [he]
        simp only [visitAll, visit, visitAll_sep]
        rw [visitAll_pairs hx]
        cases semD E (x :: kvs) with
        | error e => rfl
        | ok l =>
          simp only [Except.map, Except.bind, visitNode, semPairs_pairs]
          cases hs : dictFrom E.fi [] l <;> simp [Except.map, toSem]
  | .what o n kvs, h => by
      simp only [Wf] at h
      have hx := visitsA kvs h.2.2.2
      simp only [VisitsTo, tree, visit_value]
      rw [visit_what (ident_ne h.2.1) hx]
      cases sem E (.what o n kvs) <;> rfl
termination_by structural a => a
theorem visitsL : ∀ (xs : List Ast), WfL xs → ∀ x ∈ xs, VisitsTo E x
  | [], _ => fun x hx => absurd hx (by simp)
  | y :: ys, h => by
      simp only [WfL] at h
      intro x hx
      rcases List.mem_cons.1 hx with e | hx
      · rw [e]; exact visits y h.1
      · exact visitsL ys h.2 x hx
termination_by structural xs => xs
theorem visitsD : ∀ (xs : List (Ast × Ast)), WfD xs → ∀ x ∈ xs, VisitsTo E x.1 ∧ VisitsTo E x.2
  | [], _ => fun x hx => absurd hx (by simp)
  | (k, v) :: ys, h => by
      simp only [WfD] at h
      intro x hx
      rcases List.mem_cons.1 hx with e | hx
      · rw [e]; exact ⟨visits k h.1, visits v h.2.1⟩
      · exact visitsD ys h.2.2 x hx
termination_by structural xs => xs
theorem visitsA : ∀ (xs : List (Str × Ast)), WfA xs → ∀ x ∈ xs, VisitsTo E x.2
  | [], _ => fun x hx => absurd hx (by simp)
  | (k, v) :: ys, h => by
      simp only [WfA] at h
      intro x hx
      rcases List.mem_cons.1 hx with e | hx
      · rw [e]; exact visits v h.2.1
      · exact visitsA ys h.2.2 x hx
termination_by structural xs => xs
end

/-! ### `parse_whatid` -/

theorem visit_top {o : Option Str} {n : Str} {kvs : List (Str × Ast)} (hn : Ident n) (hk : WfA kvs) :
    (match visit E (topTree o n kvs) with
      | .error e => .error e
      | .ok (some (.val (.what n c nk o))) => .ok ⟨n, c, nk, o⟩
      | .ok _ => .error .exception : R What) = semTop E o n kvs := by
  unfold topTree
  simp only [visit, visitAll, visit_tok]
  have h := visit_what (E := E) (o := o) (ident_ne hn) (visitsA kvs hk)
  simp only [visit] at h
  rw [h]
  simp only [sem, semTop]
  cases semA E kvs with
  | error e => rfl
  | ok l =>
    simp only [Except.bind]
    cases o.isSome && kvs.isEmpty <;> rfl

/-- What is parsed is what the syntax means. -/
theorem parse_padded {o : Option Str} {n : Str} {kvs : List (Str × Ast)} (ho : ∀ x, o = some x → Ident x) (hn : Ident n) (hk : WfA kvs)
    (hc : NoSetCallA kvs) {s ws : Str} (hp : Padded (toks (.what o n kvs)) s) (hw : ws.all isWs = true) :
    parseWhatid E (s ++ ws) = semTop E o n kvs := by
  have h1 := reads_top ho hn hk hc hp hw
  have h2 : Ev newGrammar false (.ref .whatamiIdTop) (s ++ ws) (run newGrammar (((s ++ ws).length + 1) * stepsPerChar) false (.ref .whatamiIdTop) (s ++ ws)) :=
    ⟨top_terminates newGrammar_noLeftRec (Nat.le_refl _), _, rfl⟩
  have h3 := h2.det h1
  simp only [parseWhatid, parseWith, parseTree, h3]
  exact visit_top hn hk

/-- Every outcome of `parse_whatid` but `NoMatch` is the meaning of some well-formed syntax. -/
theorem parse_cases (s : Str) : parseWhatid E s = .error .noMatch ∨
    ∃ (o : Option Str) (n : Str) (kvs : List (Str × Ast)) (p ws : Str), (∀ x, o = some x → Ident x) ∧ Ident n ∧ WfA kvs ∧
      s = p ++ ws ∧ Padded (toks (.what o n kvs)) p ∧ ws.all isWs = true ∧ parseWhatid E s = semTop E o n kvs := by
  cases h : run newGrammar ((s.length + 1) * stepsPerChar) false (.ref .whatamiIdTop) s with
  | timeout => exact absurd h (top_terminates newGrammar_noLeftRec (Nat.le_refl _))
  | fail => exact .inl (by simp only [parseWhatid, parseWith, parseTree, h])
  | ok ts r =>
    obtain ⟨o, n, kvs, p, ws, ho, hn, hk, hs, hp, hw, rfl⟩ := sound_top h
    refine .inr ⟨o, n, kvs, p, ws, ho, hn, hk, hs, hp, hw, ?_⟩
    simp only [parseWhatid, parseWith, parseTree, h]
    exact visit_top hn hk

end Whatami
