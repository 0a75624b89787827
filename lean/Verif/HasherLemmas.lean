import Verif.Hasher
import Verif.BasicLemmas
import Verif.CongLemmas

/-
Unpickling: the tokens determine what was pickled (up to identities), if no object is met twice.
Definitions here are vocabulary for proofs: the code they are about is cited in the model modules.
-/
namespace Whatami

mutual
/-- Without identities. -/
def erase : PNode → PNode
  | .tuple _ xs => .tuple none (eraseL xs)
  | .list _ xs => .list none (eraseL xs)
  | .dict _ kvs => .dict none (eraseD kvs)
  | .fset _ xs => .fset none (eraseL xs)
  | .inst _ m n _ kvs => .inst none m n none (eraseD kvs)
  | .hashed b p => .hashed b (erase p)
  | p => p
termination_by structural p => p
def eraseL : List PNode → List PNode
  | [] => []
  | x :: xs => erase x :: eraseL xs
termination_by structural xs => xs
def eraseD : List (PNode × PNode) → List (PNode × PNode)
  | [] => []
  | (k, v) :: xs => (erase k, erase v) :: eraseD xs
termination_by structural xs => xs
end

mutual
/-- Without identities, nor the bytes that are hashed on the way. -/
def strip : PNode → PNode
  | .tuple _ xs => .tuple none (stripL xs)
  | .list _ xs => .list none (stripL xs)
  | .dict _ kvs => .dict none (stripD kvs)
  | .fset _ xs => .fset none (stripL xs)
  | .inst _ m n _ kvs => .inst none m n none (stripD kvs)
  | .hashed _ p => strip p
  | p => p
termination_by structural p => p
def stripL : List PNode → List PNode
  | [] => []
  | x :: xs => strip x :: stripL xs
termination_by structural xs => xs
def stripD : List (PNode × PNode) → List (PNode × PNode)
  | [] => []
  | (k, v) :: xs => (strip k, strip v) :: stripD xs
termination_by structural xs => xs
end

mutual
/-- The bytes that are hashed on the way. -/
def fedOf : PNode → Bytes
  | .tuple _ xs | .list _ xs | .fset _ xs => fedOfL xs
  | .dict _ kvs | .inst _ _ _ _ kvs => fedOfD kvs
  | .hashed b p => b ++ fedOf p
  | _ => []
termination_by structural p => p
def fedOfL : List PNode → Bytes
  | [] => []
  | x :: xs => fedOf x ++ fedOfL xs
termination_by structural xs => xs
def fedOfD : List (PNode × PNode) → Bytes
  | [] => []
  | (k, v) :: xs => fedOf k ++ fedOf v ++ fedOfD xs
termination_by structural xs => xs
end

mutual
/-- The identities in a value. -/
def idsP : PNode → List Nat
  | .tuple id xs => if xs.isEmpty then [] else id.toList ++ idsPL xs
  | .list id xs | .fset id xs => id.toList ++ idsPL xs
  | .dict id kvs => id.toList ++ idsPD kvs
  | .inst id _ _ did kvs => id.toList ++ if kvs.isEmpty then [] else did.toList ++ idsPD kvs
  | .hashed _ p => idsP p
  | _ => []
termination_by structural p => p
def idsPL : List PNode → List Nat
  | [] => []
  | x :: xs => idsP x ++ idsPL xs
termination_by structural xs => xs
def idsPD : List (PNode × PNode) → List Nat
  | [] => []
  | (k, v) :: xs => idsP k ++ idsP v ++ idsPD xs
termination_by structural xs => xs
end

theorem eraseL_length (xs : List PNode) : (eraseL xs).length = xs.length := by
  induction xs with
  | nil => rfl
  | cons x xs ih => simp [eraseL, ih]

theorem eraseD_length (xs : List (PNode × PNode)) : (eraseD xs).length = xs.length := by
  induction xs with
  | nil => rfl
  | cons x xs ih => obtain ⟨k, v⟩ := x; simp [eraseD, ih]

theorem stripL_length (xs : List PNode) : (stripL xs).length = xs.length := by
  induction xs with
  | nil => rfl
  | cons x xs ih => simp [stripL, ih]

theorem stripD_length (xs : List (PNode × PNode)) : (stripD xs).length = xs.length := by
  induction xs with
  | nil => rfl
  | cons x xs ih => obtain ⟨k, v⟩ := x; simp [stripD, ih]

mutual
theorem fed_erase : ∀ p, fedOf (erase p) = fedOf p
  | .none | .bool _ | .int _ | .float _ | .str _ | .glob _ _ => rfl
  | .tuple _ xs | .list _ xs | .fset _ xs => by simp only [erase, fedOf, fed_eraseL xs]
  | .dict _ xs | .inst _ _ _ _ xs => by simp only [erase, fedOf, fed_eraseD xs]
  | .hashed _ p => by simp only [erase, fedOf, fed_erase p]
termination_by structural p => p
theorem fed_eraseL : ∀ xs, fedOfL (eraseL xs) = fedOfL xs
  | [] => rfl
  | x :: xs => by simp only [eraseL, fedOfL, fed_erase x, fed_eraseL xs]
termination_by structural xs => xs
theorem fed_eraseD : ∀ xs, fedOfD (eraseD xs) = fedOfD xs
  | [] => rfl
  | (k, v) :: xs => by simp only [eraseD, fedOfD, fed_erase k, fed_erase v, fed_eraseD xs]
termination_by structural xs => xs
end

/-! ### The unpickler -/

/-- On the stack of the unpickler. -/
inductive UItem where
  | val (v : PNode)
  | mark

/-- The values down to the mark. -/
def popMark : List UItem → List PNode → Option (List PNode × List UItem)
  | .mark :: st, acc => some (acc, st)
  | .val v :: st, acc => popMark st (v :: acc)
  | _, _ => none

/-- So many values. -/
def popN : Nat → List UItem → List PNode → Option (List PNode × List UItem)
  | 0, st, acc => some (acc, st)
  | n + 1, .val v :: st, acc => popN n st (v :: acc)
  | _, _, _ => none

/-- Keys and values in turn. -/
def pairUp : List PNode → List (PNode × PNode)
  | k :: v :: l => (k, v) :: pairUp l
  | _ => []

/-- One opcode: stack and memo. -/
def ustep : PTok → List UItem × List UItem → Option (List UItem × List UItem)
  | .none, (st, m) => some (.val .none :: st, m)
  | .bool b, (st, m) => some (.val (.bool b) :: st, m)
  | .int i, (st, m) => some (.val (.int i) :: st, m)
  | .float t, (st, m) => some (.val (.float t) :: st, m)
  | .str t, (st, m) => some (.val (.str t) :: st, m)
  | .mark, (st, m) => some (.mark :: st, m)
  | .emptyTuple, (st, m) => some (.val (.tuple none []) :: st, m)
  | .tupleN n, (st, m) => (popN n st []).map fun r => (.val (.tuple none r.1) :: r.2, m)
  | .tuple, (st, m) => (popMark st []).map fun r => (.val (.tuple none r.1) :: r.2, m)
  | .emptyList, (st, m) => some (.val (.list none []) :: st, m)
  | .append, (.val x :: .val (.list _ xs) :: st, m) => some (.val (.list none (xs ++ [x])) :: st, m)
  | .appends, (st, m) =>
    match popMark st [] with
    | some (ys, .val (.list _ xs) :: st') => some (.val (.list none (xs ++ ys)) :: st', m)
    | _ => none
  | .emptyDict, (st, m) => some (.val (.dict none []) :: st, m)
  | .setitem, (.val v :: .val k :: .val (.dict _ xs) :: st, m) => some (.val (.dict none (xs ++ [(k, v)])) :: st, m)
  | .setitems, (st, m) =>
    match popMark st [] with
    | some (ys, .val (.dict _ xs) :: st') => some (.val (.dict none (xs ++ pairUp ys)) :: st', m)
    | _ => none
  | .frozenset, (st, m) => (popMark st []).map fun r => (.val (.fset none r.1) :: r.2, m)
  | .memoize, (x :: st, m) => some (x :: st, m ++ [x])
  | .get i, (st, m) => (m[i]?).map fun x => (x :: st, m)
  | .stackGlobal, (.val (.str n) :: .val (.str k) :: st, m) => some (.val (.glob k n) :: st, m)
  | .newobj, (.val _ :: .val (.glob k n) :: st, m) => some (.val (.inst none k n none []) :: st, m)
  | .build, (.val (.dict _ kvs) :: .val (.inst _ k n _ _) :: st, m) => some (.val (.inst none k n none kvs) :: st, m)
  | .stop, s => some s
  | _, _ => none

/-- Opcodes one after the other. -/
def urun : List PTok → List UItem × List UItem → Option (List UItem × List UItem)
  | [], s => some s
  | t :: ts, s => (ustep t s).bind (urun ts)

theorem urun_append (ts us : List PTok) (s : List UItem × List UItem) : urun (ts ++ us) s = (urun ts s).bind (urun us) := by
  induction ts generalizing s with
  | nil => rfl
  | cons t ts ih =>
    simp only [List.cons_append, urun]
    cases ustep t s with
    | none => rfl
    | some s' => exact ih s'

/-- Values on the stack, the last on top. -/
def onStack (vs : List PNode) (st : List UItem) : List UItem := vs.reverse.map .val ++ st

theorem onStack_append (vs ws : List PNode) (st : List UItem) : onStack (vs ++ ws) st = onStack ws (onStack vs st) := by
  simp [onStack]

theorem popMark_acc (vs : List PNode) (st : List UItem) (acc : List PNode) : popMark (vs.map .val ++ .mark :: st) acc = some (vs.reverse ++ acc, st) := by
  induction vs generalizing acc with
  | nil => rfl
  | cons v vs ih => simp [popMark, ih]

theorem popMark_onStack (vs : List PNode) (st : List UItem) : popMark (onStack vs (.mark :: st)) [] = some (vs, st) := by
  rw [onStack, popMark_acc]; simp

theorem popN_acc (vs : List PNode) (st : List UItem) (acc : List PNode) : popN vs.length (vs.map .val ++ st) acc = some (vs.reverse ++ acc, st) := by
  induction vs generalizing acc with
  | nil => rfl
  | cons v vs ih => simp [popN, ih]

theorem popN_onStack (vs : List PNode) (st : List UItem) : popN vs.length (onStack vs st) [] = some (vs, st) := by
  have := popN_acc vs.reverse st []
  simpa [onStack] using this

/-- Each of these token lists pushes its values. -/
inductive Pushes : List (List PTok) → List (List PNode) → List UItem → List UItem → Prop where
  | nil (m : List UItem) : Pushes [] [] m m
  | cons {t : List PTok} {ts : List (List PTok)} {v : List PNode} {vs : List (List PNode)} {m m1 m2 : List UItem} :
      (∀ st, urun t (st, m) = some (onStack v st, m1)) → Pushes ts vs m1 m2 → Pushes (t :: ts) (v :: vs) m m2

theorem Pushes.length {ts : List (List PTok)} {vs : List (List PNode)} {m m' : List UItem} (h : Pushes ts vs m m') : ts.length = vs.length := by
  induction h with
  | nil => rfl
  | cons _ _ ih => simp [ih]

theorem Pushes.split {ts : List (List PTok)} {vs : List (List PNode)} {m m' : List UItem} (h : Pushes ts vs m m') (n : Nat) :
    ∃ m1, Pushes (ts.take n) (vs.take n) m m1 ∧ Pushes (ts.drop n) (vs.drop n) m1 m' := by
  induction h generalizing n with
  | nil m => exact ⟨m, by simpa using Pushes.nil m, by simpa using Pushes.nil m⟩
  | cons h1 h2 ih =>
    cases n with
    | zero => exact ⟨_, .nil _, .cons h1 h2⟩
    | succ n =>
      obtain ⟨m1, a, b⟩ := ih n
      exact ⟨m1, .cons h1 a, b⟩

theorem Pushes.all {ts : List (List PTok)} {vs : List (List PNode)} {m m' : List UItem} (h : Pushes ts vs m m') (st : List UItem) :
    urun ts.flatten (st, m) = some (onStack vs.flatten st, m') := by
  induction h generalizing st with
  | nil => rfl
  | cons h1 h2 ih =>
    simp only [List.flatten_cons]
    rw [urun_append, h1, Option.bind_some, ih, onStack_append]

/-- A container that is filled by `one` and `many`. -/
theorem urun_batches {β : Type} {one many : PTok} {rep : β → List PNode} {C : List β → PNode}
    (h1 : ∀ acc x st m, ustep one (onStack (rep x) (.val (C acc) :: st), m) = some (.val (C (acc ++ [x])) :: st, m))
    (h2 : ∀ acc xs st m, ustep many (onStack (xs.map rep).flatten (.mark :: .val (C acc) :: st), m) = some (.val (C (acc ++ xs)) :: st, m))
    (f : Nat) (xs acc : List β) (ts : List (List PTok)) (m m' : List UItem) (hf : ts.length < f) (h : Pushes ts (xs.map rep) m m') (st : List UItem) :
    urun (batches one many f ts) (.val (C acc) :: st, m) = some (.val (C (acc ++ xs)) :: st, m') := by
  induction f generalizing xs acc ts m with
  | zero => omega
  | succ f ih =>
    have hl := h.length
    rw [List.length_map] at hl
    obtain ⟨m1, ha, hb⟩ := h.split 1000
    rw [← List.map_take] at ha
    rw [← List.map_drop] at hb
    simp only [batches]
    rw [urun_append]
    have e1 : urun (if (ts.take 1000).length > 1 then .mark :: (ts.take 1000).flatten ++ [many]
      else if (ts.take 1000).length = 1 then (ts.take 1000).flatten ++ [one] else []) (.val (C acc) :: st, m) =
        some (.val (C (acc ++ xs.take 1000)) :: st, m1) := by
      split
      · simp only [List.cons_append, urun, ustep, Option.bind_some]
        rw [urun_append, ha.all, Option.bind_some]
        simp only [urun]
        rw [h2]; rfl
      · split
        · rename_i h0 h3
          have hx : (xs.take 1000).length = 1 := by
            have := ha.length
            rw [h3, List.length_map] at this
            omega
          obtain ⟨x, hx⟩ := List.length_eq_one_iff.1 hx
          rw [urun_append, ha.all, Option.bind_some, hx]
          simp only [List.map_cons, List.map_nil, List.flatten_cons, List.flatten_nil, List.append_nil, urun]
          rw [h1]; rfl
        · rename_i h0 h3
          have hx : (xs.take 1000).length = 0 := by
            have := ha.length
            rw [List.length_map] at this
            omega
          have ht : ts.take 1000 = [] := by
            have := ha.length
            rw [List.length_map, hx] at this
            exact List.length_eq_zero_iff.1 this
          rw [ht] at ha
          rw [List.length_eq_zero_iff.1 hx] at ha ⊢
          cases ha
          simp [urun]
    rw [e1, Option.bind_some]
    split
    · rename_i h3
      simp only [List.length_take] at h3
      have : ts.drop 1000 = [] := by rw [List.drop_eq_nil_iff]; omega
      rw [this] at hb
      have hxd : xs.drop 1000 = [] := by rw [List.drop_eq_nil_iff]; omega
      have hxt : xs.take 1000 = xs := List.take_of_length_le (by omega)
      rw [hxd] at hb
      cases hb
      rw [hxt]; rfl
    · rename_i h3
      simp only [List.length_take] at h3
      rw [ih (xs.drop 1000) (acc ++ xs.take 1000) (ts.drop 1000) m1 (by rw [List.length_drop]; omega) hb]
      rw [List.append_assoc, List.take_append_drop]

theorem urun_appends (f : Nat) (xs acc : List PNode) (ts : List (List PTok)) (m m' : List UItem) (hf : ts.length < f)
    (h : Pushes ts (xs.map fun x => [x]) m m') (st : List UItem) :
    urun (batches .append .appends f ts) (.val (.list none acc) :: st, m) = some (.val (.list none (acc ++ xs)) :: st, m') := by
  refine urun_batches (C := fun l => .list none l) ?_ ?_ f xs acc ts m m' hf h st
  · intro acc x st m; rfl
  · intro acc xs st m
    have : (xs.map fun x => [x]).flatten = xs := by induction xs with | nil => rfl | cons x xs ih => simp [ih]
    simp only [ustep, this, popMark_onStack]

theorem pairUp_flatten (xs : List (PNode × PNode)) : pairUp (xs.map fun x => [x.1, x.2]).flatten = xs := by
  induction xs with
  | nil => rfl
  | cons x xs ih => simp [pairUp, ih]

theorem urun_setitems (f : Nat) (xs acc : List (PNode × PNode)) (ts : List (List PTok)) (m m' : List UItem) (hf : ts.length < f)
    (h : Pushes ts (xs.map fun x => [x.1, x.2]) m m') (st : List UItem) :
    urun (batches .setitem .setitems f ts) (.val (.dict none acc) :: st, m) = some (.val (.dict none (acc ++ xs)) :: st, m') := by
  refine urun_batches (C := fun l => .dict none l) ?_ ?_ f xs acc ts m m' hf h st
  · intro acc x st m; rfl
  · intro acc xs st m
    simp only [ustep, popMark_onStack, pairUp_flatten]

/-! ### What the pickler writes is read back -/

/-- The memo of the unpickler fits the state of the pickler. -/
structure MemoFits (s : PState) (m : List UItem) : Prop where
  length : m.length = s.n
  globs : ∀ p ∈ s.globs, m[p.2]? = some (.val (.glob p.1.1 p.1.2))

/-- No identity of the list is in the memo, or twice in the list. -/
structure NewIds (ids : List Nat) (s : PState) : Prop where
  nodup : ids.Nodup
  new : ∀ i ∈ ids, i ∉ s.memo.map Prod.fst

theorem find_new {s : PState} {id : Option Nat} (h : ∀ i ∈ id.toList, i ∉ s.memo.map Prod.fst) : s.find id = none := by
  cases id with
  | none => rfl
  | some id =>
    have : s.memo.find? (fun p => p.1 == id) = none := by
      rw [List.find?_eq_none]
      intro p hp e
      exact h id (by simp) (List.mem_map.2 ⟨p, hp, by simpa using e⟩)
    simp [PState.find, this]

theorem put_n (s : PState) (id : Option Nat) : (s.put id).n = s.n + 1 := by cases id <;> rfl
theorem put_globs (s : PState) (id : Option Nat) : (s.put id).globs = s.globs := by cases id <;> rfl
theorem put_fed (s : PState) (id : Option Nat) : (s.put id).fed = s.fed := by cases id <;> rfl
theorem put_keys (s : PState) (id : Option Nat) : (s.put id).memo.map Prod.fst = id.toList ++ s.memo.map Prod.fst := by cases id <;> rfl

theorem memoFits_push {s : PState} {m : List UItem} (h : MemoFits s m) (id : Option Nat) (x : UItem) : MemoFits (s.put id) (m ++ [x]) := by
  refine ⟨by simp [put_n, h.length], fun p hp => ?_⟩
  rw [put_globs] at hp
  have := h.globs p hp
  rw [List.getElem?_append_left]
  · exact this
  · exact (List.getElem?_eq_some_iff.1 this).1

/-- What saving does. -/
structure SavedAs (ids : List Nat) (s s' : PState) (m m' : List UItem) : Prop where
  fits : MemoFits s' m'
  memo : ∀ i ∈ s'.memo.map Prod.fst, i ∈ s.memo.map Prod.fst ∨ i ∈ ids

theorem urun_one (t : PTok) (s : List UItem × List UItem) : urun [t] s = ustep t s := by
  simp only [urun]
  cases ustep t s <;> rfl

theorem newIds_left {a b : List Nat} {s : PState} (h : NewIds (a ++ b) s) : NewIds a s :=
  ⟨(List.nodup_append.1 h.nodup).1, fun i hi => h.new i (List.mem_append_left _ hi)⟩

theorem newIds_right {a b : List Nat} {s s' : PState} {m m' : List UItem} (h : NewIds (a ++ b) s) (h' : SavedAs a s s' m m') : NewIds b s' := by
  refine ⟨(List.nodup_append.1 h.nodup).2.1, fun i hi hm => ?_⟩
  rcases h'.memo i hm with h1 | h1
  · exact h.new i (List.mem_append_right _ hi) h1
  · exact (List.nodup_append.1 h.nodup).2.2 i h1 i hi rfl

theorem newIds_put {id : Option Nat} {b : List Nat} {s : PState} (h : NewIds (id.toList ++ b) s) : NewIds b (s.put id) := by
  refine ⟨(List.nodup_append.1 h.nodup).2.1, fun i hi hm => ?_⟩
  rw [put_keys] at hm
  rcases List.mem_append.1 hm with hm | hm
  · exact (List.nodup_append.1 h.nodup).2.2 i hm i hi rfl
  · exact h.new i (List.mem_append_right _ hi) hm

theorem newIds_same {a : List Nat} {s s' : PState} (h : NewIds a s) (e : s'.memo = s.memo) : NewIds a s' := ⟨h.nodup, by rw [e]; exact h.new⟩

theorem newIds_find {id : Option Nat} {b : List Nat} {s : PState} (h : NewIds (id.toList ++ b) s) : s.find id = none :=
  find_new (newIds_left h).new

theorem saveGlob_exec {s : PState} {m : List UItem} (h : MemoFits s m) (k n : Str) :
    ∃ m', (∀ st, urun (saveGlob k n s).1 (st, m) = some (.val (.glob k n) :: st, m')) ∧ MemoFits (saveGlob k n s).2 m' ∧ (saveGlob k n s).2.memo = s.memo := by
  unfold saveGlob
  cases hc : s.globs.find? (fun p => p.1 == (k, n)) with
  | some p =>
    refine ⟨m, fun st => ?_, h, rfl⟩
    have hp := List.find?_some hc
    have := h.globs p (List.mem_of_find?_eq_some hc)
    simp at hp
    rw [hp] at this
    simp [urun, ustep, this]
  | none =>
    refine ⟨m ++ [.val (.glob k n)], fun _ => rfl, ⟨by simp [h.length], fun p hp => ?_⟩, rfl⟩
    rcases List.mem_cons.1 hp with rfl | hp
    · simp [← h.length]
    · have := h.globs p hp
      rw [List.getElem?_append_left]
      · exact this
      · exact (List.getElem?_eq_some_iff.1 this).1

theorem saved_refl {ids : List Nat} {s : PState} {m : List UItem} (h : MemoFits s m) : SavedAs ids s s m m := ⟨h, fun _ h => .inl h⟩

theorem saved_trans {a b : List Nat} {s s1 s2 : PState} {m m1 m2 : List UItem} (h1 : SavedAs a s s1 m m1) (h2 : SavedAs b s1 s2 m1 m2) :
    SavedAs (a ++ b) s s2 m m2 := by
  refine ⟨h2.fits, fun i hi => ?_⟩
  rcases h2.memo i hi with h | h
  · rcases h1.memo i h with h | h
    · exact .inl h
    · exact .inr (List.mem_append_left _ h)
  · exact .inr (List.mem_append_right _ h)

theorem saved_put {ids : List Nat} {id : Option Nat} {s s1 : PState} {m m1 : List UItem} (x : UItem) (h : SavedAs ids s s1 m m1) :
    SavedAs (id.toList ++ ids) s (s1.put id) m (m1 ++ [x]) := by
  refine ⟨memoFits_push h.fits id x, fun i hi => ?_⟩
  rw [put_keys] at hi
  rcases List.mem_append.1 hi with hi | hi
  · exact .inr (List.mem_append_left _ hi)
  · rcases h.memo i hi with h | h
    · exact .inl h
    · exact .inr (List.mem_append_right _ h)

theorem saved_after_put {ids : List Nat} {id : Option Nat} {s s1 : PState} {m m0 m1 : List UItem} (h : SavedAs ids (s.put id) s1 m0 m1) :
    SavedAs (id.toList ++ ids) s s1 m m1 := by
  refine ⟨h.fits, fun i hi => ?_⟩
  rcases h.memo i hi with h | h
  · rw [put_keys] at h
    rcases List.mem_append.1 h with h | h
    · exact .inr (List.mem_append_left _ h)
    · exact .inl h
  · exact .inr (List.mem_append_right _ h)

theorem saved_same {ids : List Nat} {s s' s1 : PState} {m m' m1 : List UItem} (h : SavedAs ids s' s1 m' m1) (e : s'.memo = s.memo) : SavedAs ids s s1 m m1 :=
  ⟨h.fits, by rw [← e]; exact h.memo⟩

theorem singles (xs : List PNode) : (xs.map fun x => [x]).flatten = xs := by induction xs with | nil => rfl | cons x xs ih => simp [ih]

theorem newIds_tail {a b : List Nat} {s : PState} (h : NewIds (a ++ b) s) : NewIds b s :=
  ⟨(List.nodup_append.1 h.nodup).2.1, fun i hi => h.new i (List.mem_append_right _ hi)⟩

mutual
theorem save_exec : ∀ (p : PNode) (s : PState) (m : List UItem), NewIds (idsP p) s → MemoFits s m →
    ∃ m', (∀ st, urun (savePickle p s).1 (st, m) = some (.val (strip p) :: st, m')) ∧ SavedAs (idsP p) s (savePickle p s).2 m m'
  | .none, s, m, _, h => ⟨m, fun _ => rfl, saved_refl h⟩
  | .bool b, s, m, _, h => ⟨m, fun _ => rfl, saved_refl h⟩
  | .int i, s, m, _, h => ⟨m, fun _ => rfl, saved_refl h⟩
  | .float t, s, m, _, h => ⟨m, fun _ => rfl, saved_refl h⟩
  | .str t, s, m, _, h => ⟨m, fun _ => rfl, saved_refl h⟩
  | .glob k n, s, m, _, h => by
    obtain ⟨m', h1, h2, h3⟩ := saveGlob_exec h k n
    exact ⟨m', h1, saved_same (saved_refl h2) h3⟩
  | .hashed b p, s, m, hn, h => by
    obtain ⟨m', h1, h2⟩ := save_exec p { s with fed := s.fed ++ b } m ⟨hn.nodup, hn.new⟩ ⟨h.length, h.globs⟩
    exact ⟨m', h1, h2.fits, h2.memo⟩
  | .tuple id xs, s, m, hn, h => by
    cases xs with
    | nil => exact ⟨m, fun _ => rfl, saved_refl h⟩
    | cons x xs =>
      simp only [idsP, List.isEmpty_cons, Bool.false_eq_true, if_false] at hn
      simp only [savePickle, newIds_find hn, strip, idsP, List.isEmpty_cons, Bool.false_eq_true, if_false]
      obtain ⟨m1, hp, hs⟩ := saves_exec (x :: xs) s m (newIds_tail hn) h
      split
      · refine ⟨m1 ++ [.val (.tuple none (stripL (x :: xs)))], fun st => ?_, saved_put _ hs⟩
        rw [urun_append, hp.all, Option.bind_some, singles]
        simp only [urun, ustep]
        rw [← stripL_length, popN_onStack]
        rfl
      · refine ⟨m1 ++ [.val (.tuple none (stripL (x :: xs)))], fun st => ?_, saved_put _ hs⟩
        simp only [List.cons_append, urun, ustep, Option.bind_some]
        rw [urun_append, hp.all, Option.bind_some, singles]
        simp only [urun, ustep, popMark_onStack]
        rfl
  | .list id xs, s, m, hn, h => by
    simp only [idsP] at hn
    simp only [savePickle, newIds_find hn, strip, idsP]
    obtain ⟨m1, hp, hs⟩ := saves_exec xs (s.put id) (m ++ [.val (.list none [])]) (newIds_put hn) (memoFits_push h _ _)
    refine ⟨m1, fun st => ?_, saved_after_put hs⟩
    simp only [urun, ustep, Option.bind_some]
    rw [urun_appends _ (stripL xs) [] _ _ m1 (by rw [hp.length, List.length_map, stripL_length]; omega) hp]
    rfl
  | .dict id kvs, s, m, hn, h => by
    simp only [idsP] at hn
    simp only [savePickle, newIds_find hn, strip, idsP]
    obtain ⟨m1, hp, hs⟩ := savePairs_exec kvs (s.put id) (m ++ [.val (.dict none [])]) (newIds_put hn) (memoFits_push h _ _)
    refine ⟨m1, fun st => ?_, saved_after_put hs⟩
    simp only [urun, ustep, Option.bind_some]
    rw [urun_setitems _ (stripD kvs) [] _ _ m1 (by rw [hp.length, List.length_map, stripD_length]; omega) hp]
    rfl
  | .fset id xs, s, m, hn, h => by
    simp only [idsP] at hn
    simp only [savePickle, newIds_find hn, strip, idsP]
    obtain ⟨m1, hp, hs⟩ := saves_exec xs s m (newIds_tail hn) h
    refine ⟨m1 ++ [.val (.fset none (stripL xs))], fun st => ?_, saved_put _ hs⟩
    simp only [List.cons_append, urun, ustep, Option.bind_some]
    rw [urun_append, hp.all, Option.bind_some, singles]
    simp only [urun, ustep, popMark_onStack]
    rfl
  | .inst id k n did kvs, s, m, hn, h => by
    simp only [idsP] at hn
    obtain ⟨mc, hc, hf, hm⟩ := saveGlob_exec h k n
    have hn1 := newIds_same hn hm
    simp only [savePickle, newIds_find hn, strip, idsP]
    have hf1 := memoFits_push hf id (.val (.inst none k n none []))
    cases kvs with
    | nil =>
      refine ⟨mc ++ [.val (.inst none k n none [])], fun st => ?_, saved_same (saved_put _ (saved_refl hf)) hm⟩
      simp only [List.isEmpty_nil, if_true, stripD]
      rw [urun_append, hc]
      rfl
    | cons x kvs =>
      simp only [List.isEmpty_cons, Bool.false_eq_true, if_false] at hn1 ⊢
      have hn2 := newIds_put hn1
      simp only [newIds_find hn2]
      obtain ⟨m1, hp, hs⟩ := savePairs_exec (x :: kvs) (((saveGlob k n s).2.put id).put did) _ (newIds_put hn2) (memoFits_push hf1 did (.val (.dict none [])))
      refine ⟨m1, fun st => ?_, saved_same (m' := m) (saved_after_put (m0 := m) (saved_after_put hs)) hm⟩
      simp only [List.append_assoc]
      rw [urun_append, hc, Option.bind_some]
      simp only [List.cons_append, List.nil_append, urun, ustep, Option.bind_some]
      rw [urun_append, urun_setitems _ (stripD (x :: kvs)) [] _ _ m1 (by rw [hp.length, List.length_map, stripD_length]; omega) hp]
      rfl
termination_by structural p => p
theorem saves_exec : ∀ (xs : List PNode) (s : PState) (m : List UItem), NewIds (idsPL xs) s → MemoFits s m →
    ∃ m', Pushes (savePickles xs s).1 ((stripL xs).map fun x => [x]) m m' ∧ SavedAs (idsPL xs) s (savePickles xs s).2 m m'
  | [], s, m, _, h => ⟨m, .nil m, saved_refl h⟩
  | x :: xs, s, m, hn, h => by
    simp only [idsPL] at hn
    obtain ⟨m1, h1, h2⟩ := save_exec x s m (newIds_left hn) h
    obtain ⟨m2, h3, h4⟩ := saves_exec xs _ m1 (newIds_right hn h2) h2.fits
    exact ⟨m2, .cons h1 h3, saved_trans h2 h4⟩
termination_by structural xs => xs
theorem savePairs_exec : ∀ (xs : List (PNode × PNode)) (s : PState) (m : List UItem), NewIds (idsPD xs) s → MemoFits s m →
    ∃ m', Pushes (savePairs xs s).1 ((stripD xs).map fun x => [x.1, x.2]) m m' ∧ SavedAs (idsPD xs) s (savePairs xs s).2 m m'
  | [], s, m, _, h => ⟨m, .nil m, saved_refl h⟩
  | (k, v) :: xs, s, m, hn, h => by
    simp only [idsPD] at hn
    obtain ⟨m1, h1, h2⟩ := save_exec k s m (newIds_left (newIds_left hn)) h
    obtain ⟨m2, h3, h4⟩ := save_exec v _ m1 (newIds_right (newIds_left hn) h2) h2.fits
    obtain ⟨m3, h5, h6⟩ := savePairs_exec xs _ m2 (newIds_right hn (saved_trans h2 h4)) h4.fits
    refine ⟨m3, .cons (fun st => ?_) h5, saved_trans (saved_trans h2 h4) h6⟩
    rw [urun_append, h1, Option.bind_some, h3]
    rfl
termination_by structural xs => xs
end

/-- What is read back of a pickle. -/
theorem dump_strip {p q : PNode} (hp : (idsP p).Nodup) (hq : (idsP q).Nodup) (h : (dumpNode p).2 = (dumpNode q).2) : strip p = strip q := by
  have f : MemoFits {} [] := ⟨rfl, fun i hi => by cases hi⟩
  obtain ⟨m1, h1, _⟩ := save_exec p {} [] ⟨hp, by simp⟩ f
  obtain ⟨m2, h2, _⟩ := save_exec q {} [] ⟨hq, by simp⟩ f
  have e1 : urun (dumpNode p).2 ([], []) = some ([.val (strip p)], m1) := by simp only [dumpNode]; rw [urun_append, h1]; rfl
  have e2 : urun (dumpNode q).2 ([], []) = some ([.val (strip q)], m2) := by simp only [dumpNode]; rw [urun_append, h2]; rfl
  rw [h, e2] at e1
  simp only [Option.some.injEq, Prod.mk.injEq, List.cons.injEq, UItem.val.injEq, and_true] at e1
  exact e1.1.symm

/-! ### Identities do not matter -/

/-- The state without identities: positions used, positions of classes and functions. -/
abbrev PSlots := Nat × List ((Str × Str) × Nat)

/-- Pickling a class or function. -/
def plainGlob (m n : Str) (s : PSlots) : List PTok × PSlots :=
  match s.2.find? fun p => p.1 == (m, n) with
  | some p => ([.get p.2], s)
  | none => ([.str m, .str n, .stackGlobal, .memoize], (s.1 + 1, ((m, n), s.1) :: s.2))

mutual
/-- Pickling if no object is met twice. -/
def plainSave : PNode → PSlots → List PTok × PSlots
  | .none, s => ([.none], s)
  | .bool b, s => ([.bool b], s)
  | .int i, s => ([.int i], s)
  | .float t, s => ([.float t], s)
  | .str t, s => ([.str t], s)
  | .glob m n, s => plainGlob m n s
  | .tuple _ xs, s =>
    if xs.isEmpty then ([.emptyTuple], s)
    else
      let r := plainSaves xs s
      if xs.length ≤ 3 then (r.1.flatten ++ [.tupleN xs.length, .memoize], (r.2.1 + 1, r.2.2))
      else (.mark :: r.1.flatten ++ [.tuple, .memoize], (r.2.1 + 1, r.2.2))
  | .list _ xs, s =>
    let r := plainSaves xs (s.1 + 1, s.2)
    (.emptyList :: .memoize :: batches .append .appends (xs.length + 1) r.1, r.2)
  | .dict _ kvs, s =>
    let r := plainPairs kvs (s.1 + 1, s.2)
    (.emptyDict :: .memoize :: batches .setitem .setitems (kvs.length + 1) r.1, r.2)
  | .fset _ xs, s =>
    let r := plainSaves xs s
    (.mark :: r.1.flatten ++ [.frozenset, .memoize], (r.2.1 + 1, r.2.2))
  | .inst _ m n _ kvs, s =>
    let c := plainGlob m n s
    if kvs.isEmpty then (c.1 ++ [.emptyTuple, .newobj, .memoize], (c.2.1 + 1, c.2.2))
    else
      let r := plainPairs kvs (c.2.1 + 2, c.2.2)
      (c.1 ++ [.emptyTuple, .newobj, .memoize, .emptyDict, .memoize] ++ batches .setitem .setitems (kvs.length + 1) r.1 ++ [.build], r.2)
  | .hashed _ p, s => plainSave p s
termination_by structural p => p
def plainSaves : List PNode → PSlots → List (List PTok) × PSlots
  | [], s => ([], s)
  | x :: xs, s =>
    let a := plainSave x s
    let r := plainSaves xs a.2
    (a.1 :: r.1, r.2)
termination_by structural xs => xs
def plainPairs : List (PNode × PNode) → PSlots → List (List PTok) × PSlots
  | [], s => ([], s)
  | (k, v) :: xs, s =>
    let a := plainSave k s
    let b := plainSave v a.2
    let r := plainPairs xs b.2
    ((a.1 ++ b.1) :: r.1, r.2)
termination_by structural xs => xs
end

mutual
theorem plain_erase : ∀ (p : PNode) (s : PSlots), plainSave (erase p) s = plainSave p s
  | .none, s | .bool _, s | .int _, s | .float _, s | .str _, s | .glob _ _, s => rfl
  | .tuple _ xs, s => by
    have : (eraseL xs).isEmpty = xs.isEmpty := by cases xs <;> rfl
    simp only [erase, plainSave, plainL_erase xs, eraseL_length, this]
  | .list _ xs, s => by simp only [erase, plainSave, plainL_erase xs, eraseL_length]
  | .dict _ xs, s => by simp only [erase, plainSave, plainD_erase xs, eraseD_length]
  | .fset _ xs, s => by simp only [erase, plainSave, plainL_erase xs]
  | .inst _ _ _ _ xs, s => by
    have : (eraseD xs).isEmpty = xs.isEmpty := by cases xs <;> rfl
    simp only [erase, plainSave, plainD_erase xs, eraseD_length, this]
  | .hashed _ p, s => by simp only [erase, plainSave, plain_erase p]
termination_by structural p => p
theorem plainL_erase : ∀ (xs : List PNode) (s : PSlots), plainSaves (eraseL xs) s = plainSaves xs s
  | [], s => rfl
  | x :: xs, s => by simp only [eraseL, plainSaves, plain_erase x, plainL_erase xs]
termination_by structural xs => xs
theorem plainD_erase : ∀ (xs : List (PNode × PNode)) (s : PSlots), plainPairs (eraseD xs) s = plainPairs xs s
  | [], s => rfl
  | (k, v) :: xs, s => by simp only [eraseD, plainPairs, plain_erase k, plain_erase v, plainD_erase xs]
termination_by structural xs => xs
end

mutual
theorem plain_strip : ∀ (p : PNode) (s : PSlots), plainSave (strip p) s = plainSave p s
  | .none, s | .bool _, s | .int _, s | .float _, s | .str _, s | .glob _ _, s => rfl
  | .tuple _ xs, s => by
    have : (stripL xs).isEmpty = xs.isEmpty := by cases xs <;> rfl
    simp only [strip, plainSave, plainL_strip xs, stripL_length, this]
  | .list _ xs, s => by simp only [strip, plainSave, plainL_strip xs, stripL_length]
  | .dict _ xs, s => by simp only [strip, plainSave, plainD_strip xs, stripD_length]
  | .fset _ xs, s => by simp only [strip, plainSave, plainL_strip xs]
  | .inst _ _ _ _ xs, s => by
    have : (stripD xs).isEmpty = xs.isEmpty := by cases xs <;> rfl
    simp only [strip, plainSave, plainD_strip xs, stripD_length, this]
  | .hashed _ p, s => by simp only [strip, plainSave, plain_strip p]
termination_by structural p => p
theorem plainL_strip : ∀ (xs : List PNode) (s : PSlots), plainSaves (stripL xs) s = plainSaves xs s
  | [], s => rfl
  | x :: xs, s => by simp only [stripL, plainSaves, plain_strip x, plainL_strip xs]
termination_by structural xs => xs
theorem plainD_strip : ∀ (xs : List (PNode × PNode)) (s : PSlots), plainPairs (stripD xs) s = plainPairs xs s
  | [], s => rfl
  | (k, v) :: xs, s => by simp only [stripD, plainPairs, plain_strip k, plain_strip v, plainD_strip xs]
termination_by structural xs => xs
end

/-- The keys of the memo grow by these at most, and these bytes go to the hash function. -/
structure KeysWithin (ids : List Nat) (fed : Bytes) (s s' : PState) : Prop where
  keys : ∀ i ∈ s'.memo.map Prod.fst, i ∈ s.memo.map Prod.fst ∨ i ∈ ids
  fed : s'.fed = s.fed ++ fed

/-- The state of the pickler without the memo. -/
def PState.slots (s : PState) : PSlots := (s.n, s.globs)

theorem glob_plain (m n : Str) (s : PState) : (saveGlob m n s).1 = (plainGlob m n s.slots).1 ∧ (saveGlob m n s).2.slots = (plainGlob m n s.slots).2 ∧
    (saveGlob m n s).2.memo = s.memo ∧ (saveGlob m n s).2.fed = s.fed := by
  unfold saveGlob plainGlob PState.slots
  cases h : s.globs.find? (fun p => p.1 == (m, n)) <;> simp

theorem newIds_next {a b : List Nat} {f : Bytes} {s s' : PState} (h : NewIds (a ++ b) s) (h' : KeysWithin a f s s') : NewIds b s' := by
  refine ⟨(List.nodup_append.1 h.nodup).2.1, fun i hi hm => ?_⟩
  rcases h'.keys i hm with h1 | h1
  · exact h.new i (List.mem_append_right _ hi) h1
  · exact (List.nodup_append.1 h.nodup).2.2 i h1 i hi rfl

theorem KeysWithin.refl {a : List Nat} {s : PState} : KeysWithin a [] s s := ⟨fun _ h => .inl h, by simp⟩

theorem KeysWithin.trans {a b : List Nat} {f g : Bytes} {s s1 s2 : PState} (h1 : KeysWithin a f s s1) (h2 : KeysWithin b g s1 s2) :
    KeysWithin (a ++ b) (f ++ g) s s2 := by
  refine ⟨fun i hi => ?_, by rw [h2.fed, h1.fed, List.append_assoc]⟩
  rcases h2.keys i hi with h | h
  · rcases h1.keys i h with h | h
    · exact .inl h
    · exact .inr (List.mem_append_left _ h)
  · exact .inr (List.mem_append_right _ h)

theorem KeysWithin.put {ids : List Nat} {f : Bytes} {id : Option Nat} {s s1 : PState} (h : KeysWithin ids f s s1) :
    KeysWithin (id.toList ++ ids) f s (s1.put id) := by
  refine ⟨fun i hi => ?_, by rw [put_fed, h.fed]⟩
  rw [put_keys] at hi
  rcases List.mem_append.1 hi with hi | hi
  · exact .inr (List.mem_append_left _ hi)
  · rcases h.keys i hi with h | h
    · exact .inl h
    · exact .inr (List.mem_append_right _ h)

theorem KeysWithin.afterPut {ids : List Nat} {f : Bytes} {id : Option Nat} {s s1 : PState} (h : KeysWithin ids f (s.put id) s1) :
    KeysWithin (id.toList ++ ids) f s s1 := by
  refine ⟨fun i hi => ?_, by rw [h.fed, put_fed]⟩
  rcases h.keys i hi with h | h
  · rw [put_keys] at h
    rcases List.mem_append.1 h with h | h
    · exact .inr (List.mem_append_left _ h)
    · exact .inl h
  · exact .inr (List.mem_append_right _ h)

theorem KeysWithin.same {ids : List Nat} {f : Bytes} {s s' s1 : PState} (h : KeysWithin ids f s' s1) (e : s'.memo = s.memo) (e' : s'.fed = s.fed) :
    KeysWithin ids f s s1 := ⟨by rw [← e]; exact h.keys, by rw [← e']; exact h.fed⟩

theorem put_slots (s : PState) (id : Option Nat) : (s.put id).slots = (s.slots.1 + 1, s.slots.2) := by cases id <;> rfl

mutual
theorem save_plain : ∀ (p : PNode) (s : PState), NewIds (idsP p) s →
    (savePickle p s).1 = (plainSave p s.slots).1 ∧ (savePickle p s).2.slots = (plainSave p s.slots).2 ∧
      KeysWithin (idsP p) (fedOf p) s (savePickle p s).2
  | .none, s, _ | .bool _, s, _ | .int _, s, _ | .float _, s, _ | .str _, s, _ => ⟨rfl, rfl, .refl⟩
  | .glob m n, s, _ => by
    obtain ⟨h1, h2, h3, h4⟩ := glob_plain m n s
    exact ⟨h1, h2, KeysWithin.refl.same h3 h4⟩
  | .hashed b p, s, hn => by
    obtain ⟨h1, h2, h3⟩ := save_plain p { s with fed := s.fed ++ b } ⟨hn.nodup, hn.new⟩
    refine ⟨h1, h2, h3.keys, ?_⟩
    simp only [savePickle, fedOf]
    rw [h3.fed, List.append_assoc]
  | .tuple id xs, s, hn => by
    cases xs with
    | nil => exact ⟨rfl, rfl, .refl⟩
    | cons x xs =>
      simp only [idsP, List.isEmpty_cons, Bool.false_eq_true, if_false] at hn
      obtain ⟨h1, h2, h3⟩ := saves_plain (x :: xs) s (newIds_tail hn)
      have e2 : ((savePickles (x :: xs) s).2.put id).slots = ((plainSaves (x :: xs) s.slots).2.1 + 1, (plainSaves (x :: xs) s.slots).2.2) := by
        rw [put_slots, ← h2]
      simp only [savePickle, plainSave, newIds_find hn, idsP, List.isEmpty_cons, Bool.false_eq_true, if_false, h1]
      split
      · exact ⟨rfl, e2, h3.put⟩
      · exact ⟨rfl, e2, h3.put⟩
  | .list id xs, s, hn => by
    simp only [idsP] at hn
    obtain ⟨h1, h2, h3⟩ := saves_plain xs (s.put id) (newIds_put hn)
    rw [put_slots] at h1 h2
    simp only [savePickle, plainSave, newIds_find hn, idsP, h1]
    exact ⟨trivial, h2, h3.afterPut⟩
  | .dict id xs, s, hn => by
    simp only [idsP] at hn
    obtain ⟨h1, h2, h3⟩ := savePairs_plain xs (s.put id) (newIds_put hn)
    rw [put_slots] at h1 h2
    simp only [savePickle, plainSave, newIds_find hn, idsP, h1]
    exact ⟨trivial, h2, h3.afterPut⟩
  | .fset id xs, s, hn => by
    simp only [idsP] at hn
    obtain ⟨h1, h2, h3⟩ := saves_plain xs s (newIds_tail hn)
    simp only [savePickle, plainSave, newIds_find hn, idsP, h1]
    exact ⟨trivial, by rw [put_slots, ← h2], h3.put⟩
  | .inst id m n did kvs, s, hn => by
    simp only [idsP] at hn
    obtain ⟨c1, c2, c3, c4⟩ := glob_plain m n s
    have hn1 := newIds_same hn c3
    simp only [savePickle, plainSave, newIds_find hn, idsP]
    cases kvs with
    | nil =>
      simp only [List.isEmpty_nil, if_true]
      exact ⟨by rw [c1], by rw [put_slots, c2], (KeysWithin.refl.put).same c3 c4⟩
    | cons x kvs =>
      simp only [List.isEmpty_cons, Bool.false_eq_true, if_false] at hn1 ⊢
      have hn2 := newIds_put hn1
      obtain ⟨h1, h2, h3⟩ := savePairs_plain (x :: kvs) (((saveGlob m n s).2.put id).put did) (newIds_put hn2)
      rw [put_slots, put_slots, c2] at h1 h2
      simp only [newIds_find hn2, h1, c1]
      exact ⟨trivial, h2, (h3.afterPut.afterPut).same c3 c4⟩
termination_by structural p => p
theorem saves_plain : ∀ (xs : List PNode) (s : PState), NewIds (idsPL xs) s →
    (savePickles xs s).1 = (plainSaves xs s.slots).1 ∧ (savePickles xs s).2.slots = (plainSaves xs s.slots).2 ∧
      KeysWithin (idsPL xs) (fedOfL xs) s (savePickles xs s).2
  | [], s, _ => ⟨rfl, rfl, .refl⟩
  | x :: xs, s, hn => by
    simp only [idsPL] at hn
    obtain ⟨h1, h2, h3⟩ := save_plain x s (newIds_left hn)
    obtain ⟨k1, k2, k3⟩ := saves_plain xs (savePickle x s).2 (newIds_next hn h3)
    simp only [savePickles, plainSaves, ← h2, h1, k1, k2, true_and, idsPL, fedOfL]
    exact h3.trans k3
termination_by structural xs => xs
theorem savePairs_plain : ∀ (xs : List (PNode × PNode)) (s : PState), NewIds (idsPD xs) s →
    (savePairs xs s).1 = (plainPairs xs s.slots).1 ∧ (savePairs xs s).2.slots = (plainPairs xs s.slots).2 ∧
      KeysWithin (idsPD xs) (fedOfD xs) s (savePairs xs s).2
  | [], s, _ => ⟨rfl, rfl, .refl⟩
  | (k, v) :: xs, s, hn => by
    simp only [idsPD] at hn
    obtain ⟨h1, h2, h3⟩ := save_plain k s (newIds_left (newIds_left hn))
    obtain ⟨j1, j2, j3⟩ := save_plain v (savePickle k s).2 (newIds_next (newIds_left hn) h3)
    obtain ⟨k1, k2, k3⟩ := savePairs_plain xs (savePickle v (savePickle k s).2).2 (newIds_next hn (h3.trans j3))
    simp only [savePairs, plainPairs, ← h2, h1, ← j2, j1, k1, k2, true_and, idsPD, fedOfD]
    exact (h3.trans j3).trans k3
termination_by structural xs => xs
end

/-- The data of arrays in the order in which they are met. -/
theorem dump_fed {p : PNode} (hp : (idsP p).Nodup) : (dumpNode p).1 = fedOf p := by
  have := (save_plain p {} ⟨hp, by simp⟩).2.2.fed
  simpa [dumpNode] using this

/-- What is hashed is determined by the nodes without their identities and by the data of the arrays. -/
theorem strip_dump {p q : PNode} (hp : (idsP p).Nodup) (hq : (idsP q).Nodup) (h : strip p = strip q) (hf : fedOf p = fedOf q) : dumpNode p = dumpNode q := by
  refine Prod.ext ?_ ?_
  · rw [dump_fed hp, dump_fed hq, hf]
  · have h1 := (save_plain p {} ⟨hp, by simp⟩).1
    have h2 := (save_plain q {} ⟨hq, by simp⟩).1
    simp only [dumpNode]
    rw [h1, h2, ← plain_strip p, ← plain_strip q, h]

/-- A pickle depends on identities only if an object is met twice. -/
theorem erase_dump {p q : PNode} (hp : (idsP p).Nodup) (hq : (idsP q).Nodup) (h : erase p = erase q) : dumpNode p = dumpNode q := by
  refine Prod.ext ?_ ?_
  · rw [dump_fed hp, dump_fed hq, ← fed_erase p, ← fed_erase q, h]
  · have h1 := (save_plain p {} ⟨hp, by simp⟩).1
    have h2 := (save_plain q {} ⟨hq, by simp⟩).1
    simp only [dumpNode]
    rw [h1, h2, ← plain_erase p, ← plain_erase q, h]

end Whatami
