import Verif.Utils
import Verif.Parsed
import Verif.Props.RoundTrip
import Verif.Props.Ops

/-
Property of match_whatids: C38.
-/
namespace Whatami

/-! ### Specification -/

/-- `k in keys`. -/
def IsIn (fi : Str → Option Int) (keys : List Val) (k : Val) : Prop := ∃ j ∈ keys, pyEq fi false j k = true

/-- A flattened key is ignored if it is listed itself, or a key it is below is listed: `('a', 'b', 'c')` is below `('a', 'b')`,
`('a',)` and `'a'`. -/
inductive Ignored (fi : Str → Option Int) (keys : List Val) : Val → Prop
  | self {k} : IsIn fi keys k → Ignored fi keys k
  | below {p q} : p ≠ [] → IsIn fi keys (.tuple p) → Ignored fi keys (.tuple (p ++ q))
  | top {k q} : IsIn fi keys k → Ignored fi keys (.tuple (k :: q))

/-- Values that agree: equal, or Whats of the same name and out_name (their parameters have keys of their own). Two values also
agree if one is a What and the other the tuple of its name and its out_name. -/
inductive AgreeVal (fi : Str → Option Int) : Val → Val → Prop
  | whats {n o c nk c' nk'} : AgreeVal fi (.what n c nk o) (.what n c' nk' o)
  | values {a b} : (∀ n c nk o, a ≠ .what n c nk o) → (∀ n c nk o, b ≠ .what n c nk o) → pyEq fi false a b = true → AgreeVal fi a b
  | likeTuple {n c nk o} : AgreeVal fi (.what n c nk o) (.tuple [.str n, optStr o])
  | tupleLike {n c nk o} : AgreeVal fi (.tuple [.str n, optStr o]) (.what n c nk o)

/-- `w` matches the template `t`: same name, same flattened keys, values that agree at the keys that are not ignored. -/
def Matches (fi : Str → Option Int) (srt : SortItems) (o : FlatOpts) (ignored : List Val) (t w : What) : Prop :=
  w.name = t.name ∧ ∃ tk wk, flatten srt o t = .ok tk ∧ flatten srt o w = .ok wk ∧ tk.length = wk.length ∧
    ∀ (i : Nat) kt vt kw vw, tk[i]? = some (kt, vt) → wk[i]? = some (kw, vw) →
      pyEq fi false kt kw = true ∧ (¬ Ignored fi ignored kt → AgreeVal fi vw vt)

/-! ### Equal keys -/

theorem numEq_eq {n m : Int ⊕ Str} (h : numEq false n m = true) : n = m := by
  cases n <;> cases m <;> simp_all [numEq]

theorem pyEq_num {fi : Str → Option Int} {ns : Bool} {k a : Val} {n : Int ⊕ Str} (h : numKey fi a = some n) :
    pyEq fi ns k a = match numKey fi k with | some m => numEq ns m n | none => false := by
  cases k with
  | bool x => simp only [pyEq, h]; rfl
  | int x => simp only [pyEq, h]; rfl
  | float x =>
    simp only [pyEq, h]
    cases numKey fi (.float x) <;> rfl
  | _ => cases a <;> first | rfl | cases h

theorem pyEq_num_left {fi : Str → Option Int} {a b : Val} {n : Int ⊕ Str} (h : numKey fi a = some n) (e : pyEq fi false a b = true) :
    numKey fi b = some n := by
  cases a with
  | bool x =>
    simp only [numKey, Option.some.injEq] at h
    subst h
    simp only [pyEq] at e
    split at e
    · rename_i m hm; rw [hm, numEq_eq e]
    · cases e
  | int x =>
    simp only [numKey, Option.some.injEq] at h
    subst h
    simp only [pyEq] at e
    split at e
    · rename_i m hm; rw [hm, numEq_eq e]
    · cases e
  | float x =>
    simp only [pyEq, h] at e
    split at e
    · rename_i p q hp hq
      rw [hq]
      cases hp
      rw [numEq_eq e]
    · cases e
  | _ => cases h

theorem numKey_isKey {fi : Str → Option Int} {b : Val} {n : Int ⊕ Str} (h : numKey fi b = some n) : isKey b = true := by
  cases b <;> first | rfl | cases h

section
variable {fi : Str → Option Int}

mutual
theorem pyEq_congr : ∀ a b : Val, isKey a = true → pyEq fi false a b = true → ∀ k, pyEq fi false k a = pyEq fi false k b
  | .none, b, _, e, k => by cases b <;> first | rfl | cases e
  | .bool x, b, _, e, k => by
    have h : numKey fi (.bool x) = some (.inl (if x then 1 else 0)) := rfl
    rw [pyEq_num h, pyEq_num (pyEq_num_left h e)]
  | .int x, b, _, e, k => by
    have h : numKey fi (.int x) = some (.inl x) := rfl
    rw [pyEq_num h, pyEq_num (pyEq_num_left h e)]
  | .float x, b, _, e, k => by
    cases h : numKey fi (.float x) with
    | none => simp only [numKey] at h; cases hf : fi x <;> rw [hf] at h <;> cases h
    | some n => rw [pyEq_num h, pyEq_num (pyEq_num_left h e)]
  | .str x, b, _, e, k => by
    cases b <;> first | cases e | skip
    simp only [pyEq, beq_iff_eq] at e
    rw [e]
  | .cls x, b, _, e, k => by
    cases b <;> first | cases e | skip
    simp only [pyEq, beq_iff_eq] at e
    rw [e]
  | .numtype x, b, _, e, k => by
    cases b <;> first | cases e | skip
    simp only [pyEq, beq_iff_eq] at e
    rw [e]
  | .tuple xs, b, h, e, k => by
    cases b <;> first | cases e | skip
    rename_i ys
    simp only [pyEq] at e
    simp only [isKey] at h
    cases k <;> first | rfl | skip
    rename_i zs
    simp only [pyEq]
    exact pyEqL_congr xs ys h e zs
termination_by structural a => a
theorem pyEqL_congr : ∀ a b : List Val, isKeyL a = true → pyEqL fi false a b = true → ∀ k, pyEqL fi false k a = pyEqL fi false k b
  | [], b, _, e, k => by cases b <;> first | rfl | cases e
  | x :: xs, b, h, e, k => by
    cases b <;> first | cases e | skip
    rename_i y ys
    simp only [pyEqL, Bool.and_eq_true] at e
    simp only [isKeyL, Bool.and_eq_true] at h
    cases k with
    | nil => rfl
    | cons z zs => simp only [pyEqL, pyEq_congr x y h.1 e.1 z, pyEqL_congr xs ys h.2 e.2 zs]
termination_by structural a => a
end

theorem inKeys_iff {keys : List Val} {k : Val} : inKeys fi keys k = true ↔ IsIn fi keys k := by
  simp [inKeys, IsIn]

theorem inKeys_congr {keys : List Val} {a b : Val} (h : isKey a = true) (e : pyEq fi false a b = true) : inKeys fi keys a = inKeys fi keys b := by
  simp only [inKeys]
  congr 1
  funext k
  exact pyEq_congr a b h e k

theorem pyEqL_length : ∀ {a b : List Val}, pyEqL fi false a b = true → a.length = b.length
  | [], [], _ => rfl
  | _ :: _, _ :: _, e => by
    simp only [pyEqL, Bool.and_eq_true] at e
    simp [pyEqL_length e.2]

theorem pyEqL_dropLast : ∀ {a b : List Val}, pyEqL fi false a b = true → pyEqL fi false a.dropLast b.dropLast = true
  | [], [], _ => rfl
  | [x], [y], _ => rfl
  | x :: x' :: xs, y :: y' :: ys, e => by
    simp only [pyEqL, Bool.and_eq_true] at e
    have : pyEqL fi false (x' :: xs).dropLast (y' :: ys).dropLast = true := pyEqL_dropLast (by simp only [pyEqL, Bool.and_eq_true]; exact e.2)
    simp only [List.dropLast_cons_cons, pyEqL, Bool.and_eq_true]
    exact ⟨e.1, this⟩
  | [x], y :: y' :: ys, e => by simp [pyEqL] at e
  | x :: x' :: xs, [y], e => by simp [pyEqL] at e

theorem isKeyL_iff {l : List Val} : isKeyL l = true ↔ ∀ x ∈ l, isKey x = true := by
  induction l with
  | nil => simp [isKeyL]
  | cons x xs ih => simp [isKeyL, ih]

theorem ignoreKeyN_congr {keys : List Val} : ∀ (n : Nat) (a b : Val), isKey a = true → pyEq fi false a b = true →
    ignoreKeyN fi keys n a = ignoreKeyN fi keys n b
  | 0, a, b, h, e => by simp only [ignoreKeyN, inKeys_congr h e]
  | n + 1, a, b, h, e => by
    simp only [ignoreKeyN, inKeys_congr h e]
    split
    · rfl
    · cases a with
      | tuple xs =>
        cases b <;> first | cases e | skip
        rename_i ys hnot
        simp only [pyEq] at e
        simp only [isKey] at h
        clear hnot
        match xs, ys, e, h with
        | [], [], _, _ => rfl
        | [], _ :: _, e, _ => cases e
        | [x], [y], e, h =>
          simp only [pyEqL, Bool.and_eq_true] at e
          simp only [isKeyL, Bool.and_eq_true] at h
          exact ignoreKeyN_congr n x y h.1 e.1
        | [x], [], e, _ => cases e
        | [x], _ :: _ :: _, e, _ => simp [pyEqL] at e
        | x :: x' :: xs, [], e, _ => cases e
        | x :: x' :: xs, [y], e, _ => simp [pyEqL] at e
        | x :: x' :: xs, y :: y' :: ys, e, h =>
          refine ignoreKeyN_congr n _ _ ?_ ?_
          · simp only [isKey]
            exact isKeyL_iff.2 fun z hz => isKeyL_iff.1 h z ((List.dropLast_sublist _).subset hz)
          · simp only [pyEq]
            exact pyEqL_dropLast e
      | bool x => cases b <;> first | rfl | cases e | skip
      | int x => cases b <;> first | rfl | cases e | skip
      | float x =>
        cases h' : numKey fi (.float x) with
        | none => simp only [numKey] at h'; cases hf : fi x <;> rw [hf] at h' <;> cases h'
        | some n =>
          have := pyEq_num_left h' e
          cases b <;> first | rfl | cases this | skip
      | _ => cases b <;> first | rfl | cases e | cases h

theorem ignoreKey_congr {keys : List Val} {a b : Val} (h : isKey a = true) (e : pyEq fi false a b = true) :
    ignoreKey fi keys a = ignoreKey fi keys b := by
  have hc := fun n => ignoreKeyN_congr (keys := keys) n a b h e
  cases a with
  | tuple xs =>
    cases b <;> first | cases e | skip
    rename_i ys
    simp only [pyEq] at e
    simp only [ignoreKey, pyEqL_length e]
    exact hc _
  | float x =>
    cases h' : numKey fi (.float x) with
    | none => simp only [numKey] at h'; cases hf : fi x <;> rw [hf] at h' <;> cases h'
    | some n =>
      have := pyEq_num_left h' e
      cases b <;> first | exact hc 0 | cases this
  | _ => cases b <;> first | exact hc 0 | cases e | cases h

/-! ### Ignored keys -/

theorem ignored_head {keys : List Val} {k : Val} {q : List Val} (h : Ignored fi keys (.tuple (k :: q))) :
    IsIn fi keys k ∨ ∃ p r, p ≠ [] ∧ k :: q = p ++ r ∧ IsIn fi keys (.tuple p) := by
  generalize hv : Val.tuple (k :: q) = v at h
  cases h with
  | self h => subst hv; exact .inr ⟨k :: q, [], by simp, by simp, h⟩
  | below hp h => exact .inr ⟨_, _, hp, by injection hv, h⟩
  | top h => injection hv with hv; injection hv with h1 h2; rw [h1]; exact .inl h

/-- `ignore_key` on a path that starts with a name. -/
theorem ignoreKeyN_iff {keys : List Val} : ∀ (n : Nat) (s : Str) (q : List Val), q.length < n →
    (ignoreKeyN fi keys n (.tuple (.str s :: q)) = true ↔ Ignored fi keys (.tuple (.str s :: q)))
  | 0, _, _, h => absurd h (by omega)
  | n + 1, s, q, h => by
    simp only [ignoreKeyN]
    split
    · rename_i hk
      exact ⟨fun _ => .self (inKeys_iff.1 hk), fun _ => rfl⟩
    · rename_i hk
      cases q with
      | nil =>
        have hb : ignoreKeyN fi keys n (.str s) = inKeys fi keys (.str s) := by
          cases n <;> simp only [ignoreKeyN]
          split <;> simp_all
        simp only [hb]
        constructor
        · exact fun h => .top (inKeys_iff.1 h)
        · intro h
          rcases ignored_head h with h | ⟨p, r, hp, e, hi⟩
          · exact inKeys_iff.2 h
          · cases p with
            | nil => exact absurd rfl hp
            | cons a p =>
              simp only [List.cons_append, List.cons.injEq] at e
              have := List.append_eq_nil_iff.1 e.2.symm
              rw [this.1, ← e.1] at hi
              exact absurd (inKeys_iff.2 hi) hk
      | cons b r =>
        simp only
        rw [List.dropLast_cons_cons]
        have ih := ignoreKeyN_iff (keys := keys) n s (b :: r).dropLast (by simp at h ⊢; omega)
        rw [ih]
        have hdl := List.dropLast_concat_getLast (l := b :: r) (by simp)
        constructor
        · intro h
          rcases ignored_head h with h | ⟨p, t, hp, e, hi⟩
          · exact .top h
          · have : Val.str s :: b :: r = p ++ (t ++ [(b :: r).getLast (by simp)]) := by
              rw [← List.append_assoc, ← e, List.cons_append, hdl]
            rw [this]
            exact .below hp hi
        · intro h
          rcases ignored_head h with h | ⟨p, t, hp, e, hi⟩
          · exact .top h
          · rcases List.eq_nil_or_concat t with ht | ⟨t', x, ht⟩
            · rw [ht, List.append_nil] at e
              rw [← e] at hi
              exact absurd (inKeys_iff.2 hi) hk
            · rw [ht] at e
              have e2 := congrArg List.dropLast e
              rw [List.dropLast_cons_cons, List.concat_eq_append, ← List.append_assoc, List.dropLast_concat] at e2
              rw [e2]
              exact .below hp hi

/-! ### The keys of flatten -/

theorem flatItems_keys {srt : SortItems} (hs : SortsItems srt) {o : FlatOpts} {v : Val} (hv : PlainV v) {items : List (Val × Val)}
    (h : flatItems srt o v = .ok items) {k x : Val} (hm : (k, x) ∈ items) :
    isKey k = true ∧ ((∃ s, k = .str s) ∨ (∃ i, k = .int i) ∨ Within k v) ∧ Within x v := by
  cases v with
  | what n c nk out =>
    simp only [flatItems] at h
    cases h
    simp only [List.mem_map, Prod.mk.injEq] at hm
    obtain ⟨⟨k', x'⟩, hm, rfl, rfl⟩ := hm
    have hm : (k', x') ∈ c := by
      have := mem_sortBy.1 hm
      split at this
      · exact this
      · exact (List.mem_filter.1 this).1
    exact ⟨rfl, .inl ⟨_, rfl⟩, Child.within (.what _ _ _ _ hm)⟩
  | list xs =>
    simp only [flatItems] at h
    split at h <;> cases h
    · obtain ⟨j, h1, h2⟩ := mem_enumFrom hm
      subst h1
      exact ⟨rfl, .inr (.inl ⟨_, rfl⟩), Child.within (.list (List.mem_of_getElem? h2))⟩
    · cases hm
  | tuple xs =>
    simp only [flatItems] at h
    split at h <;> cases h
    · obtain ⟨j, h1, h2⟩ := mem_enumFrom hm
      subst h1
      exact ⟨rfl, .inr (.inl ⟨_, rfl⟩), Child.within (.tuple (List.mem_of_getElem? h2))⟩
    · cases hm
  | dict kvs =>
    simp only [flatItems] at h
    split at h
    · have hm := (hs _ _ h).mem_iff.1 hm
      simp only [PlainV] at hv
      exact ⟨(plainD_iff.1 hv _ _ hm).1, .inr (.inr (Child.within (.dictKey hm))), Child.within (.dictVal hm)⟩
    · cases h; cases hm
  | none => cases h; cases hm
  | bool _ => cases h; cases hm
  | int _ => cases h; cases hm
  | float _ => cases h; cases hm
  | str _ => cases h; cases hm
  | cls _ => cases h; cases hm
  | numtype _ => cases h; cases hm
  | set _ => cases h; cases hm
  | _ => simp only [PlainV] at hv

theorem flattenN_keys {srt : SortItems} (hs : SortsItems srt) (o : FlatOpts) : ∀ (n : Nat) (v : Val) (pk : List Val) (l : List (List Val × Val)),
    PlainV v → flattenN srt o n v pk = .ok l → ∀ p x, (p, x) ∈ l →
      ∃ q, p = pk ++ q ∧ q ≠ [] ∧ (∀ k ∈ q, isKey k = true ∧ ((∃ s, k = .str s) ∨ (∃ i, k = .int i) ∨ Within k v)) ∧ Within x v := by
  intro n
  induction n with
  | zero => intro v pk l _ h; cases h
  | succ n ih =>
    intro v pk l hv h p x hm
    simp only [flattenN] at h
    cases hi : flatItems srt o v with
    | error e => rw [hi] at h; cases h
    | ok items =>
      rw [hi] at h
      obtain ⟨k, v', hkv, hcase⟩ := flatLoop_mem h hm
      obtain ⟨h1, h2, h3⟩ := flatItems_keys hs hv hi hkv
      rcases hcase with ⟨rfl, rfl⟩ | ⟨_, sub, hsub, hmem⟩
      · exact ⟨[k], rfl, by simp, by simpa using ⟨h1, h2⟩, h3⟩
      · obtain ⟨q, rfl, _, hq, hx⟩ := ih v' (pk ++ [k]) sub (plain_within hv h3) hsub p x hmem
        refine ⟨k :: q, by simp, by simp, ?_, hx.trans h3⟩
        intro j hj
        rcases List.mem_cons.1 hj with rfl | hj
        · exact ⟨h1, h2⟩
        · refine ⟨(hq j hj).1, ?_⟩
          rcases (hq j hj).2 with h | h | h
          · exact .inl h
          · exact .inr (.inl h)
          · exact .inr (.inr (h.trans h3))

/-- A key of flatten is a path that starts with the name of a parameter. -/
theorem flatten_keys {srt : SortItems} (hs : SortsItems srt) {o : FlatOpts} {w : What} (hw : PlainV w.toVal) {l : List (Val × Val)}
    (h : flatten srt o w = .ok l) {k x : Val} (hm : (k, x) ∈ l) :
    (∃ s q, k = pathKey (.str s :: q) ∧ ∀ k ∈ q, isKey k = true ∧ ((∃ s, k = .str s) ∨ (∃ i, k = .int i) ∨ Within k w.toVal)) ∧
      Within x w.toVal := by
  obtain ⟨l', h', rfl⟩ := map_ok h
  simp only [List.mem_map, Prod.mk.injEq] at hm
  obtain ⟨⟨p, x'⟩, hm, rfl, rfl⟩ := hm
  have h2 := h'
  rw [show depth w.toVal = (depthA w.conf) + 1 from rfl] at h2
  simp only [flattenN, What.toVal, flatItems] at h2
  obtain ⟨k, v, hk, hcase⟩ := flatLoop_mem h2 hm
  obtain ⟨q, hq, _, hqk, hx⟩ := flattenN_keys hs o _ _ _ _ hw h' p x' hm
  simp only [List.nil_append] at hq
  subst hq
  refine ⟨?_, hx⟩
  simp only [List.mem_map, Prod.mk.injEq] at hk
  obtain ⟨kv, hkv, rfl, rfl⟩ := hk
  have hin : Within kv.2 w.toVal := by
    have := mem_sortBy.1 hkv
    refine Child.within (.what kv.1 _ _ _ ?_)
    split at this
    · exact this
    · exact (List.mem_filter.1 this).1
  rcases hcase with ⟨hp, _⟩ | ⟨_, sub, hsub, hmem⟩
  · exact ⟨kv.1, [], by simp at hp; rw [hp], fun k hk => by cases hk⟩
  · obtain ⟨q', hq', _, _, _⟩ := flattenN_keys hs o _ _ _ _ (plain_within hw hin) hsub _ _ hmem
    simp only [List.nil_append, List.singleton_append] at hq'
    refine ⟨kv.1, q', by rw [hq'], fun k hk => hqk k ?_⟩
    rw [hq']
    exact .tail _ hk

theorem pathKey_isKey {s : Str} {q : List Val} (h : ∀ k ∈ q, isKey k = true) : isKey (pathKey (.str s :: q)) = true := by
  cases q with
  | nil => rfl
  | cons a q => simpa only [pathKey, isKey, isKeyL, Bool.true_and] using isKeyL_iff.2 h

theorem ignoreKey_path {keys : List Val} (s : Str) (q : List Val) :
    ignoreKey fi keys (pathKey (.str s :: q)) = true ↔ Ignored fi keys (pathKey (.str s :: q)) := by
  cases q with
  | nil =>
    simp only [pathKey, ignoreKey, ignoreKeyN, inKeys_iff]
    constructor
    · exact .self
    · intro h
      generalize hv : Val.str s = v at h
      cases h with
      | self h => exact h
      | below _ _ => cases hv
      | top _ => cases hv
  | cons a q =>
    simp only [pathKey, ignoreKey]
    exact ignoreKeyN_iff _ _ _ (by simp)

/-! ### Values -/

theorem pyEq_opt_left (o : Option Str) (v : Val) : pyEq fi false (optStr o) v = true ↔ v = optStr o := by
  cases o with
  | none => cases v <;> simp [pyEq, optStr]
  | some s => cases v <;> simp only [pyEq, optStr, Bool.false_eq_true, beq_iff_eq, Val.str.injEq, reduceCtorEq]; exact eq_comm

theorem pyEq_opt_right (o : Option Str) (v : Val) : pyEq fi false v (optStr o) = true ↔ v = optStr o := by
  cases o with
  | none => cases v <;> simp [pyEq, optStr, numKey]
  | some s => cases v <;> simp [pyEq, optStr, numKey]

theorem pyEq_pair_left (n : Str) (o : Option Str) (v : Val) : pyEq fi false (.tuple [.str n, optStr o]) v = true ↔ v = .tuple [.str n, optStr o] := by
  constructor
  · intro h
    cases v <;> first | cases h | skip
    rename_i ys
    match ys, h with
    | [_], h => simp only [pyEq] at h; simp [pyEqL] at h
    | _ :: _ :: _ :: _, h => simp only [pyEq] at h; simp [pyEqL] at h
    | [y, z], h =>
      simp only [pyEq] at h
      simp only [pyEqL, Bool.and_true, Bool.and_eq_true] at h
      rw [(pyEq_opt_left (some n) y).1 h.1, (pyEq_opt_left o z).1 h.2]
      rfl
  · rintro rfl
    simp only [pyEq]
    simp only [pyEqL, Bool.and_true, Bool.and_eq_true]
    exact ⟨(pyEq_opt_left (some n) _).2 rfl, (pyEq_opt_left o _).2 rfl⟩

theorem pyEq_pair_right (n : Str) (o : Option Str) (v : Val) : pyEq fi false v (.tuple [.str n, optStr o]) = true ↔ v = .tuple [.str n, optStr o] := by
  constructor
  · intro h
    cases v <;> first | cases h | skip
    · simp [pyEq, numKey] at h
    rename_i ys
    match ys, h with
    | [_], h => simp only [pyEq] at h; simp [pyEqL] at h
    | _ :: _ :: _ :: _, h => simp only [pyEq] at h; simp [pyEqL] at h
    | [y, z], h =>
      simp only [pyEq] at h
      simp only [pyEqL, Bool.and_true, Bool.and_eq_true] at h
      rw [(pyEq_opt_right (some n) y).1 h.1, (pyEq_opt_right o z).1 h.2]
      rfl
  · rintro rfl
    exact (pyEq_pair_left n o _).2 rfl

theorem stub_agree {a b : Val} : pyEq fi false (stub a) (stub b) = true ↔ AgreeVal fi a b := by
  have hstr : ∀ (n m : Str) (o p : Option Str), (pyEq fi false (.tuple [.str n, optStr o]) (.tuple [.str m, optStr p]) = true ↔ n = m ∧ o = p) := by
    intro n m o p
    rw [pyEq_pair_left]
    cases o <;> cases p <;> simp [optStr, eq_comm]
  constructor
  · intro h
    by_cases ha : ∃ n c nk o, a = .what n c nk o
    · obtain ⟨n, c, nk, o, rfl⟩ := ha
      by_cases hb : ∃ n c nk o, b = .what n c nk o
      · obtain ⟨n', c', nk', o', rfl⟩ := hb
        obtain ⟨rfl, rfl⟩ := (hstr _ _ _ _).1 h
        exact .whats
      · have e : stub b = b := by cases b <;> first | rfl | exact absurd ⟨_, _, _, _, rfl⟩ hb
        rw [e] at h
        rw [(pyEq_pair_left n o b).1 h]
        exact .likeTuple
    · have ea : stub a = a := by cases a <;> first | rfl | exact absurd ⟨_, _, _, _, rfl⟩ ha
      rw [ea] at h
      by_cases hb : ∃ n c nk o, b = .what n c nk o
      · obtain ⟨n', c', nk', o', rfl⟩ := hb
        rw [(pyEq_pair_right n' o' a).1 h]
        exact .tupleLike
      · have e : stub b = b := by cases b <;> first | rfl | exact absurd ⟨_, _, _, _, rfl⟩ hb
        rw [e] at h
        exact .values (fun n c nk o e => ha ⟨n, c, nk, o, e⟩) (fun n c nk o e => hb ⟨n, c, nk, o, e⟩) h
  · intro h
    cases h with
    | whats => exact (hstr _ _ _ _).2 ⟨rfl, rfl⟩
    | values ha hb h =>
      have ea : stub a = a := by cases a <;> first | rfl | exact absurd rfl (ha _ _ _ _)
      have eb : stub b = b := by cases b <;> first | rfl | exact absurd rfl (hb _ _ _ _)
      rwa [ea, eb]
    | likeTuple => exact (hstr _ _ _ _).2 ⟨rfl, rfl⟩
    | tupleLike => exact (hstr _ _ _ _).2 ⟨rfl, rfl⟩

/-- Comparing the keys, and then the values that are left, is comparing position by position. -/
theorem compare_iff {keys : List Val} : ∀ (tk wk : List (Val × Val)),
    (∀ k v, (k, v) ∈ tk → isKey k = true ∧ (ignoreKey fi keys k = true ↔ Ignored fi keys k)) →
    ((pyEqL fi false (tk.map Prod.fst) (wk.map Prod.fst) = true ∧
      pyEqL fi false ((wk.filter fun kv => !ignoreKey fi keys kv.1).map fun kv => stub kv.2)
        ((tk.filter fun kv => !ignoreKey fi keys kv.1).map fun kv => stub kv.2) = true) ↔
     (tk.length = wk.length ∧ ∀ (i : Nat) kt vt kw vw, tk[i]? = some (kt, vt) → wk[i]? = some (kw, vw) →
      pyEq fi false kt kw = true ∧ (¬ Ignored fi keys kt → AgreeVal fi vw vt)))
  | [], [], _ => by simp [pyEqL]
  | [], _ :: _, _ => by simp [pyEqL]
  | _ :: _, [], _ => by simp [pyEqL]
  | (k, v) :: tk, (k', v') :: wk, hk => by
    have ih := compare_iff tk wk fun k v hm => hk k v (.tail _ hm)
    obtain ⟨hkey, hign⟩ := hk k v (.head _)
    simp only [List.map_cons, pyEqL, Bool.and_eq_true, List.length_cons, Nat.add_right_cancel_iff]
    constructor
    · rintro ⟨⟨h1, h2⟩, h3⟩
      have hc := ignoreKey_congr (keys := keys) hkey h1
      simp only [List.filter_cons, ← hc] at h3
      have key : pyEqL fi false ((wk.filter fun kv => !ignoreKey fi keys kv.1).map fun kv => stub kv.2)
        ((tk.filter fun kv => !ignoreKey fi keys kv.1).map fun kv => stub kv.2) = true ∧ (¬ Ignored fi keys k → AgreeVal fi v' v) := by
        by_cases hi : ignoreKey fi keys k = true
        · simp only [hi, Bool.not_true, Bool.false_eq_true, if_false] at h3
          exact ⟨h3, fun hn => absurd (hign.1 hi) hn⟩
        · simp only [Bool.not_eq_true] at hi
          simp only [hi, Bool.not_false, if_true, List.map_cons, pyEqL, Bool.and_eq_true] at h3
          exact ⟨h3.2, fun _ => stub_agree.1 h3.1⟩
      obtain ⟨hl, hat⟩ := ih.1 ⟨h2, key.1⟩
      refine ⟨hl, fun i kt vt kw vw ht hw => ?_⟩
      cases i with
      | zero => simp only [List.getElem?_cons_zero, Option.some.injEq, Prod.mk.injEq] at ht hw; obtain ⟨rfl, rfl⟩ := ht; obtain ⟨rfl, rfl⟩ := hw; exact ⟨h1, key.2⟩
      | succ i => exact hat i kt vt kw vw (by simpa using ht) (by simpa using hw)
    · rintro ⟨hl, hat⟩
      obtain ⟨h1, hag⟩ := hat 0 k v k' v' rfl rfl
      obtain ⟨h2, h3⟩ := ih.2 ⟨hl, fun i kt vt kw vw ht hw => hat (i + 1) kt vt kw vw (by simpa using ht) (by simpa using hw)⟩
      refine ⟨⟨h1, h2⟩, ?_⟩
      have hc := ignoreKey_congr (keys := keys) hkey h1
      simp only [List.filter_cons, ← hc]
      by_cases hi : ignoreKey fi keys k = true
      · simp only [hi, Bool.not_true, Bool.false_eq_true, if_false]
        exact h3
      · have hni := fun h => hi (hign.2 h)
        simp only [Bool.not_eq_true] at hi
        simp only [hi, Bool.not_false, if_true, List.map_cons, pyEqL, Bool.and_eq_true]
        exact ⟨stub_agree.2 (hag hni), h3⟩

end

/-! ### C38 -/

section
variable {E : Env} {srt : SortItems} {o : FlatOpts} {ignored : List Val}

theorem flatten_good (hs : SortsItems srt) {w : What} (hw : PlainV w.toVal) {l : List (Val × Val)} (h : flatten srt o w = .ok l)
    (keys : List Val) : ∀ k v, (k, v) ∈ l → isKey k = true ∧ (ignoreKey E.fi keys k = true ↔ Ignored E.fi keys k) := by
  intro k v hm
  obtain ⟨⟨s, q, rfl, hq⟩, _⟩ := flatten_keys hs hw h hm
  exact ⟨pathKey_isKey fun k hk => (hq k hk).1, ignoreKey_path s q⟩

/-- The test of one id. -/
theorem idMatch_spec (hE : FindsClasses E) (hs : SortsItems srt) (hi : ∀ k ∈ ignored, hashable k = true) {template s : Str} {t w : What}
    (ht : parseWhatid E template = .ok t) (hw : parseWhatid E s = .ok w) {tk wk : List (Val × Val)} (htk : flatten srt o t = .ok tk)
    (hwk : flatten srt o w = .ok wk) :
    ∃ b, idMatch E srt o ignored t.name (tk.map Prod.fst) ((tk.filter fun kv => !ignoreKey E.fi ignored kv.1).map fun kv => stub kv.2) s = .ok b ∧
      (b = true ↔ Matches E.fi srt o ignored t w) := by
  have hc := compare_iff (fi := E.fi) (keys := ignored) tk wk (flatten_good hs (parse_plain hE ht) htk ignored)
  have hall : ignored.all hashable = true := List.all_eq_true.2 hi
  have hm : Matches E.fi srt o ignored t w ↔ w.name = t.name ∧ tk.length = wk.length ∧
      ∀ (i : Nat) kt vt kw vw, tk[i]? = some (kt, vt) → wk[i]? = some (kw, vw) →
      pyEq E.fi false kt kw = true ∧ (¬ Ignored E.fi ignored kt → AgreeVal E.fi vw vt) := by
    constructor
    · rintro ⟨h1, tk', wk', h2, h3, h4⟩
      rw [htk] at h2; rw [hwk] at h3
      cases h2; cases h3
      exact ⟨h1, h4⟩
    · rintro ⟨h1, h4⟩
      exact ⟨h1, tk, wk, htk, hwk, h4⟩
  simp only [idMatch, hw, partialMatch, hwk]
  by_cases hn : w.name = t.name
  · simp only [hn, ne_eq, not_true, if_false, notIgnoredValues, hall, Bool.or_true, if_true]
    split
    · rename_i hk
      refine ⟨_, rfl, ?_⟩
      rw [hm, ← hc]
      exact ⟨fun h => ⟨hn, hk, h⟩, fun h => h.2.2⟩
    · rename_i hk
      refine ⟨false, rfl, ?_⟩
      rw [hm, ← hc]
      exact ⟨fun h => by (cases h), fun h => absurd h.2.1 hk⟩
  · rw [if_pos hn]
    exact ⟨false, rfl, fun h => (by cases h), fun h => absurd (hm.1 h).1 hn⟩

/-- The id parses, and its parameters can be flattened. -/
def Readable (E : Env) (srt : SortItems) (o : FlatOpts) (s : Str) : Prop :=
  ∃ w kvs, parseWhatid E s = .ok w ∧ flatten srt o w = .ok kvs

/-- The id matches the template. -/
def MatchesId (E : Env) (srt : SortItems) (o : FlatOpts) (ignored : List Val) (template s : Str) : Prop :=
  ∃ t w, parseWhatid E template = .ok t ∧ parseWhatid E s = .ok w ∧ Matches E.fi srt o ignored t w

theorem filterR_ok {α : Type} {p : α → R Bool} {P : α → Prop} [DecidablePred P] : ∀ {l : List α}, (∀ x ∈ l, ∃ b, p x = .ok b ∧ (b = true ↔ P x)) →
    filterR p l = .ok (l.filter fun x => decide (P x))
  | [], _ => rfl
  | x :: xs, h => by
    obtain ⟨b, h1, h2⟩ := h x (.head _)
    have ih := filterR_ok (l := xs) fun y hy => h y (.tail _ hy)
    simp only [filterR, h1, ih, List.filter_cons]
    by_cases hb : b = true
    · have := h2.1 hb
      simp [hb, this]
    · have : ¬ P x := fun h => hb (h2.2 h)
      simp [hb, this]

open Classical in
/-- C38. For every list of ids, template and ignored keys: the result is the ids that match the template, in order. -/
theorem c38_match (hE : FindsClasses E) (hs : SortsItems srt) (ids : List Str) (template : Str) (hi : ∀ k ∈ ignored, hashable k = true)
    (ht : Readable E srt o template) (hids : ∀ s ∈ ids, Readable E srt o s) :
    matchWhatids E srt o ids template ignored = .ok (ids.filter fun s => decide (MatchesId E srt o ignored template s)) := by
  obtain ⟨t, tk, ht, htk⟩ := ht
  have hall : ignored.all hashable = true := List.all_eq_true.2 hi
  simp only [matchWhatids, ht, htk, notIgnoredValues, hall, Bool.or_true, if_true]
  refine filterR_ok fun s hsm => ?_
  obtain ⟨w, wk, hw, hwk⟩ := hids s hsm
  obtain ⟨b, h1, h2⟩ := idMatch_spec hE hs hi ht hw htk hwk
  refine ⟨b, h1, h2.trans ⟨fun h => ⟨t, w, ht, hw, h⟩, ?_⟩⟩
  rintro ⟨t', w', ht', hw', h⟩
  rw [ht] at ht'; rw [hw] at hw'
  cases ht'; cases hw'
  exact h

theorem Ignored.mono {fi : Str → Option Int} {keys keys' : List Val} (h : ∀ k ∈ keys, k ∈ keys') {k : Val} (hk : Ignored fi keys k) : Ignored fi keys' k := by
  have hin : ∀ {k}, IsIn fi keys k → IsIn fi keys' k := fun ⟨j, hj, e⟩ => ⟨j, h j hj, e⟩
  cases hk with
  | self h => exact .self (hin h)
  | below hp h => exact .below hp (hin h)
  | top h => exact .top (hin h)

open Classical in
/-- C38. Ignoring more keys never loses an id. -/
theorem c38_monotone (hE : FindsClasses E) (hs : SortsItems srt) (ids : List Str) (template : Str) (more : List Val) (hmore : ∀ k ∈ ignored, k ∈ more)
    (hi : ∀ k ∈ more, hashable k = true) (ht : Readable E srt o template) (hids : ∀ s ∈ ids, Readable E srt o s) :
    ∃ l l', matchWhatids E srt o ids template ignored = .ok l ∧ matchWhatids E srt o ids template more = .ok l' ∧ l.Sublist l' ∧ l'.Sublist ids := by
  refine ⟨_, _, c38_match hE hs ids template (fun k hk => hi k (hmore k hk)) ht hids, c38_match hE hs ids template hi ht hids, ?_, List.filter_sublist⟩
  have : ids.filter (fun s => decide (MatchesId E srt o ignored template s)) =
      (ids.filter fun s => decide (MatchesId E srt o more template s)).filter fun s => decide (MatchesId E srt o ignored template s) := by
    rw [List.filter_filter]
    congr 1
    funext s
    rw [Bool.eq_iff_iff]
    simp only [Bool.and_eq_true, decide_eq_true_eq]
    refine ⟨fun h => ⟨h, ?_⟩, fun h => h.1⟩
    obtain ⟨t, w, h1, h2, h3, tk, wk, h4, h5, h6, h7⟩ := h
    refine ⟨t, w, h1, h2, h3, tk, wk, h4, h5, h6, fun i kt vt kw vw ha hb => ?_⟩
    obtain ⟨hc, hd⟩ := h7 i kt vt kw vw ha hb
    exact ⟨hc, fun hn => hd fun hk => hn (hk.mono hmore)⟩
  rw [this]
  exact List.filter_sublist

/-- C38. A template that does not parse, or an id that does not after ids that do, makes the whole call raise that error. -/
theorem c38_bad_template (ids : List Str) (template : Str) {e : Err} (h : parseWhatid E template = .error e) :
    matchWhatids E srt o ids template ignored = .error e := by
  simp only [matchWhatids, h]

theorem c38_bad_id (hE : FindsClasses E) (hs : SortsItems srt) (before : List Str) (s : Str) (after : List Str) (template : Str) {e : Err}
    (hi : ∀ k ∈ ignored, hashable k = true) (ht : Readable E srt o template) (hids : ∀ s ∈ before, Readable E srt o s)
    (h : parseWhatid E s = .error e) : matchWhatids E srt o (before ++ s :: after) template ignored = .error e := by
  obtain ⟨t, tk, ht, htk⟩ := ht
  have hall : ignored.all hashable = true := List.all_eq_true.2 hi
  simp only [matchWhatids, ht, htk, notIgnoredValues, hall, Bool.or_true, if_true]
  induction before with
  | nil => simp only [List.nil_append, filterR, idMatch, h]
  | cons b bs ih =>
    obtain ⟨w, wk, hw, hwk⟩ := hids b (.head _)
    obtain ⟨r, h1, _⟩ := idMatch_spec (o := o) hE hs hi ht hw htk hwk
    simp only [List.cons_append, filterR, h1, ih fun s hs => hids s (.tail _ hs)]

/-- C38. A key to ignore that cannot be hashed makes the call raise TypeError, as soon as the template has a parameter. -/
theorem c38_unhashable (ids : List Str) (template : Str) {t : What} {kv : Val × Val} {tk : List (Val × Val)} (ht : parseWhatid E template = .ok t)
    (htk : flatten srt o t = .ok (kv :: tk)) {k : Val} (hk : k ∈ ignored) (hh : hashable k = false) :
    matchWhatids E srt o ids template ignored = .error .typeError := by
  have hall : ignored.all hashable = false := by
    rw [List.all_eq_false]
    exact ⟨k, hk, by simp [hh]⟩
  simp only [matchWhatids, ht, htk, notIgnoredValues, hall, List.isEmpty_cons, Bool.or_self, Bool.false_eq_true, if_false]

open Classical in
/-- C38. A template without parameters is compared whatever is to be ignored. -/
theorem c38_no_parameters (ids : List Str) (template : Str) {t : What} (ht : parseWhatid E template = .ok t) (htk : flatten srt o t = .ok [])
    (hids : ∀ s ∈ ids, Readable E srt o s) :
    matchWhatids E srt o ids template ignored = .ok (ids.filter fun s => decide (∃ w, parseWhatid E s = .ok w ∧ w.name = t.name ∧ flatten srt o w = .ok [])) := by
  simp only [matchWhatids, ht, htk, notIgnoredValues, List.isEmpty_nil, Bool.true_or, if_true, List.map_nil, List.filter_nil]
  refine filterR_ok fun s hsm => ?_
  obtain ⟨w, wk, hw, hwk⟩ := hids s hsm
  have hiff : (∃ w, parseWhatid E s = .ok w ∧ w.name = t.name ∧ flatten srt o w = .ok []) ↔ w.name = t.name ∧ wk = [] := by
    constructor
    · rintro ⟨w', h1, h2, h3⟩
      rw [hw] at h1; cases h1
      rw [hwk] at h3; cases h3
      exact ⟨h2, rfl⟩
    · rintro ⟨h1, rfl⟩
      exact ⟨w, hw, h1, hwk⟩
  rw [hiff]
  simp only [idMatch, hw, partialMatch, hwk]
  by_cases hn : w.name = t.name
  · cases wk with
    | nil => exact ⟨true, by simp [hn, pyEqL, notIgnoredValues, Except.map], by simp [hn]⟩
    | cons x xs => exact ⟨false, by simp [hn, pyEqL], by simp⟩
  · exact ⟨false, by simp [hn], by simp [hn]⟩

/-! A template matches itself. -/

mutual
theorem eq_self {fi : Str → Option Int} : ∀ v : Val, PlainV v → NoNan false v → pyEq fi false v v = true
  | .none, _, _ => rfl
  | .bool b, _, _ => by cases b <;> rfl
  | .int i, _, _ => by simp [pyEq, numKey, numEq]
  | .float t, _, hn => by
    simp only [pyEq]
    cases h : numKey fi (.float t) with
    | none => simp only [numKey] at h; cases hf : fi t <;> rw [hf] at h <;> cases h
    | some n =>
      refine numEq_self h (hn.imp (fun h => h) fun hn e => hn ?_)
      rw [e]; exact .refl _
  | .str s, _, _ => by simp [pyEq]
  | .cls s, _, _ => by simp [pyEq]
  | .numtype s, _, _ => by simp [pyEq]
  | .tuple xs, h, hn => by
    simp only [PlainV] at h
    simp only [pyEq]
    exact eqL_self xs h fun x hx => hn.child (.tuple hx)
  | .list xs, h, hn => by
    simp only [PlainV] at h
    simp only [pyEq]
    exact eqL_self xs h fun x hx => hn.child (.list hx)
  | .set xs, h, hn => by
    simp only [PlainV] at h
    simp only [pyEq, beq_self_eq_true, Bool.true_and]
    have hl := eqs_self (fi := fi) xs (plainL_iff.2 fun x hx => plain_of_isKey x (h x hx)) fun x hx => hn.child (.set hx)
    exact subL_of fun x hx => ⟨x, hx, hl x hx⟩
  | .dict kvs, h, hn => by
    simp only [PlainV] at h
    simp only [pyEq, beq_self_eq_true, Bool.true_and]
    have hl := eqD_self (fi := fi) kvs h fun k v hm => ⟨hn.child (.dictKey hm), hn.child (.dictVal hm)⟩
    exact subD_of fun x hx => ⟨x, hx, hl x.1 x.2 hx⟩
  | .what n c nk o, h, hn => by
    simp only [PlainV] at h
    simp only [pyEq, beq_self_eq_true, Bool.true_and]
    have hl := eqA_self (fi := fi) c h.2.2 fun k v hm => hn.child (.what k n nk o hm)
    exact subA_of fun x hx => ⟨x, hx, rfl, hl x.1 x.2 hx⟩
termination_by structural v => v
theorem eqL_self {fi : Str → Option Int} : ∀ xs : List Val, PlainL xs → (∀ x ∈ xs, NoNan false x) → pyEqL fi false xs xs = true
  | [], _, _ => rfl
  | x :: xs, h, hn => by
    simp only [PlainL] at h
    simp only [pyEqL, eq_self x h.1 (hn x (.head _)), eqL_self xs h.2 fun y hy => hn y (.tail _ hy), Bool.and_self]
termination_by structural xs => xs
theorem eqs_self {fi : Str → Option Int} : ∀ xs : List Val, PlainL xs → (∀ x ∈ xs, NoNan false x) → ∀ x ∈ xs, pyEq fi false x x = true
  | [], _, _, x, hx => by cases hx
  | y :: ys, h, hn, x, hx => by
    simp only [PlainL] at h
    have h1 := eq_self (fi := fi) y h.1 (hn y (.head _))
    have h2 := eqs_self (fi := fi) ys h.2 (fun z hz => hn z (.tail _ hz))
    cases hx with
    | head => exact h1
    | tail _ hx => exact h2 x hx
termination_by structural xs => xs
theorem eqD_self {fi : Str → Option Int} : ∀ xs : List (Val × Val), PlainD xs → (∀ k v, (k, v) ∈ xs → NoNan false k ∧ NoNan false v) →
    ∀ k v, (k, v) ∈ xs → pyEq fi false k k = true ∧ pyEq fi false v v = true
  | [], _, _, k, v, hx => by cases hx
  | (k', v') :: ys, h, hn, k, v, hx => by
    simp only [PlainD] at h
    have h0 := eq_self (fi := fi) k' (plain_of_isKey k' h.1) (hn k' v' (.head _)).1
    have h1 := eq_self (fi := fi) v' h.2.1 (hn k' v' (.head _)).2
    have h2 := eqD_self (fi := fi) ys h.2.2 (fun a b hz => hn a b (.tail _ hz))
    cases hx with
    | head => exact ⟨h0, h1⟩
    | tail _ hx => exact h2 k v hx
termination_by structural xs => xs
theorem eqA_self {fi : Str → Option Int} : ∀ xs : List (Str × Val), PlainA xs → (∀ k v, (k, v) ∈ xs → NoNan false v) →
    ∀ k v, (k, v) ∈ xs → pyEq fi false v v = true
  | [], _, _, k, v, hx => by cases hx
  | (k', v') :: ys, h, hn, k, v, hx => by
    simp only [PlainA] at h
    have h1 := eq_self (fi := fi) v' h.1 (hn k' v' (.head _))
    have h2 := eqA_self (fi := fi) ys h.2 (fun a b hz => hn a b (.tail _ hz))
    cases hx with
    | head => exact h1
    | tail _ hx => exact h2 k v hx
termination_by structural xs => xs
end

/-- C38. Every readable id without nan matches itself, whatever is ignored. -/
theorem c38_self (hE : FindsClasses E) (hs : SortsItems srt) {s : Str} {t : What} (ht : parseWhatid E s = .ok t) (hr : Readable E srt o s)
    (hnan : ¬ Within (.float c!"nan") t.toVal) : MatchesId E srt o ignored s s := by
  obtain ⟨t', tk, ht', htk⟩ := hr
  rw [ht] at ht'
  cases ht'
  refine ⟨t, t, ht, ht, rfl, tk, tk, htk, htk, rfl, fun i kt vt kw vw h1 h2 => ?_⟩
  rw [h1] at h2
  cases h2
  have hp := parse_plain hE ht
  obtain ⟨⟨n, q, rfl, hq⟩, hv⟩ := flatten_keys hs hp htk (List.mem_of_getElem? h1)
  have hqq : ∀ k ∈ q, pyEq E.fi false k k = true := by
    intro k hk
    rcases (hq k hk).2 with ⟨x, rfl⟩ | ⟨x, rfl⟩ | hw
    · simp [pyEq]
    · simp [pyEq, numKey, numEq]
    · exact eq_self k (plain_within hp hw) (.inr fun h => hnan (h.trans hw))
  have hl : ∀ l : List Val, (∀ k ∈ l, pyEq E.fi false k k = true) → pyEqL E.fi false l l = true := by
    intro l
    induction l with
    | nil => intro _; rfl
    | cons x xs ih => intro h; simp only [pyEqL, h x (.head _), ih fun y hy => h y (.tail _ hy), Bool.and_self]
  constructor
  · cases q with
    | nil => simp [pathKey, pyEq]
    | cons a q =>
      simp only [pathKey]
      rw [pyEq]
      refine hl _ fun k hk => ?_
      cases hk with
      | head => simp [pyEq]
      | tail _ hk => exact hqq k hk
  · intro _
    have hself := eq_self (fi := E.fi) vt (plain_within hp hv) (.inr fun h => hnan (h.trans hv))
    by_cases hw : ∃ n c nk o, vt = .what n c nk o
    · obtain ⟨n, c, nk, o, rfl⟩ := hw
      exact .whats
    · exact .values (fun n c nk o e => hw ⟨n, c, nk, o, e⟩) (fun n c nk o e => hw ⟨n, c, nk, o, e⟩) hself

end

theorem exEnv_classes : FindsClasses exEnv := by
  intro m n v h
  simp only [exEnv] at h
  split at h <;> cases h
  exact .inl ⟨_, rfl⟩

/-! The examples of the docstring (whatutils.py:281-298); the hypotheses of the theorems hold for them. -/

def exTemplate : Str := c!"A(x='x',y=B(x='yx'))"
def exWhatids : List Str := [exTemplate, c!"NotA(x='x',y=B(x='yx'))", c!"A(x='notx',y=B(x='yx'))", c!"A(x='x',y=B(x='notbx'))",
  c!"A(x='notx',y=B(x='notbx'))", c!"A(x='x',y=NotB(x='yx'))"]

example : matchWhatids exEnv srtId {} exWhatids exTemplate [] = .ok [exTemplate] := by rfl
example : matchWhatids exEnv srtId {} exWhatids exTemplate [.str c!"x"] = .ok [exTemplate, c!"A(x='notx',y=B(x='yx'))"] := by rfl
example : matchWhatids exEnv srtId {} exWhatids exTemplate [.tuple [.str c!"y", .str c!"x"]] = .ok [exTemplate, c!"A(x='x',y=B(x='notbx'))"] := by rfl
example : matchWhatids exEnv srtId {} exWhatids exTemplate [.str c!"y"] = .ok [exTemplate, c!"A(x='x',y=B(x='notbx'))", c!"A(x='x',y=NotB(x='yx'))"] := by rfl
example : Readable exEnv srtId {} exTemplate := ⟨_, _, rfl, rfl⟩
example : ∀ s ∈ exWhatids, Readable exEnv srtId {} s := by
  intro s hs
  simp only [exWhatids, List.mem_cons, List.not_mem_nil, or_false] at hs
  rcases hs with rfl | rfl | rfl | rfl | rfl | rfl <;> exact ⟨_, _, rfl, rfl⟩

-- ignoring ('y',) ignores what is below y, but not y itself
example : matchWhatids exEnv srtId {} exWhatids exTemplate [.tuple [.str c!"y"]] = .ok [exTemplate, c!"A(x='x',y=B(x='notbx'))"] := by rfl
-- a template with nan does not match itself; the out_name is not looked at
example : matchWhatids exEnv srtId {} [c!"A(x=nan)"] c!"A(x=nan)" [] = .ok [] := by rfl
example : matchWhatids exEnv srtId {} [c!"a=A(x=1)"] c!"A(x=1)" [] = .ok [c!"a=A(x=1)"] := by rfl
-- a What without parameters is taken for a tuple; an empty list of keys to ignore is fine, an unhashable key is not
example : matchWhatids exEnv srtId {} [c!"A(y=('B',None))"] c!"A(y=B())" [] = .ok [c!"A(y=('B',None))"] := by rfl
example : matchWhatids exEnv srtId {} [] c!"A(y=B())" [.list []] = .error .typeError := by rfl
example : matchWhatids exEnv srtId {} [c!"A()", c!"B()", c!"A(x=1)"] c!"A()" [.list []] = .ok [c!"A()"] := by rfl

end Whatami
