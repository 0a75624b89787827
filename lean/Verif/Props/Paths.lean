import Verif.OpsLemmas
import Verif.Recorder
import Verif.Props.Ops
import Verif.Props.Recorder

/-
C50: indexing a What by a path.
-/
namespace Whatami

/-! ### Specification -/

/-- Keys a path is made of here: names and positions. -/
inductive PathElem : Val → Prop where
  | name (s : Str) : PathElem (.str s)
  | pos (i : Int) : PathElem (.int i)
  /-- True and False are the positions 1 and 0 -/
  | flag (b : Bool) : PathElem (.bool b)

/-- What can be indexed by position. -/
inductive Elements : Val → List Val → Prop where
  | list (xs : List Val) : Elements (.list xs) xs
  | tuple (xs : List Val) : Elements (.tuple xs) xs
  | subList (c : Str) (a : Conf) (xs : List Val) : Elements (.sub .list c a xs) xs
  | subTuple (c : Str) (a : Conf) (xs : List Val) : Elements (.sub .tuple c a xs) xs
  | str (s : Str) : Elements (.str s) (s.map fun c => .str [c])

/-- What has entries: dicts and instances of subclasses. -/
inductive Entries : Val → List (Val × Val) → Prop where
  | dict (kvs : List (Val × Val)) : Entries (.dict kvs) kvs
  | odict (c : Str) (a : Conf) (kvs : List (Val × Val)) : Entries (.odict c a kvs) kvs
  | ddict (f : Str) (a : Conf) (kvs : List (Val × Val)) : Entries (.ddict f a kvs) kvs

/-- One step of a path: to a parameter of a What, or of the What of something whatable; to an entry of a dict; to an
element of a sequence, counted from either end. -/
inductive Step (fi : Str → Option Int) : Val → Val → Val → Prop where
  | param {n : Str} {c : Conf} {ni : List Str} {o : Option Str} {k : Str} {v : Val} :
      dget c k = some v → Step fi (.what n c ni o) (.str k) v
  | whatable {x : Val} {u : What} {k : Str} {v : Val} :
      whatMethod x = some (.ok u) → dget u.conf k = some v → Step fi x (.str k) v
  | entry {d : Val} {l r : List (Val × Val)} {k k' v : Val} :
      Entries d (l ++ (k', v) :: r) → pyEq fi true k' k = true → (∀ e ∈ l, pyEq fi true e.1 k = false) → Step fi d k v
  | elem {s : Val} {xs : List Val} {i : Nat} {v : Val} : Elements s xs → xs[i]? = some v → Step fi s (.int i) v
  | fromEnd {s : Val} {xs : List Val} {i : Nat} {v : Val} :
      Elements s xs → 0 < i → i ≤ xs.length → xs[xs.length - i]? = some v → Step fi s (.int (-(i : Int))) v
  | flag {s : Val} {xs : List Val} {b : Bool} {v : Val} : Elements s xs → xs[b.toNat]? = some v → Step fi s (.bool b) v

/-- The steps of a path, one after the other. -/
inductive Steps (fi : Str → Option Int) : Val → List Val → Val → Prop where
  | done (v : Val) : Steps fi v [] v
  | step {x y z k : Val} {p : List Val} : Step fi x k y → Steps fi y p z → Steps fi x (k :: p) z

/-- A step that cannot be made, and what is raised: KeyError if a What (or the What of something whatable) has no such parameter or a dict no such key,
IndexError if a sequence is too short; where a name is asked of a sequence, or anything of what has neither elements nor a What, AttributeError
(the code asks for `what()` then). -/
inductive StepFails (fi : Str → Option Int) : Val → Val → Err → Prop where
  | param {n : Str} {c : Conf} {ni : List Str} {o : Option Str} {k : Val} : (∀ s, k = .str s → ∀ v, (s, v) ∉ c) → StepFails fi (.what n c ni o) k .keyError
  | entry {d : Val} {kvs : List (Val × Val)} {k : Val} : Entries d kvs → (∀ e ∈ kvs, pyEq fi true e.1 k = false) → StepFails fi d k .keyError
  | range {s : Val} {xs : List Val} {i : Int} : Elements s xs → i < -(xs.length : Int) ∨ (xs.length : Int) ≤ i → StepFails fi s (.int i) .indexError
  | flag {s : Val} {xs : List Val} {b : Bool} : Elements s xs → xs.length ≤ b.toNat → StepFails fi s (.bool b) .indexError
  | name {s : Val} {xs : List Val} (k : Str) : Elements s xs → StepFails fi s (.str k) .attributeError
  | whatable {x : Val} {u : What} {k : Val} : whatMethod x = some (.ok u) → (∀ s, k = .str s → ∀ v, (s, v) ∉ u.conf) → StepFails fi x k .keyError
  | broken {x : Val} {e : Err} (k : Val) : whatMethod x = some (.error e) → StepFails fi x k e
  | other {x : Val} (k : Val) : whatMethod x = none → (∀ xs, ¬ Elements x xs) → (∀ kvs, ¬ Entries x kvs) → (∀ n c ni o, x ≠ .what n c ni o) →
      StepFails fi x k .attributeError

/-- What cannot be a key: lists, sets, dicts, Whats, arrays, and tuples with such. -/
inductive Unhashable : Val → Prop where
  | list (xs : List Val) : Unhashable (.list xs)
  | set (xs : List Val) : Unhashable (.set xs)
  | dict (kvs : List (Val × Val)) : Unhashable (.dict kvs)
  | odict (c : Str) (a : Conf) (kvs : List (Val × Val)) : Unhashable (.odict c a kvs)
  | ddict (f : Str) (a : Conf) (kvs : List (Val × Val)) : Unhashable (.ddict f a kvs)
  | what (n : Str) (c : Conf) (ni : List Str) (o : Option Str) : Unhashable (.what n c ni o)
  | array (c h : Str) : Unhashable (.array c h)
  | subList (c : Str) (a : Conf) (xs : List Val) : Unhashable (.sub .list c a xs)
  | subSet (c : Str) (a : Conf) (xs : List Val) : Unhashable (.sub .set c a xs)
  | tuple {xs : List Val} {x : Val} : x ∈ xs → Unhashable x → Unhashable (.tuple xs)
  | subTuple {c : Str} {a : Conf} {xs : List Val} {x : Val} : x ∈ xs → Unhashable x → Unhashable (.sub .tuple c a xs)

/-! ### Lemmas -/

theorem vget_iff {fi : Str → Option Int} {kvs : List (Val × Val)} {k v : Val} :
    vget fi kvs k = some v ↔
      ∃ l k' r, kvs = l ++ (k', v) :: r ∧ pyEq fi true k' k = true ∧ ∀ e ∈ l, pyEq fi true e.1 k = false := by
  induction kvs with
  | nil => simp [vget]
  | cons e kvs ih =>
    obtain ⟨k0, v0⟩ := e
    simp only [vget]
    by_cases h : pyEq fi true k0 k = true
    · rw [if_pos h]
      constructor
      · intro e; cases e; exact ⟨[], k0, kvs, rfl, h, nofun⟩
      · rintro ⟨l, k', r, e, h1, h2⟩
        cases l with
        | nil => cases e; rfl
        | cons a l =>
          cases e
          have := h2 (k0, v0) (.head _)
          rw [h] at this; cases this
    · rw [if_neg h, ih]
      constructor
      · rintro ⟨l, k', r, rfl, h1, h2⟩
        refine ⟨(k0, v0) :: l, k', r, rfl, h1, ?_⟩
        intro e he
        rcases List.mem_cons.1 he with rfl | he
        · simpa using h
        · exact h2 e he
      · rintro ⟨l, k', r, e, h1, h2⟩
        cases l with
        | nil => cases e; exact absurd h1 h
        | cons a l => cases e; exact ⟨l, k', r, rfl, h1, fun e he => h2 e (.tail _ he)⟩

theorem get_or_error {o : Option Val} {e : Err} {r : R Val} (v : Val) (h1 : ∀ x, o = some x → r = .ok x) (h2 : o = none → r = .error e) :
    r = .ok v ↔ o = some v := by
  cases o with
  | none => rw [h2 rfl]; simp
  | some x => rw [h1 x rfl]; simp

theorem pyIndex_iff {xs : List Val} {i : Int} {v : Val} :
    pyIndex xs i = .ok v ↔ (∃ n : Nat, i = n ∧ xs[n]? = some v) ∨
      ∃ n : Nat, 0 < n ∧ n ≤ xs.length ∧ i = -(n : Int) ∧ xs[xs.length - n]? = some v := by
  simp only [pyIndex]
  by_cases hi : i < 0
  · rw [if_pos hi]
    by_cases hj : i + xs.length < 0
    · rw [if_pos hj]
      simp only [reduceCtorEq, false_iff, not_or, not_exists, not_and]
      exact ⟨fun n hn => by omega, fun n h1 h2 h3 => by omega⟩
    · rw [if_neg hj, get_or_error (o := xs[(i + xs.length).toNat]?) v (by intro x h; rw [h]) (by intro h; rw [h])]
      have hn : (i + xs.length).toNat = xs.length - (-i).toNat := by omega
      rw [hn]
      constructor
      · exact fun h => .inr ⟨(-i).toNat, by omega, by omega, by omega, h⟩
      · rintro (⟨n, rfl, _⟩ | ⟨n, _, _, rfl, h⟩)
        · omega
        · rw [show (-(-(n : Int))).toNat = n by omega]; exact h
  · rw [if_neg hi, if_neg hi, get_or_error (o := xs[i.toNat]?) v (by intro x h; rw [h]) (by intro h; rw [h])]
    constructor
    · exact fun h => .inl ⟨i.toNat, by omega, h⟩
    · rintro (⟨n, rfl, h⟩ | ⟨n, h1, _, rfl, _⟩)
      · exact h
      · omega

theorem step_seq {fi : Str → Option Int} {s : Val} {xs : List Val} (h : Elements s xs) {k : Val} {i : Int} (hk : asIndex k = some i) :
    walkStep fi s k = pyIndex xs i := by
  have hp : ∀ xs : List Val, pyIndex xs i ≠ .error .typeError := by
    intro xs
    simp only [pyIndex]
    repeat' split
    all_goals simp
  have h1 : walkStep fi s k = orWhat s (pyIndex xs i) (getItem fi k) := by
    cases h <;> simp only [walkStep, direct, subscript, hk]
  rw [h1]
  unfold orWhat
  have := hp xs
  cases hr : pyIndex xs i with
  | ok _ => rfl
  | error e => cases e <;> first | rfl | (rw [hr] at this; exact absurd rfl this)

theorem pyIndex_fails {xs : List Val} {i : Int} (h : i < -(xs.length : Int) ∨ (xs.length : Int) ≤ i) : pyIndex xs i = .error .indexError := by
  simp only [pyIndex]
  split
  · rw [if_pos (by omega)]
  · have : xs[i.toNat]? = none := List.getElem?_eq_none (by omega)
    rw [this]

theorem pyIndex_error {xs : List Val} {i : Int} {e : Err} (h : pyIndex xs i = .error e) :
    e = .indexError ∧ (i < -(xs.length : Int) ∨ (xs.length : Int) ≤ i) := by
  by_cases hi : i < -(xs.length : Int) ∨ (xs.length : Int) ≤ i
  · rw [pyIndex_fails hi] at h; cases h; exact ⟨rfl, hi⟩
  · exfalso
    simp only [pyIndex] at h
    split at h
    · rw [if_neg (by omega), List.getElem?_eq_getElem (by omega)] at h
      cases h
    · rw [List.getElem?_eq_getElem (by omega)] at h
      cases h

theorem step_dict {fi : Str → Option Int} {d : Val} {kvs : List (Val × Val)} (h : Entries d kvs) {k : Val} (hk : PathElem k) (v : Val) :
    walkStep fi d k = .ok v ↔ vget fi kvs k = some v := by
  have hh : hashable k = true := by cases hk <;> rfl
  cases h <;> simp only [walkStep, direct, subscript, hh, if_true] <;> cases vget fi kvs k <;> simp [orWhat]

/-- The step the code makes is the step of the specification. -/
theorem walkStep_iff {fi : Str → Option Int} {x k v : Val} (hk : PathElem k) : walkStep fi x k = .ok v ↔ Step fi x k v := by
  -- sequences
  have seq : ∀ xs, Elements x xs → (walkStep fi x k = .ok v ↔ Step fi x k v) := by
    intro xs hx
    have nowhat : whatMethod x = none := by cases hx <;> rfl
    cases hk with
    | name s =>
      have : walkStep fi x (.str s) = .error .attributeError := by cases hx <;> rfl
      rw [this]
      simp only [reduceCtorEq, false_iff]
      intro h
      cases h with
      | param h => cases hx
      | whatable h _ => rw [nowhat] at h; cases h
      | entry h => cases h <;> cases hx
    | pos i =>
      rw [step_seq hx rfl, pyIndex_iff]
      constructor
      · rintro (⟨n, rfl, h⟩ | ⟨n, h1, h2, rfl, h⟩)
        · exact .elem hx h
        · exact .fromEnd hx h1 h2 h
      · intro h
        have uniq : ∀ ys, Elements x ys → ys = xs := by intro ys hy; cases hx <;> cases hy <;> rfl
        generalize hj : Val.int i = k at h
        cases h with
        | param h => cases hx
        | whatable h _ => rw [nowhat] at h; cases h
        | entry h => cases h <;> cases hx
        | elem hy h => cases hj; rw [uniq _ hy] at h; exact .inl ⟨_, rfl, h⟩
        | fromEnd hy h1 h2 h => cases hj; rw [uniq _ hy] at h h2; exact .inr ⟨_, h1, h2, rfl, h⟩
        | flag => cases hj
    | flag b =>
      rw [step_seq hx (i := b.toNat) (by cases b <;> rfl), pyIndex_iff]
      constructor
      · rintro (⟨n, e, h⟩ | ⟨n, h1, h2, e, h⟩)
        · exact .flag hx (by rw [show b.toNat = n by omega]; exact h)
        · omega
      · intro h
        have uniq : ∀ ys, Elements x ys → ys = xs := by intro ys hy; cases hx <;> cases hy <;> rfl
        cases h with
        | entry h => cases h <;> cases hx
        | flag hy h => rw [uniq _ hy] at h; exact .inl ⟨_, rfl, h⟩
  have dct : ∀ kvs, Entries x kvs → (walkStep fi x k = .ok v ↔ Step fi x k v) := by
    intro kvs hx
    have nowhat : whatMethod x = none := by cases hx <;> rfl
    have uniq : ∀ ys, Entries x ys → ys = kvs := by intro ys hy; cases hx <;> cases hy <;> rfl
    rw [step_dict hx hk, vget_iff]
    constructor
    · rintro ⟨l, k', r, rfl, h1, h2⟩; exact .entry hx h1 h2
    · intro h
      cases h with
      | param h => cases hx
      | whatable h _ => rw [nowhat] at h; cases h
      | entry hy h1 h2 => exact ⟨_, _, _, (uniq _ hy).symm, h1, h2⟩
      | elem hy h => cases hy <;> cases hx
      | fromEnd hy _ _ h => cases hy <;> cases hx
      | flag hy h => cases hy <;> cases hx
  have gi : ∀ c : Conf, getItem fi k c = .ok v ↔ ∃ s, k = .str s ∧ dget c s = some v := by
    intro c
    cases hk with
    | name s =>
      simp only [getItem, Val.str.injEq, exists_eq_left']
      cases dget c s <;> simp
    | pos i => simp [getItem, hashable]
    | flag b => simp [getItem, hashable]
  -- everything else raises TypeError, and is asked for its What
  have other : (∀ xs, ¬ Elements x xs) → (∀ kvs, ¬ Entries x kvs) → (∀ n c ni o, x ≠ .what n c ni o) →
      walkStep fi x k = orWhat x (.error .typeError) (getItem fi k) → (walkStep fi x k = .ok v ↔ Step fi x k v) := by
    intro h1 h2 h3 h4
    rw [h4]
    have he : orWhat x (.error .typeError) (getItem fi k) = .ok v ↔ ∃ u, whatMethod x = some (.ok u) ∧ getItem fi k u.conf = .ok v := by
      simp only [orWhat]
      cases hw : whatMethod x with
      | none => simp
      | some r => cases r <;> simp
    rw [he]
    constructor
    · rintro ⟨u, hu, h⟩
      obtain ⟨s, rfl, h'⟩ := (gi _).1 h
      exact .whatable hu h'
    · intro h
      cases h with
      | param h => exact absurd rfl (h3 _ _ _ _)
      | whatable hu h => exact ⟨_, hu, (gi _).2 ⟨_, rfl, h⟩⟩
      | entry h => exact absurd h (h2 _)
      | elem h => exact absurd h (h1 _)
      | fromEnd h => exact absurd h (h1 _)
      | flag h => exact absurd h (h1 _)
  cases x with
  | what n c ni o =>
    have h1 : walkStep fi (.what n c ni o) k = .ok v ↔ getItem fi k c = .ok v := by
      simp only [walkStep, direct]
      cases hr : getItem fi k c with
      | ok _ => simp [orWhat]
      | error e => cases e <;> simp [orWhat, whatMethod]
    rw [h1, gi]
    constructor
    · rintro ⟨s, rfl, h⟩; exact .param h
    · intro h
      cases h with
      | param h => exact ⟨_, rfl, h⟩
      | whatable h _ => cases h
      | entry h => cases h
      | elem h => cases h
      | fromEnd h => cases h
      | flag h => cases h
  | list xs => exact seq _ (.list xs)
  | tuple xs => exact seq _ (.tuple xs)
  | str s => exact seq _ (.str s)
  | dict kvs => exact dct _ (.dict kvs)
  | odict c a kvs => exact dct _ (.odict c a kvs)
  | ddict f a kvs => exact dct _ (.ddict f a kvs)
  | sub b c a xs =>
    cases b with
    | list => exact seq _ (.subList c a xs)
    | tuple => exact seq _ (.subTuple c a xs)
    | _ => exact other (by rintro _ ⟨⟩) (by rintro _ ⟨⟩) (by simp) rfl
  | _ => exact other (by rintro _ ⟨⟩) (by rintro _ ⟨⟩) (by simp) rfl

theorem walk_iff {fi : Str → Option Int} {p : List Val} {x v : Val} (hp : ∀ k ∈ p, PathElem k) : walk fi p x = .ok v ↔ Steps fi x p v := by
  induction p generalizing x with
  | nil =>
    simp only [walk, Except.ok.injEq]
    constructor
    · rintro rfl; exact .done _
    · intro h; cases h; rfl
  | cons k p ih =>
    have hk := hp k (.head _)
    rw [walk_cons]
    constructor
    · intro h
      cases hs : walkStep fi x k with
      | error e => rw [hs] at h; cases h
      | ok y =>
        rw [hs] at h
        exact .step ((walkStep_iff hk).1 hs) ((ih fun k h => hp k (.tail _ h)).1 h)
    · intro h
      cases h with
      | step h1 h2 => rw [(walkStep_iff hk).2 h1]; exact (ih fun k h => hp k (.tail _ h)).2 h2

theorem pathElems_hashable {p : List Val} (hp : ∀ k ∈ p, PathElem k) : hashableL p = true := by
  induction p with
  | nil => rfl
  | cons k p ih =>
    have : hashable k = true := by cases hp k (.head _) <;> rfl
    simp only [hashableL, this, Bool.true_and]
    exact ih fun k h => hp k (.tail _ h)

/-- The first step goes to a parameter, from the conf dict as from the What. -/
theorem first_step {fi : Str → Option Int} {w : What} {k v : Val} (hk : PathElem k) :
    Step fi (strDict w.conf) k v ↔ Step fi w.toVal k v := by
  rw [← walkStep_iff hk, ← walkStep_iff hk]
  cases hk with
  | name s =>
    simp only [walkStep, direct, strDict, subscript, hashable, if_true, vget_strDict, What.toVal, getItem]
    cases dget w.conf s <;> simp [orWhat]
  | pos i =>
    have : vget fi (w.conf.map fun kv => ((.str kv.1 : Val), kv.2)) (.int i) = none := by
      induction w.conf with
      | nil => rfl
      | cons e r ih => simp only [List.map_cons, vget, pyEq, ih]; rfl
    simp only [walkStep, direct, strDict, subscript, hashable, if_true, this, What.toVal, getItem]
    rfl
  | flag b =>
    have : vget fi (w.conf.map fun kv => ((.str kv.1 : Val), kv.2)) (.bool b) = none := by
      induction w.conf with
      | nil => rfl
      | cons e r ih => simp only [List.map_cons, vget, pyEq, ih]; rfl
    simp only [walkStep, direct, strDict, subscript, hashable, if_true, this, What.toVal, getItem]
    rfl

/-! ### C50 -/

/-- C50.  `what[(k1, ..., kn)]` is what is reached step by step, from the parameter `k1`: through nested Whats and
whatables (by the name of a parameter), dicts (by key), lists, tuples and strings (by position). -/
theorem c50_path (fi : Str → Option Int) (w : What) (p : List Val) (hne : p ≠ []) (hp : ∀ k ∈ p, PathElem k) (v : Val) :
    getItem fi (.tuple p) w.conf = .ok v ↔ Steps fi w.toVal p v := by
  simp only [getItem, pathElems_hashable hp, if_true]
  rw [walk_iff hp]
  cases p with
  | nil => exact absurd rfl hne
  | cons k p =>
    have hk := hp k (.head _)
    constructor
    · rintro ⟨⟩; rename_i h1 h2; exact .step ((first_step hk).1 h1) h2
    · rintro ⟨⟩; rename_i h1 h2; exact .step ((first_step hk).2 h1) h2

theorem walk_append {fi : Str → Option Int} (p q : List Val) (x : Val) :
    walk fi (p ++ q) x = match walk fi p x with | .error e => .error e | .ok y => walk fi q y := by
  induction p generalizing x with
  | nil => simp [walk]
  | cons k p ih =>
    rw [List.cons_append, walk_cons, walk_cons]
    cases walkStep fi x k with
    | error e => rfl
    | ok y => exact ih y

/-- C50.  Paths compose: if `what[p]` is a What `u`, then `what[p + q]` is `u[q]`, value or exception. -/
theorem c50_compose (fi : Str → Option Int) (w u : What) (p q : List Val) (hpk : ∀ k ∈ p, PathElem k) (hq : q ≠ []) (hqk : ∀ k ∈ q, PathElem k)
    (h : getItem fi (.tuple p) w.conf = .ok u.toVal) : getItem fi (.tuple (p ++ q)) w.conf = getItem fi (.tuple q) u.conf := by
  have hall : ∀ k ∈ p ++ q, PathElem k := by
    intro k hk
    rcases List.mem_append.1 hk with h | h
    · exact hpk k h
    · exact hqk k h
  simp only [getItem, pathElems_hashable hpk, pathElems_hashable hqk, pathElems_hashable hall, if_true] at h ⊢
  rw [walk_append, h]
  cases q with
  | nil => exact absurd rfl hq
  | cons k q =>
    simp only [walk_cons]
    have : walkStep fi u.toVal k = walkStep fi (strDict u.conf) k := by
      cases hqk k (.head _) with
      | name s =>
        simp only [walkStep, direct, strDict, subscript, hashable, if_true, vget_strDict, What.toVal, getItem]
        cases dget u.conf s <;> rfl
      | pos i =>
        have : vget fi (u.conf.map fun kv => ((.str kv.1 : Val), kv.2)) (.int i) = none := by
          induction u.conf with
          | nil => rfl
          | cons e r ih => simp only [List.map_cons, vget, pyEq, ih]; rfl
        simp only [walkStep, direct, strDict, subscript, hashable, if_true, this, What.toVal, getItem]
        rfl
      | flag b =>
        have : vget fi (u.conf.map fun kv => ((.str kv.1 : Val), kv.2)) (.bool b) = none := by
          induction u.conf with
          | nil => rfl
          | cons e r ih => simp only [List.map_cons, vget, pyEq, ih]; rfl
        simp only [walkStep, direct, strDict, subscript, hashable, if_true, this, What.toVal, getItem]
        rfl
    rw [this]

/-- The first step from the conf dict is as from the What, error or not. -/
theorem first_walk {fi : Str → Option Int} {w : What} {k : Val} (hk : PathElem k) : walkStep fi (strDict w.conf) k = walkStep fi w.toVal k := by
  cases hk with
  | name s =>
    simp only [walkStep, direct, strDict, subscript, hashable, if_true, vget_strDict, What.toVal, getItem]
    cases dget w.conf s <;> rfl
  | pos i =>
    have : vget fi (w.conf.map fun kv => ((.str kv.1 : Val), kv.2)) (.int i) = none := by
      induction w.conf with
      | nil => rfl
      | cons e r ih => simp only [List.map_cons, vget, pyEq, ih]; rfl
    simp only [walkStep, direct, strDict, subscript, hashable, if_true, this, What.toVal, getItem]
    rfl
  | flag b =>
    have : vget fi (w.conf.map fun kv => ((.str kv.1 : Val), kv.2)) (.bool b) = none := by
      induction w.conf with
      | nil => rfl
      | cons e r ih => simp only [List.map_cons, vget, pyEq, ih]; rfl
    simp only [walkStep, direct, strDict, subscript, hashable, if_true, this, What.toVal, getItem]
    rfl

theorem vget_none {fi : Str → Option Int} {kvs : List (Val × Val)} {k : Val} : vget fi kvs k = none ↔ ∀ e ∈ kvs, pyEq fi true e.1 k = false := by
  induction kvs with
  | nil => simp [vget]
  | cons e kvs ih =>
    obtain ⟨k0, v0⟩ := e
    simp only [vget, List.mem_cons, forall_eq_or_imp]
    by_cases h : pyEq fi true k0 k = true
    · rw [if_pos h, h]; simp
    · rw [if_neg h, ih]; simp [h]

theorem getItem_fails {fi : Str → Option Int} {k : Val} (hk : PathElem k) (c : Conf) (e : Err) :
    getItem fi k c = .error e ↔ e = .keyError ∧ ∀ s, k = .str s → ∀ v, (s, v) ∉ c := by
  cases hk with
  | name s =>
    simp only [getItem, Val.str.injEq, forall_eq']
    cases h : dget c s with
    | none =>
      simp only [Except.error.injEq]
      constructor
      · rintro rfl; exact ⟨rfl, fun v m => dget_none_iff.1 h (List.mem_map_of_mem (f := Prod.fst) m)⟩
      · rintro ⟨rfl, _⟩; rfl
    | some v => simp only [reduceCtorEq, false_iff]; exact fun h' => h'.2 v (mem_of_dget h)
  | pos i => simp [getItem, hashable]; exact ⟨Eq.symm, Eq.symm⟩
  | flag b => simp [getItem, hashable]; exact ⟨Eq.symm, Eq.symm⟩

/-- A step fails as specified. -/
theorem walkStep_fails {fi : Str → Option Int} {x k : Val} (hk : PathElem k) (e : Err) : walkStep fi x k = .error e ↔ StepFails fi x k e := by
  have seq : ∀ xs, Elements x xs → (walkStep fi x k = .error e ↔ StepFails fi x k e) := by
    intro xs hx
    have nowhat : whatMethod x = none := by cases hx <;> rfl
    have uniq : ∀ ys, Elements x ys → ys = xs := by intro ys hy; cases hx <;> cases hy <;> rfl
    have noent : ∀ ys, ¬ Entries x ys := by intro ys hy; cases hx <;> cases hy
    cases hk with
    | name s =>
      have : walkStep fi x (.str s) = .error .attributeError := by cases hx <;> rfl
      rw [this]
      constructor
      · intro h; cases h; exact .name s hx
      · intro h
        cases h with
        | param h => cases hx
        | entry h => exact absurd h (noent _)
        | name => rfl
        | whatable h _ => rw [nowhat] at h; cases h
        | broken _ h => rw [nowhat] at h; cases h
        | other => rfl
    | pos i =>
      rw [step_seq hx rfl]
      constructor
      · intro h
        obtain ⟨rfl, h'⟩ := pyIndex_error h
        exact .range hx h'
      · intro h
        cases h with
        | param h => cases hx
        | entry h => exact absurd h (noent _)
        | range hy h => rw [uniq _ hy] at h; exact pyIndex_fails h
        | whatable h _ => rw [nowhat] at h; cases h
        | broken _ h => rw [nowhat] at h; cases h
        | other _ _ h => exact absurd hx (h _)
    | flag b =>
      rw [step_seq hx (i := b.toNat) (by cases b <;> rfl)]
      constructor
      · intro h
        obtain ⟨rfl, h'⟩ := pyIndex_error h
        exact .flag hx (by omega)
      · intro h
        cases h with
        | param h => cases hx
        | entry h => exact absurd h (noent _)
        | flag hy h => rw [uniq _ hy] at h; exact pyIndex_fails (by omega)
        | whatable h _ => rw [nowhat] at h; cases h
        | broken _ h => rw [nowhat] at h; cases h
        | other _ _ h => exact absurd hx (h _)
  have dct : ∀ kvs, Entries x kvs → (walkStep fi x k = .error e ↔ StepFails fi x k e) := by
    intro kvs hx
    have nowhat : whatMethod x = none := by cases hx <;> rfl
    have uniq : ∀ ys, Entries x ys → ys = kvs := by intro ys hy; cases hx <;> cases hy <;> rfl
    have noel : ∀ ys, ¬ Elements x ys := by intro ys hy; cases hx <;> cases hy
    have hh : hashable k = true := by cases hk <;> rfl
    have : walkStep fi x k = match vget fi kvs k with | some v => .ok v | none => .error .keyError := by
      cases hx <;> simp only [walkStep, direct, subscript, hh, if_true] <;> cases vget fi kvs k <;> simp [orWhat]
    rw [this]
    constructor
    · intro h
      cases hv : vget fi kvs k with
      | some v => rw [hv] at h; cases h
      | none => rw [hv] at h; cases h; exact .entry hx (vget_none.1 hv)
    · intro h
      cases h with
      | param h => cases hx
      | entry hy h => rw [uniq _ hy] at h; rw [vget_none.2 h]
      | range hy => exact absurd hy (noel _)
      | flag hy => exact absurd hy (noel _)
      | name _ hy => exact absurd hy (noel _)
      | whatable h _ => rw [nowhat] at h; cases h
      | broken _ h => rw [nowhat] at h; cases h
      | other _ _ _ h => exact absurd hx (h _)
  have other : (∀ xs, ¬ Elements x xs) → (∀ kvs, ¬ Entries x kvs) → (∀ n c ni o, x ≠ .what n c ni o) →
      walkStep fi x k = orWhat x (.error .typeError) (getItem fi k) → (walkStep fi x k = .error e ↔ StepFails fi x k e) := by
    intro h1 h2 h3 h4
    rw [h4]
    simp only [orWhat]
    cases hw : whatMethod x with
    | none =>
      constructor
      · intro h; cases h; exact .other k hw h1 h2 h3
      · intro h
        cases h with
        | param => exact absurd rfl (h3 _ _ _ _)
        | entry h => exact absurd h (h2 _)
        | range h => exact absurd h (h1 _)
        | flag h => exact absurd h (h1 _)
        | name _ h => exact absurd h (h1 _)
        | whatable h _ => rw [hw] at h; cases h
        | broken _ h => rw [hw] at h; cases h
        | other => rfl
    | some r =>
      cases r with
      | error e' =>
        constructor
        · intro h; cases h; exact .broken k hw
        · intro h
          cases h with
          | param => exact absurd rfl (h3 _ _ _ _)
          | entry h => exact absurd h (h2 _)
          | range h => exact absurd h (h1 _)
          | flag h => exact absurd h (h1 _)
          | name _ h => exact absurd h (h1 _)
          | whatable h _ => rw [hw] at h; cases h
          | broken _ h => rw [hw] at h; cases h; rfl
          | other _ h => rw [hw] at h; cases h
      | ok u =>
        simp only []
        rw [getItem_fails hk]
        constructor
        · rintro ⟨rfl, h⟩; exact .whatable hw h
        · intro h
          cases h with
          | param => exact absurd rfl (h3 _ _ _ _)
          | entry h => exact absurd h (h2 _)
          | range h => exact absurd h (h1 _)
          | flag h => exact absurd h (h1 _)
          | name _ h => exact absurd h (h1 _)
          | whatable h h' => rw [hw] at h; cases h; exact ⟨rfl, h'⟩
          | broken _ h => rw [hw] at h; cases h
          | other _ h => rw [hw] at h; cases h
  cases x with
  | what n c ni o =>
    have h1 : walkStep fi (.what n c ni o) k = getItem fi k c := by
      simp only [walkStep, direct]
      cases hr : getItem fi k c with
      | ok _ => simp [orWhat]
      | error e => obtain ⟨rfl, _⟩ := (getItem_fails hk c e).1 hr; rfl
    rw [h1, getItem_fails hk]
    constructor
    · rintro ⟨rfl, h⟩; exact .param h
    · intro h
      cases h with
      | param h => exact ⟨rfl, h⟩
      | entry h => cases h
      | range h => cases h
      | flag h => cases h
      | name _ h => cases h
      | whatable h _ => cases h
      | broken _ h => cases h
      | other _ _ _ _ h => exact absurd rfl (h _ _ _ _)
  | list xs => exact seq _ (.list xs)
  | tuple xs => exact seq _ (.tuple xs)
  | str s => exact seq _ (.str s)
  | dict kvs => exact dct _ (.dict kvs)
  | odict c a kvs => exact dct _ (.odict c a kvs)
  | ddict f a kvs => exact dct _ (.ddict f a kvs)
  | sub b c a xs =>
    cases b with
    | list => exact seq _ (.subList c a xs)
    | tuple => exact seq _ (.subTuple c a xs)
    | _ => exact other (by rintro _ ⟨⟩) (by rintro _ ⟨⟩) (by simp) rfl
  | _ => exact other (by rintro _ ⟨⟩) (by rintro _ ⟨⟩) (by simp) rfl

theorem walk_fails {fi : Str → Option Int} {p : List Val} {x : Val} {e : Err} (hp : ∀ k ∈ p, PathElem k) :
    walk fi p x = .error e ↔ ∃ l k r y, p = l ++ k :: r ∧ Steps fi x l y ∧ StepFails fi y k e := by
  induction p generalizing x with
  | nil => simp [walk]
  | cons k p ih =>
    have hk := hp k (.head _)
    rw [walk_cons]
    constructor
    · intro h
      cases hs : walkStep fi x k with
      | error e' => rw [hs] at h; cases h; exact ⟨[], k, p, x, rfl, .done _, (walkStep_fails hk e).1 hs⟩
      | ok y =>
        rw [hs] at h
        obtain ⟨l, k', r, z, rfl, h1, h2⟩ := (ih fun k h => hp k (.tail _ h)).1 h
        exact ⟨k :: l, k', r, z, rfl, .step ((walkStep_iff hk).1 hs) h1, h2⟩
    · rintro ⟨l, k', r, z, e', h1, h2⟩
      cases l with
      | nil =>
        cases e'
        cases h1
        rw [(walkStep_fails hk e).2 h2]
      | cons a l =>
        cases e'
        cases h1 with
        | step h3 h4 =>
          rw [(walkStep_iff hk).2 h3]
          exact (ih fun k h => hp k (.tail _ h)).2 ⟨l, k', r, z, rfl, h4, h2⟩

/-- C50.  It raises exactly if a step cannot be made, and what that step raises. -/
theorem c50_raises (fi : Str → Option Int) (w : What) (p : List Val) (hp : ∀ k ∈ p, PathElem k) (e : Err) :
    getItem fi (.tuple p) w.conf = .error e ↔ ∃ l k r y, p = l ++ k :: r ∧ Steps fi w.toVal l y ∧ StepFails fi y k e := by
  simp only [getItem, pathElems_hashable hp, if_true]
  rw [← walk_fails hp]
  cases p with
  | nil => simp [walk]
  | cons k p => rw [walk_cons, walk_cons, first_walk (hp k (.head _))]

theorem unhashableL_of {xs : List Val} (ih : ∀ x ∈ xs, hashable x = false → Unhashable x) (h : hashableL xs = false) : ∃ x ∈ xs, Unhashable x := by
  induction xs with
  | nil => cases h
  | cons x xs ihl =>
    simp only [hashableL, Bool.and_eq_false_iff] at h
    rcases h with h | h
    · exact ⟨x, .head _, ih x (.head _) h⟩
    · obtain ⟨y, hy, hu⟩ := ihl (fun x hx => ih x (.tail _ hx)) h
      exact ⟨y, .tail _ hy, hu⟩

theorem hashableL_false {xs : List Val} {x : Val} (hx : x ∈ xs) (h : hashable x = false) : hashableL xs = false := by
  induction xs with
  | nil => cases hx
  | cons y xs ih =>
    rcases List.mem_cons.1 hx with rfl | hx
    · simp [hashableL, h]
    · simp [hashableL, ih hx]

theorem unhashable_of (v : Val) (h : hashable v = false) : Unhashable v := by
  suffices hs : ∀ n v, sizeOf v < n → hashable v = false → Unhashable v from hs _ v (Nat.lt_succ_self _) h
  intro n
  induction n with
  | zero => intro v h; omega
  | succ n ih =>
    intro v hn h
    have sub : ∀ xs : List Val, sizeOf xs < n → ∀ x ∈ xs, hashable x = false → Unhashable x :=
      fun xs hx x hm => ih x (by have := List.sizeOf_lt_of_mem hm; omega)
    cases v with
    | list => exact .list _
    | set => exact .set _
    | dict => exact .dict _
    | odict => exact .odict _ _ _
    | ddict => exact .ddict _ _ _
    | what => exact .what _ _ _ _
    | array => exact .array _ _
    | tuple xs =>
      obtain ⟨x, hx, hu⟩ := unhashableL_of (sub xs (by simp at hn; omega)) h
      exact .tuple hx hu
    | sub k c a xs =>
      cases k with
      | list => exact .subList _ _ _
      | set => exact .subSet _ _ _
      | fset => cases h
      | tuple =>
        obtain ⟨x, hx, hu⟩ := unhashableL_of (sub xs (by simp at hn; omega)) h
        exact .subTuple hx hu
    | _ => cases h

theorem unhashable_iff {v : Val} : Unhashable v ↔ hashable v = false := by
  refine ⟨fun h => ?_, unhashable_of v⟩
  induction h with
  | tuple hx _ ih => exact hashableL_false hx ih
  | subTuple hx _ ih => exact hashableL_false hx ih
  | _ => rfl

/-- C50.  A path with something that cannot be hashed raises TypeError. -/
theorem c50_unhashable (fi : Str → Option Int) (w : What) (p : List Val) {k : Val} (hk : k ∈ p) (h : Unhashable k) :
    getItem fi (.tuple p) w.conf = .error .typeError := by
  simp only [getItem, hashableL_false hk (unhashable_iff.1 h)]
  rfl

/-- C50.  Anything but a name or a path raises: TypeError if it cannot be hashed, else KeyError. -/
theorem c50_other (fi : Str → Option Int) (w : What) {k : Val} (hs : ∀ s, k ≠ .str s) (ht : ∀ p, k ≠ .tuple p) (hst : ∀ c a p, k ≠ .sub .tuple c a p) :
    (Unhashable k → getItem fi k w.conf = .error .typeError) ∧ (¬ Unhashable k → getItem fi k w.conf = .error .keyError) := by
  have : getItem fi k w.conf = if hashable k then .error .keyError else .error .typeError := by
    cases k with
    | str s => exact absurd rfl (hs s)
    | tuple p => exact absurd rfl (ht p)
    | sub k c a p =>
      cases k with
      | tuple => exact absurd rfl (hst c a p)
      | _ => rfl
    | _ => rfl
  rw [this, unhashable_iff]
  constructor
  · intro h; rw [h]; rfl
  · intro h; rw [Bool.not_eq_false] at h; rw [h]; rfl

/-- C50.  A path of one name is that name. -/
theorem c50_one (fi : Str → Option Int) (w : What) (k : Str) : getItem fi (.tuple [.str k]) w.conf = getItem fi (.str k) w.conf := by
  simp only [getItem, hashableL, hashable, Bool.and_true, if_true, walk, direct, strDict, subscript, vget_strDict]
  cases dget w.conf k <;> rfl

/-! ### Examples -/

/-- A What with a list of dicts, and a whatable object, among its values. -/
def exPaths : What :=
  { name := c!"f", conf := [(c!"l", .list [.int 1, .dict [(.str c!"a", .str c!"xyz")]]),
      (c!"o", .duck c!"g" [(c!"b", .what c!"h" [(c!"c", .int 5)] [] none)] [] none)] }

example : getItem noFi (.tuple [.str c!"o", .str c!"b", .str c!"c"]) exPaths.conf = .ok (.int 5) := by rfl
example : getItem noFi (.tuple [.str c!"l", .int (-1), .str c!"a", .int 2]) exPaths.conf = .ok (.str c!"z") := by rfl
example : Steps noFi exPaths.toVal [.str c!"o", .str c!"b", .str c!"c"] (.int 5) :=
  .step (.param (v := .duck c!"g" [(c!"b", .what c!"h" [(c!"c", .int 5)] [] none)] [] none) rfl)
    (.step (.whatable rfl (v := .what c!"h" [(c!"c", .int 5)] [] none) rfl) (.step (.param rfl) (.done _)))
example : ∀ k ∈ [Val.str c!"l", .int (-1)], PathElem k := by
  intro k hk
  simp only [List.mem_cons, List.not_mem_nil, or_false] at hk
  rcases hk with rfl | rfl
  · exact .name _
  · exact .pos _
example : getItem noFi (.tuple [.str c!"o", .str c!"b"]) exPaths.conf = .ok ({ name := c!"h", conf := [(c!"c", .int 5)] } : What).toVal := by rfl
/-- Not a KeyError, hence no `get` default: a name on a number. -/
example : getItem noFi (.tuple [.str c!"o", .str c!"b", .str c!"c", .str c!"d"]) exPaths.conf = .error .attributeError := by rfl

example : StepFails noFi (.int 5) (.str c!"d") .attributeError := .other _ rfl (by rintro _ ⟨⟩) (by rintro _ ⟨⟩) (by simp)
example : getItem noFi (.tuple [.str c!"l", .int 7]) exPaths.conf = .error .indexError ∧ getItem noFi (.tuple [.str c!"l", .bool true, .str c!"b"]) exPaths.conf = .error .keyError ∧
    getItem noFi (.tuple [.str c!"l", .list []]) exPaths.conf = .error .typeError ∧ getItem noFi (.list []) exPaths.conf = .error .typeError ∧
    getItem noFi (.int 1) exPaths.conf = .error .keyError := ⟨rfl, rfl, rfl, rfl, rfl⟩
example : Unhashable (.tuple [.int 1, .list []]) := .tuple (.tail _ (.head _)) (.list _)

end Whatami
