import Verif.CallbackLemmas
import Verif.Props.Optional
import Verif.Props.Parse

/-
C82: user plugins that call back `build_string`.
-/
namespace Whatami

/-! ### Specification -/

/-- What `build_string(v)` does given as much stack as it takes: what it does under some limit, other than running into it; RecursionError if it
runs into every limit. -/
noncomputable def answer (cu : Callers) (ps : List Plugin) : BS := fun v =>
  open Classical in if h : ∃ n, buildC cu ps n v ≠ tooDeep then buildC cu ps h.choose v else tooDeep

/-- A conversation of a plugin with `build_string`: it asks about values, is told `B`, and in the end does `r`. -/
inductive Talk (B : Val → R (Option Str)) : Act → R (Option Str) → Prop where
  | done (r : R (Option Str)) : Talk B (.done r) r
  | ask (v : Val) (k : R (Option Str) → Act) (r : R (Option Str)) : B v ≠ tooDeep → Talk B (k (B v)) r → Talk B (.ask v k) r
  | deep (v : Val) (k : R (Option Str) → Act) : B v = tooDeep → Talk B (.ask v k) tooDeep

/-- All a plugin may ask about and do in the end, whatever it is told (unless it is cut short by a RecursionError). -/
def Act.Only (Q : Val → Prop) (D : R (Option Str) → Prop) : Act → Prop
  | .done r => D r
  | .ask v k => Q v ∧ ∀ r, r ≠ tooDeep → (k r).Only Q D

/-- The built-in data types. -/
inductive Datatype : Val → Prop where
  | none : Datatype .none
  | int (i : Int) : Datatype (.int i)
  | float (t : Str) : Datatype (.float t)
  | str (s : Str) : Datatype (.str s)
  | tuple (xs : List Val) : Datatype (.tuple xs)
  | list (xs : List Val) : Datatype (.list xs)
  | set (xs : List Val) : Datatype (.set xs)
  | dict (kvs : List (Val × Val)) : Datatype (.dict kvs)

/-! ### More stack -/

theorem lessDef_tooDeep {α : Type} {r r' : R α} (h : LessDef .recursionError r r') (hr : r ≠ tooDeep) : r' = r := by
  rcases h with h | h
  · exact h.symm
  · exact absurd h hr

theorem eval_lessDef {bs bs' : BS} (h : ∀ v, LessDef .recursionError (bs v) (bs' v)) (a : Act) :
    LessDef .recursionError (a.eval bs) (a.eval bs') := by
  induction a with
  | done r => exact .inl rfl
  | ask v k ih =>
    simp only [Act.eval]
    by_cases hv : bs v = tooDeep
    · rw [hv]; exact .inr rfl
    · rw [lessDef_tooDeep (h v) hv]
      split
      · exact .inl rfl
      · exact ih _

theorem runC_lessDef {bs bs' : BS} (h : ∀ v, LessDef .recursionError (bs v) (bs' v)) (cu : Callers) (p : Plugin) (v : Val) :
    LessDef .recursionError (p.runC cu bs v) (p.runC cu bs' v) := by
  cases p
  case custom n => exact eval_lessDef h _
  all_goals exact LessDef.run h _ _ v

theorem firstSome_lessDef {f g : Plugin → R (Option Str)} (ps : List Plugin) (h : ∀ p ∈ ps, LessDef .recursionError (f p) (g p)) :
    LessDef .recursionError (firstSome f ps) (firstSome g ps) := by
  have := LessDef.firstSome (e0 := .recursionError) (f := f) (g := g) id ps h
  rw [List.map_id] at this
  exact this

theorem buildC_mono (cu : Callers) (ps : List Plugin) (n : Nat) : ∀ v, LessDef .recursionError (buildC cu ps n v) (buildC cu ps (n + 1) v) := by
  induction n with
  | zero => intro v; exact .inr rfl
  | succ n ih =>
    intro v
    exact firstSome_lessDef ps fun p _ => runC_lessDef ih cu p v

theorem buildC_le (cu : Callers) (ps : List Plugin) {n m : Nat} (h : n ≤ m) (v : Val) (hn : buildC cu ps n v ≠ tooDeep) :
    buildC cu ps m v = buildC cu ps n v := by
  induction h with
  | refl => rfl
  | step _ ih => rw [← ih]; exact lessDef_tooDeep (buildC_mono cu ps _ v) (ih ▸ hn)

/-- C82. Whatever the recursion limit, `build_string(v)` does what it does given as much stack as it takes, or raises RecursionError. -/
theorem c82_limit (cu : Callers) (ps : List Plugin) (n : Nat) (v : Val) :
    buildC cu ps n v = answer cu ps v ∨ buildC cu ps n v = tooDeep := by
  by_cases hn : buildC cu ps n v = tooDeep
  · exact .inr hn
  · left
    have h : ∃ n, buildC cu ps n v ≠ tooDeep := ⟨n, hn⟩
    rw [answer, dif_pos h]
    rcases Nat.le_total n h.choose with hl | hl
    · exact (buildC_le cu ps hl v hn).symm
    · exact buildC_le cu ps hl v h.choose_spec

/-- C82. From some limit on it does just that. -/
theorem c82_enough (cu : Callers) (ps : List Plugin) (v : Val) : ∃ n, ∀ m, n ≤ m → buildC cu ps m v = answer cu ps v := by
  by_cases h : ∃ n, buildC cu ps n v ≠ tooDeep
  · obtain ⟨n, hn⟩ := h
    refine ⟨n, fun m hm => ?_⟩
    rcases c82_limit cu ps m v with h | h
    · exact h
    · exact absurd (buildC_le cu ps hm v hn ▸ h) hn
  · refine ⟨0, fun m _ => ?_⟩
    rw [answer, dif_neg h]
    exact Classical.byContradiction fun hm => h ⟨m, hm⟩

/-! ### The equation -/

theorem eventually {α : Type} (Q : α → Nat → Prop) (L : List α) (h : ∀ u ∈ L, ∃ n, ∀ m, n ≤ m → Q u m) : ∃ n, ∀ m, n ≤ m → ∀ u ∈ L, Q u m := by
  induction L with
  | nil => exact ⟨0, fun _ _ _ hu => (by cases hu)⟩
  | cons a L ih =>
    obtain ⟨n, hn⟩ := ih fun u hu => h u (by simp [hu])
    obtain ⟨k, hk⟩ := h a (by simp)
    refine ⟨max n k, fun m hm u hu => ?_⟩
    rcases List.mem_cons.1 hu with rfl | hu
    · exact hk m (by omega)
    · exact hn m (by omega) u hu

theorem eval_limit {bs : Nat → BS} {f : BS} (h : ∀ v, ∃ n, ∀ m, n ≤ m → bs m v = f v) (a : Act) :
    ∃ n, ∀ m, n ≤ m → a.eval (bs m) = a.eval f := by
  induction a with
  | done r => exact ⟨0, fun _ _ => rfl⟩
  | ask v k ih =>
    obtain ⟨n, hn⟩ := h v
    obtain ⟨l, hl⟩ := ih (f v)
    refine ⟨max n l, fun m hm => ?_⟩
    simp only [Act.eval, hn m (by omega)]
    split
    · rfl
    · exact hl m (by omega)

theorem runC_limit {bs : Nat → BS} {f : BS} (h : ∀ v, ∃ n, ∀ m, n ≤ m → bs m v = f v) (cu : Callers) (p : Plugin) (v : Val) :
    ∃ n, ∀ m, n ≤ m → p.runC cu (bs m) v = p.runC cu f v := by
  by_cases hp : ∀ n, p ≠ .custom n
  · obtain ⟨L, -, hL, -⟩ := asks p hp (fun bs k u => (cu k u).eval bs) v
    obtain ⟨n, hn⟩ := eventually (fun u m => bs m u = f u) L fun u _ => h u
    exact ⟨n, fun m hm => hL _ _ (hn m hm)⟩
  · have : ∃ n, p = .custom n := Classical.byContradiction fun h => hp fun n e => h ⟨n, e⟩
    obtain ⟨n, rfl⟩ := this
    exact eval_limit h _

/-- C82. What `build_string(v)` does is what the loop over the plugins does with `v`, which may call back `build_string` freely (on `v` too). -/
theorem c82_equation (cu : Callers) (ps : List Plugin) (v : Val) :
    answer cu ps v = firstSome (fun p => p.runC cu (answer cu ps) v) ps := by
  obtain ⟨n, hn⟩ := c82_enough cu ps v
  obtain ⟨l, hl⟩ := eventually (fun p m => p.runC cu (buildC cu ps m) v = p.runC cu (answer cu ps) v) ps
    fun p _ => runC_limit (c82_enough cu ps) cu p v
  rw [← hn (max n l + 1) (by omega)]
  exact firstSome_congr (hl (max n l) (by omega))

/-- C82. First match: `build_string(v)` is what the first plugin that does not decline `v` does; None only if all decline. -/
theorem c82_first_match (cu : Callers) (ps : List Plugin) (v : Val) :
    (∃ pre p post, ps = pre ++ p :: post ∧
      (∀ q ∈ pre, q.runC cu (answer cu ps) v = .ok none) ∧
      p.runC cu (answer cu ps) v ≠ .ok none ∧
      answer cu ps v = p.runC cu (answer cu ps) v) ∨
    ((∀ q ∈ ps, q.runC cu (answer cu ps) v = .ok none) ∧ answer cu ps v = .ok none) := by
  have h := firstSome_split (fun p => p.runC cu (answer cu ps) v) ps
  rw [← c82_equation] at h
  exact h

/-- C82. What a user plugin does is what it comes to in its conversation with `build_string`. -/
theorem c82_talk (cu : Callers) (ps : List Plugin) (k : Nat) (v : Val) (r : R (Option Str)) :
    Plugin.runC cu (answer cu ps) (.custom k) v = r ↔ Talk (answer cu ps) (cu k v) r := by
  show (cu k v).eval (answer cu ps) = r ↔ _
  generalize cu k v = a
  induction a with
  | done x =>
    constructor
    · rintro rfl; exact .done _
    · rintro ⟨⟩; rfl
  | ask u g ih =>
    by_cases hu : answer cu ps u = tooDeep
    · simp only [Act.eval, hu]
      constructor
      · rintro rfl; exact .deep _ _ hu
      · intro h
        cases h with
        | ask _ _ _ h => exact absurd hu h
        | deep => rfl
    · have : (Act.ask u g).eval (answer cu ps) = (g (answer cu ps u)).eval (answer cu ps) := by
        rw [Act.eval]
        split
        · next e => exact absurd e hu
        · rfl
      rw [this, ih]
      constructor
      · exact fun h => .ask _ _ _ hu h
      · intro h
        cases h with
        | ask _ _ _ _ h => exact h
        | deep _ _ h => exact absurd h hu

/-- C82. Nothing else satisfies the equation, wherever `build_string` does not run into every limit. -/
theorem c82_unique (cu : Callers) (ps : List Plugin) (g : BS) (h : ∀ v, g v = firstSome (fun p => p.runC cu g v) ps) (v : Val)
    (hv : answer cu ps v ≠ tooDeep) : answer cu ps v = g v := by
  have all : ∀ n v, LessDef .recursionError (buildC cu ps n v) (g v) := by
    intro n
    induction n with
    | zero => intro v; exact .inr rfl
    | succ n ih =>
      intro v
      rw [h v]
      exact firstSome_lessDef ps fun p _ => runC_lessDef ih cu p v
  obtain ⟨n, hn⟩ := c82_enough cu ps v
  have := all n v
  rw [hn n (Nat.le_refl n)] at this
  exact (lessDef_tooDeep this hv).symm

/-! ### Termination -/

theorem eval_only {bs bs' : BS} {Q : Val → Prop} {D : R (Option Str) → Prop} (h : ∀ u, Q u → bs u = bs' u) (a : Act) (ha : a.Only Q D) :
    a.eval bs = a.eval bs' := by
  induction a with
  | done r => rfl
  | ask v k ih =>
    obtain ⟨hv, hk⟩ := ha
    simp only [Act.eval, h v hv]
    split
    · rfl
    · next hr => exact ih _ (hk _ hr)

theorem runC_congr {bs bs' : BS} {D : R (Option Str) → Prop} (cu : Callers) (p : Plugin) (v : Val)
    (hc : ∀ k, p = .custom k → (cu k v).Only (fun u => depth u < depth v) D) (h : ∀ u, depth u < depth v → bs u = bs' u) :
    p.runC cu bs v = p.runC cu bs' v := by
  cases p
  case custom k => exact eval_only h _ (hc k rfl)
  all_goals exact run_congr _ v h

/-- C82. If the user plugins call back on smaller values only, then `build_string(v)` needs no more nested calls than `v` is deep. -/
theorem c82_bound (cu : Callers) (ps : List Plugin)
    (smaller : ∀ k v, .custom k ∈ ps → (cu k v).Only (fun u => depth u < depth v) fun _ => True) (v : Val) (n : Nat) (h : depth v ≤ n) :
    buildC cu ps n v = answer cu ps v := by
  have all : ∀ n m v, depth v ≤ n → depth v ≤ m → buildC cu ps n v = buildC cu ps m v := by
    intro n
    induction n with
    | zero => intro m v h; have := depth_pos v; omega
    | succ n ih =>
      intro m v hn hm
      cases m with
      | zero => have := depth_pos v; omega
      | succ m =>
        simp only [buildC]
        refine firstSome_congr fun p hp => runC_congr cu p v (fun k e => smaller k v (e ▸ hp)) fun u hu => ih m u (by omega) (by omega)
  obtain ⟨l, hl⟩ := c82_enough cu ps v
  rw [← hl (max n l) (by omega)]
  exact all _ _ v h (by omega)

theorem firstSome_tooDeep {f : Plugin → R (Option Str)} {ps : List Plugin} {e : Err} (h : firstSome f ps = .error e) : ∃ p ∈ ps, f p = .error e := by
  rcases firstSome_split f ps with ⟨pre, p, post, rfl, -, -, hp⟩ | ⟨-, hn⟩
  · exact ⟨p, by simp, hp ▸ h⟩
  · rw [hn] at h; cases h

theorem eval_deep {bs : BS} {Q : Val → Prop} (a : Act) (ha : a.Only Q (· ≠ tooDeep)) (h : a.eval bs = tooDeep) : ∃ u, Q u ∧ bs u = tooDeep := by
  induction a with
  | done r => exact absurd h ha
  | ask v k ih =>
    obtain ⟨hv, hk⟩ := ha
    by_cases e : bs v = tooDeep
    · exact ⟨v, hv, e⟩
    · refine ih (bs v) (hk _ e) ?_
      rw [Act.eval] at h
      split at h
      · next x => exact absurd x e
      · exact h

/-- C82. It then does not raise RecursionError, unless a user plugin raises one itself. -/
theorem c82_returns (cu : Callers) (ps : List Plugin)
    (smaller : ∀ k v, .custom k ∈ ps → (cu k v).Only (fun u => depth u < depth v) (· ≠ tooDeep)) (v : Val) : answer cu ps v ≠ tooDeep := by
  induction hd : depth v using Nat.strongRecOn generalizing v with
  | _ d ih =>
    intro h
    rw [c82_equation] at h
    obtain ⟨p, hp, h⟩ := firstSome_tooDeep h
    by_cases hc : ∃ k, p = .custom k
    · obtain ⟨k, rfl⟩ := hc
      obtain ⟨u, hu, e⟩ := eval_deep _ (smaller k v hp) h
      exact ih (depth u) (by omega) u rfl e
    · obtain ⟨L, -, -, hL⟩ := asks p (fun n e => hc ⟨n, e⟩) (fun bs k u => (cu k u).eval bs) v
      obtain ⟨u, -, e⟩ := hL (fun u => open Classical in if depth u < depth v then answer cu ps u else .ok none) (by
        refine Eq.trans ?_ h
        refine runC_congr (D := fun _ => True) cu p v (fun k e => absurd ⟨k, e⟩ hc) fun u hu => ?_
        rw [if_pos hu])
      split at e
      · next hu => exact ih (depth u) (by omega) u rfl e
      · cases e

theorem only_mono {Q Q' : Val → Prop} {D D' : R (Option Str) → Prop} (hQ : ∀ v, Q v → Q' v) (hD : ∀ r, D r → D' r) (a : Act) (h : a.Only Q D) :
    a.Only Q' D' := by
  induction a with
  | done r => exact hD _ h
  | ask v k ih => exact ⟨hQ _ h.1, fun r hr => ih r (h.2 r hr)⟩

/-- C82. User plugins that call back on the value they are asked about, or in circles, run into every limit: if on each of the values `S` the first
plugin that does not decline is one that begins by asking about one of `S`, then `build_string` raises RecursionError on all of them. -/
theorem c82_circle (cu : Callers) (ps : List Plugin) (S : Val → Prop)
    (asks : ∀ v, S v → ∃ pre k post u g, ps = pre ++ .custom k :: post ∧ (∀ bs, ∀ q ∈ pre, q.runC cu bs v = .ok none) ∧ cu k v = .ask u g ∧ S u)
    (v : Val) (hv : S v) (n : Nat) : buildC cu ps n v = tooDeep := by
  induction n generalizing v with
  | zero => rfl
  | succ n ih =>
    obtain ⟨pre, k, post, u, g, hps, hpre, hk, hu⟩ := asks v hv
    rw [buildC]
    have : ∀ (f : Plugin → R (Option Str)), (∀ q ∈ pre, f q = .ok none) → firstSome f (pre ++ .custom k :: post) = firstSome f (.custom k :: post) := by
      intro f hf
      clear hpre hps
      induction pre with
      | nil => rfl
      | cons q pre ih => rw [List.cons_append, firstSome_none (hf q (by simp))]; exact ih fun x hx => hf x (by simp [hx])
    rw [show ∀ f : Plugin → R (Option Str), firstSome f ps = firstSome f (pre ++ .custom k :: post) from fun f => by rw [← hps], this _ (hpre _)]
    refine firstSome_error ?_
    show (cu k v).eval _ = _
    rw [hk, Act.eval, ih u hu]

/-! ### Insertion -/

/-- C82. User plugins that do not call back do what they did (C14, C15). -/
theorem c82_conservative (cu : Callers) (c : Customs) (h : ∀ k v, cu k v = .done (c k v)) (ps : List Plugin) (v : Val) :
    answer cu ps v = build c ps v := by
  have hc : ∀ bs, (fun k u => (cu k u).eval bs) = c := by
    intro bs; funext k u; rw [h]; rfl
  have all : ∀ n v, depth v ≤ n → buildC cu ps n v = buildN c ps n v := by
    intro n
    induction n with
    | zero => intro v h; have := depth_pos v; omega
    | succ n ih =>
      intro v hv
      simp only [buildC, buildN, Plugin.runC, hc]
      exact firstSome_congr fun p _ => run_congr p v fun u hu => ih u (by omega)
  rw [← c82_bound cu ps (fun k v _ => by rw [h]; trivial) v (depth v) (Nat.le_refl _), all _ v (Nat.le_refl _)]
  rfl

/-- C82. A user plugin that declines all values is invisible wherever it is inserted, among whatever others. -/
theorem c82_declining (cu : Callers) (pre post : List Plugin) (k : Nat) (declines : ∀ v, cu k v = .done (.ok none)) (v : Val) :
    answer cu (pre ++ .custom k :: post) v = answer cu (pre ++ post) v := by
  have all : ∀ n v, buildC cu (pre ++ .custom k :: post) n v = buildC cu (pre ++ post) n v := by
    intro n
    induction n with
    | zero => intro v; rfl
    | succ n ih =>
      intro v
      simp only [buildC]
      rw [funext ih]
      exact firstSome_drop _ _ _ _ (by show (cu k v).eval _ = _; rw [declines]; rfl)
  obtain ⟨n, hn⟩ := c82_enough cu (pre ++ .custom k :: post) v
  obtain ⟨m, hm⟩ := c82_enough cu (pre ++ post) v
  rw [← hn (max n m) (by omega), all, hm (max n m) (by omega)]

theorem firstSome_cut {f : Plugin → R (Option Str)} {p : Plugin} (h : f p ≠ .ok none) (pre post : List Plugin) :
    firstSome f (pre ++ p :: post) = firstSome f (pre ++ [p]) := by
  induction pre with
  | nil => rw [List.nil_append, List.nil_append, firstSome_ne rfl h, firstSome_ne rfl h]
  | cons q pre ih => simp only [List.cons_append, firstSome, ih]

/-- C82. So are all plugins after the one that captures everything. -/
theorem c82_after (cu : Callers) (pre post : List Plugin) (v : Val) : answer cu (pre ++ .any :: post) v = answer cu (pre ++ [.any]) v := by
  have all : ∀ n v, buildC cu (pre ++ .any :: post) n v = buildC cu (pre ++ [.any]) n v := by
    intro n
    induction n with
    | zero => intro v; rfl
    | succ n ih =>
      intro v
      simp only [buildC]
      rw [funext ih]
      exact firstSome_cut (by simp [Plugin.runC, Plugin.run, anyPlugin]) _ _
  obtain ⟨n, hn⟩ := c82_enough cu (pre ++ .any :: post) v
  obtain ⟨m, hm⟩ := c82_enough cu (pre ++ [.any]) v
  rw [← hn (max n m) (by omega), all, hm (max n m) (by omega)]

theorem own_closed {cu : Callers} {k : Nat} (data : ∀ v, Datatype v → cu k v = .done (.ok none)) :
    Closed fun v => ∀ u, Within u v → cu k u = .done (.ok none) := by
  have leaf : ∀ v, Datatype v → (∀ x, ¬ Child x v) → ∀ u, Within u v → cu k u = .done (.ok none) := by
    intro v hv hc u hu
    rcases within_inv hu with rfl | ⟨y, hy, -⟩
    · exact data _ hv
    · exact absurd hy (hc y)
  have node : ∀ v, Datatype v → (∀ x, Child x v → ∀ u, Within u x → cu k u = .done (.ok none)) → ∀ u, Within u v → cu k u = .done (.ok none) := by
    intro v hv hc u hu
    rcases within_inv hu with rfl | ⟨y, hy, hu⟩
    · exact data _ hv
    · exact hc y hy u hu
  refine ⟨fun x v c h u hu => h u (hu.trans c.within), leaf _ .none ?_, fun i => leaf _ (.int i) ?_, leaf _ (.float _) ?_,
    fun s => leaf _ (.str s) ?_, fun xs h => node _ (.tuple xs) ?_, fun xs h => node _ (.list xs) ?_, fun xs h => node _ (.set xs) ?_,
    fun kvs h => node _ (.dict kvs) ?_⟩
  · intro x h; cases h
  · intro x h; cases h
  · intro x h; cases h
  · intro x h; cases h
  · intro x hx; cases hx with | tuple hm => exact h x hm
  · intro x hx; cases hx with | list hm => exact h x hm
  · intro x hx; cases hx with | set hm => exact h x hm
  · intro x hx
    cases hx with
    | dictKey hm => exact (h _ hm).1
    | dictVal hm => exact (h _ hm).2

/-- C82. A user plugin for values of its own does not touch other configurations: inserted anywhere, it changes nothing in the text of a value in
which nothing occurs that it answers for, provided it declines the built-in data types and the other user plugins ask about values that occur in
the one they are given. -/
theorem c82_own (cu : Callers) (pre post : List Plugin) (k : Nat) (data : ∀ v, Datatype v → cu k v = .done (.ok none))
    (others : ∀ j v, .custom j ∈ pre ++ post → (cu j v).Only (fun u => Within u v) fun _ => True) (v : Val)
    (hv : ∀ u, Within u v → cu k u = .done (.ok none)) :
    answer cu (pre ++ .custom k :: post) v = answer cu (pre ++ post) v := by
  have hP := own_closed data
  have all : ∀ n v, (∀ u, Within u v → cu k u = .done (.ok none)) → buildC cu (pre ++ .custom k :: post) n v = buildC cu (pre ++ post) n v := by
    intro n
    induction n with
    | zero => intro v _; rfl
    | succ n ih =>
      intro v hv
      simp only [buildC]
      rw [firstSome_drop _ _ _ _ (show Plugin.runC cu _ (.custom k) v = .ok none by
        show (cu k v).eval _ = _; rw [hv v (.refl v)]; rfl)]
      refine firstSome_congr fun p hp => ?_
      by_cases hc : ∃ j, p = .custom j
      · obtain ⟨j, rfl⟩ := hc
        exact eval_only (fun u hu => ih u (within_closed hP hu hv)) _ (others j v hp)
      · obtain ⟨L, hL, hs, -⟩ := asks p (fun n e => hc ⟨n, e⟩) (fun bs k u => (cu k u).eval bs) v
        exact hs _ _ fun u hu => ih u (hL _ hP hv u hu)
  obtain ⟨n, hn⟩ := c82_enough cu (pre ++ .custom k :: post) v
  obtain ⟨m, hm⟩ := c82_enough cu (pre ++ post) v
  rw [← hn (max n m) (by omega), all _ v hv, hm (max n m) (by omega)]

/-- C82 for ids: the same of the id of a configuration. -/
theorem c82_own_id (cu : Callers) (pre post : List Plugin) (k : Nat) (data : ∀ v, Datatype v → cu k v = .done (.ok none))
    (others : ∀ j v, .custom j ∈ pre ++ post → (cu j v).Only (fun u => Within u v) fun _ => True) (w : What) (f : Bool)
    (hw : ∀ n x, (n, x) ∈ w.conf → ∀ u, Within u x → cu k u = .done (.ok none)) :
    idStr (answer cu (pre ++ .custom k :: post)) w f = idStr (answer cu (pre ++ post)) w f :=
  idStr_congr fun kv hkv => c82_own cu pre post k data others kv.2 (hw kv.1 kv.2 hkv)

/-! ### A plugin for bags -/

/-- Asks about the elements one after the other and joins what it is told. -/
def bagGo : List Val → List Str → Act
  | [], acc => .done (.ok (some (c!"Bag" ++ bracket c!"(" c!")" acc)))
  | x :: xs, acc => .ask x fun
    | .error e => .done (.error e)
    | .ok s => bagGo xs (acc ++ [showOpt s])

/-- Number 0: a plugin for the list subclass Bag; number 1: one that asks about lists of a list subclass Loop themselves. -/
def exCallers : Callers := fun k v =>
  match k, v with
  | 0, .sub .list c _ xs => if c = c!"Bag" then bagGo xs [] else .done (.ok none)
  | 1, .sub .list c a xs => if c = c!"Loop" then .ask (.sub .list c a xs) .done else .done (.ok none)
  | _, _ => .done (.ok none)

theorem bagGo_only (c : Str) (a : Conf) (all xs : List Val) (h : ∀ x ∈ xs, x ∈ all) (acc : List Str) :
    (bagGo xs acc).Only (fun u => Within u (.sub .list c a all) ∧ depth u < depth (.sub .list c a all)) (· ≠ tooDeep) := by
  induction xs generalizing acc with
  | nil => exact fun h => (by cases h)
  | cons x xs ih =>
    have hx : x ∈ all := h x (by simp)
    refine ⟨⟨Child.within (.sub _ _ _ hx), by have := depth_mem hx; simp only [depth]; omega⟩, fun r hr => ?_⟩
    cases r with
    | error e => exact hr
    | ok s => exact ih (fun y hy => h y (by simp [hy])) _

theorem exBag_only (v : Val) : (exCallers 0 v).Only (fun u => Within u v ∧ depth u < depth v) (· ≠ tooDeep) := by
  unfold exCallers
  split
  · split
    · exact bagGo_only _ _ _ _ (fun _ h => h) _
    · exact fun h => (by cases h)
  · cases ‹0 = 1›
  · exact fun h => (by cases h)

/-- Bags in the place of elements, of other bags too; the limit 3 is enough for bags in bags. -/
example : buildC exCallers (.custom 0 :: defaultPlugins) 3 (.sub .list c!"Bag" [] [.int 1, .sub .list c!"Bag" [] [.str c!"a"]])
    = .ok (some c!"Bag(1,Bag('a'))") := rfl
example : buildC exCallers (.custom 0 :: defaultPlugins) 2 (.sub .list c!"Bag" [] [.int 1, .sub .list c!"Bag" [] [.str c!"a"]]) = tooDeep := rfl

/-- The hypotheses of `c82_bound` and `c82_returns` hold of this plugin. -/
example : answer exCallers (.custom 0 :: defaultPlugins) (.sub .list c!"Bag" [] [.int 1, .sub .list c!"Bag" [] [.str c!"a"]])
    = .ok (some c!"Bag(1,Bag('a'))") := by
  rw [← c82_bound exCallers _ (fun k v hk => ?_) _ 3 (by decide)]
  · rfl
  · simp only [defaultPlugins, List.mem_cons, Plugin.custom.injEq, reduceCtorEq, List.not_mem_nil, or_false] at hk
    subst hk
    exact only_mono (fun _ h => h.2) (fun _ _ => trivial) _ (exBag_only v)

example (v : Val) : answer exCallers (.custom 0 :: defaultPlugins) v ≠ tooDeep := by
  refine c82_returns exCallers _ (fun k v hk => ?_) v
  simp only [defaultPlugins, List.mem_cons, Plugin.custom.injEq, reduceCtorEq, List.not_mem_nil, or_false] at hk
  subst hk
  exact only_mono (fun _ h => h.2) (fun _ h => h) _ (exBag_only v)

/-- Those of `c82_circle` of the other one, and those of `c82_own` of both. -/
example (n : Nat) : buildC exCallers (.custom 0 :: .custom 1 :: defaultPlugins) n (.sub .list c!"Loop" [] []) = tooDeep := by
  refine c82_circle exCallers _ (fun v => v = .sub .list c!"Loop" [] []) ?_ _ rfl n
  rintro v rfl
  refine ⟨[.custom 0], 1, defaultPlugins, _, _, rfl, fun bs q hq => ?_, rfl, rfl⟩
  simp only [List.mem_cons, List.not_mem_nil, or_false] at hq
  subst hq
  rfl

example : answer exCallers (.custom 0 :: .custom 1 :: defaultPlugins) (.list [.int 3, .sub .list c!"Bag" [] [.str c!"a"]])
    = answer exCallers (.custom 0 :: defaultPlugins) (.list [.int 3, .sub .list c!"Bag" [] [.str c!"a"]]) := by
  refine c82_own exCallers [.custom 0] defaultPlugins 1 (fun v hv => by cases hv <;> rfl) (fun j v hj => ?_) _ ?_
  · simp only [defaultPlugins, List.cons_append, List.nil_append, List.mem_cons, Plugin.custom.injEq, reduceCtorEq, List.not_mem_nil, or_false] at hj
    subst hj
    exact only_mono (fun _ h => h.1) (fun _ _ => trivial) _ (exBag_only v)
  · intro u hu
    rcases within_inv hu with rfl | ⟨y, hy, hu⟩
    · rfl
    · cases hy with
      | list hm =>
        simp only [List.mem_cons, List.not_mem_nil, or_false] at hm
        rcases hm with rfl | rfl
        · rcases within_inv hu with rfl | ⟨z, hz, -⟩
          · rfl
          · cases hz
        · rcases within_inv hu with rfl | ⟨z, hz, hu⟩
          · rfl
          · cases hz with
            | sub _ _ _ hm =>
              simp only [List.mem_cons, List.not_mem_nil, or_false] at hm
              subst hm
              rcases within_inv hu with rfl | ⟨z, hz, -⟩
              · rfl
              · cases hz
            | subAttr _ _ _ _ hm => cases hm

end Whatami
