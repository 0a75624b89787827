import Verif.Stack
import Verif.Spec.Stack
import Verif.Props.Callbacks
import Verif.Props.Text

/-
C92: what a limited stack does to ids.
-/
namespace Whatami

/-! ### The equation -/

theorem runF_congr {K : Frames} {cu : Customs} {b b' : Nat → BS} {n : Nat} {p : Plugin} {v : Val}
    (h : K.ask p v < n → ∀ u, b (n - K.ask p v - 1) u = b' (n - K.ask p v - 1) u) : p.runF K cu b n v = p.runF K cu b' n v := by
  simp only [Plugin.runF]
  split
  · rfl
  · split
    · rfl
    · congr 1
      funext u
      split
      · rfl
      · next hn => exact h (by omega) u

theorem buildFuel_stable (K : Frames) (cu : Customs) (ps : List Plugin) : ∀ m m' n v, n < m → n < m' →
    buildFuel K cu ps m n v = buildFuel K cu ps m' n v := by
  intro m
  induction m with
  | zero => intro m' n v h; omega
  | succ m ih =>
    intro m' n v h h'
    cases m' with
    | zero => omega
    | succ m' =>
      simp only [buildFuel]
      exact firstSome_congr fun p _ => runF_congr fun hn u => ih m' _ u (by omega) (by omega)

/-- The loop of `build_string` when frames are counted. -/
theorem buildF_eq (K : Frames) (cu : Customs) (ps : List Plugin) (n : Nat) (v : Val) :
    buildF K cu ps n v = firstSome (fun p => p.runF K cu (buildF K cu ps) n v) ps := by
  show buildFuel K cu ps (n + 1) n v = _
  simp only [buildFuel]
  exact firstSome_congr fun p _ => runF_congr fun hn u => buildFuel_stable K cu ps _ _ _ u (by omega) (by omega)

/-! ### Enough frames -/

theorem run_asks {cu : Customs} {p : Plugin} {v : Val} : ∃ L : List Val, (∀ P, Closed P → P v → ∀ u ∈ L, P u) ∧
    ∀ bs bs' : BS, (∀ u ∈ L, bs u = bs' u) → p.run cu bs v = p.run cu bs' v := by
  by_cases hp : ∀ n, p ≠ .custom n
  · obtain ⟨L, hL, h, -⟩ := asks p hp (fun _ => cu) v
    exact ⟨L, hL, h⟩
  · have : ∃ n, p = .custom n := Classical.byContradiction fun h => hp fun n e => h ⟨n, e⟩
    obtain ⟨n, rfl⟩ := this
    exact ⟨[], fun _ _ _ _ h => (by cases h), fun _ _ _ => rfl⟩

theorem runF_enough {K : Frames} {cu : Customs} {b : Nat → BS} {n : Nat} {p : Plugin} {v : Val} (h1 : K.own p v ≤ n) (h2 : K.probe v ≤ n)
    (h3 : K.ask p v < n) : p.runF K cu b n v = p.run cu (b (n - K.ask p v - 1)) v := by
  rw [Plugin.runF, if_neg (by omega), if_neg (fun h => by omega)]
  congr 1
  funext u
  rw [if_neg (by omega)]

/-- C92. With frames enough, `build_string` does what it does with an unlimited stack, whatever the frames things need. -/
theorem c92_enough (K : Frames) (cu : Customs) (ps : List Plugin) (v : Val) : ∃ N, ∀ n, N ≤ n → buildF K cu ps n v = build cu ps v := by
  induction hd : depth v using Nat.strongRecOn generalizing v with
  | _ d ih =>
    have one : ∀ p ∈ ps, ∃ N, ∀ n, N ≤ n → p.runF K cu (buildF K cu ps) n v = p.run cu (build cu ps) v := by
      intro p _
      obtain ⟨L, -, hL⟩ := run_asks (cu := cu) (p := p) (v := v)
      obtain ⟨N, hN⟩ := eventually (fun u n => depth u < depth v → buildF K cu ps n u = build cu ps u) L fun u _ => by
        by_cases hu : depth u < depth v
        · obtain ⟨N, hN⟩ := ih (depth u) (by omega) u rfl
          exact ⟨N, fun n hn _ => hN n hn⟩
        · exact ⟨0, fun _ _ h => absurd h hu⟩
      refine ⟨K.own p v + K.probe v + K.ask p v + 1 + N, fun n hn => ?_⟩
      rw [runF_enough (by omega) (by omega) (by omega)]
      rw [run_congr (bs' := fun u => if depth u < depth v then buildF K cu ps (n - K.ask p v - 1) u else build cu ps u) p v
        fun u hu => (if_pos hu).symm]
      refine hL _ _ fun u hu => ?_
      split
      · next h => exact hN _ (by omega) u hu h
      · rfl
    obtain ⟨N, hN⟩ := eventually (fun p n => p.runF K cu (buildF K cu ps) n v = p.run cu (build cu ps) v) ps one
    refine ⟨N, fun n hn => ?_⟩
    rw [buildF_eq, build_eq]
    exact firstSome_congr (hN n hn)

/-- C92. How many: if nothing in `v` needs more than `C` frames itself and `c` to get to the next level, `c` times the depth of `v` and `C`. -/
theorem c92_depth (K : Frames) (cu : Customs) (ps : List Plugin) (P : Val → Prop) (closed : Closed P) (c C : Nat)
    (need : ∀ p ∈ ps, ∀ u, P u → K.own p u ≤ C ∧ K.probe u ≤ C ∧ K.ask p u < c) (v : Val) (hv : P v) (n : Nat) (hn : c * depth v + C ≤ n) :
    buildF K cu ps n v = build cu ps v := by
  induction hd : depth v using Nat.strongRecOn generalizing v n with
  | _ d ih =>
    rw [buildF_eq, build_eq]
    refine firstSome_congr fun p hp => ?_
    obtain ⟨h1, h2, h3⟩ := need p hp v hv
    have h4 : c ≤ c * depth v := Nat.le_mul_of_pos_right c (depth_pos v)
    rw [runF_enough (by omega) (by omega) (by omega)]
    obtain ⟨L, hL, hs⟩ := run_asks (cu := cu) (p := p) (v := v)
    rw [run_congr (bs' := fun u => if depth u < depth v then buildF K cu ps (n - K.ask p v - 1) u else build cu ps u) p v
      fun u hu => (if_pos hu).symm]
    refine hs _ _ fun u hu => ?_
    split
    · next h =>
      refine ih (depth u) (by omega) u (hL P closed hv u hu) _ ?_ rfl
      have : c * depth u + c ≤ c * depth v := by rw [← Nat.mul_succ]; exact Nat.mul_le_mul_left c h
      omega
    · rfl

/-! ### Without whatable objects -/

theorem within_all_closed {B : Val → Prop} (data : ∀ v, Datatype v → B v) : Closed fun v => ∀ u, Within u v → B u := by
  have leaf : ∀ v, Datatype v → (∀ x, ¬ Child x v) → ∀ u, Within u v → B u := by
    intro v hv hc u hu
    rcases within_inv hu with rfl | ⟨y, hy, -⟩
    · exact data _ hv
    · exact absurd hy (hc y)
  have node : ∀ v, Datatype v → (∀ x, Child x v → ∀ u, Within u x → B u) → ∀ u, Within u v → B u := by
    intro v hv hc u hu
    rcases within_inv hu with rfl | ⟨y, hy, hu⟩
    · exact data _ hv
    · exact hc y hy u hu
  refine ⟨fun x v c h u hu => h u (hu.trans c.within), leaf _ .none ?_, fun i => leaf _ (.int i) ?_, leaf _ (.float _) ?_,
    fun s => leaf _ (.str s) ?_, fun xs h => node _ (.tuple xs) ?_, fun xs h => node _ (.list xs) ?_, fun xs h => node _ (.set xs) ?_,
    fun kvs h => node _ (.dict kvs) ?_⟩
  · intro x h; cases h
  · intro x h; cases h
  · intro x h; cases h
  · intro x h; cases h
  · intro x hx; cases hx with | tuple hm => exact h x hm
  · intro x hx; cases hx with | list hm => exact h x hm
  · intro x hx; cases hx with | set hm => exact h x hm
  · intro x hx
    cases hx with
    | dictKey hm => exact (h _ hm).1
    | dictVal hm => exact (h _ hm).2

theorem probed_iff (v : Val) : probed v = true ↔ (∃ n c nk o, v = .duck n c nk o) ∨ ∃ c cl cd dd sd pd o s, v = .obj c cl cd dd sd pd (some o) s := by
  cases v <;> simp [probed]
  case obj c cl cd dd sd pd wh s => cases wh <;> simp

theorem data_lessDef (K : Frames) (cu : Customs) (ps : List Plugin) (m : Nat) : ∀ n v, n < m → (∀ u, Within u v → probed u = false) →
    LessDef .recursionError (buildF K cu ps n v) (build cu ps v) := by
  induction m with
  | zero => intro n v h; omega
  | succ m ih =>
    intro n v h hv
    have closed : Closed fun v => ∀ u, Within u v → probed u = false := within_all_closed fun v h => by cases h <;> rfl
    rw [buildF_eq, build_eq]
    refine firstSome_lessDef ps fun p _ => ?_
    rw [Plugin.runF]
    split
    · exact .inr rfl
    · rw [if_neg (by rw [hv v (.refl v)]; simp)]
      obtain ⟨L, hL, hs⟩ := run_asks (cu := cu) (p := p) (v := v)
      open Classical in
      rw [hs _ (fun u => if u ∈ L then (if n ≤ K.ask p v then .error .recursionError else buildF K cu ps (n - K.ask p v - 1) u) else build cu ps u)
        fun u hu => (if_pos hu).symm]
      refine LessDef.run (fun u => ?_) cu p v
      split
      · next hu =>
        split
        · exact .inr rfl
        · exact ih _ u (by omega) (hL _ closed hv u hu)
      · exact .inl rfl

/-- C92. Without whatable objects inside, a short stack can only make `build_string` raise RecursionError: it does not change what is returned. -/
theorem c92_data (K : Frames) (cu : Customs) (ps : List Plugin) (n : Nat) (v : Val)
    (plain : ∀ u, Within u v → (∀ nm c nk o, u ≠ .duck nm c nk o) ∧ ∀ c cl cd dd sd pd o s, u ≠ .obj c cl cd dd sd pd (some o) s) :
    buildF K cu ps n v = build cu ps v ∨ buildF K cu ps n v = .error .recursionError := by
  refine data_lessDef K cu ps (n + 1) n v (by omega) fun u hu => ?_
  cases hp : probed u with
  | false => rfl
  | true =>
    rcases (probed_iff u).1 hp with ⟨nm, c, nk, o, rfl⟩ | ⟨c, cl, cd, dd, sd, pd, o, s, rfl⟩
    · exact absurd rfl ((plain _ hu).1 _ _ _ _)
    · exact absurd rfl ((plain _ hu).2 _ _ _ _ _ _ _ _)

/-- C92. The same whatever is inside, for a chain without the plugin for whatable objects. -/
theorem c92_without (K : Frames) (cu : Customs) (ps : List Plugin) (no : Plugin.whatable ∉ ps) (n : Nat) (v : Val) :
    buildF K cu ps n v = build cu ps v ∨ buildF K cu ps n v = .error .recursionError := by
  have all : ∀ m n v, n < m → LessDef .recursionError (buildF K cu ps n v) (build cu ps v) := by
    intro m
    induction m with
    | zero => intro n v h; omega
    | succ m ih =>
      intro n v h
      rw [buildF_eq, build_eq]
      refine firstSome_lessDef ps fun p hp => ?_
      rw [Plugin.runF]
      split
      · exact .inr rfl
      · rw [if_neg (by rintro ⟨rfl, -⟩; exact no hp)]
        refine LessDef.run (fun u => ?_) cu p v
        split
        · exact .inr rfl
        · exact ih _ u (by omega)
  exact all (n + 1) n v (by omega)

/-! ### Whatable objects -/

theorem out_of_frames {K : Frames} {cu : Customs} {m n : Nat} (c : Str) (dd : Conf) (s : Str)
    (own : ∀ p, K.own p (.obj c false [] dd [] [] (some {}) s) ≤ m) (hm : m ≤ n) (hn : n < K.probe (.obj c false [] dd [] [] (some {}) s)) :
    buildF K cu defaultPlugins n (.obj c false [] dd [] [] (some {}) s) = .ok (some (if isInfix c!" at 0x" s then c ++ c!"()" else s)) := by
  have ho : ∀ p, ¬ n < K.own p (.obj c false [] dd [] [] (some {}) s) := fun p => by have := own p; omega
  rw [buildF_eq]
  cases hs : isInfix c!" at 0x" s <;>
    simp [defaultPlugins, firstSome, Plugin.runF, ho, hn, Plugin.run, whatPlugin, builtinPlugin, numericTypePlugin, propertyPlugin, stringPlugin,
      tuplePlugin, listPlugin, dictPlugin, setPlugin, partialPlugin, functionPlugin, arrayPlugin, rngPlugin, any0xPlugin, anyPlugin, pyStr, hs,
      idStr, idItems, sortBy, mapR, wrapId, pyJoin, ret, className, probed]

theorem frames_left {K : Frames} {cu : Customs} {m n : Nat} (c : Str) (dd : Conf) (s : Str)
    (own : ∀ p, K.own p (.obj c false [] dd [] [] (some {}) s) ≤ m) (hm : m ≤ n) (hn : K.probe (.obj c false [] dd [] [] (some {}) s) ≤ n)
    (ask : K.ask .whatable (.obj c false [] dd [] [] (some {}) s) < n) :
    buildF K cu defaultPlugins n (.obj c false [] dd [] [] (some {}) s) =
      ret (idStr (buildF K cu defaultPlugins (n - K.ask .whatable (.obj c false [] dd [] [] (some {}) s) - 1))
        { name := c, conf := trimDict {} (dupdate [] dd) } false) := by
  have ho : ∀ p, ¬ n < K.own p (.obj c false [] dd [] [] (some {}) s) := fun p => by have := own p; omega
  have h1 : Plugin.runF K cu (buildF K cu defaultPlugins) n .what (.obj c false [] dd [] [] (some {}) s) = .ok none := by
    simp [Plugin.runF, ho, Plugin.run, whatPlugin]
  rw [buildF_eq]
  obtain ⟨rest, hr⟩ : ∃ rest, defaultPlugins = .what :: .whatable :: rest := ⟨_, rfl⟩
  conv => lhs; arg 2; rw [hr]
  rw [firstSome, h1]
  dsimp only
  rw [firstSome, runF_enough (by have := own .whatable; omega) hn ask]
  have h2 : ∀ bs, Plugin.run cu bs .whatable (.obj c false [] dd [] [] (some {}) s) =
      ret (idStr bs { name := c, conf := trimDict {} (dupdate [] dd) } false) := fun bs => rfl
  rw [h2]
  cases idStr (buildF K cu defaultPlugins (n - K.ask .whatable (.obj c false [] dd [] [] (some {}) s) - 1))
    { name := c, conf := trimDict {} (dupdate [] dd) } false <;> rfl

/-- C92. Objects made of whatable objects and plain data: `build_string` never raises RecursionError, however deep the object and however short the
stack, if `what()` needs as many frames as getting to the next level and answering there (`m` frames at most). -/
theorem c92_silent (K : Frames) (cu : Customs) (m : Nat) (own : ∀ p v, K.own p v ≤ m) (window : ∀ v, m + K.ask .whatable v + 1 ≤ K.probe v) (v : Val)
    (hv : WhatableTree v) (n : Nat) (hn : m ≤ n) : ∃ t, buildF K cu defaultPlugins n v = .ok (some t) := by
  have L : ∀ v : Val, (v = .none ∨ (∃ b, v = .bool b) ∨ (∃ i, v = .int i) ∨ (∃ t, v = .float t) ∨ ∃ s, v = .str s) →
      ∀ n, m ≤ n → ∃ t, buildF K cu defaultPlugins n v = .ok (some t) := by
    intro v h n hn
    have ho : ∀ p v, ¬ n < K.own p v := fun p v => by have := own p v; omega
    rw [buildF_eq]
    rcases h with rfl | ⟨b, rfl⟩ | ⟨i, rfl⟩ | ⟨t, rfl⟩ | ⟨s, rfl⟩
    all_goals
      simp only [defaultPlugins, firstSome, Plugin.runF, ho, Plugin.run, whatPlugin, whatablePlugin, isWhatable, whatMethod, builtinPlugin, numericTypePlugin,
        propertyPlugin, stringPlugin, tuplePlugin, listPlugin, dictPlugin, setPlugin, partialPlugin, functionPlugin, arrayPlugin, rngPlugin, any0xPlugin,
        anyPlugin, idStr, idItems, sortBy, mapR, ret, probed, if_false, false_and, and_false, Bool.false_eq_true, List.filter_nil]
    · exact ⟨_, rfl⟩
    · cases isInfix c!" at 0x" (pyStr (.bool b)) <;> exact ⟨_, rfl⟩
    · cases isInfix c!" at 0x" (pyStr (.int i)) <;> exact ⟨_, rfl⟩
    · cases isInfix c!" at 0x" (pyStr (.float t)) <;> exact ⟨_, rfl⟩
    · exact ⟨_, rfl⟩
  induction hv generalizing n with
  | none => exact L _ (by simp) n hn
  | bool b => exact L _ (by simp) n hn
  | int b => exact L _ (by simp) n hn
  | float b => exact L _ (by simp) n hn
  | str b => exact L _ (by simp) n hn
  | obj c dd s _ ih =>
    by_cases hq : n < K.probe (.obj c false [] dd [] [] (some {}) s)
    · exact ⟨_, out_of_frames c dd s (fun p => own p _) hn hq⟩
    · have hw := window (.obj c false [] dd [] [] (some {}) s)
      rw [frames_left c dd s (fun p => own p _) hn (by omega) (by omega)]
      simp only [idStr]
      split
      · next e he =>
        obtain ⟨kv, hkv, h⟩ := mapR_tooDeep he
        have hm : kv ∈ dd := by
          rcases mem_dupdate (mem_trimDict (idItems_sub hkv)) with h | h
          · cases h
          · exact h
        obtain ⟨t, ht⟩ := ih kv hm (n - K.ask .whatable (.obj c false [] dd [] [] (some {}) s) - 1) (by omega)
        simp [kvStr, ht] at h
      · exact ⟨_, rfl⟩

theorem holder_conf {k : Str} (hk : Public {} k) (u : Val) : trimDict {} (dupdate [] [(k, u)]) = [(k, u)] := by
  simp [trimDict, dupdate, dset, (trimKeep_iff {} k).2 hk]

/-- C92. Whatable objects inside one another, more of them than the stack has room for: the id shows as many as fit, and then `c()`, whatever the
innermost one holds.  (`q` frames for `what()`, `a + 1` for the next level.) -/
theorem c92_cut (K : Frames) (cu : Customs) (m a q : Nat) (own : ∀ p v, K.own p v ≤ m) (ask : ∀ v, K.ask .whatable v = a) (probe : ∀ v, K.probe v = q)
    (window : m + a + 1 ≤ q) (c k s : Str) (hk : Public {} k) (hs : c!" at 0x" <:+: s) (n : Nat) (hn : m ≤ n) (j : Nat)
    (deep : (n + (a + 1) - q) / (a + 1) < j) (u : Val) :
    buildF K cu defaultPlugins n (nested c k s j u) = .ok (some (cutText c k ((n + (a + 1) - q) / (a + 1)))) := by
  induction hN : n using Nat.strongRecOn generalizing n j with
  | _ N ih =>
    subst hN
    cases j with
    | zero => exact absurd deep (Nat.not_lt_zero _)
    | succ j =>
      by_cases hq : n < q
      · rw [Nat.div_eq_of_lt (by omega)]
        have := out_of_frames (K := K) (cu := cu) c [(k, nested c k s j u)] s (fun p => own p _) hn (by rw [probe]; exact hq)
        rw [isInfix_iff.2 hs] at this
        exact this
      · have e : (n + (a + 1) - q) / (a + 1) = (n - a - 1 + (a + 1) - q) / (a + 1) + 1 := by
          rw [show n + (a + 1) - q = (n - a - 1 + (a + 1) - q) + (a + 1) by omega, Nat.add_div_right _ (by omega)]
        have := frames_left (K := K) (cu := cu) c [(k, nested c k s j u)] s (fun p => own p _) hn (by rw [probe]; omega) (by rw [ask]; omega)
        show buildF K cu defaultPlugins n (.obj c false [] [(k, nested c k s j u)] [] [] (some {}) s) = _
        rw [this, holder_conf hk, ask]
        have step := ih (n - a - 1) (by omega) (n - a - 1) (by omega) j (by omega) rfl
        simp only [idStr, idItems, sortBy, insertBy, List.contains_nil, Bool.not_false, Bool.or_true, List.filter_cons, List.filter_nil, if_true, mapR, kvStr, step]
        rw [e]
        simp [wrapId, ret, showOpt, cutText, nestedText, pyJoin]

/-- C92. The right text. -/
theorem c92_right (cu : Customs) (c k s : Str) (hk : Public {} k) (u : Val) (t : Str) (hu : build cu defaultPlugins u = .ok (some t)) (j : Nat) :
    build cu defaultPlugins (nested c k s j u) = .ok (some (nestedText c k j t)) := by
  induction j with
  | zero => exact hu
  | succ j ih =>
    rw [build_eq]
    show firstSome _ (.what :: .whatable :: _) = _
    rw [firstSome, show Plugin.run cu (build cu defaultPlugins) .what (nested c k s (j + 1) u) = .ok none from rfl]
    dsimp only
    rw [firstSome, show Plugin.run cu (build cu defaultPlugins) .whatable (nested c k s (j + 1) u) =
      ret (idStr (build cu defaultPlugins) { name := c, conf := trimDict {} (dupdate [] [(k, nested c k s j u)]) } false) from rfl, holder_conf hk]
    simp [idStr, idItems, sortBy, insertBy, mapR, kvStr, ih, wrapId, ret, showOpt, nestedText, pyJoin]

theorem nestedText_inj {c k : Str} {j : Nat} {t t' : Str} (h : nestedText c k j t = nestedText c k j t') : t = t' := by
  induction j with
  | zero => exact h
  | succ j ih =>
    simp only [nestedText, List.append_assoc] at h
    exact ih (List.append_cancel_right (List.append_cancel_left (List.append_cancel_left (List.append_cancel_left (List.append_cancel_left h)))))

theorem nestedText_add (c k t : Str) (i j : Nat) : nestedText c k i (nestedText c k j t) = nestedText c k (i + j) t := by
  induction i with
  | zero => simp [nestedText]
  | succ i ih => rw [Nat.succ_add]; simp only [nestedText, ih]

theorem cutText_length (c k : Str) (j : Nat) : (cutText c k j).length = j * (c.length + k.length + 3) + c.length + 2 := by
  unfold cutText
  induction j with
  | zero => simp [nestedText]
  | succ j ih => simp [nestedText, ih, Nat.succ_mul]; omega

/-- C92. So two objects whose ids differ get the same one, without any error, when the stack is short. -/
theorem c92_collide (K : Frames) (cu : Customs) (m a q : Nat) (own : ∀ p v, K.own p v ≤ m) (ask : ∀ v, K.ask .whatable v = a)
    (probe : ∀ v, K.probe v = q) (window : m + a + 1 ≤ q) (c k s : Str) (hk : Public {} k) (hs : c!" at 0x" <:+: s) (n : Nat) (hn : m ≤ n) (u u' : Val)
    (t t' : Str) (hu : build cu defaultPlugins u = .ok (some t)) (hu' : build cu defaultPlugins u' = .ok (some t')) (ne : t ≠ t') :
    ∃ j x, buildF K cu defaultPlugins n (nested c k s j u) = .ok (some x) ∧ buildF K cu defaultPlugins n (nested c k s j u') = .ok (some x) ∧
      build cu defaultPlugins (nested c k s j u) ≠ build cu defaultPlugins (nested c k s j u') := by
  refine ⟨(n + (a + 1) - q) / (a + 1) + 1, _, c92_cut K cu m a q own ask probe window c k s hk hs n hn _ (by omega) u,
    c92_cut K cu m a q own ask probe window c k s hk hs n hn _ (by omega) u', ?_⟩
  rw [c92_right cu c k s hk u t hu, c92_right cu c k s hk u' t' hu']
  intro h
  exact ne (nestedText_inj (by simpa using h))

/-- C92. And the id of one object depends on how deep in the program it is asked for. -/
theorem c92_unstable (K : Frames) (cu : Customs) (m a q : Nat) (own : ∀ p v, K.own p v ≤ m) (ask : ∀ v, K.ask .whatable v = a)
    (probe : ∀ v, K.probe v = q) (window : m + a + 1 ≤ q) (c k s : Str) (hk : Public {} k) (hs : c!" at 0x" <:+: s) (n : Nat) (hn : m ≤ n)
    (room : q ≤ n + (a + 1)) (u : Val) :
    ∃ j x y, buildF K cu defaultPlugins n (nested c k s j u) = .ok (some x) ∧
      buildF K cu defaultPlugins (n + (a + 1)) (nested c k s j u) = .ok (some y) ∧ x ≠ y := by
  have e : (n + (a + 1) + (a + 1) - q) / (a + 1) = (n + (a + 1) - q) / (a + 1) + 1 := by
    rw [show n + (a + 1) + (a + 1) - q = n + (a + 1) - q + (a + 1) by omega, Nat.add_div_right _ (by omega)]
  refine ⟨(n + (a + 1) - q) / (a + 1) + 2, _, _, c92_cut K cu m a q own ask probe window c k s hk hs n hn _ (by omega) u,
    c92_cut K cu m a q own ask probe window c k s hk hs _ (by omega) _ (by omega) u, fun h => ?_⟩
  have := congrArg List.length h
  rw [cutText_length, cutText_length, e, Nat.succ_mul] at this
  omega

/-! ### A concrete stack -/

/-- Frames as in CPython 3: three at most for a plugin, four from `build_string` to `build_string` through a whatable object, two otherwise; nine for
`is_whatable` to get to the bottom of `inspect.getmembers`. -/
def cpython : Frames where
  own := fun _ _ => 3
  ask := fun p _ => if p = .whatable then 4 else 2
  probe := fun _ => 9

example : buildF cpython noCustom defaultPlugins 15 (nested c!"A" c!"x" c!"<A object at 0x7f>" 40 (.int 1)) = .ok (some c!"A(x=A(x=A()))") := by rfl
example : buildF cpython noCustom defaultPlugins 15 (nested c!"A" c!"x" c!"<A object at 0x7f>" 40 (.str c!"other")) =
    .ok (some c!"A(x=A(x=A()))") := by rfl
example : buildF cpython noCustom defaultPlugins 1000 (nested c!"A" c!"x" c!"<A object at 0x7f>" 3 (.int 1)) =
    .ok (some c!"A(x=A(x=A(x=1)))") := by rfl
example : buildF cpython noCustom defaultPlugins 8 (.list [.list [.list [.int 1]]]) = .error .recursionError := by rfl
example : buildF cpython noCustom defaultPlugins 1000 (.list [.list [.list [.int 1]]]) = .ok (some c!"[[[1]]]") := by rfl

/-- The hypotheses of `c92_cut` are met. -/
example (n : Nat) (hn : 3 ≤ n) (j : Nat) (deep : (n + 5 - 9) / 5 < j) (u : Val) :
    buildF cpython noCustom defaultPlugins n (nested c!"A" c!"x" c!"<A object at 0x7f>" j u) = .ok (some (cutText c!"A" c!"x" ((n + 5 - 9) / 5))) :=
  c92_cut cpython noCustom 3 4 9 (fun _ _ => Nat.le_refl 3) (fun _ => rfl) (fun _ => rfl) (by omega) _ _ _ ((trimKeep_iff _ _).1 (by rfl))
    (isInfix_iff.1 (by rfl)) n hn j deep u

end Whatami
