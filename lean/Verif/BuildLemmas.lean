import Verif.Plugins
import Verif.BasicLemmas

/-
The recursion bound of `build` is never reached: `build` satisfies the unbounded equations.
Definitions here are vocabulary for statements and proofs: the code they are about is cited in the model modules.
-/
namespace Whatami

theorem depth_pos (v : Val) : 0 < depth v := by cases v <;> simp [depth]

theorem idItems_sub {w : What} {f : Bool} {kv : Str × Val} (h : kv ∈ idItems w f) : kv ∈ w.conf :=
  mem_sortBy.1 (List.mem_filter.1 h |>.1)

theorem idStr_congr {bs bs' : BS} {w : What} {f : Bool} (h : ∀ kv ∈ w.conf, bs kv.2 = bs' kv.2) :
    idStr bs w f = idStr bs' w f := by
  simp only [idStr]
  rw [mapR_congr (g := kvStr bs')]
  intro kv hkv
  simp only [kvStr, h kv (idItems_sub hkv)]

theorem strings_congr {bs bs' : BS} {xs : List Val} (h : ∀ x ∈ xs, bs x = bs' x) :
    strings bs xs = strings bs' xs := by
  simp only [strings, mapR_congr h]

theorem dictStr_congr {bs bs' : BS} {kvs : List (Val × Val)}
    (h : ∀ kv ∈ kvs, bs kv.1 = bs' kv.1 ∧ bs kv.2 = bs' kv.2) : dictStr bs kvs = dictStr bs' kvs := by
  simp only [dictStr]
  rw [mapR_congr (g := dkvStr bs')]
  intro kv hkv
  simp only [dkvStr, (h kv hkv).1, (h kv hkv).2]

theorem mem_trimDict {o : WhatOpts} {cd : Conf} {kv : Str × Val} (h : kv ∈ trimDict o cd) : kv ∈ cd :=
  List.mem_filter.1 h |>.1

theorem mem_configDict {o : WhatOpts} {s : Srcs} {kv : Str × Val} (h : kv ∈ configDictOfSrcs o s) :
    kv ∈ s.cd ∨ kv ∈ s.dd ∨ kv ∈ s.sd ∨ kv ∈ s.pd := by
  simp only [configDictOfSrcs] at h
  have step : ∀ (b : Bool) (d e : Conf), kv ∈ (if b = true then dupdate d e else d) → kv ∈ d ∨ kv ∈ e := by
    intro b d e h; split at h
    · exact mem_dupdate h
    · exact Or.inl h
  rcases step _ _ _ h with h | h
  · rcases step _ _ _ h with h | h
    · rcases step _ _ _ h with h | h
      · rcases step _ _ _ h with h | h
        · cases h
        · simp [h]
      · simp [h]
    · simp [h]
  · simp [h]

/-- Every value `callable2call` reports occurs in the callable or was passed in. -/
theorem c2c_mem (v : Val) : ∀ (pos : List Val) (kw : Conf) (n : Str) (r : Conf),
    callable2call v pos kw = .ok (n, r) → ∀ kv ∈ r,
      depth kv.2 < depth v ∨ kv.2 ∈ pos ∨ kv ∈ kw := by
  intro pos kw
  induction v, pos, kw using callable2call.induct with
  | case1 pos kw n args defaults =>
    intro n' r h kv hkv
    simp only [callable2call, funcCall] at h
    split at h
    · cases h
    split at h
    · cases h
    split at h
    · cases h
    simp only [Except.ok.injEq, Prod.mk.injEq] at h
    obtain ⟨_, rfl⟩ := h
    rcases List.mem_append.1 (mem_dictOf hkv) with h | h
    · rcases List.mem_append.1 (mem_dictOf h) with h | h
      · left
        have := depth_mem (List.of_mem_zip h).2
        simp only [depth]; omega
      · simp [h]
    · right; left
      exact (List.of_mem_zip (mem_dictOf h)).2
  | case2 pos kw pl g a k args kws ih =>
    intro n' r h kv hkv
    simp only [callable2call] at h
    rcases ih n' r h kv hkv with h | h | h
    · left; simp only [depth]; omega
    · rcases List.mem_append.1 h with h | h
      · simp [h]
      · rcases List.mem_append.1 h with h | h <;> left <;> simp only [depth]
        · have := depth_mem h; omega
        · have := depth_mem h; omega
    · rcases List.mem_append.1 (mem_dictOf h) with h | h
      · left
        rcases mem_dupdate h with h | h <;> have := depth_memA h <;> simp only [depth] <;> omega
      · simp [h]
  | case3 pl f args kws pos kw hne ih =>
    intro n' r h kv hkv
    have e : callable2call (.part pl f args kws) pos kw = callable2call f (pos ++ args) (dictOf (kws ++ kw)) := by
      rw [callable2call]; exact hne
    rw [e] at h
    rcases ih n' r h kv hkv with h | h | h
    · left; simp only [depth]; omega
    · rcases List.mem_append.1 h with h | h
      · simp [h]
      · left; have := depth_mem h; simp only [depth]; omega
    · rcases List.mem_append.1 (mem_dictOf h) with h | h
      · left; have := depth_memA h; simp only [depth]; omega
      · simp [h]
  | case4 => intro n r h kv hkv; simp [callable2call] at h; simp [h, hkv]
  | case5 => intro n r h kv hkv; simp [callable2call] at h; simp [h, hkv]
  | case6 => intro n r h kv hkv; simp [callable2call] at h; simp [h, hkv]
  | case7 => intro n r h kv hkv; simp [callable2call] at h; simp [h, hkv]
  | case8 => intro n r h kv hkv; simp [callable2call] at h
  | case9 => intro n r h kv hkv; simp [callable2call] at h


/-- Values of the configuration `whatareyou` infers for an object with the given sources. -/
theorem configDict_depth {o : WhatOpts} {v : Val} {kv : Str × Val} (h : kv ∈ configDictForObject o v) :
    depth kv.2 ≤ depthA (attrsOf v).cd ∨ depth kv.2 ≤ depthA (attrsOf v).dd ∨
    depth kv.2 ≤ depthA (attrsOf v).sd ∨ depth kv.2 ≤ depthA (attrsOf v).pd := by
  rcases mem_configDict h with h | h | h | h <;> have := depth_memA h <;> simp [this]

theorem depthA_strDict (c : Conf) : depthD (c.map fun kv => ((.str kv.1 : Val), kv.2)) ≤ max 1 (depthA c) := by
  induction c with
  | nil => simp [depthD]
  | cons e r ih => obtain ⟨k, v⟩ := e; simp only [List.map_cons, depthD, depthA, depth]; omega

/-- `whatareyou` never digs up values much deeper than the object. -/
theorem whatareyou_depth {o : WhatOpts} {v : Val} {w : What} (h : whatareyou o v none = .ok w)
    {kv : Str × Val} (hkv : kv ∈ w.conf) : depth kv.2 ≤ depth v + 2 := by
  revert h hkv
  revert kv
  intro kv0 h hkv
  have key : ∀ kv ∈ addSeq v (configDictForObject o v), depth kv.2 ≤ depth v + 2 := by
    intro kv hkv
    have base : ∀ kv ∈ configDictForObject o v, depth kv.2 ≤ depth v + 2 := by
      clear hkv
      intro kv' hkv'
      have := configDict_depth hkv'
      clear hkv'
      cases v <;> simp only [attrsOf, depthA, depth, strDict] at this ⊢
      case what n c nk o' =>
        have h1 := depthA_strDict c
        have h2 : ∀ l : List Str, depthL (l.map Val.str) ≤ 1 := by
          intro l
          induction l with
          | nil => simp [depthL]
          | cons a l ih => simp only [List.map_cons, depthL, depth]; omega
        have h2 := h2 nk
        cases o' <;> simp only [depth] at this <;> omega
      case part p f args kws =>
        have h1 := depthA_strDict kws
        omega
      all_goals omega
    have seqc : ∀ (x : Val), depth x ≤ depth v + 2 → kv ∈ dset (configDictForObject o v) c!"seq" x →
        depth kv.2 ≤ depth v + 2 := by
      intro x hx hm
      rcases mem_dset hm with hm | hm
      · exact base kv hm
      · rw [hm]; exact hx
    unfold addSeq at hkv
    split at hkv
    all_goals first
      | exact base kv hkv
      | (refine seqc _ ?_ hkv; simp only [depth]; omega)
  simp only [whatareyou] at h
  cases hc : callable2call v [] [] with
  | ok p =>
    obtain ⟨n, cd⟩ := p
    simp only [hc, Except.ok.injEq] at h
    subst h
    rcases c2c_mem v [] [] n cd hc kv0 (mem_trimDict hkv) with h | h | h
    · omega
    · cases h
    · cases h
  | error e =>
    cases e <;> simp only [hc, Except.ok.injEq, reduceCtorEq] at h
    all_goals subst h; exact key kv0 (mem_trimDict hkv)

/-- Introspecting an object that is no callable gives its attributes and possibly `seq`. -/
theorem whatareyou_obj {o : WhatOpts} {v : Val} {e : Err} (hc : callable2call v [] [] = .error e)
    {w : What} (h : whatareyou o v none = .ok w) :
    w = { name := className v, conf := trimDict o (addSeq v (configDictForObject o v)),
          nonids := o.nonids, out := none } := by
  simp only [whatareyou, hc] at h
  cases e <;> simp only [Except.ok.injEq, reduceCtorEq] at h
  all_goals exact h.symm

theorem whatMethod_depth {v : Val} {w : What} (h : whatMethod v = some (.ok w)) :
    ∀ kv ∈ w.conf, depth kv.2 < depth v := by
  intro kv hkv
  unfold whatMethod at h
  split at h
  · cases h
    have := depth_memA hkv
    simp only [depth] at this ⊢; omega
  · next cls callable cd dd sd pd o s =>
    simp only [Option.some.injEq] at h
    have hc : ∃ e, callable2call (.obj cls callable cd dd sd pd (some o) s) [] [] = .error e := by
      cases callable <;> exact ⟨_, rfl⟩
    obtain ⟨e, hc⟩ := hc
    have := whatareyou_obj hc h
    subst this
    have hm := mem_trimDict hkv
    simp only [addSeq] at hm
    have := configDict_depth hm
    simp only [attrsOf] at this
    simp only [depth]; omega
  · cases h
  · cases h

/-- Values of the configuration a (flattened) partial stands for. -/
theorem partial_depth {p : Bool} {f : Val} {args : List Val} {kws : Conf} {n : Str} {r : Conf}
    (h : callable2call (curry2partial (.part p f args kws)) [] [] = .ok (n, r)) :
    ∀ kv ∈ r, depth kv.2 < depth (.part p f args kws) := by
  intro kv hkv
  have := c2c_mem _ _ _ _ _ h kv hkv
  simp only [List.not_mem_nil, or_false] at this
  unfold curry2partial at this
  split at this
  · next p' g a k args' kws' heq =>
    cases heq
    have e1 : depthL (a ++ args) ≤ max (depthL a) (depthL args) := by
      clear this hkv h
      induction a with
      | nil => simp [depthL]
      | cons x xs ih => simp only [List.cons_append, depthL]; omega
    have e2 : depthA (dupdate k kws) ≤ max (depthA k) (depthA kws) := by
      have : ∀ d : Conf, (∀ kv ∈ d, depth kv.2 ≤ max (depthA k) (depthA kws)) →
          depthA d ≤ max (depthA k) (depthA kws) := by
        intro d hd
        induction d with
        | nil => simp [depthA]
        | cons e r ih =>
          obtain ⟨k', v'⟩ := e
          have := hd (k', v') (by simp)
          have := ih (fun kv hkv => hd kv (by simp [hkv]))
          simp only [depthA] at *; omega
      apply this
      intro kv hkv
      rcases mem_dupdate hkv with h | h <;> have := depth_memA h <;> omega
    simp only [depth] at this ⊢; omega
  · next p' f' args' kws' _ heq =>
    cases heq
    simpa only [depth] using this
  · next h1 h2 => exact absurd rfl (h2 _ _ _ _)

/-- A plugin only asks `build_string` about values nested strictly inside its argument. -/
theorem run_congr {cu : Customs} {bs bs' : BS} (p : Plugin) (v : Val)
    (h : ∀ u, depth u < depth v → bs u = bs' u) : p.run cu bs v = p.run cu bs' v := by
  have hid : ∀ (w : What), (∀ kv ∈ w.conf, depth kv.2 < depth v) → idStr bs w false = idStr bs' w false :=
    fun w hw => idStr_congr fun kv hkv => h _ (hw kv hkv)
  have hstr : ∀ (xs : List Val), depthL xs < depth v → strings bs xs = strings bs' xs :=
    fun xs hxs => strings_congr fun x hx => h x (by have := depth_mem hx; omega)
  have hdict : ∀ (kvs : List (Val × Val)), depthD kvs < depth v → dictStr bs kvs = dictStr bs' kvs :=
    fun xs hxs => dictStr_congr fun kv hx => by
      obtain ⟨a, b⟩ := kv
      have := depth_memD hx
      exact ⟨h _ (by simp only; omega), h _ (by simp only; omega)⟩
  have hwhat : ∀ (w : What), (∀ kv ∈ w.conf, depth kv.2 < depth v) →
      whatPlugin bs w.toVal = whatPlugin bs' w.toVal := by
    intro w hw; simp only [whatPlugin, What.toVal]; rw [hid _ hw]
  cases p <;> simp only [Plugin.run]
  case what =>
    cases v <;> simp only [whatPlugin]
    rw [hid]
    intro kv hkv; have := depth_memA hkv; simp only [depth] at *; omega
  case whatable =>
    simp only [whatablePlugin]
    split
    · split
      · next w hw => exact hwhat w (whatMethod_depth hw)
      · rfl
      · rfl
    · rfl
  case tuple =>
    unfold tuplePlugin
    split
    · rw [hstr]; simp only [depth]; omega
    · rw [hstr]; simp only [depth]; omega
    · rfl
  case list =>
    unfold listPlugin
    split
    · rw [hstr]; simp only [depth]; omega
    · rw [hstr]; simp only [depth]; omega
    · rfl
  case dict =>
    unfold dictPlugin
    split
    · next c attrs kvs =>
      have hc : callable2call (.odict c attrs kvs) [] [] = .error .valueError := rfl
      simp only [whatareyou, hc]
      rw [hid]
      intro kv hkv
      have hseq : depth (itemsList kvs) ≤ depthD kvs + 2 := by
        simp only [itemsList, depth]
        have : depthL (kvs.map fun kv => Val.tuple [kv.1, kv.2]) ≤ depthD kvs + 1 := by
          clear hkv hc hwhat hdict hstr hid h
          induction kvs with
          | nil => simp [depthL]
          | cons e r ih => obtain ⟨a, b⟩ := e; simp only [List.map_cons, depthL, depthD, depth]; omega
        omega
      rcases mem_dset hkv with hm | hm
      · have hm := mem_trimDict hm
        simp only [addSeq] at hm
        rcases mem_dset hm with hm | hm
        · have := configDict_depth hm
          simp only [attrsOf, depthA] at this
          simp only [depth]; omega
        · rw [hm]; simp only [depth]; omega
      · rw [hm]; simp only [depth]; omega
    · rw [hdict]; simp only [depth]; omega
    · next c attrs kvs =>
      rw [hdict _ (by simp only [depth]; omega)]
      have hc : callable2call (.ddict c attrs kvs) [] [] = .error .valueError := rfl
      simp only [whatareyou, hc]
      rw [hid]
      intro kv hkv
      have hm := mem_trimDict hkv
      simp only [addSeq] at hm
      rcases mem_dset hm with hm | hm
      · have := configDict_depth hm
        simp only [attrsOf, depthA] at this
        simp only [depth]; omega
      · rw [hm]; simp only [depth]; omega
    · rfl
  case set =>
    unfold setPlugin
    split
    · rw [hstr]; simp only [depth]; omega
    · rw [hstr]; simp only [depth]; omega
    · rw [hstr]; simp only [depth]; omega
    · rw [hstr]; simp only [depth]; omega
    · rfl
  case part =>
    unfold partialPlugin
    split
    · next p f args kws =>
      split
      · rfl
      · next n kw hk => rw [hid]; exact partial_depth hk
    · rfl
  case function =>
    unfold functionPlugin
    split
    · next n args ds =>
      simp only []
      rw [hid]
      intro kv hkv
      have := depth_mem (List.of_mem_zip (mem_dictOf hkv)).2
      simp only [depth]; omega
    · rfl
  case rng =>
    unfold rngPlugin
    split
    · next c st =>
      split
      · rfl
      · next w hw =>
        rw [hid]
        intro kv hkv
        have := whatareyou_depth hw hkv
        simp only [depth]; omega
    · rfl
  case any0x =>
    simp only [any0xPlugin]
    rw [hid]; intro kv hkv; cases hkv

theorem firstSome_congr {f g : Plugin → R (Option Str)} {ps : List Plugin} (h : ∀ p ∈ ps, f p = g p) :
    firstSome f ps = firstSome g ps := by
  induction ps with
  | nil => rfl
  | cons p ps ih =>
    simp only [firstSome]
    rw [h p (by simp), ih (fun q hq => h q (by simp [hq]))]

/-- More recursion budget than the depth of the value changes nothing. -/
theorem buildN_stable (cu : Customs) (ps : List Plugin) : ∀ (n m : Nat) (v : Val),
    depth v ≤ n → depth v ≤ m → buildN cu ps n v = buildN cu ps m v := by
  intro n
  induction n with
  | zero => intro m v h; have := depth_pos v; omega
  | succ n ih =>
    intro m v hn hm
    cases m with
    | zero => have := depth_pos v; omega
    | succ m =>
      simp only [buildN]
      apply firstSome_congr
      intro p _
      apply run_congr
      intro u hu
      exact ih m u (by omega) (by omega)

/-- The equation of plugins.py:381-393: the bound in the definition of `build` is never reached. -/
theorem build_eq (cu : Customs) (ps : List Plugin) (v : Val) :
    build cu ps v = firstSome (fun p => p.run cu (build cu ps) v) ps := by
  simp only [build]
  cases hd : depth v with
  | zero => have := depth_pos v; omega
  | succ n =>
    simp only [buildN]
    apply firstSome_congr
    intro p _
    apply run_congr
    intro u hu
    exact buildN_stable cu ps n (depth u) u (by omega) (by omega)

end Whatami
