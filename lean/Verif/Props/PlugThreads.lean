import Verif.PlugThreads
import Verif.Props.Chain

/-
C97: the plugin list when several threads change it, and calls that are interrupted.
-/
namespace Whatami

/-- A thread after some steps, when no other thread runs. -/
def soloOp (ps : List Plugin) (p : MProg) : Nat → List Plugin × MProg
  | 0 => (ps, p)
  | k + 1 => (soloOp ps p k).2.step (soloOp ps p k).1

theorem soloOp_done (ps : List Plugin) (r : R Unit) (k : Nat) : soloOp ps (.done r) k = (ps, .done r) := by
  induction k with
  | zero => rfl
  | succ k ih => rw [soloOp, ih]; rfl

theorem soloOp_shift (ps : List Plugin) (p : MProg) (k : Nat) : soloOp ps p (k + 1) = soloOp (p.step ps).1 (p.step ps).2 k := by
  induction k with
  | zero => rfl
  | succ k ih => rw [soloOp, ih]; rfl

/-- C97. A call that runs without another between its steps does what C16 says, and one that is interrupted has changed nothing or all that it would have
changed. -/
theorem c97_alone (named : Nat → Bool) (ps : List Plugin) (op : MOp) :
    (∃ k, soloOp ps (op.prog named) k = ((mstep named ps op).1, .done (mstep named ps op).2)) ∧
    ∀ k, (soloOp ps (op.prog named) k).1 = ps ∨ (soloOp ps (op.prog named) k).1 = (mstep named ps op).1 := by
  have fin : ∀ (q : MProg) (n : Nat) (r : R Unit) (ps' : List Plugin), soloOp ps q n = (ps', .done r) →
      (∀ k, k ≤ n → (soloOp ps q k).1 = ps ∨ (soloOp ps q k).1 = ps') → ∀ k, (soloOp ps q k).1 = ps ∨ (soloOp ps q k).1 = ps' := by
    intro q n r ps' h1 h2 k
    by_cases hk : k ≤ n
    · exact h2 k hk
    · right
      obtain ⟨m, rfl⟩ : ∃ m, k = n + m := ⟨k - n, by omega⟩
      have : ∀ m, soloOp ps q (n + m) = (ps', .done r) := by
        intro m
        induction m with
        | zero => exact h1
        | succ m ih => show (soloOp ps q (n + m)).2.step (soloOp ps q (n + m)).1 = _; rw [ih]; rfl
      rw [this m]
  have both : ∀ n, soloOp ps (op.prog named) n = ((mstep named ps op).1, .done (mstep named ps op).2) →
      (∀ k, k ≤ n → (soloOp ps (op.prog named) k).1 = ps ∨ (soloOp ps (op.prog named) k).1 = (mstep named ps op).1) →
      (∃ k, soloOp ps (op.prog named) k = ((mstep named ps op).1, .done (mstep named ps op).2)) ∧
      ∀ k, (soloOp ps (op.prog named) k).1 = ps ∨ (soloOp ps (op.prog named) k).1 = (mstep named ps op).1 :=
    fun n h1 h2 => ⟨⟨n, h1⟩, fin _ n _ _ h1 h2⟩
  cases op with
  | reset =>
    refine both 1 rfl fun k hk => ?_
    match k with
    | 0 => exact .inl rfl
    | 1 => exact .inr rfl
  | drop p =>
    by_cases h : p ∈ ps
    · refine both 2 (by simp [soloOp, MOp.prog, MProg.step, mstep, h]) fun k hk => ?_
      match k with
      | 0 => exact .inl rfl
      | 1 => exact .inl rfl
      | 2 => right; simp [soloOp, MOp.prog, MProg.step, mstep, h]
    · refine both 1 (by simp [soloOp, MOp.prog, MProg.step, mstep, h]) fun k hk => ?_
      match k with
      | 0 => exact .inl rfl
      | 1 => exact .inl rfl
  | insert p before =>
    by_cases h : p ∈ ps
    · refine both 1 (by simp [soloOp, MOp.prog, MProg.step, mstep, h]) fun k hk => ?_
      match k with
      | 0 => exact .inl rfl
      | 1 => exact .inl rfl
    · cases before with
      | none =>
        refine both 3 (by simp [soloOp, MOp.prog, insertProg, MProg.step, mstep, h]) fun k hk => ?_
        match k with
        | 0 => exact .inl rfl
        | 1 => exact .inl rfl
        | 2 => left; simp [soloOp, MOp.prog, insertProg, MProg.step, h]
        | 3 => right; simp [soloOp, MOp.prog, insertProg, MProg.step, mstep, h]
      | some b =>
        by_cases hb : b ∈ ps
        · refine both 3 (by simp [soloOp, MOp.prog, insertProg, MProg.step, mstep, h, hb]) fun k hk => ?_
          match k with
          | 0 => exact .inl rfl
          | 1 => exact .inl rfl
          | 2 => left; simp [soloOp, MOp.prog, insertProg, MProg.step, h]
          | 3 => right; simp [soloOp, MOp.prog, insertProg, MProg.step, mstep, h, hb]
        · refine both 2 (by simp [soloOp, MOp.prog, insertProg, MProg.step, mstep, h, hb]) fun k hk => ?_
          match k with
          | 0 => exact .inl rfl
          | 1 => exact .inl rfl
          | 2 => left; simp [soloOp, MOp.prog, insertProg, MProg.step, h]

/-! ### Any threads -/

/-- Given lists of `P`, a call writes lists of `P`. -/
def StoresOf (P : List Plugin → Prop) : MProg → Prop
  | .done _ => True
  | .load k => ∀ ps, P ps → StoresOf P (k ps)
  | .store ps k => P ps ∧ StoresOf P k

theorem stores_run {P : List Plugin → Prop} (sched : List Nat) (s : PlugState) (h : P s.plugins) (ht : ∀ t, StoresOf P (s.threads t)) : P (s.run sched).plugins := by
  induction sched generalizing s with
  | nil => exact h
  | cons t sched ih =>
    have h0 := ht t
    refine ih (s.tick t) ?_ fun t' => ?_
    · simp only [PlugState.tick]
      cases hp : s.threads t with
      | done r => exact h
      | load k => exact h
      | store ps k => rw [hp] at h0; exact h0.1
    · simp only [PlugState.tick]
      split
      · cases hp : s.threads t with
        | done r => trivial
        | load k => rw [hp] at h0; exact h0 _ h
        | store ps k => rw [hp] at h0; exact h0.2
      · exact ht t'

theorem sublist_skip {l x y : List Plugin} {p : Plugin} (h : l.Sublist (x ++ p :: y)) (hp : p ∉ l) : l.Sublist (x ++ y) := by
  obtain ⟨l1, l2, rfl, h1, h2⟩ := List.sublist_append_iff.1 h
  refine h1.append ?_
  cases h2 with
  | cons _ h => exact h
  | cons_cons _ h => exact absurd (by simp) hp

/-- C97. However the steps of any calls mix: plugins that no call inserts keep the order that they had at first (or by default, if some call resets), none
of them is made up, and all others in the list were inserted by a call. -/
theorem c97_any (named : Nat → Bool) (ps : List Plugin) (calls : List MOp) (sched : List Nat) (l : List Plugin)
    (h : l.Sublist ((startOps named ps calls).run sched).plugins) (hl : ∀ q ∈ l, ∀ before, .insert q before ∉ calls) :
    l.Sublist ps ∨ (.reset ∈ calls ∧ l.Sublist defaultPlugins) := by
  let P : List Plugin → Prop := fun L => ∀ l : List Plugin, l.Sublist L → (∀ q ∈ l, ∀ before, .insert q before ∉ calls) → l.Sublist ps ∨ (.reset ∈ calls ∧ l.Sublist defaultPlugins)
  have ins : ∀ {x y : List Plugin} {p : Plugin} {before : Option Plugin}, .insert p before ∈ calls → P (x ++ y) → P (x ++ p :: y) := by
    intro x y p before hm hP l hs hl
    exact hP l (sublist_skip hs fun hp => hl p hp before hm) hl
  refine stores_run (P := P) sched (startOps named ps calls) (fun l hs _ => .inl hs) (fun t => ?_) l h hl
  simp only [startOps]
  cases hc : calls[t]? with
  | none => trivial
  | some op =>
    have hm : op ∈ calls := List.mem_of_getElem? hc
    cases op with
    | reset => exact ⟨fun l hs _ => .inr ⟨hm, hs⟩, trivial⟩
    | drop p =>
      intro L hL
      simp only
      split
      · next hp =>
        obtain ⟨x, y, e1, -, e2⟩ := pyRemove_split hp
        refine ⟨fun l hs hl => hL l ?_ hl, trivial⟩
        rw [e2] at hs
        rw [e1]
        exact hs.trans ((List.Sublist.refl x).append (List.sublist_cons_self p y))
      · trivial
    | insert p before =>
      intro L hL
      simp only
      split
      · trivial
      · intro L hL
        cases before with
        | none =>
          refine ⟨?_, trivial⟩
          exact ins (x := L) (y := []) hm (by simpa using hL)
        | some b =>
          simp only
          split
          · next hb =>
            obtain ⟨x, y, e1, -, e2⟩ := insertAtIndex_split (p := p) hb
            refine ⟨?_, trivial⟩
            rw [e2]
            exact ins hm (e1 ▸ hL)
          · trivial

/-! ### Each plugin inserted by one call -/

/-- The steps that a call may be at. -/
inductive Stage (named : Nat → Bool) : MOp → MProg → Prop where
  | drop (p) : Stage named (.drop p) ((MOp.drop p).prog named)
  | insert (p before) : Stage named (.insert p before) ((MOp.insert p before).prog named)
  | second (p before) : Stage named (.insert p before) (insertProg named p before)
  | store (op L) : Stage named op (.store L (.done (.ok ())))
  | done (op r) : Stage named op (.done r)

/-- C97. If each plugin that is inserted was not there at first (nor is a default one, if some call resets) and is inserted by one call only, no plugin is ever
twice in the list. -/
theorem c97_unique {named : Nat → Bool} {ps : List Plugin} (u : ps.Nodup) {calls : List MOp}
    (new : ∀ p before, .insert p before ∈ calls → p ∉ ps ∧ (.reset ∈ calls → p ∉ defaultPlugins))
    (once : ∀ (t t' : Nat) p before before', calls[t]? = some (.insert p before) → calls[t']? = some (.insert p before') → t = t') (sched : List Nat) :
    ((startOps named ps calls).run sched).plugins.Nodup := by
  -- a list that a thread may write, or that is there: no plugin twice, and none that a thread is still to insert
  let Good : PlugState → (Nat → Prop) → List Plugin → Prop := fun s own L => L.Nodup ∧ ∀ (t : Nat) p before, calls[t]? = some (.insert p before) →
    s.threads t ≠ .done (.ok ()) → ¬ own t → p ∉ L
  have main : ∀ (sched : List Nat) (s : PlugState), (∀ (t : Nat) op, calls[t]? = some op → Stage named op (s.threads t)) →
      (∀ t : Nat, calls[t]? = none → ∃ r, s.threads t = .done r) → Good s (fun _ => False) s.plugins →
      (∀ t L k, s.threads t = .store L k → Good s (fun t' => t' = t) L) → (s.run sched).plugins.Nodup := by
    intro sched
    induction sched with
    | nil => exact fun s _ _ h _ => h.1
    | cons t sched ih =>
      intro s h1 h2 h3 h4
      -- what a step leaves of being good
      have others : ∀ t', t' ≠ t → (s.tick t).threads t' = s.threads t' := fun t' e => by simp only [PlugState.tick, if_neg e]
      have mine : (s.tick t).threads t = ((s.threads t).step s.plugins).2 := by simp only [PlugState.tick, if_true]
      have later : ∀ t', (s.tick t).threads t' ≠ .done (.ok ()) → s.threads t' ≠ .done (.ok ()) := by
        intro t' hn he
        by_cases e : t' = t
        · subst e; rw [mine, he] at hn; exact hn rfl
        · rw [others t' e] at hn; exact hn he
      have keep : ∀ {own L}, Good s own L → Good (s.tick t) own L := fun g => ⟨g.1, fun t' p before hc hn ho => g.2 t' p before hc (later t' hn) ho⟩
      cases hc : calls[t]? with
      | none =>
        obtain ⟨r, hr⟩ := h2 t hc
        have : s.tick t = s := by
          have : (fun t' => if t' = t then MProg.done r else s.threads t') = s.threads := by
            funext t'
            split
            · next e => rw [e, hr]
            · rfl
          simp only [PlugState.tick, hr, MProg.step]
          rw [this]
        show ((s.tick t).run sched).plugins.Nodup
        rw [this]; exact ih s h1 h2 h3 h4
      | some op =>
        have hm : op ∈ calls := List.mem_of_getElem? hc
        have reg : ∀ L k, s.threads t = .store L k → (s.tick t).plugins = L := fun L k e => by simp only [PlugState.tick, e, MProg.step]
        have noStore : (∀ L k, s.threads t ≠ .store L k) → (s.tick t).plugins = s.plugins := by
          intro hn
          simp only [PlugState.tick]
          cases hp : s.threads t with
          | store L k => exact absurd hp (hn L k)
          | done r => rfl
          | load k => rfl
        -- whatever the thread does now
        have go : Stage named op ((s.tick t).threads t) → (∀ L k, (s.tick t).threads t = .store L k → Good s (fun t' => t' = t) L) →
            Good (s.tick t) (fun _ => False) (s.tick t).plugins → ((s.tick t).run sched).plugins.Nodup := by
          intro g1 g2 g3
          refine ih (s.tick t) (fun t' op' hc' => ?_) (fun t' hc' => ?_) g3 fun t' L k hs => ?_
          · by_cases e : t' = t
            · subst e; rw [hc] at hc'; cases hc'; exact g1
            · rw [others t' e]; exact h1 t' op' hc'
          · have e : t' ≠ t := by rintro rfl; rw [hc] at hc'; cases hc'
            rw [others t' e]; exact h2 t' hc'
          · by_cases e : t' = t
            · subst e; exact keep (g2 L k hs)
            · rw [others t' e] at hs; exact keep (h4 t' L k hs)
        show ((s.tick t).run sched).plugins.Nodup
        -- the lists that it may come to write
        have goodOwn : Good s (fun t' => t' = t) s.plugins := ⟨h3.1, fun t' p before hc' hn _ => h3.2 t' p before hc' hn (fun h => h)⟩
        have goodIns : ∀ {p before x y}, op = .insert p before → s.threads t ≠ .done (.ok ()) → s.plugins = x ++ y → Good s (fun t' => t' = t) (x ++ p :: y) := by
          intro p before x y eo hn e
          have hp : p ∉ s.plugins := h3.2 t p before (eo ▸ hc) hn (fun h => h)
          refine ⟨?_, fun t' p' before' hc' hn' ho => ?_⟩
          · rw [List.perm_middle.nodup_iff, List.nodup_cons, ← e]
            exact ⟨hp, h3.1⟩
          · have h5 := h3.2 t' p' before' hc' hn' (fun h => h)
            have h6 : p' ≠ p := by
              rintro rfl
              exact ho (once t' t p' before' before hc' (eo ▸ hc))
            rw [e] at h5
            simp only [List.mem_append, List.mem_cons, not_or] at h5 ⊢
            exact ⟨h5.1, h6, h5.2⟩
        have hst := h1 t op hc
        generalize hth : s.threads t = q at hst
        cases hst with
        | done _ r =>
          rw [noStore (by rw [hth]; intro L k e; cases e)] at go
          refine go (by rw [mine, hth]; exact .done op r) (fun L k e => ?_) (keep h3)
          rw [mine, hth] at e; cases e
        | store _ L =>
          have g := h4 t L _ hth
          have hd : (s.tick t).threads t = .done (.ok ()) := by rw [mine, hth]; rfl
          refine go (by rw [hd]; exact .done op _) (fun L' k e => by rw [hd] at e; cases e) ?_
          rw [reg L _ hth]
          refine ⟨g.1, fun t' p before hc' hn _ => g.2 t' p before hc' (later t' hn) ?_⟩
          rintro rfl
          exact hn hd
        | drop p =>
          have hm1 : (s.tick t).threads t = if p ∈ s.plugins then .store (pyRemove p s.plugins) (.done (.ok ())) else .done (.error (nameError named p)) := by
            rw [mine, hth]; rfl
          have hn : ∀ L k, s.threads t ≠ .store L k := by rw [hth]; intro L k e; cases e
          rw [noStore hn] at go
          by_cases hp : p ∈ s.plugins
          · rw [if_pos hp] at hm1
            refine go (by rw [hm1]; exact .store _ _) (fun L k e => ?_) (keep h3)
            rw [hm1] at e; cases e
            obtain ⟨x, y, e1, -, e2⟩ := pyRemove_split hp
            have sub : (pyRemove p s.plugins).Sublist s.plugins := by
              rw [e2]
              conv => rhs; rw [e1]
              exact (List.Sublist.refl x).append (List.sublist_cons_self p y)
            exact ⟨h3.1.sublist sub, fun t' p' before hc' hn' ho hm' => goodOwn.2 t' p' before hc' hn' ho (sub.subset hm')⟩
          · rw [if_neg hp] at hm1
            refine go (by rw [hm1]; exact .done _ _) (fun L k e => ?_) (keep h3)
            rw [hm1] at e; cases e
        | insert p before =>
          have hm1 : (s.tick t).threads t = if p ∈ s.plugins then .done (.error (nameError named p)) else insertProg named p before := by
            rw [mine, hth]; rfl
          have hn : ∀ L k, s.threads t ≠ .store L k := by rw [hth]; intro L k e; cases e
          rw [noStore hn] at go
          by_cases hp : p ∈ s.plugins
          · rw [if_pos hp] at hm1
            refine go (by rw [hm1]; exact .done _ _) (fun L k e => ?_) (keep h3)
            rw [hm1] at e; cases e
          · rw [if_neg hp] at hm1
            refine go (by rw [hm1]; exact .second _ _) (fun L k e => ?_) (keep h3)
            rw [hm1] at e; cases e
        | second p before =>
          have hn : ∀ L k, s.threads t ≠ .store L k := by rw [hth]; intro L k e; cases e
          have hnd : s.threads t ≠ .done (.ok ()) := by rw [hth]; intro e; cases e
          rw [noStore hn] at go
          cases before with
          | none =>
            have hm1 : (s.tick t).threads t = .store (s.plugins ++ [p]) (.done (.ok ())) := by rw [mine, hth]; rfl
            refine go (by rw [hm1]; exact .store _ _) (fun L k e => ?_) (keep h3)
            rw [hm1] at e; cases e
            exact goodIns (x := s.plugins) (y := []) rfl hnd (by simp)
          | some b =>
            have hm1 : (s.tick t).threads t = if b ∈ s.plugins then .store (insertAtIndex p b s.plugins) (.done (.ok ())) else .done (.error (nameError named b)) := by
              rw [mine, hth]; rfl
            by_cases hb : b ∈ s.plugins
            · rw [if_pos hb] at hm1
              refine go (by rw [hm1]; exact .store _ _) (fun L k e => ?_) (keep h3)
              rw [hm1] at e; cases e
              obtain ⟨x, y, e1, -, e2⟩ := insertAtIndex_split (p := p) hb
              rw [e2]
              exact goodIns rfl hnd e1
            · rw [if_neg hb] at hm1
              refine go (by rw [hm1]; exact .done _ _) (fun L k e => ?_) (keep h3)
              rw [hm1] at e; cases e
  refine main sched (startOps named ps calls) (fun t op hc => ?_) (fun t hc => ?_) ⟨u, fun t p before hc _ _ => (new p before (List.mem_of_getElem? hc)).1⟩ ?_
  · simp only [startOps, hc]
    cases op with
    | reset => exact .store _ _
    | drop p => exact .drop p
    | insert p b => exact .insert p b
  · exact ⟨_, by simp only [startOps, hc]; rfl⟩
  · intro t L k h
    simp only [startOps] at h
    cases hc : calls[t]? with
    | none => rw [hc] at h; cases h
    | some op =>
      rw [hc] at h
      cases op with
      | drop p => cases h
      | insert p b => cases h
      | reset =>
        cases h
        exact ⟨by decide, fun t' p before hc' _ _ => (new p before (List.mem_of_getElem? hc')).2 (List.mem_of_getElem? hc)⟩

/-! ### What does not hold -/

/-- C97, what does not hold: two threads that insert the same plugin may both return normally, and the list then has it twice, so that dropping it once
leaves it there. -/
theorem c97_twice {named : Nat → Bool} {ps : List Plugin} {p : Plugin} (hp : p ∉ ps) :
    ∃ sched, let s := (startOps named ps [.insert p none, .insert p none]).run sched
      s.threads 0 = .done (.ok ()) ∧ s.threads 1 = .done (.ok ()) ∧ s.plugins = ps ++ [p, p] ∧ p ∈ (mstep named s.plugins (.drop p)).1 := by
  refine ⟨[0, 1, 1, 1, 0, 0], ?_⟩
  have h1 : ((startOps named ps [.insert p none, .insert p none]).run [0, 1, 1, 1, 0, 0]).plugins = ps ++ [p, p] := by
    simp [PlugState.run, PlugState.tick, startOps, MOp.prog, insertProg, MProg.step, hp]
  refine ⟨?_, ?_, h1, ?_⟩
  · simp [PlugState.run, PlugState.tick, startOps, MOp.prog, insertProg, MProg.step, hp]
  · simp [PlugState.run, PlugState.tick, startOps, MOp.prog, insertProg, MProg.step, hp]
  · rw [h1]
    have hm : p ∈ ps ++ [p, p] := by simp
    simp only [mstep, if_pos hm]
    have : pyRemove p (ps ++ [p, p]) = ps ++ [p] := by
      clear h1 hm
      induction ps with
      | nil => simp [pyRemove]
      | cons q ps ih =>
        simp only [List.mem_cons, not_or] at hp
        simp only [List.cons_append, pyRemove]
        rw [if_neg (Ne.symm hp.1), ih hp.2]
    rw [this]; simp

/-- C97, what does not hold: of two threads that insert different plugins, or one that inserts and one that drops, both may return normally and the change
of one of them is lost. -/
theorem c97_lost {named : Nat → Bool} {ps : List Plugin} {p q : Plugin} (hp : p ∉ ps) (hne : p ≠ q) :
    (q ∉ ps → ∃ sched, let s := (startOps named ps [.insert p none, .insert q none]).run sched
      s.threads 0 = .done (.ok ()) ∧ s.threads 1 = .done (.ok ()) ∧ p ∉ s.plugins) ∧
    (q ∈ ps → ∃ sched, let s := (startOps named ps [.insert p none, .drop q]).run sched
      s.threads 0 = .done (.ok ()) ∧ s.threads 1 = .done (.ok ()) ∧ q ∈ s.plugins) := by
  constructor
  · intro hq
    refine ⟨[0, 0, 1, 1, 0, 1], ?_⟩
    simp [PlugState.run, PlugState.tick, startOps, MOp.prog, insertProg, MProg.step, hp, hq, hne]
  · intro hq
    refine ⟨[0, 0, 1, 1, 0], ?_⟩
    simp [PlugState.run, PlugState.tick, startOps, MOp.prog, insertProg, MProg.step, hp, hq]

/-! ### Examples -/

/-- Two threads that insert a plugin each while a third drops one of the defaults and a fourth resets. -/
example (named : Nat → Bool) (sched : List Nat) := c97_unique (named := named) (ps := defaultPlugins) (by decide)
  (calls := [.insert (.custom 0) (some .any0x), .insert (.custom 1) none, .drop .numpy, .reset])
  (fun p before h => by
    simp only [List.mem_cons, List.not_mem_nil, or_false, MOp.insert.injEq, reduceCtorEq] at h
    rcases h with ⟨rfl, -⟩ | ⟨rfl, -⟩ <;> exact ⟨by decide, fun _ => by decide⟩)
  (fun t t' p before before' h h' => by
    match t, t' with
    | 0, 0 => rfl
    | 1, 1 => rfl
    | 0, 1 => cases h; cases h'
    | 1, 0 => cases h; cases h'
    | 2, _ => cases h
    | 3, _ => cases h
    | _, 2 => cases h'
    | _, 3 => cases h'
    | t + 4, _ => simp at h
    | _, t' + 4 => simp at h') sched

example (named : Nat → Bool) := c97_twice (named := named) (ps := defaultPlugins) (p := .custom 0) (by decide)

example (named : Nat → Bool) := (c97_lost (named := named) (ps := defaultPlugins) (p := .custom 0) (q := .numpy) (by decide) (by decide)).2 (by decide)

/-- What is known of the list when threads insert a plugin: the defaults are all in their order. -/
example (named : Nat → Bool) (sched : List Nat) : [Plugin.what, .dict, .any].Sublist ((startOps named defaultPlugins [.insert (.custom 0) none]).run sched).plugins →
    [Plugin.what, .dict, .any].Sublist defaultPlugins ∨ (MOp.reset ∈ [MOp.insert (.custom 0) none] ∧ [Plugin.what, .dict, .any].Sublist defaultPlugins) := fun h => c97_any named defaultPlugins [.insert (.custom 0) none] sched _ h (by
      intro q hq before; simp only [List.mem_cons, List.not_mem_nil, or_false] at hq ⊢; rcases hq with rfl | rfl | rfl <;> simp)

end Whatami
