import Verif.RecorderLive
import Verif.Props.Recorder

/-
C86: extractors and postprocessors that keep state and use the recorder.

Specification: `Quiet` (code that reads the recorder but does not write to it), `Logs` (postprocessors that write down their calls), and lists.
-/
namespace Whatami

/-- It neither changes the settings nor calls `add`; it may keep state and read the recorder. -/
inductive Quiet {σ α : Type} : RAct σ α → Prop where
  | done (r : R α) : Quiet (.done r)
  | look {k : LiveRec → σ → RAct σ α} : (∀ r s, Quiet (k r s)) → Quiet (.look k)
  | put {k : RAct σ α} (s : σ) : Quiet k → Quiet (.put s k)

/-- It is quiet and leaves the log, the first part of the state, as it is. -/
inductive KeepsLog {τ α : Type} (l : List (Nat × Rid)) : RAct (List (Nat × Rid) × τ) α → Prop where
  | done (r : R α) : KeepsLog l (.done r)
  | look {k : LiveRec → List (Nat × Rid) × τ → RAct (List (Nat × Rid) × τ) α} : (∀ r t, KeepsLog l (k r (l, t))) → KeepsLog l (.look k)
  | put {k : RAct (List (Nat × Rid) × τ) α} (t : τ) : KeepsLog l k → KeepsLog l (.put (l, t) k)

/-- Every postprocessor first adds its name and the id it is called for to a log, and then does what it likes, quietly. -/
structure Logs {τ : Type} (U : UserCode (List (Nat × Rid) × τ)) : Prop where
  extract : ∀ v l, KeepsLog l (U.extract v)
  post : ∀ p i rec, ∃ body : LiveRec → List (Nat × Rid) × τ → RAct (List (Nat × Rid) × τ) Record, U.post p i rec = .look (fun r s => .put (s.1 ++ [(p, i)], s.2) (body r s)) ∧ ∀ r s, KeepsLog (s.1 ++ [(p, i)]) (body r s)

variable {σ : Type} {fi : Str → Option Int} {U : UserCode σ} {add : AddReq → Live σ → Live σ × R (List (Rid × Record))}

/-! ### What user code keeps -/

theorem change_registry (r : LiveRec) (op : Setting) : (r.change op).registry = r.registry := by cases op <;> rfl

theorem eval_keeps {α : Type} {P : List (Rid × Record) → Prop} (hadd : ∀ a w, P w.recorder.registry → P (add a w).1.recorder.registry)
    (t : RAct σ α) : ∀ w : Live σ, P w.recorder.registry → P (t.eval add w).1.recorder.registry := by
  induction t with
  | done r => intro w h; exact h
  | look k ih => intro w h; exact ih _ _ w h
  | put s k ih => intro w h; exact ih _ h
  | add a k ih => intro w h; exact ih _ _ (hadd a w h)
  | set op k ih => intro w h; refine ih _ ?_; show P (w.recorder.change op).registry; rwa [change_registry]

theorem extract_keeps {P : List (Rid × Record) → Prop} (hadd : ∀ a w, P w.recorder.registry → P (add a w).1.recorder.registry)
    (vs : List Val) : ∀ w : Live σ, P w.recorder.registry → P (extractLive U add vs w).1.recorder.registry := by
  induction vs with
  | nil => intro w h; exact h
  | cons v vs ih =>
    intro w h
    have h1 := eval_keeps hadd (U.extract v) w h
    simp only [extractLive]
    cases he : (U.extract v).eval add w with
    | mk w' r =>
      rw [he] at h1
      cases r with
      | error e => exact h1
      | ok i =>
        have h2 := ih w' h1
        dsimp only
        cases hx : extractLive U add vs w' with
        | mk w'' r =>
          rw [hx] at h2
          cases r <;> exact h2

theorem posts_keeps {P : List (Rid × Record) → Prop} (hadd : ∀ a w, P w.recorder.registry → P (add a w).1.recorder.registry)
    (i : Rid) (ps : List Nat) : ∀ (rec : Record) (w : Live σ), P w.recorder.registry → P (runPostsLive U add i ps rec w).1.recorder.registry := by
  induction ps with
  | nil => intro rec w h; exact h
  | cons p ps ih =>
    intro rec w h
    have h1 := eval_keeps hadd (U.post p i rec) w h
    simp only [runPostsLive]
    cases he : (U.post p i rec).eval add w with
    | mk w' r =>
      rw [he] at h1
      cases r with
      | error e => exact h1
      | ok rec' => exact ih rec' w' h1

/-- The records that are there when a call begins. -/
def KeepsAll (g : List (Rid × Record)) (d : List (Rid × Record)) : Prop := g <+: d ∧ ((dkeys g).Nodup → (dkeys d).Nodup)

theorem loop_keeps {g : List (Rid × Record)} (hadd : ∀ a w, KeepsAll g w.recorder.registry → KeepsAll g (add a w).1.recorder.registry)
    (a : AddReq) (cd : List (Str × ColVals)) (ids : List Rid) : ∀ (acc : List (Rid × Record)) (w : Live σ), KeepsAll g w.recorder.registry →
      (∀ k ∈ dkeys acc, k ∉ dkeys g) → (dkeys acc).Nodup →
      KeepsAll g (addLoopLive fi U add a cd ids acc w).1.recorder.registry ∧
      ∀ recs, (addLoopLive fi U add a cd ids acc w).2 = .ok recs → dkeys recs = dkeys acc ++ ids ∧ (dkeys recs).Nodup ∧ ∀ k ∈ dkeys recs, k ∉ dkeys g := by
  induction ids with
  | nil =>
    intro acc w h ha hn
    refine ⟨h, ?_⟩
    rintro recs ⟨⟩
    exact ⟨by simp, hn, ha⟩
  | cons i ids ih =>
    intro acc w h ha hn
    simp only [addLoopLive]
    split
    · exact ⟨h, by rintro _ ⟨⟩⟩
    rename_i h1
    split
    · exact ⟨h, by rintro _ ⟨⟩⟩
    rename_i h2
    split
    · exact ⟨h, by rintro _ ⟨⟩⟩
    rw [dhas_iff] at h1 h2
    have hp := posts_keeps (U := U) hadd i (postsLive w.recorder.posts a)
      (addDefaults (dset (rawRecord fi i cd) w.recorder.idCol i.toVal) w.recorder.defaults) w h
    cases he : runPostsLive U add i (postsLive w.recorder.posts a)
      (addDefaults (dset (rawRecord fi i cd) w.recorder.idCol i.toVal) w.recorder.defaults) w with
    | mk w' r =>
      rw [he] at hp
      cases r with
      | error e => exact ⟨hp, by rintro _ ⟨⟩⟩
      | ok rec =>
        have hg : i ∉ dkeys g := by
          intro hm
          obtain ⟨t, ht⟩ := h.1
          exact h1 (by rw [← ht]; simp only [dkeys, List.map_append, List.mem_append]; exact .inl hm)
        have := ih (dset acc i rec) w' hp (fun k hk => by
          rcases mem_dkeys_dset.1 hk with rfl | hk
          · exact hg
          · exact ha k hk) (nodup_dset hn i rec)
        refine ⟨this.1, fun recs hr => ?_⟩
        obtain ⟨t1, t2⟩ := this.2 recs hr
        refine ⟨?_, t2⟩
        rw [t1, dset_fresh h2]
        simp [dkeys]

theorem dset_after {g t : List (Rid × Record)} {i : Rid} (h : i ∉ dkeys g) (r : Record) : dset (g ++ t) i r = g ++ dset t i r := by
  induction g with
  | nil => rfl
  | cons e g ih =>
    obtain ⟨k, v⟩ := e
    simp only [dkeys, List.map_cons, List.mem_cons, not_or] at h
    simp only [List.cons_append, dset]
    rw [if_neg (Ne.symm h.1), ih h.2]

theorem dupdate_after {g : List (Rid × Record)} (e : List (Rid × Record)) : ∀ t, (∀ k ∈ dkeys e, k ∉ dkeys g) → dupdate (g ++ t) e = g ++ dupdate t e := by
  induction e with
  | nil => intro t _; rfl
  | cons x e ih =>
    obtain ⟨k, v⟩ := x
    intro t h
    show dupdate (dset (g ++ t) k v) e = g ++ dupdate (dset t k v) e
    rw [dset_after (h k (by simp [dkeys])), ih _ fun j hj => h j (by simp only [dkeys, List.map_cons, List.mem_cons]; exact .inr hj)]

theorem addLive_keeps (fi : Str → Option Int) (U : UserCode σ) (g : List (Rid × Record)) (n : Nat) : ∀ (a : AddReq) (w : Live σ),
    KeepsAll g w.recorder.registry → KeepsAll g (addLive fi U n a w).1.recorder.registry ∧
      ∀ recs, (addLive fi U n a w).2 = .ok recs → (dkeys recs).Nodup ∧ (∀ k ∈ dkeys recs, k ∉ dkeys g) ∧
        ∀ k rec, (k, rec) ∈ recs → dget (addLive fi U n a w).1.recorder.registry k = some rec := by
  induction n with
  | zero => intro a w h; exact ⟨h, by rintro _ ⟨⟩⟩
  | succ n ih =>
    intro a w h
    have hadd : ∀ a w, KeepsAll g w.recorder.registry → KeepsAll g (addLive fi U n a w).1.recorder.registry := fun a w h => (ih a w h).1
    simp only [addLive]
    cases hv : idsOf a.ids with
    | error e => exact ⟨h, by rintro _ ⟨⟩⟩
    | ok vs =>
      have h1 := extract_keeps (U := U) hadd vs w h
      dsimp only
      cases hx : extractLive U (addLive fi U n) vs w with
      | mk w1 r =>
        rw [hx] at h1
        cases r with
        | error e => exact ⟨h1, by rintro _ ⟨⟩⟩
        | ok ids =>
          dsimp only
          cases hc : configDict ids a.unbox a.columns with
          | error e => exact ⟨h1, by rintro _ ⟨⟩⟩
          | ok cd =>
            have h2 := loop_keeps (fi := fi) (U := U) hadd a cd ids [] w1 h1 (by simp [dkeys]) (by simp [dkeys])
            dsimp only
            cases hl : addLoopLive fi U (addLive fi U n) a cd ids [] w1 with
            | mk w2 r =>
              rw [hl] at h2
              cases r with
              | error e => exact ⟨h2.1, by rintro _ ⟨⟩⟩
              | ok records =>
                obtain ⟨-, hn, hg⟩ := h2.2 records rfl
                refine ⟨⟨?_, fun hgn => nodup_dupdate (h2.1.2 hgn) _⟩, ?_⟩
                · obtain ⟨t, ht⟩ := h2.1.1
                  show g <+: dupdate w2.recorder.registry records
                  rw [← ht, dupdate_after _ _ hg]
                  exact List.prefix_append _ _
                · rintro recs ⟨⟩
                  refine ⟨hn, hg, fun k rec hm => ?_⟩
                  show dget (dupdate w2.recorder.registry records) k = _
                  rw [dget_dupdate, dget_reverse hn, dget_eq_some_of_mem hn hm]

/-- C86: whatever extractors and postprocessors do to the recorder and to anything else, over any history the records that are there are
never changed, removed or reordered, and ids stay unique. -/
theorem c86_kept (fi : Str → Option Int) (U : UserCode σ) (n : Nat) (w : Live σ) (ops : List (LiveOp σ)) :
    w.recorder.registry <+: (liveRun fi U n w ops).recorder.registry ∧
      ((w.recorder.registry.map Prod.fst).Nodup → ((liveRun fi U n w ops).recorder.registry.map Prod.fst).Nodup) := by
  induction ops generalizing w with
  | nil => exact ⟨List.prefix_rfl, id⟩
  | cons op ops ih =>
    obtain ⟨h1, h2⟩ := ih (liveStep fi U n w op)
    have : KeepsAll w.recorder.registry (liveStep fi U n w op).recorder.registry := by
      cases op with
      | add a => exact (addLive_keeps fi U _ n a w ⟨List.prefix_rfl, id⟩).1
      | set op =>
        show KeepsAll _ (w.recorder.change op).registry
        rw [change_registry]
        exact ⟨List.prefix_rfl, id⟩
      | user f => exact ⟨List.prefix_rfl, id⟩
    exact ⟨this.1.trans h1, fun h => h2 (this.2 h)⟩

/-- C86: the records a call returns have different ids, none of them was in the recorder when the call began, and all of them are when it ends. -/
theorem c86_returned {n : Nat} {a : AddReq} {w w' : Live σ} {records : List (Rid × Record)} (h : addLive fi U n a w = (w', .ok records)) :
    (records.map Prod.fst).Nodup ∧ (∀ i rec rec', (i, rec) ∈ records → (i, rec') ∉ w.recorder.registry) ∧
      ∀ i rec, (i, rec) ∈ records → (i, rec) ∈ w'.recorder.registry := by
  have := (addLive_keeps fi U w.recorder.registry n a w ⟨List.prefix_rfl, id⟩).2 records (by rw [h])
  rw [h] at this
  obtain ⟨h1, h2, h3⟩ := this
  refine ⟨h1, fun i rec rec' hm hm' => h2 i (List.mem_map_of_mem (f := Prod.fst) hm) (List.mem_map_of_mem (f := Prod.fst) hm'), fun i rec hm => ?_⟩
  exact mem_of_dget (h3 i rec hm)


/-! ### Code that does not write to the recorder -/

theorem quiet_recorder {α : Type} {t : RAct σ α} (h : Quiet t) (w : Live σ) : (t.eval add w).1.recorder = w.recorder := by
  induction h generalizing w with
  | done r => rfl
  | look _ ih => exact ih _ _ w
  | put s _ ih => exact ih ⟨w.recorder, s⟩

theorem quiet_extract (hU : ∀ v, Quiet (U.extract v)) (vs : List Val) : ∀ w : Live σ, (extractLive U add vs w).1.recorder = w.recorder := by
  induction vs with
  | nil => intro w; rfl
  | cons v vs ih =>
    intro w
    have h1 := quiet_recorder (add := add) (hU v) w
    simp only [extractLive]
    cases he : (U.extract v).eval add w with
    | mk w' r =>
      rw [he] at h1
      cases r with
      | error e => exact h1
      | ok i =>
        have h2 := ih w'
        dsimp only
        cases hx : extractLive U add vs w' with
        | mk w'' r =>
          rw [hx] at h2
          cases r <;> exact h2.trans h1

theorem quiet_posts (hU : ∀ p i rec, Quiet (U.post p i rec)) (i : Rid) (ps : List Nat) :
    ∀ (rec : Record) (w : Live σ), (runPostsLive U add i ps rec w).1.recorder = w.recorder := by
  induction ps with
  | nil => intro rec w; rfl
  | cons p ps ih =>
    intro rec w
    have h1 := quiet_recorder (add := add) (hU p i rec) w
    simp only [runPostsLive]
    cases he : (U.post p i rec).eval add w with
    | mk w' r =>
      rw [he] at h1
      cases r with
      | error e => exact h1
      | ok rec' => exact (ih rec' w').trans h1

theorem quiet_loop (hU : ∀ p i rec, Quiet (U.post p i rec)) (a : AddReq) (cd : List (Str × ColVals)) (ids : List Rid) :
    ∀ (acc : List (Rid × Record)) (w : Live σ), (addLoopLive fi U add a cd ids acc w).1.recorder = w.recorder := by
  induction ids with
  | nil => intro acc w; rfl
  | cons i ids ih =>
    intro acc w
    simp only [addLoopLive]
    split
    · rfl
    split
    · rfl
    split
    · rfl
    have h1 := quiet_posts (add := add) hU i (postsLive w.recorder.posts a)
      (addDefaults (dset (rawRecord fi i cd) w.recorder.idCol i.toVal) w.recorder.defaults) w
    cases he : runPostsLive U add i (postsLive w.recorder.posts a)
      (addDefaults (dset (rawRecord fi i cd) w.recorder.idCol i.toVal) w.recorder.defaults) w with
    | mk w' r =>
      rw [he] at h1
      cases r with
      | error e => exact h1
      | ok rec => exact (ih _ w').trans h1

/-- C86: code that keeps state and reads the recorder, but does not write to it: a call that fails leaves the recorder as it was, and a
call that does not appends what it returns and changes nothing else. -/
theorem c86_quiet (hx : ∀ v, Quiet (U.extract v)) (hp : ∀ p i rec, Quiet (U.post p i rec)) {n : Nat} {a : AddReq} {w w' : Live σ}
    {r : R (List (Rid × Record))} (h : addLive fi U n a w = (w', r)) :
    (∀ e, r = .error e → w'.recorder = w.recorder) ∧
      ∀ records, r = .ok records → w'.recorder = { w.recorder with registry := w.recorder.registry ++ records } := by
  cases n with
  | zero => cases h; exact ⟨fun _ _ => rfl, by rintro _ ⟨⟩⟩
  | succ n =>
    simp only [addLive] at h
    cases hv : idsOf a.ids with
    | error e => rw [hv] at h; cases h; exact ⟨fun _ _ => rfl, by rintro _ ⟨⟩⟩
    | ok vs =>
      rw [hv] at h
      have h1 := quiet_extract (add := addLive fi U n) hx vs w
      have k1 := extract_keeps (U := U) (P := KeepsAll w.recorder.registry) (add := addLive fi U n)
        (fun a v hv => (addLive_keeps fi U _ n a v hv).1) vs w ⟨List.prefix_rfl, id⟩
      dsimp only at h
      cases he : extractLive U (addLive fi U n) vs w with
      | mk w1 r1 =>
        rw [he] at h h1 k1
        cases r1 with
        | error e => cases h; exact ⟨fun _ _ => h1, by rintro _ ⟨⟩⟩
        | ok ids =>
          dsimp only at h
          cases hc : configDict ids a.unbox a.columns with
          | error e => rw [hc] at h; cases h; exact ⟨fun _ _ => h1, by rintro _ ⟨⟩⟩
          | ok cd =>
            rw [hc] at h
            dsimp only at h
            have h2 := quiet_loop (fi := fi) (add := addLive fi U n) hp a cd ids [] w1
            have k2 := loop_keeps (fi := fi) (U := U) (add := addLive fi U n) (g := w.recorder.registry)
              (fun a v hv => (addLive_keeps fi U _ n a v hv).1) a cd ids [] w1 k1 (by simp [dkeys]) (by simp [dkeys])
            cases hl : addLoopLive fi U (addLive fi U n) a cd ids [] w1 with
            | mk w2 r2 =>
              rw [hl] at h h2 k2
              have h3 : w2.recorder = w.recorder := h2.trans h1
              cases r2 with
              | error e => cases h; exact ⟨fun _ _ => h3, by rintro _ ⟨⟩⟩
              | ok records =>
                cases h
                refine ⟨(by rintro _ ⟨⟩), ?_⟩
                rintro _ ⟨⟩
                obtain ⟨-, hn, hg⟩ := k2.2 records rfl
                dsimp only
                rw [h3, dupdate_append hg hn]

theorem loop_keys {a : AddReq} {cd : List (Str × ColVals)} {ids : List Rid} : ∀ {acc : List (Rid × Record)} {w w' : Live σ}
    {recs : List (Rid × Record)}, addLoopLive fi U add a cd ids acc w = (w', .ok recs) → dkeys recs = dkeys acc ++ ids := by
  induction ids with
  | nil => rintro acc w w' recs ⟨⟩; simp
  | cons i ids ih =>
    intro acc w w' recs h
    simp only [addLoopLive] at h
    split at h
    · cases h
    split at h
    · cases h
    rename_i h2
    split at h
    · cases h
    rw [dhas_iff] at h2
    split at h
    · cases h
    · rw [ih h, dset_fresh h2]; simp [dkeys]

/-! ### How often postprocessors are called -/

theorem keepsLog_quiet {τ α : Type} {l : List (Nat × Rid)} {t : RAct (List (Nat × Rid) × τ) α} (h : KeepsLog l t)
    {add : AddReq → Live (List (Nat × Rid) × τ) → Live (List (Nat × Rid) × τ) × R (List (Rid × Record))}
    (w : Live (List (Nat × Rid) × τ)) (hw : w.user.1 = l) : (t.eval add w).1.recorder = w.recorder ∧ (t.eval add w).1.user.1 = l := by
  induction h generalizing w with
  | done r => exact ⟨rfl, hw⟩
  | look _ ih =>
    obtain ⟨rec, l', t⟩ := w
    cases hw
    exact ih _ _ _ rfl
  | put t _ ih => exact ih _ rfl

section
variable {τ : Type} {V : UserCode (List (Nat × Rid) × τ)}
  {addV : AddReq → Live (List (Nat × Rid) × τ) → Live (List (Nat × Rid) × τ) × R (List (Rid × Record))}

theorem log_extract (hV : Logs V) (vs : List Val) : ∀ w : Live (List (Nat × Rid) × τ),
    (extractLive V addV vs w).1.recorder = w.recorder ∧ (extractLive V addV vs w).1.user.1 = w.user.1 := by
  induction vs with
  | nil => intro w; exact ⟨rfl, rfl⟩
  | cons v vs ih =>
    intro w
    have h1 := keepsLog_quiet (hV.extract v w.user.1) (add := addV) w rfl
    simp only [extractLive]
    cases he : (V.extract v).eval addV w with
    | mk w' r =>
      rw [he] at h1
      cases r with
      | error e => exact h1
      | ok i =>
        have h2 := ih w'
        dsimp only
        cases hx : extractLive V addV vs w' with
        | mk w'' r =>
          rw [hx] at h2
          cases r <;> exact ⟨h2.1.trans h1.1, h2.2.trans h1.2⟩

theorem log_posts (hV : Logs V) (i : Rid) (ps : List Nat) : ∀ (rec : Record) (w : Live (List (Nat × Rid) × τ)),
    (runPostsLive V addV i ps rec w).1.recorder = w.recorder ∧
      ∃ l, l <+: ps.map (·, i) ∧ (runPostsLive V addV i ps rec w).1.user.1 = w.user.1 ++ l ∧
        ∀ rec', (runPostsLive V addV i ps rec w).2 = .ok rec' → l = ps.map (·, i) := by
  induction ps with
  | nil => intro rec w; exact ⟨rfl, [], List.prefix_rfl, by simp [runPostsLive], fun _ _ => rfl⟩
  | cons p ps ih =>
    intro rec w
    obtain ⟨body, hb, hk⟩ := hV.post p i rec
    have h1 : ((V.post p i rec).eval addV w).1.recorder = w.recorder ∧ ((V.post p i rec).eval addV w).1.user.1 = w.user.1 ++ [(p, i)] := by
      rw [hb]
      exact keepsLog_quiet (hk w.recorder w.user) (add := addV) ⟨w.recorder, (w.user.1 ++ [(p, i)], w.user.2)⟩ rfl
    simp only [runPostsLive]
    cases he : (V.post p i rec).eval addV w with
    | mk w' r =>
      rw [he] at h1
      cases r with
      | error e => exact ⟨h1.1, [(p, i)], by simp, h1.2, by rintro _ ⟨⟩⟩
      | ok rec1 =>
        obtain ⟨h2, l, hl, hu, ho⟩ := ih rec1 w'
        refine ⟨h2.trans h1.1, (p, i) :: l, by simpa using hl, ?_, fun rec' hr => ?_⟩
        · show (runPostsLive V addV i ps rec1 w').1.user.1 = _
          rw [hu, h1.2]; simp
        · rw [ho rec' hr]; rfl

theorem log_loop (hV : Logs V) (a : AddReq) (cd : List (Str × ColVals)) (ids : List Rid) :
    ∀ (acc : List (Rid × Record)) (w : Live (List (Nat × Rid) × τ)),
      ∃ done l, done <+: ids ∧ (∀ i ∈ done, i ∉ dkeys w.recorder.registry ∧ i ∉ dkeys acc) ∧ done.Nodup ∧
        l <+: done.flatMap (fun i => (postsLive w.recorder.posts a).map (·, i)) ∧
        (addLoopLive fi V addV a cd ids acc w).1.user.1 = w.user.1 ++ l ∧
        ∀ recs, (addLoopLive fi V addV a cd ids acc w).2 = .ok recs →
          done = ids ∧ l = ids.flatMap (fun i => (postsLive w.recorder.posts a).map (·, i)) := by
  induction ids with
  | nil => intro acc w; exact ⟨[], [], by simp, by simp, by simp, by simp, by simp [addLoopLive], by simp⟩
  | cons i ids ih =>
    intro acc w
    simp only [addLoopLive]
    split
    · exact ⟨[], [], by simp, by simp, by simp, by simp, by simp, by rintro _ ⟨⟩⟩
    rename_i h1
    split
    · exact ⟨[], [], by simp, by simp, by simp, by simp, by simp, by rintro _ ⟨⟩⟩
    rename_i h2
    split
    · exact ⟨[], [], by simp, by simp, by simp, by simp, by simp, by rintro _ ⟨⟩⟩
    rw [dhas_iff] at h1 h2
    have hp := log_posts (addV := addV) hV i (postsLive w.recorder.posts a)
      (addDefaults (dset (rawRecord fi i cd) w.recorder.idCol i.toVal) w.recorder.defaults) w
    cases he : runPostsLive V addV i (postsLive w.recorder.posts a)
      (addDefaults (dset (rawRecord fi i cd) w.recorder.idCol i.toVal) w.recorder.defaults) w with
    | mk w' r =>
      rw [he] at hp
      obtain ⟨hr, l1, hl1, hu1, ho1⟩ := hp
      cases r with
      | error e => exact ⟨[i], l1, by simp, by simpa using ⟨h1, h2⟩, by simp, by simpa using hl1, hu1, by rintro _ ⟨⟩⟩
      | ok rec =>
        obtain ⟨done, l, hd, hfr, hn, hl, hu, ho⟩ := ih (dset acc i rec) w'
        dsimp only at hr hu1 ho1
        rw [hr] at hl ho hfr
        rw [ho1 rec rfl] at hu1
        refine ⟨i :: done, (postsLive w.recorder.posts a).map (·, i) ++ l, by simpa using hd, ?_, ?_, ?_, ?_, fun recs hrec => ?_⟩
        · intro j hj
          rcases List.mem_cons.1 hj with rfl | hj
          · exact ⟨h1, h2⟩
          · exact ⟨(hfr j hj).1, fun hm => (hfr j hj).2 (mem_dkeys_dset.2 (.inr hm))⟩
        · exact List.nodup_cons.2 ⟨fun hm => (hfr i hm).2 (mem_dkeys_dset.2 (.inl rfl)), hn⟩
        · rw [List.flatMap_cons]; exact (List.prefix_append_right_inj _).2 hl
        · dsimp only; rw [hu, hu1]; simp
        · obtain ⟨e1, e2⟩ := ho recs hrec
          rw [e1, e2, List.flatMap_cons]; exact ⟨rfl, rfl⟩

/-- C86: a postprocessor is called once for each place it has in the chain and each record that is added, in the order of the records and
then of the chain: the recorder's, then those of the call, or only the latter when overriding.  If the call fails, the calls made are the
first of those for some ids, all different and none of them in the recorder. -/
theorem c86_once (hV : Logs V) {n : Nat} {a : AddReq} {w w' : Live (List (Nat × Rid) × τ)} {r : R (List (Rid × Record))}
    (h : addLive fi V n a w = (w', r)) (fs : List Nat) (hfs : (a.posts = none ∧ fs = w.recorder.posts) ∨
      (∃ ps, a.posts = some ps ∧ a.override = false ∧ fs = w.recorder.posts ++ ps) ∨ (a.posts = some fs ∧ a.override = true)) :
    (∀ records, r = .ok records → w'.user.1 = w.user.1 ++ records.flatMap fun e => fs.map fun p => (p, e.1)) ∧
      ∀ e, r = .error e → ∃ ids : List Rid, ids.Nodup ∧ (∀ i rec, i ∈ ids → (i, rec) ∉ w.recorder.registry) ∧
        ∃ calls, w'.user.1 = w.user.1 ++ calls ∧ calls <+: ids.flatMap fun i => fs.map fun p => (p, i) := by
  have hch : postsLive w.recorder.posts a = fs := by
    rcases hfs with ⟨h1, h2⟩ | ⟨ps, h1, h2, h3⟩ | ⟨h1, h2⟩
    · simp [postsLive, h1, h2]
    · simp [postsLive, h1, h2, h3]
    · simp [postsLive, h1, h2]
  have none : ∀ e : Err, w'.user.1 = w.user.1 → r = .error e →
      (∀ records, r = .ok records → w'.user.1 = w.user.1 ++ records.flatMap fun e => fs.map fun p => (p, e.1)) ∧
      ∀ e, r = .error e → ∃ ids : List Rid, ids.Nodup ∧ (∀ i rec, i ∈ ids → (i, rec) ∉ w.recorder.registry) ∧
        ∃ calls, w'.user.1 = w.user.1 ++ calls ∧ calls <+: ids.flatMap fun i => fs.map fun p => (p, i) := by
    rintro e hu rfl
    exact ⟨by rintro _ ⟨⟩, fun _ _ => ⟨[], by simp, by simp, [], by simp [hu], by simp⟩⟩
  cases n with
  | zero => cases h; exact none _ rfl rfl
  | succ n =>
    simp only [addLive] at h
    cases hv : idsOf a.ids with
    | error e => rw [hv] at h; cases h; exact none _ rfl rfl
    | ok vs =>
      rw [hv] at h
      have h1 := log_extract (addV := addLive fi V n) hV vs w
      dsimp only at h
      cases he : extractLive V (addLive fi V n) vs w with
      | mk w1 r1 =>
        rw [he] at h h1
        obtain ⟨e1, e2⟩ := h1
        dsimp only at e1 e2
        cases r1 with
        | error e => cases h; exact none _ e2 rfl
        | ok ids =>
          dsimp only at h
          cases hc : configDict ids a.unbox a.columns with
          | error e => rw [hc] at h; cases h; exact none _ e2 rfl
          | ok cd =>
            rw [hc] at h
            dsimp only at h
            obtain ⟨done, l, hd, hfr, hn, hl, hu, ho⟩ := log_loop (fi := fi) (addV := addLive fi V n) hV a cd ids [] w1
            rw [e1, hch] at hl ho
            rw [e1] at hfr
            rw [e2] at hu
            cases hl2 : addLoopLive fi V (addLive fi V n) a cd ids [] w1 with
            | mk w2 r2 =>
              rw [hl2] at h hu ho
              cases r2 with
              | error e =>
                cases h
                exact ⟨by rintro _ ⟨⟩, fun _ _ => ⟨done, hn, fun i rec hi hm => (hfr i hi).1 (List.mem_map_of_mem (f := Prod.fst) hm), l, hu, hl⟩⟩
              | ok records =>
                cases h
                refine ⟨?_, (by rintro _ ⟨⟩)⟩
                rintro _ ⟨⟩
                dsimp only
                rw [hu, (ho records rfl).2]
                have hk : dkeys records = ids := by simpa [dkeys] using loop_keys hl2
                rw [← hk, dkeys, List.flatMap_map]
end

/-! ### Pure code: the recorder of the other claims -/

/-- Code without state that only reads the recorder. -/
def pureCode (σ : Type) (ext : Val → R Rid) (P : Nat → Post) : UserCode σ where
  extract v := .done (ext v)
  post p i rec := .look fun r _ => .done (P p i rec r.toRecView)

theorem pure_extract (ext : Val → R Rid) (P : Nat → Post) (vs : List Val) : ∀ (k : Nat) (w : Live σ),
    extractLive (pureCode σ ext P) add vs w = (w, extractIds (fun _ => ext) k vs) := by
  induction vs with
  | nil => intro k w; rfl
  | cons v vs ih =>
    intro k w
    simp only [extractLive, extractIds, pureCode, RAct.eval]
    cases ext v with
    | error e => rfl
    | ok i =>
      dsimp only
      have := ih (k + 1) w
      rw [show (⟨fun v => .done (ext v), fun p i rec => .look fun r _ => .done (P p i rec r.toRecView)⟩ : UserCode σ) = pureCode σ ext P from rfl, this]
      cases extractIds (fun _ => ext) (k + 1) vs <;> rfl

theorem pure_posts (ext : Val → R Rid) (P : Nat → Post) (i : Rid) (ps : List Nat) : ∀ (rec : Record) (w : Live σ),
    runPostsLive (pureCode σ ext P) add i ps rec w = (w, runPosts i w.recorder.toRecView (ps.map P) rec) := by
  induction ps with
  | nil => intro rec w; rfl
  | cons p ps ih =>
    intro rec w
    simp only [runPostsLive, List.map_cons, runPosts, pureCode, RAct.eval]
    cases P p i rec w.recorder.toRecView with
    | error e => rfl
    | ok rec' => exact ih rec' w

theorem pure_loop (ext : Val → R Rid) (P : Nat → Post) (a : AddReq) (cd : List (Str × ColVals)) (ids : List Rid) :
    ∀ (acc : List (Rid × Record)) (w : Live σ), addLoopLive fi (pureCode σ ext P) add a cd ids acc w =
      (w, addLoop fi w.recorder.toRecView cd ((postsLive w.recorder.posts a).map P) ids acc) := by
  induction ids with
  | nil => intro acc w; rfl
  | cons i ids ih =>
    intro acc w
    simp only [addLoopLive, addLoop]
    split
    · rfl
    split
    · rfl
    split
    · rfl
    rw [pure_posts]
    cases runPosts i w.recorder.toRecView ((postsLive w.recorder.posts a).map P)
      (addDefaults (dset (rawRecord fi i cd) w.recorder.idCol i.toVal) w.recorder.defaults) with
    | error e => rfl
    | ok rec => exact ih _ w

/-- C86: with code that keeps no state and only reads the recorder, this is the recorder the other claims (C32-C36, C45) are about. -/
theorem c86_conservative (fi : Str → Option Int) (ext : Val → R Rid) (P : Nat → Post) (n : Nat) (a : AddReq) (r : LiveRec) (s : σ)
    {r' : Recorder} {res : R (List (Rid × Record))}
    (h : Recorder.add fi ⟨r.toRecView, r.posts.map P⟩ ⟨fun _ => ext, a.ids, a.unbox, a.posts.map (List.map P), a.override, a.columns⟩ = (r', res)) :
    addLive fi (pureCode σ ext P) (n + 1) a ⟨r, s⟩ = (⟨⟨r'.toRecView, r.posts⟩, s⟩, res) := by
  have hids : callIds (fun _ => ext) a.ids = (idsOf a.ids).bind (extractIds (fun _ => ext) 0) := by
    cases a.ids <;> rfl
  have hch : choosePosts (r.posts.map P) (a.posts.map (List.map P)) a.override = (postsLive r.posts a).map P := by
    unfold choosePosts postsLive
    cases a.posts with
    | none => rfl
    | some ps =>
      simp only [Option.map_some]
      split <;> simp
  simp only [Recorder.add, hids] at h
  simp only [addLive]
  cases hv : idsOf a.ids with
  | error e => rw [hv] at h; cases h; rfl
  | ok vs =>
    rw [hv] at h
    simp only [Except.bind] at h
    dsimp only
    rw [pure_extract ext P vs 0]
    cases he : extractIds (fun _ => ext) 0 vs with
    | error e => rw [he] at h; cases h; rfl
    | ok ids =>
      rw [he] at h
      dsimp only at h ⊢
      cases hc : configDict ids a.unbox a.columns with
      | error e => rw [hc] at h; cases h; rfl
      | ok cd =>
        rw [hc, hch] at h
        dsimp only at h ⊢
        rw [pure_loop]
        dsimp only
        cases hl : addLoop fi r.toRecView cd ((postsLive r.posts a).map P) ids [] with
        | error e => rw [hl] at h; cases h; rfl
        | ok records => rw [hl] at h; cases h; rfl

/-! ### Postprocessors that call `add` -/

/-- A call, as the plain recorder has it: what else happens to the state of the user's code is no call of the recorder's. -/
def plainOp (ext : Val → R Rid) (P : Nat → Post) : LiveOp σ → Option RecOp
  | .add a => some (.add ⟨fun _ => ext, a.ids, a.unbox, a.posts.map (List.map P), a.override, a.columns⟩)
  | .set (.addDefaults cs) => some (.addDefaults cs)
  | .set (.removeDefaults cs) => some (.removeDefaults cs)
  | .set (.addPosts ps) => some (.addPosts (ps.map P))
  | .set (.overridePosts ps) => some (.overridePosts (ps.map P))
  | .user _ => none

/-- C86: and so over any history of calls, of `add` and of those that change the settings. -/
theorem c86_history (fi : Str → Option Int) (ext : Val → R Rid) (P : Nat → Post) (n : Nat) (ops : List (LiveOp σ)) (w w' : Live σ)
    (h : liveRun fi (pureCode σ ext P) (n + 1) w ops = w') :
    recRun fi ⟨w.recorder.toRecView, w.recorder.posts.map P⟩ (ops.filterMap (plainOp ext P)) =
      ⟨w'.recorder.toRecView, w'.recorder.posts.map P⟩ := by
  subst h
  induction ops generalizing w with
  | nil => rfl
  | cons op ops ih =>
    refine Eq.trans ?_ (ih (liveStep fi (pureCode σ ext P) (n + 1) w op))
    cases op with
    | user f => rfl
    | set op =>
      cases op with
      | addDefaults cs => rfl
      | removeDefaults cs => rfl
      | addPosts ps => simp [plainOp, recRun, recStep, liveStep, LiveRec.change]
      | overridePosts ps => rfl
    | add a =>
      obtain ⟨r, s⟩ := w
      cases hr : Recorder.add fi ⟨r.toRecView, r.posts.map P⟩ ⟨fun _ => ext, a.ids, a.unbox, a.posts.map (List.map P), a.override, a.columns⟩ with
      | mk r' res =>
        have h1 := c86_conservative fi ext P n a r s hr
        have h2 : r'.posts = r.posts.map P := by
          have := hr
          simp only [Recorder.add] at this
          repeat' split at this
          all_goals (cases this; rfl)
        obtain ⟨v', ps'⟩ := r'
        cases h2
        simp only [List.filterMap_cons, plainOp, recRun, List.foldl_cons, recStep, hr, liveStep, h1]

/-- Ids are strings; the postprocessor 0 calls `recorder.add('m', record_postprocessors=[], override_postprocessors=True, x=1)` and returns
the record it was given, the postprocessor 1 makes the same call and raises. -/
def exNested : UserCode Unit where
  extract
    | .str s => .done (.ok (.str s))
    | _ => .done (.error .typeError)
  post p _ rec := .add { ids := .str c!"m", posts := some [], override := true, columns := [(c!"x", .int 1)] } fun _ =>
    .done (if p = 0 then .ok rec else .error .valueError)

/-- C86, what does not hold: a record that is added while another call runs may be lost.  A postprocessor calls `add` for the id it is called
for; the nested call succeeds and returns a record; the outer call succeeds too, and after it the recorder has another record for that id. -/
theorem c86_overwritten (n : Nat) : ∃ (a b : AddReq) (w w1 w2 : Live Unit) (i : Rid) (inner outer : Record),
    (∀ rec, exNested.post 0 i rec = .add b fun _ => .done (.ok rec)) ∧ w.recorder.posts = [0] ∧
    addLive (fun _ => none) exNested (n + 1) b w = (w1, .ok [(i, inner)]) ∧ (i, inner) ∈ w1.recorder.registry ∧
    addLive (fun _ => none) exNested (n + 2) a w = (w2, .ok [(i, outer)]) ∧ w2.recorder.registry = [(i, outer)] ∧ inner ≠ outer :=
  ⟨{ ids := .str c!"m" }, { ids := .str c!"m", posts := some [], override := true, columns := [(c!"x", .int 1)] },
    ⟨⟨{}, [0]⟩, ()⟩, _, _, .str c!"m", [(c!"x", .int 1), (c!"id", .str c!"m")], [(c!"id", .str c!"m")],
    fun _ => rfl, rfl, rfl, List.mem_singleton.2 rfl, rfl, rfl, by simp⟩

/-- C86, what does not hold: an `add` that fails undoes nothing that its postprocessors did: a record they added stays. -/
theorem c86_no_rollback (n : Nat) : ∃ (a : AddReq) (w w' : Live Unit) (e : Err) (rec : Record),
    w.recorder.registry = [] ∧ addLive (fun _ => none) exNested (n + 2) a w = (w', .error e) ∧ w'.recorder.registry = [(.str c!"m", rec)] :=
  ⟨{ ids := .str c!"other" }, ⟨⟨{}, [1]⟩, ()⟩, _, .valueError, [(c!"x", .int 1), (c!"id", .str c!"m")], rfl, rfl, rfl⟩

/-! ### Examples -/

/-- Numbers the records: the column `n` is the number of the call. -/
def exNumber : UserCode (List (Nat × Rid) × Int) where
  extract
    | .str s => .done (.ok (.str s))
    | _ => .done (.error .typeError)
  post p i rec := .look fun _ s => .put (s.1 ++ [(p, i)], s.2) (.put (s.1 ++ [(p, i)], s.2 + 1) (.done (.ok (dset rec c!"n" (.int s.2)))))

theorem exNumber_logs : Logs exNumber where
  extract v l := by cases v <;> exact .done _
  post p i rec := ⟨_, rfl, fun r s => .put _ (.done _)⟩

theorem exNumber_quiet : (∀ v, Quiet (exNumber.extract v)) ∧ ∀ p i rec, Quiet (exNumber.post p i rec) :=
  ⟨fun v => by cases v <;> exact .done _, fun p i rec => .look fun _ _ => .put _ (.put _ (.done _))⟩

/-- Two records, numbered, and what was called. -/
example : ∃ w, addLive (fun _ => none) exNumber 1 { ids := .list [.str c!"a", .str c!"b"] } ⟨⟨{}, [7]⟩, ([], 0)⟩ = (w, .ok
      [(.str c!"a", [(c!"id", .str c!"a"), (c!"n", .int 0)]), (.str c!"b", [(c!"id", .str c!"b"), (c!"n", .int 1)])]) ∧
    w.user = ([(7, .str c!"a"), (7, .str c!"b")], 2) := ⟨_, rfl, rfl⟩

/-- A duplicate: the first record was postprocessed, nothing is added. -/
example : ∃ w, addLive (fun _ => none) exNumber 1 { ids := .list [.str c!"a", .str c!"a"] } ⟨⟨{}, [7]⟩, ([], 0)⟩ = (w, .error .exception) ∧
    w.user = ([(7, .str c!"a")], 1) ∧ w.recorder.registry = [] := ⟨_, rfl, rfl, rfl⟩

end Whatami
