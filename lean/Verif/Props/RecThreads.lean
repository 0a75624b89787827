import Verif.RecThreads
import Verif.Props.Recorder
import Verif.Props.RecorderLive

/-
C96: a recorder that several threads add to, and calls of `add` that are interrupted.
-/
namespace Whatami

variable {fi : Str → Option Int} {S : RecSettings}

/-! ### Specification -/

/-- What a postprocessor gives when the registry does not change meanwhile. -/
def PostProg.now (reg : List (Rid × Record)) : PostProg → R Record
  | .done r => r
  | .look k => (k reg).now reg

/-- The postprocessor of C32-C36. -/
def PostCode.asPost (p : PostCode) : Post := fun i rec view => (p i rec).now view.registry

/-- The recorder of C32-C36. -/
def RecSettings.recorder (S : RecSettings) (reg : List (Rid × Record)) : Recorder := ⟨⟨reg, S.idCol, S.defaults⟩, S.posts.map PostCode.asPost⟩

/-- The call of C32-C36. -/
def AddArgs.call (a : AddArgs) : AddCall := ⟨a.extract, a.ids, a.unbox, a.posts.map (List.map PostCode.asPost), a.override, a.columns⟩

/-- The ids of the records that a call adds, if it adds them. -/
def AddArgs.adds (a : AddArgs) : List Rid :=
  match callIds a.extract a.ids with
  | .ok ids => ids
  | .error _ => []

/-- A call that has returned or raised. -/
def AddProg.Ended (p : AddProg) : Prop := ∃ r, p = .done r

/-! ### A call by itself -/

/-- What a call leaves and returns or raises when no other thread runs. -/
def AddProg.alone (reg : List (Rid × Record)) : AddProg → List (Rid × Record) × R (List (Rid × Record))
  | .done r => (reg, r)
  | .look k => (k reg).alone reg
  | .commit records => (dupdate reg records, .ok records)

/-- The end of `add`, from what the loop gives. -/
def committed (reg : List (Rid × Record)) : R (List (Rid × Record)) → List (Rid × Record) × R (List (Rid × Record))
  | .error e => (reg, .error e)
  | .ok records => (dupdate reg records, .ok records)

/-- A thread after some steps, when no other thread runs. -/
def soloAdd (reg : List (Rid × Record)) (p : AddProg) : Nat → List (Rid × Record) × AddProg
  | 0 => (reg, p)
  | k + 1 => (soloAdd reg p k).2.step (soloAdd reg p k).1

theorem alone_andThen (reg : List (Rid × Record)) (p : PostProg) (f : R Record → AddProg) : (p.andThen f).alone reg = (f (p.now reg)).alone reg := by
  induction p with
  | done r => rfl
  | look k ih => exact ih reg

theorem alone_posts (view : RecView) (i : Rid) (f : R Record → AddProg) (ps : List PostCode) (rec : Record) :
    (postsProg i f ps rec).alone view.registry = (f (runPosts i view (ps.map PostCode.asPost) rec)).alone view.registry := by
  induction ps generalizing rec with
  | nil => rfl
  | cons p ps ih =>
    simp only [postsProg, alone_andThen, List.map_cons, runPosts]
    show _ = (f (match (p i rec).now view.registry with | .error e => .error e | .ok rec' => runPosts i view (ps.map PostCode.asPost) rec')).alone _
    cases (p i rec).now view.registry with
    | error e => rfl
    | ok rec' => exact ih rec'

theorem alone_loop (reg : List (Rid × Record)) (cd : List (Str × ColVals)) (ps : List PostCode) (ids : List Rid) (acc : List (Rid × Record)) :
    (loopProg fi S cd ps ids acc).alone reg = committed reg (addLoop fi (S.recorder reg).toRecView cd (ps.map PostCode.asPost) ids acc) := by
  induction ids generalizing acc with
  | nil => rfl
  | cons i ids ih =>
    simp only [loopProg, AddProg.alone, addLoop]
    show _ = committed reg (if dhas reg i then _ else if dhas acc i then _ else if dhas (rawRecord fi i cd) S.idCol then _ else _)
    split
    · rfl
    · split
      · rfl
      · split
        · rfl
        · have := alone_posts (S.recorder reg).toRecView i (fun r => match r with
            | .error e => .done (.error e)
            | .ok record => loopProg fi S cd ps ids (dset acc i record)) ps (addDefaults (dset (rawRecord fi i cd) S.idCol i.toVal) S.defaults)
          refine this.trans ?_
          show _ = committed reg (match runPosts i (S.recorder reg).toRecView (ps.map PostCode.asPost)
              (addDefaults (dset (rawRecord fi i cd) S.idCol i.toVal) S.defaults) with
            | .error e => (.error e : R (List (Rid × Record)))
            | .ok record => addLoop fi (S.recorder reg).toRecView cd (ps.map PostCode.asPost) ids (dset acc i record))
          cases runPosts i (S.recorder reg).toRecView (ps.map PostCode.asPost) (addDefaults (dset (rawRecord fi i cd) S.idCol i.toVal) S.defaults) with
          | error e => rfl
          | ok rec => exact ih _

theorem codePosts_map (S : RecSettings) (a : AddArgs) (reg : List (Rid × Record)) :
    (codePosts S.posts a.posts a.override).map PostCode.asPost = choosePosts (S.recorder reg).posts a.call.posts a.call.override := by
  obtain ⟨extract, ids, unbox, posts, override, columns⟩ := a
  cases posts with
  | none => rfl
  | some ps => cases override <;> simp [codePosts, choosePosts, AddArgs.call, RecSettings.recorder]

theorem alone_add (reg : List (Rid × Record)) (a : AddArgs) :
    (addProg fi S a).alone reg = (((S.recorder reg).add fi a.call).1.registry, ((S.recorder reg).add fi a.call).2) := by
  simp only [addProg, Recorder.add]
  rw [show callIds a.call.extract a.call.ids = callIds a.extract a.ids from rfl]
  cases callIds a.extract a.ids with
  | error e => rfl
  | ok ids =>
    simp only
    rw [show configDict ids a.call.unbox a.call.columns = configDict ids a.unbox a.columns from rfl]
    cases configDict ids a.unbox a.columns with
    | error e => rfl
    | ok cd =>
      simp only [alone_loop, codePosts_map S a reg]
      cases addLoop fi (S.recorder reg).toRecView cd (choosePosts (S.recorder reg).posts a.call.posts a.call.override) ids [] <;> rfl

theorem soloAdd_shift (reg : List (Rid × Record)) (p : AddProg) (k : Nat) : soloAdd reg p (k + 1) = soloAdd (p.step reg).1 (p.step reg).2 k := by
  induction k with
  | zero => rfl
  | succ k ih => rw [soloAdd, ih]; rfl

theorem soloAdd_ends (reg : List (Rid × Record)) (p : AddProg) : ∃ k, soloAdd reg p k = ((p.alone reg).1, .done (p.alone reg).2) := by
  induction p with
  | done r => exact ⟨0, rfl⟩
  | look k ih =>
    obtain ⟨m, h⟩ := ih reg
    exact ⟨m + 1, by rw [soloAdd_shift]; exact h⟩
  | commit recs => exact ⟨1, rfl⟩

/-! ### What calls may do -/

/-- A call that adds these ids, if anything, and finds none of `g` free. -/
def Adding (g ids : List Rid) : AddProg → Prop
  | .done (.ok _) => False
  | .done (.error _) => True
  | .look k => ∀ reg : List (Rid × Record), (∀ i ∈ g, i ∈ dkeys reg) → Adding g ids (k reg)
  | .commit recs => dkeys recs = ids ∧ ids.Nodup ∧ ∀ i ∈ ids, i ∉ g

theorem adding_andThen {g ids : List Rid} {f : R Record → AddProg} (hf : ∀ r, Adding g ids (f r)) (p : PostProg) : Adding g ids (p.andThen f) := by
  induction p with
  | done r => exact hf r
  | look k ih => exact fun reg _ => ih reg

theorem adding_posts {g ids : List Rid} {i : Rid} {f : R Record → AddProg} (hf : ∀ r, Adding g ids (f r)) (ps : List PostCode) (rec : Record) :
    Adding g ids (postsProg i f ps rec) := by
  induction ps generalizing rec with
  | nil => exact hf _
  | cons p ps ih =>
    refine adding_andThen (fun r => ?_) _
    cases r with
    | error e => exact hf _
    | ok rec' => exact ih rec'

theorem dhas_false {κ ν : Type} [DecidableEq κ] {d : List (κ × ν)} {k : κ} (h : ¬ dhas d k = true) : k ∉ dkeys d := by
  intro hm
  exact h (by rw [dhas_iff]; exact hm)

theorem adding_loop {g : List Rid} {cd : List (Str × ColVals)} {ps : List PostCode} (ids : List Rid) (acc : List (Rid × Record))
    (h1 : (dkeys acc).Nodup) (h2 : ∀ i ∈ dkeys acc, i ∉ g) : Adding g (dkeys acc ++ ids) (loopProg fi S cd ps ids acc) := by
  induction ids generalizing acc with
  | nil => exact ⟨by simp, by simpa using h1, by simpa using h2⟩
  | cons i ids ih =>
    intro reg hreg
    simp only
    split
    · trivial
    · next hr =>
      split
      · trivial
      · next ha =>
        split
        · trivial
        · refine adding_posts (fun r => ?_) _ _
          cases r with
          | error e => trivial
          | ok rec =>
            have hi := dhas_false ha
            have := ih (dset acc i rec) (nodup_dset h1 _ _) (by
              intro j hj
              rw [dset_fresh hi] at hj
              simp only [dkeys, List.map_append, List.mem_append, List.map_cons, List.map_nil, List.mem_singleton] at hj
              rcases hj with hj | rfl
              · exact h2 j hj
              · exact fun hg => dhas_false hr (hreg _ hg))
            rw [show dkeys (dset acc i rec) ++ ids = dkeys acc ++ i :: ids by rw [dset_fresh hi]; simp [dkeys]] at this
            exact this

theorem adding_call (g : List Rid) (a : AddArgs) : Adding g a.adds (addProg fi S a) := by
  simp only [addProg, AddArgs.adds]
  cases callIds a.extract a.ids with
  | error e => trivial
  | ok ids =>
    simp only
    cases configDict ids a.unbox a.columns with
    | error e => trivial
    | ok cd => exact adding_loop ids [] (by simp [dkeys]) (by simp [dkeys])

theorem keys_dupdate (d e : List (Rid × Record)) : dkeys d <+: dkeys (dupdate d e) := by
  induction e generalizing d with
  | nil => exact List.prefix_rfl
  | cons x e ih =>
    refine List.IsPrefix.trans ?_ (ih (dset d x.1 x.2))
    have : ∀ (d : List (Rid × Record)) k v, dkeys d <+: dkeys (dset d k v) := by
      intro d k v
      induction d with
      | nil => exact List.nil_prefix
      | cons y d ih =>
        simp only [dset]
        split
        · exact List.prefix_rfl
        · exact List.prefix_cons_inj _ |>.2 ih
    exact this _ _ _

theorem mem_dupdate_old {d e : List (Rid × Record)} {i : Rid} {rec : Record} (h : (i, rec) ∈ d) (hi : i ∉ dkeys e) : (i, rec) ∈ dupdate d e := by
  induction e generalizing d with
  | nil => exact h
  | cons x e ih =>
    simp only [dkeys, List.map_cons, List.mem_cons, not_or] at hi
    refine ih (d := dset d x.1 x.2) ?_ hi.2
    clear ih
    induction d with
    | nil => cases h
    | cons y d ih =>
      simp only [dset]
      rcases List.mem_cons.1 h with rfl | h
      · rw [if_neg hi.1]; exact List.mem_cons_self
      · split
        · exact List.mem_cons_of_mem _ h
        · exact List.mem_cons_of_mem _ (ih h)

theorem mem_dupdate_new {d e : List (Rid × Record)} {i : Rid} {rec : Record} (h : (i, rec) ∈ e) (hn : (dkeys e).Nodup) : (i, rec) ∈ dupdate d e := by
  refine mem_of_dget ?_
  rw [dget_dupdate, dget_reverse hn, dget_eq_some_of_mem hn h]

/-- What there is after some steps. -/
structure AddInv (reg : List (Rid × Record)) (calls : List AddArgs) (s : AddState) : Prop where
  kept : reg <+: s.registry
  unique : (dkeys reg).Nodup → (dkeys s.registry).Nodup
  each : ∀ (t : Nat) a, calls[t]? = some a → Adding (dkeys reg) a.adds (s.threads t) ∨
    ∃ recs, s.threads t = .done (.ok recs) ∧ dkeys recs = a.adds ∧ a.adds.Nodup ∧ (∀ i ∈ a.adds, i ∉ dkeys reg) ∧
      ∀ i rec, (i, rec) ∈ recs → (i, rec) ∈ s.registry ∨ ∃ (t' : Nat) (a' : AddArgs), t' ≠ t ∧ calls[t']? = some a' ∧ i ∈ a'.adds
  none : ∀ t : Nat, calls[t]? = none → ∃ e, s.threads t = .done (.error e)
  all : ∀ i rec, (i, rec) ∈ s.registry → (i, rec) ∈ reg ∨ ∃ (t : Nat) (a : AddArgs) (recs : List (Rid × Record)),
    calls[t]? = some a ∧ s.threads t = .done (.ok recs) ∧ (i, rec) ∈ recs

theorem addInv_start (reg : List (Rid × Record)) (calls : List AddArgs) : AddInv reg calls (startAdds fi S reg calls) := by
  refine ⟨List.prefix_rfl, fun h => h, fun t a h => .inl ?_, fun t h => ⟨.exception, ?_⟩, fun i rec h => .inl h⟩
  · simp only [startAdds, h]; exact adding_call _ a
  · simp only [startAdds, h]

theorem addInv_tick {reg : List (Rid × Record)} {calls : List AddArgs} {s : AddState} (h : AddInv reg calls s) (t : Nat) : AddInv reg calls (s.tick t) := by
  cases hp : s.threads t with
  | done r =>
    have : s.tick t = s := by
      simp only [AddState.tick, hp, AddProg.step]
      have : (fun t' => if t' = t then AddProg.done r else s.threads t') = s.threads := by
        funext t'
        split
        · next e => rw [e, hp]
        · rfl
      rw [this]
    rw [this]; exact h
  | look k =>
    have ht : (s.tick t).registry = s.registry := by simp only [AddState.tick, hp, AddProg.step]
    have hth : ∀ t', (s.tick t).threads t' = if t' = t then k s.registry else s.threads t' := fun t' => by simp only [AddState.tick, hp, AddProg.step]
    refine ⟨ht ▸ h.kept, ht ▸ h.unique, fun t' a ha => ?_, fun t' ht' => ?_, fun i rec hm => ?_⟩
    · rw [hth, ht]
      split
      · next e =>
        subst e
        rcases h.each t' a ha with h1 | ⟨recs, h1, -⟩
        · rw [hp] at h1
          exact .inl (h1 s.registry fun i hi => (h.kept.map Prod.fst).subset hi)
        · rw [hp] at h1; cases h1
      · exact h.each t' a ha
    · rw [hth]
      split
      · next e =>
        subst e
        obtain ⟨e, he⟩ := h.none t' ht'
        rw [hp] at he; cases he
      · exact h.none t' ht'
    · rw [ht] at hm
      rcases h.all i rec hm with h1 | ⟨t', a, recs, h1, h2, h3⟩
      · exact .inl h1
      · refine .inr ⟨t', a, recs, h1, ?_, h3⟩
        rw [hth, if_neg]
        · exact h2
        · rintro rfl; rw [hp] at h2; cases h2
  | commit recs =>
    have ht : (s.tick t).registry = dupdate s.registry recs := by simp only [AddState.tick, hp, AddProg.step]
    have hth : ∀ t', (s.tick t).threads t' = if t' = t then .done (.ok recs) else s.threads t' := fun t' => by simp only [AddState.tick, hp, AddProg.step]
    obtain ⟨a, ha⟩ : ∃ a, calls[t]? = some a := by
      cases hc : calls[t]? with
      | some a => exact ⟨a, rfl⟩
      | none => obtain ⟨e, he⟩ := h.none t hc; rw [hp] at he; cases he
    have had : Adding (dkeys reg) a.adds (.commit recs) := by
      rcases h.each t a ha with h1 | ⟨recs', h1, -⟩
      · rw [hp] at h1; exact h1
      · rw [hp] at h1; cases h1
    obtain ⟨k1, k2, k3⟩ := had
    have fresh : ∀ k ∈ dkeys recs, k ∉ dkeys reg := by rw [k1]; exact k3
    refine ⟨?_, fun hn => ?_, fun t' a' ha' => ?_, fun t' ht' => ?_, fun i rec hm => ?_⟩
    · rw [ht]
      obtain ⟨rest, hr⟩ := h.kept
      rw [← hr, dupdate_after _ _ fresh]
      exact List.prefix_append _ _
    · rw [ht]; exact nodup_dupdate (h.unique hn) _
    · rw [hth, ht]
      split
      · next e =>
        subst e
        rw [ha] at ha'; cases ha'
        exact .inr ⟨recs, rfl, k1, k2, k3, fun i rec hm => .inl (mem_dupdate_new hm (k1 ▸ k2))⟩
      · next e =>
        rcases h.each t' a' ha' with h1 | ⟨recs', h1, h2, h3, h4, h5⟩
        · exact .inl h1
        · refine .inr ⟨recs', h1, h2, h3, h4, fun i rec hm => ?_⟩
          rcases h5 i rec hm with h6 | h6
          · by_cases hi : i ∈ dkeys recs
            · exact .inr ⟨t, a, Ne.symm e, ha, k1 ▸ hi⟩
            · exact .inl (mem_dupdate_old h6 hi)
          · exact .inr h6
    · rw [hth]
      split
      · next e =>
        subst e
        obtain ⟨e, he⟩ := h.none t' ht'
        rw [hp] at he; cases he
      · exact h.none t' ht'
    · rw [ht] at hm
      rcases mem_dupdate hm with hm | hm
      · rcases h.all i rec hm with h1 | ⟨t', a', recs', h1, h2, h3⟩
        · exact .inl h1
        · refine .inr ⟨t', a', recs', h1, ?_, h3⟩
          rw [hth, if_neg]
          · exact h2
          · rintro rfl; rw [hp] at h2; cases h2
      · exact .inr ⟨t, a, recs, ha, by rw [hth, if_pos rfl], hm⟩

theorem addInv_run {reg : List (Rid × Record)} {calls : List AddArgs} (sched : List Nat) (s : AddState) (h : AddInv reg calls s) :
    AddInv reg calls (s.run sched) := by
  induction sched generalizing s with
  | nil => exact h
  | cons t sched ih => exact ih _ (addInv_tick h t)

/-! ### Any threads -/

/-- C96. A call that runs without another between its steps does what C32-C36 say. -/
theorem c96_alone (fi : Str → Option Int) (S : RecSettings) (reg : List (Rid × Record)) (a : AddArgs) :
    ∃ k, soloAdd reg (addProg fi S a) k = (((S.recorder reg).add fi a.call).1.registry, .done ((S.recorder reg).add fi a.call).2) := by
  obtain ⟨k, h⟩ := soloAdd_ends reg (addProg fi S a)
  exact ⟨k, by rw [h, alone_add]⟩

/-- C96. Whatever threads add and however their steps mix, also when some are interrupted: the records that there were at first are kept, unchanged and in
front; ids are unique; all other records are among those that calls that have ended returned (so an interrupted call adds nothing); the records that a call
returned are those of its ids, all different, none there at first, and each of them is in the recorder unless another call adds its id too. -/
theorem c96_any (fi : Str → Option Int) (S : RecSettings) (reg : List (Rid × Record)) (calls : List AddArgs) (sched : List Nat) :
    let s := (startAdds fi S reg calls).run sched
    reg <+: s.registry ∧ ((reg.map Prod.fst).Nodup → (s.registry.map Prod.fst).Nodup) ∧
    (∀ i rec, (i, rec) ∈ s.registry → (i, rec) ∈ reg ∨ ∃ (t : Nat) (recs : List (Rid × Record)), t < calls.length ∧ s.threads t = .done (.ok recs) ∧ (i, rec) ∈ recs) ∧
    ∀ (t : Nat) a recs, calls[t]? = some a → s.threads t = .done (.ok recs) →
      callIds a.extract a.ids = .ok (recs.map Prod.fst) ∧ (recs.map Prod.fst).Nodup ∧ (∀ i rec rec', (i, rec) ∈ recs → (i, rec') ∉ reg) ∧
      ∀ i rec, (i, rec) ∈ recs → (i, rec) ∈ s.registry ∨ ∃ (t' : Nat) (a' : AddArgs), t' ≠ t ∧ calls[t']? = some a' ∧ i ∈ a'.adds := by
  intro s
  have h : AddInv reg calls s := addInv_run sched _ (addInv_start reg calls)
  refine ⟨h.kept, h.unique, fun i rec hm => ?_, fun t a recs ha ht => ?_⟩
  · rcases h.all i rec hm with h1 | ⟨t, a, recs, h1, h2, h3⟩
    · exact .inl h1
    · exact .inr ⟨t, recs, (List.getElem?_eq_some_iff.1 h1).1, h2, h3⟩
  · rcases h.each t a ha with h1 | ⟨recs', h1, h2, h3, h4, h5⟩
    · rw [ht] at h1; exact h1.elim
    · rw [ht] at h1; cases h1
      have hids : callIds a.extract a.ids = .ok a.adds := by
        simp only [AddArgs.adds]
        cases hc : callIds a.extract a.ids with
        | ok ids => rfl
        | error e =>
          -- then the call has raised
          exfalso
          have : ∀ sched (s : AddState), s.threads t = .done (.error e) → (s.run sched).threads t = .done (.error e) := by
            intro sched
            induction sched with
            | nil => exact fun s h => h
            | cons t' sched ih =>
              intro s h
              refine ih _ ?_
              simp only [AddState.tick]
              split
              · next e => rw [← e, h]; rfl
              · exact h
          have := this sched (startAdds fi S reg calls) (by simp only [startAdds, ha, addProg, hc])
          rw [show ((startAdds fi S reg calls).run sched).threads t = _ from ht] at this
          cases this
      refine ⟨?_, ?_, fun i rec rec' hm hm' => ?_, h5⟩
      · rw [hids]; exact congrArg _ h2.symm
      · show (dkeys recs).Nodup; rw [h2]; exact h3
      · exact h4 i (h2 ▸ List.mem_map_of_mem (f := Prod.fst) hm) (List.mem_map_of_mem (f := Prod.fst) hm')

theorem ended_tick {s : AddState} {t t' : Nat} (h : (s.threads t).Ended) : ((s.tick t').threads t).Ended := by
  obtain ⟨r, h⟩ := h
  refine ⟨r, ?_⟩
  simp only [AddState.tick]
  split
  · next e => rw [← e, h]; rfl
  · exact h

/-- C96. From any moment on: ids are never removed or reordered, and a record that is in the recorder is never replaced, unless a call that has not ended
at that moment adds its id. -/
theorem c96_later (fi : Str → Option Int) (S : RecSettings) (reg : List (Rid × Record)) (calls : List AddArgs) (before after : List Nat) :
    let s := (startAdds fi S reg calls).run before
    let s' := s.run after
    s.registry.map Prod.fst <+: s'.registry.map Prod.fst ∧
    ∀ i rec, (i, rec) ∈ s.registry → (i, rec) ∈ s'.registry ∨
      ∃ (t : Nat) (a : AddArgs), calls[t]? = some a ∧ i ∈ a.adds ∧ ¬ (s.threads t).Ended := by
  intro s
  have h : AddInv reg calls s := addInv_run before _ (addInv_start reg calls)
  clear_value s
  induction after generalizing s with
  | nil => exact ⟨List.prefix_rfl, fun i rec hm => .inl hm⟩
  | cons t after ih =>
    obtain ⟨h1, h2⟩ := ih (s.tick t) (addInv_tick h t)
    have step : s.registry.map Prod.fst <+: (s.tick t).registry.map Prod.fst ∧
        ∀ i rec, (i, rec) ∈ s.registry → (i, rec) ∈ (s.tick t).registry ∨ ∃ (t : Nat) (a : AddArgs), calls[t]? = some a ∧ i ∈ a.adds ∧ ¬ (s.threads t).Ended := by
      simp only [AddState.tick]
      cases hp : s.threads t with
      | done r => exact ⟨List.prefix_rfl, fun i rec hm => .inl hm⟩
      | look k => exact ⟨List.prefix_rfl, fun i rec hm => .inl hm⟩
      | commit recs =>
        refine ⟨keys_dupdate _ _, fun i rec hm => ?_⟩
        by_cases hi : i ∈ dkeys recs
        · cases hc : calls[t]? with
          | none => obtain ⟨e, he⟩ := h.none t hc; rw [hp] at he; cases he
          | some a =>
            rcases h.each t a hc with h3 | ⟨recs', h3, -⟩
            · rw [hp] at h3
              exact .inr ⟨t, a, hc, h3.1 ▸ hi, by rw [hp]; rintro ⟨r, hr⟩; cases hr⟩
            · rw [hp] at h3; cases h3
        · exact .inl (mem_dupdate_old hm hi)
    refine ⟨step.1.trans h1, fun i rec hm => ?_⟩
    rcases step.2 i rec hm with h3 | h3
    · rcases h2 i rec h3 with h4 | ⟨t', a, h4, h5, h6⟩
      · exact .inl h4
      · exact .inr ⟨t', a, h4, h5, fun he => h6 (ended_tick he)⟩
    · exact .inr h3

/-! ### Threads that add different ids -/

/-- Postprocessors that do not look at the recorder. -/
def BlindPost (p : PostCode) : Prop := ∀ i rec, ∃ r, p i rec = .done r

/-- What a call looks at is only whether there are records of its ids. -/
def Sees (ids : List Rid) : AddProg → Prop
  | .done _ | .commit _ => True
  | .look k => (∀ reg reg' : List (Rid × Record), (∀ i ∈ ids, dhas reg i = dhas reg' i) → k reg = k reg') ∧ ∀ reg, Sees ids (k reg)

theorem blind_posts {P : AddProg → Prop} {i : Rid} {f : R Record → AddProg} (hf : ∀ r, P (f r)) {ps : List PostCode} (hb : ∀ p ∈ ps, BlindPost p) (rec : Record) :
    P (postsProg i f ps rec) := by
  induction ps generalizing rec with
  | nil => exact hf _
  | cons p ps ih =>
    obtain ⟨r, hr⟩ := hb p List.mem_cons_self i rec
    simp only [postsProg, hr, PostProg.andThen]
    cases r with
    | error e => exact hf _
    | ok rec' => exact ih (fun q hq => hb q (List.mem_cons_of_mem _ hq)) rec'

theorem sees_loop {all : List Rid} {cd : List (Str × ColVals)} {ps : List PostCode} (hb : ∀ p ∈ ps, BlindPost p) (ids : List Rid) (hs : ∀ i ∈ ids, i ∈ all)
    (acc : List (Rid × Record)) : Sees all (loopProg fi S cd ps ids acc) := by
  induction ids generalizing acc with
  | nil => trivial
  | cons i ids ih =>
    refine ⟨fun reg reg' h => ?_, fun reg => ?_⟩
    · dsimp only
      rw [h i (hs i List.mem_cons_self)]
    · simp only
      split
      · trivial
      · split
        · trivial
        · split
          · trivial
          · refine blind_posts (fun r => ?_) hb _
            cases r with
            | error e => trivial
            | ok rec => exact ih (fun j hj => hs j (List.mem_cons_of_mem _ hj)) _

theorem sees_call {a : AddArgs} (hb : ∀ p ∈ codePosts S.posts a.posts a.override, BlindPost p) : Sees a.adds (addProg fi S a) := by
  simp only [addProg, AddArgs.adds]
  cases callIds a.extract a.ids with
  | error e => trivial
  | ok ids =>
    simp only
    cases configDict ids a.unbox a.columns with
    | error e => trivial
    | ok cd => exact sees_loop hb ids (fun _ h => h) []

/-- The records that a call has returned. -/
def AddProg.returned : AddProg → List (Rid × Record)
  | .done (.ok recs) => recs
  | _ => []

/-- C96. Threads that add different ids, with postprocessors that do not look at the recorder, do not disturb each other, in whatever order their steps are
done and whichever are interrupted: every call that has ended has returned or raised what it would have by itself, and the recorder has what there was,
followed by what the calls that have returned would have added one after another, in some order. -/
theorem c96_apart {fi : Str → Option Int} {S : RecSettings} {reg : List (Rid × Record)} {calls : List AddArgs}
    (apart : ∀ (t t' : Nat) a a', t ≠ t' → calls[t]? = some a → calls[t']? = some a' → ∀ i ∈ a.adds, i ∉ a'.adds)
    (blind : ∀ a ∈ calls, ∀ p ∈ codePosts S.posts a.posts a.override, BlindPost p) (sched : List Nat) :
    let s := (startAdds fi S reg calls).run sched
    (∀ (t : Nat) a o, calls[t]? = some a → s.threads t = .done o → o = ((S.recorder reg).add fi a.call).2) ∧
    ∃ order : List Nat, order.Nodup ∧ (∀ t, t ∈ order ↔ ∃ recs, s.threads t = .done (.ok recs)) ∧
      s.registry = reg ++ order.flatMap fun t => (s.threads t).returned := by
  intro s
  have main : ∀ (sched : List Nat) (s : AddState), AddInv reg calls s →
      (∀ (t : Nat) a, calls[t]? = some a → Sees a.adds (s.threads t) ∧ ((s.threads t).alone reg).2 = ((addProg fi S a).alone reg).2) →
      (∃ order : List Nat, order.Nodup ∧ (∀ t, t ∈ order ↔ ∃ recs, s.threads t = .done (.ok recs)) ∧
        s.registry = reg ++ order.flatMap fun t => (s.threads t).returned) →
      (∀ (t : Nat) a, calls[t]? = some a → ((s.run sched).threads t |>.alone reg).2 = ((addProg fi S a).alone reg).2) ∧
      ∃ order : List Nat, order.Nodup ∧ (∀ t, t ∈ order ↔ ∃ recs, (s.run sched).threads t = .done (.ok recs)) ∧
        (s.run sched).registry = reg ++ order.flatMap fun t => ((s.run sched).threads t).returned := by
    intro sched
    induction sched with
    | nil => exact fun s _ h h' => ⟨fun t a ha => (h t a ha).2, h'⟩
    | cons t sched ih =>
      intro s inv h h'
      obtain ⟨order, o1, o2, o3⟩ := h'
      have inv' := addInv_tick inv t
      -- an id of a call that has not ended is there exactly if it was at first
      have same : ∀ (t : Nat) a, calls[t]? = some a → ¬ (s.threads t).Ended → ∀ i ∈ a.adds, dhas s.registry i = dhas reg i := by
        intro t a ha hne i hi
        by_cases hr : i ∈ dkeys reg
        · have h1 : dhas reg i = true := by rw [dhas_iff]; exact hr
          have h2 : dhas s.registry i = true := by rw [dhas_iff]; exact (inv.kept.map Prod.fst).subset hr
          rw [h1, h2]
        · have h1 : dhas reg i = false := by
            cases hd : dhas reg i with
            | false => rfl
            | true => exact absurd (by rw [dhas_iff] at hd; exact hd) hr
          have h2 : dhas s.registry i = false := by
            cases hd : dhas s.registry i with
            | false => rfl
            | true =>
              exfalso
              rw [dhas_iff] at hd
              obtain ⟨⟨j, rec⟩, hm, e⟩ := List.mem_map.1 hd
              simp only at e; subst e
              rcases inv.all j rec hm with h3 | ⟨t', a', recs, h3, h4, h5⟩
              · exact hr (List.mem_map_of_mem (f := Prod.fst) h3)
              · have htt : t ≠ t' := by rintro rfl; exact hne ⟨_, h4⟩
                refine apart t t' a a' htt ha h3 j hi ?_
                rcases inv.each t' a' h3 with h6 | ⟨recs', h6, h7, -⟩
                · rw [h4] at h6; exact h6.elim
                · rw [h4] at h6; cases h6
                  exact h7 ▸ List.mem_map_of_mem (f := Prod.fst) h5
          rw [h1, h2]
      refine ih (s.tick t) inv' ?_ ?_
      · intro t' a ha
        obtain ⟨g1, g2⟩ := h t' a ha
        simp only [AddState.tick]
        by_cases e : t' = t
        · subst e
          simp only [if_true]
          cases hp : s.threads t' with
          | done r => rw [hp] at g1 g2; exact ⟨g1, g2⟩
          | look k =>
            rw [hp] at g1 g2
            refine ⟨g1.2 _, ?_⟩
            simp only [AddProg.step]
            rw [g1.1 s.registry reg (same t' a ha (by rw [hp]; rintro ⟨r, hr⟩; cases hr))]
            exact g2
          | commit recs => rw [hp] at g1 g2; exact ⟨trivial, g2⟩
        · simp only [if_neg e]; exact ⟨g1, g2⟩
      · have out : (∀ recs, s.threads t ≠ .done (.ok recs)) → t ∉ order := fun hn hm => by
          obtain ⟨recs, hr⟩ := (o2 t).1 hm
          exact hn recs hr
        -- the other threads are where they were
        have others : ∀ t', t' ≠ t → (s.tick t).threads t' = s.threads t' := fun t' e => by simp only [AddState.tick, if_neg e]
        have old : t ∉ order → (order.flatMap fun t' => ((s.tick t).threads t').returned) = order.flatMap fun t' => (s.threads t').returned := by
          intro hn
          have : ∀ l : List Nat, t ∉ l → (l.flatMap fun t' => ((s.tick t).threads t').returned) = l.flatMap fun t' => (s.threads t').returned := by
            intro l
            induction l with
            | nil => exact fun _ => rfl
            | cons x l ihl =>
              intro hx
              simp only [List.mem_cons, not_or] at hx
              simp only [List.flatMap_cons]
              rw [others x (Ne.symm hx.1), ihl hx.2]
          exact this order hn
        cases hp : s.threads t with
        | done r =>
          have hth : s.tick t = s := by
            have : (fun t' => if t' = t then AddProg.done r else s.threads t') = s.threads := by
              funext t'
              split
              · next e => rw [e, hp]
              · rfl
            simp only [AddState.tick, hp, AddProg.step]
            rw [this]
          rw [hth]; exact ⟨order, o1, o2, o3⟩
        | look k =>
          have hn := out (by rw [hp]; intro recs e; cases e)
          have hreg : (s.tick t).registry = s.registry := by simp only [AddState.tick, hp, AddProg.step]
          refine ⟨order, o1, fun t' => ?_, by rw [old hn, hreg, o3]⟩
          by_cases e : t' = t
          · subst e
            refine ⟨fun hm => absurd hm hn, fun ⟨recs, hr⟩ => ?_⟩
            exfalso
            have ht : (s.tick t').threads t' = k s.registry := by simp only [AddState.tick, hp, AddProg.step, if_true]
            cases hc : calls[t']? with
            | none => obtain ⟨e, he⟩ := inv.none t' hc; rw [hp] at he; cases he
            | some a =>
              rcases inv.each t' a hc with h1 | ⟨recs', h1, -⟩
              · rw [hp] at h1
                have := h1 s.registry fun i hi => (inv.kept.map Prod.fst).subset hi
                rw [← ht, hr] at this
                exact this
              · rw [hp] at h1; cases h1
          · rw [others t' e]; exact o2 t'
        | commit recs =>
          have hn := out (by rw [hp]; intro recs e; cases e)
          have hreg : (s.tick t).registry = dupdate s.registry recs := by simp only [AddState.tick, hp, AddProg.step]
          have ht : (s.tick t).threads t = .done (.ok recs) := by simp only [AddState.tick, hp, AddProg.step, if_true]
          refine ⟨order ++ [t], ?_, fun t' => ?_, ?_⟩
          · rw [List.nodup_append]
            refine ⟨o1, by simp, fun x hx y hy e => ?_⟩
            rw [List.mem_singleton.1 hy] at e
            exact hn (e ▸ hx)
          · by_cases e : t' = t
            · subst e; exact ⟨fun _ => ⟨recs, ht⟩, fun _ => by simp⟩
            · rw [others t' e, ← o2 t']; simp [e]
          · rw [List.flatMap_append, old hn, hreg, ← List.append_assoc, ← o3]
            simp only [List.flatMap_cons, List.flatMap_nil, List.append_nil, ht, AddProg.returned]
            cases hc : calls[t]? with
            | none => obtain ⟨e, he⟩ := inv.none t hc; rw [hp] at he; cases he
            | some a =>
              rcases inv.each t a hc with h1 | ⟨recs', h1, -⟩
              · rw [hp] at h1
                obtain ⟨k1, k2, k3⟩ := h1
                refine dupdate_append (fun i hi => ?_) (k1 ▸ k2)
                rw [k1] at hi
                intro hm
                have := same t a hc (by rw [hp]; rintro ⟨r, hr⟩; cases hr) i hi
                have h2 : dhas s.registry i = true := by rw [dhas_iff]; exact hm
                rw [h2] at this
                exact k3 i hi ((by rw [← dhas_iff]; exact this.symm))
              · rw [hp] at h1; cases h1
  have start : ∀ t recs, (startAdds fi S reg calls).threads t ≠ .done (.ok recs) := by
    intro t recs h
    simp only [startAdds] at h
    cases hc : calls[t]? with
    | none => rw [hc] at h; cases h
    | some a =>
      rw [hc] at h
      have := adding_call (fi := fi) (S := S) (dkeys reg) a
      simp only at h
      rw [h] at this
      exact this
  obtain ⟨m1, m2⟩ := main sched (startAdds fi S reg calls) (addInv_start reg calls) (fun t a ha => by
      simp only [startAdds, ha]
      exact ⟨sees_call (blind a (List.mem_of_getElem? ha)), trivial⟩)
    ⟨[], List.nodup_nil, fun t => ⟨fun h => (by cases h), fun ⟨recs, h⟩ => absurd h (start t recs)⟩, by simp [startAdds]⟩
  refine ⟨fun t a o ha ho => ?_, m2⟩
  have := m1 t a ha
  rw [show ((startAdds fi S reg calls).run sched).threads t = .done o from ho, alone_add] at this
  exact this

/-! ### Threads that add the same id -/

theorem run_append (s : AddState) (l l' : List Nat) : s.run (l ++ l') = (s.run l).run l' := List.foldl_append

theorem to_commit {g ids : List Rid} {reg : List (Rid × Record)} {recs : List (Rid × Record)} (hg : ∀ i ∈ g, i ∈ dkeys reg) (p : AddProg) (hp : Adding g ids p)
    (h : (p.alone reg).2 = .ok recs) (t : Nat) :
    ∃ k, ∀ s : AddState, s.registry = reg → s.threads t = p → s.run (List.replicate k t) = ⟨reg, fun t' => if t' = t then .commit recs else s.threads t'⟩ := by
  induction p with
  | done r => cases h; exact hp.elim
  | look f ih =>
    obtain ⟨k, hk⟩ := ih reg (hp reg hg) h
    refine ⟨k + 1, fun s h1 h2 => ?_⟩
    rw [List.replicate_succ]
    show (s.tick t).run _ = _
    have e1 : (s.tick t).registry = reg := by simp only [AddState.tick, h2, AddProg.step, h1]
    have e2 : (s.tick t).threads t = f reg := by simp only [AddState.tick, h2, AddProg.step, if_true, h1]
    rw [hk _ e1 e2]
    congr 1
    funext t'
    by_cases e : t' = t <;> simp [e, AddState.tick]
  | commit recs' =>
    cases h
    refine ⟨0, fun s h1 h2 => ?_⟩
    subst h1
    show s = _
    have : (fun t' => if t' = t then AddProg.commit recs else s.threads t') = s.threads := by
      funext t'
      split
      · next e => rw [e, h2]
      · rfl
    rw [this]

/-- C96, what does not hold: any two calls that would succeed by themselves may both return normally, also when they add the same id; the recorder then
has the record of the second call, and the record that the first has returned is gone. -/
theorem c96_race {fi : Str → Option Int} {S : RecSettings} {reg : List (Rid × Record)} (u : (reg.map Prod.fst).Nodup) {a b : AddArgs} {ra rb : List (Rid × Record)}
    (ha : ((S.recorder reg).add fi a.call).2 = .ok ra) (hb : ((S.recorder reg).add fi b.call).2 = .ok rb) :
    ∃ sched, let s := (startAdds fi S reg [a, b]).run sched
      s.threads 0 = .done (.ok ra) ∧ s.threads 1 = .done (.ok rb) ∧
      ∀ i rec rec', (i, rec) ∈ ra → (i, rec') ∈ rb → (i, rec') ∈ s.registry ∧ (rec ≠ rec' → (i, rec) ∉ s.registry) := by
  have ha' : ((addProg fi S a).alone reg).2 = .ok ra := by rw [alone_add]; exact ha
  have hb' : ((addProg fi S b).alone reg).2 = .ok rb := by rw [alone_add]; exact hb
  obtain ⟨k, hk⟩ := to_commit (fun i hi => hi) (addProg fi S a) (adding_call (dkeys reg) a) ha' 0
  obtain ⟨m, hm⟩ := to_commit (fun i hi => hi) (addProg fi S b) (adding_call (dkeys reg) b) hb' 1
  refine ⟨List.replicate k 0 ++ (List.replicate m 1 ++ [0, 1]), ?_⟩
  intro s
  have e : s.threads 0 = .done (.ok ra) ∧ s.threads 1 = .done (.ok rb) ∧ s.registry = dupdate (dupdate reg ra) rb := by
    show (AddState.run _ _).threads 0 = _ ∧ (AddState.run _ _).threads 1 = _ ∧ (AddState.run _ _).registry = _
    rw [run_append, run_append, hk _ rfl rfl, hm _ rfl (by simp [startAdds])]
    exact ⟨rfl, rfl, rfl⟩
  have inv : AddInv reg [a, b] s := addInv_run _ _ (addInv_start reg [a, b])
  refine ⟨e.1, e.2.1, fun i rec rec' h1 h2 => ?_⟩
  have nb : (dkeys rb).Nodup := by
    rcases inv.each 1 b rfl with h | ⟨recs, h, h3, h4, -⟩
    · rw [e.2.1] at h; exact h.elim
    · rw [e.2.1] at h; cases h
      rw [h3]; exact h4
  have hin : (i, rec') ∈ s.registry := by rw [e.2.2]; exact mem_dupdate_new h2 nb
  refine ⟨hin, fun hne hin' => hne ?_⟩
  have n := inv.unique u
  have g1 := dget_eq_some_of_mem n hin
  have g2 := dget_eq_some_of_mem n hin'
  rw [g1] at g2; exact (Option.some.inj g2).symm

/-! ### Examples -/

/-- `add(ids, x=x)`, where the ids are strings. -/
def exAddX (ids : List String) (x : Int) : AddArgs where
  extract _ v := match v with | .str s => .ok (.str s) | _ => .error .typeError
  ids := .list (ids.map fun s => .str s.toList)
  columns := [(c!"x", .int x)]

example (fi : Str → Option Int) (sched : List Nat) :=
  c96_apart (fi := fi) (S := { posts := [fun _ rec => .done (.ok (dset rec c!"seen" (.int 1)))] }) (reg := [(.str c!"old", [])])
    (calls := [exAddX ["a", "b"] 1, exAddX ["c"] 2])
    (fun t t' a a' hne h h' i hi hi' => by
      have d1 : (exAddX ["a", "b"] 1).adds = [.str c!"a", .str c!"b"] := rfl
      have d2 : (exAddX ["c"] 2).adds = [.str c!"c"] := rfl
      match t, t' with
      | 0, 0 => exact hne rfl
      | 1, 1 => exact hne rfl
      | 0, 1 => cases h; cases h'; rw [d1] at hi; rw [d2] at hi'; simp at hi hi'; subst hi'; revert hi; decide
      | 1, 0 => cases h; cases h'; rw [d2] at hi; rw [d1] at hi'; simp at hi hi'; subst hi; revert hi'; decide
      | t + 2, _ => simp at h
      | _, t' + 2 => simp at h')
    (fun a ha p hp => by
      have : codePosts [fun _ rec => PostProg.done (.ok (dset rec c!"seen" (.int 1)))] a.posts a.override = [fun _ rec => PostProg.done (.ok (dset rec c!"seen" (.int 1)))] := by
        simp only [List.mem_cons, List.not_mem_nil, or_false] at ha
        rcases ha with rfl | rfl <;> rfl
      rw [this] at hp
      rw [List.mem_singleton.1 hp]
      exact fun i rec => ⟨_, rfl⟩) sched

/-- Two threads that record `m`. -/
example (fi : Str → Option Int) : ∃ sched, let s := (startAdds fi {} [] [exAddX ["m"] 1, exAddX ["m"] 2]).run sched
    s.threads 0 = .done (.ok [(.str c!"m", [(c!"x", .int 1), (c!"id", .str c!"m")])]) ∧
    s.threads 1 = .done (.ok [(.str c!"m", [(c!"x", .int 2), (c!"id", .str c!"m")])]) ∧
    (.str c!"m", [(c!"x", .int 1), (c!"id", .str c!"m")]) ∉ s.registry := by
  obtain ⟨sched, h1, h2, h3⟩ := c96_race (fi := fi) (S := {}) (reg := []) (by simp) (a := exAddX ["m"] 1) (b := exAddX ["m"] 2)
    (ra := [(.str c!"m", [(c!"x", .int 1), (c!"id", .str c!"m")])]) (rb := [(.str c!"m", [(c!"x", .int 2), (c!"id", .str c!"m")])]) rfl rfl
  exact ⟨sched, h1, h2, (h3 _ _ _ (List.mem_singleton.2 rfl) (List.mem_singleton.2 rfl)).2 (by simp)⟩

end Whatami
