import Verif.Curry
import Verif.Props.Recorder
import Verif.Props.Id

/-
C53: freezing columns with curried `add` and with `padd`.
-/
namespace Whatami

/-! ### Specification -/

/-- The value a keyword has after calls that pass these dictionaries one after the other. -/
inductive LastGiven (k : Str) : List Conf → Option Val → Prop where
  | never {ks : List Conf} : (∀ c ∈ ks, ∀ v, (k, v) ∉ c) → LastGiven k ks none
  | given {ks later : List Conf} {c : Conf} {v : Val} : (k, v) ∈ c → (∀ d ∈ later, ∀ u, (k, u) ∉ d) → LastGiven k (ks ++ c :: later) (some v)

/-- `f` is obtained from `recorder.add` by these steps, the recorder being in the states `r` (before) and `r'` (after). -/
inductive Frozen (E : AddEnv) (r : Recorder) : List Conf → Callee → Recorder → Prop where
  | start : Frozen E r [] addMethod r
  | call {r' r'' : Recorder} {ks : List Conf} {f g : Callee} {k : Conf} : Frozen E r ks f r' →
      f.call E r' { kws := k } = (r'', .ok (.function g)) → Frozen E r (ks ++ [k]) g r''
  | padd {r' : Recorder} {ks : List Conf} {f : Callee} {k : Conf} : Frozen E r ks f r' → Frozen E r (ks ++ [k]) (padd (some f) k) r'
  | paddNew (k : Conf) : Frozen E r [k] (padd none k) r

/-- What `add` is asked to do when its keyword arguments are those of `ks`, later ones winning. -/
structure Asks (E : AddEnv) (ks : List Conf) (ids : Val) (a : AddCall) : Prop where
  extract : a.extract = E.extract
  ids : a.ids = ids
  unbox : ∀ o, LastGiven c!"unbox_iterables" ks o → a.unbox = match o with | some v => E.truthy v | none => true
  posts : ∀ o, LastGiven c!"record_postprocessors" ks o → a.posts = match o with | some .none => none | some v => some (E.posts v) | none => none
  override : ∀ o, LastGiven c!"override_postprocessors" ks o → a.override = match o with | some v => E.truthy v | none => false
  columns : ∀ c, c ∉ [c!"ids", c!"unbox_iterables", c!"record_postprocessors", c!"override_postprocessors"] →
    ∀ v, (c, v) ∈ a.columns ↔ LastGiven c ks (some v)
  unique : UniqueKeys a.columns
  onlyColumns : ∀ c v, (c, v) ∈ a.columns → c ∉ [c!"ids", c!"unbox_iterables", c!"record_postprocessors", c!"override_postprocessors"]

/-- Keyword arguments with which `add` is not complete: each at most once, neither `ids` nor `self`. -/
def Partly (k : Conf) : Prop := UniqueKeys k ∧ c!"ids" ∉ k.map Prod.fst ∧ c!"self" ∉ k.map Prod.fst

/-! ### Proofs -/

/-- The last value of a keyword. -/
def lastOf (k : Str) : List Conf → Option Val
  | [] => none
  | c :: ks => match lastOf k ks with | some v => some v | none => dget c k

theorem not_mem_of_dget {c : Conf} {k : Str} (h : dget c k = none) (v : Val) : (k, v) ∉ c := fun m =>
  dget_none_iff.1 h (List.mem_map_of_mem (f := Prod.fst) m)

theorem lastOf_none {k : Str} {ks : List Conf} (h : ∀ c ∈ ks, ∀ v, (k, v) ∉ c) : lastOf k ks = none := by
  induction ks with
  | nil => rfl
  | cons c ks ih =>
    simp only [lastOf, ih fun d hd => h d (by simp [hd])]
    cases hg : dget c k with
    | none => rfl
    | some v => exact absurd (mem_of_dget hg) (h c (by simp) v)

theorem lastGiven_iff {k : Str} {ks : List Conf} (u : ∀ c ∈ ks, UniqueKeys c) (o : Option Val) : LastGiven k ks o ↔ lastOf k ks = o := by
  constructor
  · intro h
    cases h with
    | never h => exact lastOf_none h
    | given hm hl =>
      rename_i ks later c v
      have e : lastOf k (c :: later) = some v := by
        simp only [lastOf, lastOf_none hl]
        exact dget_eq_some_of_mem (u c (by simp)) hm
      clear u
      induction ks with
      | nil => exact e
      | cons d ks ih => simp only [List.cons_append, lastOf, ih]
  · intro h
    induction ks generalizing o with
    | nil => subst h; exact .never fun c hc => by cases hc
    | cons c ks ih =>
      have ih := ih (fun d hd => u d (by simp [hd]))
      simp only [lastOf] at h
      cases hl : lastOf k ks with
      | some v =>
        rw [hl] at h
        subst h
        have := ih (some v) hl
        cases this with
        | given hm hlt => exact .given (ks := c :: _) hm hlt
      | none =>
        rw [hl] at h
        have hn := ih none hl
        cases hn with
        | never hn =>
          cases hg : dget c k with
          | none =>
            simp only [hg] at h
            subst h
            refine .never fun d hd => ?_
            rcases List.mem_cons.1 hd with rfl | hd
            · exact not_mem_of_dget hg
            · exact hn d hd
          | some v =>
            simp only [hg] at h
            subst h
            exact .given (ks := []) (mem_of_dget hg) hn

theorem lastOf_append (k : Str) (ks : List Conf) (c : Conf) : lastOf k (ks ++ [c]) = match dget c k with | some v => some v | none => lastOf k ks := by
  induction ks with
  | nil => simp only [List.nil_append, lastOf]; cases dget c k <;> rfl
  | cons d ks ih =>
    simp only [List.cons_append, lastOf, ih]
    cases dget c k <;> rfl

/-- The arguments that reach the function. -/
def Callee.full : Callee → PyArgs → PyArgs
  | .part f kws, a => f.full { a with kws := dupdate kws a.kws }
  | .curry fr, a => { pos := fr.pos ++ a.pos, kws := dupdate fr.kws a.kws }

/-- What becomes of them. -/
def finish (E : AddEnv) (r : Recorder) (full : PyArgs) : Recorder × R (Outcome Callee) :=
  match callAdd E r full with
  | (r', .ok rs) => (r', .ok (.records rs))
  | (r', .error .typeError) => if bindPartialOk full && !bindOk full then (r', .ok (.function (.curry full))) else (r', .error .typeError)
  | (r', .error e) => (r', .error e)

theorem call_eq (E : AddEnv) (f : Callee) (r : Recorder) (a : PyArgs) : f.call E r a = finish E r (f.full a) := by
  induction f generalizing a with
  | curry fr => rfl
  | part f kws ih => simp only [Callee.call, Callee.full, ih]

/-- `f` has frozen the dictionaries `ks`. -/
structure FrozeAll (f : Callee) (ks : List Conf) : Prop where
  pos : ∀ a, (f.full a).pos = a.pos
  get : ∀ a : PyArgs, UniqueKeys a.kws → ∀ k, dget (f.full a).kws k = match dget a.kws k with | some v => some v | none => lastOf k ks
  unique : ∀ a : PyArgs, UniqueKeys a.kws → UniqueKeys (f.full a).kws

theorem dget_update {d e : Conf} (he : UniqueKeys e) (k : Str) : dget (dupdate d e) k = match dget e k with | some v => some v | none => dget d k := by
  rw [dget_dupdate, dget_reverse he]; cases dget e k <;> rfl

theorem holds_add : FrozeAll addMethod [] := by
  refine ⟨fun a => rfl, fun a ha k => ?_, fun a ha => nodup_dupdate (d := []) List.nodup_nil _⟩
  change dget (dupdate [] a.kws) k = _
  rw [dget_update ha]
  rfl

theorem holds_part {f : Callee} {ks : List Conf} {k : Conf} (h : FrozeAll f ks) (hk : UniqueKeys k) : FrozeAll (.part f k) (ks ++ [k]) := by
  refine ⟨fun a => h.pos _, fun a ha x => ?_, fun a ha => ?_⟩
  · simp only [Callee.full]
    rw [h.get { pos := a.pos, kws := dupdate k a.kws } (nodup_dupdate hk _), lastOf_append]
    simp only []
    rw [dget_update ha]
    cases dget a.kws x <;> rfl
  · exact h.unique _ (nodup_dupdate hk _)

theorem holds_curry {f : Callee} {ks : List Conf} {k : Conf} (h : FrozeAll f ks) (hk : UniqueKeys k) : FrozeAll (.curry (f.full { kws := k })) (ks ++ [k]) := by
  refine ⟨fun a => ?_, fun a ha x => ?_, fun a ha => ?_⟩
  · simp only [Callee.full, h.pos]; rfl
  · simp only [Callee.full]
    rw [dget_update ha, h.get _ hk, lastOf_append]
  · exact nodup_dupdate (h.unique _ hk) _

theorem lastOf_partly {k : Str} {ks : List Conf} (h : ∀ c ∈ ks, k ∉ c.map Prod.fst) : lastOf k ks = none :=
  lastOf_none fun c hc v m => h c hc (List.mem_map_of_mem (f := Prod.fst) m)

/-- A call without ids only freezes. -/
theorem call_partly (E : AddEnv) {f : Callee} {ks : List Conf} {k : Conf} (h : FrozeAll f ks) (hks : ∀ c ∈ ks, Partly c) (hk : Partly k) (r : Recorder) :
    f.call E r { kws := k } = (r, .ok (.function (.curry (f.full { kws := k })))) := by
  rw [call_eq]
  have hp := h.pos { kws := k }
  have none : ∀ x, (∀ c, Partly c → x ∉ c.map Prod.fst) → dget (f.full { kws := k }).kws x = none := by
    intro x hx
    rw [h.get _ hk.1]
    simp only []
    rw [dget_none_iff.2 (hx k hk)]
    exact lastOf_partly fun c hc => hx c (hks c hc)
  have h1 := none c!"ids" fun c hc => hc.2.1
  have h2 := none c!"self" fun c hc => hc.2.2
  generalize f.full { kws := k } = full at hp h1 h2
  have b1 : bindPartialOk full = true := by
    simp [bindPartialOk, hp, addParams, dhas, h2]
  have b2 : bindOk full = false := by
    simp [bindOk, hp, dhas, h1]
  simp only [finish, callAdd, b1, b2]
  rfl

theorem frozen_holds {E : AddEnv} {r r' : Recorder} {ks : List Conf} {f : Callee} (h : Frozen E r ks f r') (hks : ∀ c ∈ ks, Partly c) : FrozeAll f ks ∧ r' = r := by
  induction h with
  | start => exact ⟨holds_add, rfl⟩
  | @call r' r'' ks f g k h hc ih =>
    obtain ⟨hf, rfl⟩ := ih fun c hc => hks c (by simp [hc])
    rw [call_partly E hf (fun c hc => hks c (by simp [hc])) (hks k (by simp))] at hc
    cases hc
    exact ⟨holds_curry hf (hks k (by simp)).1, rfl⟩
  | @padd r' ks f k h ih =>
    obtain ⟨hf, rfl⟩ := ih fun c hc => hks c (by simp [hc])
    exact ⟨holds_part hf (hks k (by simp)).1, rfl⟩
  | paddNew k => exact ⟨holds_part (ks := []) holds_add (hks k (by simp)).1, rfl⟩

/-- A complete call. -/
theorem call_complete (E : AddEnv) {f : Callee} {ks : List Conf} (h : FrozeAll f ks) (hks : ∀ c ∈ ks, Partly c) {k : Conf} (hk : Partly k) (ids : Val) (a : PyArgs)
    (ha : a = { pos := [ids], kws := k } ∨ a = { kws := (c!"ids", ids) :: k }) (r : Recorder) :
    ∃ x, Asks E (ks ++ [k]) ids x ∧ f.call E r a = ((r.add E.fi x).1, (r.add E.fi x).2.map .records) := by
  have hu : UniqueKeys a.kws := by
    rcases ha with rfl | rfl
    · exact hk.1
    · exact List.nodup_cons.2 ⟨hk.2.1, hk.1⟩
  have hp := h.pos a
  have hq := h.unique a hu
  have hg := h.get a hu
  rw [call_eq]
  generalize f.full a = full at hp hq hg
  have hg' : ∀ x, x ≠ c!"ids" → dget full.kws x = lastOf x (ks ++ [k]) := by
    intro x hx
    rw [hg, lastOf_append]
    rcases ha with rfl | rfl
    · rfl
    · have : dget ((c!"ids", ids) :: k) x = dget k x := by simp only [dget, if_neg (Ne.symm hx)]
      simp only [this]
  have hself : dget full.kws c!"self" = none := by
    rw [hg' _ (by decide)]
    refine lastOf_partly fun c hc => ?_
    rcases List.mem_append.1 hc with hc | hc
    · exact (hks c hc).2.2
    · simp at hc; subst hc; exact hk.2.2
  have hids : argOf full 0 c!"ids" = some ids ∧ full.pos[1]? = none ∧ full.pos[2]? = none ∧ full.pos[3]? = none ∧ bindOk full = true := by
    rcases ha with rfl | rfl
    · have : dget full.kws c!"ids" = none := by
        rw [hg]
        simp only []
        rw [dget_none_iff.2 hk.2.1]
        exact lastOf_partly fun c hc => (hks c hc).2.1
      refine ⟨by simp [argOf, hp], by simp [hp], by simp [hp], by simp [hp], ?_⟩
      simp [bindOk, bindPartialOk, hp, addParams, dhas, hself, this]
    · have : dget full.kws c!"ids" = some ids := by rw [hg]; rfl
      refine ⟨by simp [argOf, hp, this], by simp [hp], by simp [hp], by simp [hp], ?_⟩
      simp [bindOk, bindPartialOk, hp, addParams, dhas, hself, this]
  obtain ⟨hids, hp1, hp2, hp3, hbind⟩ := hids
  have uks : ∀ c ∈ ks ++ [k], UniqueKeys c := by
    intro c hc
    rcases List.mem_append.1 hc with hc | hc
    · exact (hks c hc).1
    · simp at hc; subst hc; exact hk.1
  refine ⟨toAddCall E full, ⟨rfl, by simp [toAddCall, hids], ?_, ?_, ?_, ?_, ?_, ?_⟩, ?_⟩
  · intro o ho
    rw [lastGiven_iff uks] at ho
    simp only [toAddCall, argOf, hp1, hg' _ (show c!"unbox_iterables" ≠ c!"ids" by decide), ho]
    cases o <;> rfl
  · intro o ho
    rw [lastGiven_iff uks] at ho
    simp only [toAddCall, argOf, hp2, hg' _ (show c!"record_postprocessors" ≠ c!"ids" by decide), ho]
    cases o with
    | none => rfl
    | some v => cases v <;> rfl
  · intro o ho
    rw [lastGiven_iff uks] at ho
    simp only [toAddCall, argOf, hp3, hg' _ (show c!"override_postprocessors" ≠ c!"ids" by decide), ho]
    cases o <;> rfl
  · intro c hc v
    rw [lastGiven_iff uks]
    have hne : c ≠ c!"ids" := fun e => hc (by simp [e])
    rw [← hg' c hne]
    have : (c, v) ∈ (toAddCall E full).columns ↔ (c, v) ∈ full.kws := by
      simp only [toAddCall, List.mem_filter]
      constructor
      · exact fun h => h.1
      · intro h
        refine ⟨h, ?_⟩
        simpa [addParams] using hc
    rw [this]
    exact ⟨dget_eq_some_of_mem hq, mem_of_dget⟩
  · exact List.Nodup.sublist (List.Sublist.map _ List.filter_sublist) hq
  · intro c v hcv
    simp only [toAddCall, List.mem_filter] at hcv
    simpa [addParams] using hcv.2
  · simp only [finish, callAdd, hbind, if_true]
    cases h2 : (r.add E.fi (toAddCall E full)) with
    | mk r' res =>
      cases res with
      | ok rs => rfl
      | error e => cases e <;> simp <;> rfl

/-- C53. Calling `add`, or any function it gave, without ids changes nothing and gives a function again. -/
theorem c53_freezes {E : AddEnv} {r r' : Recorder} {ks : List Conf} {f : Callee} (h : Frozen E r ks f r') (hks : ∀ c ∈ ks, Partly c) :
    r' = r ∧ ∀ k, Partly k → ∃ g, f.call E r { kws := k } = (r, .ok (.function g)) := by
  obtain ⟨hf, e⟩ := frozen_holds h hks
  exact ⟨e, fun k hk => ⟨_, call_partly E hf hks hk r⟩⟩

/-- C53. Once ids are given, by position or by name, the call does what `add` does with all the keyword arguments of the chain, the
last one given winning: it changes the recorder in the same way, and returns or raises the same (a TypeError too). -/
theorem c53_call {E : AddEnv} {r r' : Recorder} {ks : List Conf} {f : Callee} (h : Frozen E r ks f r') (hks : ∀ c ∈ ks, Partly c)
    {k : Conf} (hk : Partly k) (ids : Val) (now : Recorder) :
    (∃ a, Asks E (ks ++ [k]) ids a ∧ f.call E now { pos := [ids], kws := k } = ((now.add E.fi a).1, (now.add E.fi a).2.map .records)) ∧
    (∃ a, Asks E (ks ++ [k]) ids a ∧ f.call E now { kws := (c!"ids", ids) :: k } = ((now.add E.fi a).1, (now.add E.fi a).2.map .records)) := by
  obtain ⟨hf, _⟩ := frozen_holds h hks
  exact ⟨call_complete E hf hks hk ids _ (Or.inl rfl) now, call_complete E hf hks hk ids _ (Or.inr rfl) now⟩

/-- `rec.add(who='you')` and then `rec.padd(add=..., who='she', age=[1, 2])`. -/
def exEnvAdd : AddEnv := { fi := fun _ => none, truthy := fun v => match v with | .bool b => b | _ => true, posts := fun _ => [], extract := fun _ v => match v with | .str s => .ok (.str s) | _ => .error .typeError }
def exFrozen : Callee := padd (some (.curry { kws := [(c!"who", .str c!"you")] })) [(c!"who", .str c!"she"), (c!"age", .list [.int 1, .int 2])]
example (r : Recorder) : Frozen exEnvAdd r [[(c!"who", .str c!"you")], [(c!"who", .str c!"she"), (c!"age", .list [.int 1, .int 2])]] exFrozen r :=
  .padd (ks := [[(c!"who", .str c!"you")]]) (.call (ks := []) .start rfl)
example : Partly [(c!"who", .str c!"she"), (c!"age", .list [.int 1, .int 2])] := by unfold Partly UniqueKeys; decide
example : (exFrozen.call exEnvAdd {} { pos := [.tuple [.str c!"a", .str c!"b"]] }).1.registry =
    [(.str c!"a", [(c!"who", .str c!"she"), (c!"age", .int 1), (c!"id", .str c!"a")]), (.str c!"b", [(c!"who", .str c!"she"), (c!"age", .int 2), (c!"id", .str c!"b")])] := rfl
/-- A TypeError of a complete call is raised, not curried. -/
example : (exFrozen.call exEnvAdd {} { pos := [.int 3] }).2 = .error .typeError := rfl

/-- The parameters of `add` after `ids`, in their order. -/
def laterParams : List Str := [c!"unbox_iterables", c!"record_postprocessors", c!"override_postprocessors"]

theorem fst_zip {α β : Type} {l : List α} {m : List β} (h : m.length ≤ l.length) : (l.zip m).map Prod.fst = l.take m.length := by
  induction l generalizing m with
  | nil => cases m <;> simp
  | cons a l ih =>
    cases m with
    | nil => simp
    | cons b m => simp at h; simp [ih h]

theorem full_get {f : Callee} {ks : List Conf} (h : FrozeAll f ks) {k : Conf} (hk : UniqueKeys k) (ps : List Val) (x : Str) :
    dget (f.full { pos := ps, kws := k }).kws x = lastOf x (ks ++ [k]) := by
  rw [h.get _ hk, lastOf_append]

/-- C53. More arguments may be given by position: that is the same as giving them by name. -/
theorem c53_positional {E : AddEnv} {r r' : Recorder} {ks : List Conf} {f : Callee} (h : Frozen E r ks f r') (hks : ∀ c ∈ ks, Partly c)
    {k : Conf} (hk : Partly k) (ids : Val) (ps : List Val) (hl : ps.length ≤ laterParams.length)
    (hfree : ∀ p ∈ laterParams.take ps.length, ∀ c ∈ ks ++ [k], p ∉ c.map Prod.fst) (now : Recorder) :
    ∃ a, Asks E (ks ++ [laterParams.zip ps ++ k]) ids a ∧
      f.call E now { pos := ids :: ps, kws := k } = ((now.add E.fi a).1, (now.add E.fi a).2.map .records) := by
  obtain ⟨hf, _⟩ := frozen_holds h hks
  rw [call_eq]
  have hp := hf.pos { pos := ids :: ps, kws := k }
  have hq := hf.unique { pos := ids :: ps, kws := k } hk.1
  have hg := full_get hf hk.1 (ids :: ps)
  generalize f.full { pos := ids :: ps, kws := k } = full at hp hq hg
  have absent : ∀ x, (∀ c ∈ ks ++ [k], x ∉ c.map Prod.fst) → dget full.kws x = none := fun x hx => by rw [hg]; exact lastOf_partly hx
  have hsub : ∀ c ∈ ks ++ [k], Partly c := by
    intro c hc
    rcases List.mem_append.1 hc with hc | hc
    · exact hks c hc
    · simp at hc; subst hc; exact hk
  have hself := absent c!"self" fun c hc => (hsub c hc).2.2
  have hids := absent c!"ids" fun c hc => (hsub c hc).2.1
  have hzip : (laterParams.zip ps).map Prod.fst = laterParams.take ps.length := by
    exact fst_zip hl
  have hu : UniqueKeys (laterParams.zip ps ++ k) := by
    unfold UniqueKeys
    rw [List.map_append, List.nodup_append, hzip]
    refine ⟨(by decide : laterParams.Nodup).sublist (List.take_sublist _ _), hk.1, fun a ha b hb e => ?_⟩
    subst e
    exact hfree a ha k (by simp) hb
  have uks : ∀ c ∈ ks ++ [laterParams.zip ps ++ k], UniqueKeys c := by
    intro c hc
    rcases List.mem_append.1 hc with hc | hc
    · exact (hks c hc).1
    · simp at hc; subst hc; exact hu
  have hbind : bindOk full = true := by
    have htake : ∀ x ∈ addParams.take (ids :: ps).length, dget full.kws x = none := by
      intro x hx
      have : x = c!"ids" ∨ x ∈ laterParams.take ps.length := by simpa [addParams, laterParams] using hx
      rcases this with rfl | hx
      · exact hids
      · exact absent x (hfree x hx)
    have h1 : (addParams.take full.pos.length).any (fun p => dhas full.kws p) = false := by
      rw [hp, List.any_eq_false]
      intro x hx
      simp [dhas, htake x hx]
    have h2 : full.pos.length ≤ addParams.length := by rw [hp]; simpa [addParams, laterParams] using hl
    have h3 : full.pos.isEmpty = false := by rw [hp]; rfl
    rw [bindOk, bindPartialOk, h1, decide_eq_true h2, h3]
    simp [dhas, hself]
  -- what reaches each parameter
  have hlast : ∀ (i : Nat) p, laterParams[i]? = some p → argOf full (i + 1) p = lastOf p (ks ++ [laterParams.zip ps ++ k]) := by
    intro i p hi
    simp only [argOf, hp, List.getElem?_cons_succ]
    rw [lastOf_append]
    cases hpi : ps[i]? with
    | some v =>
      have : (p, v) ∈ laterParams.zip ps ++ k := by
        refine List.mem_append_left _ (List.mem_of_getElem? (i := i) ?_)
        rw [List.getElem?_zip_eq_some]
        exact ⟨hi, hpi⟩
      rw [dget_eq_some_of_mem hu this]
    | none =>
      have hnot : p ∉ laterParams.take ps.length := by
        intro hm
        obtain ⟨j, hj, e⟩ := List.getElem_of_mem hm
        rw [List.getElem_take] at e
        have hj' : j < ps.length := by simp at hj; omega
        obtain ⟨hi', e'⟩ := List.getElem?_eq_some_iff.1 hi
        have : j = i := (List.getElem_inj (xs := laterParams) (by decide)).1 (e.trans e'.symm)
        subst this
        rw [List.getElem?_eq_none_iff] at hpi
        omega
      have : dget (laterParams.zip ps ++ k) p = dget k p := by
        have hz : dget (laterParams.zip ps) p = none := dget_none_iff.2 (by rw [dkeys, hzip]; exact hnot)
        cases hd : dget k p with
        | some v => exact dget_eq_some_of_mem hu (List.mem_append_right _ (mem_of_dget hd))
        | none =>
          rw [dget_none_iff] at hd hz ⊢
          rw [dkeys, List.map_append, List.mem_append]
          exact fun h => h.elim hz hd
      rw [this, hg, lastOf_append]
  refine ⟨toAddCall E full, ⟨rfl, by simp [toAddCall, argOf, hp], ?_, ?_, ?_, ?_, ?_, ?_⟩, ?_⟩
  · intro o ho
    rw [lastGiven_iff uks] at ho
    simp only [toAddCall, hlast 0 _ rfl, ho]
    cases o <;> rfl
  · intro o ho
    rw [lastGiven_iff uks] at ho
    simp only [toAddCall, hlast 1 _ rfl, ho]
    cases o with
    | none => rfl
    | some v => cases v <;> rfl
  · intro o ho
    rw [lastGiven_iff uks] at ho
    simp only [toAddCall, hlast 2 _ rfl, ho]
    cases o <;> rfl
  · intro c hc v
    rw [lastGiven_iff uks, lastOf_append]
    have hz : dget (laterParams.zip ps ++ k) c = dget k c := by
      have hn : c ∉ (laterParams.zip ps).map Prod.fst := by
        rw [hzip]
        exact fun hm => hc (List.mem_cons_of_mem _ (List.mem_of_mem_take hm))
      cases hd : dget k c with
      | some v => exact dget_eq_some_of_mem hu (List.mem_append_right _ (mem_of_dget hd))
      | none =>
        rw [dget_none_iff] at hd ⊢
        rw [dkeys, List.map_append, List.mem_append]
        exact fun h => h.elim hn hd
    rw [hz, ← lastOf_append, ← hg]
    have : (c, v) ∈ (toAddCall E full).columns ↔ (c, v) ∈ full.kws := by
      simp only [toAddCall, List.mem_filter]
      exact ⟨fun h => h.1, fun h => ⟨h, by simpa [addParams] using hc⟩⟩
    rw [this]
    exact ⟨dget_eq_some_of_mem hq, mem_of_dget⟩
  · exact List.Nodup.sublist (List.Sublist.map _ List.filter_sublist) hq
  · intro c v hcv
    simp only [toAddCall, List.mem_filter] at hcv
    simpa [addParams] using hcv.2
  · simp only [finish, callAdd, hbind, if_true]
    cases h2 : (now.add E.fi (toAddCall E full)) with
    | mk r' res =>
      cases res with
      | ok rs => rfl
      | error e => cases e <;> simp <;> rfl

/-- C53. Too many arguments by position, or one by position and by name, raise TypeError and change nothing. -/
theorem c53_refused {E : AddEnv} {r r' : Recorder} {ks : List Conf} {f : Callee} (h : Frozen E r ks f r') (hks : ∀ c ∈ ks, Partly c)
    {k : Conf} (hk : Partly k) (ids : Val) (ps : List Val)
    (hbad : laterParams.length < ps.length ∨ ∃ p ∈ laterParams.take ps.length, ∃ c ∈ ks ++ [k], p ∈ c.map Prod.fst) (now : Recorder) :
    f.call E now { pos := ids :: ps, kws := k } = (now, .error .typeError) := by
  obtain ⟨hf, _⟩ := frozen_holds h hks
  rw [call_eq]
  have hp := hf.pos { pos := ids :: ps, kws := k }
  have hg := full_get hf hk.1 (ids :: ps)
  generalize f.full { pos := ids :: ps, kws := k } = full at hp hg
  have hb : bindPartialOk full = false := by
    rcases hbad with hl | ⟨p, hpm, c, hc, hm⟩
    · have : ¬ full.pos.length ≤ addParams.length := by
        rw [hp]; simp [addParams, laterParams] at hl ⊢; omega
      simp [bindPartialOk, this]
    · have h1 : (addParams.take full.pos.length).any (fun p => dhas full.kws p) = true := by
        rw [hp, List.any_eq_true]
        refine ⟨p, by simpa [addParams, laterParams] using Or.inr hpm, ?_⟩
        unfold dhas
        rw [hg]
        cases hlo : lastOf p (ks ++ [k]) with
        | some v => rfl
        | none =>
          exfalso
          have uks : ∀ c ∈ ks ++ [k], UniqueKeys c := by
            intro c hc
            rcases List.mem_append.1 hc with hc | hc
            · exact (hks c hc).1
            · simp at hc; subst hc; exact hk.1
          have := (lastGiven_iff uks none).2 hlo
          generalize ks ++ [k] = all at this hc
          cases this with
          | never hn =>
            obtain ⟨⟨p', v⟩, hm', rfl⟩ := List.mem_map.1 hm
            exact hn c hc v hm'
      simp [bindPartialOk, h1]
  have hb' : bindOk full = false := by simp [bindOk, hb]
  simp [finish, callAdd, hb, hb']

/-- All four by position; and one too many. -/
example (r : Recorder) : ∃ a, Asks exEnvAdd [[(c!"unbox_iterables", .bool true), (c!"record_postprocessors", .none), (c!"override_postprocessors", .bool false), (c!"who", .str c!"you")]] (.str c!"a") a ∧
    addMethod.call exEnvAdd r { pos := [.str c!"a", .bool true, .none, .bool false], kws := [(c!"who", .str c!"you")] } = ((r.add exEnvAdd.fi a).1, (r.add exEnvAdd.fi a).2.map .records) :=
  c53_positional (E := exEnvAdd) (r := r) (ks := []) .start (fun c hc => by cases hc) (k := [(c!"who", .str c!"you")])
    (by unfold Partly UniqueKeys; decide) (.str c!"a") [.bool true, .none, .bool false] (by decide) (by decide) r
example (r : Recorder) : addMethod.call exEnvAdd r { pos := [.str c!"a", .bool true, .none, .bool false, .none] } = (r, .error .typeError) :=
  c53_refused (E := exEnvAdd) (r := r) (ks := []) .start (fun c hc => by cases hc) (k := []) (by unfold Partly UniqueKeys; decide) _ _ (.inl (by decide)) r

end Whatami
