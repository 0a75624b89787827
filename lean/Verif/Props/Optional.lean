import Verif.Optional
import Verif.Props.Raises

/-
C66: what depends on the optional libraries.
-/
namespace Whatami

/-! ### Specification -/

/-- The values the basic plugins of whatami do not deal with: None, booleans, numbers, classes, arrays and random generators, and objects
that do not tell their What. -/
inductive Late : Val → Prop where
  | none : Late .none
  | bool (b : Bool) : Late (.bool b)
  | int (i : Int) : Late (.int i)
  | float (t : Str) : Late (.float t)
  | cls (f : Str) : Late (.cls f)
  | array (c h : Str) : Late (.array c h)
  | rng (c : Str) (st : Val) : Late (.rng c st)
  | obj (c : Str) (callable : Bool) (cd dd sd pd : Conf) (s : Str) : Late (.obj c callable cd dd sd pd none s)
  | callable (c : Str) (cd dd sd pd : Conf) (o : WhatOpts) (s : Str) : Late (.obj c true cd dd sd pd (some o) s)

/-- Values of a library: arrays, data frames and random generators. -/
inductive OfLib : Val → Prop where
  | array (c h : Str) : OfLib (.array c h)
  | rng (c : Str) (st : Val) : OfLib (.rng c st)

theorem late_iff (v : Val) : lateVal v = true ↔ Late v := by
  constructor
  · intro h
    cases v <;> simp [lateVal, plainVal] at h <;> try constructor
    case obj c cl cd dd sd pd wh s =>
      cases wh with
      | none => constructor
      | some o => simp only at h; subst h; constructor
  · intro h; cases h <;> rfl

/-! ### Less defined -/

/-- Equal, or the first one raises `e0`. -/
def LessDef (e0 : Err) {α : Type} (r r' : R α) : Prop := r = r' ∨ r = .error e0

theorem LessDef.rfl' {e0 : Err} {α : Type} (r : R α) : LessDef e0 r r := .inl rfl

theorem LessDef.map {e0 : Err} {α β : Type} {r r' : R α} (f : α → β) (h : LessDef e0 r r') : LessDef e0 (r.map f) (r'.map f) := by
  rcases h with rfl | rfl
  · exact .inl rfl
  · exact .inr rfl

theorem LessDef.ret {e0 : Err} {r r' : R Str} (h : LessDef e0 r r') : LessDef e0 (Whatami.ret r) (Whatami.ret r') := by
  rcases h with rfl | rfl
  · exact .inl rfl
  · exact .inr rfl

theorem LessDef.mapR {e0 : Err} {α β : Type} {f g : α → R β} (l : List α) (h : ∀ x, LessDef e0 (f x) (g x)) :
    LessDef e0 (Whatami.mapR f l) (Whatami.mapR g l) := by
  induction l with
  | nil => exact .inl rfl
  | cons x l ih =>
    simp only [Whatami.mapR]
    rcases h x with hx | hx
    · rw [hx]
      cases g x with
      | error e => exact .inl rfl
      | ok y =>
        rcases ih with h | h
        · rw [h]; exact .inl rfl
        · rw [h]; exact .inr rfl
    · rw [hx]; exact .inr rfl

variable {e0 : Err} {bs bs' : BS}

theorem LessDef.idStr (h : ∀ v, LessDef e0 (bs v) (bs' v)) (w : What) (f : Bool) :
    LessDef e0 (Whatami.idStr bs w f) (Whatami.idStr bs' w f) := by
  have : ∀ kv, LessDef e0 (kvStr bs kv) (kvStr bs' kv) := by
    intro kv
    simp only [kvStr]
    rcases h kv.2 with h | h
    · rw [h]; exact .inl rfl
    · rw [h]; exact .inr rfl
  simp only [Whatami.idStr]
  rcases LessDef.mapR (idItems w f) this with h | h
  · rw [h]; exact .inl rfl
  · rw [h]; exact .inr rfl

theorem LessDef.strings (h : ∀ v, LessDef e0 (bs v) (bs' v)) (xs : List Val) :
    LessDef e0 (Whatami.strings bs xs) (Whatami.strings bs' xs) := by
  simp only [Whatami.strings]
  rcases LessDef.mapR xs h with h | h
  · rw [h]; exact .inl rfl
  · rw [h]; exact .inr rfl

theorem LessDef.dictStr (h : ∀ v, LessDef e0 (bs v) (bs' v)) (kvs : List (Val × Val)) :
    LessDef e0 (Whatami.dictStr bs kvs) (Whatami.dictStr bs' kvs) := by
  refine LessDef.map _ (LessDef.mapR kvs fun kv => ?_)
  simp only [dkvStr]
  rcases h kv.1 with h1 | h1
  · rw [h1]
    cases bs' kv.1 with
    | error e => exact .inl rfl
    | ok k =>
      rcases h kv.2 with h2 | h2
      · rw [h2]; exact .inl rfl
      · rw [h2]; exact .inr rfl
  · rw [h1]; exact .inr rfl

theorem LessDef.what (h : ∀ v, LessDef e0 (bs v) (bs' v)) (v : Val) : LessDef e0 (whatPlugin bs v) (whatPlugin bs' v) := by
  cases v <;> first | exact .inl rfl | exact (LessDef.idStr h _ _).ret

theorem LessDef.run (h : ∀ v, LessDef e0 (bs v) (bs' v)) (cu : Customs) (p : Plugin) (v : Val) :
    LessDef e0 (p.run cu bs v) (p.run cu bs' v) := by
  cases p <;> simp only [Plugin.run]
  case what => exact LessDef.what h v
  case whatable =>
    simp only [whatablePlugin]
    split
    · split
      · exact LessDef.what h _
      · exact .inl rfl
      · exact .inl rfl
    · exact .inl rfl
  case tuple =>
    unfold tuplePlugin
    split
    · exact ((LessDef.strings h _).map _).ret
    · exact ((LessDef.strings h _).map _).ret
    · exact .inl rfl
  case list =>
    unfold listPlugin
    split
    · exact ((LessDef.strings h _).map _).ret
    · exact ((LessDef.strings h _).map _).ret
    · exact .inl rfl
  case dict =>
    unfold dictPlugin
    split
    · split
      · exact .inl rfl
      · exact (LessDef.idStr h _ _).ret
    · exact (LessDef.dictStr h _).ret
    · rcases LessDef.dictStr h _ with hd | hd
      · rw [hd]
        split
        · exact .inl rfl
        · split
          · exact .inl rfl
          · exact (LessDef.idStr h _ _).ret
      · rw [hd]; exact .inr rfl
    · exact .inl rfl
  case set =>
    unfold setPlugin
    split
    · exact ((LessDef.strings h _).map _).ret
    · exact ((LessDef.strings h _).map _).ret
    · exact ((LessDef.strings h _).map _).ret
    · exact ((LessDef.strings h _).map _).ret
    · exact .inl rfl
  case part =>
    unfold partialPlugin
    split
    · split
      · exact .inl rfl
      · exact (LessDef.idStr h _ _).ret
    · exact .inl rfl
  case function =>
    unfold functionPlugin
    split
    · exact (LessDef.idStr h _ _).ret
    · exact .inl rfl
  case rng =>
    unfold rngPlugin
    split
    · split
      · exact .inl rfl
      · rcases LessDef.idStr h _ _ with hd | hd
        · rw [hd]; exact .inl rfl
        · rw [hd]; exact .inr rfl
    · exact .inl rfl
  case any0x =>
    unfold any0xPlugin
    split
    · exact (LessDef.idStr h _ _).ret
    · exact .inl rfl
  all_goals exact .inl rfl

/-- A chain whose answers are those of another one or `e0` at one level is so at all. -/
theorem LessDef.build {cu cu' : Customs} {ps ps' : List Plugin}
    (h : ∀ bs bs' : BS, (∀ v, LessDef e0 (bs v) (bs' v)) → ∀ v,
      LessDef e0 (firstSome (fun p => p.run cu bs v) ps) (firstSome (fun p => p.run cu' bs' v) ps')) (v : Val) :
    LessDef e0 (Whatami.build cu ps v) (Whatami.build cu' ps' v) := by
  have all : ∀ n v, LessDef e0 (buildN cu ps n v) (buildN cu' ps' n v) := by
    intro n
    induction n with
    | zero => intro v; exact .inl rfl
    | succ n ih => exact h _ _ ih
  exact all _ v

theorem LessDef.firstSome {f g : Plugin → R (Option Str)} (σ : Plugin → Plugin) (ps : List Plugin)
    (h : ∀ p ∈ ps, LessDef e0 (f (σ p)) (g p)) : LessDef e0 (Whatami.firstSome f (ps.map σ)) (Whatami.firstSome g ps) := by
  induction ps with
  | nil => exact .inl rfl
  | cons p ps ih =>
    have ih := ih fun q hq => h q (by simp [hq])
    simp only [List.map_cons, Whatami.firstSome]
    rcases h p (by simp) with h | h
    · rw [h]
      cases g p with
      | error e => exact .inl rfl
      | ok o =>
        cases o with
        | none => exact ih
        | some s => exact .inl rfl
    · rw [h]; exact .inr rfl

/-! ### Chains with a guard -/

/-- The basic plugins, then one that raises ImportError on the values that satisfy `g`, then the capture-all plugins. -/
def guarded (g : Val → Bool) : BS :=
  build (fun _ v => if g v then .error .importError else .ok none) (basicPlugins ++ [.custom 0, .any0x, .any])

theorem fails_guarded {g : Val → Bool} (hg : ∀ v, OfLib v → g v = true) (v : Val) :
    Fails (guarded g v) ↔ (Bad v ∨ (Late v ∧ g v = true)) ∨ ∃ x, Shown x v ∧ Fails (guarded g x) := by
  cases hl : lateVal v with
  | false =>
    have : ¬ Late v := fun h => by rw [(late_iff v).2 h] at hl; cases hl
    rw [guarded, fails_basic (basics _ _ (by decide)) v hl]
    simp [this]
  | true =>
    rw [guarded, late_build _ _ v hl]
    have hL := (late_iff v).1 hl
    cases hv : g v with
    | true =>
      rw [firstSome_error (e := .importError) (by simp only [Plugin.run, hv, if_true])]
      exact ⟨fun _ => .inl (.inr ⟨hL, rfl⟩), fun _ => ⟨_, rfl⟩⟩
    | false =>
      rw [firstSome_none (by simp [Plugin.run, hv])]
      have hn : ¬ OfLib v := fun h => by rw [hg v h] at hv; cases hv
      rw [show ∀ cu bs, firstSome (fun p => Plugin.run cu bs p v) [.any0x, .any] = .ok (some (captureAll v)) from fun _ bs => any0x_eq bs v]
      constructor
      · rintro ⟨e, h⟩; cases h
      · rintro ((h | ⟨-, h⟩) | ⟨x, h, -⟩)
        · cases h <;> first | (cases hL; done) | exact absurd (.rng _ _) hn
        · cases h
        · cases hL <;> cases h
          exact absurd (.rng _ _) hn

theorem guarded_exactly {g : Val → Bool} (hg : ∀ v, OfLib v → g v = true) (v : Val) :
    (∃ e, guarded g v = .error e) ↔ ∃ b, ShownIn b v ∧ (Bad b ∨ (Late b ∧ g b = true)) := by
  constructor
  · induction hd : depth v using Nat.strongRecOn generalizing v with
    | _ d ih =>
      intro h
      rcases (fails_guarded hg v).1 h with h | ⟨x, hx, hf⟩
      · exact ⟨v, .refl v, h⟩
      · obtain ⟨b, hb, hbad⟩ := ih (depth x) (by have := shown_depth hx; omega) x rfl hf
        exact ⟨b, .step hb hx, hbad⟩
  · rintro ⟨b, hs, hb⟩
    show Fails (guarded g v)
    induction hs with
    | refl => exact (fails_guarded hg _).2 (.inl hb)
    | step _ hx ih => exact (fails_guarded hg _).2 (.inr ⟨_, hx, ih⟩)

/-! ### C66 -/

/-- **C66**: missing libraries never change an id: whatever is installed, whichever plugins are in use and in whatever order (those of the user
have positive numbers), the text of a value is the one it has with everything installed, or else an ImportError is raised. -/
theorem c66_same (L : Libs) (cu : Customs) (ps : List Plugin) (h : .custom 0 ∉ ps) (v : Val) :
    L.build cu ps v = build cu ps v ∨ L.build cu ps v = .error .importError := by
  refine LessDef.build (fun bs bs' hb v => ?_) v
  refine LessDef.firstSome L.plugin ps fun p hp => ?_
  have noC : ∀ q : Plugin, q ≠ .custom 0 → LessDef .importError (q.run (missingLib cu) bs v) (q.run cu bs' v) := by
    intro q hq
    have := LessDef.run hb (missingLib cu) q v
    have e : q.run (missingLib cu) bs' v = q.run cu bs' v := by
      cases q with
      | custom n =>
        cases n with
        | zero => exact absurd rfl hq
        | succ n => rfl
      | _ => rfl
    rw [e] at this
    exact this
  cases p with
  | custom n => exact noC _ fun e => h (e ▸ hp)
  | pandas =>
    cases hL : L.pandas <;> simp only [Libs.plugin, hL]
    · exact .inr rfl
    · exact noC _ (by simp)
  | numpy =>
    cases hL : L.numpy <;> simp only [Libs.plugin, hL]
    · exact .inr rfl
    · exact noC _ (by simp)
  | rng =>
    cases hL : L.numpy <;> simp only [Libs.plugin, hL]
    · exact .inr rfl
    · exact noC _ (by simp)
  | _ => exact noC _ (by simp [Libs.plugin])

/-- **C66** for ids. -/
theorem c66_same_id (L : Libs) (cu : Customs) (ps : List Plugin) (h : .custom 0 ∉ ps) (w : What) (nonidsToo : Bool) :
    idStr (L.build cu ps) w nonidsToo = idStr (build cu ps) w nonidsToo ∨ idStr (L.build cu ps) w nonidsToo = .error .importError :=
  LessDef.idStr (fun v => c66_same L cu ps h v) w nonidsToo

/-- **C66**: with all libraries there is no difference. -/
theorem c66_complete (cu : Customs) (v : Val) : Libs.build ⟨true, true⟩ cu defaultPlugins v = build cu defaultPlugins v := by
  have := c14_never_consulted (missingLib cu) cu (basicPlugins ++ [.pandas, .numpy, .rng, .any0x]) [] [] .any v
    (by intro n hn; simp [basicPlugins] at hn) (fun _ _ => by simp [Plugin.run, anyPlugin])
  exact this

theorem no_pandas (L : Libs) (h : L.pandas = false) (cu : Customs) (v : Val) : L.build cu defaultPlugins v = guarded (fun _ => true) v := by
  obtain ⟨np, pd⟩ := L
  simp only at h; subst h
  have := c14_never_consulted (missingLib cu) (fun _ _ => .error .importError) basicPlugins
    ([.numpy, .rng, .any0x, .any].map (Libs.plugin ⟨np, false⟩)) [.any0x, .any] (.custom 0) v
    (by
      intro n hn
      simp [basicPlugins] at hn
      subst hn; rfl)
    (fun _ _ => by simp [Plugin.run, missingLib])
  exact this

/-- **C66**: without pandas, and with the default plugins, the text of a value raises exactly if something that shows in it is None, a boolean,
a number, a class or an object that does not tell its What (or is refused anyway, see C17). -/
theorem c66_without_pandas (L : Libs) (h : L.pandas = false) (cu : Customs) (v : Val) :
    (∃ e, L.build cu defaultPlugins v = .error e) ↔ ∃ b, ShownIn b v ∧ (Bad b ∨ Late b) := by
  rw [no_pandas L h, guarded_exactly fun _ _ => rfl]
  simp

/-- **C66**: and if nothing in it is refused, what is raised is the ImportError. -/
theorem c66_import_error (L : Libs) (h : L.pandas = false) (v : Val) (fine : ∀ b, ShownIn b v → ¬ Bad b) :
    L.build noCustom defaultPlugins v = .error .importError ↔ ∃ b, ShownIn b v ∧ Late b := by
  have hex := c66_without_pandas L h noCustom v
  constructor
  · intro he
    obtain ⟨b, hb, hbad | hl⟩ := hex.1 ⟨_, he⟩
    · exact absurd hbad (fine b hb)
    · exact ⟨b, hb, hl⟩
  · rintro ⟨b, hb, hl⟩
    rcases c66_same L noCustom defaultPlugins (by decide) v with hs | hs
    · obtain ⟨e, he⟩ := hex.2 ⟨b, hb, .inr hl⟩
      rw [hs] at he
      obtain ⟨b', hb', hbad⟩ := (c17_exactly v).1 ⟨e, he⟩
      exact absurd hbad (fine b' hb')
    · exact hs

/-- **C66**: dropping `pandas_plugin` is a remedy if numpy is installed (there are no data frames without pandas). -/
theorem c66_dropped (named : Nat → Bool) (L : Libs) (h : L.numpy = true) (cu : Customs) (v : Val) :
    L.build cu (mstep named defaultPlugins (.drop .pandas)).1 v = build cu defaultPlugins v := by
  obtain ⟨np, pd⟩ := L
  simp only at h; subst h
  have e1 := c14_never_consulted (missingLib cu) cu (basicPlugins ++ [.numpy, .rng, .any0x]) [] [] .any v
    (by intro n hn; simp [basicPlugins] at hn) (fun _ _ => by simp [Plugin.run, anyPlugin])
  rw [show Libs.build ⟨true, pd⟩ cu (mstep named defaultPlugins (.drop .pandas)).1 v = build cu (basicPlugins ++ [.numpy, .rng, .any0x, .any]) v from e1]
  have all : ∀ n v, buildN cu (basicPlugins ++ [.numpy, .rng, .any0x, .any]) n v = buildN cu defaultPlugins n v := by
    intro n
    induction n with
    | zero => intro v; rfl
    | succ n ih =>
      intro v
      simp only [buildN]
      rw [funext ih]
      have : ∀ (f : Plugin → R (Option Str)) (pre post : List Plugin), f .pandas = f .numpy →
          firstSome f (pre ++ .numpy :: post) = firstSome f (pre ++ .pandas :: .numpy :: post) := by
        intro f pre post h
        induction pre with
        | nil =>
          simp only [List.nil_append, firstSome, h]
          cases f .numpy with
          | error e => rfl
          | ok o => cases o <;> rfl
        | cons p pre ih => simp only [List.cons_append, firstSome, ih]
      exact this _ basicPlugins [.rng, .any0x, .any] rfl
  exact all _ v

/-- `OfLib`, as a test. -/
def ofLib : Val → Bool
  | .array _ _ | .rng _ _ => true
  | _ => false

/-- **C66**: dropping all three plugins is a remedy whatever is installed, for values that show nothing of those libraries. -/
theorem c66_dropped_all (named : Nat → Bool) (L : Libs) (v : Val) (fine : ∀ b, ShownIn b v → ¬ Bad b ∧ ¬ OfLib b) :
    L.build noCustom (mrun named defaultPlugins [.drop .pandas, .drop .numpy, .drop .rng]) v = buildD v := by
  have hg : ∀ u, OfLib u → ofLib u = true := by intro u h; cases h <;> rfl
  have hg' : ∀ u, ofLib u = true → OfLib u := by intro u h; cases u <;> simp [ofLib] at h <;> constructor
  have hok : ∃ s, guarded ofLib v = .ok s := by
    refine not_fails.1 fun hf => ?_
    obtain ⟨b, hb, h | ⟨-, h⟩⟩ := (guarded_exactly hg v).1 hf
    · exact (fine b hb).1 h
    · exact (fine b hb).2 (hg' b h)
  obtain ⟨s, hs⟩ := hok
  -- both chains do what the guarded one does, where it does not raise
  have late : ∀ (cu : Customs) (rest : List Plugin), (∀ bs u, ofLib u = false →
        firstSome (fun p => p.run cu bs u) rest = firstSome (fun p => p.run noCustom bs u) [.any0x, .any]) →
      build cu (basicPlugins ++ rest) v = .ok s := by
    intro cu rest hr
    have : LessDef .importError (guarded ofLib v) (build cu (basicPlugins ++ rest) v) := by
      refine LessDef.build (fun bs bs' hb u => ?_) v
      have key : ∀ pre : List Plugin, (∀ n, .custom n ∉ pre) → LessDef .importError
          (firstSome (fun p => p.run (fun _ v => if ofLib v then .error .importError else .ok none) bs u) (pre ++ [.custom 0, .any0x, .any]))
          (firstSome (fun p => p.run cu bs' u) (pre ++ rest)) := by
        intro pre hpre
        induction pre with
        | nil =>
          cases hu : ofLib u with
          | true => exact .inr (firstSome_error (by simp only [Plugin.run, hu, if_true]))
          | false =>
            left
            rw [List.nil_append, List.nil_append, hr bs' u hu, firstSome_none (by simp [Plugin.run, hu]), any0x_eq]
            exact any0x_eq _ u
        | cons p pre ih =>
          have ih := ih fun n hn => hpre n (by simp [hn])
          have hp : LessDef .importError (p.run (fun _ v => if ofLib v then .error .importError else .ok none) bs u) (p.run cu bs' u) := by
            have e : ∀ cu' : Customs, p.run cu' bs u = p.run cu bs u := by
              intro cu'
              cases p with
              | custom n => exact absurd (by simp) (hpre n)
              | _ => rfl
            rw [e]
            exact LessDef.run hb cu p u
          simp only [List.cons_append, Whatami.firstSome]
          rcases hp with h | h
          · rw [h]
            cases Plugin.run cu bs' p u with
            | error e => exact .inl rfl
            | ok o =>
              cases o with
              | none => exact ih
              | some s => exact .inl rfl
          · rw [h]; exact .inr rfl
      exact key basicPlugins (by simp [basicPlugins])
    rcases this with h | h
    · rw [← h, hs]
    · rw [hs] at h; cases h
  have h1 := late (missingLib noCustom) [.any0x, .any] (fun bs u _ => rfl)
  have h2 := late noCustom [.pandas, .numpy, .rng, .any0x, .any] (by
    intro bs u hu
    have ha : arrayPlugin u = .ok none := by cases u <;> first | rfl | cases hu
    have hr : rngPlugin bs u = .ok none := by cases u <;> first | rfl | cases hu
    rw [firstSome_none (by exact ha), firstSome_none (by exact ha), firstSome_none (by exact hr)])
  exact h1.trans h2.symm

/-- **C66**: `has_numpy()` and `has_pandas()` never return False: without the library the first one raises and the second one is True. -/
theorem c66_has (L : Libs) : L.hasNumpy ≠ .ok false ∧ L.hasPandas ≠ .ok false ∧
    (L.hasNumpy = .ok true ↔ L.numpy = true) ∧ (L.hasNumpy = .error .importError ↔ L.numpy = false) ∧ L.hasPandas = .ok true := by
  refine ⟨?_, by simp [Libs.hasPandas], ?_, ?_, rfl⟩ <;> cases h : L.numpy <;> simp [Libs.hasNumpy, h]

/-- Without pandas `f(x=1)` has no id, `f(x='1')` does; with `pandas_plugin` dropped both do. -/
example : idStr (Libs.build ⟨true, false⟩ noCustom defaultPlugins) { name := c!"f", conf := [(c!"x", .int 1)] } false = .error .importError := by
  decide +kernel
example : idStr (Libs.build ⟨true, false⟩ noCustom defaultPlugins) { name := c!"f", conf := [(c!"x", .str c!"1")] } false = .ok c!"f(x='1')" := by
  decide +kernel
example : idStr (Libs.build ⟨true, false⟩ noCustom (mstep (fun _ => true) defaultPlugins (.drop .pandas)).1) { name := c!"f", conf := [(c!"x", .int 1)] } false =
    .ok c!"f(x=1)" := by decide +kernel
/-- A value that meets the hypotheses of `c66_import_error` and has a late value two levels down. -/
example : ShownIn (.int 1) (.list [.what c!"f" [(c!"x", .int 1)] [] none]) ∧ Late (.int 1) :=
  ⟨.step (.step (.refl _) (.what _ _ (k := c!"x") (by simp) (by simp))) (.list (List.mem_singleton.2 rfl)), .int 1⟩

end Whatami
