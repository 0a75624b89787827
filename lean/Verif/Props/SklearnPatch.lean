import Verif.SklearnPatch
import Verif.Props.Sklearn
import Verif.Props.ClassGraph
import Verif.Encode

/-
C76: whatamize_sklearn as a whole.

Specification: `GoesBy`, `Declared` (Props/Sklearn), `HasWhat`, `WhatIs` (Props/ClassGraph), `IsBase`, `Tries`.
-/
namespace Whatami

/-- A class that is patched. -/
def IsBase (W : SklWorld) (c : Nat) : Prop := c = W.base ∨ .ok c ∈ W.bases

/-! ### The registry -/

theorem dict_ext {κ ν : Type} [DecidableEq κ] {d d' : List (κ × ν)} (hn : (d.map Prod.fst).Nodup) (hk : d'.map Prod.fst = d.map Prod.fst)
    (hg : ∀ k, dget d' k = dget d k) : d' = d := by
  induction d generalizing d' with
  | nil => simpa using hk
  | cons x d ih =>
    cases d' with
    | nil => simp at hk
    | cons y d' =>
      obtain ⟨k, v⟩ := x
      obtain ⟨k', v'⟩ := y
      simp only [List.map_cons, List.cons.injEq] at hk
      obtain ⟨rfl, hk⟩ := hk
      obtain ⟨h1, h2⟩ := List.nodup_cons.1 hn
      have hv := hg k'
      simp only [dget, if_true, Option.some.injEq] at hv
      subst hv
      congr 1
      refine ih h2 hk fun j => ?_
      by_cases e : k' = j
      · subst e
        have hnone : ∀ d : List (κ × ν), k' ∉ d.map Prod.fst → dget d k' = none := by
          intro d
          induction d with
          | nil => intro _; rfl
          | cons z d ih =>
            intro h
            simp only [List.map_cons, List.mem_cons, not_or] at h
            have hz : ¬ z.1 = k' := fun e => h.1 e.symm
            simp only [dget, if_neg hz]
            exact ih h.2
        rw [hnone d' (hk ▸ h1), hnone d h1]
      · have := hg j
        simpa only [dget, if_neg e] using this

/-- Declarations one after the other. -/
def putAll (reg : SklReg) (ds : List Declaration) : SklReg := ds.foldl (fun r d => dset r d.1 { short := d.2.1.getD d.1, nonids := d.2.2 }) reg

theorem declareAll_eq (reg : SklReg) (ds : List Declaration) : declareAll reg ds = .ok (putAll reg ds) := by
  induction ds generalizing reg with
  | nil => rfl
  | cons d ds ih => simp only [declareAll, declare, Bool.not_true, Bool.false_and, Bool.false_eq_true, if_false, ih]; rfl

theorem putAll_append (reg : SklReg) (a b : List Declaration) : putAll reg (a ++ b) = putAll (putAll reg a) b := List.foldl_append

theorem putAll_get (reg : SklReg) (ds : List Declaration) (cls : Str) (m : SklMeta) :
    dget (putAll reg ds) cls = some m ↔ Declared ds cls m ∨ cls ∉ ds.map Prod.fst ∧ dget reg cls = some m := by
  obtain ⟨r, h1, h2⟩ := c59_declared reg ds
  rw [declareAll_eq] at h1
  cases h1
  exact h2 cls m

theorem putAll_nodup {reg : SklReg} (h : (reg.map Prod.fst).Nodup) (ds : List Declaration) : ((putAll reg ds).map Prod.fst).Nodup := by
  induction ds generalizing reg with
  | nil => exact h
  | cons d ds ih => exact ih (nodup_dset h _ _)

theorem keys_put {reg : SklReg} {k : Str} {m : SklMeta} (h : k ∈ reg.map Prod.fst) : (dset reg k m).map Prod.fst = reg.map Prod.fst := by
  induction reg with
  | nil => cases h
  | cons x r ih =>
    obtain ⟨k', v⟩ := x
    simp only [dset]
    split
    · rfl
    · rename_i e
      simp only [List.map_cons, List.mem_cons] at h
      rcases h with h | h
      · exact absurd h.symm e
      · simp [ih h]

theorem mem_put {reg : SklReg} {k j : Str} {m : SklMeta} : j ∈ (dset reg k m).map Prod.fst ↔ j ∈ reg.map Prod.fst ∨ j = k := by
  rw [or_comm]
  exact mem_dkeys_dset

theorem keys_putAll {reg : SklReg} {ds : List Declaration} (h : ∀ d ∈ ds, d.1 ∈ reg.map Prod.fst) : (putAll reg ds).map Prod.fst = reg.map Prod.fst := by
  induction ds generalizing reg with
  | nil => rfl
  | cons d ds ih =>
    have h1 := keys_put (m := { short := d.2.1.getD d.1, nonids := d.2.2 }) (h d (.head _))
    have := ih (reg := dset reg d.1 { short := d.2.1.getD d.1, nonids := d.2.2 }) (fun x hx => by rw [h1]; exact h x (.tail _ hx))
    rw [← h1, ← this]
    rfl

theorem mem_putAll {reg : SklReg} {ds : List Declaration} {j : Str} : j ∈ (putAll reg ds).map Prod.fst ↔ j ∈ reg.map Prod.fst ∨ j ∈ ds.map Prod.fst := by
  induction ds generalizing reg with
  | nil => simp [putAll]
  | cons d ds ih =>
    have := ih (reg := dset reg d.1 { short := d.2.1.getD d.1, nonids := d.2.2 })
    rw [mem_put] at this
    rw [List.map_cons, List.mem_cons, ← or_assoc]
    exact this

theorem putAll_again {reg : SklReg} (h : (reg.map Prod.fst).Nodup) (ds : List Declaration) : putAll (putAll reg ds) ds = putAll reg ds := by
  refine dict_ext (putAll_nodup h ds) (keys_putAll fun d hd => mem_putAll.2 (.inr (List.mem_map_of_mem hd))) fun k => ?_
  have : ∀ m, dget (putAll (putAll reg ds) ds) k = some m ↔ dget (putAll reg ds) k = some m := by
    intro m
    rw [putAll_get, putAll_get]
    constructor
    · rintro (h | ⟨h1, h | ⟨-, h⟩⟩)
      · exact .inl h
      · exact .inl h
      · exact .inr ⟨h1, h⟩
    · rintro (h | ⟨h1, h⟩)
      · exact .inl h
      · exact .inr ⟨h1, .inr ⟨h1, h⟩⟩
  cases h1 : dget (putAll reg ds) k with
  | some m => exact (this m).2 h1
  | none =>
    cases h2 : dget (putAll (putAll reg ds) ds) k with
    | none => rfl
    | some m => rw [(this m).1 h2] at h1; cases h1

theorem putAll_retry {reg : SklReg} (h : (reg.map Prod.fst).Nodup) (a b : List Declaration) : putAll (putAll reg a) (a ++ b) = putAll reg (a ++ b) := by
  rw [putAll_append, putAll_append, putAll_again h]

/-! ### The declarations, with their imports -/

/-- All the imports of a sequence of sections, and all its declarations. -/
def importsOf (ss : List (List SklImport × List Declaration)) : List SklImport := ss.flatMap Prod.fst
def declsOf (ss : List (List SklImport × List Declaration)) : List Declaration := ss.flatMap Prod.snd

theorem sections_all {is : List (List SklImport × Nat)} {ds : List Declaration} (h : ds.length ≤ (is.map Prod.snd).sum) : declsOf (sections is ds) = ds := by
  induction is generalizing ds with
  | nil => cases ds with
    | nil => rfl
    | cons d ds => simp at h
  | cons x is ih =>
    simp only [sections, declsOf, List.flatMap_cons] at ih ⊢
    rw [ih (by simp only [List.map_cons, List.sum_cons, List.length_drop] at h ⊢; omega), List.take_append_drop]

/-- Every declaration of the tables comes after some of the imports. -/
theorem scripts_versions : supportedScripts.map (fun p => (p.1, declsOf p.2)) = supportedVersions := by
  have h1 : declsOf (sections imports0_15_1 table0_15_1) = table0_15_1 := sections_all (by decide +kernel)
  have h2 : declsOf (sections imports0_19_1 table0_19_1) = table0_19_1 := sections_all (by decide +kernel)
  unfold supportedScripts supportedVersions
  rw [← sortBy_map (f := fun p : SVersion × List (List SklImport × List Declaration) => (p.1, declsOf p.2)) (le' := fun x y => x.1.le y.1) (fun _ _ => rfl)]
  simp only [List.map_cons, List.map_nil, h1, h2]

theorem choose_map {α β : Type} (g : α → β) (v : SVersion) (ls : List (SVersion × α)) :
    chooseVersion v (ls.map fun p => (p.1, g p.2)) = (chooseVersion v ls).map fun p => (p.1, g p.2) := by
  induction ls with
  | nil => rfl
  | cons a ls ih =>
    cases ls with
    | nil => rfl
    | cons b ls =>
      simp only [List.map_cons, chooseVersion]
      split
      · rfl
      · exact ih

theorem choose_mem {α : Type} {v : SVersion} {ls : List (SVersion × α)} {x : SVersion × α} (h : chooseVersion v ls = some x) : x ∈ ls := by
  induction ls with
  | nil => cases h
  | cons a ls ih =>
    cases ls with
    | nil => cases h; exact .head _
    | cons b ls =>
      simp only [chooseVersion] at h
      split at h
      · cases h; exact .head _
      · exact .tail _ (ih h)

/-- The script of the version to go by. -/
theorem script_of (installed : SVersion) : ∃ v ss, chooseVersion installed supportedScripts = some (v, ss) ∧ GoesBy installed (v, declsOf ss) := by
  obtain ⟨⟨v, ds⟩, hc⟩ := choice_some installed (List.ne_nil_of_mem ((mem_supported _).2 (.inl rfl)))
  have := choose_map declsOf installed supportedScripts
  rw [scripts_versions, hc] at this
  cases h : chooseVersion installed supportedScripts with
  | none => rw [h] at this; cases this
  | some p =>
    obtain ⟨v', ss⟩ := p
    rw [h] at this
    cases this
    exact ⟨v', ss, rfl, goesBy_of hc⟩

/-- A run of the sections either goes through or stops at an import, having made the declarations before it. -/
theorem run_spec (fails : SklImport → Option Err) (reg : SklReg) (ss : List (List SklImport × List Declaration)) :
    ((runSections fails reg ss).2 = none → (∀ i ∈ importsOf ss, fails i = none) ∧ (runSections fails reg ss).1 = putAll reg (declsOf ss)) ∧
    (∀ e, (runSections fails reg ss).2 = some e → ∃ before sec after, ss = before ++ sec :: after ∧ (∃ i ∈ sec.1, fails i = some e) ∧
      (∀ i ∈ importsOf before, fails i = none) ∧ (runSections fails reg ss).1 = putAll reg (declsOf before)) := by
  induction ss generalizing reg with
  | nil => exact ⟨fun _ => ⟨by simp [importsOf], rfl⟩, fun e h => by cases h⟩
  | cons s ss ih =>
    obtain ⟨is, ds⟩ := s
    simp only [runSections]
    cases hf : is.findSome? fails with
    | some e0 =>
      refine ⟨fun h => by simp at h, fun e h => ?_⟩
      cases h
      obtain ⟨i, hi, he⟩ := List.exists_of_findSome?_eq_some hf
      exact ⟨[], (is, ds), ss, rfl, ⟨i, hi, he⟩, by simp [importsOf], rfl⟩
    | none =>
      rw [List.findSome?_eq_none_iff] at hf
      simp only [declareAll_eq]
      obtain ⟨h1, h2⟩ := ih (putAll reg ds)
      refine ⟨fun h => ?_, fun e h => ?_⟩
      · obtain ⟨a, b⟩ := h1 h
        refine ⟨?_, ?_⟩
        · intro i hi
          simp only [importsOf, List.flatMap_cons, List.mem_append] at hi
          exact hi.elim (hf i) (a i)
        · rw [b]
          simp only [declsOf, List.flatMap_cons, putAll_append]
      · obtain ⟨b, sec, a, h3, h4, h5, h6⟩ := h2 e h
        refine ⟨(is, ds) :: b, sec, a, by rw [h3]; rfl, h4, ?_, ?_⟩
        · intro i hi
          simp only [importsOf, List.flatMap_cons, List.mem_append] at hi
          exact hi.elim (hf i) (h5 i)
        · rw [h6]
          simp only [declsOf, List.flatMap_cons, putAll_append]

/-! ### The classes -/

theorem bases_ok {F : Type} {mro : Nat → List Nat} {f : F} {own own' : WhatAttrs F} {cs : List (R Nat)} :
    whatamizeBases mro f own cs = (own', none) ↔ whatamizeAll mro f own cs = .ok own' := by
  induction cs generalizing own with
  | nil => simp [whatamizeBases, whatamizeAll]
  | cons c cs ih =>
    simp only [whatamizeBases, whatamizeAll]
    cases whatamizeObject mro own c f false false with
    | error e => simp
    | ok o => exact ih

/-- The bases before the one that raised are done. -/
theorem bases_raise {F : Type} {mro : Nat → List Nat} {f : F} {own own' : WhatAttrs F} {cs : List (R Nat)} {e : Err}
    (h : whatamizeBases mro f own cs = (own', some e)) :
    ∃ before after, cs = before ++ .error e :: after ∧ e ≠ .importError ∧ whatamizeAll mro f own before = .ok own' := by
  induction cs generalizing own with
  | nil => cases h
  | cons c cs ih =>
    simp only [whatamizeBases] at h
    cases hw : whatamizeObject mro own c f false false with
    | error e' =>
      rw [hw] at h
      cases h
      cases c with
      | error e1 =>
        rw [c58_import] at hw
        split at hw
        · cases hw
        · rename_i hn
          cases hw
          exact ⟨[], cs, rfl, fun he => hn ⟨he, rfl⟩, rfl⟩
      | ok c =>
        simp only [whatamizeObject] at hw
        split at hw <;> cases hw
    | ok o =>
      rw [hw] at h
      obtain ⟨b, a, h1, h2, h3⟩ := ih h
      exact ⟨c :: b, a, by rw [h1]; rfl, h2, by simp only [whatamizeAll, hw, h3]⟩

theorem base_first {F : Type} (mro : Nat → List Nat) (own : WhatAttrs F) (c : Nat) (f : F) :
    whatamizeObject mro own (.ok c) f true false = whatamizeObject mro own (.ok c) f false false := rfl

theorem object_ok {F : Type} (mro : Nat → List Nat) (own : WhatAttrs F) (c : Nat) (f : F) :
    ∃ own', whatamizeObject mro own (.ok c) f false false = .ok own' := by
  simp only [whatamizeObject]
  split
  · exact ⟨_, rfl⟩
  · exact ⟨_, rfl⟩

/-- The parts of a call. -/
theorem patch_cases {F : Type} (W : SklWorld) (f : F) (s : SklState F) :
    ∃ v ss, GoesBy W.installed (v, declsOf ss) ∧ chooseVersion W.installed supportedScripts = some (v, ss) ∧
      (let w := s.warned + if v = W.installed then 0 else 1
       ((∃ e before sec after, ss = before ++ sec :: after ∧ (∃ i ∈ sec.1, W.importFails i = some e) ∧ (∀ i ∈ importsOf before, W.importFails i = none) ∧
          whatamizeSklearn W f s = (⟨putAll s.reg (declsOf before), s.own, w⟩, some e)) ∨
        ((∀ i ∈ importsOf ss, W.importFails i = none) ∧
          ((∃ e before after own', W.bases = before ++ .error e :: after ∧ e ≠ .importError ∧ whatamizeAll W.mro f s.own (.ok W.base :: before) = .ok own' ∧
            whatamizeSklearn W f s = (⟨putAll s.reg (declsOf ss), own', w⟩, some e)) ∨
           ∃ own', whatamizeAll W.mro f s.own (.ok W.base :: W.bases) = .ok own' ∧
            whatamizeSklearn W f s = (⟨putAll s.reg (declsOf ss), own', w⟩, none))))) := by
  obtain ⟨v, ss, hc, hg⟩ := script_of W.installed
  refine ⟨v, ss, hg, hc, ?_⟩
  have hw : (if v != W.installed then s.warned + 1 else s.warned) = s.warned + if v = W.installed then 0 else 1 := by
    by_cases e : v = W.installed <;> simp [e]
  obtain ⟨h1, h2⟩ := run_spec W.importFails s.reg ss
  obtain ⟨own1, ho⟩ := object_ok W.mro s.own W.base f
  simp only [whatamizeSklearn, declareSkl, hc, hw, whatamizeAll, base_first, ho]
  cases hr : runSections W.importFails s.reg ss with
  | mk r e =>
    rw [hr] at h1 h2
    cases e with
    | some e =>
      obtain ⟨b, sec, a, h3, h4, h5, h6⟩ := h2 e rfl
      simp only at h6
      subst h6
      exact .inl ⟨e, b, sec, a, h3, h4, h5, rfl⟩
    | none =>
      obtain ⟨h3, h4⟩ := h1 rfl
      simp only at h4
      subst h4
      refine .inr ⟨h3, ?_⟩
      simp only [ho]
      cases hb : whatamizeBases W.mro f own1 W.bases with
      | mk o e =>
        cases e with
        | none => exact .inr ⟨o, bases_ok.1 hb, rfl⟩
        | some e =>
          obtain ⟨b, a, h5, h6, h7⟩ := bases_raise hb
          exact .inl ⟨e, b, a, o, h5, h6, h7, rfl⟩

/-- **C76**: after `whatamize_sklearn()` the registry has the last declarations made for the version to go by, over what was there before; every
class below `BaseEstimator` or another base that could be imported has a `what`, the given one if it had none; classes that define their own keep
it, and the others see no change; there was a warning exactly if the version is not a checked one. -/
theorem c76_done {F : Type} {W : SklWorld} (hm : Resolved W.mro) {f : F} {s s' : SklState F} (h : whatamizeSklearn W f s = (s', none)) :
    (∃ p, GoesBy W.installed p ∧
      (∀ cls m, dget s'.reg cls = some m ↔ Declared p.2 cls m ∨ cls ∉ p.2.map Prod.fst ∧ dget s.reg cls = some m) ∧
      s'.warned = s.warned + if p.1 = W.installed then 0 else 1) ∧
    (∀ k c, IsBase W c → c ∈ W.mro k → HasWhat W.mro s'.own k ∧ (¬ HasWhat W.mro s.own k → WhatIs W.mro s'.own k f)) ∧
    (∀ d x, s.own d = some x → s'.own d = some x) ∧
    (∀ k, (∀ c, IsBase W c → c ∉ W.mro k) → ∀ x, WhatIs W.mro s'.own k x ↔ WhatIs W.mro s.own k x) := by
  obtain ⟨v, ss, hg, -, hc⟩ := patch_cases W f s
  rcases hc with ⟨e, _, _, _, _, _, _, hc⟩ | ⟨-, ⟨e, _, _, _, _, _, _, hc⟩ | ⟨own', ha, hc⟩⟩
  · rw [h] at hc; cases hc
  · rw [h] at hc; cases hc
  · rw [h] at hc
    cases hc
    obtain ⟨h1, h2, h3⟩ := c58_all hm f ha
    have hb : ∀ c, (.ok c ∈ (.ok W.base :: W.bases : List (R Nat))) ↔ IsBase W c := by
      intro c
      simp [IsBase]
    refine ⟨⟨_, hg, fun cls m => putAll_get _ _ _ _, rfl⟩, fun k c hc => h1 k c ((hb c).2 hc), h2, fun k hk => h3 k fun c hc => hk c ((hb c).1 hc)⟩

/-- C76: it raises exactly if an import of the declarations fails or a base cannot be resolved for another reason than a failing import. -/
theorem c76_succeeds {F : Type} (W : SklWorld) (f : F) (s : SklState F) : ∃ p ∈ supportedScripts, GoesBy W.installed (p.1, declsOf p.2) ∧
    ((∃ s', whatamizeSklearn W f s = (s', none)) ↔ (∀ i ∈ importsOf p.2, W.importFails i = none) ∧ ∀ e, .error e ∈ W.bases → e = .importError) := by
  obtain ⟨v, ss, hg, hch, hc⟩ := patch_cases W f s
  have hmem : (v, ss) ∈ supportedScripts := choose_mem hch
  refine ⟨(v, ss), hmem, hg, ?_⟩
  rcases hc with ⟨e, b, sec, a, hs, ⟨i, hi, he⟩, hb, hc⟩ | ⟨hi, ⟨e, b, a, own', hs, he, ha, hc⟩ | ⟨own', ha, hc⟩⟩
  · rw [hc]
    constructor
    · rintro ⟨s', h⟩; cases h
    · rintro ⟨h, -⟩
      have := h i (by simp only [hs, importsOf, List.flatMap_append, List.flatMap_cons, List.mem_append]; exact .inr (.inl hi))
      rw [he] at this
      cases this
  · rw [hc]
    constructor
    · rintro ⟨s', h⟩; cases h
    · rintro ⟨-, h⟩
      exact absurd (h e (by simp [hs])) he
  · rw [hc]
    refine ⟨fun _ => ⟨hi, ?_⟩, fun _ => ⟨_, rfl⟩⟩
    have : ∀ (own : WhatAttrs F) (cs : List (R Nat)), whatamizeAll W.mro f own cs = .ok own' → ∀ e, .error e ∈ cs → e = .importError := by
      intro own cs
      induction cs generalizing own with
      | nil => intro _ e he; cases he
      | cons c cs ih =>
        intro h e he
        simp only [whatamizeAll] at h
        cases hw : whatamizeObject W.mro own c f false false with
        | error e => simp [hw] at h
        | ok own1 =>
          simp only [hw] at h
          rcases List.mem_cons.1 he with rfl | he
          · rw [c58_import] at hw
            split at hw
            · rename_i hx; exact hx.1
            · cases hw
          · exact ih own1 h e he
    exact fun e he => this _ _ ha e (.tail _ he)

/-- C76: if it raises, either an import failed, and no class was touched, the registry having the declarations before it; or a base could not be
resolved, and the registry is complete and `BaseEstimator` has a `what`.  In any case no class lost a `what`, and only bases got the given one. -/
theorem c76_raises {F : Type} {W : SklWorld} (hm : Resolved W.mro) {f : F} {s s' : SklState F} {e : Err} (h : whatamizeSklearn W f s = (s', some e)) :
    (∃ p ∈ supportedScripts, GoesBy W.installed (p.1, declsOf p.2) ∧
      ((s'.own = s.own ∧ ∃ before sec after, p.2 = before ++ sec :: after ∧ (∃ i ∈ sec.1, W.importFails i = some e) ∧
          ∀ cls m, dget s'.reg cls = some m ↔ Declared (declsOf before) cls m ∨ cls ∉ (declsOf before).map Prod.fst ∧ dget s.reg cls = some m) ∨
       (.error e ∈ W.bases ∧ e ≠ .importError ∧ HasWhat W.mro s'.own W.base ∧
          ∀ cls m, dget s'.reg cls = some m ↔ Declared (declsOf p.2) cls m ∨ cls ∉ (declsOf p.2).map Prod.fst ∧ dget s.reg cls = some m))) ∧
    (∀ d x, s.own d = some x → s'.own d = some x) ∧
    (∀ d x, s'.own d = some x → s.own d = some x ∨ x = f ∧ IsBase W d) := by
  obtain ⟨v, ss, hg, hch, hc⟩ := patch_cases W f s
  have hmem : (v, ss) ∈ supportedScripts := choose_mem hch
  rcases hc with ⟨e', b, sec, a, hs, hi, hb, hc⟩ | ⟨hi, ⟨e', b, a, own', hs, he, ha, hc⟩ | ⟨own', ha, hc⟩⟩
  · rw [h] at hc
    cases hc
    exact ⟨⟨_, hmem, hg, .inl ⟨rfl, b, sec, a, hs, hi, fun cls m => putAll_get _ _ _ _⟩⟩, fun _ _ h => h, fun _ _ h => .inl h⟩
  · rw [h] at hc
    cases hc
    have hd := all_done hm f ha
    refine ⟨⟨_, hmem, hg, .inr ⟨by simp [hs], he, hd.has _ (.head _), fun cls m => putAll_get _ _ _ _⟩⟩, hd.kept, fun d x hx => ?_⟩
    rcases hd.new d x hx with h | ⟨h1, h2⟩
    · exact .inl h
    · refine .inr ⟨h1, ?_⟩
      rcases List.mem_cons.1 h2 with h2 | h2
      · cases h2; exact .inl rfl
      · exact .inr (by rw [hs]; exact List.mem_append_left _ h2)
  · rw [h] at hc
    cases hc

/-- Any number of calls, the imports failing now and then, raising or not. -/
inductive Tries {F : Type} (W : SklWorld) (f : F) : SklState F → SklState F → Prop where
  | done (s : SklState F) : Tries W f s s
  | call {s s1 s2 : SklState F} (fails : SklImport → Option Err) (r : Option Err) :
    whatamizeSklearn { W with importFails := fails } f s = (s1, r) → Tries W f s1 s2 → Tries W f s s2

theorem tries_nodup {F : Type} {W : SklWorld} {f : F} {s s' : SklState F} (h : Tries W f s s') (hn : (s.reg.map Prod.fst).Nodup) :
    (s'.reg.map Prod.fst).Nodup := by
  induction h with
  | done => exact hn
  | @call s s1 s2 fails r h1 _ ih =>
    refine ih ?_
    obtain ⟨v, ss, -, -, hc⟩ := patch_cases { W with importFails := fails } f s
    rcases hc with ⟨_, _, _, _, _, _, _, hc⟩ | ⟨-, ⟨_, _, _, _, _, _, _, hc⟩ | ⟨_, _, hc⟩⟩ <;>
    · rw [h1] at hc
      cases hc
      exact putAll_nodup hn _

/-- C76: what earlier calls did, also if they were interrupted, makes no difference to what a successful call leaves behind. -/
theorem c76_retry {F : Type} {W : SklWorld} (hm : Resolved W.mro) {f : F} {s s1 s2 : SklState F} (hn : (s.reg.map Prod.fst).Nodup) (ht : Tries W f s s1)
    (h : whatamizeSklearn W f s1 = (s2, none)) : ∃ s3, whatamizeSklearn W f s = (s3, none) ∧ s3.reg = s2.reg ∧ s3.own = s2.own := by
  induction ht generalizing s2 with
  | done s => exact ⟨s2, h, rfl, rfl⟩
  | @call s s1 s1' fails r h1 ht ih =>
    have hn1 : (s1.reg.map Prod.fst).Nodup := tries_nodup (.call fails r h1 (.done s1)) hn
    obtain ⟨s3, h3, hr, ho⟩ := ih hn1 h
    obtain ⟨v, ss, -, hch, hc⟩ := patch_cases W f s1
    rcases hc with ⟨_, _, _, _, _, _, _, hc⟩ | ⟨hi, ⟨_, _, _, _, _, _, _, hc⟩ | ⟨own3, ha3, hc⟩⟩
    · rw [h3] at hc; cases hc
    · rw [h3] at hc; cases hc
    rw [h3] at hc
    cases hc
    obtain ⟨v', ss', -, hch', hc'⟩ := patch_cases W f s
    rw [hch] at hch'
    cases hch'
    obtain ⟨v', ss', -, hch', hc1⟩ := patch_cases { W with importFails := fails } f s
    simp only at hch'
    rw [hch] at hch'
    cases hch'
    have hbad : ∀ e before after, W.bases = before ++ .error e :: after → e ≠ .importError → False := by
      intro e before after hs he
      obtain ⟨p, -, -, hp⟩ := c76_succeeds W f s1
      exact he ((hp.1 ⟨_, h3⟩).2 e (by simp [hs]))
    rcases hc' with ⟨e, b, sec, a, hs, ⟨i, him, hif⟩, _, hc'⟩ | ⟨-, ⟨e, b, a, _, hs, he, _, hc'⟩ | ⟨own', ha', hc'⟩⟩
    · exfalso
      have := hi i (by simp only [hs, importsOf, List.flatMap_append, List.flatMap_cons, List.mem_append]; exact .inr (.inl him))
      rw [hif] at this
      cases this
    · exact (hbad e b a hs he).elim
    refine ⟨_, hc', ?_, ?_⟩
    · rw [← hr]
      rcases hc1 with ⟨e, b, sec, a, hs, _, _, hc1⟩ | ⟨-, ⟨_, _, _, _, _, _, _, hc1⟩ | ⟨_, _, hc1⟩⟩
      · rw [h1] at hc1
        cases hc1
        simp only [hs, declsOf, List.flatMap_append, List.flatMap_cons]
        exact (putAll_retry hn _ _).symm
      · rw [h1] at hc1
        cases hc1
        exact (putAll_again hn _).symm
      · rw [h1] at hc1
        cases hc1
        exact (putAll_again hn _).symm
    · rw [← ho]
      rcases hc1 with ⟨e, b, sec, a, _, _, _, hc1⟩ | ⟨-, ⟨e, b, a, _, hs, he, _, hc1⟩ | ⟨own1, ha1, hc1⟩⟩
      · rw [h1] at hc1
        cases hc1
        simp only at ha3 ha' ⊢
        rw [ha3] at ha'
        cases ha'
        rfl
      · exact (hbad e b a hs he).elim
      · rw [h1] at hc1
        cases hc1
        simp only at ha3 ha' ha1 ⊢
        rw [ha'] at ha1
        cases ha1
        rw [c58_again hm f f ha'] at ha3
        cases ha3
        rfl

/-- C76: so a second call changes nothing (but for the warning). -/
theorem c76_again {F : Type} {W : SklWorld} (hm : Resolved W.mro) {f : F} {s s1 : SklState F} (hn : (s.reg.map Prod.fst).Nodup)
    (h : whatamizeSklearn W f s = (s1, none)) : ∃ s2, whatamizeSklearn W f s1 = (s2, none) ∧ s2.reg = s1.reg ∧ s2.own = s1.own := by
  obtain ⟨p, -, hg, hp⟩ := c76_succeeds W f s
  have h2 : ∃ s2, whatamizeSklearn W f s1 = (s2, none) := by
    obtain ⟨v, ss, -, hch, hc⟩ := patch_cases W f s
    obtain ⟨v', ss', -, hch', hc'⟩ := patch_cases W f s1
    rw [hch] at hch'
    cases hch'
    have hb := (hp.1 ⟨_, h⟩).2
    rcases hc' with ⟨e, b, sec, a, hs, ⟨i, him, hif⟩, _, hc'⟩ | ⟨-, ⟨e, b, a, _, hs, he, _, hc'⟩ | ⟨own', ha', hc'⟩⟩
    · exfalso
      rcases hc with ⟨_, _, _, _, _, _, _, hc⟩ | ⟨hi, -⟩
      · rw [h] at hc; cases hc
      · have := hi i (by simp only [hs, importsOf, List.flatMap_append, List.flatMap_cons, List.mem_append]; exact .inr (.inl him))
        rw [hif] at this
        cases this
    · exact absurd (hb e (by simp [hs])) he
    · exact ⟨_, hc'⟩
  obtain ⟨s2, h2⟩ := h2
  obtain ⟨s3, h3, hr, ho⟩ := c76_retry hm hn (.call W.importFails none h (.done s1)) h2
  rw [h] at h3
  cases h3
  exact ⟨s2, h2, hr.symm, ho.symm⟩

/-- C76: so what() of an instance of such a class, if it was not whatable before, has the parameters of the object under the short name declared for
the version to go by, or the name of its class, and leaves the declared non-ids out of ids. -/
theorem c76_what {F : Type} {W : SklWorld} (hm : Resolved W.mro) {f : F} {s s' : SklState F} (h : whatamizeSklearn W f s = (s', none)) {k c : Nat}
    (hc : IsBase W c) (hk : c ∈ W.mro k) (hw : ¬ HasWhat W.mro s.own k) : WhatIs W.mro s'.own k f ∧ ∃ p, GoesBy W.installed p ∧
      ∀ (x : SklObj) conf, x.params = .ok conf →
        (∀ m, Declared p.2 x.cls m → whatForSklearn s'.reg true x = .ok { name := m.short, conf := conf, nonids := m.nonids }) ∧
        (x.cls ∉ p.2.map Prod.fst → dget s.reg x.cls = none → whatForSklearn s'.reg true x = .ok { name := x.cls, conf := conf }) := by
  obtain ⟨⟨p, hg, hr, -⟩, h2, -⟩ := c76_done hm h
  refine ⟨(h2 k c hc hk).2 hw, p, hg, fun x conf hx => ⟨fun m hd => ?_, fun h1 h2 => ?_⟩⟩
  · simp only [whatForSklearn, hx, (hr _ _).2 (.inl hd), if_true]
  · have : dget s'.reg x.cls = none := by
      cases hd : dget s'.reg x.cls with
      | none => rfl
      | some m =>
        rcases (hr _ _).1 hd with ⟨b, n, i, a, h3, -⟩ | ⟨-, h3⟩
        · exact absurd (by rw [h3]; simp) h1
        · rw [h2] at h3; cases h3
    simp only [whatForSklearn, hx, this]

/-- C76: `RepeatedKFold`, which inherits from a base that is patched, is declared for no version: it has no parameters to ask for, so its what()
raises after `whatamize_sklearn()`, whichever version is installed. -/
theorem c76_repeated_kfold {F : Type} {W : SklWorld} (hm : Resolved W.mro) {f : F} {own : WhatAttrs F} {n : Nat} {s' : SklState F}
    (h : whatamizeSklearn W f ⟨[], own, n⟩ = (s', none)) {x : SklObj} (hc : x.cls = c!"RepeatedKFold") (hx : x.params = .error .attributeError) :
    whatForSklearn s'.reg true x = .error .attributeError := by
  obtain ⟨⟨p, ⟨hp, -⟩, hr, -⟩, -⟩ := c76_done hm h
  refine c59_undeclared hx ?_ true
  cases hd : dget s'.reg x.cls with
  | none => rfl
  | some m =>
    rcases (hr _ _).1 hd with ⟨b, nk, i, a, h3, -⟩ | ⟨-, h3⟩
    · have hno : ∀ q ∈ [table0_15_1, table0_19_1], c!"RepeatedKFold" ∉ q.map Prod.fst := by decide +kernel
      have hin : c!"RepeatedKFold" ∈ p.2.map Prod.fst := by rw [h3, ← hc]; simp
      refine absurd hin ?_
      rcases (mem_supported p).1 hp with rfl | rfl | rfl
      · exact hno _ (by simp)
      · exact hno _ (by simp)
      · exact hno _ (by simp)
    · cases h3

/-! ### check=True -/

theorem check_class_iff {F : Type} {W : SklWorld} {P : SklProbe} {call : F → SklReg → SklObj → R Bool} {s : SklState F} {k : Nat}
    (hw : HasWhat W.mro s.own k) :
    (checkClass W P call s k = .passed ↔ (P.isAbstract k = false → P.make k = .error .typeError ∨
      ∃ x g, P.make k = .ok x ∧ WhatIs W.mro s.own k g ∧ (call g s.reg x = .ok true ∨ call g s.reg x = .error .typeError))) ∧
    (checkClass W P call s k = .assertion → P.isAbstract k = false ∧ ∃ x g, P.make k = .ok x ∧ WhatIs W.mro s.own k g ∧ call g s.reg x = .ok false) := by
  obtain ⟨g, hg⟩ := hasWhat_iff.1 hw
  have hl := lookup_iff.2 hg
  have huniq : ∀ g', WhatIs W.mro s.own k g' → g' = g := fun g' h' => by
    have := lookup_iff.2 h'
    rw [hl] at this
    exact (Option.some.inj this).symm
  unfold checkClass
  cases ha : P.isAbstract k with
  | true => simp
  | false =>
    cases hmk : P.make k with
    | error e => cases e <;> simp
    | ok x =>
      simp only [hl, Bool.false_eq_true, if_false]
      cases hcall : call g s.reg x with
      | error e =>
        constructor
        · constructor
          · intro h _
            refine .inr ⟨x, g, rfl, hg, .inr ?_⟩
            rw [hcall]
            cases e <;> first | rfl | simp at h
          · intro h
            rcases h trivial with h | ⟨x', g', hx', hg', hc'⟩
            · cases h
            · cases hx'
              rw [huniq g' hg', hcall] at hc'
              rcases hc' with hc' | hc'
              · cases hc'
              · cases hc'; rfl
        · intro h
          cases e <;> simp at h
      | ok b =>
        cases b with
        | true =>
          constructor
          · exact ⟨fun _ _ => .inr ⟨x, g, rfl, hg, .inl hcall⟩, fun _ => by simp⟩
          · intro h; simp at h
        | false =>
          constructor
          · constructor
            · intro h; simp at h
            · intro h
              rcases h trivial with h | ⟨x', g', hx', hg', hc'⟩
              · cases h
              · cases hx'
                rw [huniq g' hg', hcall] at hc'
                rcases hc' with hc' | hc' <;> cases hc'
          · exact fun _ => ⟨trivial, x, g, rfl, hg, hcall⟩

theorem check_classes_iff {F : Type} {W : SklWorld} {P : SklProbe} {call : F → SklReg → SklObj → R Bool} {s : SklState F} (ks : List Nat) :
    (checkClasses W P call s ks = .passed ↔ ∀ k ∈ ks, checkClass W P call s k = .passed) ∧
    (checkClasses W P call s ks = .assertion → ∃ k ∈ ks, checkClass W P call s k = .assertion) := by
  induction ks with
  | nil => simp [checkClasses]
  | cons k ks ih =>
    simp only [checkClasses]
    cases hk : checkClass W P call s k with
    | passed =>
      refine ⟨?_, fun h => ?_⟩
      · simp [hk, ih.1]
      · obtain ⟨j, hj, h⟩ := ih.2 h
        exact ⟨j, .tail _ hj, h⟩
    | assertion => exact ⟨by simp [hk], fun _ => ⟨k, .head _, hk⟩⟩
    | raised e => exact ⟨by simp [hk], fun h => by cases h⟩

theorem probes_passed {W : SklWorld} {ps : List (R Nat)} (h : ∀ p ∈ ps, ∃ k, p = .ok k ∧ W.base ∈ W.mro k) : checkProbes W ps = .passed := by
  induction ps with
  | nil => rfl
  | cons p ps ih =>
    obtain ⟨k, rfl, hk⟩ := h p (.head _)
    simp only [checkProbes, List.contains_iff_mem.2 hk, if_true]
    exact ih fun q hq => h q (.tail _ hq)

/-- What the check looks at is as Python has it: classes below `BaseEstimator` have it in their method resolution order, the four classes that are
imported first are among them, and the list of subclasses can be computed. -/
structure ProbeFits (W : SklWorld) (P : SklProbe) : Prop where
  mro : ∀ k, Descends P.graph W.base k → W.base ∈ W.mro k
  first : ∀ p ∈ P.probes, ∃ k, p = .ok k ∧ W.base ∈ W.mro k
  subs : ∃ ks, allSubs P.graph P.depth W.base = .ok ks

/-- C76: with `check=True` the same is left behind, and it passes exactly if every concrete class below `BaseEstimator` either cannot be called
without arguments or makes an object whose what() is a `What` (or raises a `TypeError`).  It never fails for want of a `what`: an `AssertionError`
means that the what() of some object is no `What`. -/
theorem c76_check {F : Type} {W : SklWorld} (hm : Resolved W.mro) {P : SklProbe} (hp : ProbeFits W P) {f : F} {call : F → SklReg → SklObj → R Bool}
    {s s1 : SklState F} (hn : (s.reg.map Prod.fst).Nodup) (h : whatamizeSklearn W f s = (s1, none)) :
    ∃ s2 r, whatamizeChecked W P f call s = (s2, r) ∧ s2.reg = s1.reg ∧ s2.own = s1.own ∧
      (r = .passed ↔ ∀ k, Descends P.graph W.base k → P.isAbstract k = false → P.make k = .error .typeError ∨
        ∃ x g, P.make k = .ok x ∧ WhatIs W.mro s1.own k g ∧ (call g s1.reg x = .ok true ∨ call g s1.reg x = .error .typeError)) ∧
      (r = .assertion → ∃ k x g, Descends P.graph W.base k ∧ P.make k = .ok x ∧ WhatIs W.mro s1.own k g ∧ call g s1.reg x = .ok false) := by
  obtain ⟨s2, h2, hr, ho⟩ := c76_again hm hn h
  obtain ⟨ks, hks⟩ := hp.subs
  refine ⟨s2, checkClasses W P call s2 ks, ?_, hr, ho, ?_⟩
  · simp only [whatamizeChecked, checkAllPatched, h, h2, probes_passed hp.first, hks]
  have hw : ∀ k, Descends P.graph W.base k → HasWhat W.mro s2.own k := fun k hk =>
    ((c76_done hm h2).2.1 k W.base (.inl rfl) (hp.mro k hk)).1
  rw [← hr, ← ho]
  obtain ⟨c1, c2⟩ := check_classes_iff (W := W) (P := P) (call := call) (s := s2) ks
  refine ⟨?_, fun ha => ?_⟩
  · rw [c1]
    constructor
    · intro hall k hk
      exact (check_class_iff (hw k hk)).1.1 (hall k ((c57_subclasses hks k).2 hk))
    · intro hall k hk
      have hk' := (c57_subclasses hks k).1 hk
      exact (check_class_iff (hw k hk')).1.2 (hall k hk')
  · obtain ⟨k, hk, hk2⟩ := c2 ha
    have hk' := (c57_subclasses hks k).1 hk
    obtain ⟨-, x, g, h3, h4, h5⟩ := (check_class_iff (hw k hk')).2 hk2
    exact ⟨k, x, g, hk', h3, h4, h5⟩

/-- C76: the check passes if no class below `BaseEstimator` was whatable before and all their objects tell their parameters. -/
theorem c76_check_passes {F : Type} {W : SklWorld} (hm : Resolved W.mro) {P : SklProbe} (hp : ProbeFits W P) {f : F} {call : F → SklReg → SklObj → R Bool}
    {s s1 : SklState F} (hn : (s.reg.map Prod.fst).Nodup) (h : whatamizeSklearn W f s = (s1, none))
    (hf : ∀ reg x, call f reg x = (whatForSklearn reg true x).map fun _ => true) (hnot : ∀ k, Descends P.graph W.base k → ¬ HasWhat W.mro s.own k)
    (hmake : ∀ k, Descends P.graph W.base k → P.isAbstract k = false → P.make k = .error .typeError ∨ ∃ x conf, P.make k = .ok x ∧ x.params = .ok conf) :
    ∃ s2, whatamizeChecked W P f call s = (s2, .passed) := by
  obtain ⟨s2, r, h1, -, -, h2, -⟩ := c76_check hm hp (call := call) hn h
  refine ⟨s2, ?_⟩
  rw [h1, h2.2]
  intro k hk ha
  rcases hmake k hk ha with h3 | ⟨x, conf, h3, h4⟩
  · exact .inl h3
  · refine .inr ⟨x, f, h3, ((c76_done hm h).2.1 k W.base (.inl rfl) (hp.mro k hk)).2 (hnot k hk), .inl ?_⟩
    rw [hf]
    simp only [whatForSklearn, h4]
    cases dget s1.reg x.cls <;> rfl

/-- C76: the check fails at the first of the classes it imports that cannot be imported or does not inherit from `BaseEstimator`; what was patched
stays. -/
theorem c76_check_probes {F : Type} {W : SklWorld} (hm : Resolved W.mro) {P : SklProbe} {f : F} {call : F → SklReg → SklObj → R Bool}
    {s s1 : SklState F} (hn : (s.reg.map Prod.fst).Nodup) (h : whatamizeSklearn W f s = (s1, none)) {before after : List (R Nat)} {c : R Nat}
    (hs : P.probes = before ++ c :: after) (hb : ∀ x ∈ before, ∃ k, x = .ok k ∧ W.base ∈ W.mro k) :
    ∃ s2, s2.reg = s1.reg ∧ s2.own = s1.own ∧
      (∀ e, c = .error e → whatamizeChecked W P f call s = (s2, .raised e)) ∧
      (∀ k, c = .ok k → W.base ∉ W.mro k → whatamizeChecked W P f call s = (s2, .assertion)) := by
  obtain ⟨s2, h2, hr, ho⟩ := c76_again hm hn h
  have hpre : checkProbes W P.probes = checkProbes W (c :: after) := by
    rw [hs]
    clear hs
    induction before with
    | nil => rfl
    | cons x before ih =>
      obtain ⟨k, rfl, hk⟩ := hb x (by simp)
      simp only [List.cons_append, checkProbes, List.contains_iff_mem.2 hk, if_true]
      exact ih fun y hy => hb y (by simp [hy])
  refine ⟨s2, hr, ho, ?_, ?_⟩
  · rintro e rfl
    simp only [whatamizeChecked, checkAllPatched, h, h2, hpre, checkProbes]
  · rintro k rfl hk
    have : (W.mro k).contains W.base = false := by
      cases hc : (W.mro k).contains W.base with
      | false => rfl
      | true => exact absurd (List.contains_iff_mem.1 hc) hk
    simp only [whatamizeChecked, checkAllPatched, h, h2, hpre, checkProbes, this, Bool.false_eq_true, if_false]

/-- C76: with `check=True` it raises as it does without. -/
theorem c76_check_raises {F : Type} {W : SklWorld} {P : SklProbe} {f : F} {call : F → SklReg → SklObj → R Bool} {s s1 : SklState F} {e : Err}
    (h : whatamizeSklearn W f s = (s1, some e)) : whatamizeChecked W P f call s = (s1, .raised e) := by
  simp only [whatamizeChecked, h]

/-! sklearn 0.20 with the classes of `exMro` (Props/ClassGraph): a first call is interrupted as `sklearn.covariance` cannot be imported; the second one succeeds. -/
def exSklWorld (broken : Bool) : SklWorld :=
  { installed := ⟨0, 20, 0, none⟩, importFails := fun i => if broken && i.1 == c!"sklearn.covariance" then some .importError else none,
    mro := exMro, base := 0, bases := [.ok 0, .ok 1, .error .importError] }
def exSkl0 : SklState Str := ⟨[], exOwn, 0⟩
def exSkl1 : SklState Str := (whatamizeSklearn (exSklWorld true) c!"skl" exSkl0).1
def exSkl2 : SklState Str := (whatamizeSklearn (exSklWorld false) c!"skl" exSkl1).1

example : (whatamizeSklearn (exSklWorld true) c!"skl" exSkl0).2 = some .importError ∧ exSkl1.reg.length = 12 ∧ exSkl1.warned = 1 ∧
    dget exSkl1.reg c!"KMeans" = some ⟨c!"KMeans", [c!"copy_x", c!"n_jobs", c!"precompute_distances", c!"verbose"]⟩ ∧
    [0, 1, 2, 3].map (lookupWhat exMro exSkl1.own) = [none, none, some c!"own", none] := by decide +kernel
example : (whatamizeSklearn (exSklWorld false) c!"skl" exSkl1).2 = none ∧ exSkl2.reg.length = 197 ∧ exSkl2.warned = 2 ∧
    dget exSkl2.reg c!"SVC" = some ⟨c!"svc", [c!"cache_size", c!"verbose"]⟩ ∧
    [0, 1, 2, 3, 4, 5, 6].map (lookupWhat exMro exSkl2.own) = [some c!"skl", some c!"skl", some c!"own", some c!"skl", some c!"own", some c!"skl", none] := by
  decide +kernel
example : Tries (exSklWorld false) c!"skl" exSkl0 exSkl1 := .call (exSklWorld true).importFails (some .importError) (by rfl) (.done _)
def exSklProbe : SklProbe :=
  { graph := [[], [], [], [0], [2, 0], [0, 2], []], depth := 9, probes := [.ok 3, .ok 4], isAbstract := fun k => k == 4,
    make := fun k => if k = 5 then .error .typeError else .ok ⟨c!"SVC", .ok [(c!"C", .int 3)], .none⟩ }
example : allSubs exSklProbe.graph exSklProbe.depth 0 = .ok [3, 4, 5] := by decide
example : (whatamizeChecked (exSklWorld false) exSklProbe c!"skl" (fun f reg x => if f = c!"skl" then (whatForSklearn reg true x).map fun _ => true else .ok false) exSkl0).2 = .passed := by
  decide +kernel

/-- The check stops at class 6, which is no estimator. -/
example : ∃ s2, whatamizeChecked (exSklWorld false) { exSklProbe with probes := [.ok 3, .ok 6] } c!"skl" (fun _ _ _ => .ok true) exSkl0 = (s2, .assertion) := by
  obtain ⟨s2, -, -, -, h⟩ := c76_check_probes (W := exSklWorld false) (P := { exSklProbe with probes := [.ok 3, .ok 6] }) (f := c!"skl")
    (call := fun _ _ _ => .ok true) (s := exSkl0) (s1 := (whatamizeSklearn (exSklWorld false) c!"skl" exSkl0).1) (before := [.ok 3]) (after := []) (c := .ok 6)
    exMro_resolved (by decide) (by rfl) rfl (fun x hx => by
      rw [List.mem_singleton.1 hx]; exact ⟨3, rfl, by decide⟩)
  exact ⟨s2, h 6 rfl (by decide)⟩

end Whatami
