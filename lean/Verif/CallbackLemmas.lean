import Verif.Callbacks
import Verif.Props.Chain

/-
What the plugins of whatami ask `build_string`: finitely many values, made of what their argument holds.
Definitions here are vocabulary for statements and proofs: the code they are about is cited in the model modules.
-/
namespace Whatami

/-- Python's RecursionError. -/
abbrev tooDeep {α : Type} : R α := .error .recursionError

/-- A property of values that holds of the components of a value that has it, of integers, 0.0, strings and None, and of the tuples, lists, sets and
dicts of values that have it. -/
structure Closed (P : Val → Prop) : Prop where
  child : ∀ x v, Child x v → P v → P x
  none : P .none
  int : ∀ i, P (.int i)
  zero : P (.float c!"0.0")
  str : ∀ s, P (.str s)
  tuple : ∀ xs, (∀ x ∈ xs, P x) → P (.tuple xs)
  list : ∀ xs, (∀ x ∈ xs, P x) → P (.list xs)
  set : ∀ xs, (∀ x ∈ xs, P x) → P (.set xs)
  dict : ∀ kvs, (∀ kv ∈ kvs, P kv.1 ∧ P kv.2) → P (.dict kvs)

/-- `F` depends on the answers to `L` only, and is too deep only if one of them is. -/
def Sup {α : Type} (F : BS → R α) (L : List Val) : Prop :=
  (∀ bs bs' : BS, (∀ u ∈ L, bs u = bs' u) → F bs = F bs') ∧ ∀ bs : BS, F bs = tooDeep → ∃ u ∈ L, bs u = tooDeep

theorem Sup.const {α : Type} {r : R α} (h : r ≠ tooDeep) : Sup (fun _ => r) [] :=
  ⟨fun _ _ _ => rfl, fun _ e => absurd e h⟩

theorem Sup.map {α β : Type} {F : BS → R α} {L : List Val} (g : α → β) (h : Sup F L) : Sup (fun bs => (F bs).map g) L := by
  refine ⟨fun bs bs' e => by simp only [h.1 bs bs' e], fun bs e => h.2 bs ?_⟩
  dsimp only at e
  cases hF : F bs with
  | ok x => rw [hF] at e; cases e
  | error x => rw [hF] at e; cases e; rfl

theorem Sup.ret {F : BS → R Str} {L : List Val} (h : Sup F L) : Sup (fun bs => ret (F bs)) L := by
  refine ⟨fun bs bs' e => by simp only [h.1 bs bs' e], fun bs e => h.2 bs ?_⟩
  dsimp only at e
  cases hF : F bs with
  | ok x => rw [hF] at e; cases e
  | error x => rw [hF] at e; cases e; rfl

theorem mapR_tooDeep {α β : Type} {f : α → R β} {l : List α} {e : Err} (h : mapR f l = .error e) : ∃ x ∈ l, f x = .error e := by
  induction l with
  | nil => cases h
  | cons x l ih =>
    simp only [mapR] at h
    cases hx : f x with
    | error e' => rw [hx] at h; cases h; exact ⟨x, by simp, hx⟩
    | ok y =>
      rw [hx] at h
      cases hl : mapR f l with
      | error e' =>
        rw [hl] at h; cases h
        obtain ⟨z, hz, e⟩ := ih hl
        exact ⟨z, by simp [hz], e⟩
      | ok ys => rw [hl] at h; cases h

theorem Sup.idStr (w : What) : Sup (fun bs => idStr bs w false) (w.conf.map (·.2)) := by
  refine ⟨fun bs bs' e => idStr_congr fun kv hkv => e _ (List.mem_map_of_mem hkv), fun bs e => ?_⟩
  simp only [Whatami.idStr] at e
  cases hm : mapR (kvStr bs) (idItems w false) with
  | ok parts => rw [hm] at e; cases e
  | error x =>
    rw [hm] at e; cases e
    obtain ⟨kv, hkv, hx⟩ := mapR_tooDeep hm
    refine ⟨kv.2, List.mem_map_of_mem (idItems_sub hkv), ?_⟩
    simp only [kvStr] at hx
    cases hb : bs kv.2 with
    | error y => rw [hb] at hx; cases hx; rfl
    | ok y => rw [hb] at hx; cases hx

theorem Sup.strings (xs : List Val) : Sup (fun bs => strings bs xs) xs := by
  refine ⟨fun bs bs' e => strings_congr e, fun bs e => ?_⟩
  simp only [Whatami.strings] at e
  cases hm : mapR bs xs with
  | error x => rw [hm] at e; cases e; exact mapR_tooDeep hm
  | ok l =>
    rw [hm] at e
    exfalso
    clear hm
    induction l with
    | nil => cases e
    | cons a l ih =>
      cases a with
      | none => cases e
      | some s =>
        simp only [unNone] at e
        cases hl : unNone l with
        | ok y => rw [hl] at e; cases e
        | error y => rw [hl] at e; cases e; exact ih hl

theorem Sup.dictStr (kvs : List (Val × Val)) : Sup (fun bs => dictStr bs kvs) (kvs.map (·.1) ++ kvs.map (·.2)) := by
  refine ⟨fun bs bs' e => dictStr_congr fun kv hkv => ?_, fun bs e => ?_⟩
  · exact ⟨e _ (List.mem_append_left _ (List.mem_map_of_mem hkv)), e _ (List.mem_append_right _ (List.mem_map_of_mem hkv))⟩
  · simp only [Whatami.dictStr] at e
    cases hm : mapR (dkvStr bs) kvs with
    | ok l => rw [hm] at e; cases e
    | error x =>
      rw [hm] at e
      have : x = .recursionError := by cases e; rfl
      subst this
      obtain ⟨kv, hkv, hx⟩ := mapR_tooDeep hm
      simp only [dkvStr] at hx
      cases h1 : bs kv.1 with
      | error y => rw [h1] at hx; cases hx; exact ⟨_, List.mem_append_left _ (List.mem_map_of_mem hkv), h1⟩
      | ok y =>
        rw [h1] at hx
        cases h2 : bs kv.2 with
        | error z => rw [h2] at hx; cases hx; exact ⟨_, List.mem_append_right _ (List.mem_map_of_mem hkv), h2⟩
        | ok z => rw [h2] at hx; cases hx

/-- The values a plugin of whatami asks about. -/
def AsksFor (v : Val) (F : BS → R (Option Str)) : Prop :=
  ∃ L, (∀ P, Closed P → P v → ∀ u ∈ L, P u) ∧ Sup F L

theorem AsksFor.const {v : Val} {r : R (Option Str)} (h : r ≠ tooDeep) : AsksFor v (fun _ => r) :=
  ⟨[], fun _ _ _ _ h => (by cases h), Sup.const h⟩

theorem attrs_closed {P : Val → Prop} (hP : Closed P) {v : Val} (hv : P v) (k : Str) (x : Val)
    (h : (k, x) ∈ (attrsOf v).cd ++ (attrsOf v).dd ++ (attrsOf v).sd ++ (attrsOf v).pd) : P x := by
  have strs : ∀ c : Conf, (∀ k x, (k, x) ∈ c → P x) → P (strDict c) := by
    intro c hc
    refine hP.dict _ fun kv hkv => ?_
    simp only [List.mem_map] at hkv
    obtain ⟨⟨k, v⟩, hm, rfl⟩ := hkv
    exact ⟨hP.str _, hc k v hm⟩
  cases v <;> simp only [attrsOf, List.nil_append, List.append_nil, List.not_mem_nil, List.mem_cons, Prod.mk.injEq,
    or_false] at h
  case bool b => rcases h with h | h | h | h <;> (rw [h.2]; exact hP.int _)
  case int b => rcases h with h | h | h | h <;> (rw [h.2]; exact hP.int _)
  case float b =>
    rcases h with h | h
    · rw [h.2]; exact hP.zero
    · rw [h.2]; exact hv
  case sub kd c attrs xs => exact hP.child _ _ (.subAttr k _ _ _ h) hv
  case odict c attrs kvs => exact hP.child _ _ (.odictAttr k _ _ h) hv
  case ddict c attrs kvs => exact hP.child _ _ (.ddictAttr k _ _ h) hv
  case obj c cl cd dd sd pd wh s => exact hP.child _ _ (.obj k _ _ _ _ h) hv
  case what n c nk o =>
    rcases h with h | h | h | h <;> rw [h.2]
    · exact strs _ fun k x hm => hP.child _ _ (.what k _ _ _ hm) hv
    · exact hP.str _
    · refine hP.set _ fun x hx => ?_
      obtain ⟨s, _, rfl⟩ := List.mem_map.1 hx
      exact hP.str _
    · cases o with
      | none => exact hP.none
      | some s => exact hP.str _
  case part p f args kws =>
    rcases h with h | h | h <;> rw [h.2]
    · exact hP.tuple _ fun x hx => hP.child _ _ (.partArg _ _ _ hx) hv
    · exact hP.child _ _ (.partFunc _ _ _ _) hv
    · exact strs _ fun k x hm => hP.child _ _ (.partKw k _ _ _ hm) hv

theorem within_closed {P : Val → Prop} (hP : Closed P) {x v : Val} (h : Within x v) (hv : P v) : P x := by
  induction h with
  | refl => exact hv
  | step _ c ih => exact ih (hP.child _ _ c hv)

theorem whatareyou_closed {P : Val → Prop} (hP : Closed P) {o : WhatOpts} {v : Val} (hv : P v) {w : What} (h : whatareyou o v none = .ok w)
    {kv : Str × Val} (hm : kv ∈ w.conf) : P kv.2 := by
  cases hc : callable2call v [] [] with
  | ok p =>
    obtain ⟨n, cd⟩ := p
    simp only [whatareyou, hc, Except.ok.injEq] at h
    subst h
    exact c2c_pred hP.child v [] [] n cd hc (fun x hx => hP.child _ _ hx hv) (by simp) (by simp) _ (mem_trimDict hm)
  | error e =>
    have := whatareyou_obj hc h
    subst this
    have hm := mem_trimDict hm
    have base : kv ∈ configDictForObject o v → P kv.2 := fun h => attrs_closed hP hv kv.1 kv.2 (mem_srcs h)
    have seqc : ∀ y, kv ∈ dset (configDictForObject o v) c!"seq" y → P y → P kv.2 := by
      intro y hm hy
      rcases mem_dset hm with h | h
      · exact base h
      · exact h ▸ hy
    unfold addSeq at hm
    split at hm
    · exact seqc _ hm hv
    · exact seqc _ hm hv
    · exact seqc _ hm hv
    · exact seqc _ hm hv
    · exact seqc _ hm (hP.dict _ fun kv hkv => ⟨hP.child _ _ (.odictKey _ _ hkv) hv, hP.child _ _ (.odictVal _ _ hkv) hv⟩)
    · exact seqc _ hm (hP.dict _ fun kv hkv => ⟨hP.child _ _ (.ddictKey _ _ hkv) hv, hP.child _ _ (.ddictVal _ _ hkv) hv⟩)
    · exact seqc _ hm (hP.tuple _ fun x hx => hP.child _ _ (.sub _ _ _ hx) hv)
    · exact seqc _ hm (hP.list _ fun x hx => hP.child _ _ (.sub _ _ _ hx) hv)
    · exact base hm

theorem whatareyou_tooDeep (o : WhatOpts) (v : Val) : whatareyou o v none ≠ tooDeep := by
  intro h
  simp only [whatareyou] at h
  cases hc : callable2call v [] [] with
  | ok p => rw [hc] at h; cases h
  | error e =>
    rw [hc] at h
    cases e <;> simp only [reduceCtorEq, Except.error.injEq] at h
    exact c2c_error _ _ _ _ (by simp) (by simp) hc

theorem AsksFor.id {v : Val} {w : What} (h : ∀ P, Closed P → P v → ∀ kv ∈ w.conf, P kv.2) :
    AsksFor v (fun bs => Whatami.ret (idStr bs w false)) := by
  refine ⟨w.conf.map (·.2), fun P hP hv u hu => ?_, (Sup.idStr w).ret⟩
  obtain ⟨kv, hkv, rfl⟩ := List.mem_map.1 hu
  exact h P hP hv kv hkv

theorem AsksFor.seq {v : Val} {xs : List Val} (g : List Str → Str) (h : ∀ x ∈ xs, Child x v) :
    AsksFor v (fun bs => Whatami.ret ((strings bs xs).map g)) :=
  ⟨xs, fun _ hP hv u hu => hP.child _ _ (h u hu) hv, ((Sup.strings xs).map g).ret⟩

theorem AsksFor.whatVal {v : Val} {w : What} (h : ∀ P, Closed P → P v → ∀ kv ∈ w.conf, P kv.2) : AsksFor v (fun bs => whatPlugin bs w.toVal) :=
  AsksFor.id (w := w) h

/-- The plugins of whatami ask about finitely many values, and raise RecursionError only if `build_string` did. -/
theorem asks (p : Plugin) (hp : ∀ n, p ≠ .custom n) (cu : BS → Customs) (v : Val) : AsksFor v (fun bs => p.run (cu bs) bs v) := by
  cases p <;> simp only [Plugin.run]
  case what =>
    cases v <;> simp only [whatPlugin] <;> first | exact AsksFor.const (by simp) | skip
    exact AsksFor.id (fun P hP hv kv hkv => hP.child _ _ (.what kv.1 _ _ _ hkv) hv)
  case whatable =>
    simp only [whatablePlugin]
    split
    · split
      · next w hw =>
        refine AsksFor.whatVal fun P hP hv kv hkv => ?_
        unfold whatMethod at hw
        split at hw
        · cases hw; exact hP.child _ _ (.duck kv.1 _ _ _ hkv) hv
        · simp only [Option.some.injEq] at hw; exact whatareyou_closed hP hv hw hkv
        · cases hw
        · cases hw
      · next e he =>
        refine AsksFor.const ?_
        unfold whatMethod at he
        split at he
        · cases he
        · simp only [Option.some.injEq] at he
          rintro h; cases h; exact whatareyou_tooDeep _ _ he
        · cases he; simp
        · cases he
      · exact AsksFor.const (by simp)
    · exact AsksFor.const (by simp)
  case builtin => cases v <;> exact AsksFor.const (by simp [builtinPlugin])
  case numericType => cases v <;> exact AsksFor.const (by simp [numericTypePlugin])
  case property => cases v <;> exact AsksFor.const (by simp [propertyPlugin])
  case string => cases v <;> exact AsksFor.const (by simp [stringPlugin])
  case tuple =>
    unfold tuplePlugin
    split
    · exact AsksFor.seq _ fun x hx => .tuple hx
    · exact AsksFor.seq _ fun x hx => .sub _ _ _ hx
    · exact AsksFor.const (by simp)
  case list =>
    unfold listPlugin
    split
    · exact AsksFor.seq _ fun x hx => .list hx
    · exact AsksFor.seq _ fun x hx => .sub _ _ _ hx
    · exact AsksFor.const (by simp)
  case dict =>
    unfold dictPlugin
    split
    · next c attrs kvs =>
      split
      · next e he => exact AsksFor.const (by rintro h; cases h; exact whatareyou_tooDeep _ _ he)
      · next w hw =>
        refine AsksFor.id fun P hP hv kv hkv => ?_
        rcases mem_dset hkv with hm | hm
        · exact whatareyou_closed hP hv hw hm
        · rw [hm]
          refine hP.list _ fun x hx => ?_
          obtain ⟨⟨a, b⟩, hab, rfl⟩ := List.mem_map.1 hx
          refine hP.tuple _ fun y hy => ?_
          simp only [List.mem_cons, List.not_mem_nil, or_false] at hy
          rcases hy with rfl | rfl
          · exact hP.child _ _ (.odictKey _ _ hab) hv
          · exact hP.child _ _ (.odictVal _ _ hab) hv
    · next kvs =>
      refine ⟨_, fun P hP hv u hu => ?_, (Sup.dictStr kvs).ret⟩
      rcases List.mem_append.1 hu with hu | hu <;> obtain ⟨⟨a, b⟩, hab, rfl⟩ := List.mem_map.1 hu
      · exact hP.child _ _ (.dictKey hab) hv
      · exact hP.child _ _ (.dictVal hab) hv
    · next c attrs kvs =>
      have hd := Sup.dictStr kvs
      have hin : ∀ P, Closed P → P (.ddict c attrs kvs) → ∀ u ∈ kvs.map (·.1) ++ kvs.map (·.2), P u := by
        intro P hP hv u hu
        rcases List.mem_append.1 hu with hu | hu <;> obtain ⟨⟨a, b⟩, hab, rfl⟩ := List.mem_map.1 hu
        · exact hP.child _ _ (.ddictKey _ _ hab) hv
        · exact hP.child _ _ (.ddictVal _ _ hab) hv
      cases hw : whatareyou {} (.ddict c attrs kvs) with
      | error e =>
        refine ⟨_, hin, fun bs bs' h => by simp only [hd.1 bs bs' h], fun bs h => hd.2 bs ?_⟩
        dsimp only at h
        cases hs : Whatami.dictStr bs kvs with
        | error x => rw [hs] at h; cases h; exact hs
        | ok x =>
          rw [hs] at h; cases h
          exact absurd hw (whatareyou_tooDeep _ _)
      | ok w =>
        have hi := (Sup.idStr w).ret
        refine ⟨(kvs.map (·.1) ++ kvs.map (·.2)) ++ w.conf.map (·.2), fun P hP hv u hu => ?_, fun bs bs' h => ?_, fun bs h => ?_⟩
        · rcases List.mem_append.1 hu with hu | hu
          · exact hin P hP hv u hu
          · obtain ⟨kv, hkv, rfl⟩ := List.mem_map.1 hu
            exact whatareyou_closed hP hv hw hkv
        · simp only [hd.1 bs bs' fun u hu => h u (List.mem_append_left _ hu), hi.1 bs bs' fun u hu => h u (List.mem_append_right _ hu)]
        · dsimp only at h
          cases hs : Whatami.dictStr bs kvs with
          | error x =>
            rw [hs] at h; cases h
            obtain ⟨u, hu, e⟩ := hd.2 bs hs
            exact ⟨u, List.mem_append_left _ hu, e⟩
          | ok x =>
            rw [hs] at h
            obtain ⟨u, hu, e⟩ := hi.2 bs h
            exact ⟨u, List.mem_append_right _ hu, e⟩
    · exact AsksFor.const (by simp)
  case set =>
    unfold setPlugin
    split
    · exact AsksFor.seq _ fun x hx => .set hx
    · exact AsksFor.seq _ fun x hx => .fset hx
    · exact AsksFor.seq _ fun x hx => .sub _ _ _ hx
    · exact AsksFor.seq _ fun x hx => .sub _ _ _ hx
    · exact AsksFor.const (by simp)
  case part =>
    unfold partialPlugin
    split
    · split
      · next e he => exact AsksFor.const (by rintro h; cases h; exact c2c_error _ _ _ _ (by simp) (by simp) he)
      · next n kw hk => exact AsksFor.id fun P hP hv kv hkv => within_closed hP (partial_within hk kv hkv) hv
    · exact AsksFor.const (by simp)
  case function =>
    unfold functionPlugin
    split
    · next n args ds =>
      exact AsksFor.id fun P hP hv kv hkv => hP.child _ _ (.func _ _ (List.of_mem_zip (mem_dictOf hkv)).2) hv
    · exact AsksFor.const (by simp)
  case pandas => cases v <;> exact AsksFor.const (by simp [arrayPlugin])
  case numpy => cases v <;> exact AsksFor.const (by simp [arrayPlugin])
  case rng =>
    unfold rngPlugin
    split
    · next c st =>
      split
      · next e he => exact AsksFor.const (by rintro h; cases h; exact whatareyou_tooDeep _ _ he)
      · next w hw =>
        have hs := Sup.idStr w
        refine ⟨_, fun P hP hv u hu => ?_, fun bs bs' h => by simp only [hs.1 bs bs' h], fun bs h => hs.2 bs ?_⟩
        · obtain ⟨kv, hkv, rfl⟩ := List.mem_map.1 hu
          exact whatareyou_closed hP (hP.child _ _ (.rng _ _) hv) hw hkv
        · dsimp only at h
          cases hi : Whatami.idStr bs w false with
          | error x => rw [hi] at h; cases h; exact hi
          | ok x => rw [hi] at h; cases h
    · exact AsksFor.const (by simp)
  case any0x =>
    simp only [any0xPlugin]
    split
    · exact AsksFor.id fun P hP hv kv hkv => (by cases hkv)
    · exact AsksFor.const (by simp)
  case any => exact AsksFor.const (by simp [anyPlugin])
  case custom n => exact absurd rfl (hp n)

end Whatami
