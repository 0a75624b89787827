import Verif.IdLemmas
import Verif.Decode
import Verif.CallbackLemmas

/-
What one plugin of whatami does with two values that are alike, whatever `build_string` is.
Definitions here are vocabulary for statements and proofs: the code they are about is cited in the model modules.
-/
namespace Whatami

/-- Same key, related values. -/
def KV (R : Val → Val → Prop) (a b : Str × Val) : Prop := a.1 = b.1 ∧ R a.2 b.2

/-- Related keys, related values. -/
def DKV (R : Val → Val → Prop) (a b : Val × Val) : Prop := R a.1 b.1 ∧ R a.2 b.2

/-- The same kind of value with related components. -/
inductive Pointwise (R : Val → Val → Prop) : Val → Val → Prop where
  | tuple {xs ys : List Val} : All2 R xs ys → Pointwise R (.tuple xs) (.tuple ys)
  | list {xs ys : List Val} : All2 R xs ys → Pointwise R (.list xs) (.list ys)
  | set {xs ys : List Val} : All2 R xs ys → Pointwise R (.set xs) (.set ys)
  | fset {xs ys : List Val} : All2 R xs ys → Pointwise R (.fset xs) (.fset ys)
  | sub {xs ys : List Val} (k : Kind) (c : Str) (a : Conf) : All2 R xs ys → Pointwise R (.sub k c a xs) (.sub k c a ys)
  | dict {a b : List (Val × Val)} : All2 (DKV R) a b → Pointwise R (.dict a) (.dict b)
  | odict {e e' : Conf} {a b : List (Val × Val)} (c : Str) : All2 (KV R) e e' → All2 (DKV R) a b → Pointwise R (.odict c e a) (.odict c e' b)
  | ddict {e e' : Conf} {a b : List (Val × Val)} (c : Str) : All2 (KV R) e e' → All2 (DKV R) a b → Pointwise R (.ddict c e a) (.ddict c e' b)
  | what {e e' : Conf} (n : Str) (nk : List Str) (o : Option Str) : All2 (KV R) e e' → Pointwise R (.what n e nk o) (.what n e' nk o)
  | duck {e e' : Conf} (n : Str) (nk : List Str) (o : Option Str) : All2 (KV R) e e' → Pointwise R (.duck n e nk o) (.duck n e' nk o)
  | obj {cd cd' dd dd' sd sd' pd pd' : Conf} (c : Str) (cl : Bool) (wh : Option WhatOpts) (s : Str) : All2 (KV R) cd cd' → All2 (KV R) dd dd' →
      All2 (KV R) sd sd' → All2 (KV R) pd pd' → Pointwise R (.obj c cl cd dd sd pd wh s) (.obj c cl cd' dd' sd' pd' wh s)
  | func {ds ds' : List Val} (n : Str) (args : List Str) : All2 R ds ds' → Pointwise R (.func n args ds) (.func n args ds')
  | part {xs ys : List Val} {e e' : Conf} (p : Bool) (f : Val) : All2 R xs ys → All2 (KV R) e e' → Pointwise R (.part p f xs e) (.part p f ys e')
  | rngTuple {xs ys : List Val} (c : Str) : R (.tuple xs) (.tuple ys) → Pointwise R (.rng c (.tuple xs)) (.rng c (.tuple ys))
  | rngDict {a b : List (Val × Val)} (c : Str) : R (.dict a) (.dict b) → Pointwise R (.rng c (.dict a)) (.rng c (.dict b))

/-- `build_string` gives related values the same text, and lists, tuples and dicts of related values are related. -/
structure Respects (bs : BS) (R : Val → Val → Prop) : Prop where
  text : ∀ a b, R a b → SameText bs a b
  list : ∀ xs ys, All2 R xs ys → R (.list xs) (.list ys)
  tuple : ∀ xs ys, All2 R xs ys → R (.tuple xs) (.tuple ys)
  dict : ∀ a b, All2 (DKV R) a b → R (.dict a) (.dict b)

theorem part_same {bs : BS} {p : Bool} {f : Val} {args args' : List Val} {kws kws' : Conf}
    (ha : All2 (SameText bs) args args') (hk : All2 (SameKV bs) kws kws') :
    val? (partialPlugin bs (.part p f args kws)) = val? (partialPlugin bs (.part p f args' kws')) := by
  have key : SameCall bs (callable2call (curry2partial (.part p f args kws)) [] [])
      (callable2call (curry2partial (.part p f args' kws')) [] []) := by
    have plainCase : ∀ (g : Val) (xs ys : List Val) (c d : Conf), All2 (SameText bs) xs ys →
        All2 (SameKV bs) c d → SameCall bs (callable2call (.part true g xs c) [] [])
          (callable2call (.part true g ys d) [] []) := by
      intro g xs ys c d hx hc
      by_cases hg : ∃ g' a k, g = .part true g' a k
      · obtain ⟨g', a, k, rfl⟩ := hg
        simp only [callable2call]
        simp only [List.nil_append]
        exact c2c_same _ _ _ _ _ ((All2.rfl' (SameText.refl _) _).append hx)
          (dictOf_same ((dupdate_same (All2.rfl' (SameKV.refl _) _) hc).append .nil))
      · have e : ∀ xs c, callable2call (.part true g xs c) [] [] = callable2call g ([] ++ xs) (dictOf (c ++ [])) := by
          intro xs c; rw [callable2call]
          intro g' a k e; exact hg ⟨g', a, k, e⟩
        rw [e, e]
        exact c2c_same _ _ _ _ _ hx (dictOf_same (hc.append .nil))
    by_cases hf : ∃ g a k, f = .part true g a k
    · obtain ⟨g, a, k, rfl⟩ := hf
      exact plainCase _ _ _ _ _ ((All2.rfl' (SameText.refl _) _).append ha)
        (dupdate_same (All2.rfl' (SameKV.refl _) _) hk)
    · have e : ∀ xs c, curry2partial (.part p f xs c) = .part true f xs c := by
        intro xs c; rw [curry2partial]
        intro g' a k e; exact hf ⟨g', a, k, e⟩
      rw [e, e]
      exact plainCase _ _ _ _ _ ha hk
  simp only [partialPlugin]
  revert key
  cases callable2call (curry2partial (.part p f args kws)) [] [] <;>
    cases callable2call (curry2partial (.part p f args' kws')) [] [] <;> simp only [SameCall]
  · intro _; rfl
  · intro h; exact h.elim
  · intro h; exact h.elim
  · rintro ⟨h1, h2⟩
    simp only [val?_ret, h1]
    rw [idStr_same h2]

theorem odict_plugin (bs : BS) (c : Str) (attrs : Conf) (kvs : List (Val × Val)) :
    dictPlugin bs (.odict c attrs kvs) =
      ret (idStr bs { name := c, conf := dset (dictConf attrs (.dict kvs)) c!"seq" (itemsList kvs) } false) := by
  simp only [dictPlugin]
  rfl

theorem ddict_plugin (bs : BS) (c : Str) (attrs : Conf) (kvs : List (Val × Val)) :
    dictPlugin bs (.ddict c attrs kvs) =
      match dictStr bs kvs with
      | .error e => .error e
      | .ok _ => ret (idStr bs { name := c, conf := dictConf attrs (.dict kvs) } false) := by
  simp only [dictPlugin]
  cases dictStr bs kvs <;> rfl

theorem dictConfB_same {bs : BS} {attrs attrs' : Conf} {s s' : Val} (h : All2 (SameKV bs) attrs attrs')
    (hs : SameText bs s s') : All2 (SameKV bs) (dictConf attrs s) (dictConf attrs' s') :=
  trimDict_same (dset_same (dupdate_same .nil h) _ hs)

theorem obj_plugin (bs : BS) (cls : Str) (cd dd sd pd : Conf) (o : WhatOpts) (s : Str) :
    whatablePlugin bs (.obj cls false cd dd sd pd (some o) s) =
      ret (idStr bs { name := cls, conf := trimDict o (configDictOfSrcs o ⟨cd, dd, sd, pd⟩), nonids := o.nonids } false) := rfl

/-- No plugin of whatami tells two values of the same kind with components that have the same texts apart. -/
theorem run_pointwise {bs : BS} {R : Val → Val → Prop} (hR : Respects bs R) {cu : Customs} (p : Plugin) (hp : ∀ n, p ≠ .custom n) {a b : Val}
    (h : Pointwise R a b) : val? (p.run cu bs a) = val? (p.run cu bs b) := by
  have T : ∀ {xs ys : List Val}, All2 R xs ys → All2 (SameText bs) xs ys := fun h => h.imp hR.text
  have K : ∀ {c c' : Conf}, All2 (KV R) c c' → All2 (SameKV bs) c c' := fun h => h.imp fun a b hab => ⟨hab.1, hR.text _ _ hab.2⟩
  have D : ∀ {c c' : List (Val × Val)}, All2 (DKV R) c c' → All2 (SameDKV bs) c c' :=
    fun h => h.imp fun a b hab => ⟨hR.text _ _ hab.1, hR.text _ _ hab.2⟩
  have I : ∀ {c c' : List (Val × Val)}, All2 (DKV R) c c' → SameText bs (itemsList c) (itemsList c') := by
    intro c c' h
    refine hR.text _ _ (hR.list _ _ ?_)
    refine All2.map (f := fun kv : Val × Val => Val.tuple [kv.1, kv.2]) ?_ h
    intro x y hxy
    exact hR.tuple _ _ (.cons hxy.1 (.cons hxy.2 .nil))
  cases p with
  | custom n => exact absurd rfl (hp n)
  | what =>
    cases h <;> try rfl
    case what n nk o he => simp only [Plugin.run, whatPlugin, val?_ret]; rw [idStr_same (K he)]
  | whatable =>
    cases h <;> try rfl
    case duck n nk o he =>
      show val? (ret _) = val? (ret _)
      simp only [val?_ret]; rw [idStr_same (K he)]
    case obj c cl wh s h1 h2 h3 h4 =>
      cases wh with
      | none => rfl
      | some o =>
        cases cl with
        | true => rfl
        | false =>
          simp only [Plugin.run, obj_plugin, val?_ret]
          rw [idStr_same (trimDict_same (configDict_same (s := ⟨_, _, _, _⟩) (s' := ⟨_, _, _, _⟩) (K h1) (K h2) (K h3) (K h4)))]
  | builtin => cases h <;> rfl
  | numericType => cases h <;> rfl
  | property => cases h <;> rfl
  | string => cases h <;> rfl
  | tuple =>
    cases h <;> try rfl
    case tuple h => simp only [Plugin.run, tuplePlugin, val?_ret, val?_map]; rw [strings_same (T h)]
    case sub k c at_ h => cases k <;> simp only [Plugin.run, tuplePlugin, val?_ret, val?_map]; rw [strings_same (T h)]
  | list =>
    cases h <;> try rfl
    case list h => simp only [Plugin.run, listPlugin, val?_ret, val?_map]; rw [strings_same (T h)]
    case sub k c at_ h => cases k <;> simp only [Plugin.run, listPlugin, val?_ret, val?_map]; rw [strings_same (T h)]
  | dict =>
    cases h <;> try rfl
    case dict h => simp only [Plugin.run, dictPlugin, val?_ret]; rw [dictStr_same (D h)]
    case odict c he h =>
      simp only [Plugin.run, odict_plugin, val?_ret]
      rw [idStr_same (dset_same (dictConfB_same (K he) (hR.text _ _ (hR.dict _ _ h))) _ (I h))]
    case ddict c he h =>
      simp only [Plugin.run, ddict_plugin]
      have hs := dictStr_same (D h)
      have := idStr_same (n := c) (nk := []) (o := none) (f := false) (dictConfB_same (K he) (hR.text _ _ (hR.dict _ _ h)))
      have key := congrArg (Option.map some) this
      rw [← val?_ret, ← val?_ret] at key
      revert hs
      cases dictStr bs _ <;> cases dictStr bs _
      · intro _; rfl
      · intro h; cases h
      · intro h; cases h
      · intro _; exact key
  | set =>
    cases h <;> try rfl
    case set h => simp only [Plugin.run, setPlugin, val?_ret, val?_map]; rw [strings_same (T h)]
    case fset h => simp only [Plugin.run, setPlugin, val?_ret, val?_map]; rw [strings_same (T h)]
    case sub k c at_ h => cases k <;> simp only [Plugin.run, setPlugin, val?_ret, val?_map] <;> rw [strings_same (T h)]
  | part =>
    cases h <;> try rfl
    case part p f h he => exact part_same (T h) (K he)
  | function =>
    cases h <;> try rfl
    case func n args h =>
      simp only [Plugin.run, functionPlugin, val?_ret, (T h).length]
      rw [idStr_same (dictOf_same (zip_same _ (T h)))]
  | pandas => cases h <;> rfl
  | numpy => cases h <;> rfl
  | rng =>
    cases h <;> try rfl
    case rngTuple xs ys c h =>
      have e : ∀ xs, whatareyou {} (.tuple xs) = .ok { name := c!"tuple", conf := [(c!"seq", .tuple xs)] } := fun _ => rfl
      have := idStr_same (n := c!"tuple") (nk := []) (o := none) (f := false) (holeKV c!"seq" (hR.text _ _ h) [] [])
      simp only [List.nil_append] at this
      simp only [Plugin.run, rngPlugin, e]
      revert this
      cases idStr bs _ _ <;> cases idStr bs _ _ <;> simp [val?]
    case rngDict xs ys c h =>
      have e : ∀ xs, whatareyou {} (.dict xs) = .ok { name := c!"dict", conf := [(c!"seq", .dict xs)] } := fun _ => rfl
      have := idStr_same (n := c!"dict") (nk := []) (o := none) (f := false) (holeKV c!"seq" (hR.text _ _ h) [] [])
      simp only [List.nil_append] at this
      simp only [Plugin.run, rngPlugin, e]
      revert this
      cases idStr bs _ _ <;> cases idStr bs _ _ <;> simp [val?]
  | any0x => cases h <;> try rfl
             case part p f h he => cases p <;> rfl
  | any => cases h <;> try rfl
           case part p f h he => cases p <;> rfl

theorem idItems_same {bs : BS} {n : Str} {c c' : Conf} {nk : List Str} {o : Option Str} (u : UniqueKeys c)
    (h : (c.filter fun kv => !nk.contains kv.1).Perm (c'.filter fun kv => !nk.contains kv.1)) :
    idStr bs { name := n, conf := c, nonids := nk, out := o } false = idStr bs { name := n, conf := c', nonids := nk, out := o } false :=
  idStr_eq_of_items rfl rfl (idItems_eq u h)

/-- No plugin of whatami minds non-id parameters. -/
theorem run_nonids {bs : BS} {cu : Customs} (p : Plugin) (hp : ∀ n, p ≠ .custom n) {a b : Val} (h : NonIdChange a b) :
    val? (p.run cu bs a) = val? (p.run cu bs b) := by
  cases h with
  | what n nk o u u' h =>
    cases p <;> try rfl
    case what => simp only [Plugin.run, whatPlugin]; rw [idItems_same u (agree_perm u u' h)]
    case custom n => exact absurd rfl (hp n)
  | duck n nk o u u' h =>
    cases p <;> try rfl
    case whatable => show val? (ret _) = val? (ret _); simp only [val?_ret]; rw [idItems_same u (agree_perm u u' h)]
    case custom n => exact absurd rfl (hp n)

/-- No plugin of whatami minds the order. -/
theorem run_reorder {bs : BS} (hd : ∀ a b : List (Val × Val), a.Perm b → SameText bs (.dict a) (.dict b))
    {cu : Customs} (p : Plugin) (hp : ∀ n, p ≠ .custom n) {a b : Val} (h : Reorder a b) : val? (p.run cu bs a) = val? (p.run cu bs b) := by
  cases h with
  | dict q =>
    cases p <;> try rfl
    case dict => simp only [Plugin.run, dictPlugin, val?_ret]; rw [dictStr_perm q]
    case custom n => exact absurd rfl (hp n)
  | set q =>
    cases p <;> try rfl
    case set =>
      have := congrArg (Option.map setStr) (strings_perm (bs := bs) q)
      simp only [Option.map_map] at this
      simp only [Plugin.run, setPlugin, val?_ret, val?_map]
      exact congrArg _ this
    case custom n => exact absurd rfl (hp n)
  | fset q =>
    cases p <;> try rfl
    case set =>
      have := congrArg (Option.map fsetStr) (strings_perm (bs := bs) q)
      simp only [Option.map_map] at this
      simp only [Plugin.run, setPlugin, val?_ret, val?_map]
      exact congrArg _ this
    case custom n => exact absurd rfl (hp n)
  | subSet c attrs q =>
    cases p <;> try rfl
    case set =>
      have := congrArg (Option.map fun s => seqId c (setStr s)) (strings_perm (bs := bs) q)
      simp only [Option.map_map] at this
      simp only [Plugin.run, setPlugin, val?_ret, val?_map]
      exact congrArg _ this
    case custom n => exact absurd rfl (hp n)
  | subFset c attrs q =>
    cases p <;> try rfl
    case set =>
      have := congrArg (Option.map fun s => seqId c (setStr s)) (strings_perm (bs := bs) q)
      simp only [Option.map_map] at this
      simp only [Plugin.run, setPlugin, val?_ret, val?_map]
      exact congrArg _ this
    case custom n => exact absurd rfl (hp n)
  | ddict c attrs q =>
    cases p <;> try rfl
    case dict =>
      simp only [Plugin.run, ddict_plugin]
      have hs := dictStr_perm (bs := bs) q
      have := idStr_same (n := c) (nk := []) (o := none) (f := false)
        (dictConfB_same (All2.rfl' (SameKV.refl bs) attrs) (hd _ _ q))
      have key := congrArg (Option.map some) this
      rw [← val?_ret, ← val?_ret] at key
      revert hs
      cases dictStr bs _ <;> cases dictStr bs _
      · intro _; rfl
      · intro h; cases h
      · intro h; cases h
      · intro _; exact key
    case custom n => exact absurd rfl (hp n)
  | what n nk o u q =>
    cases p <;> try rfl
    case what => simp only [Plugin.run, whatPlugin]; rw [idItems_same u (q.filter _)]
    case custom n => exact absurd rfl (hp n)
  | duck n nk o u q =>
    cases p <;> try rfl
    case whatable => show val? (ret _) = val? (ret _); simp only [val?_ret]; rw [idItems_same u (q.filter _)]
    case custom n => exact absurd rfl (hp n)
  | obj c cl wh s u1 u2 u3 u4 p1 p2 p3 p4 =>
    cases p <;> try rfl
    case whatable =>
      cases wh with
      | none => rfl
      | some o =>
        cases cl with
        | true => rfl
        | false =>
          simp only [Plugin.run, obj_plugin, val?_ret]
          exact congrArg (fun r => (val? r).map some) (idItems_same (uniqueKeys_filter (configDict_nodup _ _) _) ((private_perm u1 u2 u3 u4 (uniqueKeys_perm u1 p1) (uniqueKeys_perm u2 p2)
            (uniqueKeys_perm u3 p3) (uniqueKeys_perm u4 p4) (fun k _ v => ⟨p1.mem_iff, p2.mem_iff, p3.mem_iff, p4.mem_iff⟩)).filter _))
    case custom n => exact absurd rfl (hp n)

/-- What a chain does, without the kind of exception, is determined by what its plugins do. -/
theorem firstSome_same {f g : Plugin → R (Option Str)} {ps : List Plugin} (h : ∀ p ∈ ps, val? (f p) = val? (g p)) :
    val? (firstSome f ps) = val? (firstSome g ps) := by
  induction ps with
  | nil => rfl
  | cons p ps ih =>
    have h1 := h p (by simp)
    have h2 := ih fun q hq => h q (by simp [hq])
    simp only [firstSome]
    revert h1
    cases f p <;> cases g p <;> simp only [val?, reduceCtorEq, false_implies, Option.some.injEq, implies_true]
    rintro rfl
    rename_i o
    cases o
    · exact h2
    · rfl

end Whatami
