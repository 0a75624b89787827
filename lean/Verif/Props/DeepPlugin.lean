import Verif.DeepPlugin
import Verif.Spec.Deep
import Verif.Props.CallbackOrder
import Verif.Props.StandIn
import Verif.Props.Repr

/-
C88: `anyobject0x_plugin(deep=True)`.
-/
namespace Whatami

theorem deepPlugins_eq : deepPlugins = [.what, .whatable, .builtin, .numericType, .property, .string, .tuple, .list, .dict, .set,
   .part, .function, .pandas, .numpy, .rng, .custom 0, .any] := rfl

theorem deepPlugins_inserted : Inserted deepPlugins := .inr rfl

theorem askId_eval (bs : BS) (n : Str) (c : Conf) (parts : List Str) :
    (askId n c parts).eval bs = match mapR (kvStr bs) c with
      | .error e => .error e
      | .ok l => .ok (some (wrapId n none (pyJoin c!"," (parts ++ l)))) := by
  induction c generalizing parts with
  | nil => simp [askId, Act.eval, mapR]
  | cons e c ih =>
    obtain ⟨k, v⟩ := e
    simp only [askId, Act.eval, mapR, kvStr]
    cases hv : bs v with
    | error e => cases e <;> rfl
    | ok s =>
      dsimp only
      rw [ih]
      cases mapR (kvStr bs) c <;> simp

theorem deep_eval (bs : BS) (v : Val) : (deepPlugin v).eval bs =
    if isInfix c!" at 0x" (pyStr v) then ret (idStr bs { name := className v, conf := configDictForObject {} v } false) else .ok none := by
  unfold deepPlugin
  split
  · rw [askId_eval, idStr]
    cases mapR (kvStr bs) (idItems { name := className v, conf := configDictForObject {} v } false) <;> rfl
  · rfl

/-- The plugin does not tell values of the same kind apart whose components it is told the same about. -/
theorem deep_pointwise {bs : BS} {R : Val → Val → Prop} (hR : ∀ x y, R x y → SameText bs x y) {a b : Val} (h : Pointwise R a b) :
    val? ((deepPlugin a).eval bs) = val? ((deepPlugin b).eval bs) := by
  have K : ∀ {c c' : Conf}, All2 (KV R) c c' → All2 (SameKV bs) c c' := fun h => h.imp fun a b hab => ⟨hab.1, hR _ _ hab.2⟩
  rw [deep_eval, deep_eval]
  have key : ∀ {s : Srcs} {s' : Srcs} (n : Str), All2 (SameKV bs) s.cd s'.cd → All2 (SameKV bs) s.dd s'.dd → All2 (SameKV bs) s.sd s'.sd →
      All2 (SameKV bs) s.pd s'.pd → val? (ret (idStr bs { name := n, conf := configDictOfSrcs {} s } false)) =
        val? (ret (idStr bs { name := n, conf := configDictOfSrcs {} s' } false)) := by
    intro s s' n h1 h2 h3 h4
    simp only [val?_ret]
    rw [idStr_same (configDict_same h1 h2 h3 h4)]
  cases h <;> try rfl
  case odict e e' x y c he _ =>
    show val? (if isInfix c!" at 0x" c then _ else _) = val? (if isInfix c!" at 0x" c then _ else _)
    by_cases hs : isInfix c!" at 0x" c = true
    · rw [if_pos hs, if_pos hs]
      exact key c .nil (K he) .nil .nil
    · rw [if_neg hs, if_neg hs]
  case ddict e e' x y c he _ =>
    show val? (if isInfix c!" at 0x" c then _ else _) = val? (if isInfix c!" at 0x" c then _ else _)
    by_cases hs : isInfix c!" at 0x" c = true
    · rw [if_pos hs, if_pos hs]
      exact key c .nil (K he) .nil .nil
    · rw [if_neg hs, if_neg hs]
  case obj c cl wh s h1 h2 h3 h4 =>
    show val? (if isInfix c!" at 0x" s then _ else _) = val? (if isInfix c!" at 0x" s then _ else _)
    by_cases hs : isInfix c!" at 0x" s = true
    · rw [if_pos hs, if_pos hs]
      exact key c (K h1) (K h2) (K h3) (K h4)
    · rw [if_neg hs, if_neg hs]
  case part p f _ _ => cases p <;> rfl

/-- What the chain does with an object whose `str()` has its address. -/
theorem deep_obj {bs : BS} {c s : Str} {cl : Bool} {cd dd sd pd : Conf} {wh : Option WhatOpts} (hw : NotWhatable cl wh)
    (h : c!" at 0x" <:+: s) : firstSome (fun p => p.runC deepUser bs (.obj c cl cd dd sd pd wh s)) deepPlugins =
      ret (idStr bs { name := c, conf := configDictOfSrcs {} ⟨cd, dd, sd, pd⟩ } false) := by
  have hd : Plugin.runC deepUser bs (.custom 0) (.obj c cl cd dd sd pd wh s) =
      ret (idStr bs { name := c, conf := configDictOfSrcs {} ⟨cd, dd, sd, pd⟩ } false) := by
    show (deepPlugin _).eval bs = _
    rw [deep_eval, show pyStr (.obj c cl cd dd sd pd wh s) = s from rfl, isInfix_iff.2 h]
    rfl
  rw [deepPlugins_eq]
  have hm : Plugin.runC deepUser bs .whatable (.obj c cl cd dd sd pd wh s) = .ok none := by
    rcases hw with rfl | rfl
    · rfl
    · cases wh <;> rfl
  refine (firstSome_none rfl).trans ((firstSome_none hm).trans ?_)
  iterate 13 refine (firstSome_none rfl).trans ?_
  exact firstSome_ret hd

theorem opened_same {bs : BS} {a b : Val} (h : Opened a b) : firstSome (fun p => p.runC deepUser bs a) deepPlugins =
    firstSome (fun p => p.runC deepUser bs b) deepPlugins := by
  cases h with
  | @obj ob s cd dd sd pd conf callable wh hk hv hw hs hu hc =>
    rw [deep_obj hw hs]
    refine Eq.trans ?_ (firstSome_ret (p := .what) (r := idStr bs { name := ob.cls, conf := conf } false) rfl).symm
    simp only [Inst.toVal, bind, Except.bind] at hv
    cases h1 : slotsSrc ob with
    | error e => simp [h1] at hv
    | ok sd' =>
      cases h2 : propsSrc ob with
      | error e => simp [h1, h2] at hv
      | ok pd' =>
        simp [h1, h2] at hv
        obtain ⟨rfl, rfl, rfl, rfl⟩ := hv
        obtain ⟨u, c⟩ := c48_sources hk (configDictInst_some (o := {}) (fun _ => h1) (fun _ => h2))
        refine congrArg ret (idItems_same u (List.Perm.filter _ ?_))
        refine perm_of_dget u hu fun n => ?_
        apply Option.ext
        intro x
        rw [dget_mem_iff u, dget_mem_iff hu, hc, c, Inst.Shows]

/-- Two values that differ in what ids do not show, or in that an object is replaced by what it shows. -/
abbrev DeepUnseen (a b : Val) : Prop := Opened a b ∨ Unseen True True True True a b

theorem deep_reorder {bs : BS} {a b : Val} (h : Reorder a b) : val? ((deepPlugin a).eval bs) = val? ((deepPlugin b).eval bs) := by
  rw [deep_eval, deep_eval]
  cases h <;> try rfl
  case obj cd cd' dd dd' sd sd' pd pd' c cl wh s u1 u2 u3 u4 p1 p2 p3 p4 =>
    show val? (if isInfix c!" at 0x" s then _ else _) = val? (if isInfix c!" at 0x" s then _ else _)
    by_cases hs : isInfix c!" at 0x" s = true
    · rw [if_pos hs, if_pos hs]
      simp only [val?_ret]
      refine congrArg (fun r => (val? r).map some) (idItems_same (configDict_nodup _ _) (List.Perm.filter _ ?_))
      refine perm_of_dget (configDict_nodup _ _) (configDict_nodup _ _) fun n => ?_
      have e : ∀ {c c' : Conf}, UniqueKeys c → c.Perm c' → ∀ k, dget c k = dget c' k := by
        intro c c' u p k
        apply Option.ext
        intro x
        rw [dget_mem_iff u, dget_mem_iff ((p.map Prod.fst).nodup_iff.1 u), p.mem_iff]
      show dget (configDictOfSrcs {} ⟨cd, dd, sd, pd⟩) n = dget (configDictOfSrcs {} ⟨cd', dd', sd', pd'⟩) n
      rw [configDict_dget _ ⟨cd, dd, sd, pd⟩ u1 u2 u3 u4, configDict_dget _ ⟨cd', dd', sd', pd'⟩ (uniqueKeys_perm u1 p1) (uniqueKeys_perm u2 p2)
        (uniqueKeys_perm u3 p3) (uniqueKeys_perm u4 p4)]
      simp [firstOf, e u2 p2, e u3 p3, e u4 p4]
    · rw [if_neg hs, if_neg hs]

theorem deep_before {pre post : List Plugin} {k : Nat} (e : deepPlugins = pre ++ .custom k :: post) : .whatable ∈ pre ∧ .string ∈ pre := by
  have hk : k = 0 := by
    have : .custom k ∈ deepPlugins := by rw [e]; simp
    simpa [deepPlugins_eq] using this
  subst hk
  have hL : ∀ n, n < deepPlugins.length → deepPlugins[n]? = some (.custom 0) → .whatable ∈ deepPlugins.take n ∧ .string ∈ deepPlugins.take n := by decide
  have h1 := hL pre.length (by rw [e]; simp) (by rw [e]; simp)
  rw [e, List.take_left] at h1
  exact h1

theorem deep_blind (m : Nat) {a b : Val} (h : Cong DeepUnseen a b) : SameText (buildDeepN m) a b := by
  induction m generalizing a b with
  | zero => rfl
  | succ m ih =>
    refine chain_pw (fun x y hxy => ih hxy) (fun x y hxy => ?_) (fun k _ x y _ hp => deep_pointwise (fun x y hxy => ih hxy) hp) h
    rcases hxy with hxy | hxy
    · exact congrArg val? (opened_same hxy)
    refine firstSome_same_until fun pre p post e hpre => ?_
    by_cases hc : ∃ k, p = .custom k
    · obtain ⟨k, rfl⟩ := hc
      show val? ((deepPlugin x).eval _) = val? ((deepPlugin y).eval _)
      cases hxy with
      | reorder _ hr => exact deep_reorder hr
      | nonid _ hr => cases hr <;> (rw [deep_eval, deep_eval]; rfl)
      | hidden _ hr =>
        cases hr with
        | obj c o s s' =>
          have : Plugin.whatable ∈ pre := (deep_before e).1
          have := hpre _ this
          exact absurd this (by simp only [Plugin.runC, Plugin.run, obj_plugin]; exact ret_ne _)
      | quote _ hr =>
        cases hr with
        | str hr =>
          have : Plugin.string ∈ pre := (deep_before e).2
          have := hpre _ this
          exact absurd this (by simp [Plugin.runC, Plugin.run, stringPlugin])
    · exact run_unseen deepPlugins_inserted (fun x y ho hd => ih (.base (.inr (.reorder ho (.dict hd))))) hxy e hpre fun k e => hc ⟨k, e⟩

/-- Nothing in it is an object with an address, and floats are floats. -/
def NoAddress (x : Val) : Prop := ∀ u, Within u x → ¬ HasAddress u ∧ ∀ t, u = .float t → ¬ c!" at 0x" <:+: t

theorem noAddress_closed : Closed NoAddress := by
  have leaf : ∀ v, ¬ HasAddress v → (∀ t, v = .float t → ¬ c!" at 0x" <:+: t) → (∀ x, ¬ Child x v) → NoAddress v := by
    intro v hv hf hc u hu
    rcases within_inv hu with rfl | ⟨y, hy, -⟩
    · exact ⟨hv, hf⟩
    · exact absurd hy (hc y)
  have node : ∀ v, ¬ HasAddress v → (∀ t, v ≠ .float t) → (∀ x, Child x v → NoAddress x) → NoAddress v := by
    intro v hv hf hc u hu
    rcases within_inv hu with rfl | ⟨y, hy, hu⟩
    · exact ⟨hv, fun t e => absurd e (hf t)⟩
    · exact hc y hy u hu
  have no : ∀ {v : Val}, (∀ c cl cd dd sd pd wh s, v ≠ .obj c cl cd dd sd pd wh s) → ¬ HasAddress v := by
    rintro v h ⟨c, cl, cd, dd, sd, pd, wh, s, e, -⟩
    exact h _ _ _ _ _ _ _ _ e
  refine ⟨fun x v c h u hu => h u (hu.trans c.within), leaf _ (no (by simp)) (by simp) ?_, fun i => leaf _ (no (by simp)) (by simp) ?_,
    leaf _ (no (by simp)) ?_ ?_, fun s => leaf _ (no (by simp)) (by simp) ?_, fun xs h => node _ (no (by simp)) (by simp) ?_,
    fun xs h => node _ (no (by simp)) (by simp) ?_, fun xs h => node _ (no (by simp)) (by simp) ?_, fun kvs h => node _ (no (by simp)) (by simp) ?_⟩
  · intro x h; cases h
  · intro x h; cases h
  · rintro t ⟨⟩; rw [← isInfix_iff]; decide
  · intro x h; cases h
  · intro x h; cases h
  · intro x hx; cases hx with | tuple hm => exact h x hm
  · intro x hx; cases hx with | list hm => exact h x hm
  · intro x hx; cases hx with | set hm => exact h x hm
  · intro x hx
    cases hx with
    | dictKey hm => exact (h _ hm).1
    | dictVal hm => exact (h _ hm).2

theorem noAddress_what {c : Str} {d : Conf} {nk : List Str} {o : Option Str} (hd : ∀ n x, (n, x) ∈ d → NoAddress x) : NoAddress (.what c d nk o) := by
  intro u hu
  rcases within_inv hu with rfl | ⟨y, hy, hu⟩
  · exact ⟨(by rintro ⟨_, _, _, _, _, _, _, _, e, -⟩; cases e), (by rintro _ ⟨⟩)⟩
  · cases hy with | what k _ _ _ hm => exact hd _ _ hm u hu

theorem firstSome_tail {f g : Plugin → R (Option Str)} {pre a b : List Plugin} (h : ∀ p ∈ pre, f p = g p)
    (ht : (∀ p ∈ pre, f p = .ok none) → firstSome f a = firstSome g b) : firstSome f (pre ++ a) = firstSome g (pre ++ b) := by
  induction pre with
  | nil => exact ht (by simp)
  | cons p pre ih =>
    have h1 := h p (by simp)
    simp only [List.cons_append, firstSome, ← h1]
    cases hf : f p with
    | error e => rfl
    | ok o =>
      cases o with
      | some s => rfl
      | none =>
        refine ih (fun q hq => h q (by simp [hq])) fun hq => ht ?_
        intro q hm
        rcases List.mem_cons.1 hm with rfl | hm
        · exact hf
        · exact hq q hm

theorem deep_last {bs bs' : BS} {x : Val} (hx : NoAddress x)
    (hpre : ∀ p ∈ ([.whatable, .string, .tuple, .list, .dict, .set] : List Plugin), p.runC deepUser bs x = .ok none) :
    (deepPlugin x).eval bs = any0xPlugin bs' x := by
  have hs := hx x (.refl x)
  rw [deep_eval, any0xPlugin]
  by_cases hi : isInfix c!" at 0x" (pyStr x) = true
  · rw [if_pos hi, if_pos hi]
    have empty : ∀ n, idStr bs { name := n, conf := [] } false = idStr bs' { name := n, conf := [] } false := fun n => rfl
    cases x <;> try exact congrArg ret (empty _)
    case bool b => cases b <;> exact absurd hi (by decide)
    case int i =>
      refine absurd hi ?_
      rw [Bool.not_eq_true]
      exact isInfix_blank rfl fun h => absurd ((intStr_chars i).2 _ h) (by decide)
    case float t => exact absurd (isInfix_iff.1 hi) (hs.2 t rfl)
    case sub k c at_ xs =>
      cases k
      · exact absurd (hpre .list (by simp)) (ret_ne _)
      · exact absurd (hpre .tuple (by simp)) (ret_ne _)
      · exact absurd (hpre .set (by simp)) (ret_ne _)
      · exact absurd (hpre .set (by simp)) (ret_ne _)
    case odict c at_ kvs => exact absurd (hpre .dict (by simp)) (by simp only [Plugin.runC, Plugin.run, odict_plugin]; exact ret_ne _)
    case ddict c at_ kvs =>
      refine absurd (hpre .dict (by simp)) ?_
      simp only [Plugin.runC, Plugin.run, ddict_plugin]
      cases dictStr bs kvs with
      | error e => simp
      | ok s => exact ret_ne _
    case what n c nk o => exact absurd (show isInfix c!" at 0x" c!"What" = true from hi) (by decide)
    case obj c cl cd dd sd pd wh s =>
      cases wh with
      | none => exact absurd ⟨c, cl, cd, dd, sd, pd, _, s, rfl, .inl rfl, isInfix_iff.1 hi⟩ hs.1
      | some o => 
        cases cl with
        | false => exact absurd (hpre .whatable (by simp)) (by simp only [Plugin.runC, Plugin.run, obj_plugin]; exact ret_ne _)
        | true => exact absurd ⟨c, _, cd, dd, sd, pd, _, s, rfl, .inr rfl, isInfix_iff.1 hi⟩ hs.1
    case part p f args kws =>
      cases p
      · exact absurd (show isInfix c!" at 0x" c!"curry" = true from hi) (by decide)
      · exact absurd (show isInfix c!" at 0x" c!"partial" = true from hi) (by decide)
  · rw [if_neg hi, if_neg hi]

theorem deep_plain (m : Nat) {x : Val} (hx : NoAddress x) : buildDeepN m x = buildC deepUser defaultPlugins m x := by
  induction m generalizing x with
  | zero => rfl
  | succ m ih =>
    have e : ∀ p ∈ deepPlugins, (∀ n, p ≠ .custom n) → Plugin.runC deepUser (buildDeepN m) p x = Plugin.runC deepUser (buildC deepUser defaultPlugins m) p x := by
      intro p _ hp
      obtain ⟨L, hL, hs, -⟩ := asks p hp (fun bs k u => (deepUser k u).eval bs) x
      exact hs _ _ fun u hu => ih (hL _ noAddress_closed hx u hu)
    refine firstSome_tail (pre := defaultPlugins.take 15) (a := [.custom 0, .any]) (b := [.any0x, .any]) (fun p hp => e p ?_ ?_) fun hn => ?_
    · revert p; decide
    · intro n hn; subst hn; revert hp; simp [defaultPlugins]
    · have h1 : Plugin.runC deepUser (buildDeepN m) (.custom 0) x = Plugin.runC deepUser (buildC deepUser defaultPlugins m) .any0x x :=
        deep_last hx fun p hp => hn p (by revert p; decide)
      simp only [firstSome]
      rw [h1]
      rfl

theorem unused_users (cu : Callers) (m : Nat) : buildC cu defaultPlugins m = buildC (fun _ _ => .done (.ok none)) defaultPlugins m := by
  induction m with
  | zero => rfl
  | succ m ih =>
    funext v
    simp only [buildC, ih]
    refine firstSome_congr fun p hp => ?_
    cases p <;> try rfl
    exact absurd hp (by simp [defaultPlugins])

/-- `build_string` with the deep plugin in place of the default. -/
noncomputable def buildDeep : BS := answer deepUser deepPlugins

/-- `What.id()` with the deep plugin in place of the default. -/
noncomputable def idDeep (w : What) : R Str := idStr buildDeep w false

/-! ### The claim -/

/-- **C88**: objects are told by their class and all their attributes: with the deep plugin, the text of a value is that of the value in which
objects with an address, anywhere within, are replaced by Whats of their class with their attributes; nor does it matter what does not matter to
the default plugins.  Whatever the recursion limit is, and without one. -/
theorem c88_text {a b : Val} (h : Cong DeepUnseen a b) :
    (∀ limit, val? (buildDeepN limit a) = val? (buildDeepN limit b)) ∧ val? (buildDeep a) = val? (buildDeep b) :=
  ⟨fun n => deep_blind n h, answer_of_buildC fun n => deep_blind n h⟩

/-- **C88**: the plugin makes no difference to values without such objects. -/
theorem c88_plain {x : Val} (hx : NoAddress x) : buildDeep x = buildD x := by
  rw [buildDeep, buildD, ← c82_conservative (fun _ _ => .done (.ok none)) noCustom fun _ _ => rfl]
  obtain ⟨n, hn⟩ := c82_enough deepUser deepPlugins x
  obtain ⟨m, hm⟩ := c82_enough (fun _ _ => .done (.ok none)) defaultPlugins x
  rw [← hn (max n m) (by omega), ← hm (max n m) (by omega), ← unused_users deepUser]
  exact deep_plain _ hx

theorem idDeep_val (w : What) : buildDeep w.toVal = ret (idDeep w) := by
  rw [buildDeep, c82_equation]
  exact firstSome_ret rfl

theorem idD_val (w : What) : buildD w.toVal = ret (idD w) := buildD_what ..

theorem val?_ret_inj {r r' : R Str} (h : val? (ret r) = val? (ret r')) : val? r = val? r' := by
  cases r <;> cases r' <;> simp_all [ret, val?]

/-- **C88** for ids: the id with the deep plugin is the id, with the default plugins, of the configuration in which objects are replaced by what
they show; it is defined if that is. -/
theorem c88_id {w x : What} (h : Cong DeepUnseen w.toVal x.toVal) (hx : NoAddress x.toVal) (s : Str) : idDeep w = .ok s ↔ idD x = .ok s := by
  have h1 := (c88_text h).2
  rw [c88_plain hx, idDeep_val, idD_val] at h1
  have h2 := val?_ret_inj h1
  cases ha : idDeep w <;> cases hb : idD x <;> simp_all [val?]

/-- **C88**: two configurations have the same id with the deep plugin exactly if they are the same when objects are replaced by what they show, and
other values by what stands for them in ids (C77), up to order. -/
theorem c88_same_id {w w' x x' y y' : What} (h : Cong DeepUnseen w.toVal x.toVal) (h' : Cong DeepUnseen w'.toVal x'.toVal)
    (hx : NoAddress x.toVal) (hx' : NoAddress x'.toVal) (hs : SeenAs x.toVal y.toVal) (hs' : SeenAs x'.toVal y'.toVal)
    (hy : PrintableWhat ⟨False, False, True⟩ y) (hy' : PrintableWhat ⟨False, False, True⟩ y') :
    idDeep w = idDeep w' ↔ Cong Reorder y.toVal y'.toVal := by
  obtain ⟨e, s, hsx⟩ := c77_id hs hy
  obtain ⟨e', s', hsx'⟩ := c77_id hs' hy'
  rw [← c77_same_id hs hs' hy hy', (c88_id h hx s).2 hsx, (c88_id h' hx' s').2 hsx', hsx, hsx']

/-- C88: reading such an id gives a What equal (`==`) to the one with objects replaced by what they show. -/
theorem c88_read {E : Env} {w x y : What} (ns : Bool) (h : Cong DeepUnseen w.toVal x.toVal) (hx : NoAddress x.toVal) (hs : SeenAs x.toVal y.toVal)
    (hy : PrintableWhat ⟨False, False, True⟩ y) (hl : LoadableWhat ⟨False, False, True⟩ E y) (hnan : ns = true ∨ ¬ Within (.float c!"nan") y.toVal) :
    ∃ s w', idDeep w = .ok s ∧ parseWhatid E s = .ok w' ∧ pyEq E.fi ns y.toVal w'.toVal = true := by
  obtain ⟨s, w', h1, h2, h3⟩ := c77_read ns hs hy hl hnan
  exact ⟨s, w', (c88_id h hx s).2 h1, h2, h3⟩

/-- With the default plugins, such an object shows nothing but its class. -/
theorem opened_default {v : Val} {c : Str} {d : Conf} (h : Opened v (.what c d [] none)) : buildD v = .ok (some (c ++ c!"()")) := by
  cases h with
  | @obj ob s cd dd sd pd conf callable wh hk hv hw hs hu hc =>
    have hm : Plugin.run noCustom buildD .whatable (.obj ob.cls callable cd dd sd pd wh s) = .ok none := by
      rcases hw with rfl | rfl
      · rfl
      · cases wh <;> rfl
    rw [buildD_eq]
    refine (firstSome_none rfl).trans ((firstSome_none hm).trans ?_)
    iterate 13 refine (firstSome_none rfl).trans ?_
    refine firstSome_ret (r := .ok _) ?_
    show any0xPlugin _ _ = _
    rw [any0xPlugin, show pyStr (.obj ob.cls callable cd dd sd pd wh s) = s from rfl, if_pos (isInfix_iff.2 hs)]
    simp [ret, idStr, idItems, sortBy, mapR, wrapId, pyJoin, className]

/-- C88: with the default plugins objects of a class all look alike, with the deep plugin they are alike if their attributes are. -/
theorem c88_tells {v v' : Val} {c c' : Str} {d d' : Conf} (h : Opened v (.what c d [] none)) (h' : Opened v' (.what c' d' [] none))
    (hd : PrintableWhat ⟨False, False, True⟩ ⟨c, d, [], none⟩) (hd' : PrintableWhat ⟨False, False, True⟩ ⟨c', d', [], none⟩)
    (hn : ∀ n x, (n, x) ∈ d → NoAddress x) (hn' : ∀ n x, (n, x) ∈ d' → NoAddress x) :
    (buildDeep v = buildDeep v' ↔ Cong Reorder (.what c d [] none) (.what c' d' [] none)) ∧ (buildD v = buildD v' ↔ c = c') := by
  have e1 : ∀ {v c d}, Opened v (.what c d [] none) → PrintableWhat ⟨False, False, True⟩ ⟨c, d, [], none⟩ → (∀ n x, (n, x) ∈ d → NoAddress x) →
      ∃ s, buildDeep v = .ok (some s) ∧ idD ⟨c, d, [], none⟩ = .ok s := by
    intro v c d h hd hn
    have h1 := (c88_text (.base (.inl h))).2
    rw [c88_plain (noAddress_what hn), show (.what c d [] none : Val) = What.toVal ⟨c, d, [], none⟩ from rfl, idD_val, id_text hd] at h1
    cases hv : buildDeep v with
    | error e => rw [hv] at h1; cases h1
    | ok o => rw [hv] at h1; cases h1; exact ⟨_, rfl, id_text hd⟩
  constructor
  · obtain ⟨s, h1, h2⟩ := e1 h hd hn
    obtain ⟨s', h1', h2'⟩ := e1 h' hd' hn'
    rw [h1, h1', show (.what c d [] none : Val) = What.toVal ⟨c, d, [], none⟩ from rfl,
      show (.what c' d' [] none : Val) = What.toVal ⟨c', d', [], none⟩ from rfl, ← c08_iff hd hd', h2, h2']
    simp
  · rw [opened_default h, opened_default h']
    simp

/-- C88: it may raise where the default does not: an object with an attribute that has no text (such as a builtin function) has none. -/
theorem c88_raises {v u : Val} {c : Str} {d : Conf} (h : Opened v (.what c d [] none)) {n : Str} (hm : (n, u) ∈ d) {e : Err} (hu : buildDeep u = .error e) :
    (∃ e', buildDeep v = .error e') ∧ buildD v = .ok (some (c ++ c!"()")) := by
  refine ⟨?_, opened_default h⟩
  have h1 := (c88_text (.base (.inl h))).2
  rw [show (.what c d [] none : Val) = What.toVal ⟨c, d, [], none⟩ from rfl, idDeep_val] at h1
  have h2 : ∃ e', idDeep ⟨c, d, [], none⟩ = .error e' := by
    rw [idDeep, idStr]
    cases hr : mapR (kvStr buildDeep) (idItems ⟨c, d, [], none⟩ false) with
    | error e' => exact ⟨e', rfl⟩
    | ok l =>
      obtain ⟨b, -, hk⟩ := mapR_mem hr (x := (n, u)) (by
        rw [idItems, List.mem_filter, (sortBy_perm _ _).mem_iff]
        exact ⟨hm, by simp⟩)
      simp only [kvStr, hu] at hk
      cases hk
  obtain ⟨e', he⟩ := h2
  rw [he] at h1
  cases hv : buildDeep v with
  | error e => exact ⟨e, rfl⟩
  | ok o => rw [hv] at h1; cases h1

/-! ### Termination -/

/-- The floats in it are floats: no float is written with an address. -/
def GoodFloats (x : Val) : Prop := ∀ t, Within (.float t) x → ¬ c!" at 0x" <:+: t

theorem goodFloats_closed : Closed GoodFloats := by
  have leaf : ∀ v, (∀ t, v = .float t → ¬ c!" at 0x" <:+: t) → (∀ x, ¬ Child x v) → GoodFloats v := by
    intro v hf hc t hu
    rcases within_inv hu with e | ⟨y, hy, -⟩
    · exact hf t e.symm
    · exact absurd hy (hc y)
  have node : ∀ v, (∀ t, v ≠ .float t) → (∀ x, Child x v → GoodFloats x) → GoodFloats v := by
    intro v hf hc t hu
    rcases within_inv hu with e | ⟨y, hy, hu⟩
    · exact absurd e.symm (hf t)
    · exact hc y hy t hu
  refine ⟨fun x v c h t hu => h t (hu.trans c.within), leaf _ (by simp) ?_, fun i => leaf _ (by simp) ?_,
    leaf _ ?_ ?_, fun s => leaf _ (by simp) ?_, fun xs h => node _ (by simp) ?_,
    fun xs h => node _ (by simp) ?_, fun xs h => node _ (by simp) ?_, fun kvs h => node _ (by simp) ?_⟩
  · intro x h; cases h
  · intro x h; cases h
  · rintro t ⟨⟩; rw [← isInfix_iff]; decide
  · intro x h; cases h
  · intro x h; cases h
  · intro x hx; cases hx with | tuple hm => exact h x hm
  · intro x hx; cases hx with | list hm => exact h x hm
  · intro x hx; cases hx with | set hm => exact h x hm
  · intro x hx
    cases hx with
    | dictKey hm => exact (h _ hm).1
    | dictVal hm => exact (h _ hm).2

theorem askId_only {Q : Val → Prop} {n : Str} {c : Conf} (h : ∀ kv ∈ c, Q kv.2) (parts : List Str) : (askId n c parts).Only Q (· ≠ tooDeep) := by
  induction c generalizing parts with
  | nil => simp [askId, Act.Only]
  | cons e c ih =>
    obtain ⟨k, v⟩ := e
    refine ⟨h (k, v) (by simp), fun r hr => ?_⟩
    cases r with
    | error e => exact hr
    | ok s => exact ih (fun kv hkv => h kv (by simp [hkv])) _

theorem idItems_mem {w : What} {b : Bool} {kv : Str × Val} (h : kv ∈ idItems w b) : kv ∈ w.conf := by
  rw [idItems, List.mem_filter, (sortBy_perm _ _).mem_iff] at h
  exact h.1

/-- The plugin, but for floats. -/
def tameDeep : Callers := fun _ v =>
  match v with
  | .float _ => .done (.ok none)
  | v => deepPlugin v

theorem tame_smaller (k : Nat) (v : Val) : (tameDeep k v).Only (fun u => depth u < depth v) (· ≠ tooDeep) := by
  have none' : ∀ v, isInfix c!" at 0x" (pyStr v) = false → (deepPlugin v).Only (fun u => depth u < depth v) (· ≠ tooDeep) := by
    intro v h
    rw [deepPlugin, if_neg (by simp [h])]
    simp [Act.Only]
  have some' : ∀ v, (∀ kv, kv ∈ configDictForObject {} v → depth kv.2 < depth v) → (deepPlugin v).Only (fun u => depth u < depth v) (· ≠ tooDeep) := by
    intro v h
    rw [deepPlugin]
    split
    · exact askId_only (fun kv hkv => h kv (idItems_mem hkv)) _
    · simp [Act.Only]
  have attrs : ∀ v, (depthA (attrsOf v).cd < depth v ∧ depthA (attrsOf v).dd < depth v ∧ depthA (attrsOf v).sd < depth v ∧ depthA (attrsOf v).pd < depth v) →
      (deepPlugin v).Only (fun u => depth u < depth v) (· ≠ tooDeep) := by
    intro v h
    refine some' v fun kv hkv => ?_
    rcases configDict_depth hkv with h' | h' | h' | h' <;> omega
  cases v
  case float t => simp [tameDeep, Act.Only]
  case bool b => cases b <;> exact none' _ (by decide)
  case int i => exact none' _ (isInfix_blank rfl fun h => absurd ((intStr_chars i).2 _ h) (by decide))
  case what n c nk o => exact none' _ (by rfl)
  case part p f args kws => cases p <;> exact none' _ (by rfl)
  all_goals exact attrs _ (by simp only [attrsOf, depth, depthA]; omega)

theorem tame_same (m : Nat) {x : Val} (hx : GoodFloats x) : buildDeepN m x = buildC tameDeep deepPlugins m x := by
  induction m generalizing x with
  | zero => rfl
  | succ m ih =>
    refine firstSome_congr fun p hp => ?_
    by_cases hc : ∃ k, p = .custom k
    · obtain ⟨k, rfl⟩ := hc
      show (deepPlugin x).eval _ = (tameDeep k x).eval _
      by_cases hf : ∃ t, x = .float t
      · obtain ⟨t, rfl⟩ := hf
        have : isInfix c!" at 0x" (pyStr (.float t)) ≠ true := fun h => hx t (.refl _) (isInfix_iff.1 h)
        rw [deepPlugin, if_neg this]
        rfl
      · have e : tameDeep k x = deepPlugin x := by
          unfold tameDeep
          split
          · exact absurd ⟨_, rfl⟩ hf
          · rfl
        rw [e]
        refine eval_only (Q := GoodFloats) (D := (· ≠ tooDeep)) (fun u hu => ih hu) _ ?_
        rw [deepPlugin]
        split
        · exact askId_only (fun kv hkv => attrs_closed goodFloats_closed hx kv.1 kv.2 (mem_srcs (o := {}) (show (kv.1, kv.2) ∈ configDictForObject {} x from idItems_mem hkv))) _
        · simp [Act.Only]
    · replace hc : ∀ k, p ≠ .custom k := fun k e => hc ⟨k, e⟩
      obtain ⟨L, hL, hs, -⟩ := asks p hc (fun bs k u => (deepUser k u).eval bs) x
      have h1 := hs _ (buildC tameDeep deepPlugins m) fun u hu => ih (hL _ goodFloats_closed hx u hu)
      refine Eq.trans h1 ?_
      cases p <;> try rfl
      exact absurd rfl (hc _)

/-- C88: the calls nest no deeper than the value is deep, and RecursionError is not raised then. -/
theorem c88_bound {x : Val} (hx : GoodFloats x) {n : Nat} (h : depth x ≤ n) : buildDeepN n x = buildDeep x ∧ buildDeep x ≠ .error .recursionError := by
  have h1 := c82_bound tameDeep deepPlugins (fun k v _ => only_mono (fun _ h => h) (fun _ _ => trivial) _ (tame_smaller k v)) x
  have h2 : buildDeep x = answer tameDeep deepPlugins x := by
    obtain ⟨m, hm⟩ := c82_enough deepUser deepPlugins x
    obtain ⟨l, hl⟩ := c82_enough tameDeep deepPlugins x
    rw [buildDeep, ← hm (max m l) (by omega), ← hl (max m l) (by omega)]
    exact tame_same _ hx
  rw [h2, tame_same _ hx, h1 n h]
  exact ⟨rfl, c82_returns tameDeep deepPlugins (fun k v _ => tame_smaller k v) x⟩

/-! ### Examples -/

/-- `C()` with `self.a = a`, `self._b = None`. -/
def exDeepInst (a : Val) : Inst := ⟨c!"C", [[]], some [(c!"a", a), (c!"_b", .none)]⟩
/-- It, as a value. -/
def exDeep (a : Val) (s : Str) : Val := .obj c!"C" false [] [(c!"a", a), (c!"_b", .none)] [] [] none s

theorem exDeep_opened (a : Val) {s : Str} (hs : c!" at 0x" <:+: s) : Opened (exDeep a s) (.what c!"C" [(c!"_b", .none), (c!"a", a)] [] none) := by
  have nf : ∀ n m, ¬ (exDeepInst a).Finds n m := by
    rintro n m ⟨before, c, after, e, -, hm⟩
    have : c ∈ [[]] := by rw [show [[]] = (exDeepInst a).mro from rfl, e]; simp
    simp only [List.mem_singleton] at this
    subst this
    cases hm
  refine Opened.obj (ob := exDeepInst a) (s := s) (callable := false) (wh := none) ⟨?_, ?_, ?_⟩ rfl (.inl rfl) hs (by unfold UniqueKeys; simp) ?_
  · intro c hc; simp [exDeepInst] at hc; subst hc; simp
  · rintro d ⟨⟩; simp
  · rintro v ⟨d, e, hm⟩
    cases e
    simp at hm
  · intro n x
    constructor
    · intro hm
      refine .inr ⟨fun ⟨m, h, _⟩ => nf _ _ h, .inl ⟨rfl, _, rfl, ?_⟩⟩
      simp only [List.mem_cons, List.not_mem_nil, or_false] at hm ⊢
      exact hm.symm
    · rintro (⟨⟨m, h, -⟩, -⟩ | ⟨-, ⟨-, d, e, hm⟩ | ⟨h, -⟩⟩)
      · exact absurd h (nf _ _)
      · cases e
        simp only [List.mem_cons, List.not_mem_nil, or_false] at hm ⊢
        exact hm.symm
      · cases h

theorem exDeep_plain {a : Val} (h : NoAddress a) : NoAddress (.what c!"C" [(c!"_b", .none), (c!"a", a)] [] none) := by
  refine noAddress_what fun n x hm => ?_
  simp only [List.mem_cons, Prod.mk.injEq, List.not_mem_nil, or_false] at hm
  rcases hm with ⟨-, rfl⟩ | ⟨-, rfl⟩
  · exact noAddress_closed.none
  · exact h

/-- An object in an object in a list: with a limit of ten, and the default. -/
example : buildDeepN 10 (.list [exDeep (exDeep (.int 1) c!"<C object at 0x7f>") c!"<C object at 0x80>"]) = .ok (some c!"[C(_b=None,a=C(_b=None,a=1))]") := by rfl
example : buildC deepUser defaultPlugins 10 (.list [exDeep (exDeep (.int 1) c!"<C object at 0x7f>") c!"<C object at 0x80>"]) = .ok (some c!"[C()]") := by rfl

/-- The hypotheses of `c88_id` are met: `f(x=[C(a=C(a=1))])`. -/
example : idDeep ⟨c!"f", [(c!"x", .list [exDeep (exDeep (.int 1) c!"<C object at 0x7f>") c!"<C object at 0x80>"])], [], none⟩ =
    .ok c!"f(x=[C(_b=None,a=C(_b=None,a=1))])" := by
  refine (c88_id (x := ⟨c!"f", [(c!"x", .list [.what c!"C" [(c!"_b", .none), (c!"a", .what c!"C" [(c!"_b", .none), (c!"a", .int 1)] [] none)] [] none])], [], none⟩)
    ?_ ?_ _).2 (by rfl)
  · refine .what c!"f" [] [] c!"x" [] none (.list [] [] (.trans (.base (.inl (exDeep_opened _ (isInfix_iff.1 (by rfl))))) ?_))
    exact .what c!"C" [(c!"_b", .none)] [] c!"a" [] none (.base (.inl (exDeep_opened _ (isInfix_iff.1 (by rfl)))))
  · refine noAddress_what ?_
    rintro n x hm
    simp only [List.mem_cons, Prod.mk.injEq, List.not_mem_nil, or_false] at hm
    rw [hm.2]
    refine noAddress_closed.list _ fun x hx => ?_
    simp only [List.mem_cons, List.not_mem_nil, or_false] at hx
    rw [hx]
    exact exDeep_plain (exDeep_plain (noAddress_closed.int 1))

/-- `c88_tells` and `c88_raises`: attributes matter; a builtin as an attribute. -/
example : buildDeep (exDeep (.int 1) c!"<C object at 0x7f>") ≠ buildDeep (exDeep (.int 2) c!"<C object at 0x7f>") := by
  have pr : ∀ i, PrintableWhat ⟨False, False, True⟩ ⟨c!"C", [(c!"_b", .none), (c!"a", .int i)], [], none⟩ := by
    intro i
    refine ⟨⟨nofun, ident_of (by rfl), ?_⟩, by simp [UniqueKeys], .inl rfl, fun k v hm _ => ?_⟩
    · intro k hk
      simp only [List.map_cons, List.map_nil, List.mem_cons, List.not_mem_nil, or_false] at hk
      rcases hk with h | h <;> subst h <;> exact ident_of (by rfl)
    · simp only [List.mem_cons, Prod.mk.injEq, List.not_mem_nil, or_false] at hm
      rcases hm with ⟨rfl, rfl⟩ | ⟨rfl, rfl⟩
      · exact trivial
      · exact trivial
  have na : ∀ i n x, (n, x) ∈ [(c!"_b", Val.none), (c!"a", Val.int i)] → NoAddress x := by
    intro i n x hm
    simp only [List.mem_cons, Prod.mk.injEq, List.not_mem_nil, or_false] at hm
    rcases hm with ⟨-, rfl⟩ | ⟨-, rfl⟩
    · exact noAddress_closed.none
    · exact noAddress_closed.int i
  intro h
  have h1 := (c88_tells (exDeep_opened (.int 1) (isInfix_iff.1 (by rfl))) (exDeep_opened (.int 2) (isInfix_iff.1 (by rfl))) (pr 1) (pr 2) (na 1) (na 2)).1.1 h
  exact absurd ((c08_iff (pr 1) (pr 2)).2 h1) (fun h => (by cases h))
example : (∃ e, buildDeep (exDeep (.builtin c!"sorted") c!"<C object at 0x7f>") = .error e) ∧
    buildD (exDeep (.builtin c!"sorted") c!"<C object at 0x7f>") = .ok (some c!"C()") :=
  c88_raises (exDeep_opened _ (isInfix_iff.1 (by rfl))) (n := c!"a") (u := .builtin c!"sorted") (by simp) (e := .exception) (by
    rw [buildDeep, c82_equation]; rfl)

end Whatami
