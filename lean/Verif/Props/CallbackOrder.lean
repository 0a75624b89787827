import Verif.ChainCong
import Verif.Props.Callbacks

/-
C87: what does not matter to the ids of the default plugins does not matter with users' plugins either, if those do not make it matter.
-/
namespace Whatami

/-- A plugin does not mind `P`: as long as the `build_string` it calls gives values that differ by `P` (anywhere within) the same text, or raises
for both, so does the plugin. -/
def Blind (P : Val → Val → Prop) (plugin : Val → Act) : Prop :=
  ∀ bs : BS, (∀ x y, Cong P x y → val? (bs x) = val? (bs y)) → ∀ a b, Cong P a b → val? ((plugin a).eval bs) = val? ((plugin b).eval bs)

theorem cong_respects {P : Val → Val → Prop} {bs : BS} (h : ∀ x y, Cong P x y → SameText bs x y) : Respects bs (Cong P) where
  text := h
  list _ _ h := cong_ctx Val.list (fun l _ _ r => .list l r) h
  tuple _ _ h := cong_ctx Val.tuple (fun l _ _ r => .tuple l r) h
  dict _ _ h := cong_ctx (R := DKV (Cong P)) Val.dict
    (fun l a b r hab => .trans (.dictKey a.2 l r hab.1) (.dictVal b.1 l r hab.2)) h

/-- A chain with whatami's plugins in their order, with or without `anyobject0x_plugin`, and users' plugins anywhere among them. -/
def Inserted (ps : List Plugin) : Prop :=
  (ps.filter fun p => match p with | .custom _ => false | _ => true) = defaultPlugins ∨
  (ps.filter fun p => match p with | .custom _ => false | _ => true) = defaultPlugins.filter (· ≠ .any0x)

theorem inserted_before {ps : List Plugin} (hps : Inserted ps) {pre post : List Plugin} {p : Plugin} (e : ps = pre ++ p :: post)
    (hp : p = .any0x ∨ p = .any) : .whatable ∈ pre ∧ .string ∈ pre := by
  let f : Plugin → Bool := fun p => match p with | .custom _ => false | _ => true
  have hf : f p = true := by rcases hp with rfl | rfl <;> rfl
  have key : ∀ (L : List Plugin), (∀ n, n < L.length → L[n]? = some p → .whatable ∈ L.take n ∧ .string ∈ L.take n) → ps.filter f = L →
      .whatable ∈ pre ∧ .string ∈ pre := by
    intro L hL hps
    rw [e, List.filter_append, List.filter_cons_of_pos hf] at hps
    have h1 := hL (pre.filter f).length (by rw [← hps]; simp) (by rw [← hps]; simp)
    rw [← hps, List.take_left] at h1
    exact ⟨(List.mem_filter.1 h1.1).1, (List.mem_filter.1 h1.2).1⟩
  rcases hps with h | h
  · refine key _ ?_ h
    rcases hp with rfl | rfl <;> decide
  · refine key _ ?_ h
    rcases hp with rfl | rfl <;> decide

/-- A way to prove something of all values that differ by `P` somewhere. -/
theorem cong_cases {P Q : Val → Val → Prop} (hrefl : ∀ a, Q a a) (hsymm : ∀ {a b}, Q a b → Q b a) (htrans : ∀ {a b c}, Q a b → Q b c → Q a c)
    (base : ∀ {a b}, P a b → Q a b) (pw : ∀ {a b}, Cong P a b → Pointwise (Cong P) a b → Q a b) {a b : Val} (hab : Cong P a b) : Q a b := by
  have hole : ∀ {x y : Val}, Cong P x y → ∀ l r, All2 (Cong P) (l ++ x :: r) (l ++ y :: r) := fun h l r => All2.hole .refl h l r
  have holeK : ∀ {x y : Val}, Cong P x y → ∀ k l r, All2 (KV (Cong P)) (l ++ (k, x) :: r) (l ++ (k, y) :: r) :=
    fun h k l r => All2.hole (fun a => ⟨rfl, .refl _⟩) ⟨rfl, h⟩ l r
  have rK : ∀ c, All2 (KV (Cong P)) c c := fun c => All2.rfl' (fun a => ⟨rfl, .refl _⟩) c
  have rD : ∀ c, All2 (DKV (Cong P)) c c := fun c => All2.rfl' (fun a => ⟨.refl _, .refl _⟩) c
  have holeD1 : ∀ {x y : Val}, Cong P x y → ∀ v l r, All2 (DKV (Cong P)) (l ++ (x, v) :: r) (l ++ (y, v) :: r) :=
    fun h v l r => All2.hole (fun a => ⟨.refl _, .refl _⟩) ⟨h, .refl _⟩ l r
  have holeD2 : ∀ {x y : Val}, Cong P x y → ∀ k l r, All2 (DKV (Cong P)) (l ++ (k, x) :: r) (l ++ (k, y) :: r) :=
    fun h v l r => All2.hole (fun a => ⟨.refl _, .refl _⟩) ⟨.refl _, h⟩ l r
  induction hab with
  | base h => exact base h
  | refl a => exact hrefl a
  | symm _ ih => exact hsymm ih
  | trans _ _ i1 i2 => exact htrans i1 i2
  | tuple l r h => exact pw (.tuple l r h) (.tuple (hole h l r))
  | list l r h => exact pw (.list l r h) (.list (hole h l r))
  | set l r h => exact pw (.set l r h) (.set (hole h l r))
  | fset l r h => exact pw (.fset l r h) (.fset (hole h l r))
  | sub k c at_ l r h => exact pw (.sub k c at_ l r h) (.sub k c at_ (hole h l r))
  | dictKey v l r h => exact pw (.dictKey v l r h) (.dict (holeD1 h v l r))
  | dictVal k l r h => exact pw (.dictVal k l r h) (.dict (holeD2 h k l r))
  | odictKey c at_ v l r h => exact pw (.odictKey c at_ v l r h) (.odict c (rK _) (holeD1 h v l r))
  | odictVal c at_ k l r h => exact pw (.odictVal c at_ k l r h) (.odict c (rK _) (holeD2 h k l r))
  | odictAttr c l r k kvs h => exact pw (.odictAttr c l r k kvs h) (.odict c (holeK h k l r) (rD _))
  | ddictKey c at_ v l r h => exact pw (.ddictKey c at_ v l r h) (.ddict c (rK _) (holeD1 h v l r))
  | ddictVal c at_ k l r h => exact pw (.ddictVal c at_ k l r h) (.ddict c (rK _) (holeD2 h k l r))
  | ddictAttr c l r k kvs h => exact pw (.ddictAttr c l r k kvs h) (.ddict c (holeK h k l r) (rD _))
  | what n l r k nk o h => exact pw (.what n l r k nk o h) (.what n nk o (holeK h k l r))
  | duck n l r k nk o h => exact pw (.duck n l r k nk o h) (.duck n nk o (holeK h k l r))
  | objClass c cl l r dd sd pd k wh s h => exact pw (.objClass c cl l r dd sd pd k wh s h) (.obj c cl wh s (holeK h k l r) (rK _) (rK _) (rK _))
  | objDict c cl cd l r sd pd k wh s h => exact pw (.objDict c cl cd l r sd pd k wh s h) (.obj c cl wh s (rK _) (holeK h k l r) (rK _) (rK _))
  | objSlot c cl cd dd l r pd k wh s h => exact pw (.objSlot c cl cd dd l r pd k wh s h) (.obj c cl wh s (rK _) (rK _) (holeK h k l r) (rK _))
  | objProp c cl cd dd sd l r k wh s h => exact pw (.objProp c cl cd dd sd l r k wh s h) (.obj c cl wh s (rK _) (rK _) (rK _) (holeK h k l r))
  | func n args l r h => exact pw (.func n args l r h) (.func n args (hole h l r))
  | partArg p f l r kws h => exact pw (.partArg p f l r kws h) (.part p f (hole h l r) (rK _))
  | partKw p f args l r k h => exact pw (.partKw p f args l r k h) (.part p f (All2.rfl' .refl _) (holeK h k l r))
  | rngTuple c h => exact pw (.rngTuple c h) (.rngTuple c h)
  | rngDict c h => exact pw (.rngDict c h) (.rngDict c h)

/-- The chain, if a difference at the top matters to no plugin that gets to see the value. -/
theorem chain_pw {P : Val → Val → Prop} {bs : BS} (h : ∀ x y, Cong P x y → SameText bs x y) {cu : Callers} {ps : List Plugin}
    (own : ∀ a b, P a b → val? (firstSome (fun p => p.runC cu bs a) ps) = val? (firstSome (fun p => p.runC cu bs b) ps))
    (users : ∀ k, .custom k ∈ ps → ∀ a b, Cong P a b → Pointwise (Cong P) a b → val? ((cu k a).eval bs) = val? ((cu k b).eval bs))
    {a b : Val} (hab : Cong P a b) :
    val? (firstSome (fun p => p.runC cu bs a) ps) = val? (firstSome (fun p => p.runC cu bs b) ps) := by
  refine cong_cases (Q := fun a b => val? (firstSome (fun p => p.runC cu bs a) ps) = val? (firstSome (fun p => p.runC cu bs b) ps))
    (fun _ => rfl) Eq.symm Eq.trans (own _ _) (fun {x y} hxy hp => ?_) hab
  refine firstSome_same fun p hm => ?_
  by_cases hc : ∃ k, p = .custom k
  · obtain ⟨k, rfl⟩ := hc
    exact users k hm x y hxy hp
  · exact run_pointwise (cong_respects h) p (fun k e => hc ⟨k, e⟩) hp

theorem chain_cong {P : Val → Val → Prop} {bs : BS} (h : ∀ x y, Cong P x y → SameText bs x y) {cu : Callers} {ps : List Plugin}
    (own : ∀ a b, P a b → val? (firstSome (fun p => p.runC cu bs a) ps) = val? (firstSome (fun p => p.runC cu bs b) ps))
    (users : ∀ k, .custom k ∈ ps → Blind P (cu k)) {a b : Val} (hab : Cong P a b) :
    val? (firstSome (fun p => p.runC cu bs a) ps) = val? (firstSome (fun p => p.runC cu bs b) ps) :=
  chain_pw h own (fun k hk a b hab _ => users k hk bs h a b hab) hab

/-- A way to prove that a plugin does not mind `P`: for differences at the top, and for values of the same kind. -/
theorem blind_of {P : Val → Val → Prop} {plugin : Val → Act}
    (base : ∀ bs : BS, (∀ x y, Cong P x y → val? (bs x) = val? (bs y)) → ∀ a b, P a b → val? ((plugin a).eval bs) = val? ((plugin b).eval bs))
    (pw : ∀ bs : BS, (∀ x y, Cong P x y → val? (bs x) = val? (bs y)) → ∀ a b, Pointwise (Cong P) a b → val? ((plugin a).eval bs) = val? ((plugin b).eval bs)) :
    Blind P plugin := fun bs h a b hab =>
  cong_cases (Q := fun a b => val? ((plugin a).eval bs) = val? ((plugin b).eval bs)) (fun _ => rfl) Eq.symm Eq.trans
    (base bs h _ _) (fun _ h' => pw bs h _ _ h') hab

/-- What a chain does is determined by what the plugins do that get to see the value. -/
theorem firstSome_same_until {f g : Plugin → R (Option Str)} {ps : List Plugin}
    (h : ∀ pre p post, ps = pre ++ p :: post → (∀ q ∈ pre, f q = .ok none) → val? (f p) = val? (g p)) :
    val? (firstSome f ps) = val? (firstSome g ps) := by
  induction ps with
  | nil => rfl
  | cons p ps ih =>
    have h1 := h [] p ps rfl (by simp)
    simp only [firstSome]
    cases hf : f p with
    | error e => rw [hf] at h1; cases hg : g p with
      | error e' => rfl
      | ok o => rw [hg] at h1; cases h1
    | ok o =>
      rw [hf] at h1
      cases hg : g p with
      | error e' => rw [hg] at h1; cases h1
      | ok o' =>
        rw [hg] at h1
        have : o = o' := by simpa [val?] using h1
        subst this
        cases o with
        | some s => rfl
        | none =>
          refine ih fun pre q post e hpre => h (p :: pre) q post (by rw [e]; rfl) ?_
          intro x hx
          rcases List.mem_cons.1 hx with rfl | hx
          · exact hf
          · exact hpre x hx

/-- Values that differ in order, in non-id parameters, in private attributes of whatable objects or in how quotes are escaped: what the ids of
the default plugins do not show (C02, C03, C04, C24). -/
inductive Unseen (order nonids hidden quotes : Prop) : Val → Val → Prop where
  | reorder {a b : Val} : order → Reorder a b → Unseen order nonids hidden quotes a b
  | nonid {a b : Val} : nonids → NonIdChange a b → Unseen order nonids hidden quotes a b
  | hidden {a b : Val} : hidden → PrivateChange a b → Unseen order nonids hidden quotes a b
  | quote {a b : Val} : quotes → QuoteChange a b → Unseen order nonids hidden quotes a b

/-- The plugins of whatami, of two values that differ at the top in what ids do not show, if the ones before decline. -/
theorem run_unseen {o n q r : Prop} {bs : BS} {cu : Callers} {ps : List Plugin} (hps : Inserted ps)
    (h : ∀ a b : List (Val × Val), o → a.Perm b → SameText bs (.dict a) (.dict b)) {x y : Val} (hxy : Unseen o n q r x y) {pre post : List Plugin} {p : Plugin}
    (e : ps = pre ++ p :: post) (hpre : ∀ q ∈ pre, q.runC cu bs x = .ok none) (hc : ∀ k, p ≠ .custom k) :
    val? (p.runC cu bs x) = val? (p.runC cu bs y) := by
  cases hxy with
  | reorder ho hr => exact run_reorder (fun a b hd => h _ _ ho hd) p hc hr
  | nonid _ hr => exact run_nonids p hc hr
  | hidden _ hr =>
    cases hr with
    | obj c o s s' u1 u2 u3 u4 u1' u2' u3' u4' hr =>
      by_cases hp : p = .any0x ∨ p = .any
      · have := hpre _ (inserted_before hps e hp).1
        exact absurd this (by simp only [Plugin.runC, Plugin.run, obj_plugin]; exact ret_ne _)
      · cases p <;> try rfl
        case whatable =>
          simp only [Plugin.runC, Plugin.run, obj_plugin, val?_ret]
          exact congrArg (fun r => (val? r).map some) (idItems_same (uniqueKeys_filter (configDict_nodup _ _) _)
            ((private_perm u1 u2 u3 u4 u1' u2' u3' u4' hr).filter _))
        case any0x => exact absurd (.inl rfl) hp
        case any => exact absurd (.inr rfl) hp
        case custom k => exact absurd rfl (hc k)
  | quote _ hr =>
    cases hr with
    | str hr =>
      by_cases hp : p = .any0x ∨ p = .any
      · have := hpre _ (inserted_before hps e hp).2
        exact absurd this (by simp [Plugin.runC, Plugin.run, stringPlugin])
      · cases p <;> try rfl
        case string => simp only [Plugin.runC, Plugin.run, stringPlugin, strBody_of_quoteEq hr]
        case any0x => exact absurd (.inl rfl) hp
        case any => exact absurd (.inr rfl) hp
        case custom k => exact absurd rfl (hc k)

theorem buildC_blind {o n q r : Prop} {cu : Callers} {ps : List Plugin} (hps : Inserted ps)
    (users : ∀ k, .custom k ∈ ps → Blind (Unseen o n q r) (cu k)) (m : Nat) {a b : Val} (h : Cong (Unseen o n q r) a b) :
    SameText (buildC cu ps m) a b := by
  induction m generalizing a b with
  | zero => rfl
  | succ m ih =>
    refine chain_cong (fun x y hxy => ih hxy) (fun x y hxy => ?_) users h
    refine firstSome_same_until fun pre p post e hpre => ?_
    by_cases hc : ∃ k, p = .custom k
    · obtain ⟨k, rfl⟩ := hc
      exact users k (by rw [e]; simp) _ (fun x y hxy => ih hxy) x y (.base hxy)
    · exact run_unseen hps (fun x y ho hd => ih (.base (.reorder ho (.dict hd)))) hxy e hpre fun k e => hc ⟨k, e⟩

theorem answer_of_buildC {cu : Callers} {ps : List Plugin} {a b : Val} (h : ∀ n, val? (buildC cu ps n a) = val? (buildC cu ps n b)) :
    val? (answer cu ps a) = val? (answer cu ps b) := by
  obtain ⟨n, hn⟩ := c82_enough cu ps a
  obtain ⟨m, hm⟩ := c82_enough cu ps b
  rw [← hn (max n m) (by omega), ← hm (max n m) (by omega)]
  exact h _

theorem idStr_blind {o n q r : Prop} {bs : BS} (h : ∀ x y, Cong (Unseen o n q r) x y → SameText bs x y) {w w' : What}
    (hw : Cong (Unseen o n q r) w.toVal w'.toVal) : val? (idStr bs w false) = val? (idStr bs w' false) := by
  have key := chain_cong (cu := fun _ _ => .done (.ok none)) (ps := [.what]) h (fun a b hab => by
    refine firstSome_same fun p hp => ?_
    simp only [List.mem_cons, List.not_mem_nil, or_false] at hp
    subst hp
    cases hab with
    | reorder ho hr => exact run_reorder (fun a b hd => h _ _ (.base (.reorder ho (.dict hd)))) _ (by simp) hr
    | nonid _ hr => exact run_nonids _ (by simp) hr
    | hidden _ hr => cases hr; rfl
    | quote _ hr => cases hr; rfl) (by simp) hw
  have e : ∀ x : What, firstSome (fun p => p.runC (fun _ _ => .done (.ok none)) bs x.toVal) [.what] = ret (idStr bs x false) :=
    fun x => firstSome_ret rfl
  rw [e, e, val?_ret, val?_ret] at key
  cases h1 : val? (idStr bs w false) <;> cases h2 : val? (idStr bs w' false) <;> simp_all

/-! ### The claim -/

/-- **C87**: with users' plugins anywhere in the chain, what `build_string` gives for two values that differ only in what ids do not show (anywhere
within, and for any selection of such differences) is the same, or it raises for both, if that is so of each of the plugins on its own.  Whatever the
recursion limit is, and without one. -/
theorem c87_text {order nonids hidden quotes : Prop} {cu : Callers} {ps : List Plugin} (hps : Inserted ps)
    (users : ∀ k, .custom k ∈ ps → Blind (Unseen order nonids hidden quotes) (cu k)) {a b : Val} (h : Cong (Unseen order nonids hidden quotes) a b) :
    (∀ limit, val? (buildC cu ps limit a) = val? (buildC cu ps limit b)) ∧ val? (answer cu ps a) = val? (answer cu ps b) :=
  ⟨fun n => buildC_blind hps users n h, answer_of_buildC fun n => buildC_blind hps users n h⟩

/-- **C87** for `What.id()`. -/
theorem c87_id {order nonids hidden quotes : Prop} {cu : Callers} {ps : List Plugin} (hps : Inserted ps)
    (users : ∀ k, .custom k ∈ ps → Blind (Unseen order nonids hidden quotes) (cu k)) {w w' : What}
    (h : Cong (Unseen order nonids hidden quotes) w.toVal w'.toVal) :
    (∀ limit, val? (idStr (buildC cu ps limit) w false) = val? (idStr (buildC cu ps limit) w' false)) ∧
    val? (idStr (answer cu ps) w false) = val? (idStr (answer cu ps) w' false) :=
  ⟨fun n => idStr_blind (fun _ _ h => buildC_blind hps users n h) h,
   idStr_blind (fun _ _ h => answer_of_buildC fun n => buildC_blind hps users n h) h⟩

/-- C87: a plugin that declines, or answers without calling back, is blind exactly if its answers do not depend on the difference. -/
theorem c87_simple (P : Val → Val → Prop) (f : Val → R (Option Str)) :
    Blind P (fun v => .done (f v)) ↔ ∀ a b, Cong P a b → val? (f a) = val? (f b) :=
  ⟨fun h a b hab => h (fun _ => .ok none) (fun _ _ _ => rfl) a b hab, fun h _ _ a b hab => h a b hab⟩

/-- C87: the condition on the plugins cannot be dropped: a plugin that minds makes a difference to the value it minds, if no other plugin takes it
before. -/
theorem c87_needed (cu : Callers) (k : Nat) (post : List Plugin) (a b : Val) (s t : Str) (ha : cu k a = .done (.ok (some s)))
    (hb : cu k b = .done (.ok (some t))) (hst : s ≠ t) :
    val? (answer cu (.custom k :: post) a) ≠ val? (answer cu (.custom k :: post) b) := by
  rw [c82_equation, c82_equation]
  have e : ∀ v r, cu k v = .done (.ok (some r)) →
      firstSome (fun p => p.runC cu (answer cu (.custom k :: post)) v) (.custom k :: post) = .ok (some r) := by
    intro v r h
    exact firstSome_ret (r := .ok r) (by show (cu k v).eval _ = _; rw [h]; rfl)
  rw [e a s ha, e b t hb]
  simpa [val?] using hst

/-! ### A plugin for frozensets -/

/-- Asks about the elements one after the other, and goes on with what it is told. -/
def askEach : List Val → List Str → (List Str → Act) → Act
  | [], acc, k => k acc
  | x :: xs, acc, k => .ask x fun
    | .error e => .done (.error e)
    | .ok s => askEach xs (acc ++ [showOpt s]) k

/-- Frozensets with bars, in the order of the texts; the second plugin writes the elements in the order of iteration. -/
def exBars : Callers := fun k v =>
  match k, v with
  | 0, .fset xs => askEach xs [] fun l => .done (.ok (some (c!"<" ++ pyJoin c!"|" (sortBy strLe l) ++ c!">")))
  | 1, .fset xs => askEach xs [] fun l => .done (.ok (some (c!"<" ++ pyJoin c!"|" l ++ c!">")))
  | _, _ => .done (.ok none)

theorem eval_askEach (bs : BS) (f : List Str → Str) (xs : List Val) (acc : List Str) :
    val? ((askEach xs acc fun l => .done (.ok (some (f l)))).eval bs) = (mapO (fun x => val? (bs x)) xs).map fun l => some (f (acc ++ l.map showOpt)) := by
  induction xs generalizing acc with
  | nil => simp [askEach, Act.eval, mapO, val?]
  | cons x xs ih =>
    simp only [askEach, Act.eval, mapO]
    cases hx : bs x with
    | error e => cases e <;> rfl
    | ok s =>
      show val? ((askEach xs (acc ++ [showOpt s]) fun l => .done (.ok (some (f l)))).eval bs) = _
      rw [ih]
      cases mapO (fun x => val? (bs x)) xs <;> simp [val?]

theorem exBars_blind : Blind (Unseen True True True True) (exBars 0) := by
  refine blind_of (fun bs h a b hab => ?_) fun bs h a b hab => ?_
  · cases hab with
    | reorder _ hr =>
      cases hr <;> try rfl
      case fset hp =>
        simp only [exBars]
        rw [eval_askEach bs (fun l => c!"<" ++ pyJoin c!"|" (sortBy strLe l) ++ c!">"), eval_askEach bs (fun l => c!"<" ++ pyJoin c!"|" (sortBy strLe l) ++ c!">")]
        have := mapO_perm (fun x => val? (bs x)) hp
        revert this
        cases mapO (fun x => val? (bs x)) _ <;> cases mapO (fun x => val? (bs x)) _ <;> simp only [PermO] <;> intro p
        · trivial
        · exact p.elim
        · exact p.elim
        · simp only [Option.map_some, List.nil_append, sort_strLe_perm (p.map showOpt)]
    | nonid _ hr => cases hr <;> rfl
    | hidden _ hr => cases hr; rfl
    | quote _ hr => cases hr; rfl
  · cases hab <;> try rfl
    case fset hxy =>
      simp only [exBars]
      rw [eval_askEach bs (fun l => c!"<" ++ pyJoin c!"|" (sortBy strLe l) ++ c!">"), eval_askEach bs (fun l => c!"<" ++ pyJoin c!"|" (sortBy strLe l) ++ c!">"),
        (hxy.imp h).mapO fun a b hab => hab]

theorem exBars_chain : Inserted (.custom 0 :: defaultPlugins) := .inl rfl

/-- The hypotheses of the theorems are met: a frozenset in a dict in a What, reordered at both levels. -/
example : val? (idStr (answer exBars (.custom 0 :: defaultPlugins))
      ⟨c!"f", [(c!"x", .dict [(.int 1, .fset [.int 3, .int 2]), (.int 0, .none)])], [], none⟩ false) =
    val? (idStr (answer exBars (.custom 0 :: defaultPlugins)) ⟨c!"f", [(c!"x", .dict [(.int 0, .none), (.int 1, .fset [.int 2, .int 3])])], [], none⟩ false) := by
  refine (c87_id (order := True) (nonids := True) (hidden := True) (quotes := True) exBars_chain (fun k hk => ?_) ?_).2
  · simp only [defaultPlugins, List.mem_cons, Plugin.custom.injEq, reduceCtorEq, List.not_mem_nil, or_false] at hk
    subst hk
    exact exBars_blind
  · refine .what c!"f" [] [] c!"x" [] none (.trans (.base (.reorder trivial (.dict (List.Perm.swap _ _ _)))) ?_)
    exact .dictVal _ [_] [] (.base (.reorder trivial (.fset (List.Perm.swap _ _ _))))
example : idStr (buildC exBars (.custom 0 :: defaultPlugins) 5)
    ⟨c!"f", [(c!"x", .dict [(.int 1, .fset [.int 3, .int 2]), (.int 0, .none)])], [], none⟩ false = .ok c!"f(x={0:None,1:<2|3>})" := by rfl

/-- The other plugin minds. -/
example : buildC exBars (.custom 1 :: defaultPlugins) 5 (.fset [.int 3, .int 2]) = .ok (some c!"<3|2>") ∧
    buildC exBars (.custom 1 :: defaultPlugins) 5 (.fset [.int 2, .int 3]) = .ok (some c!"<2|3>") := ⟨rfl, rfl⟩
example : ¬ Blind (Unseen True False False False) (exBars 1) := by
  intro h
  have := h (fun v => .ok (some (pyStr v))) (fun x y hxy => ?_) (.fset [.int 3, .int 2]) (.fset [.int 2, .int 3]) (.base (.reorder trivial (.fset (List.Perm.swap _ _ _))))
  · revert this; decide
  · refine cong_cases (Q := fun x y => val? (.ok (some (pyStr x)) : R (Option Str)) = val? (.ok (some (pyStr y)))) (fun _ => rfl) Eq.symm Eq.trans (fun h => ?_) (fun _ h => ?_) hxy
    · cases h with
      | reorder _ h => cases h <;> rfl
      | nonid h => exact h.elim
      | hidden h => exact h.elim
      | quote h => exact h.elim
    · cases h <;> try rfl
      rename_i p f _ _ _
      cases p <;> rfl

end Whatami
