import Verif.Sklearn
import Verif.Props.Id
import Verif.Props.Introspect

/-
C59: what() of sklearn objects.  C60: which declarations are applied.

Specification: `Declared` (the last declaration of a class counts), `Older` (the order of versions).
-/
namespace Whatami

/-! ### C59 -/

/-- The last declaration of the class in the sequence gives this entry. -/
def Declared (ds : List Declaration) (cls : Str) (m : SklMeta) : Prop :=
  ∃ before nick nonids after, ds = before ++ (cls, nick, nonids) :: after ∧ cls ∉ after.map Prod.fst ∧ m.nonids = nonids ∧
    (nick = some m.short ∨ nick = none ∧ m.short = cls)

/-- **C59**: declarations never fail, and of several declarations of a class the last one counts, also over what was there. -/
theorem c59_declared (reg : SklReg) (ds : List Declaration) :
    ∃ reg', declareAll reg ds = .ok reg' ∧
      ∀ cls m, dget reg' cls = some m ↔ Declared ds cls m ∨ cls ∉ ds.map Prod.fst ∧ dget reg cls = some m := by
  induction ds generalizing reg with
  | nil =>
    refine ⟨reg, rfl, fun cls m => ?_⟩
    simp [Declared]
  | cons d ds ih =>
    obtain ⟨cls0, nick, nonids⟩ := d
    obtain ⟨reg', h1, h2⟩ := ih (dset reg cls0 { short := nick.getD cls0, nonids := nonids })
    refine ⟨reg', by simpa [declareAll, declare] using h1, fun cls m => ?_⟩
    rw [h2, dget_dset]
    constructor
    · rintro (⟨b, n, i, a, h3, h4⟩ | ⟨h3, h4⟩)
      · exact .inl ⟨(cls0, nick, nonids) :: b, n, i, a, by rw [h3]; rfl, h4⟩
      · split at h4
        · rename_i e
          cases h4
          subst e
          refine .inl ⟨[], nick, nonids, ds, rfl, h3, rfl, ?_⟩
          cases nick with
          | none => exact .inr ⟨rfl, rfl⟩
          | some n => exact .inl rfl
        · rename_i e
          exact .inr ⟨by simpa [h3] using fun e' => e e'.symm, h4⟩
    · rintro (⟨b, n, i, a, h3, h4, h5, h6⟩ | ⟨h3, h4⟩)
      · cases b with
        | nil =>
          simp only [List.nil_append, List.cons.injEq, Prod.mk.injEq] at h3
          obtain ⟨⟨rfl, rfl, rfl⟩, rfl⟩ := h3
          refine .inr ⟨h4, ?_⟩
          rw [if_pos rfl, ← h5]
          obtain ⟨s, ni⟩ := m
          rcases h6 with h6 | ⟨h6, h7⟩
          · rw [h6]; rfl
          · simp only at h7
            rw [h6, h7]; rfl
        | cons x b =>
          simp only [List.cons_append, List.cons.injEq] at h3
          exact .inl ⟨b, n, i, a, h3.2, h4, h5, h6⟩
      · simp only [List.map_cons, List.mem_cons, not_or] at h3
        exact .inr ⟨h3.2, by rw [if_neg (fun e => h3.1 e.symm)]; exact h4⟩

/-- C59: `what()` of an object with `get_params` has exactly its parameters, the short name declared for its class (or the name of the
class), and the non-id parameters declared for it. -/
theorem c59_params {reg : SklReg} {x : SklObj} {conf : Conf} (hp : x.params = .ok conf) (useShort : Bool) :
    ∃ w, whatForSklearn reg useShort x = .ok w ∧ w.conf = conf ∧ w.out = none ∧
      (∀ m, dget reg x.cls = some m → w.name = (if useShort then m.short else x.cls) ∧ w.nonids = m.nonids) ∧
      (dget reg x.cls = none → w.name = x.cls ∧ w.nonids = []) := by
  unfold whatForSklearn
  rw [hp]
  cases h : dget reg x.cls with
  | none => exact ⟨_, rfl, rfl, rfl, by simp, fun _ => ⟨rfl, rfl⟩⟩
  | some m => exact ⟨_, rfl, rfl, rfl, fun m' hm => by cases hm; exact ⟨rfl, rfl⟩, by simp⟩

/-- C59: two objects of the same class have the same id if they agree in all parameters but those declared non-id. -/
theorem c59_nonids (cu : Customs) (ps : List Plugin) {reg : SklReg} {x y : SklObj} {a b : Conf} (hc : x.cls = y.cls) (hx : x.params = .ok a)
    (hy : y.params = .ok b) (ha : UniqueKeys a) (hb : UniqueKeys b) {m : SklMeta} (hm : dget reg x.cls = some m)
    (agree : ∀ k, k ∉ m.nonids → ∀ v, (k, v) ∈ a ↔ (k, v) ∈ b) (useShort : Bool) :
    ∃ w w', whatForSklearn reg useShort x = .ok w ∧ whatForSklearn reg useShort y = .ok w' ∧ idStr (build cu ps) w false = idStr (build cu ps) w' false := by
  obtain ⟨w, h1, h2, h3, h4, -⟩ := c59_params (reg := reg) hx useShort
  obtain ⟨w', g1, g2, g3, g4, -⟩ := c59_params (reg := reg) hy useShort
  have h4 := h4 m hm
  have g4 := g4 m (hc ▸ hm)
  refine ⟨w, w', h1, g1, ?_⟩
  obtain ⟨n, c, ni, o⟩ := w
  obtain ⟨n', c', ni', o'⟩ := w'
  simp only at h2 h3 h4 g2 g3 g4
  rw [h2, h3, h4.1, h4.2, g2, g3, g4.1, g4.2, hc]
  exact c03_nonids_any_chain cu ps _ a b m.nonids none ha hb agree

/-- No name has an opening parenthesis in it. -/
def NamesFine (ds : List Declaration) : Prop := ∀ d ∈ ds, '(' ∉ d.2.1.getD d.1

theorem id_prefix {bs : BS} {w : What} {f : Bool} {s : Str} (ho : w.out = none) (h : idStr bs w f = .ok s) : ∃ r, s = w.name ++ '(' :: r := by
  simp only [idStr] at h
  cases hm : mapR (kvStr bs) (idItems w f) with
  | error e => rw [hm] at h; cases h
  | ok parts =>
    rw [hm] at h
    cases h
    refine ⟨pyJoin c!"," parts ++ c!")", ?_⟩
    simp [wrapId, ho]

theorem prefix_unique {a b r s : Str} (ha : '(' ∉ a) (hb : '(' ∉ b) (h : a ++ '(' :: r = b ++ '(' :: s) : a = b := by
  induction a generalizing b with
  | nil =>
    cases b with
    | nil => rfl
    | cons c b =>
      simp only [List.nil_append, List.cons_append, List.cons.injEq] at h
      exact absurd h.1 (fun e => hb (e ▸ .head _))
  | cons c a ih =>
    cases b with
    | nil =>
      simp only [List.nil_append, List.cons_append, List.cons.injEq] at h
      exact absurd h.1.symm (fun e => ha (e ▸ .head _))
    | cons d b =>
      simp only [List.cons_append, List.cons.injEq] at h
      rw [h.1, ih (fun e => ha (.tail _ e)) (fun e => hb (.tail _ e)) h.2]

/-- In a table without repetitions what is declared is an entry of it. -/
theorem declared_mem {ds : List Declaration} {cls : Str} {m : SklMeta} (h : Declared ds cls m) : ∃ d ∈ ds, d.1 = cls ∧ d.2.1.getD d.1 = m.short := by
  obtain ⟨b, n, i, a, rfl, -, -, h⟩ := h
  refine ⟨(cls, n, i), by simp, rfl, ?_⟩
  rcases h with rfl | ⟨rfl, h⟩
  · rfl
  · exact h.symm

/-- The names in ids, in the order of the table. -/
def shortNames (ds : List Declaration) : List Str := ds.map fun d => d.2.1.getD d.1

theorem short_inj {ds : List Declaration} (hn : (shortNames ds).Nodup) {c c' : Str} {m m' : SklMeta} (h : Declared ds c m) (h' : Declared ds c' m')
    (he : m.short = m'.short) : c = c' := by
  obtain ⟨d, hd, rfl, h1⟩ := declared_mem h
  obtain ⟨d', hd', rfl, h2⟩ := declared_mem h'
  rw [← h1, ← h2] at he
  clear h h' h1 h2
  induction ds with
  | nil => cases hd
  | cons x ds ih =>
    obtain ⟨hx, hn⟩ := List.nodup_cons.1 hn
    rcases List.mem_cons.1 hd with rfl | hd <;> rcases List.mem_cons.1 hd' with rfl | hd'
    · rfl
    · exact absurd (List.mem_map.2 ⟨d', hd', he.symm⟩) hx
    · rename_i hd0
      exact absurd (List.mem_map.2 ⟨d, hd0, he⟩) hx
    · exact ih hn hd hd'

/-- Whether it has `get_params` or is inspected, an object of a declared class is called by the short name. -/
theorem short_name {reg : SklReg} {x : SklObj} {m : SklMeta} (hm : dget reg x.cls = some m) {w : What} (hw : whatForSklearn reg true x = .ok w) :
    w.name = m.short ∧ w.out = none ∧ w.nonids = m.nonids := by
  unfold whatForSklearn at hw
  split at hw
  · rw [hm] at hw
    simp only [obj2what, if_true, Bool.not_true, Bool.false_and, Bool.false_eq_true, if_false, whatareyou] at hw
    split at hw
    · cases hw; exact ⟨rfl, rfl, rfl⟩
    · cases hw; exact ⟨rfl, rfl, rfl⟩
    · cases hw; exact ⟨rfl, rfl, rfl⟩
    · cases hw
  · cases hw
  · rw [hm] at hw
    cases hw
    exact ⟨rfl, rfl, rfl⟩

/-- C59: objects of different declared classes never have the same id, with or without `get_params`, if no two classes are declared with the same name. -/
theorem c59_distinct {bs : BS} {ds : List Declaration} (hn : (shortNames ds).Nodup) (hf : NamesFine ds) {reg : SklReg} (hr : declareAll [] ds = .ok reg)
    {x y : SklObj} (hdx : x.cls ∈ ds.map Prod.fst) (hdy : y.cls ∈ ds.map Prod.fst)
    {w w' : What} (hw : whatForSklearn reg true x = .ok w) (hw' : whatForSklearn reg true y = .ok w') {f g : Bool} {s : Str}
    (hs : idStr bs w f = .ok s) (hs' : idStr bs w' g = .ok s) : x.cls = y.cls := by
  obtain ⟨reg', h1, h2⟩ := c59_declared [] ds
  rw [hr] at h1
  cases h1
  have found : ∀ c, c ∈ ds.map Prod.fst → ∃ m, dget reg c = some m ∧ Declared ds c m := by
    intro c hc
    obtain ⟨k, t, hkt, hk⟩ : ∃ b a, ds.map Prod.fst = b ++ c :: a ∧ c ∉ a := by
      have := List.eq_append_cons_of_mem (List.mem_reverse.2 hc)
      obtain ⟨u, v, h1, h2⟩ := this
      refine ⟨v.reverse, u.reverse, ?_, by simpa using h2⟩
      have := congrArg List.reverse h1
      simpa using this
    obtain ⟨b, r, h1, h2', h3⟩ := List.map_eq_append_iff.1 hkt
    obtain ⟨d, a, rfl, h4, h5⟩ := List.map_eq_cons_iff.1 h3
    obtain ⟨c', nick, ni⟩ := d
    simp only at h4
    subst h4
    have hD : Declared ds c' { short := nick.getD c', nonids := ni } := by
      refine ⟨b, nick, ni, a, h1, by rw [h5]; exact hk, rfl, ?_⟩
      cases nick with
      | none => exact .inr ⟨rfl, rfl⟩
      | some n => exact .inl rfl
    exact ⟨_, (h2 _ _).2 (.inl hD), hD⟩
  obtain ⟨m, hm, hD⟩ := found _ hdx
  obtain ⟨m', hm', hD'⟩ := found _ hdy
  obtain ⟨n1, o1, -⟩ := short_name hm hw
  obtain ⟨n2, o2, -⟩ := short_name hm' hw'
  obtain ⟨r, hr1⟩ := id_prefix o1 hs
  obtain ⟨r', hr2⟩ := id_prefix o2 hs'
  rw [n1] at hr1
  rw [n2] at hr2
  have fine : ∀ c mm, Declared ds c mm → '(' ∉ mm.short := by
    intro c mm h
    obtain ⟨d, hd, -, h⟩ := declared_mem h
    rw [← h]
    exact hf d hd
  exact short_inj hn hD hD' (prefix_unique (fine _ _ hD) (fine _ _ hD') (hr1 ▸ hr2))

/-- C59: no two classes of a table share a name. -/
theorem c59_tables : ((shortNames table0_15_1).Nodup ∧ NamesFine table0_15_1) ∧ (shortNames table0_19_1).Nodup ∧ NamesFine table0_19_1 := by
  unfold NamesFine
  refine ⟨⟨?_, ?_⟩, ?_, ?_⟩ <;> decide +kernel

/-- C59: an object without `get_params` (a cross validator, say) reports its public attributes, if its class was declared. -/
theorem c59_inspected {reg : SklReg} {x : SklObj} {m : SklMeta} (hp : x.params = .error .attributeError) (hm : dget reg x.cls = some m) {c s : Str}
    {cd dd sd pd : Conf} {wh : Option WhatOpts} (hv : x.val = .obj c false cd dd sd pd wh s)
    (h1 : UniqueKeys cd) (h2 : UniqueKeys dd) (h3 : UniqueKeys sd) (h4 : UniqueKeys pd) :
    ∃ w, whatForSklearn reg true x = .ok w ∧ w.name = m.short ∧ w.nonids = m.nonids ∧
      ∀ k v, (k, v) ∈ w.conf ↔ Public {} k ∧
        ((k, v) ∈ pd ∨ (¬ ∃ u, (k, u) ∈ pd) ∧ ((k, v) ∈ sd ∨ (¬ ∃ u, (k, u) ∈ sd) ∧ (k, v) ∈ dd)) := by
  have e : whatForSklearn reg true x = .ok { name := m.short, conf := trimDict { nonids := m.nonids } (configDictOfSrcs { nonids := m.nonids } ⟨cd, dd, sd, pd⟩), nonids := m.nonids } := by
    unfold whatForSklearn
    rw [hp, hm, hv]
    rfl
  refine ⟨_, e, rfl, rfl, fun k v => ?_⟩
  have hc := (c26_precedence { nonids := m.nonids } ⟨cd, dd, sd, pd⟩ h1 h2 h3 h4).2 k v
  simp only [(c25_exact _ _).1 k v, hc, strongest, true_and, Bool.false_eq_true, false_and, and_false, or_false, Public]
  exact and_comm

/-- C59: if it was not, `what()` raises AttributeError (so that it is not whatable when nested). -/
theorem c59_undeclared {reg : SklReg} {x : SklObj} (hp : x.params = .error .attributeError) (hm : dget reg x.cls = none) (useShort : Bool) :
    whatForSklearn reg useShort x = .error .attributeError := by
  unfold whatForSklearn
  rw [hp, hm]

/-! ### C60 -/

/-- `v` is an older version than `w`. -/
def Older (v w : SVersion) : Prop :=
  v.major < w.major ∨ v.major = w.major ∧ (v.minor < w.minor ∨ v.minor = w.minor ∧ (v.patch < w.patch ∨ v.patch = w.patch ∧
    match v.pre, w.pre with
    | some _, none => True
    | some (false, _), some (true, _) => True
    | some (a, m), some (b, n) => a = b ∧ m < n
    | none, _ => False))

theorem version_le_iff (v w : SVersion) : v.le w = true ↔ Older v w ∨ v = w := by
  obtain ⟨a, b, c, p⟩ := v
  obtain ⟨a', b', c', p'⟩ := w
  simp only [SVersion.le, SVersion.key, Older, SVersion.mk.injEq, List.cons_append, List.nil_append, numsLe]
  by_cases h1 : a = a'
  · by_cases h2 : b = b'
    · by_cases h3 : c = c'
      · subst h1 h2 h3
        cases p with
        | none =>
          cases p' with
          | none => simp [numsLe]
          | some q => simp [numsLe]
        | some q =>
          obtain ⟨x, m⟩ := q
          cases p' with
          | none => simp [numsLe]
          | some q' =>
            obtain ⟨y, n⟩ := q'
            cases x <;> cases y <;> simp [numsLe] <;> omega
      · simp [h1, h2, h3]
    · simp [h1, h2]
  · simp [h1]

theorem older_trans {u v w : SVersion} (h1 : u.le v = true) (h2 : v.le w = true) : u.le w = true := by
  have key : ∀ a b c : List Nat, numsLe a b = true → numsLe b c = true → numsLe a c = true := by
    intro a
    induction a with
    | nil => intros; rfl
    | cons x a ih =>
      intro b c h1 h2
      cases b with
      | nil => cases h1
      | cons y b =>
        cases c with
        | nil => cases h2
        | cons z c =>
          simp only [numsLe] at h1 h2 ⊢
          split at h1
          · subst_vars
            split at h2
            · rw [if_pos (by assumption)]
              exact ih b c h1 h2
            · rw [if_neg (by assumption)]
              exact h2
          · have h1 := of_decide_eq_true h1
            split at h2
            · subst_vars
              rw [if_neg (by assumption)]
              exact decide_eq_true h1
            · have h2 := of_decide_eq_true h2
              rw [if_neg (by omega)]
              exact decide_eq_true (by omega)
  exact key _ _ _ h1 h2

theorem version_le_total (u v : SVersion) : u.le v = true ∨ v.le u = true := by
  have key : ∀ a b : List Nat, numsLe a b = true ∨ numsLe b a = true := by
    intro a
    induction a with
    | nil => intros; exact .inl rfl
    | cons x a ih =>
      intro b
      cases b with
      | nil => exact .inr rfl
      | cons y b =>
        simp only [numsLe]
        by_cases e : x = y
        · rw [if_pos e, if_pos e.symm]
          exact ih b
        · rw [if_neg e, if_neg (fun h => e h.symm)]
          simp only [decide_eq_true_eq]
          omega
  exact key _ _

theorem choose_spec {α : Type} {v : SVersion} {ls : List (SVersion × α)} (hs : ls.Pairwise fun x y => x.1.le y.1 = true) {x : SVersion × α}
    (h : chooseVersion v ls = some x) :
    x ∈ ls ∧ ((∃ y ∈ ls, v.le y.1 = true) → v.le x.1 = true ∧ ∀ y ∈ ls, v.le y.1 = true → x.1.le y.1 = true) ∧
      ((∀ y ∈ ls, ¬ v.le y.1 = true) → ∀ y ∈ ls, y.1.le x.1 = true) := by
  induction ls with
  | nil => cases h
  | cons a ls ih =>
    cases ls with
    | nil =>
      cases h
      refine ⟨.head _, ?_, ?_⟩
      · rintro ⟨y, hy, hv⟩
        simp only [List.mem_singleton] at hy
        subst hy
        refine ⟨hv, fun z hz _ => ?_⟩
        simp only [List.mem_singleton] at hz
        subst hz
        exact (version_le_iff _ _).2 (.inr rfl)
      · intro _ y hy
        simp only [List.mem_singleton] at hy
        subst hy
        exact (version_le_iff _ _).2 (.inr rfl)
    | cons b ls =>
      obtain ⟨ha, hs⟩ := List.pairwise_cons.1 hs
      simp only [chooseVersion] at h
      split at h
      · rename_i hv
        cases h
        refine ⟨.head _, fun _ => ⟨hv, fun y hy _ => ?_⟩, fun hn => absurd hv (hn _ (.head _))⟩
        rcases List.mem_cons.1 hy with rfl | hy
        · exact (version_le_iff _ _).2 (.inr rfl)
        · exact ha y hy
      · rename_i hv
        obtain ⟨h1, h2, h3⟩ := ih hs h
        refine ⟨.tail _ h1, ?_, ?_⟩
        · rintro ⟨y, hy, hy'⟩
          rcases List.mem_cons.1 hy with rfl | hy
          · exact absurd hy' hv
          · obtain ⟨h4, h5⟩ := h2 ⟨y, hy, hy'⟩
            refine ⟨h4, fun z hz hz' => ?_⟩
            rcases List.mem_cons.1 hz with rfl | hz
            · exact absurd hz' hv
            · exact h5 z hz hz'
        · intro hn y hy
          rcases List.mem_cons.1 hy with rfl | hy
          · exact ha x h1
          · exact h3 (fun z hz => hn z (.tail _ hz)) y hy

theorem supported_sorted : supportedVersions.Pairwise fun x y => x.1.le y.1 = true :=
  sortBy_sorted (le := fun x y : SVersion × List Declaration => x.1.le y.1) (fun a b => version_le_total a.1 b.1) (fun _ _ _ h1 h2 => older_trans h1 h2) _

/-- The versions that were checked, with what was declared for them. -/
theorem mem_supported (p : SVersion × List Declaration) : p ∈ supportedVersions ↔
    p = (⟨0, 15, 1, none⟩, table0_15_1) ∨ p = (⟨0, 19, 1, none⟩, table0_19_1) ∨ p = (⟨0, 19, 2, none⟩, table0_19_1) := by
  unfold supportedVersions
  rw [mem_sortBy]
  simp

theorem not_older_iff (v w : SVersion) : ¬ Older v w ↔ w.le v = true := by
  constructor
  · intro h
    rcases version_le_total w v with h' | h'
    · exact h'
    · rcases (version_le_iff _ _).1 h' with h' | h'
      · exact absurd h' h
      · exact (version_le_iff _ _).2 (.inr h'.symm)
  · intro h h'
    have anti : ∀ v w : SVersion, Older v w → Older w v → False := by
      rintro ⟨a, b, c, p⟩ ⟨a', b', c', p'⟩ h h'
      simp only [Older] at h h'
      rcases p with _ | ⟨x, m⟩ <;> rcases p' with _ | ⟨y, n⟩
      · simp at h h'; omega
      · simp at h h'; omega
      · simp at h h'; omega
      · cases x <;> cases y <;> simp at h h' <;> omega
    rcases (version_le_iff _ _).1 h with h | rfl
    · exact anti _ _ h h'
    · exact anti _ _ h' h'

/-- The version `whatamize_sklearn` should go by: the oldest checked one that is not older than the installed one, or the newest checked one
if all are older. -/
def GoesBy (installed : SVersion) (p : SVersion × List Declaration) : Prop :=
  p ∈ supportedVersions ∧
    ((¬ Older p.1 installed ∧ ∀ q ∈ supportedVersions, ¬ Older q.1 installed → ¬ Older q.1 p.1) ∨
     ((∀ q ∈ supportedVersions, Older q.1 installed) ∧ ∀ q ∈ supportedVersions, ¬ Older p.1 q.1))

theorem goesBy_of {installed : SVersion} {p : SVersion × List Declaration} (hc : chooseVersion installed supportedVersions = some p) : GoesBy installed p := by
  obtain ⟨h1, h2, h3⟩ := choose_spec supported_sorted hc
  refine ⟨h1, ?_⟩
  by_cases hex : ∃ y ∈ supportedVersions, installed.le y.1 = true
  · obtain ⟨h4, h5⟩ := h2 hex
    exact .inl ⟨(not_older_iff _ _).2 h4, fun q hq ho => (not_older_iff _ _).2 (h5 q hq ((not_older_iff _ _).1 ho))⟩
  · refine .inr ⟨fun q hq => ?_, fun q hq => ?_⟩
    · exact Classical.byContradiction fun hn => hex ⟨q, hq, (not_older_iff _ _).1 hn⟩
    · exact (not_older_iff _ _).2 (h3 (fun y hy hy' => hex ⟨y, hy, hy'⟩) q hq)

theorem choice_some {α : Type} (installed : SVersion) {ls : List (SVersion × α)} (h : ls ≠ []) : ∃ x, chooseVersion installed ls = some x := by
  induction ls with
  | nil => exact absurd rfl h
  | cons a ls ih =>
    cases ls with
    | nil => exact ⟨a, rfl⟩
    | cons b ls =>
      simp only [chooseVersion]
      split
      · exact ⟨_, rfl⟩
      · exact ih (by simp)

/-- **C60**: `whatamize_sklearn` applies the declarations of the oldest checked version that is not older than the installed one, or those
of the newest checked one if all are older; a warning is logged exactly if the version chosen is not the installed one. -/
theorem c60_choice (installed : SVersion) (reg : SklReg) :
    ∃ p, GoesBy installed p ∧ ∃ reg', declareAll reg p.2 = .ok reg' ∧ declareFor installed reg = .ok (reg', decide (p.1 ≠ installed)) := by
  obtain ⟨p, hc⟩ := choice_some installed (List.ne_nil_of_mem ((mem_supported _).2 (.inl rfl)))
  refine ⟨p, goesBy_of hc, ?_⟩
  obtain ⟨reg', hr, -⟩ := c59_declared reg p.2
  refine ⟨reg', hr, ?_⟩
  simp only [declareFor, hc, hr, Except.map]
  congr 2
  by_cases e : p.1 = installed <;> simp [e]

/-- C59: so, whatever version is installed, objects of different declared classes have different ids. -/
theorem c59_ids_differ {bs : BS} {installed : SVersion} {reg : SklReg} {warned : Bool} (hr : declareFor installed [] = .ok (reg, warned)) {x y : SklObj}
    (hdx : dget reg x.cls ≠ none) (hdy : dget reg y.cls ≠ none) (hne : x.cls ≠ y.cls)
    {w w' : What} (hw : whatForSklearn reg true x = .ok w) (hw' : whatForSklearn reg true y = .ok w') {s s' : Str}
    (hs : idStr bs w false = .ok s) (hs' : idStr bs w' false = .ok s') : s ≠ s' := by
  rintro rfl
  obtain ⟨p, ⟨hp, -⟩, reg', hd, hf⟩ := c60_choice installed []
  rw [hr] at hf
  simp only [Except.ok.injEq, Prod.mk.injEq] at hf
  obtain ⟨rfl, -⟩ := hf
  have ht : (shortNames p.2).Nodup ∧ NamesFine p.2 := by
    rcases (mem_supported p).1 hp with rfl | rfl | rfl
    · exact c59_tables.1
    · exact c59_tables.2
    · exact c59_tables.2
  have mem : ∀ c, dget reg c ≠ none → c ∈ p.2.map Prod.fst := by
    intro c hc
    obtain ⟨reg'', h1, h2⟩ := c59_declared [] p.2
    rw [hd] at h1
    cases h1
    cases hg : dget reg c with
    | none => exact absurd hg hc
    | some m =>
      rcases (h2 c m).1 hg with ⟨u, n, i, v, e, -⟩ | ⟨-, h⟩
      · rw [e]; simp
      · cases h
  exact hne (c59_distinct ht.1 ht.2 hd (mem _ hdx) (mem _ hdy) hw hw' hs hs')

/-- "default to the immediately older explicitly supported" (wrappers/what_sklearn.py:574) is not what happens: with 0.18.0 the
declarations of 0.19.1 are applied, although 0.15.1 is older. -/
theorem c60_not_older : ∃ installed, (∃ q ∈ supportedVersions, Older q.1 installed) ∧
    ∃ p, chooseVersion installed supportedVersions = some p ∧ Older installed p.1 := by
  refine ⟨⟨0, 18, 0, none⟩, ⟨_, (mem_supported _).2 (.inl rfl), .inr ⟨rfl, .inl (by decide)⟩⟩, _, rfl, .inr ⟨rfl, .inl (by decide)⟩⟩

/-! A random forest that differs in `n_jobs`. -/
def exForest (jobs : Int) (trees : Int) : SklObj :=
  { cls := c!"RandomForestClassifier", params := .ok [(c!"n_estimators", .int trees), (c!"n_jobs", .int jobs)], val := .none }
example : ((declareFor ⟨0, 19, 1, none⟩ []).bind fun r => (whatForSklearn r.1 true (exForest 8 23)).bind fun w => idStr buildD w false)
    = .ok c!"rfc(n_estimators=23)" := by decide +kernel
example : (declareFor ⟨0, 19, 1, none⟩ []).toOption.map Prod.snd = some false ∧ (declareFor ⟨0, 20, 0, none⟩ []).toOption.map Prod.snd = some true := by decide +kernel
example : Declared table0_19_1 c!"CalibratedClassifierCV" ⟨c!"CalibratedClassifierCV", []⟩ := by
  refine ⟨[], none, [], table0_19_1.tail, rfl, by decide +kernel, rfl, .inr ⟨rfl, rfl⟩⟩

end Whatami
