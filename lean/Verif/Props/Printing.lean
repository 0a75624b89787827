import Verif.Printing
import Verif.Props.Stack
import Verif.Props.Attrs

/-
C93: describing an object runs its `repr()`.
-/
namespace Whatami

/-! ### Specification -/

/-- What a partial calls in the end; any other value itself. -/
def callee : Val → Val
  | .part _ f _ _ => callee f
  | v => v

/-- Functions, builtins, classes, and objects with `__call__`. -/
inductive CanCall : Val → Prop where
  | func (n : Str) (args : List Str) (ds : List Val) : CanCall (.func n args ds)
  | builtin (n : Str) : CanCall (.builtin n)
  | cls (f : Str) : CanCall (.cls f)
  | wcls (f : Str) : CanCall (.wcls f)
  | numtype (n : Str) : CanCall (.numtype n)
  | obj (c : Str) (cd dd sd pd : Conf) (wh : Option WhatOpts) (s : Str) : CanCall (.obj c true cd dd sd pd wh s)

/-- `'%r' % v` makes a text or raises ValueError or TypeError. -/
def ReprFine (repr : Val → R Str) (v : Val) : Prop := ∀ e, percent repr v = .error e → e = .valueError ∨ e = .typeError

/-! ### callable2call -/

theorem canCall_dec (v : Val) : CanCall v ∨ ¬ CanCall v := Classical.em _

theorem c2cP_eq (repr : Val → R Str) (v : Val) (pos : List Val) (kw : Conf) :
    (CanCall (callee v) → callable2callP repr v pos kw = callable2call v pos kw) ∧
    (¬ CanCall (callee v) → callable2callP repr v pos kw = refuse repr (callee v) ∧ callable2call v pos kw = .error .valueError) := by
  induction v, pos, kw using callable2call.induct with
  | case1 pos kw n args ds => exact ⟨fun _ => rfl, fun h => absurd (.func _ _ _) h⟩
  | case2 pos kw p g a k args kws ih => exact ih
  | case3 p f args kws pos kw hf ih =>
    have h1 : callable2callP repr (.part p f args kws) pos kw = callable2callP repr f (pos ++ args) (dictOf (kws ++ kw)) := by
      rw [callable2callP]; exact hf
    have h2 : callable2call (.part p f args kws) pos kw = callable2call f (pos ++ args) (dictOf (kws ++ kw)) := by
      rw [callable2call]; exact hf
    rw [h1, h2, callee]; exact ih
  | case4 pos kw n => exact ⟨fun _ => rfl, fun h => absurd (.builtin _) h⟩
  | case5 pos kw f => exact ⟨fun _ => rfl, fun h => absurd (.cls _) h⟩
  | case6 pos kw f => exact ⟨fun _ => rfl, fun h => absurd (.wcls _) h⟩
  | case7 pos kw n => exact ⟨fun _ => rfl, fun h => absurd (.numtype _) h⟩
  | case8 => exact ⟨fun _ => rfl, fun h => absurd (.obj _ _ _ _ _ _ _) h⟩
  | case9 v pos kw h1 h2 h3 h4 h5 h6 h7 h8 =>
    cases v
    case func => exact absurd rfl (h1 _ _ _)
    case part => exact absurd rfl (h3 _ _ _ _)
    case builtin => exact absurd rfl (h4 _)
    case cls => exact absurd rfl (h5 _)
    case wcls => exact absurd rfl (h6 _)
    case numtype => exact absurd rfl (h7 _)
    case obj c cl cd dd sd pd wh s =>
      cases cl with
      | true => exact absurd rfl (h8 _ _ _ _ _ _ _)
      | false => exact ⟨fun h => (by cases h), fun _ => ⟨rfl, rfl⟩⟩
    all_goals exact ⟨fun h => (by cases h), fun _ => ⟨rfl, rfl⟩⟩

/-- C93. `whatareyou(v)` of a value that is not callable (or a partial of one) raises what `repr()` raises, unless that is a ValueError or TypeError. -/
theorem c93_runs_repr (P : Printing) (o : WhatOpts) (v : Val) (name : Option Str) (hv : ¬ CanCall (callee v)) (e : Err)
    (he : percent P.repr (callee v) = .error e) (h1 : e ≠ .valueError) (h2 : e ≠ .typeError) : whatareyouP P o v name = .error e := by
  have := ((c2cP_eq P.repr v [] []).2 hv).1
  simp only [whatareyouP, this, refuse, he]

theorem refuse_fine {repr : Val → R Str} {v : Val} (hf : ReprFine repr v) :
    refuse repr v = .error .valueError ∨ refuse repr v = .error .typeError := by
  simp only [refuse]
  cases hp : percent repr v with
  | ok s => exact .inl rfl
  | error e => rcases hf e hp with rfl | rfl <;> simp

/-- C93. It raises what reading the attributes raises, whatever that is. -/
theorem c93_reads (P : Printing) (o : WhatOpts) (v : Val) (name : Option Str) (hv : ¬ CanCall (callee v)) (fine : ReprFine P.repr (callee v)) (e : Err)
    (he : P.attrs o v = some e) : whatareyouP P o v name = .error e := by
  have := ((c2cP_eq P.repr v [] []).2 hv).1
  simp only [whatareyouP, this]
  rcases refuse_fine fine with h | h <;> rw [h] <;> simp only [readAttrs, he] <;> rfl

/-- C93. Otherwise it does what it does whatever `repr()` gives. -/
theorem c93_otherwise (P : Printing) (o : WhatOpts) (v : Val) (name : Option Str) (h : CanCall (callee v) ∨ ReprFine P.repr (callee v))
    (attrs : P.attrs o v = none) : whatareyouP P o v name = whatareyou o v name := by
  have hr : readAttrs P o v = .ok (configDictForObject o v) := by simp only [readAttrs, attrs]
  rcases canCall_dec (callee v) with hv | hv
  · simp only [whatareyouP, whatareyou, (c2cP_eq P.repr v [] []).1 hv, hr]
    rfl
  · obtain ⟨e1, e2⟩ := (c2cP_eq P.repr v [] []).2 hv
    simp only [whatareyouP, whatareyou, e1, e2, hr]
    rcases refuse_fine (h.resolve_left hv) with h | h <;> rw [h] <;> rfl

/-! ### The text of repr does not matter -/

theorem percent_same {r r' : Val → R Str} (h : ∀ v e, r v = .error e ↔ r' v = .error e) (v : Val) (e : Err) :
    percent r v = .error e ↔ percent r' v = .error e := by
  unfold percent
  split <;> first | exact h _ _ | exact Iff.rfl

theorem refuse_same {r r' : Val → R Str} (h : ∀ v e, r v = .error e ↔ r' v = .error e) (v : Val) : refuse r v = refuse r' v := by
  have := percent_same h v
  simp only [refuse]
  cases h1 : percent r v with
  | error e => rw [(this e).1 h1]
  | ok s =>
    cases h2 : percent r' v with
    | error e => rw [(this e).2 h2] at h1; cases h1
    | ok s' => rfl

theorem c2cP_same {r r' : Val → R Str} (h : ∀ v e, r v = .error e ↔ r' v = .error e) (v : Val) (pos : List Val) (kw : Conf) :
    callable2callP r v pos kw = callable2callP r' v pos kw := by
  rcases canCall_dec (callee v) with hv | hv
  · rw [(c2cP_eq r v pos kw).1 hv, (c2cP_eq r' v pos kw).1 hv]
  · rw [((c2cP_eq r v pos kw).2 hv).1, ((c2cP_eq r' v pos kw).2 hv).1, refuse_same h]

theorem whatareyouP_same {P P' : Printing} (h : ∀ v e, P.repr v = .error e ↔ P'.repr v = .error e) (ha : P.attrs = P'.attrs) (o : WhatOpts) (v : Val) :
    whatareyouP P o v none = whatareyouP P' o v none := by
  simp only [whatareyouP, c2cP_same h, readAttrs, ha]

theorem whatMethodP_same {P P' : Printing} (h : ∀ v e, P.repr v = .error e ↔ P'.repr v = .error e) (ha : P.attrs = P'.attrs) (v : Val) :
    whatMethodP P v = whatMethodP P' v := by
  unfold whatMethodP
  split <;> first | rfl | exact congrArg some (whatareyouP_same h ha _ _)

theorem runP_same {P P' : Printing} (h : ∀ v e, P.repr v = .error e ↔ P'.repr v = .error e) (hs : P.str = P'.str)
    (ha : P.attrs = P'.attrs) (cu : Customs) (bs : BS) (p : Plugin) (v : Val) : p.runP P cu bs v = p.runP P' cu bs v := by
  cases p <;> simp only [Plugin.runP]
  case whatable => simp only [whatablePluginP, isWhatableP, whatMethodP_same h ha]; rfl
  case dict => cases v <;> simp only [dictPluginP, whatareyouP_same h ha]
  case part => cases v <;> simp only [partialPluginP, c2cP_same h]
  case rng => cases v <;> simp only [rngPluginP, whatareyouP_same h ha]
  case any0x => rw [hs]
  case any => rw [hs]

/-- C93. Of `repr()` only the exceptions matter: if two ways to print raise the same, and have the same `str()` and attributes, all texts are the
same. -/
theorem c93_text_irrelevant (P P' : Printing) (h : ∀ v e, P.repr v = .error e ↔ P'.repr v = .error e) (hs : P.str = P'.str)
    (ha : P.attrs = P'.attrs) (cu : Customs) (ps : List Plugin) (v : Val) : buildP P cu ps v = buildP P' cu ps v := by
  have all : ∀ n, buildPN P cu ps n = buildPN P' cu ps n := by
    intro n
    induction n with
    | zero => rfl
    | succ n ih =>
      funext v
      simp only [buildPN, ih]
      exact firstSome_congr fun p _ => runP_same h hs ha cu _ p v
  simp only [buildP, all]

/-! ### The equation, and printing without surprises -/

theorem whatareyouP_ok {P : Printing} {o : WhatOpts} {v : Val} {name : Option Str} : whatareyouP P o v name = whatareyou o v name ∨
    ∃ e, whatareyouP P o v name = .error e := by
  cases ha : P.attrs o v with
  | none =>
    rcases canCall_dec (callee v) with hv | hv
    · exact .inl (c93_otherwise P o v name (.inl hv) ha)
    · by_cases hf : ReprFine P.repr (callee v)
      · exact .inl (c93_otherwise P o v name (.inr hf) ha)
      · have : ∃ e, percent P.repr (callee v) = .error e ∧ e ≠ .valueError ∧ e ≠ .typeError :=
          Classical.byContradiction fun hn => hf fun e he => Classical.byContradiction fun h => hn ⟨e, he, fun x => h (.inl x), fun x => h (.inr x)⟩
        obtain ⟨e, he, h1, h2⟩ := this
        exact .inr ⟨e, c93_runs_repr P o v name hv e he h1 h2⟩
  | some e =>
    have hr : readAttrs P o v = .error e := by simp only [readAttrs, ha]
    rcases canCall_dec (callee v) with hv | hv
    · simp only [whatareyouP, whatareyou, (c2cP_eq P.repr v [] []).1 hv, hr]
      cases hc : callable2call v [] [] with
      | ok p => exact .inl rfl
      | error e' => cases e' <;> exact .inr ⟨_, rfl⟩
    · simp only [whatareyouP, ((c2cP_eq P.repr v [] []).2 hv).1, hr, refuse]
      cases percent P.repr (callee v) with
      | ok p => exact .inr ⟨_, rfl⟩
      | error e' => cases e' <;> exact .inr ⟨_, rfl⟩

/-- What a plugin does depends on what it is told about values inside its argument. -/
theorem runP_congr {P : Printing} {cu : Customs} {bs bs' : BS} (p : Plugin) (v : Val) (h : ∀ u, depth u < depth v → bs u = bs' u) :
    p.runP P cu bs v = p.runP P cu bs' v := by
  have base : ∀ q : Plugin, q.run cu bs v = q.run cu bs' v := fun q => run_congr q v h
  cases p <;> simp only [Plugin.runP]
  case whatable =>
    have b := base .whatable
    simp only [Plugin.run, whatablePlugin] at b
    simp only [whatablePluginP]
    have : whatMethodP P v = whatMethod v ∨ ∃ e, whatMethodP P v = some (.error e) := by
      cases v <;> try exact .inl rfl
      case obj c cl cd dd sd pd wh s =>
        cases wh with
        | none => exact .inl rfl
        | some o =>
          rcases whatareyouP_ok (P := P) (o := o) (v := .obj c cl cd dd sd pd (some o) s) (name := none) with h | ⟨e, h⟩
          · exact .inl (congrArg some h)
          · exact .inr ⟨e, congrArg some h⟩
    rcases this with e | ⟨e, he⟩
    · simp only [isWhatableP, e]
      exact b
    · simp only [he]
  case dict =>
    have b := base .dict
    simp only [Plugin.run] at b
    cases v <;> simp only [dictPluginP] <;> simp only [dictPlugin] at b
    case dict => exact b
    case odict c attrs kvs =>
      rcases whatareyouP_ok (P := P) (o := {}) (v := .odict c attrs kvs) (name := none) with h | ⟨e, h⟩
      · simp only [h]; exact b
      · simp only [h]
    case ddict c attrs kvs =>
      rcases whatareyouP_ok (P := P) (o := {}) (v := .ddict c attrs kvs) (name := none) with h' | ⟨e, h'⟩
      · simp only [h']; exact b
      · have : dictStr bs kvs = dictStr bs' kvs := dictStr_congr fun kv hkv => by
          have := depth_memD (k := kv.1) (v := kv.2) hkv
          exact ⟨h _ (by simp only [depth]; omega), h _ (by simp only [depth]; omega)⟩
        simp only [h', this]
  case part =>
    have b := base .part
    simp only [Plugin.run] at b
    cases v <;> simp only [partialPluginP]
    case part p f args kws =>
      simp only [partialPlugin] at b
      rcases canCall_dec (callee (curry2partial (.part p f args kws))) with hv | hv
      · rw [(c2cP_eq P.repr _ [] []).1 hv]; exact b
      · rw [((c2cP_eq P.repr _ [] []).2 hv).1]
        simp only [refuse]
        cases percent P.repr (callee (curry2partial (.part p f args kws))) <;> rfl
  case rng =>
    have b := base .rng
    simp only [Plugin.run] at b
    cases v <;> simp only [rngPluginP]
    case rng c st =>
      simp only [rngPlugin] at b
      rcases whatareyouP_ok (P := P) (o := {}) (v := st) (name := none) with h | ⟨e, h⟩
      · simp only [h]; exact b
      · simp only [h]
  case any0x =>
    simp only [any0xPluginP]
    cases P.str v <;> rfl
  all_goals exact base _

/-- The loop of `build_string`. -/
theorem buildP_eq (P : Printing) (cu : Customs) (ps : List Plugin) (v : Val) :
    buildP P cu ps v = firstSome (fun p => p.runP P cu (buildP P cu ps) v) ps := by
  have stable : ∀ n m v, depth v ≤ n → depth v ≤ m → buildPN P cu ps n v = buildPN P cu ps m v := by
    intro n
    induction n with
    | zero => intro m v h; have := depth_pos v; omega
    | succ n ih =>
      intro m v hn hm
      cases m with
      | zero => have := depth_pos v; omega
      | succ m => exact firstSome_congr fun p _ => runP_congr p v fun u hu => ih m u (by omega) (by omega)
  simp only [buildP]
  cases hd : depth v with
  | zero => have := depth_pos v; omega
  | succ n => exact firstSome_congr fun p _ => runP_congr p v fun u hu => stable _ _ _ (by omega) (by omega)

/-- C93. If printing holds no surprises for `v` and what is inside it, `build_string` does what the other claims say.  (Python makes partials of
functions, classes and other callables only.) -/
theorem c93_plain (P : Printing) (cu : Customs) (ps : List Plugin) (Q : Val → Prop) (closed : Closed Q)
    (fine : ∀ u, Q u → (∀ e, P.repr u = .error e → e = .valueError ∨ e = .typeError) ∧ P.str u = .ok (pyStr u) ∧ ∀ o, P.attrs o u = none)
    (calls : ∀ p f args kws, Q (.part p f args kws) → CanCall (callee f)) (v : Val) (hv : Q v) :
    buildP P cu ps v = build cu ps v := by
  have reprs : ∀ u, Q u → ReprFine P.repr u := by
    intro u hu e he
    unfold percent at he
    split at he
    · exact (fine _ (closed.child _ _ (.tuple (by simp)) hu)).1 e he
    · cases he; exact .inr rfl
    · exact (fine _ (closed.child _ _ (.sub _ _ _ (by simp)) hu)).1 e he
    · cases he; exact .inr rfl
    · exact (fine u hu).1 e he
  have called : ∀ u, Q u → Q (callee u) := by
    intro u
    induction hd : depth u using Nat.strongRecOn generalizing u with
    | _ d ih =>
      intro hu
      cases u <;> try exact hu
      case part p f args kws =>
        rw [callee]
        exact ih (depth f) (by subst hd; simp only [depth]; omega) f rfl (closed.child _ _ (.partFunc _ _ _ _) hu)
  have wh : ∀ u, Q u → ∀ o, whatareyouP P o u none = whatareyou o u none :=
    fun u hu o => c93_otherwise _ _ _ _ (.inr (reprs _ (called u hu))) ((fine u hu).2.2 o)
  have run : ∀ (bs : BS) (p : Plugin) u, Q u → p.runP P cu bs u = p.run cu bs u := by
    intro bs p u hu
    cases p <;> simp only [Plugin.runP, Plugin.run]
    case whatable =>
      have : whatMethodP P u = whatMethod u := by
        cases u <;> try rfl
        case obj c cl cd dd sd pd w s =>
          cases w with
          | none => rfl
          | some o => exact congrArg some (wh _ hu o)
      simp only [whatablePluginP, whatablePlugin, isWhatableP, isWhatable, this]
      rfl
    case dict => cases u <;> simp only [dictPluginP, dictPlugin, wh _ hu] <;> rfl
    case part =>
      cases u <;> simp only [partialPluginP, partialPlugin]
      case part p f args kws =>
        have hc : CanCall (callee (curry2partial (.part p f args kws))) := by
          have : callee (curry2partial (.part p f args kws)) = callee f := by
            unfold curry2partial
            split
            · next heq => cases heq; rfl
            · next heq => cases heq; rfl
            · next h => exact absurd rfl (h _ _ _ _)
          rw [this]; exact calls _ _ _ _ hu
        rw [(c2cP_eq P.repr _ [] []).1 hc]
        rfl
    case rng =>
      cases u <;> simp only [rngPluginP, rngPlugin]
      case rng c st => simp only [wh st (closed.child _ _ (.rng _ _) hu)]; rfl
    case any0x => simp only [any0xPluginP, any0xPlugin, (fine u hu).2.1]
    case any => simp only [anyPluginP, anyPlugin, (fine u hu).2.1, ret]
  induction hd : depth v using Nat.strongRecOn generalizing v with
  | _ d ih =>
    rw [buildP_eq, build_eq]
    refine firstSome_congr fun p _ => ?_
    rw [run _ p v hv]
    obtain ⟨L, hL, hs⟩ := run_asks (cu := cu) (p := p) (v := v)
    rw [run_congr (bs' := fun u => if depth u < depth v then buildP P cu ps u else build cu ps u) p v fun u hu => (if_pos hu).symm]
    refine hs _ _ fun u hu => ?_
    split
    · next h => exact ih (depth u) (by omega) u (hL Q closed hv u hu) rfl
    · rfl

/-! ### Objects whose what() raises -/

/-- `what()` of a whatable object that is not callable raises exactly if `repr()` does, other than ValueError and TypeError, or reading the attributes
asked for. -/
theorem c93_what (P : Printing) (c : Str) (cd dd sd pd : Conf) (o : WhatOpts) (s : Str) :
    (∃ e, whatMethodP P (.obj c false cd dd sd pd (some o) s) = some (.error e)) ↔
      (∃ e, P.repr (.obj c false cd dd sd pd (some o) s) = .error e ∧ e ≠ .valueError ∧ e ≠ .typeError) ∨
      ∃ e, P.attrs o (.obj c false cd dd sd pd (some o) s) = some e := by
  have nc : ¬ CanCall (callee (.obj c false cd dd sd pd (some o) s)) := fun h => by cases h
  have wm : whatMethodP P (.obj c false cd dd sd pd (some o) s) = some (whatareyouP P o (.obj c false cd dd sd pd (some o) s) none) := rfl
  rw [wm]
  by_cases hf : ReprFine P.repr (callee (.obj c false cd dd sd pd (some o) s))
  · cases ha : P.attrs o (.obj c false cd dd sd pd (some o) s) with
    | some e => exact ⟨fun _ => .inr ⟨e, rfl⟩, fun _ => ⟨e, congrArg some (c93_reads P o _ none nc hf e ha)⟩⟩
    | none =>
      rw [c93_otherwise P o _ none (.inr hf) ha]
      constructor
      · rintro ⟨e, h⟩
        exact absurd h (by intro h; cases h)
      · rintro (⟨e, he, h1, h2⟩ | ⟨e, he⟩)
        · rcases hf e he with h | h
          · exact absurd h h1
          · exact absurd h h2
        · cases he
  · have : ∃ e, P.repr (.obj c false cd dd sd pd (some o) s) = .error e ∧ e ≠ .valueError ∧ e ≠ .typeError :=
      Classical.byContradiction fun hn => hf fun e he => Classical.byContradiction fun h => hn ⟨e, he, fun x => h (.inl x), fun x => h (.inr x)⟩
    refine ⟨fun _ => .inl this, fun _ => ?_⟩
    obtain ⟨e, he, h1, h2⟩ := this
    exact ⟨e, congrArg some (c93_runs_repr P o _ none nc e he h1 h2)⟩

/-- C93. Such an object is not whatable: all there is of it in the id of what holds it is its class, or its `str()`. -/
theorem c93_lost (P : Printing) (cu : Customs) (c : Str) (cd dd sd pd : Conf) (o : WhatOpts) (s t : Str)
    (bad : (∃ e, P.repr (.obj c false cd dd sd pd (some o) s) = .error e ∧ e ≠ .valueError ∧ e ≠ .typeError) ∨
      ∃ e, P.attrs o (.obj c false cd dd sd pd (some o) s) = some e)
    (ht : P.str (.obj c false cd dd sd pd (some o) s) = .ok t) :
    buildP P cu defaultPlugins (.obj c false cd dd sd pd (some o) s) = .ok (some (if isInfix c!" at 0x" t then c ++ c!"()" else t)) := by
  obtain ⟨e, he⟩ := (c93_what P c cd dd sd pd o s).2 bad
  rw [buildP_eq]
  cases hs : isInfix c!" at 0x" t <;>
    simp [defaultPlugins, firstSome, Plugin.runP, Plugin.run, whatPlugin, whatablePluginP, isWhatableP, he, builtinPlugin,
      numericTypePlugin, propertyPlugin, stringPlugin, tuplePlugin, listPlugin, dictPluginP, setPlugin, partialPluginP, functionPlugin, arrayPlugin,
      rngPluginP, any0xPluginP, anyPluginP, ht, hs, idStr, idItems, sortBy, mapR, wrapId, pyJoin, ret, className]

/-- C93. If `str()` raises too (by default it is `repr()`), so does `build_string`. -/
theorem c93_raises (P : Printing) (cu : Customs) (c : Str) (cd dd sd pd : Conf) (o : WhatOpts) (s : Str) (e' : Err)
    (bad : (∃ e, P.repr (.obj c false cd dd sd pd (some o) s) = .error e ∧ e ≠ .valueError ∧ e ≠ .typeError) ∨
      ∃ e, P.attrs o (.obj c false cd dd sd pd (some o) s) = some e)
    (ht : P.str (.obj c false cd dd sd pd (some o) s) = .error e') :
    buildP P cu defaultPlugins (.obj c false cd dd sd pd (some o) s) = .error e' := by
  obtain ⟨e, he⟩ := (c93_what P c cd dd sd pd o s).2 bad
  rw [buildP_eq]
  simp [defaultPlugins, firstSome, Plugin.runP, Plugin.run, whatPlugin, whatablePluginP, isWhatableP, he, builtinPlugin,
    numericTypePlugin, propertyPlugin, stringPlugin, tuplePlugin, listPlugin, dictPluginP, setPlugin, partialPluginP, functionPlugin, arrayPlugin,
    rngPluginP, any0xPluginP, ht]

/-- C93. In terms of classes: it happens to every object with a slot or property asked for that cannot be read, such as a slot never assigned. -/
theorem c93_unset (P : Printing) (cu : Customs) (ob : Inst) (hk : ob.Ok) (o : WhatOpts) (cd dd sd pd : Conf) (s t : Str)
    (same : ∀ e, P.attrs o (.obj ob.cls false cd dd sd pd (some o) s) = some e ↔ configDictInst o ob = .error e)
    (n : Str) (m : Member) (has : ob.Finds n m) (wanted : Wanted o n m) (unset : ∀ v, ¬ GetAttr ob n (.ok v))
    (ht : P.str (.obj ob.cls false cd dd sd pd (some o) s) = .ok t) (addr : c!" at 0x" <:+: t) :
    buildP P cu defaultPlugins (.obj ob.cls false cd dd sd pd (some o) s) = .ok (some (ob.cls ++ c!"()")) := by
  rw [c93_lost P cu ob.cls cd dd sd pd o s t (.inr ?_) ht, isInfix_iff.2 addr]
  · rfl
  · cases h : configDictInst o ob with
    | error e => exact ⟨e, (same e).2 h⟩
    | ok c =>
      obtain ⟨v, hv⟩ := (c48_total hk).1 ⟨c, h⟩ n m has wanted
      exact absurd hv (unset v)

/-- C93. An OrderedDict whose `repr()` raises has no text. -/
theorem c93_ordered (P : Printing) (cu : Customs) (c : Str) (attrs : Conf) (kvs : List (Val × Val)) (e : Err)
    (he : P.repr (.odict c attrs kvs) = .error e) (h1 : e ≠ .valueError) (h2 : e ≠ .typeError) :
    buildP P cu defaultPlugins (.odict c attrs kvs) = .error e := by
  have hw : whatareyouP P {} (.odict c attrs kvs) none = .error e := c93_runs_repr _ _ _ _ (fun h => by cases h) e he h1 h2
  rw [buildP_eq]
  simp [defaultPlugins, firstSome, Plugin.runP, Plugin.run, whatPlugin, whatablePluginP, isWhatableP, whatMethodP, hw, builtinPlugin,
    numericTypePlugin, propertyPlugin, stringPlugin, tuplePlugin, listPlugin, dictPluginP]

/-- C93. Whereas of a plain dict only the texts of its items matter. -/
theorem c93_dict (P P' : Printing) (cu : Customs) (kvs : List (Val × Val))
    (h : ∀ kv ∈ kvs, buildP P cu defaultPlugins kv.1 = buildP P' cu defaultPlugins kv.1 ∧
      buildP P cu defaultPlugins kv.2 = buildP P' cu defaultPlugins kv.2) :
    buildP P cu defaultPlugins (.dict kvs) = buildP P' cu defaultPlugins (.dict kvs) := by
  have : ∀ P, buildP P cu defaultPlugins (.dict kvs) = ret (dictStr (buildP P cu defaultPlugins) kvs) := by
    intro P
    rw [buildP_eq]
    generalize buildP P cu defaultPlugins = bs
    cases h : dictStr bs kvs <;>
      simp [defaultPlugins, firstSome, Plugin.runP, Plugin.run, whatPlugin, whatablePluginP, isWhatableP, whatMethodP, builtinPlugin,
        numericTypePlugin, propertyPlugin, stringPlugin, tuplePlugin, listPlugin, dictPluginP, h, ret]
  rw [this, this, dictStr_congr h]

/-- C93. `def __repr__(self): return self.what().id()` does not work for a whatable object: `repr()` and `what()` run into every recursion limit. -/
theorem c93_self (P : Printing) (cu : Customs) (ps : List Plugin) (S : Val → Bool) (c : Str) (cd dd sd pd : Conf) (o : WhatOpts) (s : Str)
    (hS : S (.obj c false cd dd sd pd (some o) s) = true) (n : Nat) :
    selfRepr P cu ps S n (.obj c false cd dd sd pd (some o) s) = .error .recursionError ∧
      whatMethodP { P with repr := selfRepr P cu ps S n } (.obj c false cd dd sd pd (some o) s) = some (.error .recursionError) := by
  have what : ∀ n, selfRepr P cu ps S n (.obj c false cd dd sd pd (some o) s) = .error .recursionError →
      whatMethodP { P with repr := selfRepr P cu ps S n } (.obj c false cd dd sd pd (some o) s) = some (.error .recursionError) := fun n h =>
    congrArg some (c93_runs_repr _ o _ none (fun h => by cases h) .recursionError h (by simp) (by simp))
  have all : selfRepr P cu ps S n (.obj c false cd dd sd pd (some o) s) = .error .recursionError := by
    induction n with
    | zero => rfl
    | succ n ih => rw [selfRepr, if_pos hS, what n ih]
  exact ⟨all, what n all⟩

/-! ### Examples -/

/-- Printing where one class has a `__repr__` that raises KeyError. -/
def exPrinting : Printing where
  repr := fun v => match v with
    | .obj c _ _ _ _ _ _ _ => if c = c!"Broken" then .error .keyError else .ok c!"<obj>"
    | _ => .ok c!"something"
  str := fun v => .ok (pyStr v)
  attrs := fun _ v => match v with
    | .obj c _ _ _ _ _ _ _ => if c = c!"Unset" then some .attributeError else none
    | _ => none

example : buildP exPrinting noCustom defaultPlugins (.list [.obj c!"Broken" false [] [(c!"x", .int 1)] [] [] (some {}) c!"<Broken object at 0x7f>"]) =
    .ok (some c!"[Broken()]") := by rfl
example : buildP exPrinting noCustom defaultPlugins (.list [.obj c!"Fine" false [] [(c!"x", .int 1)] [] [] (some {}) c!"<Fine object at 0x7f>"]) =
    .ok (some c!"[Fine(x=1)]") := by rfl
example : buildP exPrinting noCustom defaultPlugins (.list [.obj c!"Unset" false [] [(c!"x", .int 1)] [] [] (some {}) c!"<Unset object at 0x7f>"]) =
    .ok (some c!"[Unset()]") := by rfl
example : whatareyouP exPrinting {} (.obj c!"Broken" false [] [(c!"x", .int 1)] [] [] (some {}) c!"<Broken object at 0x7f>") none =
    .error .keyError := by rfl
example : selfRepr exPrinting noCustom defaultPlugins (fun _ => true) 100 (.obj c!"A" false [] [(c!"x", .int 1)] [] [] (some {}) c!"") =
    .error .recursionError :=
  (c93_self exPrinting noCustom defaultPlugins (fun _ => true) _ [] _ [] [] {} [] rfl 100).1
example : ReprFine exPrinting.repr (.tuple [.int 1, .int 2]) := fun e h => by cases h; exact .inr rfl

/-- The hypotheses of `c93_plain` are met. -/
example : buildP { repr := fun _ => .error .valueError, str := fun v => .ok (pyStr v), attrs := fun _ _ => none } noCustom defaultPlugins (.tuple [.int 1, .str c!"a"]) =
    buildD (.tuple [.int 1, .str c!"a"]) :=
  c93_plain _ _ _ (fun v => ∀ u, Within u v → ∀ p f a k, u ≠ .part p f a k) (within_all_closed fun v h => by cases h <;> simp)
    (fun _ _ => ⟨fun e h => by cases h; exact .inl rfl, rfl, fun _ => rfl⟩) (fun p f a k h => absurd rfl (h _ (.refl _) p f a k)) _ (by
      intro u hu p f a k e
      subst e
      rcases within_inv hu with h | ⟨y, hy, hu⟩
      · cases h
      · cases hy with
        | tuple hm =>
          simp only [List.mem_cons, List.not_mem_nil, or_false] at hm
          rcases hm with rfl | rfl
          · rcases within_inv hu with h | ⟨z, hz, -⟩
            · cases h
            · cases hz
          · rcases within_inv hu with h | ⟨z, hz, -⟩
            · cases h
            · cases hz)

end Whatami
