import Verif.Manager
import Verif.DefaultChain
import Verif.Spec.Within

/-
Properties of the plugin chain: C14, C15, C16, C17.
-/
namespace Whatami

/-! ### C14 -/

theorem firstSome_split (f : Plugin → R (Option Str)) (ps : List Plugin) :
    (∃ pre p post, ps = pre ++ p :: post ∧ (∀ q ∈ pre, f q = .ok none) ∧ f p ≠ .ok none ∧ firstSome f ps = f p) ∨
    ((∀ q ∈ ps, f q = .ok none) ∧ firstSome f ps = .ok none) := by
  induction ps with
  | nil => right; exact ⟨by simp, rfl⟩
  | cons p ps ih =>
    by_cases hp : f p = .ok none
    · rw [firstSome_none hp]
      rcases ih with ⟨pre, q, post, rfl, h1, h2, h3⟩ | ⟨h1, h2⟩
      · left
        refine ⟨p :: pre, q, post, rfl, ?_, h2, h3⟩
        intro x hx
        rcases List.mem_cons.1 hx with rfl | hx
        · exact hp
        · exact h1 x hx
      · right
        refine ⟨?_, h2⟩
        intro x hx
        rcases List.mem_cons.1 hx with rfl | hx
        · exact hp
        · exact h1 x hx
    · left
      exact ⟨[], p, ps, rfl, by simp, hp, firstSome_ne rfl hp⟩

/-- C14. `build_string(v)` is what the first plugin of the chain that does not decline `v` does (returns a
string or raises); None only if all decline.  Plugins recurse through the same chain. -/
theorem c14_first_match (cu : Customs) (ps : List Plugin) (v : Val) :
    (∃ pre p post, ps = pre ++ p :: post ∧
      (∀ q ∈ pre, q.run cu (build cu ps) v = .ok none) ∧
      p.run cu (build cu ps) v ≠ .ok none ∧
      build cu ps v = p.run cu (build cu ps) v) ∨
    ((∀ q ∈ ps, q.run cu (build cu ps) v = .ok none) ∧ build cu ps v = .ok none) := by
  have h := firstSome_split (fun p => p.run cu (build cu ps) v) ps
  rw [← build_eq] at h
  exact h

/-- C14. A plugin after one that always answers is never consulted, at any nesting depth: it may be replaced
by any others, and user plugins may change what they do there. -/
theorem c14_never_consulted (cu cu' : Customs) (pre post post' : List Plugin) (p : Plugin) (v : Val)
    (agree : ∀ n, .custom n ∈ p :: pre → cu n = cu' n)
    (answers : ∀ bs u, p.run cu bs u ≠ .ok none) :
    build cu (pre ++ p :: post) v = build cu' (pre ++ p :: post') v := by
  have same : ∀ q ∈ p :: pre, ∀ bs u, Plugin.run cu bs q u = Plugin.run cu' bs q u := by
    intro q hq bs u
    cases q <;> simp only [Plugin.run]
    rw [agree _ hq]
  have key : ∀ (f g : Plugin → R (Option Str)), (∀ q ∈ p :: pre, f q = g q) → f p ≠ .ok none →
      firstSome f (pre ++ p :: post) = firstSome g (pre ++ p :: post') := by
    intro f g hfg hp
    clear same agree
    induction pre with
    | nil =>
      rw [List.nil_append, List.nil_append, firstSome_ne rfl hp, firstSome_ne (f := g) rfl]
      · exact hfg p (by simp)
      · rw [← hfg p (by simp)]; exact hp
    | cons q pre ih =>
      have hq := hfg q (by simp)
      have ih := ih (fun x hx => hfg x (by
        rcases List.mem_cons.1 hx with rfl | hx
        · simp
        · simp [hx]))
      by_cases hn : f q = .ok none
      · rw [List.cons_append, List.cons_append, firstSome_none hn, firstSome_none (hq ▸ hn)]
        exact ih
      · rw [List.cons_append, List.cons_append, firstSome_ne rfl hn, firstSome_ne (f := g) rfl (hq ▸ hn)]
        exact hq
  have all : ∀ n u, buildN cu (pre ++ p :: post) n u = buildN cu' (pre ++ p :: post') n u := by
    intro n
    induction n with
    | zero => intro u; rfl
    | succ n ih =>
      intro u
      simp only [buildN]
      apply key
      · intro q hq
        rw [same q hq, funext ih]
      · exact answers _ _
  exact all _ v

/-- A user plugin placed first that answers 'x' for strings only. -/
def exCustom : Customs := fun _ v => match v with | .str _ => .ok (some c!"S") | _ => .ok none
example : build exCustom (.custom 0 :: defaultPlugins) (.tuple [.str c!"a", .int 3]) = .ok (some c!"(S,3)") := rfl

/-! ### C15 -/

theorem firstSome_drop (f : Plugin → R (Option Str)) (pre post : List Plugin) (p : Plugin) (h : f p = .ok none) :
    firstSome f (pre ++ p :: post) = firstSome f (pre ++ post) := by
  induction pre with
  | nil => exact firstSome_none h
  | cons q pre ih => simp only [List.cons_append, firstSome, ih]

/-- C15. A plugin that declines every value is invisible wherever it is inserted, at any nesting depth. -/
theorem c15_declining (cu : Customs) (pre post : List Plugin) (n : Nat) (declines : ∀ v, cu n v = .ok none) (v : Val) :
    build cu (pre ++ .custom n :: post) v = build cu (pre ++ post) v := by
  have all : ∀ d u, buildN cu (pre ++ .custom n :: post) d u = buildN cu (pre ++ post) d u := by
    intro d
    induction d with
    | zero => intro u; rfl
    | succ d ih =>
      intro u
      simp only [buildN]
      rw [funext ih]
      exact firstSome_drop _ _ _ _ (declines u)
  exact all _ v

/-- C15. Whatever follows the capture-all plugin is invisible. -/
theorem c15_after_capture_all (cu : Customs) (pre post : List Plugin) (v : Val) :
    build cu (pre ++ .any :: post) v = build cu (pre ++ [.any]) v :=
  c14_never_consulted cu cu pre post [] .any v (fun _ _ => rfl) (fun _ _ => by simp [Plugin.run, anyPlugin])

/-- C15 for ids. -/
theorem c15_declining_id (cu : Customs) (pre post : List Plugin) (n : Nat) (declines : ∀ v, cu n v = .ok none)
    (w : What) (f : Bool) : idStr (build cu (pre ++ .custom n :: post)) w f = idStr (build cu (pre ++ post)) w f := by
  rw [show build cu (pre ++ .custom n :: post) = build cu (pre ++ post) from
    funext (c15_declining cu pre post n declines)]

/-- A float-only plugin is invisible to a value without floats but is not a declining plugin. -/
example : ∃ cu : Customs, (∀ v, cu 1 v = .ok none) ∧ cu 0 (.float c!"1.5") = .ok (some c!"F") :=
  ⟨fun n v => match n, v with | 0, .float _ => .ok (some c!"F") | _, _ => .ok none, fun _ => rfl, rfl⟩

/-! ### C16 -/

theorem pyRemove_split {p : Plugin} {ps : List Plugin} (h : p ∈ ps) :
    ∃ l r, ps = l ++ p :: r ∧ p ∉ l ∧ pyRemove p ps = l ++ r := by
  induction ps with
  | nil => cases h
  | cons q ps ih =>
    by_cases e : q = p
    · subst e; exact ⟨[], ps, rfl, by simp, by simp [pyRemove]⟩
    · have hm : p ∈ ps := by
        rcases List.mem_cons.1 h with rfl | h
        · exact absurd rfl e
        · exact h
      obtain ⟨l, r, h1, h2, h3⟩ := ih hm
      refine ⟨q :: l, r, by simp [h1], ?_, by simp [pyRemove, e, h3]⟩
      simp only [List.mem_cons, not_or]
      exact ⟨fun x => e x.symm, h2⟩

theorem insertAtIndex_split {p b : Plugin} {ps : List Plugin} (h : b ∈ ps) :
    ∃ l r, ps = l ++ b :: r ∧ b ∉ l ∧ insertAtIndex p b ps = l ++ p :: b :: r := by
  induction ps with
  | nil => cases h
  | cons q ps ih =>
    by_cases e : q = b
    · subst e; exact ⟨[], ps, rfl, by simp, by simp [insertAtIndex]⟩
    · have hm : b ∈ ps := by
        rcases List.mem_cons.1 h with rfl | h
        · exact absurd rfl e
        · exact h
      obtain ⟨l, r, h1, h2, h3⟩ := ih hm
      refine ⟨q :: l, r, by simp [h1], ?_, by simp [insertAtIndex, e, h3]⟩
      simp only [List.mem_cons, not_or]
      exact ⟨fun x => e x.symm, h2⟩

/-- C16. `insert` succeeds exactly for a new plugin and a present (or None) `before`; it puts the plugin
right before `before`, or at the end, and moves nothing else. -/
theorem c16_insert (named : Nat → Bool) (ps : List Plugin) (p : Plugin) (before : Option Plugin) :
    ((mstep named ps (.insert p before)).2 = .ok () ↔ p ∉ ps ∧ ∀ b, before = some b → b ∈ ps) ∧
    ((mstep named ps (.insert p before)).2 = .ok () →
      (before = none → (mstep named ps (.insert p before)).1 = ps ++ [p]) ∧
      (∀ b, before = some b → ∃ l r, ps = l ++ b :: r ∧ (b ∉ l) ∧
        (mstep named ps (.insert p before)).1 = l ++ p :: b :: r)) := by
  constructor
  · cases before with
    | none => by_cases h : p ∈ ps <;> simp [mstep, h]
    | some b => by_cases h : p ∈ ps <;> by_cases hb : b ∈ ps <;> simp [mstep, h, hb]
  · intro hok
    have hp : p ∉ ps := by
      intro h; simp [mstep, h] at hok
    refine ⟨?_, ?_⟩
    · rintro rfl; simp [mstep, hp]
    · rintro b rfl
      have hb : b ∈ ps := by
        by_cases hb : b ∈ ps
        · exact hb
        · simp [mstep, hp, hb] at hok
      obtain ⟨l, r, h1, h2, h3⟩ := insertAtIndex_split (p := p) hb
      exact ⟨l, r, h1, h2, by simp [mstep, hp, hb, h3]⟩

/-- C16. `drop` succeeds exactly for a present plugin and removes exactly it. -/
theorem c16_drop (named : Nat → Bool) (ps : List Plugin) (p : Plugin) :
    ((mstep named ps (.drop p)).2 = .ok () ↔ p ∈ ps) ∧
    ((mstep named ps (.drop p)).2 = .ok () → ∃ l r, ps = l ++ p :: r ∧ p ∉ l ∧ (mstep named ps (.drop p)).1 = l ++ r) := by
  by_cases h : p ∈ ps
  · obtain ⟨l, r, h1, h2, h3⟩ := pyRemove_split h
    simp only [mstep, h, if_true, true_and, forall_const, h3]
    exact ⟨l, r, h1, h2, rfl⟩
  · simp [mstep, h]

/-- The plugin that is in the way of the call: it is there already, or it is missing. -/
inductive Offends (ps : List Plugin) : MOp → Plugin → Prop where
  | present (p : Plugin) (b : Option Plugin) : p ∈ ps → Offends ps (.insert p b) p
  | absent (p b : Plugin) : p ∉ ps → b ∉ ps → Offends ps (.insert p (some b)) b
  | dropped (p : Plugin) : p ∉ ps → Offends ps (.drop p) p

/-- C16. A failing call changes nothing and raises ValueError; or AttributeError, if the plugin that is in the way is one of the user's without
a `__name__`, as partials are. -/
theorem c16_failure (named : Nat → Bool) (ps : List Plugin) (op : MOp) (e : Err) (h : (mstep named ps op).2 = .error e) :
    (mstep named ps op).1 = ps ∧ ∃ p, Offends ps op p ∧
      ((e = .valueError ∧ ∀ n, p = .custom n → named n = true) ∨ (e = .attributeError ∧ ∃ n, p = .custom n ∧ named n = false)) := by
  have key : ∀ p, nameError named p = e →
      (e = .valueError ∧ ∀ n, p = .custom n → named n = true) ∨ (e = .attributeError ∧ ∃ n, p = .custom n ∧ named n = false) := by
    rintro p rfl
    cases p <;> try exact .inl ⟨rfl, fun _ h => (by cases h)⟩
    rename_i n
    cases hn : named n
    · exact .inr ⟨by simp [nameError, hn], n, rfl, hn⟩
    · exact .inl ⟨by simp [nameError, hn], fun m h => by cases h; exact hn⟩
  cases op with
  | reset => simp [mstep] at h
  | drop p =>
    by_cases hp : p ∈ ps <;> simp only [mstep, hp, if_true, if_false] at h ⊢
    · cases h
    · exact ⟨trivial, p, .dropped p hp, key p (Except.error.inj h)⟩
  | insert p b =>
    by_cases hp : p ∈ ps
    · simp only [mstep, hp, if_true] at h ⊢
      exact ⟨trivial, p, .present p b hp, key p (Except.error.inj h)⟩
    · cases b with
      | none => simp [mstep, hp] at h
      | some b =>
        by_cases hb : b ∈ ps <;> simp only [mstep, hp, hb, if_true, if_false] at h ⊢
        · cases h
        · exact ⟨trivial, b, .absent p b hp hb, key b (Except.error.inj h)⟩

/-- C16. Dropping a just inserted plugin restores the list exactly. -/
theorem c16_drop_insert (named : Nat → Bool) (ps : List Plugin) (p : Plugin) (before : Option Plugin)
    (h : (mstep named ps (.insert p before)).2 = .ok ()) :
    mstep named (mstep named ps (.insert p before)).1 (.drop p) = (ps, .ok ()) := by
  have hp : p ∉ ps := ((c16_insert named ps p before).1.1 h).1
  have key : ∀ l r : List Plugin, ps = l ++ r → mstep named (l ++ p :: r) (.drop p) = (ps, .ok ()) := by
    rintro l r rfl
    obtain ⟨l', r', h1, h2, h3⟩ := pyRemove_split (p := p) (ps := l ++ p :: r) (by simp)
    have hl : p ∉ l := fun x => hp (by simp [x])
    have e : l' = l ∧ r' = r := by
      clear h3 hp h
      induction l generalizing l' with
      | nil =>
        cases l' with
        | nil => simp at h1; exact ⟨rfl, h1.symm⟩
        | cons a l' => simp at h1; exact absurd (by simp [h1.1]) h2
      | cons a l ih =>
        cases l' with
        | nil => simp at h1; exact absurd (by simp [h1.1]) hl
        | cons b l' =>
          simp only [List.cons_append, List.cons.injEq] at h1
          have := ih l' h1.2 (fun x => h2 (by simp [x])) (fun x => hl (by simp [x]))
          simp [this, h1.1]
    obtain ⟨rfl, rfl⟩ := e
    simp [mstep, h3]
  cases before with
  | none =>
    rw [((c16_insert named ps p none).2 h).1 rfl]
    exact key ps [] (by simp)
  | some b =>
    obtain ⟨l, r, h1, _, h2⟩ := ((c16_insert named ps p (some b)).2 h).2 b rfl
    rw [h2]
    exact key l (b :: r) h1

/-- C16. `reset` restores the defaults whatever happened before. -/
theorem c16_reset (named : Nat → Bool) (ps : List Plugin) : mstep named ps .reset = (defaultPlugins, .ok ()) := rfl

/-- C16. No plugin is ever twice in the list, over any history of calls. -/
theorem c16_nodup (named : Nat → Bool) (ops : List MOp) : (mrun named defaultPlugins ops).Nodup := by
  have step : ∀ ps op, List.Nodup ps → (mstep named ps op).1.Nodup := by
    intro ps op h
    by_cases hok : (mstep named ps op).2 = .ok ()
    · cases op with
      | reset => show defaultPlugins.Nodup; decide
      | drop p =>
        obtain ⟨l, r, h1, _, h3⟩ := (c16_drop named ps p).2 hok
        rw [h3]; subst h1
        exact h.sublist (by simp)
      | insert p before =>
        have hp := ((c16_insert named ps p before).1.1 hok).1
        have hperm : (mstep named ps (.insert p before)).1.Perm (p :: ps) := by
          cases before with
          | none =>
            rw [((c16_insert named ps p none).2 hok).1 rfl]
            exact List.perm_append_comm
          | some b =>
            obtain ⟨l, r, h1, _, h2⟩ := ((c16_insert named ps p (some b)).2 hok).2 b rfl
            rw [h2, h1]
            exact List.perm_middle
        rw [hperm.nodup_iff]
        exact List.nodup_cons.2 ⟨hp, h⟩
    · cases he : (mstep named ps op).2 with
      | ok u => exact absurd he hok
      | error e => rw [(c16_failure named ps op e he).1]; exact h
  have : ∀ ps, List.Nodup ps → (mrun named ps ops).Nodup := by
    induction ops with
    | nil => intro ps h; exact h
    | cons op ops ih => intro ps h; exact ih _ (step ps op h)
  exact this _ (by decide)

/-- A history with an insertion, a failing insertion, a failing drop and a drop of a default. -/
example (named : Nat → Bool) : mrun named defaultPlugins [.insert (.custom 1) (some .any0x), .insert (.custom 1) none, .drop (.custom 2),
    .drop .string] = [.what, .whatable, .builtin, .numericType, .property, .tuple, .list, .dict, .set,
   .part, .function, .pandas, .numpy, .rng, .custom 1, .any0x, .any] := by rfl
/-- Dropping a partial that is not there. -/
example : mstep (fun _ => false) defaultPlugins (.drop (.custom 0)) = (defaultPlugins, .error .attributeError) := by decide

/-! ### C17 -/

/-- The values whose id fails by themselves: builtin functions, dynamic properties, whatable classes,
partials that do not fit the signature of their function (see C27), and random generators whose state is a
callable object (numpy has none). -/
inductive Bad : Val → Prop where
  | builtin (n : Str) : Bad (.builtin n)
  | property : Bad .property
  | wcls (f : Str) : Bad (.wcls f)
  | part {p : Bool} {f : Val} {args : List Val} {kws : Conf} (e : Err) :
      callable2call (curry2partial (.part p f args kws)) [] [] = .error e → Bad (.part p f args kws)
  | rng (c : Str) (st : Val) : whatareyou {} st = .error .attributeError → Bad (.rng c st)

/-- C17. With the default plugins, and with every chain that contains the capture-all plugin, the result is
a string or an exception, never None. -/
theorem c17_never_none (cu : Customs) (ps : List Plugin) (h : .any ∈ ps) (v : Val) : build cu ps v ≠ .ok none := by
  rcases c14_first_match cu ps v with ⟨pre, p, post, _, _, h2, h3⟩ | ⟨h1, _⟩
  · rw [h3]; exact h2
  · have := h1 .any h
    simp [Plugin.run, anyPlugin] at this

theorem c17_default (v : Val) : buildD v ≠ .ok none := c17_never_none _ _ (by decide) v

/-- Something inside `v` is bad. -/
def HasBad (v : Val) : Prop := ∃ b, Within b v ∧ Bad b

theorem HasBad.child {x v : Val} (h : HasBad x) (c : Child x v) : HasBad v := by
  obtain ⟨b, h1, h2⟩ := h; exact ⟨b, .step h1 c, h2⟩

theorem HasBad.inv {v : Val} (h : HasBad v) (nb : ¬ Bad v) : ∃ x, Child x v ∧ HasBad x := by
  obtain ⟨b, h1, h2⟩ := h
  cases h1 with
  | refl => exact absurd h2 nb
  | step h c => exact ⟨_, c, b, h, h2⟩

/-- The call fails. -/
def Fails {α : Type} (r : R α) : Prop := ∃ e, r = .error e

theorem fails_ret {r : R Str} (h : Fails (ret r)) : Fails r := by
  obtain ⟨e, h⟩ := h
  cases r with
  | error e' => exact ⟨e', rfl⟩
  | ok s => cases h

theorem fails_map {α β : Type} {f : α → β} {r : R α} (h : Fails (r.map f)) : Fails r := by
  obtain ⟨e, h⟩ := h
  cases r with
  | error e' => exact ⟨e', rfl⟩
  | ok s => cases h

theorem fails_mapR {α β : Type} {f : α → R β} {l : List α} (h : Fails (mapR f l)) : ∃ x ∈ l, Fails (f x) := by
  induction l with
  | nil => obtain ⟨e, h⟩ := h; cases h
  | cons x l ih =>
    obtain ⟨e, h⟩ := h
    simp only [mapR] at h
    cases hx : f x with
    | error e' => exact ⟨x, by simp, e', hx⟩
    | ok y =>
      rw [hx] at h
      simp only at h
      cases hl : mapR f l with
      | error e' =>
        obtain ⟨z, hz, hf⟩ := ih ⟨e', hl⟩
        exact ⟨z, by simp [hz], hf⟩
      | ok ys => rw [hl] at h; cases h

theorem fails_strings {xs : List Val} (h : Fails (strings buildD xs)) : ∃ x ∈ xs, Fails (buildD x) := by
  simp only [strings] at h
  cases hm : mapR buildD xs with
  | error e => exact fails_mapR ⟨e, hm⟩
  | ok l =>
    rw [hm] at h
    have hn : ∀ o ∈ l, o ≠ none := by
      clear h
      induction xs generalizing l with
      | nil => cases hm; simp
      | cons x xs ih =>
        simp only [mapR] at hm
        cases hx : buildD x with
        | error e => rw [hx] at hm; cases hm
        | ok y =>
          rw [hx] at hm
          cases hl : mapR buildD xs with
          | error e => rw [hl] at hm; cases hm
          | ok ys =>
            rw [hl] at hm; cases hm
            intro o ho
            rcases List.mem_cons.1 ho with rfl | ho
            · rintro rfl; exact c17_default x hx
            · exact ih ys hl o ho
    exfalso
    clear hm
    induction l with
    | nil => obtain ⟨e, h⟩ := h; cases h
    | cons o l ih =>
      cases o with
      | none => exact hn none (by simp) rfl
      | some s =>
        apply ih
        · obtain ⟨e, h⟩ := h
          simp only [unNone] at h ⊢
          cases hu : unNone l with
          | error e' => exact ⟨e', rfl⟩
          | ok l' => rw [hu] at h; cases h
        · exact fun o ho => hn o (by simp [ho])

theorem fails_idStr {bs : BS} {w : What} {f : Bool} (h : Fails (idStr bs w f)) :
    ∃ k v, (k, v) ∈ w.conf ∧ Fails (bs v) := by
  have h' : Fails (mapR (kvStr bs) (idItems w f)) := by
    obtain ⟨e, h⟩ := h
    simp only [idStr] at h
    cases hm : mapR (kvStr bs) (idItems w f) with
    | error e' => exact ⟨e', rfl⟩
    | ok l => rw [hm] at h; cases h
  obtain ⟨⟨k, v⟩, hkv, e, he⟩ := fails_mapR h'
  refine ⟨k, v, idItems_sub hkv, ?_⟩
  simp only [kvStr] at he
  cases hb : bs v with
  | error e' => exact ⟨e', rfl⟩
  | ok r => rw [hb] at he; cases he

theorem fails_dictStr {bs : BS} {kvs : List (Val × Val)} (h : Fails (dictStr bs kvs)) :
    ∃ k v, (k, v) ∈ kvs ∧ (Fails (bs k) ∨ Fails (bs v)) := by
  obtain ⟨⟨k, v⟩, hkv, e, he⟩ := fails_mapR (fails_map h)
  refine ⟨k, v, hkv, ?_⟩
  simp only [dkvStr] at he
  cases hk : bs k with
  | error e' => exact Or.inl ⟨e', rfl⟩
  | ok r =>
    rw [hk] at he
    simp only at he
    cases hv : bs v with
    | error e' => exact Or.inr ⟨e', rfl⟩
    | ok r => rw [hv] at he; cases he

/-- Every value `callable2call` reports has a property that holds of the components of the callable, that
components inherit, and that holds of the arguments passed in. -/
theorem c2c_pred {P : Val → Prop} (down : ∀ x y, Child x y → P y → P x) (v : Val) :
    ∀ (pos : List Val) (kw : Conf) (n : Str) (r : Conf), callable2call v pos kw = .ok (n, r) →
      (∀ x, Child x v → P x) → (∀ x ∈ pos, P x) → (∀ kv ∈ kw, P kv.2) → ∀ kv ∈ r, P kv.2 := by
  intro pos kw
  induction v, pos, kw using callable2call.induct with
  | case1 pos kw n args defaults =>
    intro n' r h hc hp hk kv hkv
    simp only [callable2call, funcCall] at h
    split at h
    · cases h
    split at h
    · cases h
    split at h
    · cases h
    simp only [Except.ok.injEq, Prod.mk.injEq] at h
    obtain ⟨_, rfl⟩ := h
    rcases List.mem_append.1 (mem_dictOf hkv) with h | h
    · rcases List.mem_append.1 (mem_dictOf h) with h | h
      · exact hc _ (.func _ _ (List.of_mem_zip h).2)
      · exact hk _ h
    · exact hp _ (List.of_mem_zip (mem_dictOf h)).2
  | case2 pos kw pl g a k args kws ih =>
    intro n' r h hc hp hk kv hkv
    simp only [callable2call] at h
    have hin := hc _ (.partFunc _ _ _ _)
    refine ih n' r h ?_ ?_ ?_ kv hkv
    · exact fun x hx => down _ _ hx (down _ _ (.partFunc _ _ _ _) hin)
    · intro x hx
      rcases List.mem_append.1 hx with h | h
      · exact hp x h
      · rcases List.mem_append.1 h with h | h
        · exact down _ _ (.partArg _ _ _ h) hin
        · exact hc _ (.partArg _ _ _ h)
    · rintro ⟨k', x⟩ hx
      rcases List.mem_append.1 (mem_dictOf hx) with h | h
      · rcases mem_dupdate h with h | h
        · exact down _ _ (.partKw _ _ _ _ h) hin
        · exact hc _ (.partKw _ _ _ _ h)
      · exact hk _ h
  | case3 pl f args kws pos kw hne ih =>
    intro n' r h hc hp hk kv hkv
    have e : callable2call (.part pl f args kws) pos kw = callable2call f (pos ++ args) (dictOf (kws ++ kw)) := by
      rw [callable2call]; exact hne
    rw [e] at h
    have hf : P f := hc _ (.partFunc _ _ _ _)
    refine ih n' r h (fun x hx => down _ _ hx hf) ?_ ?_ kv hkv
    · intro x hx
      rcases List.mem_append.1 hx with h | h
      · exact hp x h
      · exact hc _ (.partArg _ _ _ h)
    · rintro ⟨k', x⟩ hx
      rcases List.mem_append.1 (mem_dictOf hx) with h | h
      · exact hc _ (.partKw _ _ _ _ h)
      · exact hk _ h
  | case4 => intro n r h hc hp hk kv hkv; simp [callable2call] at h; exact hk kv (h.2 ▸ hkv)
  | case5 => intro n r h hc hp hk kv hkv; simp [callable2call] at h; exact hk kv (h.2 ▸ hkv)
  | case6 => intro n r h hc hp hk kv hkv; simp [callable2call] at h; exact hk kv (h.2 ▸ hkv)
  | case7 => intro n r h hc hp hk kv hkv; simp [callable2call] at h; exact hk kv (h.2 ▸ hkv)
  | case8 => intro n r h; simp [callable2call] at h
  | case9 => intro n r h; simp [callable2call] at h

/-- `callable2call` raises ValueError or AttributeError only. -/
theorem c2c_error (v : Val) : ∀ (pos : List Val) (kw : Conf) (e : Err), e ≠ .valueError → e ≠ .attributeError →
    callable2call v pos kw ≠ .error e := by
  intro pos kw
  induction v, pos, kw using callable2call.induct with
  | case1 pos kw n args defaults =>
    intro e h1 h2 h
    simp only [callable2call, funcCall] at h
    split at h
    · cases h; exact h1 rfl
    split at h
    · cases h; exact h1 rfl
    split at h
    · cases h; exact h1 rfl
    cases h
  | case2 pos kw pl g a k args kws ih =>
    intro e h1 h2 h
    simp only [callable2call] at h
    exact ih e h1 h2 h
  | case3 pl f args kws pos kw hne ih =>
    intro e h1 h2 h
    have e' : callable2call (.part pl f args kws) pos kw = callable2call f (pos ++ args) (dictOf (kws ++ kw)) := by
      rw [callable2call]; exact hne
    rw [e'] at h
    exact ih e h1 h2 h
  | case4 => intro e h1 h2 h; simp [callable2call] at h
  | case5 => intro e h1 h2 h; simp [callable2call] at h
  | case6 => intro e h1 h2 h; simp [callable2call] at h
  | case7 => intro e h1 h2 h; simp [callable2call] at h
  | case8 => intro e h1 h2 h; simp [callable2call] at h; exact h2 h.symm
  | case9 => intro e h1 h2 h; simp [callable2call] at h; exact h1 h.symm

theorem partial_within {p : Bool} {f : Val} {args : List Val} {kws : Conf} {n : Str} {r : Conf}
    (h : callable2call (curry2partial (.part p f args kws)) [] [] = .ok (n, r)) :
    ∀ kv ∈ r, Within kv.2 (.part p f args kws) := by
  refine c2c_pred (P := fun x => Within x (.part p f args kws)) (fun x y hxy hy => (hxy.within).trans hy)
    _ [] [] n r h ?_ (by simp) (by simp)
  intro x hx
  have simple : curry2partial (.part p f args kws) = .part true f args kws →
      Within x (.part p f args kws) := by
    intro e
    rw [e] at hx
    cases hx with
    | partFunc => exact Child.within (.partFunc _ _ _ _)
    | partArg _ _ _ hx => exact Child.within (.partArg _ _ _ hx)
    | partKw k' _ _ _ hx => exact Child.within (.partKw _ _ _ _ hx)
  cases f with
  | part pl g a k =>
    cases pl with
    | false => exact simple rfl
    | true =>
      have hin : Child (.part true g a k) (.part p (.part true g a k) args kws) := .partFunc _ _ _ _
      simp only [curry2partial] at hx
      cases hx with
      | partFunc => exact .step (Child.within (.partFunc _ _ _ _)) hin
      | partArg _ _ _ hx =>
        rcases List.mem_append.1 hx with h | h
        · exact .step (Child.within (.partArg _ _ _ h)) hin
        · exact Child.within (.partArg _ _ _ h)
      | partKw k' _ _ _ hx =>
        rcases mem_dupdate hx with h | h
        · exact .step (Child.within (.partKw _ _ _ _ h)) hin
        · exact Child.within (.partKw _ _ _ _ h)
  | _ => exact simple rfl

theorem hasBad_part {x : Val} {p : Bool} {f : Val} {args : List Val} {kws : Conf}
    (h : Within x (.part p f args kws)) (hb : HasBad x) : HasBad (.part p f args kws) := by
  obtain ⟨b, h1, h2⟩ := hb
  exact ⟨b, h1.trans h, h2⟩

theorem not_hasBad_str (s : Str) : ¬ HasBad (.str s) := by
  intro h
  obtain ⟨x, hx, _⟩ := h.inv (by intro h; cases h)
  cases hx

theorem not_hasBad_int (i : Int) : ¬ HasBad (.int i) := by
  intro h
  obtain ⟨x, hx, _⟩ := h.inv (by intro h; cases h)
  cases hx

theorem not_hasBad_float (s : Str) : ¬ HasBad (.float s) := by
  intro h
  obtain ⟨x, hx, _⟩ := h.inv (by intro h; cases h)
  cases hx

theorem hasBad_dict {kvs : List (Val × Val)} (h : HasBad (.dict kvs)) :
    ∃ k v, (k, v) ∈ kvs ∧ (HasBad k ∨ HasBad v) := by
  obtain ⟨x, hx, hb⟩ := h.inv (by intro h; cases h)
  cases hx with
  | dictKey hm => exact ⟨_, _, hm, Or.inl hb⟩
  | dictVal hm => exact ⟨_, _, hm, Or.inr hb⟩

theorem hasBad_strDict {c : Conf} (h : HasBad (strDict c)) : ∃ k v, (k, v) ∈ c ∧ HasBad v := by
  obtain ⟨k, v, hm, h⟩ := hasBad_dict h
  simp only [List.mem_map, Prod.mk.injEq] at hm
  obtain ⟨⟨k', v'⟩, hm, rfl, rfl⟩ := hm
  rcases h with h | h
  · exact absurd h (not_hasBad_str _)
  · exact ⟨k', v', hm, h⟩

/-- A bad value inside the attributes of a value is a bad value inside it. -/
theorem hasBad_attrs (v : Val) (k : Str) (x : Val)
    (h : (k, x) ∈ (attrsOf v).cd ++ (attrsOf v).dd ++ (attrsOf v).sd ++ (attrsOf v).pd) (hb : HasBad x) :
    HasBad v := by
  cases v <;> simp only [attrsOf, List.nil_append, List.append_nil, List.not_mem_nil, List.mem_cons, Prod.mk.injEq,
    or_false] at h
  case bool b => rcases h with h | h | h | h <;> (rw [h.2] at hb; exact absurd hb (not_hasBad_int _))
  case int b => rcases h with h | h | h | h <;> (rw [h.2] at hb; exact absurd hb (not_hasBad_int _))
  case float b => rcases h with h | h <;> (rw [h.2] at hb; exact absurd hb (not_hasBad_float _))
  case sub kd c attrs xs => exact hb.child (.subAttr k _ _ _ h)
  case odict c attrs kvs => exact hb.child (.odictAttr k _ _ h)
  case ddict c attrs kvs => exact hb.child (.ddictAttr k _ _ h)
  case obj c cl cd dd sd pd wh s => exact hb.child (.obj k _ _ _ _ h)
  case what n c nk o =>
    rcases h with h | h | h | h <;> rw [h.2] at hb
    · obtain ⟨k', v', hm, hv⟩ := hasBad_strDict hb
      exact hv.child (.what k' _ _ _ hm)
    · exact absurd hb (not_hasBad_str _)
    · obtain ⟨y, hy, hb⟩ := hb.inv (by intro h; cases h)
      cases hy with
      | set hm =>
        obtain ⟨s, _, rfl⟩ := List.mem_map.1 hm
        exact absurd hb (not_hasBad_str _)
    · cases o with
      | none =>
        obtain ⟨y, hy, _⟩ := hb.inv (by intro h; cases h)
        cases hy
      | some s => exact absurd hb (not_hasBad_str _)
  case part p f args kws =>
    rcases h with h | h | h <;> rw [h.2] at hb
    · obtain ⟨y, hy, hb⟩ := hb.inv (by intro h; cases h)
      cases hy with
      | tuple hm => exact hb.child (.partArg _ _ _ hm)
    · exact hb.child (.partFunc _ _ _ _)
    · obtain ⟨k', v', hm, hv⟩ := hasBad_strDict hb
      exact hv.child (.partKw k' _ _ _ hm)

theorem mem_srcs {o : WhatOpts} {v : Val} {kv : Str × Val} (h : kv ∈ configDictForObject o v) :
    kv ∈ (attrsOf v).cd ++ (attrsOf v).dd ++ (attrsOf v).sd ++ (attrsOf v).pd := by
  rcases mem_configDict h with h | h | h | h <;> simp [h]

/-- A bad value inside the configuration inferred for a value is a bad value inside it. -/
theorem hasBad_whatareyou {v : Val} {w : What} (h : whatareyou {} v = .ok w) {k : Str} {x : Val}
    (hm : (k, x) ∈ w.conf) (hb : HasBad x) : HasBad v := by
  cases hc : callable2call v [] [] with
  | ok p =>
    obtain ⟨n, cd⟩ := p
    simp only [whatareyou, hc, Except.ok.injEq] at h
    subst h
    have := c2c_pred (P := fun x => Within x v) (fun x y hxy hy => (hxy.within).trans hy) v [] [] n cd hc
      (fun x hx => hx.within) (by simp) (by simp) _ (mem_trimDict hm)
    obtain ⟨b, h1, h2⟩ := hb
    exact ⟨b, h1.trans this, h2⟩
  | error e =>
    have := whatareyou_obj hc h
    subst this
    have hm := mem_trimDict hm
    have base : (k, x) ∈ configDictForObject {} v → HasBad v := fun h => hasBad_attrs v k x (mem_srcs h) hb
    have seqc : ∀ y, (k, x) ∈ dset (configDictForObject {} v) c!"seq" y → (HasBad y → HasBad v) → HasBad v := by
      intro y hm hy
      rcases mem_dset hm with h | h
      · exact base h
      · cases h; exact hy hb
    unfold addSeq at hm
    split at hm
    · exact seqc _ hm id
    · exact seqc _ hm id
    · exact seqc _ hm id
    · exact seqc _ hm id
    · refine seqc _ hm fun h => ?_
      obtain ⟨k', v', hm, h | h⟩ := hasBad_dict h
      · exact h.child (.odictKey _ _ hm)
      · exact h.child (.odictVal _ _ hm)
    · refine seqc _ hm fun h => ?_
      obtain ⟨k', v', hm, h | h⟩ := hasBad_dict h
      · exact h.child (.ddictKey _ _ hm)
      · exact h.child (.ddictVal _ _ hm)
    · refine seqc _ hm fun h => ?_
      obtain ⟨y, hy, hb⟩ := h.inv (by intro h; cases h)
      cases hy with
      | tuple hm => exact hb.child (.sub _ _ _ hm)
    · refine seqc _ hm fun h => ?_
      obtain ⟨y, hy, hb⟩ := h.inv (by intro h; cases h)
      cases hy with
      | list hm => exact hb.child (.sub _ _ _ hm)
    · exact base hm

theorem fails_hasBad : ∀ (n : Nat) (v : Val), depth v ≤ n → Fails (buildD v) → HasBad v := by
  intro n
  induction n with
  | zero => intro v hd; have := depth_pos v; omega
  | succ n ih =>
    intro v hd hf
    have plain : plainVal v = true → HasBad v := by
      intro h; rw [buildD_plain v h] at hf; obtain ⟨e, hf⟩ := hf; cases hf
    have dictConf_bad : ∀ attrs kvs k x, (k, x) ∈ dictConf attrs (.dict kvs) → (k, x) ∈ attrs ∨ x = .dict kvs := by
      intro attrs kvs k x hx
      rcases mem_dset (mem_trimDict hx) with h | h
      · rcases mem_dupdate h with h | h
        · cases h
        · exact Or.inl h
      · cases h; exact Or.inr rfl
    cases v with
    | none => exact plain rfl
    | bool => exact plain rfl
    | int => exact plain rfl
    | float => exact plain rfl
    | cls => exact plain rfl
    | str s => rw [buildD_str] at hf; obtain ⟨e, hf⟩ := hf; cases hf
    | numtype s => rw [buildD_numtype] at hf; obtain ⟨e, hf⟩ := hf; cases hf
    | array c h => rw [buildD_array] at hf; obtain ⟨e, hf⟩ := hf; cases hf
    | wcls f => exact ⟨_, .refl _, .wcls f⟩
    | builtin f => exact ⟨_, .refl _, .builtin f⟩
    | property => exact ⟨_, .refl _, .property⟩
    | tuple xs =>
      rw [buildD_tuple] at hf
      obtain ⟨x, hx, he⟩ := fails_strings (fails_map (fails_ret hf))
      have := depth_mem hx
      exact (ih x (by simp only [depth] at hd; omega) he).child (.tuple hx)
    | list xs =>
      rw [buildD_list] at hf
      obtain ⟨x, hx, he⟩ := fails_strings (fails_map (fails_ret hf))
      have := depth_mem hx
      exact (ih x (by simp only [depth] at hd; omega) he).child (.list hx)
    | set xs =>
      rw [buildD_set] at hf
      obtain ⟨x, hx, he⟩ := fails_strings (fails_map (fails_ret hf))
      have := depth_mem hx
      exact (ih x (by simp only [depth] at hd; omega) he).child (.set hx)
    | fset xs =>
      rw [buildD_fset] at hf
      obtain ⟨x, hx, he⟩ := fails_strings (fails_map (fails_ret hf))
      have := depth_mem hx
      exact (ih x (by simp only [depth] at hd; omega) he).child (.fset hx)
    | sub k c attrs xs =>
      rw [buildD_sub] at hf
      obtain ⟨x, hx, he⟩ := fails_strings (fails_map (fails_ret hf))
      have := depth_mem hx
      exact (ih x (by simp only [depth] at hd; omega) he).child (.sub _ _ _ hx)
    | dict kvs =>
      rw [buildD_dict] at hf
      obtain ⟨k, x, hx, he⟩ := fails_dictStr (fails_ret hf)
      have := depth_memD hx
      simp only [depth] at hd
      rcases he with he | he
      · exact (ih k (by omega) he).child (.dictKey hx)
      · exact (ih x (by omega) he).child (.dictVal hx)
    | odict c attrs kvs =>
      rw [buildD_odict] at hf
      obtain ⟨k, x, hx, he⟩ := fails_idStr (fails_ret hf)
      simp only [depth] at hd
      have seqCase : x = itemsList kvs → HasBad (.odict c attrs kvs) := by
        rintro rfl
        rw [itemsList, buildD_list] at he
        obtain ⟨y, hy, he⟩ := fails_strings (fails_map (fails_ret he))
        obtain ⟨⟨a, b⟩, hab, rfl⟩ := List.mem_map.1 hy
        rw [buildD_tuple] at he
        obtain ⟨z, hz, he'⟩ := fails_strings (fails_map (fails_ret he))
        have := depth_memD hab
        simp only [List.mem_cons, List.not_mem_nil, or_false] at hz
        rcases hz with hz | hz
        · subst hz; exact (ih _ (by omega) he').child (.odictKey _ _ hab)
        · subst hz; exact (ih _ (by omega) he').child (.odictVal _ _ hab)
      rcases mem_dset hx with h | h
      · rcases dictConf_bad _ _ _ _ h with h' | h'
        · have := depth_memA h'
          exact (ih x (by omega) he).child (.odictAttr k _ _ h')
        · subst h'
          rw [buildD_dict] at he
          obtain ⟨a, b, hab, he⟩ := fails_dictStr (fails_ret he)
          have := depth_memD hab
          rcases he with he | he
          · exact (ih _ (by omega) he).child (.odictKey _ _ hab)
          · exact (ih _ (by omega) he).child (.odictVal _ _ hab)
      · cases h; exact seqCase rfl
    | ddict c attrs kvs =>
      rw [buildD_ddict] at hf
      simp only [depth] at hd
      have dictCase : Fails (dictStr buildD kvs) → HasBad (.ddict c attrs kvs) := by
        intro he
        obtain ⟨a, b, hab, he⟩ := fails_dictStr he
        have := depth_memD hab
        rcases he with he | he
        · exact (ih _ (by omega) he).child (.ddictKey _ _ hab)
        · exact (ih _ (by omega) he).child (.ddictVal _ _ hab)
      cases hs : dictStr buildD kvs with
      | error e => exact dictCase ⟨e, hs⟩
      | ok s =>
        rw [hs] at hf
        obtain ⟨k, x, hx, he⟩ := fails_idStr (fails_ret hf)
        rcases dictConf_bad _ _ _ _ hx with h' | h'
        · have := depth_memA h'
          exact (ih x (by omega) he).child (.ddictAttr k _ _ h')
        · subst h'
          rw [buildD_dict] at he
          exact dictCase (fails_ret he)
    | what nm c nk o =>
      rw [buildD_what] at hf
      obtain ⟨k, x, hx, he⟩ := fails_idStr (fails_ret hf)
      have := depth_memA (xs := c) hx
      exact (ih x (by simp only [depth] at hd; omega) he).child (.what k _ _ _ hx)
    | duck nm c nk o =>
      rw [buildD_duck] at hf
      obtain ⟨k, x, hx, he⟩ := fails_idStr (fails_ret hf)
      have := depth_memA (xs := c) hx
      exact (ih x (by simp only [depth] at hd; omega) he).child (.duck k _ _ _ hx)
    | obj c cl cd dd sd pd wh s =>
      cases wh with
      | none => exact plain rfl
      | some o =>
        cases cl with
        | true => exact plain rfl
        | false =>
          rw [buildD_obj] at hf
          obtain ⟨k, x, hx, he⟩ := fails_idStr (fails_ret hf)
          have hm := mem_srcs (v := .obj c false cd dd sd pd (some o) s) (mem_trimDict hx)
          have hd' : depth x ≤ n := by
            simp only [depth] at hd
            simp only [attrsOf, List.mem_append] at hm
            rcases hm with ((h | h) | h) | h <;> have := depth_memA h <;> omega
          exact (ih x hd' he).child (.obj k _ _ _ _ hm)
    | func nm args ds =>
      rw [buildD_func] at hf
      obtain ⟨k, x, hx, he⟩ := fails_idStr (fails_ret hf)
      have hx := (List.of_mem_zip (mem_dictOf hx)).2
      have := depth_mem hx
      exact (ih x (by simp only [depth] at hd; omega) he).child (.func _ _ hx)
    | part p f args kws =>
      rw [buildD_part] at hf
      cases hc : callable2call (curry2partial (.part p f args kws)) [] [] with
      | error e => exact ⟨_, .refl _, .part e hc⟩
      | ok q =>
        obtain ⟨nm, r⟩ := q
        rw [hc] at hf
        obtain ⟨k, x, hx, he⟩ := fails_idStr (fails_ret hf)
        have := partial_depth hc _ hx
        exact hasBad_part (partial_within hc _ hx) (ih x (by simp only at this; omega) he)
    | rng c st =>
      rw [buildD_rng] at hf
      cases hw : whatareyou {} st with
      | error e =>
        have : e = .attributeError := by
          simp only [whatareyou] at hw
          cases hc : callable2call st [] [] with
          | ok p => rw [hc] at hw; cases hw
          | error e' =>
            rw [hc] at hw
            cases e' <;> simp only [reduceCtorEq, Except.error.injEq] at hw
            all_goals first
              | exact hw.symm
              | exact absurd hc (c2c_error _ _ _ _ (by simp) (by simp))
        subst this
        exact ⟨_, .refl _, .rng c st hw⟩
      | ok w =>
        rw [hw] at hf
        obtain ⟨k, x, hx, he⟩ := fails_idStr (fails_map (fails_ret hf))
        have := whatareyou_depth hw hx
        simp only [depth] at hd
        exact (hasBad_whatareyou hw hx (ih x (by simp only at this; omega) he)).child (.rng _ _)

/-- C17. If `build_string` raises under the default plugins, then somewhere inside the value there is a
builtin function, a dynamic property, a whatable class, or a partial that does not fit its function. -/
theorem c17_raises (v : Val) (e : Err) (h : buildD v = .error e) : ∃ b, Within b v ∧ Bad b :=
  fails_hasBad (depth v) v (Nat.le_refl _) ⟨e, h⟩

/-- A builtin three levels down makes it fail; without it there is a string. -/
example : buildD (.list [.dict [(.str c!"f", .builtin c!"len")]]) = .error .exception := rfl
example : ¬ ∃ b, Within b (.list [.int 3, .dict [(.int 1, .str c!"x")]]) ∧ Bad b := by
  intro h
  obtain ⟨x, hx, hb⟩ := HasBad.inv h (by intro h; cases h)
  cases hx with
  | list hm =>
    simp only [List.mem_cons, List.not_mem_nil, or_false] at hm
    rcases hm with rfl | rfl
    · exact not_hasBad_int _ hb
    · obtain ⟨k, v, hm, h⟩ := hasBad_dict hb
      simp only [List.mem_singleton, Prod.mk.injEq] at hm
      obtain ⟨rfl, rfl⟩ := hm
      rcases h with h | h
      · exact not_hasBad_int _ h
      · exact not_hasBad_str _ h
/-- A partial that binds an unknown keyword. -/
example : Bad (.part true (.func c!"f" [c!"a"] []) [] [(c!"b", .int 1)]) := .part .valueError rfl

end Whatami
