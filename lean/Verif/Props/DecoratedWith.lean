import Verif.Props.Decorated
import Verif.Props.Introspect

/-
C85: functions and partials decorated with a `whatfunc`.

Specification: `CallRuns`, `GoesByName`, `Undecorated`, `Bound` as for C54; `Redecorated` is a history of calls of `whatable`.
-/
namespace Whatami

/-- `whatable` takes this branch for Python functions and `functools.partial` objects. -/
inductive FunctionOrPartial : Fn → Prop where
  | func (n : Str) (a : List Str) (d : List Val) (c : Code) (cl : Bool) (w : Option WhatAttr) : FunctionOrPartial (.func n a d c cl w)
  | over (n : Str) (a : List Str) (d : List Val) (c : Code) (cell : Fn) (w : Option WhatAttr) : FunctionOrPartial (.over n a d c cell w)
  | part (f : Fn) (a : List Val) (k : Conf) (w : Option WhatAttr) : FunctionOrPartial (.part true f a k w)

/-- `g` comes from `f` by calls `whatable(..., whatfunc, excludes, modify_func_inplace)`, the last one first. -/
inductive Redecorated (f : Fn) : List (Option Nat × List Str × Bool) → Fn → Prop where
  | nil : Redecorated f [] f
  | cons {g g' : Fn} {cs : List (Option Nat × List Str × Bool)} {wf : Option Nat} {excludes : List Str} {inplace : Bool} :
      Redecorated f cs g → whatableFn wf excludes inplace g = .ok g' → Redecorated f ((wf, excludes, inplace) :: cs) g'

theorem decorable_iff {f : Fn} : f.decorable = true ↔ FunctionOrPartial f := by
  constructor
  · intro h
    cases f with
    | func => exact .func ..
    | over => exact .over ..
    | part p => cases p with
      | true => exact .part ..
      | false => cases h
    | other => cases h
  · intro h; cases h <;> rfl

theorem what_setWhat {f : Fn} (h : FunctionOrPartial f) (a : WhatAttr) : (f.setWhat a).what = some a := by
  cases h <;> rfl

theorem wrap_function (f : Fn) : FunctionOrPartial (wrapFn f) := .over ..

/-- C85: with a `whatfunc` every function and every partial is accepted, whatever its arguments, and nothing else is. -/
theorem c85_accepts (k : Nat) (excludes : List Str) (inplace : Bool) (f : Fn) :
    (∃ g, whatableFn (some k) excludes inplace f = .ok g) ↔ FunctionOrPartial f := by
  rw [← decorable_iff]
  unfold whatableFn
  split
  · rename_i h; simp [h]
  · rename_i h; simp [h]

/-- C85: the function that comes back asks the `whatfunc` about itself: not about the function it was made from, unless that was changed in place. -/
theorem c85_what {k : Nat} {excludes : List Str} {inplace : Bool} {f g : Fn} (h : whatableFn (some k) excludes inplace f = .ok g)
    (wf : Nat → Fn → R (Option What)) : g.callWhat wf = some (wf k g) := by
  have hf := (c85_accepts k excludes inplace f).1 ⟨g, h⟩
  unfold whatableFn at h
  rw [if_pos (decorable_iff.2 hf)] at h
  cases h
  have : ((if inplace = true then f else wrapFn f).setWhat (.by k)).what = some (.by k) := by
    split
    · exact what_setWhat hf _
    · rfl
  unfold Fn.callWhat
  rw [this]

/-- C85: the last decoration decides; all of them leave calls and the name of a function alone, and what comes back counts as whatable. -/
theorem c85_history {f g : Fn} {cs : List (Option Nat × List Str × Bool)} (h : Redecorated f cs g) :
    (∀ pos kw t pos' kw', CallRuns g pos kw t pos' kw' ↔ CallRuns f pos kw t pos' kw') ∧ (∀ n, GoesByName f n → GoesByName g n) ∧
    (cs ≠ [] → g.isWhatable = true) ∧
    ∀ k ex b cs', cs = (some k, ex, b) :: cs' → ∀ wf, g.callWhat wf = some (wf k g) := by
  induction h with
  | nil => exact ⟨fun _ _ _ _ _ => Iff.rfl, fun _ h => h, fun h => absurd rfl h, fun _ _ _ _ h => (by cases h)⟩
  | @cons g g' cs wf ex b _ hw ih =>
    obtain ⟨h1, h2⟩ := c54_behaves hw
    refine ⟨fun pos kw t pos' kw' => (h1 ..).trans (ih.1 ..), fun n hn => h2 n (ih.2.1 n hn), fun _ => ?_, ?_⟩
    · obtain ⟨hd, a, rfl⟩ := whatableFn_set hw
      unfold Fn.isWhatable
      split
      · rw [what_setWhat (decorable_iff.1 hd)]; rfl
      · rfl
    · rintro k ex' b' cs' ⟨⟩
      exact c85_what hw

/-- C85, the finding: what a function decorated with a `whatfunc` gives may raise, or be no What; it counts as whatable all the same. -/
theorem c85_not_checked {k : Nat} {excludes : List Str} {inplace : Bool} {f g : Fn} (h : whatableFn (some k) excludes inplace f = .ok g)
    {wf : Nat → Fn → R (Option What)} (hbad : ∀ w, wf k g ≠ .ok (some w)) :
    g.isWhatable = true ∧ ∃ r, g.callWhat wf = some r ∧ ∀ w, r ≠ .ok (some w) :=
  ⟨(c85_history (.cons .nil h)).2.2.1 (by simp), _, c85_what h wf, hbad⟩

/-! ### `whatfunc=whatareyou` -/

/-- C85: `whatable(f, whatfunc=whatareyou)` reports the name of the function; and its public parameters with a default if it is changed in place,
but none of them if it is not: `whatareyou` sees the new function, which has no parameters of its own. -/
theorem c85_whatareyou {f : Fn} {n : Str} {args : List Str} {ds : List Val} (hs : Signature args ds) (hf : Undecorated f n args ds)
    {k : Nat} {excludes : List Str} {inplace : Bool} {g : Fn} (h : whatableFn (some k) excludes inplace f = .ok g)
    {o : WhatOpts} {wf : Nat → Fn → R (Option What)} (hw : ∀ g, wf k g = (whatareyouFn o g).map some) :
    ∃ w, g.callWhat wf = some (.ok (some w)) ∧ Reported n w.name ∧ w.nonids = o.nonids ∧ UniqueKeys w.conf ∧
      ∀ p x, (p, x) ∈ w.conf ↔ inplace = true ∧ Public o p ∧ DefaultFor args ds p x := by
  rw [c85_what h wf, hw]
  obtain ⟨hd, -⟩ := whatableFn_set h
  have fit : Fits args [] (dget ([] : Conf)) := ⟨Nat.zero_le _, fun k v h => by cases h⟩
  have nopos : ∀ (k : Str) (u v : Val), PosFor args [] k u → ¬ DefaultFor args ds k v := by
    rintro k u v ⟨i, -, hi⟩
    simp at hi
  obtain ⟨d, hc⟩ := funcCall_complete (n := n) hs (kw := []) (by simp [UniqueKeys]) fit nopos
  obtain ⟨h1, -, h3, h4⟩ := funcCall_sound hs (by simp [UniqueKeys]) hc
  unfold whatableFn at h
  rw [if_pos hd] at h
  cases h
  cases inplace with
  | false =>
    refine ⟨{ name := n.filter (fun c => !(c == '<') && !(c == '>')), conf := [], nonids := o.nonids }, ?_, h1, rfl, by simp [UniqueKeys], fun p x => by simp⟩
    rcases hf with ⟨c, cl, rfl⟩ | ⟨c, cell, rfl⟩ <;> rfl
  | true =>
    refine ⟨{ name := n.filter (fun c => !(c == '<') && !(c == '>')), conf := trimDict o d, nonids := o.nonids }, ?_, h1, rfl, uniqueKeys_filter h3 _,
      fun p x => ?_⟩
    · have : fnCall (fun c => c) (f.setWhat (.by k)) [] [] = funcCall n args ds [] [] := by
        rcases hf with ⟨c, cl, rfl⟩ | ⟨c, cell, rfl⟩
        · cases cl <;> rfl
        · rfl
      simp only [if_true, whatareyouFn, this, hc, Except.map]
    · refine ((c25_exact o d).1 p x).trans ?_
      rw [← dget_mem_iff h3, h4]
      simp only [true_and, and_comm (a := Public o p)]
      refine and_congr_left fun _ => ⟨?_, fun h => .inr ⟨?_, .inr ⟨rfl, h⟩⟩⟩
      · rintro (⟨i, -, hi⟩ | ⟨-, hk | ⟨-, hk⟩⟩)
        · simp at hi
        · cases hk
        · exact hk
      · rintro ⟨u, i, -, hi⟩
        simp at hi

/-- C85: decorated once more without a `whatfunc` (and never in place) it reports the parameters again. -/
theorem c85_then_default {f g g' d : Fn} {n : Str} {args : List Str} {ds : List Val} (hs : Signature args ds) (hf : Undecorated f n args ds)
    (hg : Decorations f g) {k : Nat} {ex : List Str} (hk : whatableFn (some k) ex false g = .ok g') {excludes : List Str} {inplace : Bool}
    (h : whatableFn none excludes inplace g' = .ok d) :
    ∃ w, (∀ wf, d.callWhat wf = some (.ok (some w))) ∧ Reported n w.name ∧ UniqueKeys w.conf ∧ w.nonids = excludes ∧
      ∀ p x, dget w.conf p = some x ↔ DefaultFor args ds p x := by
  obtain ⟨w, h1, h2, h3, h4, -, -, h7⟩ := c54_reports hs hf (.again hg hk) [] (by simp) h
  refine ⟨w, fun wf => ?_, h2, h3, h4, fun p x => (h7 p x).trans ⟨?_, fun h => .inr ⟨?_, .inr ⟨rfl, h⟩⟩⟩⟩
  · unfold Fn.callWhat; rw [h1]
  · rintro (⟨i, -, hi⟩ | ⟨-, hk | ⟨-, hk⟩⟩)
    · simp [allPos] at hi
    · cases hk
    · exact hk
  · rintro ⟨u, i, -, hi⟩
    simp [allPos] at hi

/-! Cases: `normalize(x, loc=5, scale=3)` with `whatareyou` (0), and with a function that raises (1). -/
def exWf : Nat → Fn → R (Option What)
  | 0, g => (whatareyouFn {} g).map some
  | _, _ => .error .exception

example : ∃ g, whatableFn (some 0) [] true exNormalize = .ok g ∧
    g.callWhat exWf = some (.ok (some { name := c!"normalize", conf := [(c!"loc", .int 5), (c!"scale", .int 3)] })) := ⟨_, rfl, rfl⟩
example : ∃ g, whatableFn (some 0) [] false exNormalize = .ok g ∧ g.callWhat exWf = some (.ok (some { name := c!"normalize", conf := [] })) ∧
    ∃ d, whatableFn none [] false g = .ok d ∧
      d.callWhat exWf = some (.ok (some { name := c!"normalize", conf := [(c!"loc", .int 5), (c!"scale", .int 3)] })) ∧
      Redecorated exNormalize [(none, [], false), (some 0, [], false)] d :=
  ⟨_, rfl, rfl, _, rfl, rfl, .cons (.cons .nil rfl) rfl⟩
example : ∃ g, whatableFn (some 1) [] false exNormalize = .ok g ∧ g.isWhatable = true ∧ g.callWhat exWf = some (.error .exception) := ⟨_, rfl, rfl, rfl⟩
/-- a partial that cannot be decorated without a `whatfunc` -/
example : whatableFn none [] false (.part true exNormalize [] [(c!"y", .none)] none) = .error .valueError ∧
    ∃ g, whatableFn (some 1) [] false (.part true exNormalize [] [(c!"y", .none)] none) = .ok g := ⟨rfl, _, rfl⟩

end Whatami
