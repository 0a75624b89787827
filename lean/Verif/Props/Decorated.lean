import Verif.Decorated
import Verif.Props.Calls

/-
C54: decorated functions.

Specification: `CallRuns` says which code a call ends up in and with which arguments; `Decorations` are the functions made from one
by decorating it again and again; `partialFn`, `applyFn` are chains of `functools.partial`.
-/
namespace Whatami

/-- What a call ends up in: code of the user's or something that is no Python function. -/
inductive Target where
  | code (n : Nat)
  | val (v : Val)

/-- Calling `f(*pos, **kw)` ends up in calling the target with the given arguments. -/
inductive CallRuns : Fn → List Val → (Str → Option Val) → Target → List Val → (Str → Option Val) → Prop
  | func {n : Str} {a : List Str} {d : List Val} {m : Nat} {cl : Bool} {w : Option WhatAttr} {pos : List Val} {kw : Str → Option Val} :
      CallRuns (.func n a d (.user m) cl w) pos kw (.code m) pos kw
  | over {n : Str} {a : List Str} {d : List Val} {m : Nat} {cell : Fn} {w : Option WhatAttr} {pos : List Val} {kw : Str → Option Val} :
      CallRuns (.over n a d (.user m) cell w) pos kw (.code m) pos kw
  | forward {n : Str} {a : List Str} {d : List Val} {cell : Fn} {w : Option WhatAttr} {pos : List Val} {kw : Str → Option Val} {t : Target}
      {pos' : List Val} {kw' : Str → Option Val} : CallRuns cell pos kw t pos' kw' → CallRuns (.over n a d .forward cell w) pos kw t pos' kw'
  | part {p : Bool} {f : Fn} {args : List Val} {kws : Conf} {w : Option WhatAttr} {pos : List Val} {kw : Str → Option Val} {t : Target}
      {pos' : List Val} {kw' : Str → Option Val} :
      CallRuns f (args ++ pos) (fun k => (kw k).or (dget kws k)) t pos' kw' → CallRuns (.part p f args kws w) pos kw t pos' kw'
  | other {v : Val} {pos : List Val} {kw : Str → Option Val} : CallRuns (.other v) pos kw (.val v) pos kw

/-- The function has this `__name__`. -/
inductive GoesByName : Fn → Str → Prop
  | func {n : Str} {a : List Str} {d : List Val} {c : Code} {cl : Bool} {w : Option WhatAttr} : GoesByName (.func n a d c cl w) n
  | over {n : Str} {a : List Str} {d : List Val} {c : Code} {cell : Fn} {w : Option WhatAttr} : GoesByName (.over n a d c cell w) n

/-- A function with these name, parameters and defaults that was not decorated (it may be a closure). -/
def Undecorated (f : Fn) (n : Str) (args : List Str) (ds : List Val) : Prop :=
  (∃ c cl, f = .func n args ds c cl none) ∨ ∃ c cell, f = .over n args ds c cell none

/-- `f`, `whatable(f)`, `whatable(whatable(f))`, ..., each with or without a `whatfunc`. -/
inductive Decorations (f : Fn) : Fn → Prop
  | none : Decorations f f
  | again {g g' : Fn} {wf : Option Nat} {excludes : List Str} : Decorations f g → whatableFn wf excludes false g = .ok g' → Decorations f g'

/-- `functools.partial(f, *args, **kws)`. -/
def partialFn (f : Fn) (args : List Val) (kws : Conf) : Fn :=
  match f with
  | .part true g a k none => .part true g (a ++ args) (dupdate k kws) none
  | _ => .part true f args kws none

/-- Partial applications one after the other, the innermost first. -/
def applyFn (f : Fn) : List (List Val × Conf) → Fn
  | [] => f
  | (args, kws) :: outer => applyFn (partialFn f args kws) outer

theorem setWhat_callRuns (w : WhatAttr) (f : Fn) (pos kw t pos' kw') : CallRuns (f.setWhat w) pos kw t pos' kw' ↔ CallRuns f pos kw t pos' kw' := by
  cases f with
  | func n a d c cl w' => constructor <;> (rintro ⟨⟩; exact .func)
  | over n a d c cell w' =>
    constructor
    · intro h
      cases h with
      | over => exact .over
      | forward h => exact .forward h
    · intro h
      cases h with
      | over => exact .over
      | forward h => exact .forward h
  | part p f a k w' =>
    constructor
    · intro h
      cases h with
      | part h => exact .part h
    · intro h
      cases h with
      | part h => exact .part h
  | other v => rfl

theorem wrapFn_callRuns (f : Fn) (pos kw t pos' kw') : CallRuns (wrapFn f) pos kw t pos' kw' ↔ CallRuns f pos kw t pos' kw' := by
  constructor
  · intro h
    cases h with
    | forward h => exact h
  · exact .forward

theorem whatableFn_set {wf : Option Nat} {ex : List Str} {b : Bool} {f g : Fn} (h : whatableFn wf ex b f = .ok g) :
    f.decorable = true ∧ ∃ a, g = (if b then f else wrapFn f).setWhat a := by
  unfold whatableFn at h
  split at h
  · rename_i hd
    refine ⟨hd, ?_⟩
    dsimp only at h
    split at h
    · cases h; exact ⟨_, rfl⟩
    · split at h
      · cases h
      · cases h; exact ⟨_, rfl⟩
  · cases h

theorem whatableFn_ok {ex : List Str} {b : Bool} {f g : Fn} (h : whatableFn none ex b f = .ok g) :
    f.decorable = true ∧ ∃ name conf, fnCall extractDecorated f [] [] = .ok (name, conf) ∧
      g = (if b then f else wrapFn f).setWhat (.conf { name := name, conf := conf, nonids := ex }) := by
  unfold whatableFn at h
  split at h
  · rename_i hd
    refine ⟨hd, ?_⟩
    dsimp only at h
    split at h
    · cases h
    · rename_i name conf hc
      cases h
      exact ⟨name, conf, hc, rfl⟩
  · cases h

/-- C54: a call of the decorated function is the same call of the original, which is not touched unless asked for; a function
keeps its name. -/
theorem c54_behaves {wf : Option Nat} {excludes : List Str} {inplace : Bool} {f g : Fn} (h : whatableFn wf excludes inplace f = .ok g) :
    (∀ pos kw t pos' kw', CallRuns g pos kw t pos' kw' ↔ CallRuns f pos kw t pos' kw') ∧ (∀ n, GoesByName f n → GoesByName g n) := by
  obtain ⟨-, a, rfl⟩ := whatableFn_set h
  refine ⟨fun pos kw t pos' kw' => ?_, fun n hf => ?_⟩
  · rw [setWhat_callRuns]
    cases inplace
    · exact wrapFn_callRuns ..
    · exact Iff.rfl
  · cases inplace <;> cases hf <;> first | exact .func | exact .over

theorem undecorated_fn {f : Fn} {n : Str} {args : List Str} {ds : List Val} (h : Undecorated f n args ds) :
    f.isFunction = true ∧ extractDecorated f = f ∧ f.what = none ∧ ∀ pos kw, funcCallOf f pos kw = funcCall n args ds pos kw := by
  rcases h with ⟨c, cl, rfl⟩ | ⟨c, cell, rfl⟩
  · exact ⟨rfl, rfl, rfl, fun _ _ => rfl⟩
  · refine ⟨rfl, ?_, rfl, fun _ _ => rfl⟩
    unfold extractDecorated
    rfl

theorem decorations_fn {f g : Fn} {n : Str} {args : List Str} {ds : List Val} (h : Undecorated f n args ds) (hg : Decorations f g) :
    g.isFunction = true ∧ extractDecorated g = f := by
  induction hg with
  | none => exact ⟨(undecorated_fn h).1, (undecorated_fn h).2.1⟩
  | again _ hw ih =>
    obtain ⟨-, a, rfl⟩ := whatableFn_set hw
    refine ⟨rfl, ?_⟩
    simp only [wrapFn, Fn.setWhat, Bool.false_eq_true, if_false]
    unfold extractDecorated
    rw [if_pos ih.1, ih.2]

theorem fnCall_fn {f g : Fn} {n : Str} {args : List Str} {ds : List Val} (h : Undecorated f n args ds) (hg : Decorations f g)
    (pos : List Val) (kw : Conf) : fnCall extractDecorated g pos kw = funcCall n args ds pos kw := by
  obtain ⟨h1, h2⟩ := decorations_fn h hg
  cases g with
  | func gn a d c cl w =>
    simp only [fnCall, h2]
    cases cl with
    | true => simp only [if_true]; exact (undecorated_fn h).2.2.2 ..
    | false =>
      have : Fn.func gn a d c false w = f := h2
      rw [this]
      exact (undecorated_fn h).2.2.2 ..
  | over gn a d c cell w =>
    simp only [fnCall, h2]
    exact (undecorated_fn h).2.2.2 ..
  | part => cases h1
  | other => cases h1

theorem applyFn_part (g : Fn) (f : Val) (apps : List (List Val × Conf)) (a : List Val) (k : Conf) :
    ∃ a' k', applyFn (.part true g a k none) apps = .part true g a' k' none ∧ applyAll (.part true f a k) apps = .part true f a' k' := by
  induction apps generalizing a k with
  | nil => exact ⟨a, k, rfl, rfl⟩
  | cons p apps ih =>
    obtain ⟨args, kws⟩ := p
    exact ih _ _

theorem fnCall_apply {f g : Fn} {n : Str} {args : List Str} {ds : List Val} (h : Undecorated f n args ds) (hg : Decorations f g)
    (apps : List (List Val × Conf)) :
    fnCall extractDecorated (applyFn g apps) [] [] = callable2call (applyAll (.func n args ds) apps) [] [] := by
  have h1 := (decorations_fn h hg).1
  cases apps with
  | nil =>
    show fnCall extractDecorated g [] [] = _
    rw [fnCall_fn h hg]
    rfl
  | cons p apps =>
    obtain ⟨pa, pk⟩ := p
    have hp : partialFn g pa pk = .part true g pa pk none := by
      cases g with
      | part => cases h1
      | _ => rfl
    obtain ⟨a', k', e1, e2⟩ := applyFn_part g (.func n args ds) apps pa pk
    show fnCall extractDecorated (applyFn (partialFn g pa pk) apps) [] [] = callable2call (applyAll (.part true (.func n args ds) pa pk) apps) [] []
    rw [hp, e1, e2]
    have : fnCall extractDecorated (.part true g a' k' none) [] [] = fnCall extractDecorated g ([] ++ a') (dictOf (k' ++ [])) := by
      cases g with
      | part => cases h1
      | _ => rfl
    rw [this, fnCall_fn h hg]
    rfl

/-- C54: what a decorated function, decorated any number of times, or a decorated chain of partials of it reports: the name of
the function and, for every parameter, the value it is bound to when nothing else is passed. -/
theorem c54_reports {f g d : Fn} {n : Str} {args : List Str} {ds : List Val} (hs : Signature args ds) (hf : Undecorated f n args ds)
    (hg : Decorations f g) (apps : List (List Val × Conf)) (hu : ∀ a ∈ apps, UniqueKeys a.2) {excludes : List Str} {inplace : Bool}
    (h : whatableFn none excludes inplace (applyFn g apps) = .ok d) :
    ∃ w, d.what = some (.conf w) ∧ Reported n w.name ∧ UniqueKeys w.conf ∧ w.nonids = excludes ∧ w.out = none ∧ Fits args (allPos apps) (allKw apps) ∧
      ∀ k x, dget w.conf k = some x ↔ Bound args ds (allPos apps) (allKw apps) k x := by
  obtain ⟨hd, name, conf, hc, rfl⟩ := whatableFn_ok h
  rw [fnCall_apply hf hg] at hc
  obtain ⟨h1, h2, h3, h4⟩ := c27_partials hs apps hu hc
  refine ⟨{ name := name, conf := conf, nonids := excludes }, ?_, h1, h3, rfl, rfl, h2, h4⟩
  cases inplace
  · rfl
  · simp only [if_true]
    generalize applyFn g apps = x at hd
    cases x <;> first | rfl | cases hd

/-- C54: decorating works exactly if the arguments given so far fit and no parameter with a default is given by position. -/
theorem c54_accepts {f g : Fn} {n : Str} {args : List Str} {ds : List Val} (hs : Signature args ds) (hf : Undecorated f n args ds)
    (hg : Decorations f g) (apps : List (List Val × Conf)) (hu : ∀ a ∈ apps, UniqueKeys a.2) (excludes : List Str) (inplace : Bool) :
    (∃ d, whatableFn none excludes inplace (applyFn g apps) = .ok d) ↔
      Fits args (allPos apps) (allKw apps) ∧ ∀ k u x, PosFor args (allPos apps) k u → ¬ DefaultFor args ds k x := by
  rw [← c27_partials_iff (n := n) hs apps hu, ← fnCall_apply hf hg]
  have hd : (applyFn g apps).decorable = true := by
    have h1 := (decorations_fn hf hg).1
    cases apps with
    | nil =>
      show g.decorable = true
      cases g <;> first | rfl | cases h1
    | cons p apps =>
      obtain ⟨pa, pk⟩ := p
      have hp : partialFn g pa pk = .part true g pa pk none := by
        cases g with
        | part => cases h1
        | _ => rfl
      obtain ⟨a', k', e1, -⟩ := applyFn_part g (.func n args ds) apps pa pk
      show (applyFn (partialFn g pa pk) apps).decorable = true
      rw [hp, e1]
      rfl
  constructor
  · rintro ⟨d, h⟩
    obtain ⟨-, name, conf, hc, -⟩ := whatableFn_ok h
    exact ⟨name, conf, hc⟩
  · rintro ⟨name, conf, hc⟩
    exact ⟨_, by rw [whatableFn, if_pos hd, hc]⟩

/-- C54: decorating again does not change what is reported. -/
theorem c54_again {f g f' g' : Fn} {n : Str} {args : List Str} {ds : List Val} (hf : Undecorated f n args ds) (hg : Decorations f g)
    {excludes : List Str} {b b' : Bool} (h : whatableFn none excludes b f = .ok f') (h' : whatableFn none excludes b' g = .ok g') : g'.what = f'.what := by
  obtain ⟨hd, name, conf, hc, rfl⟩ := whatableFn_ok h
  obtain ⟨hd', name', conf', hc', rfl⟩ := whatableFn_ok h'
  rw [fnCall_fn hf hg] at hc'
  rw [fnCall_fn hf .none] at hc
  rw [hc] at hc'
  cases hc'
  cases b <;> cases b' <;> cases f <;> cases g <;> first | rfl | (cases hd; done) | (cases hd'; done)

/-- Not so for partials: decorating a decorated partial forgets the function and all of its arguments, and a partial of it with
keywords cannot be decorated. -/
theorem c54_partial_lost {f g : Fn} {args : List Val} {kws : Conf} {w : Option WhatAttr} {excludes : List Str}
    (h : whatableFn none excludes false (.part true f args kws w) = .ok g) :
    (∀ excludes', ∃ g', whatableFn none excludes' false g = .ok g' ∧ g'.what = some (.conf { name := c!"whatablefunc", conf := [], nonids := excludes' })) ∧
      ∀ excludes' b k v, whatableFn none excludes' b (.part true g [] [(k, v)] none) = .error .valueError := by
  obtain ⟨-, name, conf, -, rfl⟩ := whatableFn_ok h
  have hx : ∀ pos kw, fnCall extractDecorated ((wrapFn (.part true f args kws w)).setWhat (.conf { name := name, conf := conf, nonids := excludes })) pos kw =
      funcCall c!"whatablefunc" [] [] pos kw := by
    intro pos kw
    rfl
  constructor
  · intro ex'
    refine ⟨(wrapFn ((wrapFn (.part true f args kws w)).setWhat (.conf { name := name, conf := conf, nonids := excludes }))).setWhat
      (.conf { name := c!"whatablefunc", conf := [], nonids := ex' }), ?_, rfl⟩
    rfl
  · intro ex' b k v
    rfl

/-- Nor for closures over a single function that are decorated in place: then it is the captured function that is reported. -/
theorem c54_inplace_confused {n n' : Str} {a a' : List Str} {d d' : List Val} {c c' : Code} {cl : Bool} {w : Option WhatAttr} {f g : Fn} {excludes : List Str}
    (h : whatableFn none excludes true (.over n a d c (.func n' a' d' c' cl w) none) = .ok f) (h' : whatableFn none excludes false f = .ok g)
    {u : Fn} (hu : whatableFn none excludes false (.func n' a' d' c' cl w) = .ok u) : g.what = u.what := by
  obtain ⟨-, name, conf, -, rfl⟩ := whatableFn_ok h
  obtain ⟨-, name', conf', hc', rfl⟩ := whatableFn_ok h'
  obtain ⟨-, name'', conf'', hc'', rfl⟩ := whatableFn_ok hu
  have e1 : fnCall extractDecorated (.func n' a' d' c' cl w) [] [] = funcCall n' a' d' [] [] := by
    cases cl <;> rfl
  have e2 : fnCall extractDecorated ((Fn.over n a d c (.func n' a' d' c' cl w) none).setWhat (.conf { name := name, conf := conf, nonids := excludes })) [] [] =
      funcCall n' a' d' [] [] := rfl
  rw [e1] at hc''
  simp only [if_true] at hc'
  rw [e2, hc''] at hc'
  cases hc'
  rfl

/-- `def normalize(x, loc=5, scale=3)`, and `whatable(partial(whatable(normalize), loc=6))`. -/
def exNormalize : Fn := .func c!"normalize" [c!"x", c!"loc", c!"scale"] [.int 5, .int 3] (.user 0) false none

example : Undecorated exNormalize c!"normalize" [c!"x", c!"loc", c!"scale"] [.int 5, .int 3] := .inl ⟨_, _, rfl⟩
example : ∃ g, whatableFn none [c!"what"] false exNormalize = .ok g ∧ Decorations exNormalize g ∧
    g.what = some (.conf { name := c!"normalize", conf := [(c!"loc", .int 5), (c!"scale", .int 3)], nonids := [c!"what"] }) ∧
    ∃ d, whatableFn none [c!"what"] false (applyFn g [([], [(c!"loc", .int 6)])]) = .ok d ∧
      d.what = some (.conf { name := c!"normalize", conf := [(c!"loc", .int 6), (c!"scale", .int 3)], nonids := [c!"what"] }) ∧
      CallRuns d [.int 3] (fun _ => none) (.code 0) [.int 3] (fun k => dget [(c!"loc", Val.int 6)] k) := by
  refine ⟨_, rfl, .again (wf := none) (excludes := [c!"what"]) .none rfl, rfl, _, rfl, rfl, ?_⟩
  exact .forward (.part (.forward .func))

end Whatami
