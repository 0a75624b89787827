import Verif.Frame
import Verif.Spec.Call
import Verif.Spec.Same
import Verif.BasicLemmas
import Verif.Props.Registry
import Verif.Props.Calls

/-
Properties of the helpers of misc.py: C42, C43, C44.
-/
namespace Whatami

/-! ### C44 -/

/-- The parameters without a default: those before the last `defaults` ones. -/
def Required (f : Spec) (a : Str) : Prop := ∃ i : Nat, f.args[i]? = some a ∧ i + f.defaults < f.args.length

/-- A possible signature. -/
def SpecOk (f : Spec) : Prop := f.args.Nodup ∧ f.defaults ≤ f.args.length

theorem requiredArgs_eq (f : Spec) : requiredArgs f = f.args.take (f.args.length - f.defaults) := by
  simp only [requiredArgs]
  split
  · rename_i h; simp [h]
  · rfl

/-- C44. `required_args` is exactly the parameters without default, in order. -/
theorem c44_required (f : Spec) (h : SpecOk f) :
    (∀ a, a ∈ requiredArgs f ↔ Required f a) ∧ requiredArgs f <+: f.args ∧ (requiredArgs f).length + f.defaults = f.args.length := by
  rw [requiredArgs_eq]
  refine ⟨?_, List.take_prefix _ _, by rw [List.length_take]; have := h.2; omega⟩
  intro a
  rw [List.mem_iff_getElem?]
  simp only [Required]
  constructor
  · rintro ⟨i, hi⟩
    have hl := (List.getElem?_eq_some_iff.1 hi).1
    rw [List.length_take] at hl
    rw [List.getElem?_take_of_lt (by omega)] at hi
    exact ⟨i, hi, by omega⟩
  · rintro ⟨i, hi, hl⟩
    exact ⟨i, by rw [List.getElem?_take_of_lt (by omega)]; exact hi⟩

theorem mem_eraseDups (l : List Str) (a : Str) : a ∈ l.eraseDups ↔ a ∈ l := List.mem_eraseDups

theorem nodup_eraseDups (l : List Str) : l.eraseDups.Nodup := by
  suffices h : ∀ n, ∀ l : List Str, l.length ≤ n → l.eraseDups.Nodup from h _ l (Nat.le_refl _)
  intro n
  induction n with
  | zero => intro l hl; cases l with | nil => simp | cons => simp at hl
  | succ n ih =>
    intro l hl
    cases l with
    | nil => simp
    | cons a l =>
      rw [List.eraseDups_cons, List.nodup_cons]
      refine ⟨?_, ih _ ?_⟩
      · rw [mem_eraseDups]; simp
      · have := List.length_filter_le (fun b => !b == a) l
        simp only [List.length_cons] at hl
        omega

/-- C44. `ensure_has_positional_args` returns the function iff all names are parameters without default; else it raises and
names exactly the missing ones, once each and in order. -/
theorem c44_ensure (f : Spec) (h : SpecOk f) (args : List Str) :
    ((∀ a ∈ args, Required f a) → ensurePositional f args = .ok f) ∧
    (¬ (∀ a ∈ args, Required f a) → ∃ missing, ensurePositional f args = .error missing ∧ missing ≠ [] ∧ missing.Nodup ∧
      Sorted strLe missing ∧ ∀ a, a ∈ missing ↔ a ∈ args ∧ ¬ Required f a) := by
  have hr := (c44_required f h).1
  constructor
  · intro ha
    simp only [ensurePositional]
    rw [if_pos]
    simp only [List.all_eq_true, List.contains_eq_mem, decide_eq_true_eq]
    exact fun a h => (hr a).2 (ha a h)
  · intro ha
    have hmem : ∀ a, a ∈ sortedDiff args (requiredArgs f) ↔ a ∈ args ∧ ¬ Required f a := by
      intro a
      simp only [sortedDiff, mem_sortBy, mem_eraseDups, List.mem_filter, Bool.not_eq_true', List.contains_eq_mem, decide_eq_false_iff_not, hr]
    refine ⟨sortedDiff args (requiredArgs f), ?_, ?_, ?_, ?_, hmem⟩
    · simp only [ensurePositional]
      rw [if_neg]
      simp only [List.all_eq_true, List.contains_eq_mem, decide_eq_true_eq]
      intro h'
      exact ha fun a hm => (hr a).1 (h' a hm)
    · intro e
      apply ha
      intro a hm
      refine Classical.byContradiction fun hn => ?_
      have := (hmem a).2 ⟨hm, hn⟩
      rw [e] at this; cases this
    · exact (sortBy_perm strLe _).nodup_iff.2 (nodup_eraseDups _)
    · exact sortBy_sorted strLe_total strLe_trans _

/-- C44. The required parameters of a constructor: those without default, but for a leading `self`; none if it cannot be
introspected. -/
theorem c44_init (f : Spec) (h : SpecOk f) :
    initRequired none = [] ∧
    (∀ a, a ∈ initRequired (some f) ↔ Required f a ∧ ¬ (a = c!"self" ∧ f.args[0]? = some c!"self")) := by
  refine ⟨rfl, ?_⟩
  intro a
  have hr := (c44_required f h).1 a
  have hn : (requiredArgs f).Nodup := h.1.sublist (c44_required f h).2.1.sublist
  have hpre := (c44_required f h).2.1
  simp only [initRequired]
  cases e : requiredArgs f with
  | nil =>
    rw [e] at hr
    simp only [List.not_mem_nil, false_iff, not_and] at hr ⊢
    intro h; exact absurd h hr
  | cons b r =>
    rw [e] at hr hn hpre
    have h0 : f.args[0]? = some b := by
      obtain ⟨t, ht⟩ := hpre
      rw [← ht]; rfl
    rw [List.nodup_cons] at hn
    simp only [h0, Option.some.injEq]
    split
    · rename_i hb
      subst hb
      rw [← hr]
      simp only [List.mem_cons, and_true]
      constructor
      · intro ha
        exact ⟨.inr ha, fun e => hn.1 (e ▸ ha)⟩
      · rintro ⟨ha | ha, hne⟩
        · exact absurd ha hne
        · exact ha
    · rename_i hb
      rw [← hr]
      constructor
      · intro ha; exact ⟨ha, fun ⟨_, e⟩ => hb e⟩
      · exact fun h => h.1

example : requiredArgs ⟨[c!"a", c!"b", c!"c"], 1⟩ = [c!"a", c!"b"] ∧ SpecOk ⟨[c!"a", c!"b", c!"c"], 1⟩ := ⟨rfl, by unfold SpecOk; decide⟩
example : ensurePositional ⟨[c!"a", c!"b", c!"c"], 1⟩ [c!"z", c!"a", c!"c", c!"z"] = .error [c!"c", c!"z"] := rfl
example : initRequired (some ⟨[c!"self", c!"a", c!"c"], 1⟩) = [c!"a"] := rfl

/-! ### C42 -/

/-- What the property says about the value of a key: keyword overrides, then overrides, then `**kwargs`, then the named
parameters but for the ignored ones. -/
def callValue (f : Frame) (ignores : List Str) (overrides overOverrides : Conf) (k : Str) : Option Val :=
  (dget overOverrides k).or ((dget overrides k).or ((dget (f.kwargs.getD []) k).or (if k ∈ f.args ∧ k ∉ ignores then dget f.locals k else none)))

/-- A frame in which no named parameter (nor `*args`) was deleted; the dicts are dicts. -/
def FrameOk (f : Frame) : Prop :=
  (∀ a ∈ f.args, ∃ v, dget f.locals a = some v) ∧ (∀ a, f.varargs = some a → ∃ v, dget f.locals a = some v) ∧ UniqueKeys (f.kwargs.getD [])

/-- The values that are false in a condition: None, False, zeros, and whatever is empty. -/
inductive Falsy : Val → Prop where
  | none : Falsy .none
  | false : Falsy (.bool false)
  | zero : Falsy (.int 0)
  | fzero : Falsy (.float c!"0.0")
  | nzero : Falsy (.float c!"-0.0")
  | str : Falsy (.str [])
  | tuple : Falsy (.tuple [])
  | list : Falsy (.list [])
  | set : Falsy (.set [])
  | fset : Falsy (.fset [])
  | sub (k : Kind) (c : Str) (a : Conf) : Falsy (.sub k c a [])
  | dict : Falsy (.dict [])
  | odict (c : Str) (a : Conf) : Falsy (.odict c a [])
  | ddict (c : Str) (a : Conf) : Falsy (.ddict c a [])

theorem truthy_iff (v : Val) : truthy v = true ↔ ¬ Falsy v := by
  have hl : ∀ {α : Type} (l : List α), (!l.isEmpty) = true ↔ l ≠ [] := by intro α l; cases l <;> simp
  constructor
  · intro h hf
    cases hf <;> cases h
  · intro hf
    cases v with
    | none => exact absurd .none hf
    | bool b => cases b with | false => exact absurd .false hf | true => rfl
    | int i => by_cases e : i = 0
               · subst e; exact absurd .zero hf
               · simp [truthy, e]
    | float t =>
      by_cases e : t = c!"0.0"
      · subst e; exact absurd .fzero hf
      · by_cases e' : t = c!"-0.0"
        · subst e'; exact absurd .nzero hf
        · simp [truthy, e, e']
    | str s => exact (hl s).2 fun e => hf (e ▸ .str)
    | tuple s => exact (hl s).2 fun e => hf (e ▸ .tuple)
    | list s => exact (hl s).2 fun e => hf (e ▸ .list)
    | set s => exact (hl s).2 fun e => hf (e ▸ .set)
    | fset s => exact (hl s).2 fun e => hf (e ▸ .fset)
    | sub k c a s => exact (hl s).2 fun e => hf (e ▸ .sub k c a)
    | dict s => exact (hl s).2 fun e => hf (e ▸ .dict)
    | odict c a s => exact (hl s).2 fun e => hf (e ▸ .odict c a)
    | ddict c a s => exact (hl s).2 fun e => hf (e ▸ .ddict c a)
    | _ => rfl

/-- The frame has positional varargs: the variable is there and it is not false. -/
def HasVarargs (f : Frame) : Prop := ∃ a v, f.varargs = some a ∧ dget f.locals a = some v ∧ ¬ Falsy v

theorem dget_dup {d e : Conf} (h : UniqueKeys e) (k : Str) : dget (dupdate d e) k = (dget e k).or (dget d k) := by
  rw [dget_dupdate, dget_reverse h]; cases dget e k <;> rfl

theorem frameArgs_ok {l : Conf} (as : List Str) (d : Conf) (h : ∀ a ∈ as, ∃ v, dget l a = some v) (hd : UniqueKeys d) :
    ∃ d', frameArgs l as d = .ok d' ∧ UniqueKeys d' ∧ ∀ k, dget d' k = if k ∈ as then dget l k else dget d k := by
  induction as generalizing d with
  | nil => exact ⟨d, rfl, hd, fun k => by simp⟩
  | cons a as ih =>
    obtain ⟨v, hv⟩ := h a (by simp)
    obtain ⟨d', h1, h2, h3⟩ := ih (dset d a v) (fun b hb => h b (by simp [hb])) (nodup_dset hd a v)
    refine ⟨d', by simp only [frameArgs, hv, h1], h2, fun k => ?_⟩
    rw [h3, dget_dset]
    by_cases hk : k ∈ as
    · simp [hk]
    · by_cases e : a = k
      · subst e; simp [hv]
      · have : ¬ k = a := fun h => e h.symm
        simp [hk, e, this]

theorem delAll_get (d : Conf) (h : UniqueKeys d) (ig : List Str) : UniqueKeys (delAll d ig) ∧
    ∀ k, dget (delAll d ig) k = if k ∈ ig then none else dget d k := by
  induction ig generalizing d with
  | nil => exact ⟨h, fun k => by simp [delAll]⟩
  | cons a ig ih =>
    obtain ⟨h1, h2⟩ := ih (ddel d a) (nodup_ddel h a)
    refine ⟨h1, fun k => ?_⟩
    have : delAll d (a :: ig) = delAll (ddel d a) ig := rfl
    rw [this, h2, dget_ddel h]
    by_cases hk : k ∈ ig
    · simp [hk]
    · by_cases e : k = a <;> simp [hk, e]

/-- C42. `call_dict` raises ValueError exactly if there are positional varargs that are not to be ignored; otherwise it returns a
dictionary with the values that the order of precedence says. -/
theorem c42_call_dict (f : Frame) (h : FrameOk f) (ignores : List Str) (ignoreVarargs : Bool) (overrides overOverrides : Conf) (ho : UniqueKeys overrides)
    (hoo : UniqueKeys overOverrides) :
    (ignoreVarargs = false ∧ HasVarargs f → callDict f ignores ignoreVarargs overrides overOverrides = .error .valueError) ∧
    (¬ (ignoreVarargs = false ∧ HasVarargs f) → ∃ d, callDict f ignores ignoreVarargs overrides overOverrides = .ok d ∧ UniqueKeys d ∧
      ∀ k, dget d k = callValue f ignores overrides overOverrides k) := by
  obtain ⟨d, h1, h2, h3⟩ := frameArgs_ok f.args [] h.1 (by simp [UniqueKeys])
  obtain ⟨h4, h5⟩ := delAll_get d h2 ignores
  have hkw : addKwargs (delAll d ignores) f.kwargs = dupdate (delAll d ignores) (f.kwargs.getD []) := by
    cases f.kwargs <;> rfl
  have good : ∃ d', (Except.ok (dupdate (dupdate (dupdate (delAll d ignores) (f.kwargs.getD [])) overrides) overOverrides) : R Conf) = .ok d' ∧ UniqueKeys d' ∧
      ∀ k, dget d' k = callValue f ignores overrides overOverrides k := by
    refine ⟨_, rfl, nodup_dupdate (nodup_dupdate (nodup_dupdate h4 _) _) _, fun k => ?_⟩
    rw [dget_dup hoo, dget_dup ho, dget_dup h.2.2, h5, h3]
    simp only [callValue, dget]
    congr 3
    by_cases hi : k ∈ ignores <;> by_cases ha : k ∈ f.args <;> simp [hi, ha]
  simp only [callDict, h1, Except.bind, hkw]
  constructor
  · rintro ⟨hi, a, v, hv, hl, ht⟩
    simp [hv, hi, hl, (truthy_iff v).2 ht]
  · intro hn
    cases hv : f.varargs with
    | none => exact good
    | some a =>
      simp only
      cases hi : ignoreVarargs with
      | true => exact good
      | false =>
        obtain ⟨v, hl⟩ := h.2.1 a hv
        have ht : truthy v = false := by
          cases ht : truthy v with
          | false => rfl
          | true => exact absurd ⟨hi, a, v, hv, hl, (truthy_iff v).1 ht⟩ hn
        simp only [hl, ht, Bool.false_eq_true, if_false]
        exact good

/-- `def caller(self, x, y=3, *args, **kwargs)` called with `x=1, y=2, self=..., z=5`, overriding `x`, then `x` and `z`. -/
def exFrame : Frame where
  args := [c!"self", c!"x", c!"y"]
  varargs := some c!"args"
  kwargs := some [(c!"z", .int 5), (c!"cls", .int 6)]
  locals := [(c!"self", .none), (c!"x", .int 1), (c!"y", .int 2), (c!"args", .tuple [])]
example : callDict exFrame [c!"cls", c!"self"] false [(c!"x", .int 7)] [(c!"x", .int 8), (c!"w", .int 9)] =
    .ok [(c!"x", .int 8), (c!"y", .int 2), (c!"z", .int 5), (c!"cls", .int 6), (c!"w", .int 9)] := rfl
example : FrameOk exFrame ∧ ¬ HasVarargs exFrame := by
  refine ⟨⟨?_, ?_, by unfold UniqueKeys exFrame; decide⟩, ?_⟩
  · intro a ha
    simp only [exFrame, List.mem_cons, List.not_mem_nil, or_false] at ha
    rcases ha with rfl | rfl | rfl <;> exact ⟨_, rfl⟩
  · intro a ha; cases ha; exact ⟨_, rfl⟩
  · rintro ⟨a, v, h1, h2, h3⟩; cases h1; cases h2; exact h3 .tuple
example : callDict { exFrame with locals := exFrame.locals.map fun kv => if kv.1 = c!"args" then (kv.1, .tuple [.int 1]) else kv } [] false [] [] = .error .valueError := rfl

/-! ### C43 -/

/-- What the property says: the first variant that can be imported. -/
def FirstImportable (imp : Str → R Unit) (vs : List Str) (m : Str) : Prop :=
  ∃ l r, vs = l ++ m :: r ∧ imp m = .ok () ∧ ∀ x ∈ l, imp x = .error .importError

/-- What the code does: the last variant that can be imported. -/
def LastImportable (imp : Str → R Unit) (vs : List Str) (m : Str) : Prop :=
  ∃ l r, vs = l ++ m :: r ∧ imp m = .ok () ∧ ∀ x ∈ r, imp x = .error .importError

/-- Variants can be imported or not; importing raises nothing else. -/
def Plain (imp : Str → R Unit) (vs : List Str) : Prop := ∀ x ∈ vs, imp x = .ok () ∨ imp x = .error .importError

theorem tryVariants_spec {imp : Str → R Unit} (vs : List Str) (hp : Plain imp vs) (cur : Option Str) (errs : List Str) :
    ((∀ x ∈ vs, imp x = .error .importError) ∧ tryVariants imp vs cur errs = .ok (cur, errs ++ vs)) ∨
    ∃ m es, LastImportable imp vs m ∧ tryVariants imp vs cur errs = .ok (some m, es) := by
  induction vs generalizing cur errs with
  | nil => exact .inl ⟨by simp, by simp [tryVariants]⟩
  | cons v vs ih =>
    have hp' : Plain imp vs := fun x hx => hp x (by simp [hx])
    rcases hp v (by simp) with h | h
    · rcases ih hp' (some v) errs with ⟨h1, h2⟩ | ⟨m, es, ⟨l, r, e, h1, h2⟩, h3⟩
      · exact .inr ⟨v, _, ⟨[], vs, rfl, h, h1⟩, by simp only [tryVariants, h]; exact h2⟩
      · exact .inr ⟨m, es, ⟨v :: l, r, by rw [e]; rfl, h1, h2⟩, by simp only [tryVariants, h, h3]⟩
    · rcases ih hp' cur (errs ++ [v]) with ⟨h1, h2⟩ | ⟨m, es, ⟨l, r, e, h1, h2⟩, h3⟩
      · refine .inl ⟨?_, by simp only [tryVariants, h, h2]; simp⟩
        intro x hx
        rcases List.mem_cons.1 hx with rfl | hx
        · exact h
        · exact h1 x hx
      · exact .inr ⟨m, es, ⟨v :: l, r, by rw [e]; rfl, h1, h2⟩, by simp only [tryVariants, h, h3]⟩

/-- The modules that are tried. -/
def tried (library : Str) (variants : List Str) : List Str := if variants.isEmpty then [library] else variants

/-- The attributes of the object that stands for a missing library that do not raise ImportError. -/
inductive Bookkeeping : Str → Prop where
  | library : Bookkeeping c!"_library_name"
  | message : Bookkeeping c!"_install_msg"
  | errors : Bookkeeping c!"_errors"
  | variants : Bookkeeping c!"_variants"
  | module : Bookkeeping c!"module"
  | this : Bookkeeping c!"_maybe_import"

theorem bookkeeping_iff (a : Str) : Bookkeeping a ↔ a ∈ lazyAttrs := by
  constructor
  · intro h; cases h <;> decide
  · intro h
    simp only [lazyAttrs, List.mem_cons, List.not_mem_nil, or_false] at h
    rcases h with rfl | rfl | rfl | rfl | rfl | rfl
    · exact .library
    · exact .message
    · exact .errors
    · exact .this
    · exact .module
    · exact .variants

/-- What the object says to do about the missing library: 'conda' and 'pip' stand for their command to install the first module
that was tried; anything else is said as it was given, and nothing if nothing was given. -/
inductive Advice (first : Str) : Option Str → Option Str → Prop where
  | nothing : Advice first none none
  | conda : Advice first (some c!"conda") (some (c!"conda install " ++ first))
  | pip : Advice first (some c!"pip") (some (c!"pip install " ++ first))
  | words (m : Str) : m ≠ c!"conda" → m ≠ c!"pip" → Advice first (some m) (some m)

theorem hint_advice (msg : Option Str) (first : Str) (rest : List Str) : Advice first msg (installHint msg (first :: rest)) := by
  cases msg with
  | none => exact .nothing
  | some m =>
    by_cases h : m = c!"conda"
    · subst h; exact .conda
    · by_cases h' : m = c!"pip"
      · subst h'; exact .pip
      · have : installHint (some m) (first :: rest) = some m := by simp [installHint, h, h']
        rw [this]
        exact .words m h h'

/-- C43, what holds: if nothing can be imported the result is an object that records every failure and raises ImportError on every use; otherwise it is
a variant that can be imported, namely the last one. -/
theorem c43_maybe_import_partial (imp : Str → R Unit) (member : Str → Str → Option Val) (own : Str → Val) (library : Str) (msg : Option Str)
    (variants : List Str) (hp : Plain imp (tried library variants)) :
    ((∀ x ∈ tried library variants, imp x = .error .importError) →
      ∃ l first rest advice, maybeImport imp library msg variants = .ok l ∧ tried library variants = first :: rest ∧ Advice first msg advice ∧
        l = .failed library (tried library variants) advice ∧ ∀ a, ¬ Bookkeeping a → lazyGet member own l a = .error .importError) ∧
    ((∃ x ∈ tried library variants, imp x = .ok ()) →
      ∃ m, maybeImport imp library msg variants = .ok (.module m) ∧ LastImportable imp (tried library variants) m) := by
  have key := tryVariants_spec (tried library variants) hp none []
  have e : maybeImport imp library msg variants = (tryVariants imp (tried library variants) none []).map fun r =>
      match r.1 with | some m => .module m | none => .failed library r.2 (installHint msg (tried library variants)) := rfl
  constructor
  · intro hall
    rcases key with ⟨_, h⟩ | ⟨m, es, ⟨l, r, e', h1, _⟩, h⟩
    · obtain ⟨first, rest, ht⟩ : ∃ first rest, tried library variants = first :: rest := by
        cases variants with
        | nil => exact ⟨library, [], rfl⟩
        | cons v vs => exact ⟨v, vs, rfl⟩
      have ha := hint_advice msg first rest
      rw [← ht] at ha
      refine ⟨_, first, rest, _, by rw [e, h]; rfl, ht, ha, rfl, fun a ha => ?_⟩
      have : a ∉ lazyAttrs := fun hm => ha ((bookkeeping_iff a).2 hm)
      simp [lazyGet, this]
    · have := hall m (by rw [e']; simp)
      rw [h1] at this; cases this
  · rintro ⟨x, hx, hi⟩
    rcases key with ⟨h1, _⟩ | ⟨m, es, hl, h⟩
    · have := h1 x hx
      rw [hi] at this; cases this
    · exact ⟨m, by rw [e, h]; rfl, hl⟩

/-- C43 holds if at most one of the variants can be imported: then the last one is the first one. -/
theorem c43_single_partial (imp : Str → R Unit) (library : Str) (msg : Option Str) (variants : List Str)
    (hp : Plain imp (tried library variants)) (hd : (tried library variants).Nodup)
    (h1 : ∀ x ∈ tried library variants, ∀ y ∈ tried library variants, imp x = .ok () → imp y = .ok () → x = y) (m : Str)
    (h : maybeImport imp library msg variants = .ok (.module m)) : FirstImportable imp (tried library variants) m := by
  have hpart := c43_maybe_import_partial imp (fun _ _ => none) (fun _ => .none) library msg variants hp
  by_cases hex : ∃ x ∈ tried library variants, imp x = .ok ()
  · obtain ⟨m', e, l, r, e', h2, h3⟩ := hpart.2 hex
    rw [h] at e
    cases e
    refine ⟨l, r, e', h2, fun x hx => ?_⟩
    have hxm : x ∈ tried library variants := by rw [e']; simp [hx]
    rcases hp x hxm with ho | ho
    · have := h1 x hxm m (by rw [e']; simp) ho h2
      subst this
      rw [e'] at hd
      rw [List.nodup_append] at hd
      exact absurd rfl (hd.2.2 x hx x (by simp))
    · exact ho
  · obtain ⟨l, _, _, _, e, _, _, hl, _⟩ := hpart.1 fun x hx => (hp x hx).resolve_left fun h => hex ⟨x, hx, h⟩
    rw [h] at e
    cases e
    cases hl

/-- C43 is false of the code: whenever two variants can be imported, the first of them is not returned. -/
theorem c43_not_first (imp : Str → R Unit) (library : Str) (msg : Option Str) (l r : List Str) (v : Str) (hp : Plain imp (l ++ v :: r))
    (hd : (l ++ v :: r).Nodup) (hr : ∃ x ∈ r, imp x = .ok ()) :
    ∃ m, maybeImport imp library msg (l ++ v :: r) = .ok (.module m) ∧ m ≠ v := by
  have ht : tried library (l ++ v :: r) = l ++ v :: r := by simp [tried]
  obtain ⟨x, hx, hi⟩ := hr
  obtain ⟨m, h, l', r', e, h1, h2⟩ := (c43_maybe_import_partial imp (fun _ _ => none) (fun _ => .none) library msg (l ++ v :: r) (by rw [ht]; exact hp)).2
    ⟨x, by rw [ht]; simp [hx], hi⟩
  refine ⟨m, h, fun em => ?_⟩
  subst em
  rw [ht] at e
  rw [List.nodup_append] at hd
  have hm : m ∉ l := fun hml => hd.2.2 m hml m (by simp) rfl
  have hmr : m ∉ r := (List.nodup_cons.1 hd.2.1).1
  have : r = r' := by
    rcases List.append_eq_append_iff.1 e with ⟨c, e1, e2⟩ | ⟨c, e1, e2⟩
    · cases c with
      | nil => simpa using e2
      | cons y c =>
        simp only [List.cons_append, List.cons.injEq] at e2
        exact absurd (by rw [e2.2]; simp) hmr
    · cases c with
      | nil => simpa using e2.symm
      | cons y c =>
        simp only [List.cons_append, List.cons.injEq] at e2
        exact absurd (by rw [e1, e2.1]; simp) hm
  have h3 := h2 x (this ▸ hx)
  rw [hi] at h3; cases h3

/-- C43. An exception other than ImportError while importing a variant is not swallowed. -/
theorem c43_propagates (imp : Str → R Unit) (library : Str) (msg : Option Str) (l r : List Str) (v : Str) (e : Err) (he : e ≠ .importError)
    (hl : Plain imp l) (hv : imp v = .error e) : maybeImport imp library msg (l ++ v :: r) = .error e := by
  have key : ∀ cur errs, tryVariants imp (l ++ v :: r) cur errs = .error e := by
    induction l with
    | nil =>
      intro cur errs
      simp only [List.nil_append, tryVariants, hv]
    | cons x l ih =>
      intro cur errs
      have ih := ih fun y hy => hl y (by simp [hy])
      rcases hl x (by simp) with h | h <;> simp only [List.cons_append, tryVariants, h, ih]
  have ht : (if (l ++ v :: r).isEmpty then [library] else l ++ v :: r) = l ++ v :: r := by simp
  simp only [maybeImport, ht, key]
  rfl

/-- C43. `maybe_import_member` with any variant at all raises TypeError. -/
theorem c43_member_variants (imp : Str → R Unit) (member : Str → Str → Option Val) (own : Str → Val) (fqn : Str) (fail : Bool) (v : Str) (vs : List Str)
    (h : (rpartition fqn '.').1 ≠ []) : maybeImportMember imp member own fqn fail (v :: vs) = .error .typeError := by
  have : (rpartition fqn '.').1.isEmpty = false := by simpa using h
  simp [maybeImportMember, this]

/-- cytoolz and toolz are both there: the second is taken (plugins.py:396). -/
def exImp (v : Str) : R Unit := if v = c!"cytoolz" ∨ v = c!"toolz" then .ok () else .error .importError
example : maybeImport exImp c!"toolz" (some c!"pip") [c!"cytoolz", c!"toolz"] = .ok (.module c!"toolz") ∧
    FirstImportable exImp [c!"cytoolz", c!"toolz"] c!"cytoolz" := ⟨rfl, [], [c!"toolz"], rfl, rfl, by simp⟩
example : maybeImport exImp c!"np" (some c!"conda") [c!"numpy", c!"cupy"] =
    .ok (.failed c!"np" [c!"numpy", c!"cupy"] (some c!"conda install numpy")) := rfl
example : Plain exImp [c!"cytoolz", c!"numpy"] ∧ Plain exImp (tried c!"toolz" []) := by
  constructor <;> intro x _ <;> simp only [exImp] <;> split <;> simp

end Whatami
