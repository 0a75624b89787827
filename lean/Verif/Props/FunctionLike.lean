import Verif.FunctionLike
import Verif.Props.DecoratedObj
import Verif.Props.Calls

/-
C78: obj2what, FunctionLike and call2what.

Specification: `OwnAttributes` on top of Spec/Attr (attribute access), `DefaultFor` of Spec/Call.
-/
namespace Whatami

/-- No underscore in front or at the end. -/
def NoUnderscores (n : Str) : Prop := n.head? ≠ some '_' ∧ n.getLast? ≠ some '_'

/-- All slots and properties of the object can be read. -/
def AllReadable (ob : Inst) : Prop := ∀ n m, ob.Finds n m → IsData m → n ≠ c!"__weakref__" → ∃ v, GetAttr ob n (.ok v)

/-- The own attributes whose names satisfy `P`, each once. -/
def OwnAttributes (ob : Inst) (P : Str → Prop) (conf : Conf) : Prop :=
  UniqueKeys conf ∧ ∀ n v, (n, v) ∈ conf ↔ P n ∧ ob.Own n ∧ GetAttr ob n (.ok v)

/-- The options look at the `__dict__`, the slots and the properties (the default). -/
def LooksAtAll (o : WhatOpts) : Prop := o.addDict = true ∧ o.addSlots = true ∧ o.addProps = true

theorem allReadable_iff {ob : Inst} (hk : ob.Ok) {o : WhatOpts} (h : LooksAtAll o) : (∃ cd, configDictInst o ob = .ok cd) ↔ AllReadable ob := by
  rw [c48_total hk]
  constructor
  · intro ha n m hf hd hn
    refine ha n m hf ⟨hn, ?_⟩
    cases hd with
    | slot c => exact .inl ⟨h.2.1, c, rfl⟩
    | prop r => exact .inr ⟨h.2.2, r, rfl⟩
  · rintro ha n m hf ⟨hn, ⟨-, c, rfl⟩ | ⟨-, r, rfl⟩⟩
    · exact ha n _ hf (.slot c) hn
    · exact ha n _ hf (.prop r) hn

theorem own_attributes {ob : Inst} (hk : ob.Ok) {o : WhatOpts} (h : LooksAtAll o) (hc : o.addClass = false) {cd : Conf} (hcd : configDictInst o ob = .ok cd)
    {p : Str × Val → Bool} {P : Str → Prop} (hp : ∀ kv, p kv = true ↔ P kv.1) : OwnAttributes ob P (cd.filter p) := by
  obtain ⟨u, c⟩ := c48_attributes hk h.1 h.2.1 h.2.2 hcd
  refine ⟨uniqueKeys_filter u _, fun n v => ?_⟩
  rw [List.mem_filter, c, hp]
  simp only [hc, Bool.false_eq_true, false_and, or_false]
  exact and_comm

theorem nameOf_iff {ob : Inst} (hk : ob.Ok) {n : Str} : nameOf ob = .ok n ↔ GetAttr ob c!"__name__" (.ok (.str n)) := by
  rw [← readAttr_iff hk]
  unfold nameOf
  split <;> simp_all

theorem noUnderscores_iff (kv : Str × Val) : (!startsWith kv.1 c!"_" && !endsWith kv.1 c!"_") = true ↔ NoUnderscores kv.1 := by
  obtain ⟨k, v⟩ := kv
  have h1 : startsWith k c!"_" = true ↔ k.head? = some '_' := by
    rw [startsWith, List.isPrefixOf_iff_prefix]
    constructor
    · rintro ⟨t, rfl⟩; rfl
    · intro h
      cases k with
      | nil => cases h
      | cons c r => exact ⟨r, by rw [← Option.some.inj h]; rfl⟩
  have h2 : endsWith k c!"_" = true ↔ k.getLast? = some '_' := by
    rw [endsWith, List.isSuffixOf_iff_suffix, List.getLast?_eq_some_iff]
    exact ⟨fun ⟨t, h⟩ => ⟨t, h.symm⟩, fun ⟨t, h⟩ => ⟨t, h.symm⟩⟩
  simp only [NoUnderscores, Bool.and_eq_true, Bool.not_eq_true', ← Bool.not_eq_true, h1, h2]

/-- C78. `obj2what` of an object with the `what` of FunctionLike: its name and its own attributes without underscores around them, whatever
options and name are given. -/
theorem c78_like {x : Obj} (hk : x.inst.Ok) (hw : GetAttr x.inst c!"what" (.ok likeVal)) {n : Str} (hn : GetAttr x.inst c!"__name__" (.ok (.str n)))
    (ha : AllReadable x.inst) : ∃ w : What, (∀ ov o, obj2whatObj false ov o x = .ok w) ∧ w.name = n ∧ w.nonids = [] ∧ w.out = none ∧
      OwnAttributes x.inst NoUnderscores w.conf := by
  obtain ⟨cd, hcd⟩ := (allReadable_iff hk (o := {}) ⟨rfl, rfl, rfl⟩).2 ha
  refine ⟨{ name := n, conf := cd.filter fun kv => !startsWith kv.1 c!"_" && !endsWith kv.1 c!"_" }, fun ov o => ?_, rfl, rfl, rfl,
    own_attributes hk ⟨rfl, rfl, rfl⟩ rfl hcd noUnderscores_iff⟩
  have : callWhatObj x = .ok { name := n, conf := cd.filter fun kv => !startsWith kv.1 c!"_" && !endsWith kv.1 c!"_" } := by
    unfold callWhatObj
    rw [(readAttr_iff hk).2 hw]
    simp only [likeVal, if_true, functionLikeWhat, hcd, (nameOf_iff hk).2 hn]
  simp [obj2whatObj, this]

theorem inspected_eq {x : Obj} {o : WhatOpts} {ov : Option Str} (hc : x.callable = false) : whatareyouObj o ov x =
    match configDictInst o x.inst with
    | .error e => .error e
    | .ok cd => .ok { name := ov.getD x.inst.cls, conf := trimDict o cd, nonids := o.nonids } := by
  unfold whatareyouObj
  rw [hc]
  cases ov <;> rfl

theorem inspected_ok {x : Obj} (hk : x.inst.Ok) {o : WhatOpts} (h : LooksAtAll o) (hcl : o.addClass = false) (hc : x.callable = false) (ha : AllReadable x.inst)
    (ov : Option Str) : ∃ w : What, whatareyouObj o ov x = .ok w ∧ w.name = ov.getD x.inst.cls ∧ w.nonids = o.nonids ∧ w.out = none ∧
      OwnAttributes x.inst (Public o) w.conf := by
  obtain ⟨cd, hcd⟩ := (allReadable_iff hk h).2 ha
  refine ⟨_, by rw [inspected_eq hc, hcd], rfl, rfl, rfl, ?_⟩
  show OwnAttributes x.inst (Public o) (trimDict o cd)
  exact own_attributes hk h hcl hcd fun kv => by rw [trimKeep_iff]

/-- C78. `obj2what` of an object that `whatable` decorated: what its what() says, with the options of the decoration; those given are ignored. -/
theorem c78_decorated {x : Obj} (hk : x.inst.Ok) (hc : x.callable = false) {o' : WhatOpts} (hw : GetAttr x.inst c!"what" (.ok (methVal o'))) (h : LooksAtAll o')
    (hcl : o'.addClass = false) (ha : AllReadable x.inst) : ∃ w : What, (∀ ov o, obj2whatObj false ov o x = .ok w) ∧ w.name = x.inst.cls ∧
      w.nonids = o'.nonids ∧ w.out = none ∧ OwnAttributes x.inst (Public o') w.conf := by
  obtain ⟨w, h1, h2, h3⟩ := inspected_ok hk h hcl hc ha none
  refine ⟨w, fun ov o => ?_, h2, h3⟩
  have : callWhatObj x = .ok w := by
    unfold callWhatObj
    rw [(readAttr_iff hk).2 hw]
    simp only [methVal, if_true, h1]
  simp [obj2whatObj, this]

theorem obj2what_inspects {x : Obj} (hk : x.inst.Ok) {force : Bool} (hf : force = true ∨ ∀ v, ¬ GetAttr x.inst c!"what" (.ok v)) (ov : Option Str) (o : WhatOpts) :
    obj2whatObj force ov o x = whatareyouObj { o with addClass := false } ov x := by
  rcases hf with rfl | hf
  · simp [obj2whatObj]
  · have : ∃ e, callWhatObj x = .error e := by
      unfold callWhatObj
      cases hr : readAttr x.inst c!"what" with
      | error e => exact ⟨e, rfl⟩
      | ok v => exact absurd ((readAttr_iff hk).1 hr) (hf v)
    obtain ⟨e, he⟩ := this
    simp [obj2whatObj, he]

/-- C78. Of any other object, or if forced: its class or the name given, and its own attributes that are public for the options given. -/
theorem c78_inspects {x : Obj} (hk : x.inst.Ok) (hc : x.callable = false) {force : Bool} (hf : force = true ∨ ∀ v, ¬ GetAttr x.inst c!"what" (.ok v))
    {o : WhatOpts} (h : LooksAtAll o) (ha : AllReadable x.inst) (ov : Option Str) : ∃ w : What, obj2whatObj force ov o x = .ok w ∧
      w.name = ov.getD x.inst.cls ∧ w.nonids = o.nonids ∧ w.out = none ∧ OwnAttributes x.inst (Public o) w.conf := by
  rw [obj2what_inspects hk hf]
  exact inspected_ok hk (o := { o with addClass := false }) h rfl hc ha ov

/-- C78. It raises for such an object exactly if one of its slots or properties cannot be read. -/
theorem c78_raises {x : Obj} (hk : x.inst.Ok) (hc : x.callable = false) {force : Bool} (hf : force = true ∨ ∀ v, ¬ GetAttr x.inst c!"what" (.ok v))
    {o : WhatOpts} (h : LooksAtAll o) (ov : Option Str) : (∃ w, obj2whatObj force ov o x = .ok w) ↔ AllReadable x.inst := by
  constructor
  · rintro ⟨w, hw⟩
    rw [obj2what_inspects hk hf, inspected_eq hc] at hw
    cases hcd : configDictInst { o with addClass := false } x.inst with
    | error e => rw [hcd] at hw; cases hw
    | ok cd => exact (allReadable_iff hk (o := { o with addClass := false }) h).1 ⟨cd, hcd⟩
  · intro ha
    obtain ⟨w, hw, -⟩ := c78_inspects hk hc hf h ha ov
    exact ⟨w, hw⟩

/-- C78. A callable object, inspected: its `__name__` and nothing else, so that objects of one class are not told apart; without `__name__` it
raises AttributeError. -/
theorem c78_callable {x : Obj} (hk : x.inst.Ok) (hc : x.callable = true) {force : Bool} (hf : force = true ∨ ∀ v, ¬ GetAttr x.inst c!"what" (.ok v))
    (ov : Option Str) (o : WhatOpts) :
    (∀ n, GetAttr x.inst c!"__name__" (.ok (.str n)) → obj2whatObj force ov o x = .ok { name := ov.getD n, conf := [], nonids := o.nonids }) ∧
    (GetAttr x.inst c!"__name__" (.error .attributeError) → obj2whatObj force ov o x = .error .attributeError) := by
  rw [obj2what_inspects hk hf]
  constructor
  · intro n hn
    unfold whatareyouObj
    rw [hc, (nameOf_iff hk).2 hn]
    cases ov <;> rfl
  · intro hn
    have : nameOf x.inst = .error .attributeError := by
      unfold nameOf
      rw [(readAttr_iff hk).2 hn]
    unfold whatareyouObj
    rw [hc, this]
    rfl

/-- C78. Mixing FunctionLike in gives an object the `what` and `__name__` of `c78_like`, unless the class or a base before it (or, for `what`, the
object) has others; the name is that of the class. -/
theorem c78_mixin {ob : Inst} {before after : List (List (Str × Member))} (hm : ob.mro = before ++ likeClass ob.cls :: after)
    (hn : ∀ d ∈ before, ∀ m, (c!"__name__", m) ∉ d ∧ (c!"what", m) ∉ d) (hd : ∀ v, ¬ ob.InDict c!"what" v) :
    GetAttr ob c!"what" (.ok likeVal) ∧ GetAttr ob c!"__name__" (.ok (.str ob.cls)) := by
  refine ⟨.meth (c := .builtin c!"what") hd ⟨before, _, after, hm, fun d h m => (hn d h m).2, by simp [likeClass]⟩,
    .prop ⟨before, _, after, hm, fun d h m => (hn d h m).1, by simp [likeClass]⟩⟩

/-- C78. `obj2what` of a function: its name (`<lambda>` as `lambda`) or the one given, and the defaults of its parameters but for the excluded ones. -/
theorem c78_function {n : Str} {args : List Str} {ds : List Val} (hs : Signature args ds) (force : Bool) (ov : Option Str) (o : WhatOpts) :
    ∃ w : What, obj2what force ov o (.func n args ds) = .ok w ∧ w.name = ov.getD (n.filter fun c => !(c == '<') && !(c == '>')) ∧
      w.nonids = o.nonids ∧ w.out = none ∧ UniqueKeys w.conf ∧ ∀ k v, (k, v) ∈ w.conf ↔ DefaultFor args ds k v ∧ Public o k := by
  have hfit : Fits args (allPos []) (allKw []) := ⟨by simp [allPos], fun k v h => by simp [allKw] at h⟩
  obtain ⟨m, d, hd⟩ := (c27_partials_iff (n := n) hs [] (by simp)).2 ⟨hfit, by rintro k u x ⟨i, -, h⟩; simp [allPos] at h⟩
  obtain ⟨h1, -, h2, h3⟩ := c27_partials hs [] (by simp) hd
  have hd' : callable2call (.func n args ds) [] [] = .ok (m, d) := hd
  have hw : obj2what force ov o (.func n args ds) = whatareyou o (.func n args ds) ov := by
    simp [obj2what, isWhatable, whatMethod]
  refine ⟨_, by rw [hw, whatareyou, hd'], ?_, rfl, rfl, uniqueKeys_filter h2 _, fun k v => ?_⟩
  · rw [← h1]; cases ov <;> rfl
  · show (k, v) ∈ trimDict o d ↔ _
    rw [(c25_exact o d).1, ← dget_mem_iff h2, h3]
    refine and_congr_left fun _ => ⟨?_, fun h => .inr ⟨?_, .inr ⟨rfl, h⟩⟩⟩
    · rintro (⟨i, -, h⟩ | ⟨-, h | h⟩)
      · simp [allPos] at h
      · simp [allKw] at h
      · exact h.2
    · rintro ⟨u, i, -, h⟩; simp [allPos] at h

theorem call2what_eq {own : Str × Conf} {stack : List (Str × Conf)} {depth : Int} {nonids : List Str} {w : What} :
    call2what own stack depth nonids = .ok w ↔ ∃ (i : Nat) (f : Str × Conf), (own :: stack)[i]? = some f ∧
      (depth = i ∨ depth = (i : Int) - (own :: stack).length) ∧ w = { name := f.1, conf := f.2, nonids := nonids } := by
  simp only [call2what]
  constructor
  · intro h
    generalize hj : (if depth < 0 then depth + ((own :: stack).length : Int) else depth) = j at h
    by_cases h0 : j < 0
    · rw [if_pos h0] at h; cases h
    rw [if_neg h0] at h
    split at h
    · cases h
    · rename_i name locs he
      cases h
      refine ⟨_, _, he, ?_, rfl⟩
      split at hj <;> omega
  · rintro ⟨i, f, hf, hi, rfl⟩
    obtain ⟨hl, -⟩ := List.getElem?_eq_some_iff.1 hf
    have e : (if depth < 0 then depth + ((own :: stack).length : Int) else depth) = i := by
      split <;> omega
    rw [e, if_neg (by omega), Int.toNat_natCast, hf]

/-- C78. `call2what`: the function at that depth of the stack (1 is the caller, -1 the outermost frame) with its local variables. -/
theorem c78_call {own : Str × Conf} {stack : List (Str × Conf)} {depth : Int} {nonids : List Str} {w : What} :
    call2what own stack depth nonids = .ok w ↔ w.nonids = nonids ∧ w.out = none ∧
      ((∃ i : Nat, depth = i + 1 ∧ stack[i]? = some (w.name, w.conf)) ∨ (depth = 0 ∧ own = (w.name, w.conf)) ∨
        ∃ inner outer, own :: stack = inner ++ (w.name, w.conf) :: outer ∧ depth = -(outer.length + 1 : Int)) := by
  obtain ⟨n, c, nk, out⟩ := w
  rw [call2what_eq]
  constructor
  · rintro ⟨i, f, hf, hi, hw⟩
    cases hw
    refine ⟨rfl, rfl, ?_⟩
    rcases hi with hi | hi
    · cases i with
      | zero => exact .inr (.inl ⟨hi, by simpa using hf⟩)
      | succ i => exact .inl ⟨i, by omega, by simpa using hf⟩
    · refine .inr (.inr ?_)
      obtain ⟨hl, he⟩ := List.getElem?_eq_some_iff.1 hf
      refine ⟨(own :: stack).take i, (own :: stack).drop (i + 1), ?_, ?_⟩
      · rw [show ((f.1, f.2) : Str × Conf) = (own :: stack)[i] from he.symm, List.getElem_cons_drop, List.take_append_drop]
      · rw [List.length_drop]; simp only [List.length_cons] at hl hi ⊢; omega
  · rintro ⟨h1, h2, h⟩
    simp only at h1 h2 h
    subst h1 h2
    rcases h with ⟨i, hd, hi⟩ | ⟨hd, ho⟩ | ⟨inner, outer, he, hd⟩
    · exact ⟨i + 1, (n, c), by simpa using hi, .inl (by omega), rfl⟩
    · exact ⟨0, (n, c), by simp [ho], .inl hd, rfl⟩
    · refine ⟨inner.length, (n, c), by rw [he]; simp, .inr ?_, rfl⟩
      rw [he]; simp; omega

/-- C78. It raises IndexError if the stack is not that deep. -/
theorem c78_call_raises {own : Str × Conf} {stack : List (Str × Conf)} {depth : Int} {nonids : List Str} :
    call2what own stack depth nonids = .error .indexError ↔ (stack.length : Int) < depth ∨ depth < -(stack.length + 1 : Int) := by
  have key : call2what own stack depth nonids = .error .indexError ↔ ¬ ∃ w, call2what own stack depth nonids = .ok w := by
    constructor
    · rintro h ⟨w, hw⟩; rw [h] at hw; cases hw
    · intro h
      cases hc : call2what own stack depth nonids with
      | ok w => exact absurd ⟨w, hc⟩ h
      | error e =>
        simp only [call2what] at hc
        generalize (if depth < 0 then depth + ((own :: stack).length : Int) else depth) = j at hc
        by_cases h0 : j < 0
        · rw [if_pos h0] at hc; exact hc.symm
        rw [if_neg h0] at hc
        split at hc
        · exact hc.symm
        · cases hc
  rw [key]
  constructor
  · intro h
    by_cases h1 : (stack.length : Int) < depth
    · exact .inl h1
    by_cases h2 : depth < -(stack.length + 1 : Int)
    · exact .inr h2
    exfalso
    apply h
    by_cases h3 : depth < 0
    · have hl : (depth + (stack.length + 1)).toNat < (own :: stack).length := by simp; omega
      exact ⟨_, call2what_eq.2 ⟨_, _, List.getElem?_eq_getElem hl, .inr (by simp; omega), rfl⟩⟩
    · have hl : depth.toNat < (own :: stack).length := by simp; omega
      exact ⟨_, call2what_eq.2 ⟨_, _, List.getElem?_eq_getElem hl, .inl (by omega), rfl⟩⟩
  · rintro h ⟨w, hw⟩
    obtain ⟨i, f, hf, hi, -⟩ := call2what_eq.1 hw
    obtain ⟨hl, -⟩ := List.getElem?_eq_some_iff.1 hf
    simp only [List.length_cons] at hl hi
    omega

/-! `B(1, 'b')` of the tests (test_whatutils.py:65-77), with a private attribute more. -/
def exLike : Obj where
  inst := { cls := c!"B", mro := [[(c!"__call__", .meth .none .none)], likeClass c!"B"], dict := some [(c!"a", .int 1), (c!"b", .str c!"b"), (c!"_c", .none)] }
  callable := true
theorem exLike_ok : exLike.inst.Ok where
  uniq := by simp only [exLike]; decide
  dict := by intro d hd; cases hd; decide
  weakref := by rintro v ⟨d, hd, h⟩; cases hd; revert h; simp
example : obj2whatObj false none {} exLike = .ok { name := c!"B", conf := [(c!"a", .int 1), (c!"b", .str c!"b")] } := rfl
example : GetAttr exLike.inst c!"what" (.ok likeVal) ∧ GetAttr exLike.inst c!"__name__" (.ok (.str c!"B")) :=
  c78_mixin (before := [[(c!"__call__", .meth .none .none)]]) (after := []) rfl (by simp) (by rintro v ⟨d, hd, h⟩; cases hd; revert h; simp)
example : AllReadable exLike.inst := (allReadable_iff exLike_ok (o := {}) ⟨rfl, rfl, rfl⟩).1 ⟨_, rfl⟩
/-- Forced, nothing of it is left. -/
example : obj2whatObj true none {} exLike = .ok { name := c!"B", conf := [] } := rfl
example : obj2whatObj false (some c!"X") { excludes := [c!"p"] } ⟨exInst, false⟩ =
    .ok { name := c!"X", conf := [(c!"c", .int 5), (c!"s", .int 3), (c!"q", .int 2)] } := rfl
example : (∀ v, ¬ GetAttr exInst c!"what" (.ok v)) ∧ AllReadable exInst :=
  ⟨fun v h => by (rw [← readAttr_iff exInst_ok] at h; cases h), (allReadable_iff exInst_ok (o := {}) ⟨rfl, rfl, rfl⟩).1 ⟨_, rfl⟩⟩
/-- The example of the documentation (whatutils.py:130-131). -/
example : obj2what false none { excludes := [c!"parser"] } (.func c!"parse_whatid" [c!"whatid", c!"parser", c!"visitor"] [.none, .none]) =
    .ok { name := c!"parse_whatid", conf := [(c!"visitor", .none)] } := rfl
example : Signature [c!"whatid", c!"parser", c!"visitor"] [Val.none, .none] := ⟨by decide, by decide⟩
/-- A recursive function called from the module. -/
def exStack : List (Str × Conf) := [(c!"f", [(c!"x", .int 1)]), (c!"f", [(c!"x", .int 2)]), (c!"<module>", [])]
example : call2what (c!"call2what", []) exStack 1 [c!"y"] = .ok { name := c!"f", conf := [(c!"x", .int 1)], nonids := [c!"y"] } ∧
    call2what (c!"call2what", []) exStack (-2) [] = .ok { name := c!"f", conf := [(c!"x", .int 2)] } ∧
    call2what (c!"call2what", []) exStack 4 [] = .error .indexError := ⟨rfl, rfl, rfl⟩

end Whatami
