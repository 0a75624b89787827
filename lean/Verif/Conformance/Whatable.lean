import Verif.Conformance.Plugins
import Verif.DeepPlugin

/-
The tests of whatami/tests/test_whatable.py, run on the model, except those of pickling and those marked xfail.  These are tests of the model, not proofs of properties.
-/
set_option maxRecDepth 20000

namespace Whatami.Conformance

/-- `whatable(obj)`, then `whatable(again(..))`. -/
def idTwice (f : Fn) (again : Fn → Fn) : R Str := (whatableFn none [] false f).bind fun g => decoratedId (again g)
-- 12-27
example : decoratedId (function c!"normalize" [c!"x", c!"loc", c!"scale"] [.int 5, .int 3]) = .ok c!"normalize(loc=5,scale=3)" := by rfl
example : ((whatableFn none [] false (function c!"normalize" [c!"x", c!"loc", c!"scale"] [.int 5, .int 3])).map Fn.name?) = .ok (some c!"normalize") := by rfl
example : idTwice (function c!"normalize" [c!"x", c!"loc", c!"scale"] [.int 5, .int 3]) (fun g => .part true g [] [(c!"loc", .int 6)] none) = .ok c!"normalize(loc=6,scale=3)" := by rfl
example (f : Fn) : (Fn.part true f [] [(c!"loc", .int 6)] none).isWhatable = false := by rfl
-- 30-39
example : (whatOf c1).map (fun w => w.name) = .ok c!"C1" := by rfl
example : (whatOf c1).map (fun w => w.conf.length) = .ok 3 := by rfl
example : idOf c1 = .ok c!"C1(length=1,p1='blah',p2='bleh')" := by rfl
-- 42-54
example : (whatOf c2).map (fun w => w.conf.length) = .ok 2 := by rfl
example : idOf c2 = .ok c!"C2(c1=C1(length=1,p1='blah',p2='bleh'),name='roxanne')" := by rfl
example : ((whatOf c1).bind fun w => idOf (whatableOf c!"C2" [(c!"name", .str c!"roxanne"), (c!"c1", w.toVal)])) =
    .ok c!"C2(c1=C1(length=1,p1='blah',p2='bleh'),name='roxanne')" := by rfl
-- 57-65
example : idOf (c1With (.part true (.func c!"identity" [c!"x"] []) [] [(c!"x", .int 1)])) = .ok c!"C1(length=1,p1=identity(x=1),p2='bleh')" := by rfl

/-- Line 70. -/
def f0 : Val := .func c!"f0" [c!"x", c!"y", c!"z"] [.int 3, .int 12]
/-- Line 70. -/
def f0Fn : Fn := function c!"f0" [c!"x", c!"y", c!"z"] [.int 3, .int 12]
/-- `partial(f0, x=v)`. -/
def p0 (v : Val) : Val := .part true f0 [] [(c!"x", v)]
/-- `partial(f0, x=v)`. -/
def p0Fn (v : Val) : Fn := .part true f0Fn [] [(c!"x", v)] none
-- 68-92
example : w2i f0 = .ok (some c!"f0(y=3,z=12)") := by rfl
example : decoratedId f0Fn = .ok c!"f0(y=3,z=12)" := by rfl
example : w2i (p0 (.func c!"<lambda>" [c!"x"] [])) = .ok (some c!"f0(x=lambda(),y=3,z=12)") := by rfl
example : decoratedId (p0Fn (.func c!"<lambda>" [c!"x"] [])) = .ok c!"f0(x=lambda(),y=3,z=12)" := by rfl
example : w2i (p0 (p0 (.int 2))) = .ok (some c!"f0(x=f0(x=2,y=3,z=12),y=3,z=12)") := by rfl
example : decoratedId (p0Fn (p0 (.int 2))) = .ok c!"f0(x=f0(x=2,y=3,z=12),y=3,z=12)" := by rfl
example : w2i (p0 (p0 (p0 .none))) = .ok (some c!"f0(x=f0(x=f0(x=None,y=3,z=12),y=3,z=12),y=3,z=12)") := by rfl
example : decoratedId (p0Fn (p0 (p0 .none))) = .ok c!"f0(x=f0(x=f0(x=None,y=3,z=12),y=3,z=12),y=3,z=12)" := by rfl
-- 95-101
example : idOf (c1With (.builtin c!"sorted")) = .error .exception := by rfl

/-- Line 107: an object, whatable with the given options or not. -/
def randomClass (wh : Option WhatOpts) : Val := .obj c!"RandomClass" false [] [(c!"param", .str c!"yes")] [] [] wh c!"<RandomClass object at 0x7f>"
-- 104-122
example : idOf (c1With (randomClass none)) = .ok c!"C1(length=1,p1=RandomClass(),p2='bleh')" := by rfl
example : ((whatOf (c1With (randomClass none))).bind fun w => idStr (buildDeepN 10) w false) =
    .ok c!"C1(length=1,p1=RandomClass(param='yes'),p2='bleh')" := by rfl
example : idOf (c1With (randomClass (some {}))) = .ok c!"C1(length=1,p1=RandomClass(param='yes'),p2='bleh')" := by rfl
-- 125-138: a method `what` that calls `whatareyou` is one of the options of `whatable`
example : isWhatable (.wcls c!"A") = true := by rfl
example : isWhatable (whatableOf c!"A" [(c!"a", .int 3)]) = true := by rfl
example : idOf (whatableOf c!"A" [(c!"a", .int 3)]) = .ok c!"A(a=3)" := by rfl

/-- An object of a class without a base (`inspect.getmembers` finds no descriptors of `object` but `__class__`, which is no matter here). -/
def instOf (cls : Str) (mro : List (List (Str × Member))) (d : Option Conf) : Inst := ⟨cls, mro, d⟩
/-- `What(cls, trim_dict(config_dict_for_object(self)))`, then `id()`. -/
def inspectedId (o : WhatOpts) (ob : Inst) : R Str := (reportInst o ob).bind idD
-- 141-162
example : inspectedId {} (instOf c!"ClassWithProps" [[(c!"prop", .prop (.ok (.int 3)))]] (some [(c!"_prop", .int 3)])) = .ok c!"ClassWithProps(prop=3)" := by rfl
example : inspectedId {} (instOf c!"ClassWithProps" [[(c!"prop", .prop (.ok (.int 3)))]] (some [(c!"_prop", .int 3), (c!"dprop", .property)])) = .error .exception := by rfl

/-- `@whatable` on the `i`-th of the classes, then `what().id()`. -/
def classDecoratedId (o : WhatOpts) (ob : Inst) (i : Nat) : R Str := (callWhat (decorateClass o ob i)).bind idD
/-- Lines 167-170. -/
def nsC : List (Str × Member) := [(c!"x", .plain (.int 1)), (c!"y", .plain (.int 33))]
/-- Lines 172-173. -/
def nsD : List (Str × Member) := [(c!"z", .plain (.str c!"z"))]
/-- Lines 175-176. -/
def nsE : List (Str × Member) := [(c!"x", .plain (.str c!"x"))]
-- 165-182
example : classDecoratedId { addClass := true } (instOf c!"C" [nsC] (some [])) 0 = .ok c!"C(x=1,y=33)" := by rfl
example : classDecoratedId { addClass := true } (instOf c!"C" [nsC] (some [(c!"y", .str c!"y")])) 0 = .ok c!"C(x=1,y='y')" := by rfl
example : classDecoratedId { addClass := true } (instOf c!"D" [nsD, nsC] (some [])) 1 = .ok c!"D(x=1,y=33,z='z')" := by rfl
example : classDecoratedId { addClass := true } (instOf c!"E" [nsE, nsD, nsC] (some [])) 2 = .ok c!"E(x='x',y=33,z='z')" := by rfl
-- 185-187
example : isWhatable c1 = true := by rfl
example : isWhatable (.cls c!"str") = false := by rfl
/-- Line 192. -/
def whatfunc : Nat → Fn → R (Option What) := fun _ g =>
  match g.name? with
  | some n => .ok (some ⟨c!"custom", [(c!"n_trees", .none), (c!"original", .str n)], [], none⟩)
  | none => .error .attributeError
-- 190-199
example : decoratedId (function c!"rfc" [c!"n_trees"] [.int 30]) = .ok c!"rfc(n_trees=30)" := by rfl
example : ((whatableFn (some 0) [] false (function c!"rfc" [c!"n_trees"] [.int 30])).bind fun g =>
    match g.callWhat whatfunc with
    | some (.ok (some w)) => idD w
    | _ => .error .exception) = .ok c!"custom(n_trees=None,original='rfc')" := by rfl
-- 216-226
example : classDecoratedId {} (instOf c!"Slots" [[(c!"prop", .slot (some (.int 3)))]] none) 0 = .ok c!"Slots(prop=3)" := by rfl
-- 229-244
example : classDecoratedId {} (instOf c!"Sub" [[], []] (some [(c!"a", .str c!"subA"), (c!"b", .str c!"superB"), (c!"c", .str c!"subC")])) 1 =
    .ok c!"Sub(a='subA',b='superB',c='subC')" := by rfl

/-- C1 with an attribute `what`. -/
def c1Spoilt : Inst := decorateClass {} (instOf c!"C1" [[]] (some [(c!"p1", .str c!"blah"), (c!"what", .int 33)])) 0
-- 247-253
example : isWhatableInst c1Spoilt = false := by rfl
example : whatableObj {} c1Spoilt = .error .exception := by rfl

/-- Lines 256-303. -/
def s3 : Inst := instOf c!"S3" [[(c!"s3", .slot (some (.int 6)))], [(c!"p1", .prop (.ok (.int 5)))], [], [(c!"s2", .slot (some (.int 3)))], [(c!"s1", .slot (some (.int 2)))], []]
  (some [(c!"d1", .int 1), (c!"d2", .int 4)])
/-- The decorations, one after the other, and what the last of them shows. -/
def tortured : List WhatOpts → Inst → R Str
  | [], ob => (callWhat ob).bind idD
  | o :: os, ob => (whatableObj o ob).bind (tortured os)
/-- The options. -/
def opts (d s p : Bool) : WhatOpts := { addDict := d, addSlots := s, addProps := p }
-- 305-327
example : tortured [opts true true true] s3 = .ok c!"S3(d1=1,d2=4,p1=5,s1=2,s2=3,s3=6)" := by rfl
example : tortured [opts true true true, opts true true false] s3 = .ok c!"S3(d1=1,d2=4,s1=2,s2=3,s3=6)" := by rfl
example : tortured [opts true true false, opts true false true] s3 = .ok c!"S3(d1=1,d2=4,p1=5)" := by rfl
example : tortured [opts true false true, opts true false false] s3 = .ok c!"S3(d1=1,d2=4)" := by rfl
example : tortured [opts true false false, opts false false false] s3 = .ok c!"S3()" := by rfl
example : tortured [opts false false false, opts false true false] s3 = .ok c!"S3(s1=2,s2=3,s3=6)" := by rfl
example : tortured [opts false true false, opts false false true] s3 = .ok c!"S3(p1=5)" := by rfl
example : tortured [opts false false true, opts false true true] s3 = .ok c!"S3(p1=5,s1=2,s2=3,s3=6)" := by rfl
-- 330-345
example : idOf (.duck c!"DuckedWhatable" [(c!"param1", .int 33)] [] none) = .ok c!"DuckedWhatable(param1=33)" := by rfl
example : idOf (whatableOf c!"NestedDuckedWhatable" [(c!"ducked", .duck c!"DuckedWhatable" [(c!"param1", .int 33)] [] none)]) =
    .ok c!"NestedDuckedWhatable(ducked=DuckedWhatable(param1=33))" := by rfl
-- 358-370: an object whose `what()` gives a string is like one without
example : ((whatareyou {} (whatableOf c!"Fool" [(c!"faker", .obj c!"Faker" false [] [] [] [] none c!"<Faker object at 0x7f>")])).bind idD) = .ok c!"Fool(faker=Faker())" := by rfl
-- 421-431
example : decoratedId (function c!"afunc" [c!"x"] [.int 3]) true = .ok c!"afunc(x=3)" := by rfl

/-- `whatareyou(x).id()`. -/
def youId (v : Val) : R Str := (whatareyou {} v).bind idD
-- 436-448
example : youId (.list [.int 1, .int 2, .str c!"3"]) = .ok c!"list(seq=[1,2,'3'])" := by rfl
example : youId (.tuple [.int 1, .int 2, .str c!"3"]) = .ok c!"tuple(seq=(1,2,'3'))" := by rfl
example : youId (.set [.int 1, .int 2, .str c!"3"]) = .ok c!"set(seq={'3',1,2})" := by rfl
example : youId (.dict [(.int 1, .str c!"one"), (.int 2, .str c!"two"), (.str c!"3", .str c!"three")]) = .ok c!"dict(seq={'3':'three',1:'one',2:'two'})" := by rfl
-- 451-478
example : youId (.ddict c!"defaultdict" [(c!"default_factory", .numtype c!"int")] []) = .ok c!"defaultdict(default_factory=int(),seq={})" := by rfl
example : youId (.ddict c!"defaultdict" [(c!"default_factory", .numtype c!"int")] [(.int 0, .int 2)]) = .ok c!"defaultdict(default_factory=int(),seq={0:2})" := by rfl
example : youId (.sub .tuple c!"TD" [(c!"a", .int 123)] [.int 1, .int 2]) = .ok c!"TD(a=123,seq=(1,2))" := by rfl
example : youId (.sub .list c!"LD" [(c!"a", .int 123)] [.int 1, .int 2]) = .ok c!"LD(a=123,seq=[1,2])" := by rfl

end Whatami.Conformance
