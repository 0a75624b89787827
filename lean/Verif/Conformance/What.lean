import Verif.WhatOps
import Verif.Utils
import Verif.Repr
import Verif.Conformance.Parsers

/-
The tests of whatami/tests/test_what.py, run on the model.  These are tests of the model, not proofs of properties.
-/
set_option maxRecDepth 10000

namespace Whatami.Conformance

/-- An object with the given `__dict__` of a class decorated with `@whatable`. -/
def whatableOf (cls : Str) (d : Conf) (o : WhatOpts := {}) : Val := .obj cls false [] d [] [] (some o) c!"<object>"

/-- tests/fixtures.py:8-20, with the attribute p1. -/
def c1With (p1 : Val) : Val := whatableOf c!"C1" [(c!"p1", p1), (c!"p2", .str c!"bleh"), (c!"length", .int 1), (c!"_p1p2", .str c!"blahbleh"), (c!"p2p1_", .str c!"blehblah")]
/-- tests/fixtures.py:8-20. -/
def c1 : Val := c1With (.str c!"blah")
/-- tests/fixtures.py:23-32. -/
def c2 : Val := whatableOf c!"C2" [(c!"name", .str c!"roxanne"), (c!"c1", c1)]
/-- tests/fixtures.py:35-49. -/
def c3 : Val := whatableOf c!"C3" [(c!"c1", c1), (c!"c2", c2), (c!"irrelevant", .bool true)] { nonids := [c!"irrelevant"] }

/-- `v.what()`. -/
def whatOf (v : Val) : R What := (whatMethod v).getD (.error .attributeError)
/-- `v.what().id()`, and `str(v.what())` with `nonidsToo`. -/
def idOf (v : Val) (nonidsToo : Bool := false) : R Str := (whatOf v).bind fun w => idStr buildD w nonidsToo
/-- `what2id(v)` for an object without a method `id`. -/
def w2i (v : Val) : R (Option Str) := what2id buildD (fun _ => none) v

-- 17-31
example : idStr buildD ⟨c!"tc", [(c!"p1", .int 1), (c!"p2", .int 2), (c!"p3", .int 3), (c!"verbose", .bool true), (c!"n_jobs", .none)], [c!"verbose", c!"n_jobs"], none⟩ false =
    .ok c!"tc(p1=1,p2=2,p3=3)" := by rfl
example : idStr buildD ⟨c!"tc", [(c!"p1", .int 1), (c!"p2", .int 2), (c!"p3", .int 3), (c!"verbose", .bool true), (c!"n_jobs", .none)], [c!"verbose", c!"n_jobs"], none⟩ true =
    .ok c!"tc(n_jobs=None,p1=1,p2=2,p3=3,verbose=True)" := by rfl
-- 34-38
example : w2i .none = .ok none := by rfl
example : w2i (.str c!"Myself") = .ok (some c!"Myself") := by rfl
example : w2i (.numtype c!"int") = .ok (some c!"int()") := by rfl
example : w2i (.what c!"me" [(c!"x", .int 1)] [] (some c!"you")) = .ok (some c!"you=me(x=1)") := by rfl

/-- Lines 44-51. -/
def c3id : Str := c!"C3(c1=C1(length=1,p1='blah',p2='bleh'),c2=C2(c1=C1(length=1,p1='blah',p2='bleh'),name='roxanne'))"
-- 41-55
example : idOf c3 = .ok c3id := by rfl
example : idOf c3 true = .ok c!"C3(c1=C1(length=1,p1='blah',p2='bleh'),c2=C2(c1=C1(length=1,p1='blah',p2='bleh'),name='roxanne'),irrelevant=True)" := by rfl
example (sha1 : Str → Str) : ((whatOf c3).bind fun w => whatId sha1 buildD w false 1) = .ok (sha1 c3id) := by rfl
-- 58-62
example : idOf c1 true = .ok c!"C1(length=1,p1='blah',p2='bleh')" := by rfl
example : idOf c2 true = .ok c!"C2(c1=C1(length=1,p1='blah',p2='bleh'),name='roxanne')" := by rfl
-- 65-73
example : ((whatOf c1).map fun w => w.repr fun _ => true) =
    .ok c!"What('C1', {'p1': 'blah', 'p2': 'bleh', 'length': 1}, set(), None)" := by rfl

/-- `v.what()[path]`. -/
def item (v : Val) (path : Val) : R Val := (whatOf v).bind fun w => getItem env.fi path w.conf
/-- `v.what().get(path, default)`. -/
def getD (v : Val) (path : Val) (default : Val := .none) : R Val := (whatOf v).bind fun w => whatGet env.fi w path default
-- 77-87
example : item c1 (.str c!"length") = .ok (.int 1) := by rfl
example : item c1 (.str c!"p1") = .ok (.str c!"blah") := by rfl
example : item c2 (.tuple [.str c!"c1", .str c!"p1"]) = .ok (.str c!"blah") := by rfl
example : item c3 (.tuple [.str c!"c2", .str c!"c1", .str c!"p1"]) = .ok (.str c!"blah") := by rfl
example : item c1 (.str c!"not_there") = .error .keyError := by rfl
example : getD c3 (.tuple [.str c!"c2", .str c!"c1", .str c!"p1"]) = .ok (.str c!"blah") := by rfl
example : getD c3 (.str c!"not_there") = .ok .none := by rfl
example : getD c3 (.str c!"not_there") (.str c!"good") = .ok (.str c!"good") := by rfl
-- 90-99 (equality of the nested objects is identity, which is not modelled)
example : ((whatOf c1).map fun w => pyEq env.fi false w.toVal w.toVal) = .ok true := by rfl
example : ((whatOf c1).bind fun w => (whatOf c2).map fun w' => pyEq env.fi false w.toVal w'.toVal) = .ok false := by rfl
example : ((whatOf c1).bind fun w => (whatOf c3).map fun w' => pyEq env.fi false w.toVal w'.toVal) = .ok false := by rfl
example : ((whatOf c2).bind fun w => (whatOf c1).map fun w' => pyEq env.fi false w.toVal w'.toVal) = .ok false := by rfl
example : ((whatOf c2).bind fun w => (whatOf c3).map fun w' => pyEq env.fi false w.toVal w'.toVal) = .ok false := by rfl
example : ((whatOf c3).bind fun w => (whatOf c2).map fun w' => pyEq env.fi false w.toVal w'.toVal) = .ok false := by rfl
-- 102-109
example : idOf (c1With (.func c!"identity" [c!"x"] [])) = .ok c!"C1(length=1,p1=identity(),p2='bleh')" := by rfl
-- 112-120
example : idOf (whatableOf c!"WhatableWithList" [(c!"list", .list [c1, .str c!"second"])]) = .ok c!"WhatableWithList(list=[C1(length=1,p1='blah',p2='bleh'),'second'])" := by rfl
example : idOf (whatableOf c!"WhatableWithList" [(c!"list", .list [])]) = .ok c!"WhatableWithList(list=[])" := by rfl
-- 123-135
example : idD ⟨c!"A", [(c!"b", .str c!"C(d='hey')")], [], none⟩ = .ok c!"A(b='C(d=\\'hey\\')')" := by rfl
example : idD ⟨c!"A", [(c!"b", .str c!"C(d=\\'hey\\')")], [], none⟩ = .ok c!"A(b='C(d=\\'hey\\')')" := by rfl
example : idD ⟨c!"A", [(c!"b", .str c!"C(d=\\'\\they\\')")], [], none⟩ = .ok c!"A(b='C(d=\\'\\they\\')')" := by rfl

/-- Lines 138-160. -/
def tom (out : Option Str) : What := ⟨c!"tom", [(c!"a", .int 3), (c!"b", .str c!"z"), (c!"c", .float c!"3.14")], [c!"b"], out⟩
/-- No dict is sorted in these tests. -/
def noSort : SortItems := fun _ => .error .typeError
-- 138-141
example : whatKeys noSort {} (tom none) = .ok [.str c!"a", .str c!"c"] := by rfl
example : whatKeys noSort { nonIdsToo := true } (tom none) = .ok [.str c!"a", .str c!"b", .str c!"c"] := by rfl
-- 144-147
example : whatValues noSort {} (tom none) = .ok [.int 3, .float c!"3.14"] := by rfl
example : whatValues noSort { nonIdsToo := true } (tom none) = .ok [.int 3, .str c!"z", .float c!"3.14"] := by rfl
-- 150-156
example : positionalStr noSort buildD (tom (some c!"jerry")) false = .ok c!"jerry=tom(3,3.14)" := by rfl
example : positionalStr noSort buildD (tom (some c!"jerry")) true = .ok c!"jerry=tom(3,'z',3.14)" := by rfl
example : positionalStr noSort buildD (tom none) false = .ok c!"tom(3,3.14)" := by rfl
example : positionalStr noSort buildD (tom none) true = .ok c!"tom(3,'z',3.14)" := by rfl
-- 159-167
example : idOf (whatableOf c!"WhatableWithTuple" [(c!"tuple", .tuple [.str c!"first", c1])]) = .ok c!"WhatableWithTuple(tuple=('first',C1(length=1,p1='blah',p2='bleh')))" := by rfl
example : idOf (whatableOf c!"WhatableWithTuple" [(c!"tuple", .tuple [])]) = .ok c!"WhatableWithTuple(tuple=())" := by rfl
-- 170-178
example : idOf (whatableOf c!"WhatableWithDict" [(c!"dict", .dict [(.str c!"c1", c1), (.str c!"two", .int 2)])]) =
    .ok c!"WhatableWithDict(dict={'c1':C1(length=1,p1='blah',p2='bleh'),'two':2})" := by rfl
example : idOf (whatableOf c!"WhatableWithDict" [(c!"dict", .dict [])]) = .ok c!"WhatableWithDict(dict={})" := by rfl
-- 181-190
example : idOf (whatableOf c!"WhatableWithSet" [(c!"set", .set [c1, .int 2])]) = .ok c!"WhatableWithSet(set={2,C1(length=1,p1='blah',p2='bleh')})" := by rfl
example : idOf (whatableOf c!"WhatableWithSet" [(c!"set", .set [])]) = .ok c!"WhatableWithSet(set=set())" := by rfl
-- 193-199
example : w2i (.func c!"norm" [c!"x", c!"y", c!"normal"] [.int 3, .func c!"<lambda>" [c!"x", c!"ly"] [.int 33]]) = .ok (some c!"norm(normal=lambda(ly=33),y=3)") := by rfl
example : parsesTo c!"norm(normal=lambda(ly=33),y=3)" c!"norm" [(c!"normal", .what c!"lambda" [(c!"ly", .int 33)] [] none), (c!"y", .int 3)] = true := by rfl

/-- `v.what().to_dict() == expected`. -/
def toDictIs (v expected : Val) : R Bool := (whatOf v).bind fun w => (toDictN env buildD 10 w false).map fun d => pyEq env.fi false d expected
/-- What `to_dict` gives. -/
def asDict (name : Str) (conf : Conf) : Val :=
  .dict [(.str c!"whatami_conf", strDict conf), (.str c!"whatami_name", .str name), (.str c!"whatami_out_name", .none)]
/-- Lines 209-211. -/
def d1 : Val := asDict c!"C1" [(c!"length", .int 1), (c!"p1", .str c!"blah"), (c!"p2", .str c!"bleh")]
/-- Lines 212-217. -/
def d2 : Val := asDict c!"C2" [(c!"c1", d1), (c!"name", .str c!"roxanne")]
-- 208-233
example : toDictIs c1 d1 = .ok true := by rfl
example : toDictIs c2 d2 = .ok true := by rfl
example : toDictIs c3 (asDict c!"C3" [(c!"c2", d2), (c!"c1", d1)]) = .ok true := by rfl

end Whatami.Conformance
