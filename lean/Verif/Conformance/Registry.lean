import Verif.Conformance.Misc
import Verif.Registry
import Verif.Sklearn

/-
The tests of whatami/tests/test_registry.py and wrappers/tests/test_what_sklearn.py, run on the model.  These are tests of the model, not proofs of properties.
-/
set_option maxRecDepth 20000

namespace Whatami.Conformance

/-- `what2id`, of things that are not None. -/
def ids (v : Val) : R Str := (w2i v).bind fun s => match s with | some i => .ok i | none => .error .exception
/-- Lines 27-29: the decorated function. -/
def rfc : Val := .duck c!"rfc" [(c!"y", .int 3), (c!"z", .str c!"xyz")] [] none
/-- Line 30. -/
def rfcId : Str := c!"rfc(y=3,z='xyz')"
/-- The registry with it. -/
def reg1 : Registry := (register ids {} (some rfc) (some c!"rfc0")).1
-- 36-59
example : (register ids {} (some rfc) none).2 = .error .valueError := by rfl
example : (register ids {} none (some c!"rfc0")).2 = .error .valueError := by rfl
example : (register ids {} (some rfc) (some c!"rfc0")).2 = .ok (some rfc) := by rfl
example : nickOrId ids reg1 rfc = .ok c!"rfc0" := by rfl
example : reg1.nickToId c!"rfc0" = some rfcId := by rfl
example : (register ids reg1 (some rfc) (some c!"YOUSHALLNOTPASS")).2 = .error .exception := by rfl
example : (register ids reg1 (some (.str c!"YOUSHALLNOTPASS()")) (some c!"rfc0")).2 = .error .exception := by rfl
-- 62-65
example : reg1.list = [(c!"rfc0", rfcId)] := by rfl
-- 68-97
example : (remove ids reg1 (some c!"rfc0") none).1.list = [] := by rfl
example : (remove ids reg1 none (some rfc)).1.list = [] := by rfl
example : (remove ids reg1 (some c!"NO") (some rfc)).2 = .error .valueError := by rfl
example : (remove ids reg1 (some c!"NO") (some rfc)).1.list = [(c!"rfc0", rfcId)] := by rfl
example : (remove ids reg1 (some c!"rfc0") (some (.str c!"NO()"))).2 = .error .valueError := by rfl
example : (remove ids reg1 none none).2 = .error .valueError := by rfl
-- 100-105
example : (regRun {} [(ids, .register (some rfc) (some c!"rfc0")), (ids, .reset)]).list = [] := by rfl

/-- Line 109. -/
def rec0 : Recorder := { idCol := c!"name", defaults := [(c!"register", .str c!"me")] }
/-- The default extractor, on strings. -/
def AE : AddEnv := ⟨fun _ => none, truthy, fun _ => [], fun _ v => match v with | .str s => .ok (.str s) | _ => .error .exception⟩
/-- The steps of lines 111-134: what is called, a curried or partial `add` of the keywords, and its arguments. -/
def steps : List (Callee × PyArgs) → Recorder → Recorder
  | [], r => r
  | (f, a) :: ss, r => steps ss (f.call AE r a).1
/-- `rec.add(keep=b)`. -/
def curried (b : Bool) : Callee := match (addMethod.call AE rec0 ⟨[], [(c!"keep", .bool b)]⟩).2 with | .ok (.function f) => f | _ => addMethod
/-- Line 122. -/
def pkeep : Callee := padd none [(c!"keep", .bool true)]
/-- Lines 113-115. -/
def rec1 : Recorder := steps [(addMethod, ⟨[.str c!"first"], [(c!"afield", .int 3)]⟩), (curried true, ⟨[.str c!"keepme"], [(c!"anotherfield", .int 4)]⟩),
  (curried false, ⟨[.str c!"dropme"], [(c!"why", .str c!"ugliness")]⟩)] rec0
/-- Lines 123, 129. -/
def rec2 : Recorder := steps [(pkeep, ⟨[.str c!"keepmepartial"], [(c!"why", .str c!"pity")]⟩),
  (pkeep, ⟨[.list [.str c!"a", .str c!"b"]], [(c!"why", .str c!"why not"), (c!"price", .list [.int 3, .int 2])]⟩)] rec1
-- 108-137 (in the order of insertion)
example : rec1.get [.str c!"first"] = [[(c!"afield", .int 3), (c!"name", .str c!"first"), (c!"register", .str c!"me")]] := by rfl
example : rec1.get [.str c!"keepme"] = [[(c!"keep", .bool true), (c!"anotherfield", .int 4), (c!"name", .str c!"keepme"), (c!"register", .str c!"me")]] := by rfl
example : rec1.get [.str c!"dropme"] = [[(c!"keep", .bool false), (c!"why", .str c!"ugliness"), (c!"name", .str c!"dropme"), (c!"register", .str c!"me")]] := by rfl
example : rec2.get [.str c!"keepmepartial"] = [[(c!"keep", .bool true), (c!"why", .str c!"pity"), (c!"name", .str c!"keepmepartial"), (c!"register", .str c!"me")]] := by rfl
example : rec2.get [.str c!"a", .str c!"b"] =
    [[(c!"keep", .bool true), (c!"why", .str c!"why not"), (c!"price", .int 3), (c!"name", .str c!"a"), (c!"register", .str c!"me")],
     [(c!"keep", .bool true), (c!"why", .str c!"why not"), (c!"price", .int 2), (c!"name", .str c!"b"), (c!"register", .str c!"me")]] := by rfl
example : (addMethod.call AE rec2 ⟨[.str c!"a"], []⟩).2 = .error .exception := by rfl
-- 172-177
example : ensurePositional ⟨[c!"self", c!"bad_name"], 0⟩ [c!"ids"] = .error [c!"ids"] := by rfl

/-! test_what_sklearn.py (the version declared last) -/

/-- The registry of the newest version. -/
def skl : SklReg := match declareAll [] table0_19_1 with | .ok r => r | .error _ => []
/-- `what().id()` of an estimator with the given parameters. -/
def sklId (cls : Str) (ps : Conf) (nonidsToo : Bool := false) : R Str :=
  (whatForSklearn skl false ⟨cls, .ok ps, .none⟩).bind fun w => idStr buildD w nonidsToo
/-- The parameters of KMeans(n_clusters=12). -/
def kmeans : Conf := [(c!"algorithm", .str c!"auto"), (c!"copy_x", .bool true), (c!"init", .str c!"k-means++"), (c!"max_iter", .int 300), (c!"n_clusters", .int 12), (c!"n_init", .int 10),
  (c!"n_jobs", .int 1), (c!"precompute_distances", .str c!"auto"), (c!"random_state", .none), (c!"tol", .float c!"0.0001"), (c!"verbose", .int 0)]
/-- Line 38. -/
def kmeansId : Str := c!"KMeans(algorithm='auto',init='k-means++',max_iter=300,n_clusters=12,n_init=10,random_state=None,tol=0.0001)"
-- 23-26 (two of the parameters)
example : sklId c!"RandomForestClassifier" [(c!"n_estimators", .int 10), (c!"n_jobs", .int 1)] = .ok c!"RandomForestClassifier(n_estimators=10)" := by rfl
example : sklId c!"RandomForestClassifier" [(c!"n_estimators", .int 10), (c!"n_jobs", .int 1)] true = .ok c!"RandomForestClassifier(n_estimators=10,n_jobs=1)" := by rfl
-- 30-43
example : sklId c!"Normalizer" [(c!"norm", .str c!"l1"), (c!"copy", .bool true)] = .ok c!"Normalizer(norm='l1')" := by rfl
example : sklId c!"KMeans" kmeans = .ok kmeansId := by rfl

/-- `what().id()` of an object without `get_params`. -/
def otherId (cls : Str) (d : Conf) : R Str :=
  (whatForSklearn skl false ⟨cls, .error .attributeError, .obj cls false [] d [] [] none c!"<object>"⟩).bind fun w => idStr buildD w false
-- 46-54
example : otherId c!"KFold" [(c!"n_splits", .int 5), (c!"shuffle", .bool true), (c!"random_state", .int 0)] = .ok c!"KFold(n_splits=5,random_state=0,shuffle=True)" := by rfl
example : otherId c!"RepeatedStratifiedKFold" [(c!"cv", .cls c!"sklearn.model_selection._split.StratifiedKFold"), (c!"n_repeats", .int 2), (c!"random_state", .int 0),
    (c!"cvargs", .dict [(.str c!"n_splits", .int 5)])] =
    .ok c!"RepeatedStratifiedKFold(cv=<class 'sklearn.model_selection._split.StratifiedKFold'>,cvargs={'n_splits':5},n_repeats=2,random_state=0)" := by rfl

end Whatami.Conformance
