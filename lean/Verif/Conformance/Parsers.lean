import Verif.Parser
import Verif.PyEq
import Verif.Plugins
import Verif.Decorated

/-
The tests of the repository (whatami/tests/test_parsers.py, test_roundtrips.py), run on the model.  These are tests of the model, not proofs of
properties.
-/
set_option maxRecDepth 10000

namespace Whatami.Conformance

/-- Texts of floats are as `repr` gives them; one class can be imported. -/
def env : Env where
  floatOf s := s
  fi _ := none
  imp m x := if m = c!"pickle" ∧ x = c!"PickleError" then .ok (.cls c!"pickle.PickleError") else .error .importError

/-- `what.name == name and what.conf == conf`. -/
def parsesTo (s name : Str) (conf : Conf) (out : Option Str := none) : Bool :=
  match parseWhatid env s with
  | .error _ => false
  | .ok w => w.name = name ∧ w.out = out ∧ pyEq env.fi false (strDict w.conf) (strDict conf) = true

/-- `with pytest.raises(...): parse_whatid(s)`. -/
def fails (s : Str) (e : Err) : Prop := parseWhatid env s = .error e

/-! test_parsers.py -/

-- 20-24 (an expected failure: test_parse_whatid_within_string)
example : parsesTo c!"rfc(name=''banyan'')" c!"rfc" [(c!"name", .str c!"'banyan'")] = false := by rfl
-- 27-30
example : parsesTo c!"f(x='')" c!"f" [(c!"x", .str [])] = true := by rfl
-- 33-47
example : parsesTo c!"rfc()" c!"rfc" [] = true := by rfl
example : parsesTo c!"rfc(n_jobs=4)" c!"rfc" [(c!"n_jobs", .int 4)] = true := by rfl
example : parsesTo c!"rfc(deep=True,gini=False,n_jobs=3.4,n_trees=100,seed='rng',splitter=None)" c!"rfc"
    [(c!"n_jobs", .float c!"3.4"), (c!"n_trees", .int 100), (c!"seed", .str c!"rng"), (c!"deep", .bool true), (c!"splitter", .none), (c!"gini", .bool false)] = true := by rfl
-- 50-59
example : parsesTo c!"rfc(min=-inf)" c!"rfc" [(c!"min", .float c!"-inf")] = true := by rfl
example : parsesTo c!"rfc(min=inf)" c!"rfc" [(c!"min", .float c!"inf")] = true := by rfl
example : parsesTo c!"rfc(min=nan)" c!"rfc" [(c!"min", .float c!"nan")] = false ∧
    parseWhatid env c!"rfc(min=nan)" = .ok ⟨c!"rfc", [(c!"min", .float c!"nan")], [], none⟩ := ⟨by rfl, by rfl⟩
-- 62-70
example : parsesTo c!"rfc(splits=[1,7,'end'],empty=[])" c!"rfc" [(c!"splits", .list [.int 1, .int 7, .str c!"end"]), (c!"empty", .list [])] = true := by rfl
example : parsesTo c!"rfc(splits=(1,7,'end'),empty=[])" c!"rfc" [(c!"splits", .tuple [.int 1, .int 7, .str c!"end"]), (c!"empty", .list [])] = true := by rfl

/-- The dict of test_parse_id_dicts and test_parse_id_spaces. -/
def splits : Val := .dict [(.int 1, .int 7), (.none, .str c!"end"), (.str c!"end", .none), (.str c!"lst", .list [.int 7, .str c!"b", .int 1]),
  (.str c!"d", .dict [(.str c!"nest", .int 2)])]
-- 73-76
example : parsesTo c!"rfc(splits={1:7, None:'end', 'end':None, 'lst': [7, 'b', 1], 'd': {'nest': 2}})" c!"rfc" [(c!"splits", splits)] = true := by rfl
-- 79-87
example : parsesTo c!"rfc(splits={1, None, 'end'})" c!"rfc" [(c!"splits", .set [.none, .int 1, .str c!"end"])] = true := by rfl
example : parsesTo c!"rfc(splits=set())" c!"rfc" [(c!"splits", .set [])] = true := by rfl
-- 90-93
example : parsesTo c!"rfc(splits={  1:7,  None: 'end','end':None, 'lst': [7,'b', 1], 'd':  {'nest': 2}})" c!"rfc" [(c!"splits", splits)] = true := by rfl
-- 96-122
example : parsesTo c!"rfc(n_jobs=multiple(here=100))" c!"rfc" [(c!"n_jobs", .what c!"multiple" [(c!"here", .int 100)] [] none)] = true := by rfl
example : parsesTo (c!"Pipeline(steps=[('norm', Normalizer(norm='l1')), ('clusterer', KMeans(init='k-means++',max_iter=300,n_clusters=12,n_init=10," ++
      c!"precompute_distances=True,random_state=None,tol=0.0001,verbose=0))])") c!"Pipeline"
    [(c!"steps", .list [.tuple [.str c!"norm", .what c!"Normalizer" [(c!"norm", .str c!"l1")] [] none],
      .tuple [.str c!"clusterer", .what c!"KMeans" [(c!"init", .str c!"k-means++"), (c!"max_iter", .int 300), (c!"n_clusters", .int 12), (c!"n_init", .int 10),
        (c!"precompute_distances", .bool true), (c!"random_state", .none), (c!"tol", .float c!"0.0001"), (c!"verbose", .int 0)] [] none]])] = true := by rfl
-- 125-151
example : fails [] .noMatch := by rfl
example : fails c!"()" .noMatch := by rfl
example : fails c!"wrong" .noMatch := by rfl
example : fails c!"rfc(5)" .noMatch := by rfl
example : fails c!"rfc(x=, y=12)" .noMatch := by rfl
example : fails c!"rfc(5" .noMatch := by rfl
example : fails c!"rfc5)" .noMatch := by rfl
-- 154-157
example : ∃ w, parseWhatid env c!"A(b='C(d=\\'hey\\')')" = .ok w ∧ idD w = .ok c!"A(b='C(d=\\'hey\\')')" := ⟨_, by rfl, by rfl⟩
-- 160-166
example : parsesTo c!"kurtosis=moments(x=std=Normal(mean=0,std=1))" c!"moments"
    [(c!"x", .what c!"Normal" [(c!"mean", .int 0), (c!"std", .int 1)] [] (some c!"std"))] (some c!"kurtosis") = true := by rfl
-- 169-173
example : parsesTo c!"defaultdict(default_factory=int(),seq={})" c!"defaultdict"
    [(c!"default_factory", .what c!"int" [] [] none), (c!"seq", .dict [])] = true := by rfl
-- 176-186
example : parsesTo c!"B(cv=<class 'sklearn.model_selection.DoesNotExist'>)" c!"B"
    [(c!"cv", .dict [(.str c!"class", .str c!"sklearn.model_selection.DoesNotExist")])] = true := by rfl
example : ∃ w, whatareyou {} (.dict [(.str c!"error", .cls c!"pickle.PickleError")]) = .ok w ∧ w.name = c!"dict" ∧
    w.conf = [(c!"seq", .dict [(.str c!"error", .cls c!"pickle.PickleError")])] := ⟨_, by rfl, rfl, rfl⟩
-- 189-194 (the argument is a string in the model)
example : parsesTo c!"rfc(splits = {1, None, 'end'})" c!"rfc" [(c!"splits", .set [.int 1, .none, .str c!"end"])] = true := by rfl

/-! test_roundtrips.py: the id of the function's What, and what parsing it gives -/

/-- `expected_idstring == a_whatable.what().id()` and `expected_what.conf == parse_whatid(expected_idstring).conf`. -/
def roundtrip (f : Fn) (s name : Str) (conf : Conf) : Bool :=
  match whatableFn none [] false f with
  | .error _ => false
  | .ok g =>
    match g.callWhat fun _ _ => .error .exception with
    | some (.ok (some w)) => decide (idD w = .ok s) && parsesTo s name conf
    | _ => false

-- 22-34
example : roundtrip (.func c!"rfc" [c!"X", c!"y", c!"n_trees", c!"split", c!"depth", c!"criterion", c!"alpha"]
      [.int 10, .int 2, .none, .str c!"gini", .float c!"1.34"] (.user 0) false none)
    c!"rfc(alpha=1.34,criterion='gini',depth=None,n_trees=10,split=2)" c!"rfc"
    [(c!"n_trees", .int 10), (c!"split", .int 2), (c!"depth", .none), (c!"criterion", .str c!"gini"), (c!"alpha", .float c!"1.34")] = true := by rfl

/-- Lines 39-43. -/
def aTuple : Val := .tuple [.int 33, .list [.str c!"l", .none, .float c!"3.2"], .dict [(.str c!"a", .int 2), (.none, .str c!"c")], .set [],
  .set [.str c!"a", .int 3]]
-- 37-50
example : roundtrip (.func c!"rfc" [c!"X", c!"y", c!"t"] [aTuple] (.user 0) false none)
    c!"rfc(t=(33,['l',None,3.2],{'a':2,None:'c'},set(),{'a',3}))" c!"rfc" [(c!"t", aTuple)] = true := by rfl

/-- Lines 55-57. -/
def bTuple : Val := .tuple [.int 33, .list [.str c!"l", .none, .float c!"3.2"], .dict [(.str c!"a", .int 2), (.none, .str c!"c")]]
-- 53-70 (the nested whatable function is an object whose what() gives its What)
example : roundtrip (.func c!"nests" [c!"nested"] [.duck c!"rfc" [(c!"t", bTuple)] [] none] (.user 0) false none)
    c!"nests(nested=rfc(t=(33,['l',None,3.2],{'a':2,None:'c'})))" c!"nests" [(c!"nested", .what c!"rfc" [(c!"t", bTuple)] [] none)] = true := by rfl

end Whatami.Conformance
