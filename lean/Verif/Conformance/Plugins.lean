import Verif.Conformance.What
import Verif.Manager
import Verif.Columns
import Verif.FunctionLike

/-
The tests of whatami/tests/test_plugins.py and test_whatutils.py, run on the model.  These are tests of the model, not proofs of properties.
-/
set_option maxRecDepth 10000

namespace Whatami.Conformance

/-! test_plugins.py -/

/-- A plugin of the default chain called on a value. -/
def plugin (p : Plugin) (v : Val) : R (Option Str) := p.run noCustom buildD v
/-- A function without parameters. -/
def fn (name : Str) : Val := .func name [] []

-- 17-20
example : plugin .string (.str c!"cuckoo's nest") = .ok (some c!"'cuckoo\\'s nest'") := by rfl
example : plugin .string (.str []) = .ok (some c!"''") := by rfl
example : plugin .string (.int 2) = .ok none := by rfl
-- 23-39
example : plugin .dict (.dict []) = .ok (some c!"{}") := by rfl
example : plugin .dict (.dict [(.str c!"int", .int 1), (.str c!"str", .str c!"1"), (.str c!"func", fn c!"test_dict_plugin")]) =
    .ok (some c!"{'func':test_dict_plugin(),'int':1,'str':'1'}") := by rfl
example : plugin .dict (.odict c!"OrderedDict" [] []) = .ok (some c!"OrderedDict(seq=[])") := by rfl
example : plugin .dict (.odict c!"OrderedDict" [] [(.str c!"int", .int 1), (.str c!"str", .str c!"1"), (.str c!"func", fn c!"test_dict_plugin")]) =
    .ok (some c!"OrderedDict(seq=[('int',1),('str','1'),('func',test_dict_plugin())])") := by rfl
example : plugin .dict (.ddict c!"defaultdict" [(c!"default_factory", .numtype c!"int")] []) = .ok (some c!"defaultdict(default_factory=int(),seq={})") := by rfl
example : plugin .dict (.ddict c!"defaultdict" [(c!"default_factory", .numtype c!"int")] [(.int 0, .int 1)]) =
    .ok (some c!"defaultdict(default_factory=int(),seq={0:1})") := by rfl

/-- The elements of lines 46, 50, 58, 64 and 75, in an arbitrary order. -/
def elems (f : Str) : List Val := [.int 1, .str c!"1", fn f]
-- 42-58
example : plugin .set (.set []) = .ok (some c!"set()") := by rfl
example : plugin .set (.set (elems c!"test_set_plugin")) = .ok (some c!"{'1',1,test_set_plugin()}") := by rfl
example : plugin .set (.fset []) = .ok (some c!"frozenset()") := by rfl
example : plugin .set (.fset (elems c!"test_set_plugin").reverse) = .ok (some c!"frozenset({'1',1,test_set_plugin()})") := by rfl
example : plugin .set (.sub .set c!"MySet" [] []) = .ok (some c!"MySet(seq=set())") := by rfl
example : plugin .set (.sub .set c!"MySet" [] (elems c!"test_set_plugin").reverse) = .ok (some c!"MySet(seq={'1',1,test_set_plugin()})") := by rfl
-- 61-70
example : plugin .list (.list (elems c!"test_list_plugin")) = .ok (some c!"[1,'1',test_list_plugin()]") := by rfl
example : plugin .list (.sub .list c!"MyList" [] (elems c!"test_list_plugin")) = .ok (some c!"MyList(seq=[1,'1',test_list_plugin()])") := by rfl
-- 73-82
example : plugin .tuple (.tuple (elems c!"test_tuple_plugin")) = .ok (some c!"(1,'1',test_tuple_plugin())") := by rfl
example : plugin .tuple (.sub .tuple c!"namedt" [] (elems c!"test_tuple_plugin")) = .ok (some c!"namedt(seq=(1,'1',test_tuple_plugin()))") := by rfl
-- 86-99 (hashes are given)
example : plugin .rng (.rng c!"RandomState" (.tuple [.str c!"MT19937", .array c!"ndarray" c!"31a4", .int 624, .int 0, .float c!"0.0"])) =
    .ok (some c!"RandomState(state=tuple(seq=('MT19937',ndarray(hash='31a4'),624,0,0.0)))") := by rfl

/-- `whatable(f).what().id()`. -/
def decoratedId (f : Fn) (inplace : Bool := false) : R Str :=
  (whatableFn none [] inplace f).bind fun g =>
    match g.callWhat fun _ _ => .error .exception with
    | some (.ok (some w)) => idD w
    | _ => .error .exception
/-- A function with its parameters and defaults. -/
def function (name : Str) (args : List Str) (defaults : List Val) : Fn := .func name args defaults (.user 0) false none
-- 102-115
example : decoratedId (function c!"lpp" [c!"adjacency"] [.array c!"ndarray" c!"cdbd"]) = .ok c!"lpp(adjacency=ndarray(hash='cdbd'))" := by rfl
-- 118-133
example : decoratedId (function c!"lpp" [c!"adjacency"] [.array c!"DataFrame" c!"208f"]) = .ok c!"lpp(adjacency=DataFrame(hash='208f'))" := by rfl
-- 136-143
example : plugin .numericType (.numtype c!"int") = .ok (some c!"int()") := by rfl
example : plugin .numericType (.numtype c!"float") = .ok (some c!"float()") := by rfl
example : plugin .numericType (.numtype c!"complex") = .ok (some c!"complex()") := by rfl
example : decoratedId (function c!"f" [c!"x"] [.numtype c!"int"]) = .ok c!"f(x=int())" := by rfl

/-! test_whatutils.py -/

/-- fixtures.py:173-195: five of the twenty rows. -/
def whatids : List Str := [c!"Blosc(cname='blosclz',level=5,shuffle=False)", c!"Blosc(cname='blosclz',level=6,shuffle=True)", c!"Blosc(cname='lz4hc',level=7,shuffle=True)",
  c!"Blosc(cname='lz4hc',level=8,shuffle=False)", c!"C2(c1=C1(length=1,p1='blah',p2='bleh'),name='roxanne')"]
/-- The column. -/
def df : Df := [(c!"whatid", whatids.map .str)]
/-- The expected columns: cname, level, shuffle, and c1_length. -/
def cname : List Val := [.str c!"blosclz", .str c!"blosclz", .str c!"lz4hc", .str c!"lz4hc", .none]
def level : List Val := [.int 5, .int 6, .int 7, .int 8, .none]
def shuffle : List Val := [.bool false, .bool true, .bool true, .bool false, .none]
def c1length : List Val := [.none, .none, .none, .none, .int 1]
/-- `whatid2columns(df, 'whatid', columns, prefix, postfix, inplace=False)[c]`. -/
def col (columns : Option (List Val)) (pre post c : Str) : Option (List Val) :=
  match (whatid2columns env noSort id df c!"whatid" columns pre post false).1 with
  | .ok d => dget d c
  | .error _ => none

-- 20-63
example : col none [] [] c!"cname" = some cname ∧ col none [] [] c!"level" = some level ∧ col none [] [] c!"shuffle" = some shuffle := ⟨by rfl, by rfl, by rfl⟩
example : col (some [.list [.str c!"c1", .str c!"length"]]) c!"pre-" [] c!"pre-c1_length" = some c1length := by rfl
example : col none c!"pre-" [] c!"pre-level" = some level := by rfl
example : col none [] c!"-post" c!"shuffle-post" = some shuffle := by rfl
example : col (some [.str c!"cname"]) c!"pre-" c!"-post" c!"pre-cname-post" = some cname ∧
    col (some [.str c!"cname"]) c!"pre-" c!"-post" c!"pre-level-post" = none := ⟨by rfl, by rfl⟩
example : (dget (whatid2columns env noSort id df c!"whatid" none c!"pre-" c!"-post" true).2 c!"pre-level-post") = some level := by rfl
-- 66-78
example : (callWhatObj ⟨⟨c!"B", [[], likeClass c!"B"], some [(c!"a", .int 1), (c!"b", .str c!"b")]⟩, true⟩).bind idD = .ok c!"B(a=1,b='b')" := by rfl

end Whatami.Conformance
