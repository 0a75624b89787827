import Verif.Conformance.Whatable
import Verif.Naming
import Verif.Submodules
import Verif.Curry

/-
The tests of whatami/tests/test_misc.py, run on the model.  These are tests of the model, not proofs of properties.
-/
set_option maxRecDepth 20000

namespace Whatami.Conformance

/-- `is_iterable` (misc.py:585-593). -/
def iterable (v : Val) : Bool := (iterV v).isSome
-- 24-34
example : iterable (.list [.int 1, .int 2, .int 3]) = true := by rfl
example : iterable (.list []) = true := by rfl
example : iterable (.tuple [.int 1, .int 2, .int 3]) = true := by rfl
example : iterable (.tuple []) = true := by rfl
example : iterable (.str c!"abc") = true := by rfl
example : iterable .none = false := by rfl
example : iterable (.int 2) = false := by rfl
example : iterable (.float c!"2.5") = false := by rfl
example : iterable (.cls c!"str") = false := by rfl

/-- `callable2call(v)`. -/
def c2c (v : Val) : R (Str × Conf) := callable2call v [] []
/-- The class `map`. -/
def map : Val := .cls c!"map"
/-- The class `str`. -/
def str : Val := .cls c!"str"
/-- Lines 51-52. -/
def myf : Val := .func c!"myf" [c!"x", c!"y"] [.int 3]
-- 37-56
example : c2c (.part true map [] []) = .ok (c!"map", []) := by rfl
example : c2c (.part true map [] [(c!"function", str)]) = .ok (c!"map", [(c!"function", str)]) := by rfl
example : c2c (.part true (.part true map [] [(c!"function", str)]) [] [(c!"iterable1", .tuple [])]) = .ok (c!"map", [(c!"function", str), (c!"iterable1", .tuple [])]) := by rfl
example : c2c (.part true (fn c!"test_callable2call_partials") [] [(c!"function", str), (c!"f2", .int 2), (c!"f3", .int 3)]) = .error .valueError := by rfl
example : c2c (.part true (fn c!"test_callable2call_partials") [.int 2, .int 3] []) = .error .valueError := by rfl
example : c2c (.part true myf [.int 2] [(c!"x", .int 3)]) = .error .valueError := by rfl
-- 59-67
example : c2c (fn c!"test_callable2call_functions") = .ok (c!"test_callable2call_functions", []) := by rfl
example : c2c (.cls c!"functools.partial") = .ok (c!"partial", []) := by rfl
example : c2c (.func c!"f" [c!"x", c!"y"] [.int 3]) = .ok (c!"f", [(c!"y", .int 3)]) := by rfl
-- 70-79
example : c2c (.builtin c!"sorted") = .ok (c!"sorted", []) := by rfl
example : c2c (.str c!"sorted") = .error .valueError := by rfl
-- 82-85
example : c2c (.func c!"<lambda>" [c!"x"] []) = .ok (c!"lambda", []) := by rfl
example : c2c (.func c!"<lambda>" [c!"x"] [.int 5]) = .ok (c!"lambda", [(c!"x", .int 5)]) := by rfl

/-- Lines 117-124: the description of the experiment. -/
def info : R (List (Str × Val)) :=
  (whatOf (whatableOf c!"TestDataset" [])).bind fun d =>
  (whatOf (whatableOf c!"PreproModel" [(c!"prepro", whatableOf c!"Prepro" [(c!"min", .int 0), (c!"max", .int 1)]), (c!"reg", .str c!"l2"), (c!"C", .float c!"1.0")])).bind fun m =>
  (whatOf (whatableOf c!"CVEval" [(c!"num_folds", .int 5), (c!"seed", .int 2147483647)])).bind fun e =>
  mlexpInfo buildD (fun _ => none) c!"now" c!"host"
    { title := .str c!"test", dataSetup := d.toVal, modelSetup := m.toVal, evalSetup := e.toVal, source := some (.ok (.str c!"lines")), comments := .str c!"comments4nothing" }
-- 88-134
example : info.map (fun d => dget d c!"title") = .ok (some (.str c!"test")) := by rfl
example : info.map (fun d => dget d c!"data_setup") = .ok (some (.str c!"TestDataset()")) := by rfl
example : info.map (fun d => dget d c!"model_setup") = .ok (some (.str c!"PreproModel(C=1.0,prepro=Prepro(max=1,min=0),reg='l2')")) := by rfl
example : info.map (fun d => dget d c!"eval_setup") = .ok (some (.str c!"CVEval(num_folds=5,seed=2147483647)")) := by rfl
example : info.map (fun d => dget d c!"fsource") = .ok (some (.str c!"lines")) := by rfl
example : info.map (fun d => dget d c!"comments") = .ok (some (.str c!"comments4nothing")) := by rfl

/-- What can be imported. -/
def importable (m : Str) : R Unit := if m = c!"inspect" ∨ m = c!"threading" then .ok () else .error .importError
-- 137-158
example : maybeImport importable c!"inspect" none [] = .ok (.module c!"inspect") := by rfl
example : maybeImport importable c!"inspect" none [c!"123wrong", c!"inspect"] = .ok (.module c!"inspect") := by rfl
example : ((maybeImport importable c!"cool" (some c!"conda") [c!"123invalid", c!"456wrong"]).bind fun l => lazyGet (fun _ _ => none) (fun _ => .none) l c!"whatever") =
    .error .importError := by rfl
example : maybeImport importable c!"cool" (some c!"conda") [c!"123invalid", c!"456wrong"] =
    .ok (.failed c!"cool" [c!"123invalid", c!"456wrong"] (some c!"conda install 123invalid")) := by rfl
example : maybeImport importable c!"cool" (some c!"sudo apt-get cool") [c!"123invalid", c!"456wrong"] =
    .ok (.failed c!"cool" [c!"123invalid", c!"456wrong"] (some c!"sudo apt-get cool")) := by rfl
-- 161-168
example : initRequired (some ⟨[c!"self", c!"group", c!"target", c!"name", c!"args", c!"kwargs"], 5⟩) = [] := by rfl
example : initRequired (some ⟨[c!"self"], 0⟩) = [] := by rfl
example : initRequired none = [] := by rfl

/-- What can be imported of the package, with two of its modules. -/
def tests (m : Str) : R PyModule :=
  if m = c!"whatami.tests" then .ok ⟨some [(c!"fixtures", false), (c!"test_what", false)]⟩
  else if m = c!"whatami.tests.fixtures" ∨ m = c!"whatami.tests.test_what" then .ok ⟨none⟩
  else .error .importError
-- 171-180
example : (importSubmodules tests 5 true true c!"whatami.tests").map (fun r => dkeys r) = .ok [c!"whatami.tests", c!"whatami.tests.fixtures", c!"whatami.tests.test_what"] := by rfl
example : importSubmodules tests 5 true false c!"i.made.this.up" = .error .importError := by rfl
example : importSubmodules tests 5 true true c!"i.made.this.up" = .ok [] := by rfl

/-- `Thread`. -/
def thread : NameAttrs := ⟨.str c!"threading", .str c!"Thread", .str c!"Thread"⟩
/-- `type`. -/
def type' : NameAttrs := ⟨.str c!"builtins", .str c!"type", .str c!"type"⟩
-- 183-186
example : fqn thread type' false = .ok c!"threading.Thread" := by rfl
example : fqn thread type' true = .ok c!"builtins.type" := by rfl
example : fqn ⟨.str c!"threading", .absent, .absent⟩ thread true = .ok c!"threading.Thread" := by rfl

/-- `maybe_import_member` without variants. -/
def member (n : Str) (fail : Bool) : R Val :=
  maybeImportMember importable (fun m a => if m = c!"threading" ∧ a = c!"Thread" then some (.cls c!"threading.Thread") else none) (fun _ => .none) n fail []
-- 189-195
example : member c!"Thread" true = .error .valueError := by rfl
example : member c!"threading.Thread" true = .ok (.cls c!"threading.Thread") := by rfl
example : member c!"i.made.this.UP" true = .error .importError := by rfl
example : member c!"i.made.this.UP" false = .ok .none := by rfl

end Whatami.Conformance
