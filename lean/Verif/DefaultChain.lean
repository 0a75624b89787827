import Verif.BuildLemmas

/-
`build_string` under the default chain, constructor by constructor.
Definitions here are vocabulary for statements and proofs: the code they are about is cited in the model modules.
-/
namespace Whatami

theorem firstSome_none {f : Plugin → R (Option Str)} {p : Plugin} {ps : List Plugin} (h : f p = .ok none) :
    firstSome f (p :: ps) = firstSome f ps := by simp [firstSome, h]

theorem firstSome_ret {f : Plugin → R (Option Str)} {p : Plugin} {ps : List Plugin} {r : R Str}
    (h : f p = ret r) : firstSome f (p :: ps) = ret r := by
  simp only [firstSome, h]; cases r <;> rfl

theorem firstSome_error {f : Plugin → R (Option Str)} {p : Plugin} {ps : List Plugin} {e : Err}
    (h : f p = .error e) : firstSome f (p :: ps) = .error e := by
  simp only [firstSome, h]

/-- The text of a value no specific plugin deals with (plugins.py:172-194). -/
def captureAll (v : Val) : Str :=
  if isInfix c!" at 0x" (pyStr v) then className v ++ c!"()" else pyStr v

theorem firstSome_ne {f : Plugin → R (Option Str)} {p : Plugin} {ps : List Plugin} {r : R (Option Str)}
    (h : f p = r) (hr : r ≠ .ok none) : firstSome f (p :: ps) = r := by
  simp only [firstSome, h]
  cases r with
  | error e => rfl
  | ok o => cases o with
    | none => exact absurd rfl hr
    | some s => rfl

theorem ret_ne (r : R Str) : ret r ≠ .ok none := by cases r <;> simp [ret]

theorem buildD_eq (v : Val) : buildD v = firstSome (fun p => p.run noCustom buildD v)
    [.what, .whatable, .builtin, .numericType, .property, .string, .tuple, .list, .dict, .set,
     .part, .function, .pandas, .numpy, .rng, .any0x, .any] := build_eq noCustom defaultPlugins v

theorem any0x_eq (bs : BS) (v : Val) : firstSome (fun p => p.run noCustom bs v) [.any0x, .any] =
    .ok (some (captureAll v)) := by
  by_cases h : isInfix c!" at 0x" (pyStr v) = true
  · apply firstSome_ret (r := .ok _)
    simp only [Plugin.run, any0xPlugin, captureAll, idStr, idItems, sortBy, List.filter_nil, mapR,
      wrapId, pyJoin, h, if_true]
    simp
  · rw [firstSome_none (by simp only [Plugin.run, any0xPlugin, h]; rfl)]
    apply firstSome_ret (r := .ok _)
    simp only [Plugin.run, anyPlugin, captureAll, h]
    rfl

/-- Skip one declining plugin. -/
macro "skip1" : tactic => `(tactic| (rw [firstSome_none (by rfl)]))

theorem buildD_what (n : Str) (c : Conf) (nk : List Str) (o : Option Str) :
    buildD (.what n c nk o) = ret (idStr buildD { name := n, conf := c, nonids := nk, out := o } false) := by
  rw [buildD_eq]
  exact firstSome_ret rfl

theorem buildD_duck (n : Str) (c : Conf) (nk : List Str) (o : Option Str) :
    buildD (.duck n c nk o) = ret (idStr buildD { name := n, conf := c, nonids := nk, out := o } false) := by
  rw [buildD_eq]
  skip1; exact firstSome_ret rfl

theorem buildD_wcls (f : Str) : buildD (.wcls f) = .error .typeError := by
  rw [buildD_eq]
  skip1; exact firstSome_error rfl

theorem buildD_builtin (f : Str) : buildD (.builtin f) = .error .exception := by
  rw [buildD_eq]
  iterate 2 skip1
  exact firstSome_error rfl

theorem buildD_numtype (n : Str) : buildD (.numtype n) = .ok (some (n ++ c!"()")) := by
  rw [buildD_eq]
  iterate 3 skip1
  exact firstSome_ret (r := .ok _) rfl

theorem buildD_property : buildD .property = .error .exception := by
  rw [buildD_eq]
  iterate 4 skip1
  exact firstSome_error rfl

theorem buildD_str (s : Str) : buildD (.str s) = .ok (some (['\''] ++ strBody s ++ ['\''])) := by
  rw [buildD_eq]
  iterate 5 skip1
  exact firstSome_ret (r := .ok _) rfl

theorem buildD_tuple (xs : List Val) :
    buildD (.tuple xs) = ret ((strings buildD xs).map (bracket c!"(" c!")")) := by
  rw [buildD_eq]
  iterate 6 skip1
  exact firstSome_ret rfl

theorem buildD_list (xs : List Val) :
    buildD (.list xs) = ret ((strings buildD xs).map (bracket c!"[" c!"]")) := by
  rw [buildD_eq]
  iterate 7 skip1
  exact firstSome_ret rfl

theorem buildD_dict (kvs : List (Val × Val)) : buildD (.dict kvs) = ret (dictStr buildD kvs) := by
  rw [buildD_eq]
  iterate 8 skip1
  exact firstSome_ret rfl

theorem buildD_set (xs : List Val) :
    buildD (.set xs) = ret ((strings buildD xs).map fun l => setStr (sortBy strLe l)) := by
  rw [buildD_eq]
  iterate 9 skip1
  exact firstSome_ret rfl

theorem buildD_fset (xs : List Val) :
    buildD (.fset xs) = ret ((strings buildD xs).map fun l => fsetStr (sortBy strLe l)) := by
  rw [buildD_eq]
  iterate 9 skip1
  exact firstSome_ret rfl

/-- The text of the elements of a collection subclass (plugins.py:82-109). -/
def kindStr : Kind → List Str → Str
  | .list, l => bracket c!"[" c!"]" l
  | .tuple, l => bracket c!"(" c!")" l
  | .set, l => setStr (sortBy strLe l)
  | .fset, l => setStr (sortBy strLe l)

theorem buildD_sub (k : Kind) (c : Str) (attrs : Conf) (xs : List Val) :
    buildD (.sub k c attrs xs) = ret ((strings buildD xs).map fun l => seqId c (kindStr k l)) := by
  rw [buildD_eq]
  cases k
  · iterate 7 skip1
    exact firstSome_ret rfl
  · iterate 6 skip1
    exact firstSome_ret rfl
  · iterate 9 skip1
    exact firstSome_ret rfl
  · iterate 9 skip1
    exact firstSome_ret rfl

/-- The configuration of a dict subclass (what.py:338-360 with the defaults). -/
def dictConf (attrs : Conf) (seq : Val) : Conf := trimDict {} (dset (dupdate [] attrs) c!"seq" seq)

theorem configDict_dd (attrs : Conf) : configDictOfSrcs {} { dd := attrs } = dupdate [] attrs := by
  simp [configDictOfSrcs, dupdate]

theorem buildD_odict (c : Str) (attrs : Conf) (kvs : List (Val × Val)) :
    buildD (.odict c attrs kvs) =
      ret (idStr buildD { name := c, conf := dset (dictConf attrs (.dict kvs)) c!"seq" (itemsList kvs) } false) := by
  rw [buildD_eq]
  iterate 8 skip1
  apply firstSome_ret
  simp only [Plugin.run, dictPlugin]
  have hc : callable2call (.odict c attrs kvs) [] [] = .error .valueError := rfl
  simp only [whatareyou, hc, className, addSeq, configDictForObject, attrsOf, configDict_dd, dictConf]

theorem buildD_ddict (c : Str) (attrs : Conf) (kvs : List (Val × Val)) :
    buildD (.ddict c attrs kvs) =
      match dictStr buildD kvs with
      | .error e => .error e
      | .ok _ => ret (idStr buildD { name := c, conf := dictConf attrs (.dict kvs) } false) := by
  rw [buildD_eq]
  iterate 8 skip1
  have hc : callable2call (.ddict c attrs kvs) [] [] = .error .valueError := rfl
  apply firstSome_ne
  · simp only [Plugin.run, dictPlugin, whatareyou, hc, className, addSeq, configDictForObject, attrsOf,
      configDict_dd, dictConf]
    cases dictStr buildD kvs <;> rfl
  · split
    · simp
    · exact ret_ne _

theorem buildD_part (p : Bool) (f : Val) (args : List Val) (kws : Conf) :
    buildD (.part p f args kws) =
      match callable2call (curry2partial (.part p f args kws)) [] [] with
      | .error e => .error e
      | .ok (n, kw) => ret (idStr buildD { name := n, conf := kw } false) := by
  rw [buildD_eq]
  iterate 10 skip1
  apply firstSome_ne
  · simp only [Plugin.run, partialPlugin]
    cases callable2call (curry2partial (Val.part p f args kws)) [] [] <;> rfl
  · split
    · simp
    · exact ret_ne _

/-- The name `function_plugin` gives to a function. -/
def funcName (n : Str) : Str := if n = c!"<lambda>" then c!"lambda" else n

theorem buildD_func (n : Str) (args : List Str) (ds : List Val) :
    buildD (.func n args ds) =
      ret (idStr buildD { name := funcName n, conf := dictOf ((pyLast ds.length args).zip ds) } false) := by
  rw [buildD_eq]
  iterate 11 skip1
  exact firstSome_ret rfl

theorem buildD_array (c h : Str) :
    buildD (.array c h) = .ok (some (c ++ c!"(hash='" ++ h ++ c!"')")) := by
  rw [buildD_eq]
  iterate 12 skip1
  exact firstSome_ret (r := .ok _) rfl

theorem buildD_rng (c : Str) (st : Val) :
    buildD (.rng c st) =
      match whatareyou {} st with
      | .error e => .error e
      | .ok w => ret ((idStr buildD w false).map fun s => c ++ c!"(state=" ++ s ++ c!")") := by
  rw [buildD_eq]
  iterate 14 skip1
  apply firstSome_ne
  · simp only [Plugin.run, rngPlugin]
    cases whatareyou {} st with
    | error e => rfl
    | ok w => simp only []; cases idStr buildD w false <;> rfl
  · split
    · simp
    · exact ret_ne _

/-- Values only the capture-all plugins deal with. -/
def plainVal : Val → Bool
  | .none | .bool _ | .int _ | .float _ | .cls _ => true
  | .obj _ _ _ _ _ _ none _ => true
  | .obj _ callable _ _ _ _ (some _) _ => callable
  | _ => false

theorem buildD_plain (v : Val) (h : plainVal v = true) : buildD v = .ok (some (captureAll v)) := by
  rw [buildD_eq]
  cases v <;> simp [plainVal] at h
  case obj cls callable cd dd sd pd wh s =>
    cases wh with
    | none =>
      iterate 15 skip1
      exact any0x_eq _ _
    | some o =>
      simp only at h; subst h
      iterate 15 skip1
      exact any0x_eq _ _
  all_goals
    iterate 15 skip1
    exact any0x_eq _ _

theorem buildD_obj (cls : Str) (cd dd sd pd : Conf) (o : WhatOpts) (s : Str) :
    buildD (.obj cls false cd dd sd pd (some o) s) =
      ret (idStr buildD
        { name := cls, conf := trimDict o (configDictOfSrcs o ⟨cd, dd, sd, pd⟩), nonids := o.nonids } false) := by
  rw [buildD_eq]
  skip1; exact firstSome_ret rfl

end Whatami
