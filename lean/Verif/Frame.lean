import Verif.Misc

/-
Model of misc.py: argument specifications, `call_dict` and the import helpers.
-/
namespace Whatami

/-! ### Argument specifications -/

/-- The part of `inspect.getfullargspec(f)[:4]` (misc.py:48-69 `getargspec`) that is used: the names of the parameters and the
number of defaults (`None` and `()` are both falsy, so both are 0). -/
structure Spec where
  args : List Str
  defaults : Nat

/-- misc.py:88-103 `required_args`: `args[:-len(defaults)]` if there are defaults, else `args`. -/
def requiredArgs (f : Spec) : List Str := if f.defaults = 0 then f.args else f.args.take (f.args.length - f.defaults)

/-- `sorted(set(a) - set(b))`.  misc.py:136. -/
def sortedDiff (a b : List Str) : List Str := sortBy strLe ((a.filter fun x => !b.contains x).eraseDups)

/-- misc.py:105-137 `ensure_has_positional_args`: returns the function, or raises an Exception whose message names the given
parameters. -/
def ensurePositional (f : Spec) (args : List Str) : Except (List Str) Spec :=
  if args.all fun a => (requiredArgs f).contains a then .ok f else .error (sortedDiff args (requiredArgs f))

/-- misc.py:72-85 `init_argspec`: the required parameters of a constructor; `none` when `getargspec` raises TypeError. -/
def initRequired : Option Spec → List Str
  | none => []
  | some f =>
    match requiredArgs f with
    | a :: r => if a = c!"self" then r else a :: r
    | [] => []

/-! ### call_dict -/

/-- `bool(v)` of a value.  misc.py:205. -/
def truthy : Val → Bool
  | .none => false
  | .bool b => b
  | .int i => !(i == 0)
  | .float t => !(t == c!"0.0") && !(t == c!"-0.0")
  | .str s => !s.isEmpty
  | .tuple xs | .list xs | .set xs | .fset xs | .sub _ _ _ xs => !xs.isEmpty
  | .dict kvs | .odict _ _ kvs | .ddict _ _ kvs => !kvs.isEmpty
  | _ => true

/-- A frame as `inspect.getargvalues` shows it: the named parameters, the name of `*args`, the name of `**kwargs`, and the local
variables.  The local named by `**kwargs` is a dictionary with string keys (a function that rebinds it to
something else is not modelled); any other local may have been rebound or deleted.  misc.py:201. -/
structure Frame where
  args : List Str
  varargs : Option Str
  kwargs : Option Conf
  locals : Conf

/-- misc.py:202 `{arg: frame_locals[arg] for arg in args}`; KeyError for a deleted variable. -/
def frameArgs (locals : Conf) : List Str → Conf → R Conf
  | [], d => .ok d
  | a :: r, d =>
    match dget locals a with
    | some v => frameArgs locals r (dset d a v)
    | none => .error .keyError

/-- misc.py:208-212: `del d[k]` for every ignored name that is there. -/
def delAll (d : Conf) (ignores : List Str) : Conf := ignores.foldl (fun d k => ddel d k) d

/-- misc.py:214-216: flatten `**kwargs`. -/
def addKwargs (d : Conf) : Option Conf → Conf
  | some kw => dupdate d kw
  | none => d

/-- misc.py:140-222 `call_dict`, for the frame at the wanted depth.  `overrides=None` is `[]` here (both are falsy). -/
def callDict (f : Frame) (ignores : List Str) (ignoreVarargs : Bool) (overrides overOverrides : Conf) : R Conf :=
  (frameArgs f.locals f.args []).bind fun d =>
    let go :=
      let d := delAll d ignores
      let d := addKwargs d f.kwargs
      let d := dupdate d overrides
      Except.ok (dupdate d overOverrides)
    match f.varargs with
    | none => go
    | some name =>
      if ignoreVarargs then go
      else match dget f.locals name with
        | none => .error .keyError
        | some v => if truthy v then .error .valueError else go

/-! ### Imports -/

/-- What `maybe_import` returns: a module, or the `_LazyImportError` object with the variants that failed and the install hint.
misc.py:756-757. -/
inductive Lazy where
  | module (name : Str)
  | failed (library : Str) (errors : List Str) (hint : Option Str)
deriving DecidableEq, Repr

/-- misc.py:709-713: the loop over the variants: every one is tried, a later success replaces an earlier one; an exception other
than ImportError propagates. -/
def tryVariants (imp : Str → R Unit) : List Str → Option Str → List Str → R (Option Str × List Str)
  | [], cur, errs => .ok (cur, errs)
  | v :: vs, cur, errs =>
    match imp v with
    | .ok _ => tryVariants imp vs (some v) errs
    | .error .importError => tryVariants imp vs cur (errs ++ [v])
    | .error e => .error e

/-- misc.py:715-717: 'conda' and 'pip' stand for an install command for the first variant. -/
def installHint (msg : Option Str) (variants : List Str) : Option Str :=
  if msg = some c!"conda" ∨ msg = some c!"pip" then msg.map fun m => m ++ c!" install " ++ variants.headD [] else msg

/-- misc.py:697-717 and 734-757 `maybe_import`: without variants, the library itself is tried. -/
def maybeImport (imp : Str → R Unit) (library : Str) (msg : Option Str) (variants : List Str) : R Lazy :=
  let vs := if variants.isEmpty then [library] else variants
  (tryVariants imp vs none []).map fun r =>
    match r.1 with
    | some m => .module m
    | none => .failed library r.2 (installHint msg vs)

/-- The attributes of `_LazyImportError` that can be read (misc.py:720). -/
def lazyAttrs : List Str := [c!"_library_name", c!"_install_msg", c!"_errors", c!"_maybe_import", c!"module", c!"_variants"]

/-- `getattr(x, name)` on what `maybe_import` returned: on a module, its attribute or AttributeError; on the lazy object, ImportError
but for its own bookkeeping (misc.py:719-731; the bookkeeping values are not modelled: `own`). -/
def lazyGet (member : Str → Str → Option Val) (own : Str → Val) : Lazy → Str → R Val
  | .module m, a => match member m a with | some v => .ok v | none => .error .attributeError
  | .failed _ _ _, a => if lazyAttrs.contains a then .ok (own a) else .error .importError

/-- misc.py:760-791 `maybe_import_member`.  Line 787 passes the variants by position after the library, on top of
`install_msg` by name, hence TypeError as soon as there is a variant. -/
def maybeImportMember (imp : Str → R Unit) (member : Str → Str → Option Val) (own : Str → Val) (fqn : Str) (failIfError : Bool)
    (variants : List Str) : R Val :=
  let p := rpartition fqn '.'
  if p.1.isEmpty then .error .valueError
  else if !variants.isEmpty then .error .typeError
  else
    match (maybeImport imp p.1 none []).bind fun l => lazyGet member own l p.2 with
    | .ok v => .ok v
    | .error .importError => if failIfError then .error .importError else .ok .none
    | .error e => .error e

end Whatami
