import Verif.Props.Id

/-
Specification for C52: the text that stands for a value in an id.  Nothing here refers to plugins.
-/
namespace Whatami

/-- The decimal digits of a number. -/
def DecimalOf (t : Str) (n : Nat) : Prop :=
  t ≠ [] ∧ (∀ c ∈ t, '0' ≤ c ∧ c ≤ '9') ∧ (∀ r, t = '0' :: r → r = []) ∧
    t.foldl (fun acc c => acc * 10 + (c.toNat - '0'.toNat)) 0 = n

/-- Every quote has a backslash before it. -/
def QuotesEscaped (b : Str) : Prop := ∀ l r, b = l ++ '\'' :: r → ∃ l', l = l' ++ ['\\']

/-- `us` are the texts `ts` in ascending order. -/
def SortedTexts (ts us : List Str) : Prop := us.Perm ts ∧ us.Pairwise fun a b => a = b ∨ strLt a b

/-- The parameters that show in an id, each once and in ascending order. -/
def ShownKeys (conf : Conf) (nonids : List Str) (ps : List (Str × Str)) : Prop :=
  (ps.map Prod.fst).Pairwise strLt ∧ ∀ k, k ∈ ps.map Prod.fst ↔ IdKey conf nonids false k

/-- The texts joined by commas. -/
def commas (ts : List Str) : Str := c!",".intercalate ts

/-- `IdTextOf v s`: with the default plugins, `s` stands for `v`. -/
inductive IdTextOf : Val → Str → Prop where
  | none : IdTextOf .none c!"None"
  | true : IdTextOf (.bool true) c!"True"
  | false : IdTextOf (.bool false) c!"False"
  | nat {t : Str} {n : Nat} : DecimalOf t n → IdTextOf (.int n) t
  | neg {t : Str} {n : Nat} : 0 < n → DecimalOf t n → IdTextOf (.int (-(n : Int))) ('-' :: t)
  /-- floats are given by their `repr` -/
  | float (t : Str) : IdTextOf (.float t) t
  | str {s b : Str} : QuoteEq s b → QuotesEscaped b → IdTextOf (.str s) (c!"'" ++ b ++ c!"'")
  | cls (f : Str) : IdTextOf (.cls f) (c!"<class '" ++ f ++ c!"'>")
  | numtype (n : Str) : IdTextOf (.numtype n) (n ++ c!"()")
  | list {xs : List Val} {ts : List Str} : ts.length = xs.length →
      (∀ (i : Nat) x t, xs[i]? = some x → ts[i]? = some t → IdTextOf x t) → IdTextOf (.list xs) (c!"[" ++ commas ts ++ c!"]")
  | tuple {xs : List Val} {ts : List Str} : ts.length = xs.length →
      (∀ (i : Nat) x t, xs[i]? = some x → ts[i]? = some t → IdTextOf x t) → IdTextOf (.tuple xs) (c!"(" ++ commas ts ++ c!")")
  | noSet : IdTextOf (.set []) c!"set()"
  | set {xs : List Val} {ts us : List Str} : xs ≠ [] → ts.length = xs.length →
      (∀ (i : Nat) x t, xs[i]? = some x → ts[i]? = some t → IdTextOf x t) → SortedTexts ts us → IdTextOf (.set xs) (c!"{" ++ commas us ++ c!"}")
  | noFset : IdTextOf (.fset []) c!"frozenset()"
  | fset {xs : List Val} {ts us : List Str} : xs ≠ [] → ts.length = xs.length →
      (∀ (i : Nat) x t, xs[i]? = some x → ts[i]? = some t → IdTextOf x t) → SortedTexts ts us →
      IdTextOf (.fset xs) (c!"frozenset({" ++ commas us ++ c!"})")
  /-- an instance of a subclass: its attributes do not show -/
  | subList {xs : List Val} {s c : Str} {a : Conf} : IdTextOf (.list xs) s → IdTextOf (.sub .list c a xs) (c ++ c!"(seq=" ++ s ++ c!")")
  | subTuple {xs : List Val} {s c : Str} {a : Conf} : IdTextOf (.tuple xs) s → IdTextOf (.sub .tuple c a xs) (c ++ c!"(seq=" ++ s ++ c!")")
  | subSet {xs : List Val} {s c : Str} {a : Conf} : IdTextOf (.set xs) s → IdTextOf (.sub .set c a xs) (c ++ c!"(seq=" ++ s ++ c!")")
  | subFset {xs : List Val} {s c : Str} {a : Conf} : IdTextOf (.set xs) s → IdTextOf (.sub .fset c a xs) (c ++ c!"(seq=" ++ s ++ c!")")
  | dict {kvs : List (Val × Val)} {ts : List (Str × Str)} {us : List Str} : ts.length = kvs.length →
      (∀ (i : Nat) e t, kvs[i]? = some e → ts[i]? = some t → IdTextOf e.1 t.1) →
      (∀ (i : Nat) e t, kvs[i]? = some e → ts[i]? = some t → IdTextOf e.2 t.2) →
      SortedTexts (ts.map fun t => t.1 ++ c!":" ++ t.2) us → IdTextOf (.dict kvs) (c!"{" ++ commas us ++ c!"}")
  | what {n : Str} {conf : Conf} {nk : List Str} {o : Option Str} {ps : List (Str × Str)} : ShownKeys conf nk ps →
      (∀ k v t, (k, v) ∈ conf → (k, t) ∈ ps → IdTextOf v t) → IdTextOf (.what n conf nk o) (assemble n o ps)
  /-- a whatable object: the id of its What -/
  | duck {n : Str} {conf : Conf} {nk : List Str} {o : Option Str} {s : Str} : IdTextOf (.what n conf nk o) s → IdTextOf (.duck n conf nk o) s
  /-- an ordered dict: the list of its items, as pairs -/
  | odict {c s : Str} {kvs : List (Val × Val)} : IdTextOf (.list (kvs.map fun e => .tuple [e.1, e.2])) s →
      IdTextOf (.odict c [] kvs) (c ++ c!"(seq=" ++ s ++ c!")")
  /-- any other subclass of dict -/
  | ddict {c s : Str} {kvs : List (Val × Val)} : IdTextOf (.dict kvs) s → IdTextOf (.ddict c [] kvs) (c ++ c!"(seq=" ++ s ++ c!")")
  /-- a function: the parameters with defaults, which are the last ones -/
  | func {n s : Str} {pre names : List Str} {ds : List Val} : n ≠ c!"<lambda>" → names.length = ds.length →
      IdTextOf (.what n (names.zip ds) [] none) s → IdTextOf (.func n (pre ++ names) ds) s
  | lambda {s : Str} {pre names : List Str} {ds : List Val} : names.length = ds.length →
      IdTextOf (.what c!"lambda" (names.zip ds) [] none) s → IdTextOf (.func c!"<lambda>" (pre ++ names) ds) s
  /-- arrays and frames: `h` is their joblib hash -/
  | array (c h : Str) : IdTextOf (.array c h) (c ++ c!"(hash='" ++ h ++ c!"')")
  /-- random generators, by their state, a tuple or a dict -/
  | rngTuple {xs : List Val} {s c : Str} : IdTextOf (.tuple xs) s → IdTextOf (.rng c (.tuple xs)) (c ++ c!"(state=tuple(seq=" ++ s ++ c!"))")
  | rngDict {kvs : List (Val × Val)} {s c : Str} : IdTextOf (.dict kvs) s → IdTextOf (.rng c (.dict kvs)) (c ++ c!"(state=dict(seq=" ++ s ++ c!"))")
  /-- any other object that is not whatable: its `str()`, unless that has its address -/
  | obj {c s : Str} {cl : Bool} {cd dd sd pd : Conf} : ¬ c!" at 0x" <:+: s → IdTextOf (.obj c cl cd dd sd pd none s) s
  | address {c s : Str} {cl : Bool} {cd dd sd pd : Conf} : c!" at 0x" <:+: s → IdTextOf (.obj c cl cd dd sd pd none s) (c ++ c!"()")

/-- The values the specification is about; the texts of floats and classes have no blanks; dict keys of Whats are unique. -/
inductive HasText : Val → Prop where
  | none : HasText .none
  | bool (b : Bool) : HasText (.bool b)
  | int (i : Int) : HasText (.int i)
  | float {t : Str} : ' ' ∉ t → HasText (.float t)
  | str (s : Str) : HasText (.str s)
  | cls {f : Str} : ' ' ∉ f → HasText (.cls f)
  | numtype (n : Str) : HasText (.numtype n)
  | list {xs : List Val} : (∀ x ∈ xs, HasText x) → HasText (.list xs)
  | tuple {xs : List Val} : (∀ x ∈ xs, HasText x) → HasText (.tuple xs)
  | set {xs : List Val} : (∀ x ∈ xs, HasText x) → HasText (.set xs)
  | fset {xs : List Val} : (∀ x ∈ xs, HasText x) → HasText (.fset xs)
  | sub {xs : List Val} (k : Kind) (c : Str) (a : Conf) : (∀ x ∈ xs, HasText x) → HasText (.sub k c a xs)
  | dict {kvs : List (Val × Val)} : (∀ k v, (k, v) ∈ kvs → HasText k) → (∀ k v, (k, v) ∈ kvs → HasText v) → HasText (.dict kvs)
  | what {conf : Conf} (n : Str) (nk : List Str) (o : Option Str) : (conf.map Prod.fst).Nodup →
      (∀ k v, (k, v) ∈ conf → k ∉ nk → HasText v) → HasText (.what n conf nk o)
  | duck {conf : Conf} (n : Str) (nk : List Str) (o : Option Str) : (conf.map Prod.fst).Nodup →
      (∀ k v, (k, v) ∈ conf → k ∉ nk → HasText v) → HasText (.duck n conf nk o)
  | odict {kvs : List (Val × Val)} (c : Str) : (∀ k v, (k, v) ∈ kvs → HasText k) → (∀ k v, (k, v) ∈ kvs → HasText v) → HasText (.odict c [] kvs)
  | ddict {kvs : List (Val × Val)} (c : Str) : (∀ k v, (k, v) ∈ kvs → HasText k) → (∀ k v, (k, v) ∈ kvs → HasText v) → HasText (.ddict c [] kvs)
  | func {names : List Str} {ds : List Val} (n : Str) : names.Nodup → ds.length ≤ names.length → (∀ d ∈ ds, HasText d) → HasText (.func n names ds)
  | array (c h : Str) : HasText (.array c h)
  | rngTuple {xs : List Val} (c : Str) : HasText (.tuple xs) → HasText (.rng c (.tuple xs))
  | rngDict {kvs : List (Val × Val)} (c : Str) : HasText (.dict kvs) → HasText (.rng c (.dict kvs))
  | obj (c s : Str) (cl : Bool) (cd dd sd pd : Conf) : HasText (.obj c cl cd dd sd pd none s)

end Whatami
