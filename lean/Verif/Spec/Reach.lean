import Verif.Heap

/-
Specification vocabulary for C21-C23: which objects and dictionaries an object depends on.
-/
namespace Whatami

/-- The value mentions object `b`. -/
inductive Mentions (b : Nat) : HVal → Prop
  | ref : Mentions b (.ref b)
  | tup {x : HVal} {xs : List HVal} : x ∈ xs → Mentions b x → Mentions b (.tup xs)

/-- Object `a` has a parameter mentioning object `b`. -/
def Holds (h : Heap) (a b : Nat) : Prop :=
  ∃ o d k v, h.objs[a]? = some o ∧ h.dicts[o.conf]? = some d ∧ (k, v) ∈ d ∧ Mentions b v

/-- Object `b` is `a` or nested in `a` at any depth. -/
inductive Reach (h : Heap) (a : Nat) : Nat → Prop
  | refl : Reach h a a
  | step {b c : Nat} : Reach h a b → Holds h b c → Reach h a c

/-- The dictionary `d` is the configuration of `a` or of something nested in `a`. -/
def Owns (h : Heap) (a d : Nat) : Prop := ∃ b o, Reach h a b ∧ h.objs[b]? = some o ∧ o.conf = d

/-- Nothing dangles. -/
structure HeapOk (h : Heap) : Prop where
  conf : ∀ (a : Nat) (o : WObj), h.objs[a]? = some o → o.conf < h.dicts.length
  refs : ∀ (d : Nat) items k v b, h.dicts[d]? = some items → (k, v) ∈ items → Mentions b v → b < h.objs.length

/-- The operation writes in place to none of the objects satisfying `P` and none of the dictionaries
satisfying `Q`. -/
def Avoids (P Q : Nat → Prop) (h : Heap) : HOp → Prop
  | .set a _ _ false => ∀ o, h.objs[a]? = some o → ¬ Q o.conf
  | .write d _ _ => ¬ Q d
  | .attrs a _ _ _ => ¬ P a
  | .rebind a _ => ¬ P a
  | _ => True

/-- `Runs R h ops h'`: running `ops` from `h` ends in `h'`, and every operation satisfied `R` when it was run. -/
inductive Runs (R : Heap → HOp → Prop) : Heap → List HOp → Heap → Prop
  | nil (h : Heap) : Runs R h [] h
  | cons {h h1 h2 : Heap} {op : HOp} {ops : List HOp} :
      hStep h op = some h1 → R h op → Runs R h1 ops h2 → Runs R h (op :: ops) h2

end Whatami
