import Verif.Spec.Collide
import Verif.Spec.StandIn

/-
Specification for C90, C72 and C80: configurations that ids do not tell apart, also those with values that are not data.  Nothing here refers to how
ids are generated or parsed.
-/
namespace Whatami

/-- The same configuration, but for what ids do not show (`Collide`) and for having, in place of values that are not data, what stands for them. -/
def SameToIds (w w' : What) : Prop := Cong (fun a b => StandIn a b ∨ Collide a b) w.toVal w'.toVal

/-- Configurations all whose visible parts are data, or have something that stands for them, at any depth: any strings, any names. -/
def Showable (w : What) : Prop := ∃ x : What, SeenAs w.toVal x.toVal ∧ SupportedWhat x ∧ DictKeys x.toVal

end Whatami
