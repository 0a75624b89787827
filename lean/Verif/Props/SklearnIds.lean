import Verif.Props.Sklearn
import Verif.Props.Stays

/-
C59: what the id of a sklearn object tells about its parameters.
-/
namespace Whatami

/-- C59: sklearn objects of declared classes with the same id have the same parameters, with the same values (but for what no id shows, C90), those declared
non-id excepted: with `c59_ids_differ` and `c59_nonids`, ids ignore exactly the latter. -/
theorem c59_told {reg : SklReg} {x y : SklObj} {a b : Conf} {m : SklMeta} (hc : x.cls = y.cls) (hx : x.params = .ok a) (hy : y.params = .ok b)
    (hm : dget reg x.cls = some m) (useShort : Bool) :
    ∃ w w', whatForSklearn reg useShort x = .ok w ∧ whatForSklearn reg useShort y = .ok w' ∧
      (SupportedWhat w → SupportedWhat w' → DictKeys w.toVal → DictKeys w'.toVal → idD w = idD w' →
        ∀ k, k ∉ m.nonids → ((∃ v, (k, v) ∈ a) ↔ ∃ v, (k, v) ∈ b) ∧ ∀ v v', (k, v) ∈ a → (k, v') ∈ b → Cong Collide v v') := by
  obtain ⟨w, h1, h2, -, h4, -⟩ := c59_params (reg := reg) hx useShort
  obtain ⟨w', g1, g2, -, g4, -⟩ := c59_params (reg := reg) hy useShort
  refine ⟨w, w', h1, g1, fun s s' d d' e k hk => ?_⟩
  have n := (h4 m hm).2
  have n' := (g4 m (hc ▸ hm)).2
  obtain ⟨-, -, hs, hv⟩ := c90_parts s s' d d' e
  rw [n, n', h2, g2] at hs
  rw [n, h2, g2] at hv
  refine ⟨?_, fun v v' => hv k v v' hk⟩
  have := hs k
  exact ⟨fun h => (this.1 ⟨hk, h⟩).2, fun h => (this.2 ⟨hk, h⟩).2⟩

/-- The hypotheses are met by the forests. -/
example : ∃ reg m, dget reg (exForest 8 23).cls = some m ∧ ∃ w w', whatForSklearn reg true (exForest 8 23) = .ok w ∧ whatForSklearn reg true (exForest 4 23) = .ok w' ∧
    SupportedWhat w ∧ SupportedWhat w' ∧ DictKeys w.toVal ∧ DictKeys w'.toVal ∧ idD w = idD w' := by
  have hd : ∀ j, DictKeys (What.toVal { name := c!"rfc", conf := [(c!"n_estimators", .int 23), (c!"n_jobs", .int j)], nonids := [c!"n_jobs"] }) := by
    intro j n c nk o hw
    rcases within_cases hw with e | ⟨y, hw', hy⟩
    · cases e; show List.Nodup [c!"n_estimators", c!"n_jobs"]; decide
    · cases hy with
      | what _ _ _ _ h =>
        have leaf : ∀ i, DictKeys (.int i) := fun i => dictKeys_leaf (fun x h => by cases h) (fun _ _ _ _ h => by cases h)
        cases h with
        | head => exact leaf _ _ _ _ _ hw'
        | tail _ h =>
          cases h with
          | head => exact leaf _ _ _ _ _ hw'
          | tail _ h => cases h
  have hs : ∀ j, SupportedWhat { name := c!"rfc", conf := [(c!"n_estimators", .int 23), (c!"n_jobs", .int j)], nonids := [c!"n_jobs"] } := by
    intro j
    simp only [SupportedWhat, What.toVal, Supported, SupportedA, and_true]
    exact ⟨fun x h => by (cases h), ident_of (by rfl), fun _ => ident_of (by rfl), fun h => absurd (.head _) h⟩
  exact ⟨[(c!"RandomForestClassifier", ⟨c!"rfc", [c!"n_jobs"]⟩)], ⟨c!"rfc", [c!"n_jobs"]⟩, rfl, _, _, rfl, rfl, hs 8, hs 4, hd 8, hd 4, by decide +kernel⟩

end Whatami
