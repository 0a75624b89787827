import Verif.Spec.SameToIds
import Verif.Props.Collide

/-
C90 for all configurations, whatever values they contain; and the part of them that C08 is about.
-/
namespace Whatami

theorem sameToIds_text {w w' : What} (h : SameToIds w w') : val? (idD w) = val? (idD w') :=
  idD_of_text (cong_text (fun _ _ hp => hp.elim standIn_text collide_text) h)

theorem showable_id {w : What} (h : Showable w) : ∃ x : What, SupportedWhat x ∧ DictKeys x.toVal ∧ SameToIds w x ∧ ∃ s, idD w = .ok s ∧ idD x = .ok s := by
  obtain ⟨x, hs, hx, hd⟩ := h
  have ha : SameToIds w x := cong_mono (fun _ _ h => h.imp id fun h => .inr (.inr (.inl h))) hs
  refine ⟨x, hx, hd, ha, _, ?_, (supported_id hx).1⟩
  have e := sameToIds_text ha
  rw [(supported_id hx).1] at e
  revert e
  cases idD w with
  | error _ => intro e; cases e
  | ok u => intro e; exact congrArg Except.ok (Option.some.inj e)

/-- C90, for all configurations: they have the same id if and only if they are the same but for what ids do not show, where functions, partials,
arrays, objects and the like are shown by what stands for them. -/
theorem c90_same_to_ids {w w' : What} (h : Showable w) (h' : Showable w') : idD w = idD w' ↔ SameToIds w w' := by
  obtain ⟨x, hx, hd, ha, s, e1, e2⟩ := showable_id h
  obtain ⟨x', hx', hd', ha', s', e1', e2'⟩ := showable_id h'
  constructor
  · intro e
    have := (c90_same_id hx hx' hd hd').1 (by rw [e2, e2', ← e1, ← e1', e])
    exact .trans ha (.trans (cong_mono (fun _ _ h => .inr h) this) (.symm ha'))
  · intro hc
    have := sameToIds_text hc
    rw [e1, e1'] at this ⊢
    exact congrArg Except.ok (Option.some.inj this)

theorem className_of {f : Str} (h : Dotted f) : ClassName f := fun c hc => (dotted_chars h c hc).2

theorem showable_has_id {w : What} (h : Showable w) : ∃ s, idD w = .ok s := by
  obtain ⟨_, -, -, -, s, e, -⟩ := showable_id h
  exact ⟨s, e⟩

theorem showable_paren {w : What} (h : Showable w) {s : Str} (e : idD w = .ok s) : '(' ∈ s := by
  obtain ⟨x, hx, hd, -, s', e1, e2⟩ := showable_id h
  rw [e] at e1
  cases e1
  rw [(supported_id hx).1] at e2
  cases e2
  obtain ⟨n, c, nk, o⟩ := x
  cases o <;> simp [What.toVal, enc, text, toks]

mutual
theorem printable_supported : ∀ v : Val, Printable ⟨False, False, True⟩ v → Supported v ∧ DictKeys v
  | .none, _ => ⟨trivial, fun _ _ _ _ h => by (cases h with | step _ hc => cases hc)⟩
  | .bool _, _ => ⟨trivial, fun _ _ _ _ h => by (cases h with | step _ hc => cases hc)⟩
  | .int i, _ => ⟨trivial, fun _ _ _ _ h => by (cases h with | step _ hc => cases hc)⟩
  | .float t, h => ⟨h, fun _ _ _ _ h => by (cases h with | step _ hc => cases hc)⟩
  | .str s, _ => ⟨trivial, fun _ _ _ _ h => by (cases h with | step _ hc => cases hc)⟩
  | .cls f, h => ⟨className_of h, fun _ _ _ _ h => by (cases h with | step _ hc => cases hc)⟩
  | .tuple xs, h => by
      simp only [Printable] at h
      have ih := printable_supportedL xs h
      refine ⟨supportedL_iff.2 fun x hx => (ih x hx).1, fun n c nk o hw => ?_⟩
      cases hw with
      | step hw hc => cases hc with | tuple hm => exact (ih _ hm).2 _ _ _ _ hw
  | .list xs, h => by
      simp only [Printable] at h
      have ih := printable_supportedL xs h
      refine ⟨supportedL_iff.2 fun x hx => (ih x hx).1, fun n c nk o hw => ?_⟩
      cases hw with
      | step hw hc => cases hc with | list hm => exact (ih _ hm).2 _ _ _ _ hw
  | .set xs, h => by
      simp only [Printable] at h
      have ih := printable_supportedL xs h
      refine ⟨supportedL_iff.2 fun x hx => (ih x hx).1, fun n c nk o hw => ?_⟩
      cases hw with
      | step hw hc => cases hc with | set hm => exact (ih _ hm).2 _ _ _ _ hw
  | .fset xs, h => by
      simp only [Printable] at h
      have ih := printable_supportedL xs h.2
      refine ⟨supportedL_iff.2 fun x hx => (ih x hx).1, fun n c nk o hw => ?_⟩
      cases hw with
      | step hw hc => cases hc with | fset hm => exact (ih _ hm).2 _ _ _ _ hw
  | .dict kvs, h => by
      simp only [Printable] at h
      have ih := printable_supportedD kvs h
      refine ⟨supportedD_iff.2 fun x hx => ⟨(ih x hx).1.1, (ih x hx).2.1⟩, fun n c nk o hw => ?_⟩
      cases hw with
      | step hw hc => cases hc with
        | dictKey hm => exact (ih _ hm).1.2 _ _ _ _ hw
        | dictVal hm => exact (ih _ hm).2.2 _ _ _ _ hw
  | .what n c nk o, h => by
      simp only [Printable, or_false] at h
      obtain ⟨⟨h1, h2, h3⟩, -, hu, rfl, ha⟩ := h
      have ih := printable_supportedA c ha
      simp only [Supported]
      refine ⟨⟨h1, h2, supportedA_iff.2 fun k v hm _ => ⟨h3 k (List.mem_map.2 ⟨_, hm, rfl⟩), (ih k v hm).1⟩⟩, fun n' c' nk' o' hw => ?_⟩
      cases hw with
      | refl => exact hu
      | step hw hc => cases hc with | what k _ _ _ hm => exact (ih _ _ hm).2 _ _ _ _ hw
  | .sub _ _ _ _, h => by simp only [Printable] at h
  | .odict _ _ _, h => by simp only [Printable] at h
  | .ddict _ _ _, h => by simp only [Printable] at h
  | .obj _ _ _ _ _ _ _ _, h => by simp only [Printable] at h
  | .duck _ _ _ _, h => by simp only [Printable] at h
  | .numtype _, h => by simp only [Printable] at h
  | .wcls _, h => by simp only [Printable] at h
  | .func _ _ _, h => by simp only [Printable] at h
  | .part _ _ _ _, h => by simp only [Printable] at h
  | .builtin _, h => by simp only [Printable] at h
  | .property, h => by simp only [Printable] at h
  | .array _ _, h => by simp only [Printable] at h
  | .rng _ _, h => by simp only [Printable] at h
termination_by structural v => v
theorem printable_supportedL : ∀ xs : List Val, PrintableL ⟨False, False, True⟩ xs → ∀ x ∈ xs, Supported x ∧ DictKeys x
  | [], _, x, hx => by cases hx
  | y :: ys, h, x, hx => by
      simp only [PrintableL] at h
      have h1 := printable_supported y h.1
      have h2 := printable_supportedL ys h.2
      rcases List.mem_cons.1 hx with e | hx
      · rw [e]; exact h1
      · exact h2 x hx
termination_by structural xs => xs
theorem printable_supportedD : ∀ xs : List (Val × Val), PrintableD ⟨False, False, True⟩ xs →
    ∀ x ∈ xs, (Supported x.1 ∧ DictKeys x.1) ∧ Supported x.2 ∧ DictKeys x.2
  | [], _, x, hx => by cases hx
  | (k, v) :: ys, h, x, hx => by
      simp only [PrintableD] at h
      have h0 := printable_supported k h.1
      have h1 := printable_supported v h.2.1
      have h2 := printable_supportedD ys h.2.2
      rcases List.mem_cons.1 hx with e | hx
      · rw [e]; exact ⟨h0, h1⟩
      · exact h2 x hx
termination_by structural xs => xs
theorem printable_supportedA : ∀ xs : List (Str × Val), PrintableA ⟨False, False, True⟩ [] xs → ∀ k v, (k, v) ∈ xs → Supported v ∧ DictKeys v
  | [], _, k, v, hx => by cases hx
  | (k', v') :: ys, h, k, v, hx => by
      simp only [PrintableA] at h
      have h1 := printable_supported v' (h.1 (by simp))
      have h2 := printable_supportedA ys h.2
      rcases List.mem_cons.1 hx with e | hx
      · cases e; exact h1
      · exact h2 k v hx
termination_by structural xs => xs
end

theorem printableWhat_supported {w : What} (h : PrintableWhat ⟨False, False, True⟩ w) : SupportedWhat w ∧ DictKeys w.toVal := by
  obtain ⟨n, c, nk, o⟩ := w
  obtain ⟨⟨h1, h2, h3⟩, hu, hn, hv⟩ := h
  simp only [or_false] at hn h1 h2 h3 hu hv
  subst hn
  have key : ∀ k v, (k, v) ∈ c → Supported v ∧ DictKeys v := fun k v hm => printable_supported v (hv k v hm (by simp))
  refine ⟨?_, fun n' c' nk' o' hw => ?_⟩
  · simp only [SupportedWhat, What.toVal, Supported]
    exact ⟨h1, h2, supportedA_iff.2 fun k v hm _ => ⟨h3 k (List.mem_map.2 ⟨_, hm, rfl⟩), (key k v hm).1⟩⟩
  · cases hw with
    | refl => exact hu
    | step hw hc => cases hc with | what k _ _ _ hm => exact (key _ _ hm).2 _ _ _ _ hw

/-- The configurations of C08 are among them. -/
theorem printable_showable {w : What} (h : PrintableWhat ⟨False, False, True⟩ w) : Showable w :=
  ⟨w, .refl _, printableWhat_supported h⟩

/-- C90 and C08: on the configurations that read back, what ids do not show is the order of parameters, sets and dicts. -/
theorem c90_printable {w w' : What} (h : PrintableWhat ⟨False, False, True⟩ w) (h' : PrintableWhat ⟨False, False, True⟩ w') :
    SameToIds w w' ↔ Cong Reorder w.toVal w'.toVal := by
  rw [← c90_same_to_ids (printable_showable h) (printable_showable h'), c08_iff h h']

-- the class `int` shows as `int()`
example : SameToIds (exOne (.numtype c!"int")) (exOne (.what c!"int" [] [] none)) :=
  .what c!"f" [] [] c!"a" [] none (.base (.inl (.numtype _)))
-- a partial, a lambda with an array for a default, a list of a subclass, a numpy number
example : Showable exSeen := ⟨exSeenAs, exSeen_seen, printableWhat_supported (exSeen_printable _)⟩

end Whatami
