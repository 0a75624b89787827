import Verif.Spec.Positional
import Verif.Props.Ops
import Verif.Props.Collide

/-
Lemmas for C19 and C94: what flatten lists, in which order.
-/
namespace Whatami

/-- The parameters of the syntax of a configuration, as flatten lists them.  Vocabulary for the proofs. -/
def flatB : Ast → List Ast
  | .what _ _ kvs => flatBA kvs
  | _ => []
where
  /-- Of all parameters. -/
  flatBA : List (Str × Ast) → List Ast
  | [] => []
  | (_, a) :: r => a :: flatB a ++ flatBA r

/-- The syntax that the text of a value tells. -/
def toldAst (v : Val) : Ast := blur (enc v)

/-- What is known of the list that flatten makes of a value. -/
structure FlatOf (f : Bool) (v : Val) (ps : List (List Str × Val)) : Prop where
  mem : ∀ p x, (p, x) ∈ ps ↔ ParamAt f v p x
  order : DictKeys v → ps.Pairwise fun a b => Before a.1 b.1
  told : f = false → Supported v → (ps.map Prod.snd).map toldAst = flatB (toldAst v)

theorem flatLoop_of {f : Bool} {rec : Val → List Val → R (List (List Val × Val))} (its : Conf)
    (h : ∀ k x, (k, x) ∈ its → ∃ ps, (∀ pk, rec x pk = .ok (ps.map fun e => (pk ++ e.1.map .str, e.2))) ∧ FlatOf f x ps) :
    ∃ ps : List (List Str × Val), (∀ pk, flatLoop true rec pk (its.map fun kv => (.str kv.1, kv.2)) = .ok (ps.map fun e => (pk ++ e.1.map .str, e.2))) ∧
      (∀ p y, (p, y) ∈ ps ↔ ∃ k x, (k, x) ∈ its ∧ ((p = [k] ∧ y = x) ∨ ∃ q, p = k :: q ∧ ParamAt f x q y)) ∧
      ((its.map Prod.fst).Pairwise strLt → (∀ k x, (k, x) ∈ its → DictKeys x) → ps.Pairwise fun a b => Before a.1 b.1) ∧
      (f = false → (∀ k x, (k, x) ∈ its → Supported x) → (ps.map Prod.snd).map toldAst = flatB.flatBA (its.map fun kv => (kv.1, toldAst kv.2))) := by
  induction its with
  | nil => exact ⟨[], fun _ => rfl, fun p y => by simp, fun _ _ => .nil, fun _ _ => rfl⟩
  | cons e r ih =>
    obtain ⟨k, x⟩ := e
    obtain ⟨ps, hr, hf⟩ := h k x (.head _)
    obtain ⟨qs, hq, hm, ho, ht⟩ := ih fun k x hx => h k x (.tail _ hx)
    have hhead : ∀ p y, (p, y) ∈ qs → ∃ k' p', p = k' :: p' ∧ ∃ x', (k', x') ∈ r := by
      intro p y hp
      obtain ⟨k', x', hx, ⟨rfl, -⟩ | ⟨q, rfl, -⟩⟩ := (hm p y).1 hp
      · exact ⟨k', [], rfl, x', hx⟩
      · exact ⟨k', q, rfl, x', hx⟩
    refine ⟨([k], x) :: ps.map (fun e => (k :: e.1, e.2)) ++ qs, fun pk => ?_, fun p y => ?_, fun hk hd => ?_, fun hf0 hsup => ?_⟩
    · simp [flatLoop, hr, hq, List.map_map, Function.comp_def]
    · simp only [List.cons_append, List.mem_cons, List.mem_append, List.mem_map, Prod.mk.injEq, Prod.exists]
      constructor
      · rintro (⟨rfl, rfl⟩ | ⟨q, z, hz, rfl, rfl⟩ | h)
        · exact ⟨k, y, .inl ⟨rfl, rfl⟩, .inl ⟨rfl, rfl⟩⟩
        · exact ⟨k, x, .inl ⟨rfl, rfl⟩, .inr ⟨q, rfl, (hf.mem _ _).1 hz⟩⟩
        · obtain ⟨k', x', hx, h'⟩ := (hm p y).1 h
          exact ⟨k', x', .inr hx, h'⟩
      · rintro ⟨k', x', ⟨rfl, rfl⟩ | hx, h'⟩
        · rcases h' with ⟨rfl, rfl⟩ | ⟨q, rfl, hq⟩
          · exact .inl ⟨rfl, rfl⟩
          · exact .inr (.inl ⟨q, y, (hf.mem _ _).2 hq, rfl, rfl⟩)
        · exact .inr (.inr ((hm p y).2 ⟨k', x', hx, h'⟩))
    · simp only [List.map_cons, List.pairwise_cons] at hk
      have hlt : ∀ p p' y, (p', y) ∈ qs → Before (k :: p) p' := by
        intro p p' y hy
        obtain ⟨k', q, rfl, x', hx⟩ := hhead _ _ hy
        exact .sibling _ _ (hk.1 k' (List.mem_map.2 ⟨_, hx, rfl⟩))
      rw [List.cons_append, List.pairwise_cons, List.pairwise_append]
      refine ⟨?_, ?_, ho hk.2 fun k x hx => hd k x (.tail _ hx), ?_⟩
      · rintro ⟨p, y⟩ hp
        rcases List.mem_append.1 hp with hp | hp
        · obtain ⟨⟨q, z⟩, hz, e⟩ := List.mem_map.1 hp
          cases e
          have := (hf.mem _ _).1 hz
          cases q with
          | nil => cases this
          | cons a q => exact .inside _ (.parent _ _)
        · exact hlt _ _ _ hp
      · exact List.pairwise_map.2 ((hf.order (hd k x (.head _))).imp fun h => .inside _ h)
      · rintro ⟨p, y⟩ hp ⟨p', y'⟩ hp'
        obtain ⟨⟨q, z⟩, hz, e⟩ := List.mem_map.1 hp
        cases e
        exact hlt _ _ _ hp'
    · have h1 := hf.told hf0 (hsup k x (.head _))
      have h2 := ht hf0 fun k x hx => hsup k x (.tail _ hx)
      simp only [List.map_map] at h1 h2
      simp only [List.cons_append, List.map_cons, List.map_append, List.map_map, flatB.flatBA, ← h1, ← h2]
      rfl

theorem flatB_what (o : Option Str) (n : Str) (kvs : List (Str × Ast)) : flatB (blur (.what o n kvs)) = flatB.flatBA (kvs.map fun kv => (kv.1, blur kv.2)) := by
  simp only [blur]
  split
  · next h => obtain ⟨-, h, -⟩ := h; rw [List.isEmpty_iff.1 h]; rfl
  · split
    · next h => obtain ⟨-, h, -⟩ := h; rw [List.isEmpty_iff.1 h]; rfl
    · rw [blurA_map, flatB]

theorem paramAt_what {f : Bool} {v : Val} {p : List Str} {x : Val} (h : ParamAt f v p x) : ∃ n c nk o, v = .what n c nk o := by
  cases h <;> exact ⟨_, _, _, _, rfl⟩

theorem flattenN_of (srt : SortItems) (f : Bool) : ∀ (n : Nat) (v : Val), depth v ≤ n →
    ∃ ps, (∀ pk, flattenN srt { nonIdsToo := f } n v pk = .ok (ps.map fun e => (pk ++ e.1.map .str, e.2))) ∧ FlatOf f v ps := by
  intro n
  induction n with
  | zero => intro v h; have := depth_pos v; omega
  | succ n ih =>
    intro v hv
    by_cases hw : ∃ nm c nk o, v = .what nm c nk o
    · obtain ⟨nm, c, nk, o, rfl⟩ := hw
      have hi := flatItems_what srt { nonIdsToo := f } ⟨nm, c, nk, o⟩
      simp only [What.toVal] at hi
      obtain ⟨ps, h1, h2, h3, h4⟩ := flatLoop_of (f := f) (rec := flattenN srt { nonIdsToo := f } n) (idItems ⟨nm, c, nk, o⟩ f) (by
        intro k x hx
        have := depth_memA (idItems_sub hx)
        simp only [depth] at hv
        exact ih x (by simp only at this; omega))
      have hmem : ∀ {k x}, (k, x) ∈ idItems ⟨nm, c, nk, o⟩ f ↔ (k, x) ∈ c ∧ (f = true ∨ k ∉ nk) := by
        intro k x; rw [mem_idItems]
      refine ⟨ps, fun pk => ?_, fun p y => ?_, fun hd => ?_, fun hf hsup => ?_⟩
      · simp only [flattenN, hi]; exact h1 pk
      · rw [h2]
        constructor
        · rintro ⟨k, x, hx, ⟨rfl, rfl⟩ | ⟨q, rfl, hq⟩⟩
          · exact .here (hmem.1 hx).1 (hmem.1 hx).2
          · exact .deeper (hmem.1 hx).1 (hmem.1 hx).2 hq
        · intro h
          cases h with
          | here a b => exact ⟨_, _, hmem.2 ⟨a, b⟩, .inl ⟨rfl, rfl⟩⟩
          | deeper a b hq => exact ⟨_, _, hmem.2 ⟨a, b⟩, .inr ⟨_, rfl, hq⟩⟩
      · exact h3 (idItems_lt (w := ⟨nm, c, nk, o⟩) (hd _ _ _ _ (.refl _))) fun k x hx => dictKeys_child hd (.what k nm nk o (hmem.1 hx).1)
      · subst hf
        simp only [Supported] at hsup
        rw [h4 rfl fun k x hx => ((supportedA_iff.1 hsup.2.2) k x (hmem.1 hx).1 (by simpa using (hmem.1 hx).2)).2]
        simp only [toldAst, enc]
        rw [enc_items ⟨nm, c, nk, o⟩, flatB_what, encA_map, List.map_map]
        rfl
    · have hi : flatItems srt { nonIdsToo := f } v = .ok [] := by
        cases v <;> first | exact absurd ⟨_, _, _, _, rfl⟩ hw | rfl | skip
        next k _ _ _ => cases k <;> rfl
      refine ⟨[], fun pk => ?_, fun p y => ?_, fun _ => .nil, fun _ hsup => ?_⟩
      · simp only [flattenN, hi, flatLoop]; rfl
      · refine ⟨fun h => (by cases h), fun h => absurd (paramAt_what h) hw⟩
      · cases v <;> first | exact absurd ⟨_, _, _, _, rfl⟩ hw | rfl | (simp only [Supported] at hsup; done)

end Whatami
