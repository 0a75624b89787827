import Verif.Report
import Verif.Props.ClassGraph
import Verif.Props.Naming
import Verif.Props.Id
import Verif.Props.Text
import Verif.BasicChain

/-
C71: sklearn_parameters_report.

Specification: `Named` (the fully qualified name of a class, as C70 has it).
-/
namespace Whatami

/-- The class has the fully qualified name `s`. -/
def Named (names : Nat → NameAttrs) (c : Nat) (s : Str) : Prop :=
  ∃ m n, (names c).module = .str m ∧ ((names c).qualname = .str n ∨ ((names c).qualname = .absent ∧ (names c).name = .str n)) ∧ s = m ++ c!"." ++ n

theorem named_iff {names : Nat → NameAttrs} {c : Nat} {s : Str} : fqn (names c) (names c) false = .ok s ↔ Named names c s := c70_fqn _ _ _

theorem mem_strSet {acc l : List Str} {s : Str} : s ∈ strSet acc l ↔ s ∈ acc ∨ s ∈ l := by
  induction l generalizing acc with
  | nil => simp [strSet]
  | cons a l ih =>
    simp only [strSet]
    rw [ih]
    by_cases h : a ∈ acc
    · simp only [List.contains_iff_mem, h, if_true, List.mem_cons]
      constructor
      · rintro (h1 | h1) <;> simp [h1]
      · rintro (h1 | rfl | h1) <;> simp [*]
    · simp only [List.contains_iff_mem, h, if_false, List.mem_append, List.mem_cons, List.not_mem_nil, or_false, or_assoc]

theorem nodup_strSet {acc l : List Str} (h : acc.Nodup) : (strSet acc l).Nodup := by
  induction l generalizing acc with
  | nil => exact h
  | cons a l ih =>
    simp only [strSet]
    by_cases ha : a ∈ acc
    · simpa [ha] using ih h
    · simp only [List.contains_iff_mem, ha, if_false]
      refine ih (List.nodup_append.2 ⟨h, by simp, ?_⟩)
      rintro x hx y hy rfl
      obtain rfl := List.mem_singleton.1 hy
      exact ha hx

theorem mem_subclassNames {g : Bases} {depth : Nat} {names : Nat → NameAttrs} {bases : List (R (Option Nat))} {all : List Str}
    (h : subclassNames g depth names bases = .ok all) (s : Str) :
    s ∈ all ↔ ∃ i c, .ok (some i) ∈ bases ∧ Descends g i c ∧ Named names c s := by
  induction bases generalizing all with
  | nil => cases h; simp
  | cons b bs ih =>
    match b, h with
    | .error e, h => cases h
    | .ok none, h =>
      simp only [subclassNames] at h
      rw [ih h]
      simp
    | .ok (some i), h =>
      simp only [subclassNames] at h
      cases h1 : allSubs g depth i with
      | error e => simp [h1, Except.bind] at h
      | ok subs =>
        cases h2 : mapR (fun c => fqn (names c) (names c) false) subs with
        | error e => simp [h1, h2, Except.bind] at h
        | ok ns =>
          cases h3 : subclassNames g depth names bs with
          | error e => simp [h1, h2, h3, Except.bind, Except.map] at h
          | ok rest =>
            simp only [h1, h2, h3, Except.bind, Except.map, Except.ok.injEq] at h
            subst h
            rw [List.mem_append, ih h3]
            constructor
            · rintro (hs | ⟨j, c, hj, hd, hn⟩)
              · obtain ⟨c, hc, hf⟩ := mapR_from h2 hs
                exact ⟨i, c, by simp, (c57_subclasses h1 c).1 hc, named_iff.1 hf⟩
              · exact ⟨j, c, .tail _ hj, hd, hn⟩
            · rintro ⟨j, c, hj, hd, hn⟩
              rcases List.mem_cons.1 hj with e | hj
              · cases e
                left
                obtain ⟨y, hy, hf⟩ := mapR_mem h2 ((c57_subclasses h1 c).2 hd)
                rw [named_iff.2 hn] at hf
                cases hf
                exact hy
              · exact .inr ⟨j, c, hj, hd, hn⟩

/-- **C71**: reported are exactly the names of the classes that inherit, at any distance, from a base that can be imported, unless a declared
class has that name. -/
theorem c71_exact {g : Bases} {depth : Nat} {names : Nat → NameAttrs} {declared : List Nat} {bases : List (R (Option Nat))} {report : List Str}
    (h : unwhatamized g depth names declared bases = .ok report) (s : Str) :
    s ∈ report ↔ (∃ i c, .ok (some i) ∈ bases ∧ Descends g i c ∧ Named names c s) ∧ ∀ c ∈ declared, ¬ Named names c s := by
  simp only [unwhatamized] at h
  cases h1 : mapR (fun c => fqn (names c) (names c) false) declared with
  | error e => simp [h1, Except.bind] at h
  | ok known =>
    cases h2 : subclassNames g depth names bases with
    | error e => simp [h1, h2, Except.bind, Except.map] at h
    | ok all =>
      simp only [h1, h2, Except.bind, Except.map, Except.ok.injEq] at h
      subst h
      rw [mem_sortBy, List.mem_filter, mem_strSet, mem_subclassNames h2]
      simp only [List.not_mem_nil, false_or]
      refine and_congr_right fun _ => ?_
      simp only [Bool.not_eq_true', List.contains_eq_mem, decide_eq_false_iff_not]
      constructor
      · intro hk c hc hn
        obtain ⟨y, hy, hf⟩ := mapR_mem h1 hc
        rw [named_iff.2 hn] at hf
        cases hf
        exact hk hy
      · intro hk hs
        obtain ⟨c, hc, hf⟩ := mapR_from h1 hs
        exact hk c hc (named_iff.1 hf)

/-- **C71**: in ascending order and each once, however many ways there are to inherit. -/
theorem c71_sorted {g : Bases} {depth : Nat} {names : Nat → NameAttrs} {declared : List Nat} {bases : List (R (Option Nat))} {report : List Str}
    (h : unwhatamized g depth names declared bases = .ok report) : report.Pairwise strLt := by
  simp only [unwhatamized] at h
  cases h1 : mapR (fun c => fqn (names c) (names c) false) declared with
  | error e => simp [h1, Except.bind] at h
  | ok known =>
    cases h2 : subclassNames g depth names bases with
    | error e => simp [h1, h2, Except.bind, Except.map] at h
    | ok all =>
      simp only [h1, h2, Except.bind, Except.map, Except.ok.injEq] at h
      subst h
      have hs : (sortBy strLe ((strSet [] all).filter fun s => !known.contains s)).Pairwise fun x y => strLe x y = true :=
        sortBy_sorted strLe_total strLe_trans _
      have hn : (sortBy strLe ((strSet [] all).filter fun s => !known.contains s)).Nodup :=
        (sortBy_perm _ _).nodup_iff.2 ((nodup_strSet List.nodup_nil).filter _)
      exact (hs.and hn).imp fun h => strLt_of_strLe h.1 h.2

/-- **C71**: the report can be made, given that every class has a name and the bases that are not there fail to import. -/
theorem c71_defined {g : Bases} (hg : Defined g) {depth : Nat} (hd : g.length < depth) {names : Nat → NameAttrs} (hn : ∀ c, ∃ s, Named names c s)
    {declared : List Nat} {bases : List (R (Option Nat))} (hb : ∀ e, .error e ∉ bases) :
    ∃ report, unwhatamized g depth names declared bases = .ok report := by
  have all : ∀ l : List Nat, ∃ ns, mapR (fun c => fqn (names c) (names c) false) l = .ok ns := fun l =>
    mapR_ok_iff.2 fun c _ => by obtain ⟨s, hs⟩ := hn c; exact ⟨s, named_iff.2 hs⟩
  have subs : ∃ ns, subclassNames g depth names bases = .ok ns := by
    induction bases with
    | nil => exact ⟨_, rfl⟩
    | cons b bs ih =>
      obtain ⟨rest, hr⟩ := ih fun e he => hb e (.tail _ he)
      match b, hb with
      | .error e, hb => exact absurd (.head _) (hb e)
      | .ok none, _ => exact ⟨rest, hr⟩
      | .ok (some i), _ =>
        obtain ⟨l, hl⟩ := c57_defined hg (n := depth) (i := i) (by omega)
        obtain ⟨ns, hns⟩ := all l
        exact ⟨ns ++ rest, by simp only [subclassNames, hl, hns, hr, Except.bind, Except.map]⟩
  obtain ⟨known, hk⟩ := all declared
  obtain ⟨ns, hs⟩ := subs
  exact ⟨_, by simp only [unwhatamized, hk, hs, Except.bind, Except.map]; rfl⟩

/-- A base with two subclasses and a class below both; one of the former is declared, another base cannot be imported. -/
def exClasses : Bases := [[], [0], [0], [1, 2]]
def exClassNames (i : Nat) : NameAttrs := ⟨.str c!"sk", .str ((c!"BCDE").drop i |>.take 1), .absent⟩
example : unwhatamized exClasses 5 exClassNames [2] [.ok (some 0), .ok none] = .ok [c!"sk.C", c!"sk.E"] := by decide +kernel
example : Defined exClasses := by
  rintro i j ⟨b, hb, hi⟩
  match j, hb with
  | 0, hb => cases hb; cases hi
  | 1, hb => cases hb; simp at hi; omega
  | 2, hb => cases hb; simp at hi; omega
  | 3, hb => cases hb; simp at hi; omega
  | j + 4, hb => simp [exClasses] at hb

end Whatami
