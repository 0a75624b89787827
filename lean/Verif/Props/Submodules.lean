import Verif.Submodules
import Verif.BasicLemmas

/-
C61: import_submodules.

Specification: `Under` (a module is in a package, at any depth or directly).
-/
namespace Whatami

/-- `k` is the package `p` or a module in it: directly, or (`deep`) in a package that is in it and can be imported. -/
inductive Under (imp : Str → R PyModule) (deep : Bool) : Str → Str → Prop where
  | self (p : Str) : Under imp deep p p
  | child {p : Str} {m : PyModule} {es : List (Str × Bool)} {name : Str} {isPkg : Bool} :
      imp p = .ok m → m.entries = some es → (name, isPkg) ∈ es → Under imp deep p (fullName p name)
  | deeper {p k : Str} {m : PyModule} {es : List (Str × Bool)} {name : Str} :
      deep = true → imp p = .ok m → m.entries = some es → (name, true) ∈ es → Under imp deep (fullName p name) k → Under imp deep p k

/-- What is in the results so far: `P` are the names that were tried. -/
def Tried (imp : Str → R PyModule) (P : Str → Prop) (r : List (Str × PyModule)) : Prop := ∀ k m, dget r k = some m ↔ P k ∧ imp k = .ok m

theorem tried_one {imp : Str → R PyModule} {P : Str → Prop} {r r' : List (Str × PyModule)} {ig : Bool} {full : Str} (h : Tried imp P r)
    (h' : importOne imp ig r full = .ok r') : Tried imp (fun k => P k ∨ k = full) r' := by
  intro k m
  unfold importOne at h'
  cases hi : imp full with
  | ok m' =>
    simp only [hi, Except.ok.injEq] at h'
    subst h'
    rw [dget_dset]
    by_cases e : full = k
    · subst e
      simp only [if_true, Option.some.injEq, hi, Except.ok.injEq, or_true, true_and]
    · rw [if_neg e, h k m]
      have : ¬ k = full := fun h => e h.symm
      simp [this]
  | error e =>
    have : r' = r := by
      cases e <;> simp only [hi] at h' <;> first | (cases h'; done) | skip
      split at h'
      · cases h'; rfl
      · cases h'
    subst this
    rw [h k m]
    constructor
    · rintro ⟨h1, h2⟩
      exact ⟨.inl h1, h2⟩
    · rintro ⟨h1 | rfl, h2⟩
      · exact ⟨h1, h2⟩
      · rw [hi] at h2; cases h2

theorem tried_below {imp : Str → R PyModule} {P Q : Str → Prop} {r r' s : List (Str × PyModule)} {rec : Str → R (List (Str × PyModule))} {ig : Bool} {full : Str}
    (hu : (dkeys s).Nodup) (h : Tried imp P r) (hs : rec full = .ok s) (hq : Tried imp Q s)
    (h' : importBelow rec ig r full = .ok r') : Tried imp (fun k => P k ∨ Q k) r' := by
  intro k m
  unfold importBelow at h'
  simp only [hs, Except.ok.injEq] at h'
  subst h'
  rw [dget_dupdate, dget_reverse hu]
  cases hd : dget s k with
  | some m' =>
    have := (hq k m').1 hd
    simp only [Option.some.injEq]
    constructor
    · rintro rfl
      exact ⟨.inr this.1, this.2⟩
    · rintro ⟨-, h2⟩
      rw [this.2] at h2
      cases h2
      rfl
  | none =>
    simp only
    rw [h k m]
    constructor
    · rintro ⟨h1, h2⟩
      exact ⟨.inl h1, h2⟩
    · rintro ⟨h1 | h1, h2⟩
      · exact ⟨h1, h2⟩
      · have := (hq k m).2 ⟨h1, h2⟩
        rw [hd] at this
        cases this

theorem nodup_one {imp : Str → R PyModule} {r r' : List (Str × PyModule)} {ig : Bool} {full : Str} (h : (dkeys r).Nodup)
    (h' : importOne imp ig r full = .ok r') : (dkeys r').Nodup := by
  unfold importOne at h'
  cases hi : imp full with
  | ok m => simp only [hi, Except.ok.injEq] at h'; subst h'; exact nodup_dset h _ _
  | error e =>
    cases e <;> simp only [hi] at h' <;> first | (cases h'; done) | skip
    split at h'
    · cases h'; exact h
    · cases h'

theorem nodup_below {r r' : List (Str × PyModule)} {rec : Str → R (List (Str × PyModule))} {ig : Bool} {full : Str} (h : (dkeys r).Nodup)
    (h' : importBelow rec ig r full = .ok r') : (dkeys r').Nodup := by
  unfold importBelow at h'
  cases hi : rec full with
  | ok m => simp only [hi, Except.ok.injEq] at h'; subst h'; exact nodup_dupdate h _
  | error e =>
    cases e <;> simp only [hi] at h' <;> first | (cases h'; done) | skip
    split at h'
    · cases h'; exact h
    · cases h'

theorem loop_no_import_error {imp : Str → R PyModule} {rec : Str → R (List (Str × PyModule))} {recurse : Bool} {pkg : Str} (es : List (Str × Bool))
    (r : List (Str × PyModule)) : importLoop imp rec recurse true pkg r es ≠ .error .importError := by
  induction es generalizing r with
  | nil => rintro ⟨⟩
  | cons e es ih =>
    obtain ⟨name, b⟩ := e
    simp only [importLoop]
    cases h1 : importOne imp true r (fullName pkg name) with
    | error e =>
      rintro h
      cases h
      unfold importOne at h1
      cases hi : imp (fullName pkg name) with
      | ok m => simp [hi] at h1
      | error e => cases e <;> simp [hi] at h1
    | ok r1 =>
      simp only
      split
      · cases h2 : importBelow rec true r1 (fullName pkg name) with
        | error e =>
          rintro h
          cases h
          unfold importBelow at h2
          cases hi : rec (fullName pkg name) with
          | ok m => simp [hi] at h2
          | error e => cases e <;> simp [hi] at h2
        | ok r2 => exact ih r2
      · exact ih r1

theorem no_import_error (imp : Str → R PyModule) (n : Nat) (recurse : Bool) (p : Str) : importSubmodules imp n recurse true p ≠ .error .importError := by
  cases n with
  | zero => rintro ⟨⟩
  | succ n =>
    simp only [importSubmodules]
    cases hi : imp p with
    | error e => cases e <;> simp
    | ok m =>
      simp only
      cases he : m.entries with
      | none => rintro ⟨⟩
      | some es => exact loop_no_import_error es _

theorem tried_loop {imp : Str → R PyModule} {rec : Str → R (List (Str × PyModule))} (hne : ∀ p, rec p ≠ .error .importError)
    (hrec : ∀ p s, rec p = .ok s → (dkeys s).Nodup ∧ Tried imp (Under imp true p) s) {recurse ig : Bool} {pkg : Str} (es : List (Str × Bool))
    {P : Str → Prop} {r r' : List (Str × PyModule)} (hu : (dkeys r).Nodup) (h : Tried imp P r) (h' : importLoop imp rec recurse ig pkg r es = .ok r') :
    (dkeys r').Nodup ∧ Tried imp (fun k => P k ∨ ∃ name isPkg, (name, isPkg) ∈ es ∧
      (k = fullName pkg name ∨ recurse = true ∧ isPkg = true ∧ Under imp true (fullName pkg name) k)) r' := by
  induction es generalizing P r with
  | nil =>
    cases h'
    refine ⟨hu, fun k m => ?_⟩
    rw [h k m]
    simp
  | cons e es ih =>
    obtain ⟨name, b⟩ := e
    simp only [importLoop] at h'
    cases h1 : importOne imp ig r (fullName pkg name) with
    | error e => simp [h1] at h'
    | ok r1 =>
      simp only [h1] at h'
      have hu1 := nodup_one hu h1
      have t1 := tried_one h h1
      split at h'
      · rename_i hb
        simp only [Bool.and_eq_true] at hb
        cases h2 : importBelow rec ig r1 (fullName pkg name) with
        | error e => simp [h2] at h'
        | ok r2 =>
          simp only [h2] at h'
          cases hs : rec (fullName pkg name) with
          | error e =>
            exfalso
            unfold importBelow at h2
            cases e <;> simp only [hs] at h2 <;> first | (cases h2; done) | exact hne _ hs
          | ok s =>
            obtain ⟨us, ts⟩ := hrec _ _ hs
            obtain ⟨u', t'⟩ := ih (nodup_below hu1 h2) (tried_below us t1 hs ts h2) h'
            refine ⟨u', fun k m => ?_⟩
            rw [t' k m]
            refine and_congr_left fun _ => ?_
            constructor
            · rintro (((h | h) | h) | ⟨n, b', hm, h⟩)
              · exact .inl h
              · exact .inr ⟨name, b, .head _, .inl h⟩
              · exact .inr ⟨name, b, .head _, .inr ⟨hb.1, hb.2, h⟩⟩
              · exact .inr ⟨n, b', .tail _ hm, h⟩
            · rintro (h | ⟨n, b', hm, h⟩)
              · exact .inl (.inl (.inl h))
              · rcases List.mem_cons.1 hm with e | hm
                · cases e
                  rcases h with h | ⟨-, -, h⟩
                  · exact .inl (.inl (.inr h))
                  · exact .inl (.inr h)
                · exact .inr ⟨n, b', hm, h⟩
      · rename_i hb
        obtain ⟨u', t'⟩ := ih hu1 t1 h'
        refine ⟨u', fun k m => ?_⟩
        rw [t' k m]
        refine and_congr_left fun _ => ?_
        constructor
        · rintro ((h | h) | ⟨n, b', hm, h⟩)
          · exact .inl h
          · exact .inr ⟨name, b, .head _, .inl h⟩
          · exact .inr ⟨n, b', .tail _ hm, h⟩
        · rintro (h | ⟨n, b', hm, h⟩)
          · exact .inl (.inl h)
          · rcases List.mem_cons.1 hm with e | hm
            · cases e
              rcases h with h | ⟨h1, h2, -⟩
              · exact .inl (.inr h)
              · exact absurd (by simp [h1, h2]) hb
            · exact .inr ⟨n, b', hm, h⟩

theorem submodules_spec {imp : Str → R PyModule} {n : Nat} {recurse ig : Bool} {p : Str} {r : List (Str × PyModule)}
    (h : importSubmodules imp n recurse ig p = .ok r) : (dkeys r).Nodup ∧ Tried imp (Under imp recurse p) r := by
  induction n generalizing recurse ig p r with
  | zero => cases h
  | succ n ih =>
    simp only [importSubmodules] at h
    cases hi : imp p with
    | error e =>
      have : r = [] := by
        cases e <;> simp only [hi] at h <;> first | (cases h; done) | skip
        split at h
        · cases h; rfl
        · cases h
      subst this
      refine ⟨List.nodup_nil, fun k m => ?_⟩
      constructor
      · rintro ⟨⟩
      · rintro ⟨hu, hk⟩
        cases hu with
        | self => rw [hi] at hk; cases hk
        | child h1 => rw [hi] at h1; cases h1
        | deeper _ h1 => rw [hi] at h1; cases h1
    | ok m0 =>
      simp only [hi] at h
      cases he : m0.entries with
      | none => simp [he] at h
      | some es =>
        simp only [he] at h
        have t0 : Tried imp (fun k => k = p) (dset [] p m0) := by
          intro k m
          rw [dget_dset]
          by_cases e : p = k
          · subst e
            simp [hi]
          · rw [if_neg e]
            have : ¬ k = p := fun h => e h.symm
            simp [this, dget]
        obtain ⟨hu, ht⟩ := tried_loop (fun q => no_import_error imp n true q) (fun q s hs => ih hs) es (nodup_dset (d := []) List.nodup_nil _ _) t0 h
        refine ⟨hu, fun k m => ?_⟩
        rw [ht k m]
        refine and_congr_left fun _ => ?_
        constructor
        · rintro (rfl | ⟨name, b, hm, rfl | ⟨h1, rfl, h2⟩⟩)
          · exact .self _
          · exact .child hi he hm
          · subst h1
            exact .deeper rfl hi he hm h2
        · intro hk
          cases hk with
          | self => exact .inl rfl
          | child h1 h2 h3 =>
            rw [hi] at h1
            cases h1
            rw [he] at h2
            cases h2
            exact .inr ⟨_, _, h3, .inl rfl⟩
          | deeper h0 h1 h2 h3 h4 =>
            rw [hi] at h1
            cases h1
            rw [he] at h2
            cases h2
            subst h0
            exact .inr ⟨_, _, h3, .inr ⟨rfl, rfl, h4⟩⟩

/-- **C61**: what `import_submodules` returns are exactly the importable modules in the package, each once under its full name:
those directly in it, and (with `recurse_packages`) those in importable packages in it, at any depth. -/
theorem c61_found {imp : Str → R PyModule} {n : Nat} {recurse ig : Bool} {p : Str} {r : List (Str × PyModule)}
    (h : importSubmodules imp n recurse ig p = .ok r) : (r.map Prod.fst).Nodup ∧ ∀ k m, (k, m) ∈ r ↔ Under imp recurse p k ∧ imp k = .ok m := by
  obtain ⟨hu, ht⟩ := submodules_spec h
  refine ⟨hu, fun k m => ?_⟩
  rw [← ht k m]
  exact ⟨fun hm => dget_eq_some_of_mem hu hm, mem_of_dget⟩

/-- C61: import errors are ignored if they are to be. -/
theorem c61_ignored (imp : Str → R PyModule) (n : Nat) (recurse : Bool) (p : Str) : importSubmodules imp n recurse true p ≠ .error .importError :=
  no_import_error imp n recurse p

theorem loop_strict {imp : Str → R PyModule} {rec : Str → R (List (Str × PyModule))} {recurse : Bool} {pkg : Str} (es : List (Str × Bool))
    {r r' : List (Str × PyModule)} (h : importLoop imp rec recurse false pkg r es = .ok r') : ∀ name b, (name, b) ∈ es → ∃ m, imp (fullName pkg name) = .ok m := by
  induction es generalizing r with
  | nil => simp
  | cons e es ih =>
    obtain ⟨name, b⟩ := e
    simp only [importLoop] at h
    cases h1 : importOne imp false r (fullName pkg name) with
    | error e => simp [h1] at h
    | ok r1 =>
      simp only [h1] at h
      have hi : ∃ m, imp (fullName pkg name) = .ok m := by
        unfold importOne at h1
        cases hi : imp (fullName pkg name) with
        | ok m => exact ⟨m, rfl⟩
        | error e => cases e <;> simp [hi] at h1
      have rest : ∀ n b', (n, b') ∈ es → ∃ m, imp (fullName pkg n) = .ok m := by
        split at h
        · cases h2 : importBelow rec false r1 (fullName pkg name) with
          | error e => simp [h2] at h
          | ok r2 =>
            simp only [h2] at h
            exact ih h
        · exact ih h
      intro n b' hm
      rcases List.mem_cons.1 hm with e | hm
      · cases e
        exact hi
      · exact rest n b' hm

/-- C61: with `ignore_errors=False` it returns only if the package and everything directly in it can be imported. -/
theorem c61_strict {imp : Str → R PyModule} {n : Nat} {recurse : Bool} {p : Str} {r : List (Str × PyModule)}
    (h : importSubmodules imp n recurse false p = .ok r) : ∃ m es, imp p = .ok m ∧ m.entries = some es ∧ ∀ name b, (name, b) ∈ es → ∃ m', imp (fullName p name) = .ok m' := by
  cases n with
  | zero => cases h
  | succ n =>
    simp only [importSubmodules] at h
    cases hi : imp p with
    | error e => cases e <;> simp [hi] at h
    | ok m =>
      simp only [hi] at h
      cases he : m.entries with
      | none => simp [he] at h
      | some es =>
        simp only [he] at h
        exact ⟨m, es, rfl, he, loop_strict es h⟩

theorem loop_total {imp : Str → R PyModule} (hi : ∀ k, (∃ m, imp k = .ok m) ∨ imp k = .error .importError) {rec : Str → R (List (Str × PyModule))}
    {recurse : Bool} {pkg : Str} (es : List (Str × Bool)) (hrec : ∀ name, (name, true) ∈ es → ∃ s, rec (fullName pkg name) = .ok s)
    (r : List (Str × PyModule)) : ∃ r', importLoop imp rec recurse true pkg r es = .ok r' := by
  induction es generalizing r with
  | nil => exact ⟨r, rfl⟩
  | cons e es ih =>
    obtain ⟨name, b⟩ := e
    have ih := ih fun n hn => hrec n (.tail _ hn)
    have h1 : ∃ r1, importOne imp true r (fullName pkg name) = .ok r1 := by
      unfold importOne
      rcases hi (fullName pkg name) with ⟨m, h⟩ | h <;> rw [h]
      · exact ⟨_, rfl⟩
      · exact ⟨_, rfl⟩
    obtain ⟨r1, h1⟩ := h1
    simp only [importLoop, h1]
    split
    · rename_i hb
      simp only [Bool.and_eq_true] at hb
      obtain ⟨s, hs⟩ := hrec name (hb.2 ▸ .head _)
      simp only [importBelow, hs]
      exact ih _
    · exact ih _

/-- C61: and it does return (with enough stack), if no import fails otherwise, names listed as packages are packages, and packages are
not nested without end. -/
theorem c61_total {imp : Str → R PyModule} (hi : ∀ k, (∃ m, imp k = .ok m) ∨ imp k = .error .importError) (rank : Str → Nat)
    (hp : ∀ p m es name, imp p = .ok m → m.entries = some es → (name, true) ∈ es →
      rank (fullName p name) < rank p ∧ ∀ m', imp (fullName p name) = .ok m' → m'.entries ≠ none)
    {n : Nat} {p : Str} (hn : rank p < n) (hpkg : ∀ m, imp p = .ok m → m.entries ≠ none) (recurse : Bool) :
    ∃ r, importSubmodules imp n recurse true p = .ok r := by
  induction n generalizing p recurse with
  | zero => omega
  | succ n ih =>
    simp only [importSubmodules]
    rcases hi p with ⟨m, h⟩ | h
    · rw [h]
      simp only
      cases he : m.entries with
      | none => exact absurd he (hpkg m h)
      | some es =>
        simp only
        refine loop_total hi es (fun name hm => ?_) _
        obtain ⟨h1, h2⟩ := hp p m es name h he hm
        exact ih (by omega) h2 true
    · rw [h]
      exact ⟨[], rfl⟩

/-! A package with a module and a package in it, one module of which cannot be imported. -/
def exPackages : Str → R PyModule := fun k =>
  if k = c!"p" then .ok ⟨some [(c!"a", false), (c!"q", true)]⟩
  else if k = c!"p.a" then .ok ⟨none⟩
  else if k = c!"p.q" then .ok ⟨some [(c!"b", false), (c!"c", false)]⟩
  else if k = c!"p.q.b" then .ok ⟨none⟩
  else .error .importError
example : (importSubmodules exPackages 5 true true c!"p").map (List.map Prod.fst) = .ok [c!"p", c!"p.a", c!"p.q", c!"p.q.b"] := by decide
example : (importSubmodules exPackages 5 false true c!"p").map (List.map Prod.fst) = .ok [c!"p", c!"p.a", c!"p.q"] := by decide

/-- The hypotheses of `c61_total` hold of it. -/
example : (∀ k, (∃ m, exPackages k = .ok m) ∨ exPackages k = .error .importError) ∧
    ∀ p m es name, exPackages p = .ok m → m.entries = some es → (name, true) ∈ es →
      10 - (fullName p name).length < 10 - p.length ∧ ∀ m', exPackages (fullName p name) = .ok m' → m'.entries ≠ none := by
  constructor
  · intro k
    unfold exPackages
    repeat' split
    all_goals first | exact .inl ⟨_, rfl⟩ | exact .inr rfl
  · intro p m es name h he hn
    unfold exPackages at h
    repeat' split at h
    all_goals cases h <;> cases he <;> simp at hn
    subst hn
    rename_i hp
    subst hp
    refine ⟨by decide, fun m' h => ?_⟩
    have : exPackages (fullName c!"p" c!"q") = .ok ⟨some [(c!"b", false), (c!"c", false)]⟩ := by decide
    rw [this] at h
    cases h
    simp

/-- `ignore_errors=False` is forgotten in packages: `p.q.c` cannot be imported, and nothing is raised. -/
theorem c61_forgotten : ∃ imp n r, importSubmodules imp n true false c!"p" = .ok r ∧ ∃ k, Under imp true c!"p" k ∧ imp k = .error .importError := by
  refine ⟨exPackages, 5, [(c!"p", ⟨some [(c!"a", false), (c!"q", true)]⟩), (c!"p.a", ⟨none⟩), (c!"p.q", ⟨some [(c!"b", false), (c!"c", false)]⟩), (c!"p.q.b", ⟨none⟩)],
    by decide, c!"p.q.c", ?_, rfl⟩
  refine .deeper (name := c!"q") rfl (m := ⟨some [(c!"a", false), (c!"q", true)]⟩) (es := _) rfl rfl (by simp) ?_
  exact .child (name := c!"c") (isPkg := false) (m := ⟨some [(c!"b", false), (c!"c", false)]⟩) (es := _) rfl rfl (by simp)

end Whatami
