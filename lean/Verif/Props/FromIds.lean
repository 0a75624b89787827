import Verif.Props.Answers
import Verif.Props.Sort
import Verif.Props.Match
import Verif.Props.Columns
import Verif.Props.RoundTrip
import Verif.BasicChain
import Verif.Props.Text

/-
C75: working from ids is working from the Whats: `sort_whatids`, `match_whatids` and `whatid2columns` on the ids of Whats give what
the Whats themselves give.

Specification: the fragment of C06 (`PrintableWhat`, `LoadableWhat`, no nan, no parameters left out of the id), `Matches` (C38),
`ColumnNamed`, `LooksUp` (C49).
-/
namespace Whatami

variable {fi : Str → Option Int} {E : Env}

/-- The Whats of C06: ids of them read back as equal Whats. -/
def Faithful (E : Env) (w : What) : Prop :=
  PrintableWhat ⟨False, False, True⟩ w ∧ LoadableWhat ⟨False, False, True⟩ E w ∧ ¬ Within (.float c!"nan") w.toVal

/-! ### Lemmas -/

/-- Without nans it does not matter whether nans are equal. -/
theorem eq_nan (n : Nat) : ∀ a, depth a ≤ n → ¬ Within (.float c!"nan") a → ∀ b, pyEq fi true a b = true → pyEq fi false a b = true := by
  induction n with
  | zero => intro a h; have := depth_pos a; omega
  | succ n ih =>
    intro a hd ha b h
    have sub : ∀ x, Child x a → ¬ Within (.float c!"nan") x := fun x hx hw => ha (.step hw hx)
    rcases eq_shape h with ⟨rfl, hs⟩ | ⟨m, hm⟩ | ⟨xs, rfl⟩ | ⟨xs, rfl⟩ | ⟨xs, hxs⟩ | ⟨xs, rfl⟩ | ⟨nm, c, nk, o, rfl⟩
    · rcases hs with rfl | ⟨s, rfl⟩ | ⟨s, rfl⟩ | ⟨s, rfl⟩ <;> simp [pyEq]
    · obtain ⟨n', hn', he⟩ := (eq_num_iff hm).1 h
      refine (eq_num_iff hm).2 ⟨n', hn', ?_⟩
      cases m with
      | inl m => cases n' <;> simpa [numEq] using he
      | inr m =>
        cases n' with
        | inl => simp [numEq] at he
        | inr k =>
          have : m ≠ c!"nan" := by
            rintro rfl
            cases a <;> simp only [numKey, reduceCtorEq, Option.some.injEq] at hm
            rename_i t
            cases hf : fi t <;> rw [hf] at hm <;> cases hm
            exact ha (.refl _)
          simp only [numEq, Bool.and_eq_true] at he ⊢
          exact ⟨he.1, by simpa using this⟩
    · obtain ⟨ys, rfl, hl⟩ := eq_tuple_iff.1 h
      refine eq_tuple_iff.2 ⟨ys, rfl, ?_⟩
      rw [eqL_iff] at hl ⊢
      refine ⟨hl.1, fun i x y hx hy => ?_⟩
      have hm := List.mem_of_getElem? hx
      have := depth_mem hm
      simp only [depth] at hd
      exact ih x (by omega) (sub x (.tuple hm)) y (hl.2 i x y hx hy)
    · obtain ⟨ys, rfl, hl⟩ := eq_list_iff.1 h
      refine eq_list_iff.2 ⟨ys, rfl, ?_⟩
      rw [eqL_iff] at hl ⊢
      refine ⟨hl.1, fun i x y hx hy => ?_⟩
      have hm := List.mem_of_getElem? hx
      have := depth_mem hm
      simp only [depth] at hd
      exact ih x (by omega) (sub x (.list hm)) y (hl.2 i x y hx hy)
    · obtain ⟨ys, hys, hl, hsub⟩ := (eq_set_iff hxs).1 h
      refine (eq_set_iff hxs).2 ⟨ys, hys, hl, fun x hx => ?_⟩
      obtain ⟨y, hy, he⟩ := hsub x hx
      have := elems_depth hxs hx
      exact ⟨y, hy, ih x (by omega) (sub x (elems_child hxs hx)) y he⟩
    · obtain ⟨ys, rfl, hl, hsub⟩ := eq_dict_iff.1 h
      refine eq_dict_iff.2 ⟨ys, rfl, hl, fun x hx => ?_⟩
      obtain ⟨y, hy, h1, h2⟩ := hsub x hx
      have := depth_memD (k := x.1) (v := x.2) hx
      simp only [depth] at hd
      exact ⟨y, hy, ih x.1 (by omega) (sub _ (.dictKey (y := x.2) hx)) _ h1, ih x.2 (by omega) (sub _ (.dictVal (y := x.1) hx)) _ h2⟩
    · obtain ⟨c', nk', rfl, hl, hsub⟩ := eq_what_iff.1 h
      refine eq_what_iff.2 ⟨c', nk', rfl, hl, fun x hx => ?_⟩
      obtain ⟨y, hy, h1, h2⟩ := hsub x hx
      have := depth_memA (k := x.1) (v := x.2) hx
      simp only [depth] at hd
      exact ⟨y, hy, h1, ih x.2 (by omega) (sub _ (.what x.1 _ _ _ hx)) _ h2⟩

theorem Within.nodoubles {ns : Bool} {x v : Val} (h : Within x v) (hd : NoDoubles fi ns v) : NoDoubles fi ns x := by
  induction h with
  | refl => exact hd
  | step _ hc ih => exact ih (hd.child hc)

theorem printableL_all {F : Frag} {xs : List Val} : PrintableL F xs ↔ ∀ x ∈ xs, Printable F x := by
  induction xs with
  | nil => simp [PrintableL]
  | cons x xs ih => simp [PrintableL, ih]

theorem printableD_all {F : Frag} {xs : List (Val × Val)} : PrintableD F xs ↔ ∀ x ∈ xs, Printable F x.1 ∧ Printable F x.2 := by
  induction xs with
  | nil => simp [PrintableD]
  | cons x xs ih => obtain ⟨k, v⟩ := x; simp [PrintableD, ih, and_assoc]

theorem printableA_all {F : Frag} {nk : List Str} {xs : Conf} : PrintableA F nk xs ↔ ∀ x ∈ xs, x.1 ∉ nk → Printable F x.2 := by
  induction xs with
  | nil => simp [PrintableA]
  | cons x xs ih => obtain ⟨k, v⟩ := x; simp [PrintableA, ih]

theorem loadableL_all {F : Frag} {xs : List Val} : LoadableL F E xs ↔ ∀ x ∈ xs, Loadable F E x := by
  induction xs with
  | nil => simp [LoadableL]
  | cons x xs ih => simp [LoadableL, ih]

theorem loadableD_all {F : Frag} {xs : List (Val × Val)} : LoadableD F E xs ↔ ∀ x ∈ xs, Loadable F E x.1 ∧ Loadable F E x.2 := by
  induction xs with
  | nil => simp [LoadableD]
  | cons x xs ih => obtain ⟨k, v⟩ := x; simp [LoadableD, ih, and_assoc]

theorem loadableA_all {F : Frag} {nk : List Str} {xs : Conf} : LoadableA F E nk xs ↔ ∀ x ∈ xs, x.1 ∉ nk → Loadable F E x.2 := by
  induction xs with
  | nil => simp [LoadableA]
  | cons x xs ih => obtain ⟨k, v⟩ := x; simp [LoadableA, ih]

theorem apart_ne {F : Frag} {x y : Val} (h : Apart F fi x y) : pyEq fi false x y = false := (h x y (.refl x) (.refl y)).1

theorem reads_nodoubles {F : Frag} (hF : ¬ F.nonids) (n : Nat) : ∀ v, depth v ≤ n → Printable F v → Loadable F E v → NoDoubles E.fi false v ∧ AllIds v := by
  induction n with
  | zero => intro v h; have := depth_pos v; omega
  | succ n ih =>
    intro v hd hp hl
    have mk : (∀ xs, setElems? v = some xs → xs.Pairwise fun x y => pyEq E.fi false x y = false) →
        (∀ kvs, v = .dict kvs → kvs.Pairwise fun x y => pyEq E.fi false x.1 y.1 = false) →
        (∀ n conf nk o, v = .what n conf nk o → UniqueKeys conf ∧ nk = []) →
        (∀ x, Child x v → Printable F x ∧ Loadable F E x ∧ depth x < depth v) → NoDoubles E.fi false v ∧ AllIds v := by
      intro h1 h2 h3 h4
      refine ⟨nodoubles_of h1 h2 (fun n conf nk o e => (h3 n conf nk o e).1) fun x hx => ?_, fun n c nk o hw => ?_⟩
      · obtain ⟨a, b, c⟩ := h4 x hx
        exact (ih x (by omega) a b).1
      · rcases within_cases hw with rfl | ⟨y, hy, hc⟩
        · rw [(h3 n c nk o rfl).2]; simp
        · obtain ⟨a, b, d⟩ := h4 y hc
          exact (ih y (by omega) a b).2 n c nk o hy
    cases v with
    | none | bool | int | float | str | cls =>
      exact mk (fun _ h => by cases h) (fun _ h => by cases h) (fun _ _ _ _ h => by cases h) fun x hx => by cases hx
    | tuple xs =>
      simp only [Printable, Loadable, printableL_all, loadableL_all] at hp hl
      refine mk (fun _ h => by cases h) (fun _ h => by cases h) (fun _ _ _ _ h => by cases h) fun x hx => ?_
      cases hx with
      | tuple hm =>
        have := depth_mem hm
        exact ⟨hp x hm, hl x hm, by simp only [depth]; omega⟩
    | list xs =>
      simp only [Printable, Loadable, printableL_all, loadableL_all] at hp hl
      refine mk (fun _ h => by cases h) (fun _ h => by cases h) (fun _ _ _ _ h => by cases h) fun x hx => ?_
      cases hx with
      | list hm =>
        have := depth_mem hm
        exact ⟨hp x hm, hl x hm, by simp only [depth]; omega⟩
    | set xs =>
      simp only [Printable, Loadable, printableL_all, loadableL_all] at hp hl
      refine mk (fun _ h => ?_) (fun _ h => by cases h) (fun _ _ _ _ h => by cases h) fun x hx => ?_
      · cases h; exact hl.2.2.imp apart_ne
      cases hx with
      | set hm =>
        have := depth_mem hm
        exact ⟨hp x hm, hl.1 x hm, by simp only [depth]; omega⟩
    | fset xs =>
      simp only [Printable, Loadable, printableL_all, loadableL_all] at hp hl
      refine mk (fun _ h => ?_) (fun _ h => by cases h) (fun _ _ _ _ h => by cases h) fun x hx => ?_
      · cases h; exact hl.2.2.imp apart_ne
      cases hx with
      | fset hm =>
        have := depth_mem hm
        exact ⟨hp.2 x hm, hl.1 x hm, by simp only [depth]; omega⟩
    | dict kvs =>
      simp only [Printable, Loadable, printableD_all, loadableD_all] at hp hl
      refine mk (fun _ h => by cases h) (fun _ h => ?_) (fun _ _ _ _ h => by cases h) fun x hx => ?_
      · cases h; exact (List.pairwise_map.1 hl.2.2).imp apart_ne
      cases hx with
      | dictKey hm =>
        have := depth_memD hm
        exact ⟨(hp _ hm).1, (hl.1 _ hm).1, by simp only [depth]; omega⟩
      | dictVal hm =>
        have := depth_memD hm
        exact ⟨(hp _ hm).2, (hl.1 _ hm).2, by simp only [depth]; omega⟩
    | what nm c nk o =>
      simp only [Printable, Loadable, printableA_all, loadableA_all] at hp hl
      have hnk : nk = [] := hp.2.2.2.1.resolve_right hF
      subst hnk
      refine mk (fun _ h => by cases h) (fun _ h => by cases h) (fun _ _ _ _ h => ?_) fun x hx => ?_
      · cases h; exact ⟨hp.2.2.1, rfl⟩
      cases hx with
      | what k _ _ _ hm =>
        have := depth_memA hm
        exact ⟨hp.2.2.2.2 _ hm (by simp), hl.2 _ hm (by simp), by simp only [depth]; omega⟩
    | _ => simp only [Printable] at hp

theorem Faithful.unique {w : What} (h : Faithful E w) : NoDoubles E.fi false w.toVal ∧ AllIds w.toVal := by
  obtain ⟨n, c, nk, o⟩ := w
  have hnk : nk = [] := h.1.2.2.1.resolve_right (fun h => h)
  subst hnk
  have part : ∀ k v, (k, v) ∈ c → NoDoubles E.fi false v ∧ AllIds v := fun k v hm =>
    reads_nodoubles (fun h => h) (depth v) v (Nat.le_refl _) (h.1.2.2.2 k v hm (by simp)) (h.2.1.2 k v hm (by simp))
  refine ⟨nodoubles_of (fun _ h => by cases h) (fun _ h => by cases h) (fun _ _ _ _ e => ?_) fun x hx => ?_, fun n c nk o hw => ?_⟩
  · cases e; exact h.1.2.1
  · cases hx with
    | what k _ _ _ hm => exact (part k x hm).1
  · rcases within_cases hw with e | ⟨y, hy, hc⟩
    · cases e; simp
    · cases hc with
      | what k _ _ _ hm => exact (part k y hm).2 n c nk o hy

theorem nodoubles_lift {v : Val} (h : NoDoubles fi false v) (hn : ¬ Within (.float c!"nan") v) : NoDoubles fi true v := by
  have key : ∀ x y, Within x v → pyEq fi false x y = false → pyEq fi true x y = false := by
    intro x y hx hxy
    cases ht : pyEq fi true x y with
    | false => rfl
    | true => rw [eq_nan (depth x) x (Nat.le_refl _) (fun hw => hn (hw.trans hx)) y ht] at hxy; cases hxy
  refine ⟨fun xs hx => ?_, fun kvs hx => ?_, h.2.2⟩
  · refine (h.1 xs hx).imp_of_mem fun {a b} ha _ hab => key a b ?_ hab
    rcases hx with hx | hx
    · exact (Child.set ha).within.trans hx
    · exact (Child.fset ha).within.trans hx
  · exact (h.2.1 kvs hx).imp_of_mem fun {a b} ha _ hab => key a.1 b.1 ((Child.dictKey (y := a.2) ha).within.trans hx) hab

/-- The id of a What reads back as its twin. -/
theorem Faithful.twin {w : What} (h : Faithful E w) : ∃ s w', idD w = .ok s ∧ parseWhatid E s = .ok w' ∧ Twins E.fi w.toVal w'.toVal := by
  obtain ⟨s, w', h1, h2, h3⟩ := c06_equal true h.1 h.2.1 (.inl rfl)
  exact ⟨s, w', h1, h2, twins h3 (nodoubles_lift h.unique.1 h.2.2)⟩

/-! ### Sorting -/

/-- The values of the keys, as `whatvalues` finds them in both. -/
theorem values_twins {w w' : What} (h : Twins E.fi w.toVal w'.toVal) (keys : List Val) :
    (∃ e, whatvalues E.fi w (.tuple keys) = .error e ∧ whatvalues E.fi w' (.tuple keys) = .error e) ∨
    ∃ vs vs', whatvalues E.fi w (.tuple keys) = .ok vs ∧ whatvalues E.fi w' (.tuple keys) = .ok vs' ∧ All2 (Twins E.fi) vs vs' := by
  simp only [whatvalues]
  induction keys with
  | nil => exact .inr ⟨[], [], rfl, rfl, .nil⟩
  | cons k keys ih =>
    rcases item_twins (depth k) k (Nat.le_refl _) _ _ _ _ _ _ _ _ h with ⟨v, v', h1, h2, h3⟩ | ⟨e, h1, h2⟩
    · rcases ih with ⟨e, g1, g2⟩ | ⟨vs, vs', g1, g2, g3⟩
      · exact .inl ⟨e, by simp only [mapR, h1, g1], by simp only [mapR, h2, g2]⟩
      · exact .inr ⟨v :: vs, v' :: vs', by simp only [mapR, h1, g1], by simp only [mapR, h2, g2], .cons h3 g3⟩
    · exact .inl ⟨e, by simp only [mapR, h1], by simp only [mapR, h2]⟩

theorem tupleLt_twins {lt : Val → Val → Bool} (hlt : ∀ a a' b b', pyEq fi true a a' = true → pyEq fi true b b' = true → lt a b = lt a' b') {xs xs' : List Val}
    (h : All2 (Twins fi) xs xs') : ∀ {ys ys' : List Val}, All2 (Twins fi) ys ys' → tupleLt fi lt xs ys = tupleLt fi lt xs' ys' := by
  induction h with
  | nil => intro ys ys' hy; cases hy <;> rfl
  | @cons x x' xs xs' hx _ ih =>
    intro ys ys' hy
    cases hy with
    | nil => rfl
    | @cons y y' ys ys' hy hys =>
      simp only [tupleLt]
      have e : pyEq fi true x y = pyEq fi true x' y' := by
        rw [Bool.eq_iff_iff]
        exact ⟨fun h => c67_trans (c67_trans (c67_symm hx.2.1 hx.1) h) hy.1, fun h => c67_trans (c67_trans hx.1 h) (c67_symm hy.2.1 hy.1)⟩
      rw [e, ih hys, hlt x x' y y' hx.1 hy.1]

/-- A What, its id, and the values found in the one and by way of the other. -/
structure SortRow (E : Env) where
  w : What
  s : Str
  vs : List Val
  vs' : List Val
  id : idD w = .ok s
  same : All2 (Twins E.fi) vs vs'

theorem sort_rows (keys : List Val) (ws : List What) (hw : ∀ w ∈ ws, Faithful E w) : ∃ ids, mapR idD ws = .ok ids ∧
    ((∃ e, mapR (fun w => whatvalues E.fi w (.tuple keys)) ws = .error e ∧ mapR (idValues E keys) ids = .error e) ∨
    ∃ rows : List (SortRow E), rows.map SortRow.w = ws ∧ rows.map SortRow.s = ids ∧ mapR (fun w => whatvalues E.fi w (.tuple keys)) ws = .ok (rows.map SortRow.vs) ∧
      mapR (idValues E keys) ids = .ok (rows.map SortRow.vs')) := by
  induction ws with
  | nil => exact ⟨[], rfl, .inr ⟨[], rfl, rfl, rfl, rfl⟩⟩
  | cons w ws ih =>
    obtain ⟨ids, h1, h2⟩ := ih fun w hm => hw w (.tail _ hm)
    obtain ⟨s, w', g1, g2, g3⟩ := (hw w (.head _)).twin
    refine ⟨s :: ids, by simp only [mapR, g1, h1], ?_⟩
    rcases values_twins g3 keys with ⟨e, k1, k2⟩ | ⟨vs, vs', k1, k2, k3⟩
    · exact .inl ⟨e, by simp only [mapR, k1], by simp only [mapR, idValues, g2, k2]⟩
    · rcases h2 with ⟨e, m1, m2⟩ | ⟨rows, m1, m2, m3, m4⟩
      · exact .inl ⟨e, by simp only [mapR, k1, m1], by simp only [mapR, idValues, g2, k2] at m2 ⊢; rw [show mapR (idValues E keys) ids = .error e from m2]⟩
      · refine .inr ⟨⟨w, s, vs, vs', g1, k3⟩ :: rows, by simp [m1], by simp [m2], by simp only [mapR, k1, m3, List.map_cons], ?_⟩
        have : idValues E keys s = .ok vs' := by simp only [idValues, g2, k2]
        simp only [mapR, this, m4, List.map_cons]

theorem unzip_rows {α : Type} (f g : α → Val) (rows : List α) :
    unzipVal (rows.map fun r => (f r, g r)) = if rows = [] then .tuple [] else .tuple [.tuple (rows.map f), .tuple (rows.map g)] := by
  cases rows with
  | nil => rfl
  | cons r rows => simp [unzipVal, Function.comp_def]

/-- **C75**: sorting Whats and sorting their ids, by the same keys, raise the same exception or give the same order: the ids in the one answer
are those of the Whats in the other, and the values are equal. (`<` does not tell equal values apart.) -/
theorem c75_sort {lt : Val → Val → Bool} (hlt : ∀ a a' b b', pyEq E.fi true a a' = true → pyEq E.fi true b b' = true → lt a b = lt a' b')
    (ws : List What) (hw : ∀ w ∈ ws, Faithful E w) (keys : List Val) : ∃ ids, mapR idD ws = .ok ids ∧
      ((∃ e, sortWhats E.fi lt ws keys = .error e ∧ sortWhatids E lt ids keys = .error e) ∨
      ∃ (ws' : List What) (ids' : List Str) (vs vs' : List Val), ws'.Perm ws ∧ mapR idD ws' = .ok ids' ∧
        pyEq E.fi true (.tuple vs) (.tuple vs') = true ∧
        sortWhats E.fi lt ws keys = .ok (if ws = [] then .tuple [] else .tuple [.tuple (ws'.map What.toVal), .tuple vs]) ∧
        sortWhatids E lt ids keys = .ok (if ws = [] then .tuple [] else .tuple [.tuple (ids'.map .str), .tuple vs'])) := by
  obtain ⟨ids, h1, h2⟩ := sort_rows keys ws hw
  refine ⟨ids, h1, ?_⟩
  rcases h2 with ⟨e, h2, h3⟩ | ⟨rows, rfl, rfl, h2, h3⟩
  · exact .inl ⟨e, by simp only [sortWhats, h2], by simp only [sortWhatids, h3]⟩
  right
  let le : SortRow E → SortRow E → Bool := fun a b => !tupleLt E.fi lt b.vs a.vs
  have hp : (sortBy le rows).Perm rows := sortBy_perm _ _
  have hnil : sortBy le rows = [] ↔ rows.map SortRow.w = [] := by
    rw [List.map_eq_nil_iff]
    constructor
    · intro e; rw [e] at hp; exact hp.nil_eq.symm
    · rintro rfl; rfl
  have e1 : ∀ (f : SortRow E → Val), (rows.map SortRow.vs).zip (rows.map f) = rows.map fun r => (r.vs, f r) := by
    intro f; rw [List.zip_map', List.map_inj_left]; intros; rfl
  have e2 : ∀ (f : SortRow E → Val), (rows.map SortRow.vs').zip (rows.map f) = rows.map fun r => (r.vs', f r) := by
    intro f; rw [List.zip_map', List.map_inj_left]; intros; rfl
  refine ⟨(sortBy le rows).map SortRow.w, (sortBy le rows).map SortRow.s, (sortBy le rows).map fun r => .tuple r.vs, (sortBy le rows).map fun r => .tuple r.vs', hp.map _, ?_, ?_, ?_, ?_⟩
  · generalize sortBy le rows = rs
    induction rs with
    | nil => rfl
    | cons r rs ih => simp only [List.map_cons, mapR, r.id, ih]
  · refine eq_tuple_iff.2 ⟨_, rfl, eqL_iff.2 ⟨by simp, fun i x y hx hy => ?_⟩⟩
    rw [List.getElem?_map] at hx hy
    cases hr : (sortBy le rows)[i]? with
    | none => rw [hr] at hx; cases hx
    | some r =>
      rw [hr] at hx hy
      cases hx; cases hy
      exact eq_tuple_iff.2 ⟨_, rfl, eqL_iff.2 ⟨r.same.length, fun i x y hx hy => (r.same.at i x y hx hy).1⟩⟩
  · simp only [sortWhats, h2, sortedAnswer, List.map_map]
    rw [e1 (What.toVal ∘ SortRow.w), sortedByFirst, sortBy_map (le := le) (f := fun r => (r.vs, (What.toVal ∘ SortRow.w) r)) (fun _ _ => rfl), List.map_map,
      show ((fun p : List Val × Val => (p.2, Val.tuple p.1)) ∘ fun r : SortRow E => (r.vs, (What.toVal ∘ SortRow.w) r)) = fun r => ((What.toVal ∘ SortRow.w) r, .tuple r.vs) from rfl, unzip_rows]
    simp only [hnil]
  · simp only [sortWhatids, h3, sortedAnswer, List.map_map]
    rw [e2 (Val.str ∘ SortRow.s), sortedByFirst, sortBy_map (le := le) (f := fun r => (r.vs', (Val.str ∘ SortRow.s) r)) (fun a b => by
        simp only [le, tupleLt_twins hlt b.same a.same]), List.map_map,
      show ((fun p : List Val × Val => (p.2, Val.tuple p.1)) ∘ fun r : SortRow E => (r.vs', (Val.str ∘ SortRow.s) r)) = fun r => ((Val.str ∘ SortRow.s) r, .tuple r.vs') from rfl, unzip_rows]
    simp only [hnil]

/-! ### Matching -/

theorem plain_allIds (n : Nat) : ∀ v, depth v ≤ n → PlainV v → AllIds v := by
  induction n with
  | zero => intro v h; have := depth_pos v; omega
  | succ n ih =>
    intro v hd hp nm c nk o hw
    rcases within_cases hw with rfl | ⟨y, hy, hc⟩
    · simp only [PlainV] at hp; rw [hp.1]; simp
    · have key : ∀ k : Val, isKey k = true → ¬ Within (.what nm c nk o) k := by
        intro k hk hw'
        have : ∀ m k, depth k ≤ m → isKey k = true → ¬ Within (.what nm c nk o) k := by
          intro m
          induction m with
          | zero => intro k h; have := depth_pos k; omega
          | succ m ihm =>
            intro k hdk hk hwk
            rcases within_cases hwk with rfl | ⟨z, hz, hzc⟩
            · cases hk
            · cases hzc <;> first | cases hk | skip
              rename_i hm
              have h1 := depth_mem hm
              simp only [depth] at hdk
              simp only [isKey] at hk
              exact ihm z (by omega) (isKeyL_iff.1 hk z hm) hz
        exact this (depth k) k (Nat.le_refl _) hk hw'
      cases hc with
      | tuple hm =>
        have := depth_mem hm
        simp only [depth] at hd
        simp only [PlainV, plainL_iff] at hp
        exact ih y (by omega) (hp y hm) _ _ _ _ hy
      | list hm =>
        have := depth_mem hm
        simp only [depth] at hd
        simp only [PlainV, plainL_iff] at hp
        exact ih y (by omega) (hp y hm) _ _ _ _ hy
      | set hm =>
        simp only [PlainV] at hp
        exact absurd hy (key y (hp y hm))
      | dictKey hm =>
        simp only [PlainV, plainD_iff] at hp
        exact absurd hy (key y (hp _ _ hm).1)
      | dictVal hm =>
        have := depth_memD hm
        simp only [depth] at hd
        simp only [PlainV, plainD_iff] at hp
        exact ih y (by omega) (hp _ _ hm).2 _ _ _ _ hy
      | what k _ _ _ hm =>
        have := depth_memA hm
        simp only [depth] at hd
        simp only [PlainV, plainA_iff] at hp
        exact ih y (by omega) (hp.2.2 _ _ hm) _ _ _ _ hy
      | _ => simp only [PlainV] at hp

/-- The two flatten alike. -/
theorem flatten_twins {srt : SortItems} (hs : SortsItems srt) {o : FlatOpts} (hc : o.collectionsToo = false) {w w' : What} (h : Twins E.fi w.toVal w'.toVal)
    (hn : AllIds w.toVal) (hn' : AllIds w'.toVal) : ∃ l l', flatten srt o w = .ok l ∧ flatten srt o w' = .ok l' ∧
      All2 (fun x y : Val × Val => x.1 = y.1 ∧ Twins E.fi x.2 y.2 ∧ Within x.2 w.toVal) l l' := by
  obtain ⟨l, l', h1, h2, h3⟩ := flat_twins hs hc (depth w.toVal) w.toVal (Nat.le_refl _) w'.toVal h (.inr ⟨hn, hn'⟩) []
  refine ⟨l.map fun pv => (pathKey pv.1, pv.2), l'.map fun pv => (pathKey pv.1, pv.2), ?_, ?_, ?_⟩
  · simp only [flatten]; rw [show flattenN srt o (depth w.toVal) w.toVal [] = _ from h1]; rfl
  · simp only [flatten]; rw [show flattenN srt o (depth w'.toVal) w'.toVal [] = _ from h2]; rfl
  · exact h3.map fun a b hab => ⟨by rw [hab.1], hab.2.1, hab.2.2.1⟩

theorem stub_eq {n : Str} {o : Option Str} {b : Val} : pyEq fi true (.tuple [.str n, optStr o]) b = true ↔ b = .tuple [.str n, optStr o] := by
  constructor
  · intro h
    obtain ⟨ys, rfl, hl⟩ := eq_tuple_iff.1 h
    cases ys with
    | nil => simp [pyEqL] at hl
    | cons y ys =>
      cases ys with
      | nil => simp [pyEqL] at hl
      | cons z ys =>
        cases ys with
        | cons => simp [pyEqL] at hl
        | nil =>
          simp only [pyEqL, Bool.and_eq_true, and_true] at hl
          obtain ⟨h1, h2⟩ := hl
          have e1 : y = .str n := by cases y <;> simp [pyEq] at h1; rw [h1]
          have e2 : z = optStr o := by
            cases o <;> simp only [optStr] at h2 ⊢ <;> cases z <;> simp [pyEq] at h2
            · rfl
            · rw [h2]
          rw [e1, e2]
  · rintro rfl
    cases o <;> simp [pyEq, pyEqL, optStr]

theorem agree_twins {a a' b b' : Val} (ha : Twins fi a a') (hb : Twins fi b b') (na : ¬ Within (.float c!"nan") a) (nb : ¬ Within (.float c!"nan") b)
    (da : NoDoubles fi false a) (db : NoDoubles fi false b) : AgreeVal fi a b ↔ AgreeVal fi a' b' := by
  have ea := eq_nan (depth a) a (Nat.le_refl _) na a' ha.1
  have eb := eq_nan (depth b) b (Nat.le_refl _) nb b' hb.1
  have notWhat : ∀ {x x' : Val}, Twins fi x x' → ((∀ n c nk o, x ≠ .what n c nk o) ↔ ∀ n c nk o, x' ≠ .what n c nk o) := by
    intro x x' hx
    constructor
    · rintro h n c nk o rfl
      obtain ⟨c', nk', e, _⟩ := eq_what_iff.1 (c67_symm hx.2.1 hx.1)
      exact h _ _ _ _ e
    · rintro h n c nk o rfl
      obtain ⟨c', nk', e, _⟩ := eq_what_iff.1 hx.1
      exact h _ _ _ _ e
  constructor
  · intro h
    cases h with
    | @whats n o c nk c1 nk1 =>
      obtain ⟨_, _, rfl, _⟩ := eq_what_iff.1 ha.1
      obtain ⟨_, _, rfl, _⟩ := eq_what_iff.1 hb.1
      exact .whats
    | values h1 h2 h3 => exact .values ((notWhat ha).1 h1) ((notWhat hb).1 h2) (c67_trans (c67_trans (c67_symm da ea) h3) eb)
    | likeTuple =>
      obtain ⟨_, _, rfl, _⟩ := eq_what_iff.1 ha.1
      rw [stub_eq.1 hb.1]
      exact .likeTuple
    | tupleLike =>
      obtain ⟨_, _, rfl, _⟩ := eq_what_iff.1 hb.1
      rw [stub_eq.1 ha.1]
      exact .tupleLike
  · have ha' := c67_symm ha.2.1 ha.1
    have hb' := c67_symm hb.2.1 hb.1
    intro h
    cases h with
    | @whats n o c nk c1 nk1 =>
      obtain ⟨_, _, rfl, _⟩ := eq_what_iff.1 ha'
      obtain ⟨_, _, rfl, _⟩ := eq_what_iff.1 hb'
      exact .whats
    | values h1 h2 h3 => exact .values ((notWhat ha).2 h1) ((notWhat hb).2 h2) (c67_trans (c67_trans ea h3) (c67_symm db eb))
    | likeTuple =>
      obtain ⟨_, _, rfl, _⟩ := eq_what_iff.1 ha'
      rw [stub_eq.1 hb']
      exact .likeTuple
    | tupleLike =>
      obtain ⟨_, _, rfl, _⟩ := eq_what_iff.1 hb'
      rw [stub_eq.1 ha']
      exact .tupleLike

theorem all2_get {α : Type} {R : α → α → Prop} {l m : List α} (h : All2 R l m) {i : Nat} {y : α} (hy : m[i]? = some y) : ∃ x, l[i]? = some x ∧ R x y := by
  have hlt : i < l.length := by rw [h.length]; exact (List.getElem?_eq_some_iff.1 hy).1
  exact ⟨_, List.getElem?_eq_getElem hlt, h.at i _ y (List.getElem?_eq_getElem hlt) hy⟩

theorem all2_get' {α : Type} {R : α → α → Prop} {l m : List α} (h : All2 R l m) {i : Nat} {x : α} (hx : l[i]? = some x) : ∃ y, m[i]? = some y ∧ R x y := by
  have hlt : i < m.length := by rw [← h.length]; exact (List.getElem?_eq_some_iff.1 hx).1
  exact ⟨_, List.getElem?_eq_getElem hlt, h.at i x _ hx (List.getElem?_eq_getElem hlt)⟩

theorem matches_twins {srt : SortItems} (hs : SortsItems srt) {o : FlatOpts} (hc : o.collectionsToo = false) {ignored : List Val} {t t' w w' : What}
    (ht : Faithful E t) (hw : Faithful E w) (tt : Twins E.fi t.toVal t'.toVal) (tw : Twins E.fi w.toVal w'.toVal) (nt : AllIds t'.toVal) (nw : AllIds w'.toVal) :
    Matches E.fi srt o ignored t w ↔ Matches E.fi srt o ignored t' w' := by
  obtain ⟨l, l', h1, h2, h3⟩ := flatten_twins hs hc tt ht.unique.2 nt
  obtain ⟨m, m', g1, g2, g3⟩ := flatten_twins hs hc tw hw.unique.2 nw
  obtain ⟨_, _, et, _⟩ := eq_what_iff.1 tt.1
  obtain ⟨_, _, ew, _⟩ := eq_what_iff.1 tw.1
  have et : t'.name = t.name := by cases t'; cases et; rfl
  have ew : w'.name = w.name := by cases w'; cases ew; rfl
  have step : ∀ {x x' y y' : Val × Val}, (x.1 = x'.1 ∧ Twins E.fi x.2 x'.2 ∧ Within x.2 t.toVal) → (y.1 = y'.1 ∧ Twins E.fi y.2 y'.2 ∧ Within y.2 w.toVal) →
      (AgreeVal E.fi y.2 x.2 ↔ AgreeVal E.fi y'.2 x'.2) := fun hx hy =>
    agree_twins hy.2.1 hx.2.1 (fun h => hw.2.2 (h.trans hy.2.2)) (fun h => ht.2.2 (h.trans hx.2.2)) (hy.2.2.nodoubles hw.unique.1) (hx.2.2.nodoubles ht.unique.1)
  unfold Matches
  rw [et, ew]
  refine and_congr_right fun _ => ⟨?_, ?_⟩
  · rintro ⟨tk, wk, k1, k2, k3, k4⟩
    rw [h1] at k1; rw [g1] at k2
    cases k1; cases k2
    refine ⟨l', m', h2, g2, by rw [← h3.length, ← g3.length]; exact k3, fun i kt vt kw vw e1 e2 => ?_⟩
    obtain ⟨⟨kt0, vt0⟩, a1, a2⟩ := all2_get h3 e1
    obtain ⟨⟨kw0, vw0⟩, b1, b2⟩ := all2_get g3 e2
    obtain ⟨c1, c2⟩ := k4 i _ _ _ _ a1 b1
    have a3 : kt0 = kt := a2.1
    have b3 : kw0 = kw := b2.1
    subst a3 b3
    exact ⟨c1, fun hi => (step a2 b2).1 (c2 hi)⟩
  · rintro ⟨tk, wk, k1, k2, k3, k4⟩
    rw [h2] at k1; rw [g2] at k2
    cases k1; cases k2
    refine ⟨l, m, h1, g1, by rw [h3.length, g3.length]; exact k3, fun i kt vt kw vw e1 e2 => ?_⟩
    obtain ⟨⟨kt0, vt0⟩, a1, a2⟩ := all2_get' h3 e1
    obtain ⟨⟨kw0, vw0⟩, b1, b2⟩ := all2_get' g3 e2
    obtain ⟨c1, c2⟩ := k4 i _ _ _ _ a1 b1
    have a3 : kt = kt0 := a2.1
    have b3 : kw = kw0 := b2.1
    subst a3 b3
    exact ⟨c1, fun hi => (step a2 b2).2 (c2 hi)⟩

open Classical in
/-- **C75**: matching the ids of Whats against the id of a template What gives the ids of the Whats that match the template. -/
theorem c75_match (hE : FindsClasses E) {srt : SortItems} (hs : SortsItems srt) {o : FlatOpts} (hc : o.collectionsToo = false) (ignored : List Val)
    (hi : ∀ k ∈ ignored, hashable k = true) (t : What) (ht : Faithful E t) (ws : List What) (hw : ∀ w ∈ ws, Faithful E w) :
    ∃ template ids selected, idD t = .ok template ∧ mapR idD ws = .ok ids ∧ mapR idD (ws.filter fun w => decide (Matches E.fi srt o ignored t w)) = .ok selected ∧
      matchWhatids E srt o ids template ignored = .ok selected := by
  obtain ⟨ts, t', ht1, ht2, ht3⟩ := ht.twin
  have nt := plain_allIds _ _ (Nat.le_refl _) (parse_plain hE ht2)
  obtain ⟨ids, h1⟩ : ∃ ids, mapR idD ws = .ok ids := mapR_ok_iff.2 fun w hm => by
    obtain ⟨s, _, h, _⟩ := (hw w hm).twin
    exact ⟨s, h⟩
  have readable : ∀ {w s}, Faithful E w → idD w = .ok s → Readable E srt o s := by
    intro w s hf hs'
    obtain ⟨s', w', g1, g2, g3⟩ := hf.twin
    rw [hs'] at g1
    cases g1
    obtain ⟨_, l', _, k, _⟩ := flatten_twins hs hc g3 hf.unique.2 (plain_allIds _ _ (Nat.le_refl _) (parse_plain hE g2))
    exact ⟨w', l', g2, k⟩
  have hr : ∀ s ∈ ids, Readable E srt o s := by
    intro s hm
    obtain ⟨w, hw', he⟩ := mapR_from h1 hm
    exact readable (hw w hw') he
  have main := c38_match (o := o) (ignored := ignored) hE hs ids ts hi (readable ht ht1) hr
  refine ⟨ts, ids, _, ht1, h1, ?_, main⟩
  clear main hr
  induction ws generalizing ids with
  | nil => cases h1; rfl
  | cons w ws ih =>
    obtain ⟨s, w', g1, g2, g3⟩ := (hw w (.head _)).twin
    cases h2 : mapR idD ws with
    | error e => simp only [mapR, g1, h2] at h1; cases h1
    | ok ids' =>
      simp only [mapR, g1, h2, Except.ok.injEq] at h1
      subst h1
      have ih' := ih (fun w hm => hw w (.tail _ hm)) ids' h2
      have iff : Matches E.fi srt o ignored t w ↔ MatchesId E srt o ignored ts s := by
        rw [matches_twins hs hc ht (hw w (.head _)) ht3 g3 nt (plain_allIds _ _ (Nat.le_refl _) (parse_plain hE g2))]
        constructor
        · intro h; exact ⟨t', w', ht2, g2, h⟩
        · rintro ⟨t'', w'', e1, e2, h⟩
          rw [ht2] at e1; rw [g2] at e2
          cases e1; cases e2
          exact h
      simp only [List.filter_cons, iff]
      split
      · simp only [mapR, g1, ih']
      · exact ih'

/-! ### Columns -/

/-- **C75**: the columns `whatid2columns` adds to a column with the ids of Whats hold what `what.get(key)` gives for the Whats: if it succeeds, row by
row. -/
theorem c75_columns (srt : SortItems) (iter : List Val → List Val) (df : Df) (col : Str) (cols : List Val) (pre post : Str) (inplace : Bool) (out arg : Df)
    (h : whatid2columns E srt iter df col (some cols) pre post inplace = (.ok out, arg)) (hne : ∀ k ∈ cols, ¬ ColumnNamed pre post k col)
    (ws : List What) (hw : ∀ w ∈ ws, Faithful E w) (ids : List Str) (hids : mapR idD ws = .ok ids) (hcol : dget df col = some (ids.map .str))
    (l : List Val) (k : Val) (r : List Val) (n : Str) (hk : cols = l ++ k :: r) (hn : ColumnNamed pre post k n) (hlast : ∀ k' ∈ r, ¬ ColumnNamed pre post k' n) :
    ∃ vs, dget out n = some vs ∧ vs.length = ws.length ∧
      ∀ (i : Nat) w v key, ws[i]? = some w → vs[i]? = some v → LooksUp k key → ∃ v', whatGet E.fi w key .none = .ok v' ∧ pyEq E.fi true v' v = true := by
  obtain ⟨_, _, _, cells, hc, hv⟩ := c49_columns E srt iter df col cols pre post inplace out arg h hne
  rw [hcol] at hc
  cases hc
  obtain ⟨vs, h1, h2, h3⟩ := hv l k r n hk hn hlast
  refine ⟨vs, h1, by rw [h2, List.length_map, mapR_length hids], fun i w v key hwi hvi hlk => ?_⟩
  have hlt : i < ids.length := by rw [mapR_length hids]; exact (List.getElem?_eq_some_iff.1 hwi).1
  obtain ⟨s, hs⟩ : ∃ s, ids[i]? = some s := ⟨_, List.getElem?_eq_getElem hlt⟩
  have he := mapR_get hids hwi hs
  obtain ⟨s', w', g1, g2, g3⟩ := (hw w (List.mem_of_getElem? hwi)).twin
  rw [he] at g1
  cases g1
  obtain ⟨s', w'', k', e1, e2, e3, e4⟩ := h3 i (.str s) v (by rw [List.getElem?_map, hs]; rfl) hvi
  cases e1
  rw [g2] at e2
  cases e2
  rw [looksUp_iff.1 e3, ← looksUp_iff.1 hlk] at e4
  unfold whatGet
  rcases item_twins (depth key) key (Nat.le_refl _) _ _ _ _ _ _ _ _ g3 with ⟨u, u', a1, a2, a3⟩ | ⟨e, a1, a2⟩
  · rw [a1]
    rw [a2] at e4
    rcases e4 with e4 | ⟨e4, _⟩ <;> cases e4
    exact ⟨u, rfl, a3.1⟩
  · rw [a1]
    rw [a2] at e4
    rcases e4 with e4 | ⟨e4, rfl⟩ <;> cases e4
    exact ⟨.none, rfl, rfl⟩

/-- **C75**: it succeeds exactly if every requested key has a name for a column and `what.get(key)` raises for none of the Whats. -/
theorem c75_columns_succeeds (srt : SortItems) (iter : List Val → List Val) (df : Df) (col : Str) (cols : List Val) (pre post : Str) (inplace : Bool)
    (hne : ∀ k ∈ cols, ¬ ColumnNamed pre post k col) (ws : List What) (hw : ∀ w ∈ ws, Faithful E w) (ids : List Str) (hids : mapR idD ws = .ok ids)
    (hcol : dget df col = some (ids.map .str)) :
    (∃ out arg, whatid2columns E srt iter df col (some cols) pre post inplace = (.ok out, arg)) ↔
      ∀ k ∈ cols, (∃ n, ColumnNamed pre post k n) ∧ ∀ w ∈ ws, ∀ key, LooksUp k key → ∃ v, whatGet E.fi w key .none = .ok v := by
  have cell : ∀ w ∈ ws, ∃ s, idD w = .ok s ∧ s ∈ ids ∧ (∃ w', parseWhatid E s = .ok w') ∧
      ∀ k, (∃ v, CellValue E k (.str s) v) ↔ ∀ key, LooksUp k key → ∃ v, whatGet E.fi w key .none = .ok v := by
    intro w hm
    obtain ⟨s, w', g1, g2, g3⟩ := (hw w hm).twin
    obtain ⟨s', hs', e⟩ := mapR_mem hids hm
    rw [g1] at e
    cases e
    refine ⟨s, g1, hs', ⟨w', g2⟩, fun k => ?_⟩
    have val : (∃ v, CellValue E k (.str s) v) ↔ ∃ v, getItem E.fi (asTuple k) w'.conf = .ok v ∨ getItem E.fi (asTuple k) w'.conf = .error .keyError := by
      constructor
      · rintro ⟨v, s1, w1, k1, e1, e2, e3, e4⟩
        cases e1
        rw [g2] at e2
        cases e2
        rw [looksUp_iff.1 e3] at e4
        exact ⟨v, e4.imp_right And.left⟩
      · rintro ⟨v, h | h⟩
        · exact ⟨v, s, w', _, rfl, g2, looksUp_iff.2 rfl, .inl h⟩
        · exact ⟨.none, s, w', _, rfl, g2, looksUp_iff.2 rfl, .inr ⟨h, rfl⟩⟩
    rw [val]
    have get : (∀ key, LooksUp k key → ∃ v, whatGet E.fi w key .none = .ok v) ↔ ∃ v, whatGet E.fi w (asTuple k) .none = .ok v :=
      ⟨fun h => h _ (looksUp_iff.2 rfl), fun h key hk => by rw [looksUp_iff.1 hk]; exact h⟩
    rw [get]
    unfold whatGet
    rcases item_twins (depth (asTuple k)) (asTuple k) (Nat.le_refl _) _ _ _ _ _ _ _ _ g3 with ⟨u, u', a1, a2, a3⟩ | ⟨e, a1, a2⟩
    · rw [a1, a2]
      exact ⟨fun _ => ⟨u, rfl⟩, fun _ => ⟨u', .inl rfl⟩⟩
    · rw [a1, a2]
      cases e with
      | keyError => exact ⟨fun _ => ⟨_, rfl⟩, fun _ => ⟨.none, .inr rfl⟩⟩
      | _ => exact ⟨fun ⟨_, h⟩ => (by rcases h with h | h <;> cases h), fun ⟨_, h⟩ => (by cases h)⟩
  rw [c49_succeeds E srt iter df col cols pre post inplace hne]
  constructor
  · rintro ⟨cells, hc, _, h⟩ k hk
    rw [hcol] at hc
    cases hc
    obtain ⟨h1, h2⟩ := h k hk
    refine ⟨h1, fun w hm => ?_⟩
    obtain ⟨s, _, hs, _, hv⟩ := cell w hm
    exact (hv k).1 (h2 _ (List.mem_map.2 ⟨s, hs, rfl⟩))
  · intro h
    refine ⟨_, hcol, fun c hc => ?_, fun k hk => ⟨(h k hk).1, fun c hc => ?_⟩⟩
    · obtain ⟨s, hs, rfl⟩ := List.mem_map.1 hc
      obtain ⟨w, hm, e⟩ := mapR_from hids hs
      obtain ⟨s', e', _, ⟨w', hp⟩, _⟩ := cell w hm
      rw [e] at e'
      cases e'
      exact ⟨s, w', rfl, hp⟩
    · obtain ⟨s, hs, rfl⟩ := List.mem_map.1 hc
      obtain ⟨w, hm, e⟩ := mapR_from hids hs
      obtain ⟨s', e', _, _, hv⟩ := cell w hm
      rw [e] at e'
      cases e'
      exact (hv k).2 ((h k hk).2 w hm)

/-! ### The hypotheses can be met -/

theorem noNan_of {v : Val} (h : v ≠ .float c!"nan") (hc : ∀ x, Child x v → ¬ Within (.float c!"nan") x) : ¬ Within (.float c!"nan") v := by
  intro hw
  rcases within_cases hw with e | ⟨y, hy, hyc⟩
  · exact h e.symm
  · exact hc y hyc hy

theorem exRT_faithful : Faithful exEnv exRT := by
  refine ⟨exRT_printable _, exRT_loadable (fun h => h), ?_⟩
  have leaf : ∀ {v : Val}, v ≠ .float c!"nan" → (∀ x, ¬ Child x v) → ¬ Within (.float c!"nan") v := fun h h0 => noNan_of h fun x hx => absurd hx (h0 x)
  have simple : ∀ {v : Val}, (v = .none ∨ (∃ b, v = .bool b) ∨ (∃ i, v = .int i) ∨ (∃ s, v = .str s) ∨ ∃ c, v = .cls c) → ¬ Within (.float c!"nan") v := by
    intro v h
    rcases h with rfl | ⟨_, rfl⟩ | ⟨_, rfl⟩ | ⟨_, rfl⟩ | ⟨_, rfl⟩ <;> exact leaf (by simp) fun x hx => by cases hx
  have flat : ∀ {v : Val} {xs : List Val}, (v = .set xs ∨ v = .list xs) → (∀ x ∈ xs, ¬ Within (.float c!"nan") x) → ¬ Within (.float c!"nan") v := by
    intro v xs h hxs
    rcases h with rfl | rfl <;> refine noNan_of (by simp) fun x hx => ?_ <;> cases hx <;> exact hxs x (by assumption)
  refine noNan_of (by simp [What.toVal]) fun x hx => ?_
  cases hx with
  | what _ _ _ _ hm =>
    simp only [exRT, List.mem_cons, Prod.mk.injEq, List.not_mem_nil, or_false] at hm
    rcases hm with ⟨-, rfl⟩ | ⟨-, rfl⟩ | ⟨-, rfl⟩ | ⟨-, rfl⟩ | ⟨-, rfl⟩ <;> refine noNan_of (by simp) fun x hx => ?_
    all_goals cases hx
    all_goals rename_i hm
    all_goals simp only [List.mem_cons, Prod.mk.injEq, List.not_mem_nil, or_false] at hm
    · rcases hm with ⟨rfl, -⟩ | ⟨rfl, -⟩ <;> exact simple (by simp)
    · rcases hm with ⟨-, rfl⟩ | ⟨-, rfl⟩
      · refine flat (.inl rfl) fun x hx => simple ?_
        simp only [List.mem_cons, List.not_mem_nil, or_false] at hx
        rcases hx with rfl | rfl <;> simp
      · exact flat (.inr rfl) fun x hx => by cases hx
    · rcases hm with rfl | rfl
      · exact simple (by simp)
      · refine flat (.inr rfl) fun x hx => simple ?_
        simp only [List.mem_cons, List.not_mem_nil, or_false] at hx
        rcases hx with rfl | rfl | rfl <;> simp
    · obtain ⟨-, rfl⟩ := hm
      exact simple (by simp)

/-- Numbers are ordered. -/
def exNumLt (fi : Str → Option Int) (a b : Val) : Bool :=
  match numKey fi a, numKey fi b with
  | some (.inl x), some (.inl y) => decide (x < y)
  | _, _ => false

theorem exNumLt_eq {a a' b b' : Val} (ha : pyEq fi true a a' = true) (hb : pyEq fi true b b' = true) : exNumLt fi a b = exNumLt fi a' b' := by
  have key : ∀ {x x' : Val}, pyEq fi true x x' = true → numKey fi x = numKey fi x' := by
    intro x x' h
    cases hx : numKey fi x with
    | none =>
      cases hx' : numKey fi x' with
      | none => rfl
      | some m => obtain ⟨n, hn⟩ := eq_num_left hx' h; rw [hx] at hn; cases hn
    | some m =>
      obtain ⟨n, hn, he⟩ := (eq_num_iff hx).1 h
      rw [hn]
      cases m <;> cases n <;> simp [numEq] at he <;> rw [he]
  unfold exNumLt
  rw [key ha, key hb]

example (keys : List Val) := c75_sort (E := exEnv) (lt := exNumLt exEnv.fi) (fun _ _ _ _ => exNumLt_eq) [exRT, exRT] (by simp [exRT_faithful]) keys
example := c75_match (E := exEnv) exEnv_classes (srt := fun l => .ok l) (fun _ _ h => by cases h; exact .refl _) (o := {}) rfl [.str c!"eps"] (by simp [hashable])
  exRT exRT_faithful [exRT] (by simp [exRT_faithful])

end Whatami
