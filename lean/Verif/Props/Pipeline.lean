import Verif.Props.Recorder
import Verif.Props.Settings
import Verif.Props.Utils
import Verif.Props.SameToIds

/-
C72: a recorder of configurations, i.e. one made with `Recorder(id_extractor=what2id)` (registry.py:502-515, whatutils.py:57-78).

Specification: `RecordsOf` (the configurations that there are records of), `SameToIds`, `Showables`, `AddsConfs`.
-/
namespace Whatami

/-- `id_extractor=what2id` (registry.py:622-624, whatutils.py:57-78); None is no id. -/
def whatExtract (_ : Nat) (v : Val) : R Rid :=
  match what2id buildD (fun _ => none) v with
  | .error e => .error e
  | .ok none => .error .typeError
  | .ok (some s) => .ok (.str s)

/-- The recorder has one record for each of these configurations, in this order, and no other. -/
def RecordsOf (r : Recorder) (ws : List What) : Prop :=
  r.registry.length = ws.length ∧ ∀ (k : Nat) w i rec, ws[k]? = some w → r.registry[k]? = some (i, rec) → ∃ s, idD w = .ok s ∧ i = .str s

/-- Configurations whose values show in ids. -/
def Showables (ws : List What) : Prop := ∀ w ∈ ws, Showable w

/-- A call that adds records for these configurations, with simple columns: no postprocessors, no column that is the id column, no Whats dealt. -/
structure AddsConfs (r : Recorder) (a : AddCall) (ws : List What) : Prop where
  extract : a.extract = whatExtract
  ids : a.ids = .list (ws.map What.toVal)
  noid : ∀ v, (r.idCol, v) ∉ a.columns
  values : ∀ c v, (c, v) ∈ a.columns → ∀ w : What, v ≠ w.toVal
  noposts : r.posts = [] ∧ a.posts = none

variable (fi : Str → Option Int)

theorem ids_of {ws : List What} (h : Showables ws) : ∃ ids : List Rid, (∀ k, extractIds whatExtract k (ws.map What.toVal) = .ok ids) ∧
    ids.length = ws.length ∧ ∀ (k : Nat) w i, ws[k]? = some w → ids[k]? = some i → ∃ s, idD w = .ok s ∧ i = .str s := by
  induction ws with
  | nil => exact ⟨[], fun _ => rfl, rfl, fun k w i h => by simp at h⟩
  | cons w ws ih =>
    obtain ⟨ids, h1, h2, h3⟩ := ih fun x hx => h x (.tail _ hx)
    obtain ⟨s, ht⟩ := showable_has_id (h w (.head _))
    have he : ∀ k, whatExtract k w.toVal = .ok (.str s) := by
      intro k
      simp only [whatExtract, c39_what buildD (fun _ => none) w _ ht]
    refine ⟨.str s :: ids, fun k => ?_, by simp [h2], ?_⟩
    · simp only [List.map_cons, extractIds, he k, h1 (k + 1)]
      rfl
    · intro k w' i hw hi
      cases k with
      | zero =>
        simp only [List.getElem?_cons_zero, Option.some.injEq] at hw hi
        subst hw hi
        exact ⟨_, ht, rfl⟩
      | succ k => exact h3 k w' i (by simpa using hw) (by simpa using hi)

theorem callIds_list {ws : List What} {ids : List Rid} (h : extractIds whatExtract 0 (ws.map What.toVal) = .ok ids) :
    callIds whatExtract (.list (ws.map What.toVal)) = .ok ids := h

theorem same_id {w w' : What} (h : Showable w) (h' : Showable w') {s s' : Str}
    (e : idD w = .ok s) (e' : idD w' = .ok s') : s = s' ↔ SameToIds w w' := by
  rw [← c90_same_to_ids h h', e, e']
  simp

/-- **C72**: adding records for configurations succeeds exactly if none of them is there already and no two of them are the same; the recorder
then has records of them all, in the order they were added, and otherwise it is unchanged. -/
theorem c72_add {r : Recorder} {known ws : List What} {a : AddCall} (hr : RecordsOf r known) (hk : Showables known) (hw : Showables ws) (ha : AddsConfs r a ws) :
    ((∃ records, (r.add fi a).2 = .ok records) ↔ ws.Pairwise (fun w w' => ¬ SameToIds w w') ∧ ∀ w ∈ ws, ∀ w' ∈ known, ¬ SameToIds w w') ∧
    (∀ records, (r.add fi a).2 = .ok records → RecordsOf (r.add fi a).1 (known ++ ws)) ∧
    (∀ e, (r.add fi a).2 = .error e → (r.add fi a).1 = r) := by
  obtain ⟨ids, hids, hlen, hget⟩ := ids_of hw
  have hcall : callIds a.extract a.ids = .ok ids := by rw [ha.extract, ha.ids]; exact hids 0
  have hreg : ∀ i rec, (i, rec) ∈ r.registry → ∃ w ∈ known, ∃ s, idD w = .ok s ∧ i = .str s := by
    intro i rec hm
    obtain ⟨k, hk'⟩ := List.getElem?_of_mem hm
    have hlt : k < known.length := by rw [← hr.1]; exact (List.getElem?_eq_some_iff.1 hk').1
    have hw' : known[k]? = some known[k] := List.getElem?_eq_getElem hlt
    exact ⟨_, List.mem_of_getElem? hw', hr.2 k _ i rec hw' hk'⟩
  have hknown : ∀ w ∈ known, ∃ i rec s, (i, rec) ∈ r.registry ∧ idD w = .ok s ∧ i = .str s := by
    intro w hm
    obtain ⟨k, hk'⟩ := List.getElem?_of_mem hm
    have hlt : k < r.registry.length := by rw [hr.1]; exact (List.getElem?_eq_some_iff.1 hk').1
    have hi' : r.registry[k]? = some r.registry[k] := List.getElem?_eq_getElem hlt
    obtain ⟨s, hs, e⟩ := hr.2 k w r.registry[k].1 r.registry[k].2 hk' hi'
    exact ⟨_, _, s, List.mem_of_getElem? hi', hs, e⟩
  have hmem : ∀ i, i ∈ ids ↔ ∃ w ∈ ws, ∃ s, idD w = .ok s ∧ i = .str s := by
    intro i
    constructor
    · intro h
      obtain ⟨k, hk'⟩ := List.getElem?_of_mem h
      have hlt : k < ws.length := by rw [← hlen]; exact (List.getElem?_eq_some_iff.1 hk').1
      have hw' : ws[k]? = some ws[k] := List.getElem?_eq_getElem hlt
      exact ⟨_, List.mem_of_getElem? hw', hget k _ i hw' hk'⟩
    · rintro ⟨w, hm, s, hs, rfl⟩
      obtain ⟨k, hk'⟩ := List.getElem?_of_mem hm
      have hlt : k < ids.length := by rw [hlen]; exact (List.getElem?_eq_some_iff.1 hk').1
      have hi' : ids[k]? = some ids[k] := List.getElem?_eq_getElem hlt
      obtain ⟨s', hs', e⟩ := hget k w _ hk' hi'
      rw [hs] at hs'
      cases hs'
      rw [← e]
      exact List.mem_of_getElem? hi'
  have hnodup : ids.Nodup ↔ ws.Pairwise (fun w w' => ¬ SameToIds w w') := by
    have : ∀ {ws : List What} {ids : List Rid}, Showables ws → ids.length = ws.length →
        (∀ (k : Nat) w i, ws[k]? = some w → ids[k]? = some i → ∃ s, idD w = .ok s ∧ i = .str s) →
        (ids.Nodup ↔ ws.Pairwise (fun w w' => ¬ SameToIds w w')) := by
      intro ws ids hw hlen hget
      rw [List.Nodup, List.pairwise_iff_getElem, List.pairwise_iff_getElem]
      have e : ∀ (k : Nat) (h1 : k < ws.length) (h2 : k < ids.length), ∃ s, idD ws[k] = .ok s ∧ ids[k] = .str s := fun k h1 h2 =>
        hget k _ _ (List.getElem?_eq_getElem h1) (List.getElem?_eq_getElem h2)
      constructor
      · intro h i j hi hj hij hs
        obtain ⟨s, h1, h2⟩ := e i hi (by omega)
        obtain ⟨s', h1', h2'⟩ := e j hj (by omega)
        refine h i j (by omega) (by omega) hij ?_
        rw [h2, h2', (same_id (hw _ (List.getElem_mem hi)) (hw _ (List.getElem_mem hj)) h1 h1').2 hs]
      · intro h i j hi hj hij he
        obtain ⟨s, h1, h2⟩ := e i (by omega) hi
        obtain ⟨s', h1', h2'⟩ := e j (by omega) hj
        refine h i j (by omega) (by omega) hij ?_
        refine (same_id (hw _ (List.getElem_mem _)) (hw _ (List.getElem_mem _)) h1 h1').1 ?_
        rw [h2, h2'] at he
        cases he; rfl
    exact this hw hlen hget
  refine ⟨⟨?_, ?_⟩, ?_, ?_⟩
  · rintro ⟨records, h⟩
    have h' : r.add fi a = ((r.add fi a).1, .ok records) := by rw [← h]
    obtain ⟨-, hc, hn, hf, -⟩ := c33_add fi r _ a records h'
    rw [hcall] at hc
    cases hc
    refine ⟨hnodup.1 hn, fun w hm w' hm' hs => ?_⟩
    obtain ⟨i, rec, s, hi, hs', rfl⟩ := hknown w' hm'
    have hin : Rid.str s ∈ records.map Prod.fst := by
      refine (hmem _).2 ⟨w, hm, ?_⟩
      obtain ⟨t, ht⟩ := showable_has_id (hw w hm)
      exact ⟨s, by rw [ht, (same_id (hw w hm) (hk w' hm') ht hs').2 hs], rfl⟩
    obtain ⟨⟨i, rec'⟩, hrec, e⟩ := List.mem_map.1 hin
    simp only at e
    subst e
    exact hf _ rec' hrec rec hi
  · rintro ⟨h1, h2⟩
    obtain ⟨r', records, h⟩ := c35_succeeds fi r a ids hcall (hnodup.2 h1) (by
        intro i hi
        obtain ⟨w, hm, s, hs, rfl⟩ := (hmem i).1 hi
        have hp := showable_paren (hw w hm) hs
        constructor <;> rintro rfl <;> simp at hp) (by
        intro i hi rec hm
        obtain ⟨w, hw', s, hs, rfl⟩ := (hmem i).1 hi
        obtain ⟨w', hk', s', hs', e⟩ := hreg _ _ hm
        cases e
        exact h2 w hw' w' hk' ((same_id (hw w hw') (hk w' hk') hs hs').1 rfl)) ha.noid (by
        intro _ c v hm e he
        have := ha.values c v hm
        cases v <;> simp [iterV] at he
        exact this ⟨_, _, _, _⟩ rfl) (by
        rw [ha.noposts.1, ha.noposts.2]; rfl)
    exact ⟨records, by rw [h]⟩
  · intro records h
    have h' : r.add fi a = ((r.add fi a).1, .ok records) := by rw [← h]
    obtain ⟨hreg', hc, -⟩ := c33_add fi r _ a records h'
    rw [hcall] at hc
    cases hc
    refine ⟨by simp [hreg', hr.1, ← hlen], fun k w i rec hk' hi => ?_⟩
    rw [hreg'] at hi
    by_cases hlt : k < known.length
    · rw [List.getElem?_append_left hlt] at hk'
      rw [List.getElem?_append_left (by rw [hr.1]; exact hlt)] at hi
      exact hr.2 k w i rec hk' hi
    · rw [List.getElem?_append_right (by omega)] at hk'
      rw [List.getElem?_append_right (by rw [hr.1]; omega), hr.1] at hi
      exact hget _ w i hk' (by simp [hi])
  · intro e h
    exact c32_atomic fi r _ a e (by rw [← h])

/-- **C72**: over any history of such calls no two records are of the same configuration. -/
theorem c72_history {r : Recorder} (calls : List (AddCall × List What)) (hc : ∀ c ∈ calls, AddsConfs r c.1 c.2 ∧ Showables c.2) {known : List What}
    (hr : RecordsOf r known) (hk : Showables known) (hd : known.Pairwise fun w w' => ¬ SameToIds w w') :
    ∃ all, RecordsOf (recRun fi r (calls.map fun c => .add c.1)) all ∧ known <+: all ∧ Showables all ∧ all.Pairwise fun w w' => ¬ SameToIds w w' := by
  induction calls generalizing r known with
  | nil => exact ⟨known, hr, List.prefix_rfl, hk, hd⟩
  | cons c calls ih =>
    obtain ⟨a, ws⟩ := c
    obtain ⟨ha, hw⟩ := hc _ (.head _)
    obtain ⟨h1, h2, h3⟩ := c72_add fi hr hk hw ha
    have hstep : ∃ known', RecordsOf (r.add fi a).1 known' ∧ known <+: known' ∧ Showables known' ∧ known'.Pairwise (fun w w' => ¬ SameToIds w w') ∧
        (r.add fi a).1.idCol = r.idCol ∧ (r.add fi a).1.posts = r.posts := by
      cases hres : (r.add fi a).2 with
      | error e => rw [h3 e hres]; exact ⟨known, hr, List.prefix_rfl, hk, hd, rfl, rfl⟩
      | ok records =>
        obtain ⟨p1, p2⟩ := h1.1 ⟨records, hres⟩
        have h' : r.add fi a = ((r.add fi a).1, .ok records) := by rw [← hres]
        obtain ⟨-, -, -, -, -, q1, -, q2⟩ := c33_add fi r _ a records h'
        refine ⟨known ++ ws, h2 records hres, List.prefix_append _ _, ?_, ?_, q1, q2⟩
        · intro w hm
          rcases List.mem_append.1 hm with hm | hm
          · exact hk w hm
          · exact hw w hm
        · exact List.pairwise_append.2 ⟨hd, p1, fun w hm w' hm' hs => p2 w' hm' w hm (.symm hs)⟩
    obtain ⟨known', k1, k2, k3, k4, k5, k6⟩ := hstep
    obtain ⟨all, a1, a2, a3, a4⟩ := ih (r := (r.add fi a).1) (fun c hm => by
      obtain ⟨b1, b2⟩ := hc c (.tail _ hm)
      exact ⟨⟨b1.extract, b1.ids, by rw [k5]; exact b1.noid, b1.values, by rw [k6]; exact b1.noposts⟩, b2⟩) k1 k3 k4
    exact ⟨all, a1, k2.trans a2, a3, a4⟩

/-- A first call, with the configuration of `exRT` and a column. -/
def exAddConf : AddCall := { extract := whatExtract, ids := .list [exRT.toVal], columns := [(c!"score", .list [.int 1])] }
example : RecordsOf {} [] ∧ Showables [exRT] ∧ AddsConfs {} exAddConf [exRT] := by
  refine ⟨⟨rfl, fun k w i rec h => by simp at h⟩, fun w hw => ?_, ⟨rfl, rfl, ?_, ?_, rfl, rfl⟩⟩
  · obtain rfl := List.mem_singleton.1 hw
    exact printable_showable (exRT_printable _)
  · intro v h; simp [exAddConf] at h
  · intro c v h w e
    simp only [exAddConf, List.mem_singleton, Prod.mk.injEq] at h
    rw [h.2] at e
    cases e
/-- The same configuration with its parameters and its dict in another order is refused. -/
example : SameToIds exRT { exRT with conf := exRT.conf.reverse } :=
  .base (.inr (.inl (.what _ _ _ (by unfold UniqueKeys exRT; decide) (List.reverse_perm _).symm)))
/-- Configurations that cannot be read back are recorded all the same, and a function is the same as what stands for it. -/
example : Showables [exOne (.str c!"\\"), exOne (.func c!"inflate" [c!"x"] [])] ∧
    SameToIds (exOne (.func c!"inflate" [c!"x"] [])) (exOne (.what c!"inflate" [] [] none)) := by
  have hf : StandIn (.func c!"inflate" [c!"x"] []) (.what c!"inflate" [] [] none) :=
    .func (pre := [c!"x"]) (names := []) (by decide) rfl .nil
  refine ⟨fun w hw => ?_, .what c!"f" [] [] c!"a" [] none (.base (.inl hf))⟩
  simp only [List.mem_cons, List.not_mem_nil, or_false] at hw
  rcases hw with rfl | rfl
  · exact ⟨_, .refl _, exOne_supported trivial, exOne_dictKeys (dictKeys_str _)⟩
  · refine ⟨exOne (.what c!"inflate" [] [] none), exOne_seen (.base (.inl hf)), exOne_supported ?_, exOne_dictKeys fun n c nk o hw => ?_⟩
    · simp only [Supported, SupportedA, and_true]
      exact ⟨nofun, ident_of (by rfl)⟩
    · cases hw with
      | refl => simp [UniqueKeys]
      | step _ hc => cases hc with | what _ _ _ _ hm => cases hm

end Whatami
