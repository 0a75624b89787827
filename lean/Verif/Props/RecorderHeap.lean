import Verif.RecorderHeap
import Verif.Props.Recorder

/-
C81: what recorders share.

Specification: `SharesPosts`, `HasRecord`, `TouchesRec` (the operations that may be seen through a recorder), `RHeapOk` (no record dict is in
two places, nothing dangles).
-/
namespace Whatami

variable (fi : Str → Option Int)

/-- The recorder at `x`, as it answers now. -/
def recAt (h : RHeap) (x : Nat) : Option Recorder := (h.recs[x]?).map fun o => o.now h

/-- Two recorders with one list of postprocessors. -/
def SharesPosts (h : RHeap) (x y : Nat) : Prop :=
  ∃ ox oy a, h.recs[x]? = some ox ∧ h.recs[y]? = some oy ∧ ox.posts = .list a ∧ oy.posts = .list a

/-- The record of id `i` in the recorder `x` is the dict `d`. -/
def HasRecord (h : RHeap) (x : Nat) (i : Rid) (d : Nat) : Prop := ∃ o, h.recs[x]? = some o ∧ (i, d) ∈ o.registry

/-- What may show in the recorder `x`: its own methods that change it, `add_record_postprocessors` of a recorder that shares its list, and in-place
changes of that list and of its records. -/
def TouchesRec (h : RHeap) (x : Nat) : ROp → Prop
  | .call y (.addPosts _) => y = x ∨ SharesPosts h x y
  | .call y _ => y = x
  | .setList a _ => ∃ o, h.recs[x]? = some o ∧ o.posts = .list a
  | .setRecord d _ => ∃ i, HasRecord h x i d
  | _ => False

/-- Nothing dangles; ids are unique in a recorder; a dict is the record of one id in one recorder. -/
structure RHeapOk (h : RHeap) : Prop where
  lists : ∀ (x : Nat) o a, h.recs[x]? = some o → o.posts = .list a → a < h.lists.length
  dicts : ∀ x i d, HasRecord h x i d → d < h.dicts.length
  ids : ∀ (x : Nat) o, h.recs[x]? = some o → (o.registry.map Prod.fst).Nodup
  once : ∀ x y i j d, HasRecord h x i d → HasRecord h y j d → x = y ∧ i = j

/-- A history. -/
inductive RecRuns (P : RHeap → ROp → Prop) : RHeap → List ROp → RHeap → Prop
  | nil (h : RHeap) : RecRuns P h [] h
  | cons {h h1 h2 : RHeap} {op : ROp} {ops : List ROp} : rStep fi h op = some h1 → P h op → RecRuns P h1 ops h2 → RecRuns P h (op :: ops) h2

variable {fi} {h h' : RHeap}

theorem now_congr {o : RecObj} (hd : ∀ i d, (i, d) ∈ o.registry → h'.dicts[d]? = h.dicts[d]?)
    (hl : ∀ a, o.posts = .list a → h'.lists[a]? = h.lists[a]?) : o.now h' = o.now h := by
  simp only [RecObj.now, Recorder.mk.injEq, RecView.mk.injEq, and_true]
  constructor
  · apply List.map_congr_left
    rintro ⟨i, d⟩ hm
    simp only [hd i d hm]
  · cases hp : o.posts with
    | list a => simp only [PostsRef.now, hl a hp]
    | tuple ps => rfl

theorem recAt_congr {x : Nat} (hr : h'.recs[x]? = h.recs[x]?) (hd : ∀ i d, HasRecord h x i d → h'.dicts[d]? = h.dicts[d]?)
    (hl : ∀ o a, h.recs[x]? = some o → o.posts = .list a → h'.lists[a]? = h.lists[a]?) : recAt h' x = recAt h x := by
  simp only [recAt, hr]
  cases ho : h.recs[x]? with
  | none => rfl
  | some o =>
    simp only [Option.map_some, Option.some.injEq]
    exact now_congr (fun i d hm => hd i d ⟨o, ho, hm⟩) (fun a ha => hl o a ho ha)

theorem new_records : ∀ (records : List (Rid × Record)) (pre : List Record),
    ((records.map Prod.fst).zip (List.range' pre.length records.length)).map (fun e => (e.1, ((pre ++ records.map Prod.snd)[e.2]?).getD [])) = records
  | [], _ => rfl
  | (i, rec) :: records, pre => by
    have := new_records records (pre ++ [rec])
    simp only [List.length_append, List.length_singleton, List.append_assoc, List.singleton_append] at this
    simp only [List.map_cons, List.length_cons, List.range'_succ, List.zip_cons_cons, this]
    simp

theorem new_posts (l : List Post) (h : RHeap) : (PostsRef.tuple l).now h = l := rfl

/-- **C81**. A method call on a recorder does to it what the method does to a recorder that shares nothing. -/
theorem c81_call (ok : RHeapOk h) (x : Nat) (r : Recorder) (hx : recAt h x = some r) (op : RecOp) (hs : rStep fi h (.call x op) = some h') :
    recAt h' x = some (recStep fi r op) := by
  simp only [recAt] at hx
  cases ho : h.recs[x]? with
  | none => rw [ho] at hx; cases hx
  | some o =>
    rw [ho] at hx
    simp only [Option.map_some, Option.some.injEq] at hx
    simp only [rStep, ho, Option.some.injEq] at hs
    have hlt := (List.getElem?_eq_some_iff.1 ho).1
    have hdict : ∀ i d, (i, d) ∈ o.registry → d < h.dicts.length := fun i d hm => ok.dicts x i d ⟨o, ho, hm⟩
    subst hs
    cases op with
    | add a =>
      simp only [recStep, callOn, ← hx]
      cases hr : (o.now h).add fi a with
      | mk r' res =>
        cases res with
        | error e =>
          have : r' = o.now h := by have := c32_atomic fi (o.now h) r' a e hr; exact this
          simp only [recAt, ho, this, Option.map_some]
        | ok records =>
          obtain ⟨h1, -, -, -, -, h2, h3, h4⟩ := c33_add fi _ r' a records hr
          simp only [recAt, List.getElem?_set_self hlt, Option.map_some, Option.some.injEq]
          have hreg : r'.registry = (o.now h).registry ++ records := h1
          have e : r' = { registry := (o.now h).registry ++ records, idCol := o.idCol, defaults := o.defaults, posts := o.posts.now h } := by
            cases r' with
            | mk v ps =>
              cases v
              simp only [Recorder.mk.injEq, RecView.mk.injEq]
              exact ⟨⟨h1, h2, h3⟩, h4⟩
          rw [e]
          simp only [RecObj.now, Recorder.mk.injEq, RecView.mk.injEq, and_true, List.map_append]
          refine ⟨?_, ?_⟩
          · congr 1
            · apply List.map_congr_left
              rintro ⟨i, d⟩ hm
              simp only [List.getElem?_append_left (hdict i d hm)]
            · exact new_records records h.dicts
          · cases o.posts <;> rfl
    | addDefaults cs =>
      simp only [recStep, callOn, ← hx, recAt, List.getElem?_set_self hlt, Option.map_some, RecObj.now]
      cases o.posts <;> rfl
    | removeDefaults cs =>
      simp only [recStep, callOn, ← hx, recAt, List.getElem?_set_self hlt, Option.map_some, RecObj.now]
      cases o.posts <;> rfl
    | addPosts ps =>
      simp only [recStep, callOn, ← hx]
      cases hp : o.posts with
      | list a =>
        have hla := ok.lists x o a ho hp
        simp only [recAt, ho, Option.map_some, RecObj.now, hp, PostsRef.now, List.getElem?_set_self hla, Option.getD_some]
      | tuple qs => simp only [recAt, List.getElem?_set_self hlt, Option.map_some, RecObj.now, hp, PostsRef.now]
    | overridePosts ps =>
      simp only [recStep, callOn, ← hx, recAt, List.getElem?_set_self hlt, Option.map_some, RecObj.now]
      rfl

theorem getElem?_append_one {α : Type} {l : List α} {x : Nat} {a : α} (hx : x < l.length) : (l ++ [a])[x]? = l[x]? := by
  rw [List.getElem?_append_left hx]

theorem recAt_lt {x : Nat} {r : Recorder} (hx : recAt h x = some r) : ∃ o, h.recs[x]? = some o ∧ x < h.recs.length := by
  simp only [recAt] at hx
  cases ho : h.recs[x]? with
  | none => rw [ho] at hx; cases hx
  | some o => exact ⟨o, rfl, (List.getElem?_eq_some_iff.1 ho).1⟩

/-- **C81**. Nothing else shows in a recorder: an operation that does not touch it leaves it as it is. -/
theorem c81_frame (ok : RHeapOk h) (x : Nat) (r : Recorder) (hx : recAt h x = some r) (op : ROp) (hs : rStep fi h op = some h')
    (ht : ¬ TouchesRec h x op) : recAt h' x = some r := by
  obtain ⟨o, ho, hlt⟩ := recAt_lt hx
  rw [← hx]
  have lists_lt : ∀ o a, h.recs[x]? = some o → o.posts = .list a → a < h.lists.length := fun o a => ok.lists x o a
  cases op with
  | list ps =>
    simp only [rStep, Option.some.injEq] at hs
    subst hs
    exact recAt_congr rfl (fun _ _ _ => rfl) fun o a h1 h2 => getElem?_append_one (lists_lt o a h1 h2)
  | setList a ps =>
    simp only [rStep] at hs
    split at hs
    · cases hs
      refine recAt_congr rfl (fun _ _ _ => rfl) fun o' a' h1 h2 => ?_
      have : a ≠ a' := fun e => ht ⟨o', h1, e ▸ h2⟩
      simp [List.getElem?_set_ne this]
    · cases hs
  | new idCol defaults posts =>
    have key : ∀ p, recAt ⟨(newPosts h p).1.lists, (newPosts h p).1.dicts, (newPosts h p).1.recs ++
        [{ idCol := idCol, defaults := defaults, posts := (newPosts h p).2 }]⟩ x = recAt h x := by
      intro p
      cases p with
      | none =>
        simp only [newPosts]
        exact recAt_congr (getElem?_append_one hlt) (fun _ _ _ => rfl) fun o a h1 h2 => getElem?_append_one (lists_lt o a h1 h2)
      | some q =>
        simp only [newPosts]
        split
        · exact recAt_congr (getElem?_append_one hlt) (fun _ _ _ => rfl) fun o a h1 h2 => getElem?_append_one (lists_lt o a h1 h2)
        · exact recAt_congr (getElem?_append_one hlt) (fun _ _ _ => rfl) fun o a h1 h2 => rfl
    simp only [rStep] at hs
    split at hs
    · split at hs
      · cases hs; exact key _
      · cases hs
    · cases hs; exact key _
  | call y op =>
    have hne : y ≠ x := by
      intro e
      apply ht
      cases op <;> first | exact e | exact .inl e
    simp only [rStep] at hs
    cases hy : h.recs[y]? with
    | none => rw [hy] at hs; cases hs
    | some oy =>
      rw [hy] at hs
      simp only [Option.some.injEq] at hs
      subst hs
      cases op with
      | add a =>
        simp only [callOn]
        split
        · rfl
        · refine recAt_congr (List.getElem?_set_ne hne) (fun i d hd => ?_) fun _ _ _ _ => rfl
          exact List.getElem?_append_left (ok.dicts x i d hd)
      | addDefaults cs => exact recAt_congr (List.getElem?_set_ne hne) (fun _ _ _ => rfl) fun _ _ _ _ => rfl
      | removeDefaults cs => exact recAt_congr (List.getElem?_set_ne hne) (fun _ _ _ => rfl) fun _ _ _ _ => rfl
      | overridePosts ps => exact recAt_congr (List.getElem?_set_ne hne) (fun _ _ _ => rfl) fun _ _ _ _ => rfl
      | addPosts ps =>
        simp only [callOn]
        cases hp : oy.posts with
        | tuple qs => exact recAt_congr (List.getElem?_set_ne hne) (fun _ _ _ => rfl) fun _ _ _ _ => rfl
        | list a =>
          refine recAt_congr rfl (fun _ _ _ => rfl) fun o' a' h1 h2 => ?_
          have : a ≠ a' := fun e => ht (.inr ⟨o', oy, a, h1, hy, e ▸ h2, hp⟩)
          simp [List.getElem?_set_ne this]
  | posts y =>
    simp only [rStep] at hs
    cases hy : h.recs[y]? with
    | none => rw [hy] at hs; cases hs
    | some oy =>
      rw [hy] at hs
      simp only at hs
      cases hp : oy.posts with
      | tuple qs => rw [hp] at hs; cases hs; rfl
      | list a =>
        rw [hp] at hs
        cases hs
        exact recAt_congr rfl (fun _ _ _ => rfl) fun o a h1 h2 => getElem?_append_one (lists_lt o a h1 h2)
  | setRecord d rec =>
    simp only [rStep] at hs
    split at hs
    · cases hs
      refine recAt_congr rfl (fun i d' hd => ?_) fun _ _ _ _ => rfl
      have : d ≠ d' := fun e => ht ⟨i, e ▸ hd⟩
      simp [List.getElem?_set_ne this]
    · cases hs

/-! ### The invariant -/

theorem rheapOk_empty : RHeapOk {} :=
  ⟨fun x o a hx => by simp at hx, fun x i d ⟨o, ho, _⟩ => by simp at ho, fun x o hx => by simp at hx, fun x y i j d ⟨o, ho, _⟩ => by simp at ho⟩

/-- Recorders keep their records and, perhaps, change the rest. -/
theorem ok_same_records (ok : RHeapOk h) (hd : h.dicts.length ≤ h'.dicts.length)
    (hr : ∀ (x : Nat) o', h'.recs[x]? = some o' → (∃ o, h.recs[x]? = some o ∧ o'.registry = o.registry) ∨ o'.registry = [])
    (hl : ∀ (x : Nat) o' a, h'.recs[x]? = some o' → o'.posts = .list a → a < h'.lists.length) : RHeapOk h' := by
  have hrec : ∀ x i d, HasRecord h' x i d → HasRecord h x i d := by
    rintro x i d ⟨o', ho', hm⟩
    rcases hr x o' ho' with ⟨o, ho, e⟩ | e
    · exact ⟨o, ho, e ▸ hm⟩
    · rw [e] at hm; cases hm
  refine ⟨hl, fun x i d hx => Nat.lt_of_lt_of_le (ok.dicts x i d (hrec x i d hx)) hd, fun x o' ho' => ?_,
    fun x y i j d h1 h2 => ok.once x y i j d (hrec x i d h1) (hrec y j d h2)⟩
  rcases hr x o' ho' with ⟨o, ho, e⟩ | e
  · rw [e]; exact ok.ids x o ho
  · rw [e]; exact List.nodup_nil

theorem get_set_cases {α : Type} {l : List α} {x y : Nat} {a b : α} (hb : (l.set x a)[y]? = some b) : (x = y ∧ b = a) ∨ l[y]? = some b := by
  by_cases e : x = y
  · subst e
    have hlt : x < l.length := by
      have := (List.getElem?_eq_some_iff.1 hb).1
      simpa using this
    rw [List.getElem?_set_self hlt] at hb
    exact .inl ⟨rfl, (Option.some.inj hb).symm⟩
  · rw [List.getElem?_set_ne e] at hb; exact .inr hb

theorem get_snoc_cases {α : Type} {l : List α} {y : Nat} {a b : α} (hb : (l ++ [a])[y]? = some b) : l[y]? = some b ∨ b = a := by
  rw [List.getElem?_append] at hb
  split at hb
  · exact .inl hb
  · right
    cases hk : y - l.length with
    | zero => rw [hk] at hb; simp at hb; exact hb.symm
    | succ k => rw [hk] at hb; simp at hb

theorem mem_zip_range {ids : List Rid} {i : Rid} {d n : Nat} : ∀ {m : Nat}, (i, d) ∈ ids.zip (List.range' n m) →
    n ≤ d ∧ d < n + m ∧ i ∈ ids := by
  intro m hm
  have := List.of_mem_zip hm
  have h2 := List.mem_range'_1.1 this.2
  exact ⟨h2.1, h2.2, this.1⟩

theorem zip_range_once : ∀ {ids : List Rid} {i j : Rid} {d n m : Nat}, (i, d) ∈ ids.zip (List.range' n m) → (j, d) ∈ ids.zip (List.range' n m) → i = j
  | [], _, _, _, _, _, h, _ => by cases h
  | k :: ids, i, j, d, n, 0, h, _ => by simp at h
  | k :: ids, i, j, d, n, m + 1, h, h' => by
    rw [List.range'_succ, List.zip_cons_cons] at h h'
    rcases List.mem_cons.1 h with e | h <;> rcases List.mem_cons.1 h' with e' | h'
    · cases e; cases e'; rfl
    · cases e; have := (mem_zip_range h').1; omega
    · cases e'; have := (mem_zip_range h).1; omega
    · exact zip_range_once h h'

theorem fst_zip_range (ids : List Rid) (n : Nat) : (ids.zip (List.range' n ids.length)).map Prod.fst = ids := by
  rw [List.map_fst_zip]; simp

theorem ok_step (ok : RHeapOk h) (op : ROp) (hs : rStep fi h op = some h') : RHeapOk h' := by
  cases op with
  | list ps =>
    simp only [rStep, Option.some.injEq] at hs
    subst hs
    refine ok_same_records ok (Nat.le_refl _) (fun x o ho => .inl ⟨o, ho, rfl⟩) fun x o a ho ha => ?_
    have := ok.lists x o a ho ha
    simp only [List.length_append]; omega
  | setList a ps =>
    simp only [rStep] at hs
    split at hs
    · cases hs
      refine ok_same_records ok (Nat.le_refl _) (fun x o ho => .inl ⟨o, ho, rfl⟩) fun x o a ho ha => ?_
      simpa using ok.lists x o a ho ha
    · cases hs
  | new idCol defaults posts =>
    have key : ∀ p, (∀ a, p = some (.list a) → a < h.lists.length) → RHeapOk ⟨(newPosts h p).1.lists, (newPosts h p).1.dicts, (newPosts h p).1.recs ++
        [{ idCol := idCol, defaults := defaults, posts := (newPosts h p).2 }]⟩ := by
      intro p hp
      have hfresh : RHeapOk ⟨h.lists ++ [[]], h.dicts, h.recs ++ [{ idCol := idCol, defaults := defaults, posts := .list h.lists.length }]⟩ := by
        refine ok_same_records ok (Nat.le_refl _) (fun x o ho => ?_) fun x o a ho ha => ?_
        · rcases get_snoc_cases ho with ho | rfl
          · exact .inl ⟨o, ho, rfl⟩
          · exact .inr rfl
        · rcases get_snoc_cases ho with ho | rfl
          · have := ok.lists x o a ho ha
            simp only [List.length_append]; omega
          · cases ha; simp
      cases p with
      | none => exact hfresh
      | some q =>
        simp only [newPosts]
        split
        · exact hfresh
        · refine ok_same_records ok (Nat.le_refl _) (fun x o ho => ?_) fun x o a ho ha => ?_
          · rcases get_snoc_cases ho with ho | rfl
            · exact .inl ⟨o, ho, rfl⟩
            · exact .inr rfl
          · rcases get_snoc_cases ho with ho | rfl
            · exact ok.lists x o a ho ha
            · exact hp a (by simp only at ha; rw [ha])
    simp only [rStep] at hs
    split at hs
    · split at hs
      · next hlt => cases hs; exact key _ (fun a ha => by cases ha; exact hlt)
      · cases hs
    · next hno => cases hs; exact key _ (fun a ha => absurd ha (hno a))
  | call y op =>
    simp only [rStep] at hs
    cases hy : h.recs[y]? with
    | none => rw [hy] at hs; cases hs
    | some oy =>
      rw [hy] at hs
      simp only [Option.some.injEq] at hs
      have hplain : ∀ o' : RecObj, o'.registry = oy.registry → (∀ a, o'.posts = .list a → oy.posts = .list a) →
          RHeapOk ⟨h.lists, h.dicts, h.recs.set y o'⟩ := by
        intro o' h1 h2
        refine ok_same_records ok (Nat.le_refl _) (fun x o ho => ?_) fun x o a ho ha => ?_
        · rcases get_set_cases ho with ⟨rfl, rfl⟩ | ho
          · exact .inl ⟨oy, hy, h1⟩
          · exact .inl ⟨o, ho, rfl⟩
        · rcases get_set_cases ho with ⟨rfl, rfl⟩ | ho
          · exact ok.lists y oy a hy (h2 a ha)
          · exact ok.lists x o a ho ha
      subst hs
      cases op with
      | addDefaults cs => exact hplain _ rfl fun a ha => ha
      | removeDefaults cs => exact hplain _ rfl fun a ha => ha
      | overridePosts ps => exact hplain _ rfl fun a ha => by cases ha
      | addPosts ps =>
        simp only [callOn]
        cases hp : oy.posts with
        | tuple qs => exact hplain _ rfl fun a ha => by cases ha
        | list a =>
          refine ok_same_records ok (Nat.le_refl _) (fun x o ho => .inl ⟨o, ho, rfl⟩) fun x o a' ho ha => ?_
          simpa using ok.lists x o a' ho ha
      | add a =>
        simp only [callOn]
        cases hr : (oy.now h).add fi a with
        | mk r' res =>
          cases res with
          | error e => exact ok
          | ok records =>
            obtain ⟨-, -, h2, h3, -⟩ := c33_add fi _ r' a records hr
            dsimp only
            have hsplit : ∀ zs x i d, HasRecord ⟨h.lists, h.dicts ++ records.map Prod.snd, h.recs.set y { oy with registry := oy.registry ++ zs }⟩ x i d →
                HasRecord h x i d ∨ x = y ∧ (i, d) ∈ zs := by
              intro zs
              rintro x i d ⟨o, ho, hm⟩
              rcases get_set_cases ho with ⟨rfl, rfl⟩ | ho
              · rcases List.mem_append.1 hm with hm | hm
                · exact .inl ⟨oy, hy, hm⟩
                · exact .inr ⟨rfl, hm⟩
              · exact .inl ⟨o, ho, hm⟩
            refine ⟨fun x o a ho ha => ?_, fun x i d hx => ?_, fun x o ho => ?_, fun x x' i j d hx hx' => ?_⟩
            · rcases get_set_cases ho with ⟨rfl, rfl⟩ | ho
              · exact ok.lists y oy a hy ha
              · exact ok.lists x o a ho ha
            · simp only [List.length_append, List.length_map]
              rcases hsplit _ x i d hx with hx | ⟨-, hm⟩
              · have := ok.dicts x i d hx; omega
              · have := mem_zip_range hm; omega
            · rcases get_set_cases ho with ⟨rfl, rfl⟩ | ho
              · simp only [List.map_append]
                have e := fst_zip_range (records.map Prod.fst) h.dicts.length
                rw [List.length_map] at e
                rw [e, List.nodup_append]
                refine ⟨ok.ids y oy hy, h2, fun i hi j hj e => ?_⟩
                subst e
                obtain ⟨⟨i', rec⟩, hm, rfl⟩ := List.mem_map.1 hj
                obtain ⟨⟨i'', d⟩, hm', e'⟩ := List.mem_map.1 hi
                simp only at e'
                subst e'
                exact h3 i'' rec hm _ (List.mem_map.2 ⟨(i'', d), hm', rfl⟩)
              · exact ok.ids x o ho
            · rcases hsplit _ x i d hx with kx | ⟨e, hm⟩ <;> rcases hsplit _ x' j d hx' with kx' | ⟨e', hm'⟩
              · exact ok.once x x' i j d kx kx'
              · have := ok.dicts x i d kx; have := mem_zip_range hm'; omega
              · have := ok.dicts x' j d kx'; have := mem_zip_range hm; omega
              · exact ⟨e.trans e'.symm, zip_range_once hm hm'⟩
  | posts y =>
    simp only [rStep] at hs
    cases hy : h.recs[y]? with
    | none => rw [hy] at hs; cases hs
    | some oy =>
      rw [hy] at hs
      simp only at hs
      cases hp : oy.posts with
      | tuple qs => rw [hp] at hs; cases hs; exact ok
      | list a =>
        rw [hp] at hs
        cases hs
        refine ok_same_records ok (Nat.le_refl _) (fun x o ho => .inl ⟨o, ho, rfl⟩) fun x o a' ho ha => ?_
        have := ok.lists x o a' ho ha
        simp only [List.length_append]; omega
  | setRecord d rec =>
    simp only [rStep] at hs
    split at hs
    · cases hs
      exact ok_same_records ok (by simp) (fun x o ho => .inl ⟨o, ho, rfl⟩) fun x o a ho ha => ok.lists x o a ho ha
    · cases hs

/-- **C81**. In every state that a program can reach, nothing dangles and no dict is the record of two ids or in two recorders. -/
theorem c81_reachable {P : RHeap → ROp → Prop} {ops : List ROp} (ok : RHeapOk h) (hr : RecRuns fi P h ops h') : RHeapOk h' := by
  induction hr with
  | nil => exact ok
  | cons hs _ _ ih => exact ih (ok_step ok _ hs)

/-- **C81**. Over any history of operations none of which touches the recorder, it stays as it is. -/
theorem c81_untouched (ok : RHeapOk h) (x : Nat) (r : Recorder) (hx : recAt h x = some r) (ops : List ROp)
    (hr : RecRuns fi (fun h op => ¬ TouchesRec h x op) h ops h') : recAt h' x = some r := by
  induction hr with
  | nil => exact hx
  | cons hs hp _ ih => exact ih (ok_step ok _ hs) (c81_frame ok x r hx _ hs hp)

/-! ### What is shared -/

/-- **C81**. `add_record_postprocessors` on a recorder extends the chain of every recorder that shares its list. -/
theorem c81_shared (ok : RHeapOk h) (x y : Nat) (r : Recorder) (hx : recAt h x = some r) (hsh : SharesPosts h x y) (ps : List Post)
    (hs : rStep fi h (.call y (.addPosts ps)) = some h') : recAt h' x = some { r with posts := r.posts ++ ps } := by
  obtain ⟨ox, oy, a, ho, hy, hpx, hpy⟩ := hsh
  have hla := ok.lists x ox a ho hpx
  simp only [rStep, hy, callOn, hpy, Option.some.injEq] at hs
  subst hs
  simp only [recAt, ho, Option.map_some, Option.some.injEq] at hx ⊢
  subst hx
  simp only [RecObj.now, hpx, PostsRef.now, List.getElem?_set_self hla, Option.getD_some]

/-- **C81**. Recorders made with one list of postprocessors share it, unless it is empty: then each gets a list of its own, as it does when none is given. -/
theorem c81_new (idCol : Str) (defaults : Conf) (posts : Option PostsRef) (ok : RHeapOk h)
    (hs : rStep fi h (.new idCol defaults posts) = some h') :
    recAt h' h.recs.length = some { registry := [], idCol := idCol, defaults := defaults, posts := (posts.map fun p => p.now h).getD [] } ∧
    ∀ x, x < h.recs.length → (SharesPosts h' x h.recs.length ↔
      ∃ o a, h.recs[x]? = some o ∧ o.posts = .list a ∧ posts = some (.list a) ∧ h.lists[a]? ≠ some []) := by
  have key : (∀ a, posts = some (.list a) → a < h.lists.length) → h' = ⟨(newPosts h posts).1.lists, (newPosts h posts).1.dicts, (newPosts h posts).1.recs ++
        [{ idCol := idCol, defaults := defaults, posts := (newPosts h posts).2 }]⟩ →
      recAt h' h.recs.length = some { registry := [], idCol := idCol, defaults := defaults, posts := (posts.map fun p => p.now h).getD [] } ∧
      ∀ x, x < h.recs.length → (SharesPosts h' x h.recs.length ↔
        ∃ o a, h.recs[x]? = some o ∧ o.posts = .list a ∧ posts = some (.list a) ∧ h.lists[a]? ≠ some []) := by
    intro hp e
    have hfresh : h' = ⟨h.lists ++ [[]], h.dicts, h.recs ++ [{ idCol := idCol, defaults := defaults, posts := .list h.lists.length }]⟩ →
        (posts.map fun p => p.now h).getD [] = [] →
        recAt h' h.recs.length = some { registry := [], idCol := idCol, defaults := defaults, posts := (posts.map fun p => p.now h).getD [] } ∧
        ∀ x, x < h.recs.length → ¬ SharesPosts h' x h.recs.length := by
      intro e hnil
      subst e
      refine ⟨by rw [hnil]; simp [recAt, RecObj.now, PostsRef.now], ?_⟩
      rintro x hx ⟨ox, oy, a, ho, hy, hpx, hpy⟩
      rw [List.getElem?_append_left hx] at ho
      rw [List.getElem?_concat_length] at hy
      cases hy
      cases hpy
      have := ok.lists x ox _ ho hpx
      omega
    cases hq : posts with
    | none =>
      rw [hq] at e
      rw [hq] at hfresh
      obtain ⟨g1, g2⟩ := hfresh e rfl
      refine ⟨g1, fun x hx => ⟨fun hsh => absurd hsh (g2 x hx), ?_⟩⟩
      rintro ⟨o, a, -, -, he, -⟩
      cases he
    | some q =>
      rw [hq] at e hfresh
      by_cases hemp : (q.now h).isEmpty = true
      · simp only [newPosts, hemp, if_true] at e
        have hnil : q.now h = [] := List.isEmpty_iff.1 hemp
        obtain ⟨g1, g2⟩ := hfresh e (by simp [hnil])
        refine ⟨g1, fun x hx => ⟨fun hsh => absurd hsh (g2 x hx), ?_⟩⟩
        rintro ⟨o, a, h1, h2, he, hne⟩
        cases he
        have hla := ok.lists x o a h1 h2
        simp only [PostsRef.now, List.getElem?_eq_getElem hla, Option.getD_some] at hnil
        rw [List.getElem?_eq_getElem hla, hnil] at hne
        exact absurd rfl hne
      · have hemp : (q.now h).isEmpty = false := by simpa using hemp
        simp only [newPosts, hemp, Bool.false_eq_true, if_false] at e
        subst e
        constructor
        · simp only [recAt, List.getElem?_concat_length, Option.map_some, RecObj.now, Option.getD_some]
          cases q <;> rfl
        · intro x hx
          constructor
          · rintro ⟨ox, oy, a, ho, hy, hpx, hpy⟩
            rw [List.getElem?_append_left hx] at ho
            rw [List.getElem?_concat_length] at hy
            cases hy
            simp only at hpy
            subst hpy
            refine ⟨ox, a, ho, hpx, rfl, fun hc => ?_⟩
            simp only [PostsRef.now, hc, Option.getD_some, List.isEmpty_nil, Bool.true_eq_false] at hemp
          · rintro ⟨o, a, h1, h2, he, -⟩
            cases he
            exact ⟨o, _, a, by simp only [List.getElem?_append_left hx]; exact h1, List.getElem?_concat_length, h2, rfl⟩
  simp only [rStep] at hs
  split at hs
  · split at hs
    · next a hlt => cases hs; exact key (fun a ha => by cases ha; exact hlt) rfl
    · cases hs
  · next hno => cases hs; exact key (fun a ha => absurd ha (hno a)) rfl

/-- A recorder whose postprocessors are in a tuple. -/
def Private (h : RHeap) (x : Nat) : Prop := ∃ o ps, h.recs[x]? = some o ∧ o.posts = .tuple ps

/-- **C81**. After `override_record_postprocessors` a recorder shares its postprocessors with nobody, for ever. -/
theorem c81_override (x : Nat) (ps : List Post) (hs : rStep fi h (.call x (.overridePosts ps)) = some h') (ops : List ROp) (h'' : RHeap)
    (hr : RecRuns fi (fun _ _ => True) h' ops h'') (y : Nat) : ¬ SharesPosts h'' x y := by
  have h0 : Private h' x := by
    simp only [rStep] at hs
    cases hx : h.recs[x]? with
    | none => rw [hx] at hs; cases hs
    | some o =>
      rw [hx] at hs
      simp only [callOn, Option.some.injEq] at hs
      subst hs
      exact ⟨_, ps, List.getElem?_set_self (List.getElem?_eq_some_iff.1 hx).1, rfl⟩
  have hstep : ∀ (h h' : RHeap) op, rStep fi h op = some h' → Private h x → Private h' x := by
    rintro h h' op hs ⟨o, qs, ho, hp⟩
    have hlt := (List.getElem?_eq_some_iff.1 ho).1
    have hkeep : h'.recs[x]? = h.recs[x]? → Private h' x := fun e => ⟨o, qs, e.trans ho, hp⟩
    cases op with
    | list ps => simp only [rStep, Option.some.injEq] at hs; subst hs; exact hkeep rfl
    | setList a ps =>
      simp only [rStep] at hs
      split at hs <;> cases hs
      exact hkeep rfl
    | new idCol defaults posts =>
      have key : ∀ p, (newPosts h p).1.recs = h.recs := by
        intro p
        cases p with
        | none => rfl
        | some q => simp only [newPosts]; split <;> rfl
      simp only [rStep] at hs
      split at hs
      · split at hs <;> cases hs
        exact hkeep (by simp only [key]; exact getElem?_append_one hlt)
      · cases hs
        exact hkeep (by simp only [key]; exact getElem?_append_one hlt)
    | posts y =>
      simp only [rStep] at hs
      cases hy : h.recs[y]? with
      | none => rw [hy] at hs; cases hs
      | some oy =>
        rw [hy] at hs
        simp only at hs
        cases hp : oy.posts <;> rw [hp] at hs <;> cases hs <;> exact hkeep rfl
    | setRecord d rec =>
      simp only [rStep] at hs
      split at hs <;> cases hs
      exact hkeep rfl
    | call y op =>
      simp only [rStep] at hs
      cases hy : h.recs[y]? with
      | none => rw [hy] at hs; cases hs
      | some oy =>
        rw [hy] at hs
        simp only [Option.some.injEq] at hs
        have hset : ∀ o' : RecObj, (y = x → ∃ qs, o'.posts = .tuple qs) → (∃ l d, h' = ⟨l, d, h.recs.set y o'⟩) → Private h' x := by
          rintro o' hq ⟨l, d, rfl⟩
          by_cases e : y = x
          · subst e
            obtain ⟨qs, hq⟩ := hq rfl
            exact ⟨o', qs, List.getElem?_set_self hlt, hq⟩
          · exact hkeep (List.getElem?_set_ne e)
        have hoy : y = x → oy.posts = .tuple qs := fun e => by
          subst e
          rw [ho] at hy
          cases hy
          exact hp
        cases op with
        | add a =>
          simp only [callOn] at hs
          split at hs
          · subst hs; exact hkeep rfl
          · refine hset _ ?_ ⟨_, _, hs.symm⟩; exact fun e => ⟨qs, hoy e⟩
        | addDefaults cs => refine hset _ ?_ ⟨_, _, hs.symm⟩; exact fun e => ⟨qs, hoy e⟩
        | removeDefaults cs => refine hset _ ?_ ⟨_, _, hs.symm⟩; exact fun e => ⟨qs, hoy e⟩
        | overridePosts ps => exact hset _ (fun e => ⟨ps, rfl⟩) ⟨_, _, hs.symm⟩
        | addPosts ps =>
          simp only [callOn] at hs
          cases hpy : oy.posts with
          | list a => rw [hpy] at hs; subst hs; exact hkeep rfl
          | tuple q => rw [hpy] at hs; exact hset _ (fun e => ⟨_, rfl⟩) ⟨_, _, hs.symm⟩
  have hall : ∀ (h1 h2 : RHeap) ops, RecRuns fi (fun _ _ => True) h1 ops h2 → Private h1 x → Private h2 x := by
    intro h1 h2 ops hr
    induction hr with
    | nil => exact id
    | cons hs _ _ ih => exact fun hp => ih (hstep _ _ _ hs hp)
  obtain ⟨o, qs, ho, hp⟩ := hall _ _ _ hr h0
  rintro ⟨ox, oy, a, ho', -, hpx, -⟩
  rw [ho] at ho'
  cases ho'
  rw [hp] at hpx
  cases hpx

/-- **C81**. `get` hands out the record dicts themselves: exactly the dicts whose contents the recorder has under these ids... -/
theorem c81_get (x : Nat) (o : RecObj) (ho : h.recs[x]? = some o) (ids : List Rid) :
    (o.get ids).map (fun d => (h.dicts[d]?).getD []) = (o.now h).get ids ∧ ∀ d ∈ o.get ids, ∃ i ∈ ids, HasRecord h x i d := by
  have hget : ∀ i, dget (o.now h).registry i = (dget o.registry i).map fun d => (h.dicts[d]?).getD [] := by
    intro i
    simp only [RecObj.now]
    generalize o.registry = reg
    induction reg with
    | nil => rfl
    | cons e reg ih =>
      obtain ⟨j, d⟩ := e
      simp only [List.map_cons, dget]
      split
      · rfl
      · exact ih
  induction ids with
  | nil => exact ⟨rfl, fun d hd => by cases hd⟩
  | cons i ids ih =>
    simp only [RecObj.get, Recorder.get, hget]
    cases hd : dget o.registry i with
    | none =>
      simp only [Option.map_none]
      exact ⟨ih.1, fun d hm => by obtain ⟨j, hj, hr⟩ := ih.2 d hm; exact ⟨j, .tail _ hj, hr⟩⟩
    | some d =>
      simp only [Option.map_some, List.map_cons, ih.1, true_and]
      intro d' hm
      rcases List.mem_cons.1 hm with rfl | hm
      · exact ⟨i, .head _, o, ho, mem_of_dget hd⟩
      · obtain ⟨j, hj, hr⟩ := ih.2 d' hm
        exact ⟨j, .tail _ hj, hr⟩

/-- **C81**. ... hence changing a record in place, by whoever got it, changes that record of that recorder and nothing else of it. -/
theorem c81_record (ok : RHeapOk h) (x : Nat) (i : Rid) (d : Nat) (hd : HasRecord h x i d) (r : Recorder) (hx : recAt h x = some r) (rec : Record)
    (hs : rStep fi h (.setRecord d rec) = some h') :
    recAt h' x = some { r with registry := r.registry.map fun e => if e.1 = i then (i, rec) else e } := by
  obtain ⟨o, ho, hm⟩ := hd
  have hlt := ok.dicts x i d ⟨o, ho, hm⟩
  simp only [rStep, hlt, if_true, Option.some.injEq] at hs
  subst hs
  simp only [recAt, ho, Option.map_some, Option.some.injEq] at hx ⊢
  subst hx
  have hnd := ok.ids x o ho
  simp only [RecObj.now, Recorder.mk.injEq, RecView.mk.injEq, and_true, List.map_map]
  constructor
  · apply List.map_congr_left
    rintro ⟨j, d'⟩ hm'
    simp only [Function.comp]
    by_cases e : j = i
    · subst e
      have e1 := dget_eq_some_of_mem hnd hm
      have e2 := dget_eq_some_of_mem hnd hm'
      rw [e1] at e2
      cases e2
      simp [List.getElem?_set_self hlt]
    · have : d ≠ d' := fun e' => e (ok.once x x j i d ⟨o, ho, e' ▸ hm'⟩ ⟨o, ho, hm⟩).2
      simp [e, List.getElem?_set_ne this]
  · cases o.posts <;> rfl

/-- **C81**. Changing in place a list of postprocessors that a recorder was made with changes its chain. -/
theorem c81_list (x : Nat) (o : RecObj) (ho : h.recs[x]? = some o) (a : Nat) (hp : o.posts = .list a) (ps : List Post)
    (hs : rStep fi h (.setList a ps) = some h') : recAt h' x = some { o.now h with posts := ps } := by
  simp only [rStep] at hs
  split at hs
  · next hlt =>
    cases hs
    simp only [recAt, ho, Option.map_some, RecObj.now, hp, PostsRef.now, List.getElem?_set_self hlt, Option.getD_some]
  · cases hs

/-- **C81**. `record_postprocessors()` gives the chain in a list that is no recorder's: changing it changes none (`c81_frame`). -/
theorem c81_copy (ok : RHeapOk h) (x : Nat) (o : RecObj) (ho : h.recs[x]? = some o) (a : Nat) (hp : o.posts = .list a)
    (hs : rStep fi h (.posts x) = some h') :
    h'.lists[h.lists.length]? = some (o.now h).posts ∧ ∀ y ps, ¬ TouchesRec h' y (.setList h.lists.length ps) := by
  simp only [rStep, ho, hp, Option.some.injEq] at hs
  subst hs
  refine ⟨by simp only [List.getElem?_concat_length, RecObj.now, hp, PostsRef.now], ?_⟩
  rintro y ps ⟨oy, hy, e⟩
  have := ok.lists y oy _ hy e
  omega

/-- **C81**. The records of a successful `add` are new dicts, which `add` returns (registry.py:658-661) and `get` hands out later. -/
theorem c81_add (ok : RHeapOk h) (x : Nat) (o : RecObj) (ho : h.recs[x]? = some o) (a : AddCall) (r' : Recorder) (records : List (Rid × Record))
    (hr : (o.now h).add fi a = (r', .ok records)) (hs : rStep fi h (.call x (.add a)) = some h') (k : Nat) (i : Rid) (rec : Record)
    (hk : records[k]? = some (i, rec)) :
    HasRecord h' x i (h.dicts.length + k) ∧ h'.dicts[h.dicts.length + k]? = some rec ∧ ∀ y j, ¬ HasRecord h y j (h.dicts.length + k) := by
  have hlt := (List.getElem?_eq_some_iff.1 ho).1
  have hklt := (List.getElem?_eq_some_iff.1 hk).1
  simp only [rStep, ho, callOn, hr, Option.some.injEq] at hs
  subst hs
  refine ⟨⟨_, List.getElem?_set_self hlt, List.mem_append_right _ ?_⟩, ?_, fun y j hy => ?_⟩
  · apply List.mem_of_getElem? (i := k)
    rw [List.getElem?_zip_eq_some]
    refine ⟨by simp only [List.getElem?_map, hk, Option.map_some], ?_⟩
    simp [List.getElem?_range', hklt]
  · rw [List.getElem?_append_right (Nat.le_add_right _ _)]
    simp only [Nat.add_sub_cancel_left, List.getElem?_map, hk, Option.map_some]
  · have := ok.dicts y j _ hy
    omega

/-! ### An instance -/

/-- Stamps the record. -/
def stamps : Post := fun _ rec _ => .ok (dset rec c!"stamp" (.int 1))

/-- Two recorders made with one list, a third with an empty one; the first adds a record; the second gets a postprocessor; the first adds another record. -/
def exRecProg : List ROp := [.list [stamps], .list [], .new c!"id" [] (some (.list 0)), .new c!"id" [] (some (.list 0)), .new c!"id" [] (some (.list 1)),
  .call 0 (.add { extract := fun _ v => match v with | .str s => .ok (.str s) | _ => .error .typeError, ids := .str c!"a" }),
  .call 1 (.addPosts [fun _ _ _ => .error .valueError]),
  .call 0 (.add { extract := fun _ v => match v with | .str s => .ok (.str s) | _ => .error .typeError, ids := .str c!"b" }),
  .setRecord 0 [(c!"gone", .none)]]

/-- The second `add` fails in the postprocessor of the other recorder, and the record of the first has been changed from outside. -/
theorem exRec_runs : ∃ h, RecRuns noFi (fun _ _ => True) {} exRecProg h ∧ RHeapOk h ∧ SharesPosts h 0 1 ∧ ¬ SharesPosts h 0 2 ∧
    (recAt h 0).map (fun r => (r.registry, r.posts.length)) = some ([(.str c!"a", [(c!"gone", .none)])], 2) := by
  have hr : RecRuns noFi (fun _ _ => True) {} exRecProg _ := .cons rfl trivial (.cons rfl trivial (.cons rfl trivial (.cons rfl trivial
    (.cons rfl trivial (.cons rfl trivial (.cons rfl trivial (.cons rfl trivial (.cons rfl trivial (.nil _)))))))))
  refine ⟨_, hr, c81_reachable rheapOk_empty hr, ⟨_, _, 0, rfl, rfl, rfl, rfl⟩, ?_, rfl⟩
  rintro ⟨ox, oy, a, ho, hy, hpx, hpy⟩
  cases ho
  cases hy
  cases hpx
  cases hpy

/-- **C81**. Hence recorders are not independent: a call on one can make another one's `add` raise. -/
theorem c81_not_independent : ¬ ∀ (h h' : RHeap) (x y : Nat) (op : RecOp), RHeapOk h → x ≠ y → rStep noFi h (.call y op) = some h' → recAt h' x = recAt h x := by
  intro hall
  have hr : RecRuns noFi (fun _ _ => True) {} [.list [stamps], .new c!"id" [] (some (.list 0)), .new c!"id" [] (some (.list 0))] _ :=
    .cons rfl trivial (.cons rfl trivial (.cons rfl trivial (.nil _)))
  have := hall _ _ 0 1 (.addPosts [stamps]) (c81_reachable rheapOk_empty hr) (by decide) rfl
  have h2 := congrArg (fun o => o.map fun r : Recorder => r.posts.length) this
  exact absurd h2 (by simp [recAt, RecObj.now, PostsRef.now, newPosts, callOn, dupdate])

end Whatami
