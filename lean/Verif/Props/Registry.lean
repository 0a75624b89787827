import Verif.Registry
import Verif.BasicLemmas

/-
C28-C31: the registry of nicknames.
-/
namespace Whatami

section
variable {κ ν : Type} [DecidableEq κ]

theorem dget_ddel {d : List (κ × ν)} (h : (dkeys d).Nodup) (k k' : κ) :
    dget (ddel d k) k' = if k' = k then none else dget d k' := by
  induction d with
  | nil => simp [ddel, dget]
  | cons e r ih =>
    obtain ⟨a, v⟩ := e
    simp only [dkeys, List.map_cons, List.nodup_cons] at h
    simp only [ddel]
    by_cases hak : a = k
    · subst hak
      simp only [if_true]
      by_cases hk : k' = a
      · subst hk
        simp only [if_true]
        exact dget_none_iff.2 h.1
      · simp [dget, hk, Ne.symm hk]
    · simp only [hak, if_false, dget, ih h.2]
      by_cases hk : k' = k
      · subst hk; simp [hak]
      · simp [hk]

theorem nodup_ddel {d : List (κ × ν)} (h : (dkeys d).Nodup) (k : κ) : (dkeys (ddel d k)).Nodup := by
  have sub : ∀ d : List (κ × ν), (ddel d k).Sublist d := by
    intro d
    induction d with
    | nil => exact List.Sublist.slnil
    | cons e r ih =>
      obtain ⟨a, v⟩ := e
      simp only [ddel]
      split
      · exact List.sublist_cons_self _ _
      · exact List.Sublist.cons_cons _ ih
  exact ((sub d).map Prod.fst).nodup h

end

/-- The two lookups are inverse of each other. -/
structure Bijection (r : Registry) : Prop where
  uniqueIds : (r.id2nick.map Prod.fst).Nodup
  uniqueNicks : (r.nick2id.map Prod.fst).Nodup
  inverse : ∀ n i, r.nickToId n = some i ↔ r.idToNick i = some n

theorem bijection_empty : Bijection {} := ⟨List.nodup_nil, List.nodup_nil, fun n i => by simp [Registry.nickToId, Registry.idToNick, dget]⟩

/-- What `register` does when it does something. -/
theorem register_ok {w2i : Val → R Str} {r r' : Registry} {what : Option Val} {nick : Option Str} {x : Option Val}
    (h : register w2i r what nick = (r', .ok x)) :
    ∃ w n i, what = some w ∧ nick = some n ∧ w2i w = .ok i ∧ x = some w ∧
      (∀ i', dget r.nick2id n = some i' → i' = i) ∧ (∀ n', dget r.id2nick i = some n' → n' = n) ∧
      r' = ⟨dset r.id2nick i n, dset r.nick2id n i⟩ := by
  cases what with
  | none => simp [register] at h
  | some w =>
    cases nick with
    | none => simp [register] at h
    | some n =>
      simp only [register] at h
      cases hi : w2i w with
      | error e => simp [hi] at h
      | ok i =>
        simp only [hi] at h
        by_cases c1 : (dhas r.nick2id n && !(dget r.nick2id n == some i)) = true
        · simp [c1] at h
        · by_cases c2 : (dhas r.id2nick i && !(dget r.id2nick i == some n)) = true
          · simp [c1, c2] at h
          · simp only [c1, c2, if_false, Bool.false_eq_true, Prod.mk.injEq, Except.ok.injEq] at h
            obtain ⟨rfl, rfl⟩ := h
            refine ⟨w, n, i, rfl, rfl, hi, rfl, fun i' hd => ?_, fun n' hd => ?_, rfl⟩
            · simpa [dhas, hd] using c1
            · simpa [dhas, hd] using c2

theorem register_error {w2i : Val → R Str} {r r' : Registry} {what : Option Val} {nick : Option Str} {e : Err}
    (h : register w2i r what nick = (r', .error e)) : r' = r := by
  unfold register at h
  split at h
  · cases h; rfl
  · split at h
    · cases h; rfl
    · split at h
      · cases h; rfl
      · split at h
        · cases h; rfl
        · split at h
          · cases h; rfl
          · cases h

theorem dget_some_dhas {d : List (Str × Str)} {k v : Str} (h : dget d k = some v) : dhas d k = true := by simp [dhas, h]

/-- `remove` on a consistent pair of keys. -/
theorem removeBoth_pair {r : Registry} (b : Bijection r) {n i : Str} (h : dget r.nick2id n = some i) :
    removeBoth r (some n) (some i) = (⟨ddel r.id2nick i, ddel r.nick2id n⟩, .ok ()) := by
  have h' : dget r.id2nick i = some n := (b.inverse n i).1 h
  simp [removeBoth, delKey, dget_some_dhas h, dget_some_dhas h']

/-- The outcome of `remove`, in any consistent registry. -/
theorem remove_cases {w2i : Val → R Str} {r : Registry} (b : Bijection r) (nick : Option Str) (what : Option Val) :
    (∃ e, remove w2i r nick what = (r, .error e)) ∨
    ∃ n i, r.nickToId n = some i ∧ remove w2i r nick what = (⟨ddel r.id2nick i, ddel r.nick2id n⟩, .ok ()) := by
  cases what with
  | none =>
    cases nick with
    | none => exact .inl ⟨_, rfl⟩
    | some n =>
      simp only [remove]
      cases hd : dget r.nick2id n with
      | none => exact .inl ⟨.keyError, by simp [removeBoth, delKey, dhas, hd]⟩
      | some i => exact .inr ⟨n, i, hd, removeBoth_pair b hd⟩
  | some w =>
    simp only [remove]
    cases hi : w2i w with
    | error e => exact .inl ⟨e, rfl⟩
    | ok i =>
      simp only [Except.map]
      cases nick with
      | none =>
        simp only
        cases hd : dget r.id2nick i with
        | none => exact .inl ⟨.keyError, by simp [removeBoth, delKey]⟩
        | some n => exact .inr ⟨n, i, (b.inverse n i).2 hd, removeBoth_pair b ((b.inverse n i).2 hd)⟩
      | some n =>
        simp only
        split
        · exact .inl ⟨_, rfl⟩
        · next hn =>
          have hd : dget r.nick2id n = some i := Classical.not_not.1 (fun hc => hn (.inl hc))
          exact .inr ⟨n, i, hd, removeBoth_pair b hd⟩

theorem bijection_del {r : Registry} (b : Bijection r) {n i : Str} (h : r.nickToId n = some i) :
    Bijection ⟨ddel r.id2nick i, ddel r.nick2id n⟩ := by
  refine ⟨nodup_ddel b.uniqueIds i, nodup_ddel b.uniqueNicks n, fun m j => ?_⟩
  simp only [Registry.nickToId, Registry.idToNick]
  rw [dget_ddel b.uniqueNicks, dget_ddel b.uniqueIds]
  by_cases hm : m = n
  · subst hm
    by_cases hj : j = i
    · subst hj; simp
    · simp only [if_true, hj, if_false]
      constructor
      · intro hc; cases hc
      · intro hc
        have := (b.inverse m j).2 hc
        rw [h] at this; cases this; exact absurd rfl hj
  · by_cases hj : j = i
    · subst hj
      simp only [hm, if_true, if_false]
      constructor
      · intro hc
        have h1 := (b.inverse m j).1 hc
        have h2 := (b.inverse n j).1 h
        rw [h1] at h2; cases h2; exact absurd rfl hm
      · intro hc; cases hc
    · simp only [hm, hj, if_false]
      exact b.inverse m j

theorem bijection_set {r : Registry} (b : Bijection r) {n i : Str} (h1 : ∀ i', dget r.nick2id n = some i' → i' = i)
    (h2 : ∀ n', dget r.id2nick i = some n' → n' = n) : Bijection ⟨dset r.id2nick i n, dset r.nick2id n i⟩ := by
  refine ⟨nodup_dset b.uniqueIds i n, nodup_dset b.uniqueNicks n i, fun m j => ?_⟩
  simp only [Registry.nickToId, Registry.idToNick, dget_dset]
  by_cases hm : n = m
  · subst hm
    by_cases hj : i = j
    · subst hj; simp
    · simp only [if_true, hj, if_false]
      constructor
      · intro hc; cases hc; exact absurd rfl hj
      · intro hc
        exact absurd (h1 j ((b.inverse n j).2 hc)).symm hj
  · by_cases hj : i = j
    · subst hj
      simp only [hm, if_true, if_false]
      constructor
      · intro hc; exact absurd (h2 m ((b.inverse m i).1 hc)).symm hm
      · intro hc; cases hc; exact absurd rfl hm
    · simp only [hm, hj, if_false]
      exact b.inverse m j

theorem regStep_bijection {w2i : Val → R Str} {r : Registry} (b : Bijection r) (op : RegOp) : Bijection (regStep w2i r op) := by
  cases op with
  | reset => exact bijection_empty
  | remove n w =>
    simp only [regStep]
    rcases remove_cases (w2i := w2i) b n w with ⟨e, h⟩ | ⟨n', i, h1, h⟩
    · rw [h]; exact b
    · rw [h]; exact bijection_del b h1
  | register w n =>
    simp only [regStep]
    cases h : register w2i r w n with
    | mk r' x =>
      cases x with
      | error e => rw [register_error h]; exact b
      | ok x =>
        obtain ⟨_, _, _, _, _, _, _, h1, h2, rfl⟩ := register_ok h
        exact bijection_set b h1 h2

/-- C28. After any history of calls, failing ones included, nicknames and ids are in one-to-one correspondence. -/
theorem c28_bijection (ops : List ((Val → R Str) × RegOp)) : Bijection (regRun {} ops) := by
  have : ∀ r, Bijection r → Bijection (regRun r ops) := by
    induction ops with
    | nil => exact fun r b => b
    | cons op ops ih => exact fun r b => ih _ (regStep_bijection b op.2)
  exact this _ bijection_empty

/-- C28. No nickname has two ids, no id has two nicknames. -/
theorem c28_injective (ops : List ((Val → R Str) × RegOp)) (n n' i i' : Str) :
    ((regRun {} ops).nickToId n = some i → (regRun {} ops).nickToId n' = some i → n = n') ∧
    ((regRun {} ops).idToNick i = some n → (regRun {} ops).idToNick i' = some n → i = i') := by
  have b := c28_bijection ops
  constructor
  · intro h1 h2
    have e1 := (b.inverse n i).1 h1
    have e2 := (b.inverse n' i).1 h2
    rw [e1] at e2; cases e2; rfl
  · intro h1 h2
    have e1 := (b.inverse n i).2 h1
    have e2 := (b.inverse n i').2 h2
    rw [e1] at e2; cases e2; rfl

/-! ### C29 -/

/-- C29. `register(w, n)` returns iff what2id(w) does, and neither its id nor `n` is bound to something else; it
then adds exactly that pair, and returns `w`. -/
theorem c29_register (w2i : Val → R Str) (r : Registry) (w : Val) (n : Str) :
    ((∃ r', register w2i r (some w) (some n) = (r', .ok (some w))) ↔
      ∃ i, w2i w = .ok i ∧ (∀ i', r.nickToId n = some i' → i' = i) ∧ (∀ n', r.idToNick i = some n' → n' = n)) ∧
    ∀ r' x, register w2i r (some w) (some n) = (r', .ok x) → x = some w ∧ ∃ i, w2i w = .ok i ∧
      (∀ m, r'.nickToId m = if m = n then some i else r.nickToId m) ∧
      (∀ j, r'.idToNick j = if j = i then some n else r.idToNick j) := by
  refine ⟨⟨fun ⟨r', h⟩ => ?_, fun ⟨i, hi, h1, h2⟩ => ?_⟩, fun r' x h => ?_⟩
  · obtain ⟨w', n', i, e1, e2, hi, _, h1, h2, _⟩ := register_ok h
    cases e1; cases e2
    exact ⟨i, hi, h1, h2⟩
  · refine ⟨⟨dset r.id2nick i n, dset r.nick2id n i⟩, ?_⟩
    simp only [register, hi]
    have c1 : (dhas r.nick2id n && !(dget r.nick2id n == some i)) = false := by
      simp only [Registry.nickToId] at h1
      cases hd : dget r.nick2id n with
      | none => simp [dhas, hd]
      | some i' => simp [dhas, h1 i' hd]
    have c2 : (dhas r.id2nick i && !(dget r.id2nick i == some n)) = false := by
      simp only [Registry.idToNick] at h2
      cases hd : dget r.id2nick i with
      | none => simp [dhas, hd]
      | some i' => simp [dhas, h2 i' hd]
    simp [c1, c2]
  · obtain ⟨w', n', i, e1, e2, hi, hx, h1, h2, rfl⟩ := register_ok h
    cases e1; cases e2
    refine ⟨hx, i, hi, fun m => ?_, fun j => ?_⟩
    · simp only [Registry.nickToId, dget_dset]
      by_cases hm : m = n
      · simp [hm]
      · simp [hm, Ne.symm hm]
    · simp only [Registry.idToNick, dget_dset]
      by_cases hm : j = i
      · simp [hm]
      · simp [hm, Ne.symm hm]

/-- The registry without the pair (n, i). -/
def Without (r r' : Registry) (n i : Str) : Prop :=
  (∀ m, r'.nickToId m = if m = n then none else r.nickToId m) ∧
  (∀ j, r'.idToNick j = if j = i then none else r.idToNick j)

theorem without_del {r : Registry} (b : Bijection r) (n i : Str) : Without r ⟨ddel r.id2nick i, ddel r.nick2id n⟩ n i :=
  ⟨fun m => dget_ddel b.uniqueNicks n m, fun j => dget_ddel b.uniqueIds i j⟩

/-- C29. `remove` by nickname or by what: deletes exactly the entry, or raises KeyError if there is none. -/
theorem c29_remove (w2i : Val → R Str) (r : Registry) (b : Bijection r) :
    (∀ n, (r.nickToId n = none → remove w2i r (some n) none = (r, .error .keyError)) ∧
      ∀ i, r.nickToId n = some i → ∃ r', remove w2i r (some n) none = (r', .ok ()) ∧ Without r r' n i) ∧
    (∀ w i, w2i w = .ok i → (r.idToNick i = none → remove w2i r none (some w) = (r, .error .keyError)) ∧
      ∀ n, r.idToNick i = some n → ∃ r', remove w2i r none (some w) = (r', .ok ()) ∧ Without r r' n i) := by
  refine ⟨fun n => ⟨fun h => ?_, fun i h => ⟨_, ?_, without_del b n i⟩⟩, fun w i hi => ⟨fun h => ?_, fun n h => ⟨_, ?_, without_del b n i⟩⟩⟩
  · simp only [Registry.nickToId] at h
    simp [remove, removeBoth, delKey, dhas, h]
  · simp only [Registry.nickToId] at h
    simp only [remove, h]
    exact removeBoth_pair b h
  · simp only [Registry.idToNick] at h
    simp [remove, hi, Except.map, h, removeBoth, delKey]
  · have h' := (b.inverse n i).2 h
    simp only [Registry.idToNick] at h
    simp only [remove, hi, Except.map, h]
    exact removeBoth_pair b h'

/-- C29. Lookups and listing. -/
theorem c29_lookups (w2i : Val → R Str) (r : Registry) (b : Bijection r) :
    (∀ w i, w2i w = .ok i →
      (∀ n, r.idToNick i = some n → nickOrId w2i r w = .ok n) ∧ (r.idToNick i = none → nickOrId w2i r w = .ok i)) ∧
    (∀ n i, (n, i) ∈ r.list ↔ r.nickToId n = some i) ∧
    (r.list.map Prod.fst).Pairwise (fun a b => strLe a b = true ∧ a ≠ b) := by
  refine ⟨fun w i hi => ⟨fun n h => ?_, fun h => ?_⟩, fun n i => ?_, ?_⟩
  · simp only [Registry.idToNick] at h; simp [nickOrId, hi, h]
  · simp only [Registry.idToNick] at h; simp [nickOrId, hi, h]
  · simp only [Registry.list, mem_sortBy, Registry.nickToId]
    exact ⟨fun h => dget_eq_some_of_mem b.uniqueNicks h, mem_of_dget⟩
  · have total : ∀ a b, pairLe a b = true ∨ pairLe b a = true := by
      rintro ⟨a, a'⟩ ⟨b, b'⟩
      simp only [pairLe]
      by_cases h : a = b
      · subst h; simpa using strLe_total a' b'
      · simpa [h, Ne.symm h] using strLe_total a b
    have trans : ∀ a b c, pairLe a b = true → pairLe b c = true → pairLe a c = true := by
      rintro ⟨a, a'⟩ ⟨b, b'⟩ ⟨c, c'⟩
      simp only [pairLe]
      by_cases h : a = b
      · subst h
        by_cases h2 : a = c
        · subst h2; simpa using strLe_trans a' b' c'
        · simp [h2]
      · by_cases h2 : b = c
        · subst h2
          simp only [h, if_false, if_true]
          exact fun h _ => h
        · simp only [h, h2, if_false]
          intro h3 h4
          by_cases h5 : a = c
          · subst h5; exact absurd (strLe_antisymm _ _ h3 h4) h
          · simp only [h5, if_false]; exact strLe_trans _ _ _ h3 h4
    have hs := sortBy_sorted total trans r.nick2id
    have hn : (r.list.map Prod.fst).Nodup := ((sortBy_perm pairLe r.nick2id).map Prod.fst).nodup_iff.2 b.uniqueNicks
    rw [List.Nodup, List.pairwise_map] at hn
    rw [List.pairwise_map]
    refine List.Pairwise.imp₂ ?_ hs hn
    rintro ⟨a, a'⟩ ⟨b, b'⟩ hle hne
    simp only [pairLe] at hle
    rw [if_neg hne] at hle
    exact ⟨hle, hne⟩

/-- C29. `reset` empties the registry. -/
theorem c29_reset (w2i : Val → R Str) (r : Registry) (n i : Str) :
    (regStep w2i r .reset).nickToId n = none ∧ (regStep w2i r .reset).idToNick i = none ∧ (regStep w2i r .reset).list = [] :=
  ⟨rfl, rfl, rfl⟩

/-! ### C30 -/

/-- C30. A failing `register` or `remove` leaves the registry, in any state that calls can lead to, as it was. -/
theorem c30_failure (ops : List ((Val → R Str) × RegOp)) (w2i : Val → R Str) :
    (∀ w n r' e, register w2i (regRun {} ops) w n = (r', .error e) → r' = regRun {} ops) ∧
    (∀ w n r' e, remove w2i (regRun {} ops) n w = (r', .error e) → r' = regRun {} ops) := by
  refine ⟨fun w n r' e h => register_error h, fun w n r' e h => ?_⟩
  rcases remove_cases (w2i := w2i) (c28_bijection ops) n w with ⟨e', h'⟩ | ⟨n', i, _, h'⟩
  · rw [h'] at h; cases h; rfl
  · rw [h'] at h; cases h

/-- Outside of the reachable states `remove` can stop half-way: the invariant is needed. -/
example : remove (fun _ => .error .typeError) ⟨[], [(c!"n", c!"i()")]⟩ (some c!"n") none = (⟨[], []⟩, .error .keyError) := rfl

/-! ### C31 -/

/-- The whole of C31 for one registry and pair: nickname and what name one entry, and it is deleted. -/
def RemovesBoth (w2i : Val → R Str) (r : Registry) (n : Str) (w : Val) : Prop :=
  ∀ i, w2i w = .ok i → r.nickToId n = some i → ∃ r', remove w2i r (some n) (some w) = (r', .ok ()) ∧ Without r r' n i

/-- C31, the part that holds: if they are not one entry, ValueError, and nothing changes. -/
theorem c31_mismatch_partial (w2i : Val → R Str) (r : Registry) (n : Str) (w : Val) (i : Str) (hi : w2i w = .ok i)
    (h : r.nickToId n ≠ some i) : remove w2i r (some n) (some w) = (r, .error .valueError) := by
  simp only [Registry.nickToId] at h
  simp [remove, hi, Except.map, h]

/-- C31 fails in every consistent registry, for every entry whose nickname differs from its id: the entry exists
and `remove(nickname, what)` raises ValueError. -/
theorem c31_always_raises (w2i : Val → R Str) (r : Registry) (b : Bijection r) (n : Str) (w : Val) (i : Str)
    (hi : w2i w = .ok i) (h : r.nickToId n = some i) (hne : n ≠ i) :
    remove w2i r (some n) (some w) = (r, .error .valueError) := by
  have : dget r.id2nick n ≠ some n := by
    intro hc
    have := (b.inverse n n).2 hc
    rw [h] at this; cases this; exact hne rfl
  simp [remove, hi, Except.map, this]

/-- C31 holds for entries whose nickname is the id itself, and only for them. -/
theorem c31_iff (w2i : Val → R Str) (r : Registry) (b : Bijection r) (n : Str) (w : Val) (i : Str)
    (hi : w2i w = .ok i) (h : r.nickToId n = some i) : RemovesBoth w2i r n w ↔ n = i := by
  constructor
  · intro hr
    apply Classical.byContradiction
    intro hne
    obtain ⟨r', h1, _⟩ := hr i hi h
    rw [c31_always_raises w2i r b n w i hi h hne] at h1
    cases h1
  · rintro rfl i hi' h'
    rw [hi] at hi'; cases hi'
    have h2 := (b.inverse _ _).1 h
    simp only [Registry.idToNick] at h2
    simp only [Registry.nickToId] at h
    refine ⟨_, ?_, without_del b n n⟩
    simp only [remove, hi, Except.map, h, h2]
    simpa using removeBoth_pair b h

def exReg : List ((Val → R Str) × RegOp) :=
  [(fun _ => .ok c!"rfc(y=3)", .register (some .none) (some c!"rfc0")), (fun _ => .ok c!"b()", .register (some .none) (some c!"a")),
   (fun _ => .ok c!"rfc(y=3)", .register (some .none) (some c!"other")), (fun _ => .ok c!"z()", .remove none (some .none))]
example : regRun {} exReg = ⟨[(c!"rfc(y=3)", c!"rfc0"), (c!"b()", c!"a")], [(c!"rfc0", c!"rfc(y=3)"), (c!"a", c!"b()")]⟩ := rfl
example : (regRun {} exReg).list = [(c!"a", c!"b()"), (c!"rfc0", c!"rfc(y=3)")] := rfl
example : remove (fun _ => .ok c!"b()") (regRun {} exReg) (some c!"a") (some .none) = (regRun {} exReg, .error .valueError) := rfl

end Whatami
