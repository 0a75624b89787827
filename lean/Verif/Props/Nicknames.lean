import Verif.Props.Pipeline
import Verif.Props.Registry

/-
C80: a registry of nicknames of configurations (registry.py:20-102, whatutils.py:57-78).

Specification: a book, i.e. a list of nicknames with the configurations they stand for; `MayGoBy`, `Holding`, `After`.
-/
namespace Whatami

/-- `what2id` as `register`, `remove` and `nick_or_id` use it (registry.py:36, 64, 96), which is never on None. -/
def confId (v : Val) : R Str :=
  match what2id buildD (fun _ => none) v with
  | .error e => .error e
  | .ok none => .error .typeError
  | .ok (some s) => .ok s

/-- What a program does with a registry of configurations.  registry.py:29-102. -/
inductive NickOp where
  | register (w : What) (n : Str)
  | removeNick (n : Str)
  | removeWhat (w : What)
  | reset

/-- The call.  registry.py:29-102. -/
def NickOp.call : NickOp → RegOp
  | .register w n => .register (some w.toVal) (some n)
  | .removeNick n => .remove (some n) none
  | .removeWhat w => .remove none (some w.toVal)
  | .reset => .reset

/-- The registry after these calls.  registry.py:29-102. -/
def nickRun (ops : List NickOp) : Registry := regRun {} (ops.map fun op => (confId, op.call))

/-- `w` may go by the nickname `n`: `n` stands for no other configuration, and `w` has no other nickname. -/
def MayGoBy (book : List (Str × What)) (w : What) (n : Str) : Prop := ∀ n' w', (n', w') ∈ book → (n' = n ↔ SameToIds w w')

/-- The registry holds exactly the nicknames of the book. -/
def Holding (r : Registry) (book : List (Str × What)) : Prop :=
  ∀ n i, r.nickToId n = some i ↔ ∃ w, (n, w) ∈ book ∧ idD w = .ok i

/-- The book after an operation: a configuration that fits is entered, one that does not is refused; removing by nickname
or by configuration strikes out exactly the entries of it. -/
inductive After (book : List (Str × What)) : NickOp → List (Str × What) → Prop
  | entered {w : What} {n : Str} : MayGoBy book w n → After book (.register w n) ((n, w) :: book)
  | refused {w : What} {n : Str} : ¬ MayGoBy book w n → After book (.register w n) book
  | nick {n : Str} {book' : List (Str × What)} : (∀ m w, (m, w) ∈ book' ↔ (m, w) ∈ book ∧ m ≠ n) → After book (.removeNick n) book'
  | conf {w : What} {book' : List (Str × What)} : (∀ m w', (m, w') ∈ book' ↔ (m, w') ∈ book ∧ ¬ SameToIds w w') →
      After book (.removeWhat w) book'
  | reset : After book .reset []

/-- The book after a history. -/
inductive Afters : List (Str × What) → List NickOp → List (Str × What) → Prop
  | nil (book : List (Str × What)) : Afters book [] book
  | cons {book book' book'' : List (Str × What)} {op : NickOp} {ops : List NickOp} : After book op book' → Afters book' ops book'' →
      Afters book (op :: ops) book''

/-- The configurations in it are showable. -/
def NickOp.Ok : NickOp → Prop
  | .register w _ => Showable w
  | .removeWhat w => Showable w
  | _ => True

/-- All the configurations of the book are showable, and two entries have the same nickname exactly if they have
the same configuration. -/
def Consistent (book : List (Str × What)) : Prop :=
  (∀ n w, (n, w) ∈ book → Showable w) ∧
  ∀ n w n' w', (n, w) ∈ book → (n', w') ∈ book → (n = n' ↔ SameToIds w w')

theorem confId_what {w : What} {s : Str} (h : idD w = .ok s) : confId w.toVal = .ok s := by
  simp only [confId, c39_what buildD (fun _ => none) w s h]

variable {r : Registry} {book : List (Str × What)}

/-- In terms of the other dictionary. -/
theorem holding_nick (b : Bijection r) (hh : Holding r book) (n i : Str) : r.idToNick i = some n ↔ ∃ w, (n, w) ∈ book ∧ idD w = .ok i := by
  rw [← b.inverse, hh]

/-- **C80**. `register` succeeds exactly if the nickname stands for no other configuration and the configuration has no other
nickname; then exactly that is entered, and otherwise nothing changes. -/
theorem c80_register (b : Bijection r) (hh : Holding r book) (hc : Consistent book) (w : What) (n : Str)
    (hw : Showable w) :
    ((∃ x, (register confId r (some w.toVal) (some n)).2 = .ok x) ↔ MayGoBy book w n) ∧
    (MayGoBy book w n → Holding (register confId r (some w.toVal) (some n)).1 ((n, w) :: book)) ∧
    (¬ MayGoBy book w n → (register confId r (some w.toVal) (some n)).1 = r) := by
  obtain ⟨i, hi⟩ := showable_has_id hw
  have hci := confId_what hi
  obtain ⟨h1, h2⟩ := c29_register confId r w.toVal n
  have hiff : (∃ x, (register confId r (some w.toVal) (some n)).2 = .ok x) ↔
      ∃ r', register confId r (some w.toVal) (some n) = (r', .ok (some w.toVal)) := by
    constructor
    · rintro ⟨x, hx⟩
      cases hr : register confId r (some w.toVal) (some n) with
      | mk r' y =>
        rw [hr] at hx
        simp only at hx
        subst hx
        have := (h2 r' x hr).1
        exact ⟨r', by rw [this]⟩
    · rintro ⟨r', hr⟩
      exact ⟨_, by rw [hr]⟩
  have hfit : (∃ j, confId w.toVal = .ok j ∧ (∀ i', r.nickToId n = some i' → i' = j) ∧ ∀ n', r.idToNick j = some n' → n' = n) ↔
      MayGoBy book w n := by
    constructor
    · rintro ⟨j, hj, f1, f2⟩ n' w' hm
      rw [hci] at hj
      cases hj
      obtain ⟨i', hi'⟩ := showable_has_id (hc.1 _ _ hm)
      rw [← same_id hw (hc.1 _ _ hm) hi hi']
      constructor
      · rintro rfl
        exact (f1 i' ((hh n' i').2 ⟨w', hm, hi'⟩)).symm
      · rintro rfl
        exact f2 n' ((holding_nick b hh n' i).2 ⟨w', hm, hi'⟩)
    · intro hf
      refine ⟨i, hci, fun i' hn => ?_, fun n' hn => ?_⟩
      · obtain ⟨w', hm, hi'⟩ := (hh n i').1 hn
        exact ((same_id hw (hc.1 _ _ hm) hi hi').2 ((hf n w' hm).1 rfl)).symm
      · obtain ⟨w', hm, hi'⟩ := (holding_nick b hh n' i).1 hn
        exact (hf n' w' hm).2 ((same_id hw (hc.1 _ _ hm) hi hi').1 rfl)
  have hall := hiff.trans (h1.trans hfit)
  refine ⟨hall, fun hf => ?_, fun hf => ?_⟩
  · obtain ⟨r', hr⟩ := hiff.1 (hall.2 hf)
    obtain ⟨-, j, hj, g1, -⟩ := h2 r' _ hr
    rw [hci] at hj
    cases hj
    rw [hr]
    intro m k
    simp only [g1, List.mem_cons, Prod.mk.injEq]
    by_cases hmn : m = n
    · subst hmn
      simp only [if_true, Option.some.injEq, true_and]
      constructor
      · rintro rfl; exact ⟨w, .inl rfl, hi⟩
      · rintro ⟨w', rfl | hm, hk⟩
        · rw [hi] at hk; cases hk; rfl
        · exact (same_id hw (hc.1 _ _ hm) hi hk).2 ((hf m w' hm).1 rfl)
    · simp only [hmn, if_false, false_and, false_or]
      exact hh m k
  · cases hr : register confId r (some w.toVal) (some n) with
    | mk r' x =>
      cases x with
      | error e => exact register_error hr
      | ok x => exact absurd (hall.1 ⟨x, by rw [hr]⟩) hf

/-- **C80**. `remove` by nickname raises KeyError exactly if nothing goes by it; it strikes out exactly that nickname. -/
theorem c80_remove_nick (b : Bijection r) (hh : Holding r book) (hid : ∀ m w, (m, w) ∈ book → ∃ s, idD w = .ok s) (n : Str) :
    ((remove confId r (some n) none).2 = .ok () ∧ (∃ w, (n, w) ∈ book) ∨
      (remove confId r (some n) none) = (r, .error .keyError) ∧ ∀ w, (n, w) ∉ book) ∧
    ∀ book', (∀ m w, (m, w) ∈ book' ↔ (m, w) ∈ book ∧ m ≠ n) → Holding (remove confId r (some n) none).1 book' := by
  obtain ⟨h1, h2⟩ := (c29_remove confId r b).1 n
  cases hn : r.nickToId n with
  | none =>
    have hno : ∀ w, (n, w) ∉ book := fun w hm => by
      obtain ⟨s, hs⟩ := hid n w hm
      have := (hh n s).2 ⟨w, hm, hs⟩
      rw [hn] at this; cases this
    refine ⟨.inr ⟨h1 hn, hno⟩, fun book' hb m i => ?_⟩
    rw [h1 hn]
    simp only [hb]
    rw [hh m i]
    constructor
    · rintro ⟨w, hm, hi⟩
      exact ⟨w, ⟨hm, fun e => hno w (e ▸ hm)⟩, hi⟩
    · rintro ⟨w, ⟨hm, -⟩, hi⟩; exact ⟨w, hm, hi⟩
  | some i =>
    obtain ⟨r', hr, hw, -⟩ := h2 i hn
    obtain ⟨w, hm, -⟩ := (hh n i).1 hn
    refine ⟨.inl ⟨by rw [hr], w, hm⟩, fun book' hb m j => ?_⟩
    rw [hr]
    simp only [hb, hw]
    by_cases hmn : m = n
    · simp [hmn]
    · simp only [hmn, if_false, ne_eq, not_false_eq_true, and_true]
      exact hh m j

/-- **C80**. `remove` by configuration raises KeyError exactly if the configuration has no nickname; it strikes out exactly the
nickname of it. -/
theorem c80_remove_what (b : Bijection r) (hh : Holding r book) (hc : Consistent book) (w : What) (hw : Showable w) :
    ((remove confId r none (some w.toVal)).2 = .ok () ∧ (∃ m w', (m, w') ∈ book ∧ SameToIds w w') ∨
      (remove confId r none (some w.toVal)) = (r, .error .keyError) ∧ ∀ m w', (m, w') ∈ book → ¬ SameToIds w w') ∧
    ∀ book', (∀ m w', (m, w') ∈ book' ↔ (m, w') ∈ book ∧ ¬ SameToIds w w') → Holding (remove confId r none (some w.toVal)).1 book' := by
  obtain ⟨i, hi⟩ := showable_has_id hw
  obtain ⟨h1, h2⟩ := (c29_remove confId r b).2 w.toVal i (confId_what hi)
  cases hn : r.idToNick i with
  | none =>
    have hno : ∀ m w', (m, w') ∈ book → ¬ SameToIds w w' := fun m w' hm hs => by
      obtain ⟨s, hs'⟩ := showable_has_id (hc.1 m w' hm)
      obtain rfl := (same_id hw (hc.1 _ _ hm) hi hs').2 hs
      have := (holding_nick b hh m i).2 ⟨w', hm, hs'⟩
      rw [hn] at this; cases this
    refine ⟨.inr ⟨h1 hn, hno⟩, fun book' hb m j => ?_⟩
    rw [h1 hn]
    simp only [hb]
    rw [hh m j]
    constructor
    · rintro ⟨w', hm, hi'⟩; exact ⟨w', ⟨hm, hno m w' hm⟩, hi'⟩
    · rintro ⟨w', ⟨hm, -⟩, hi'⟩; exact ⟨w', hm, hi'⟩
  | some n =>
    obtain ⟨r', hr, hwn, -⟩ := h2 n hn
    obtain ⟨w0, hm0, hi0⟩ := (holding_nick b hh n i).1 hn
    have hs0 : SameToIds w w0 := (same_id hw (hc.1 _ _ hm0) hi hi0).1 rfl
    refine ⟨.inl ⟨by rw [hr], n, w0, hm0, hs0⟩, fun book' hb m j => ?_⟩
    rw [hr]
    simp only [hb, hwn]
    by_cases hmn : m = n
    · simp only [hmn, if_true, reduceCtorEq, false_iff, not_exists, not_and]
      rintro w' ⟨hm, hns⟩
      intro
      exact hns (Cong.trans hs0 ((hc.2 n w0 n w' hm0 hm).1 rfl))
    · simp only [hmn, if_false]
      rw [hh m j]
      constructor
      · rintro ⟨w', hm, hj⟩
        refine ⟨w', ⟨hm, fun hs => hmn ?_⟩, hj⟩
        exact (hc.2 m w' n w0 hm hm0).2 (Cong.trans (Cong.symm hs) hs0)
      · rintro ⟨w', ⟨hm, -⟩, hj⟩; exact ⟨w', hm, hj⟩

theorem consistent_nil : Consistent [] := ⟨fun _ _ h => (by cases h), fun _ _ _ _ h => (by cases h)⟩

theorem consistent_cons (hc : Consistent book) {w : What} {n : Str} (hw : Showable w) (hf : MayGoBy book w n) :
    Consistent ((n, w) :: book) := by
  refine ⟨fun m w' hm => ?_, fun m1 w1 m2 w2 h1 h2 => ?_⟩
  · rcases List.mem_cons.1 hm with e | hm
    · cases e; exact hw
    · exact hc.1 m w' hm
  · rcases List.mem_cons.1 h1 with e1 | h1 <;> rcases List.mem_cons.1 h2 with e2 | h2
    · cases e1; cases e2; exact ⟨fun _ => .refl _, fun _ => rfl⟩
    · cases e1
      rw [← hf m2 w2 h2]
      exact ⟨Eq.symm, Eq.symm⟩
    · cases e2
      rw [hf m1 w1 h1]
      exact ⟨.symm, .symm⟩
    · exact hc.2 m1 w1 m2 w2 h1 h2

theorem consistent_sub (hc : Consistent book) {book' : List (Str × What)} (hs : ∀ m w, (m, w) ∈ book' → (m, w) ∈ book) : Consistent book' :=
  ⟨fun m w hm => hc.1 m w (hs m w hm), fun m1 w1 m2 w2 h1 h2 => hc.2 m1 w1 m2 w2 (hs m1 w1 h1) (hs m2 w2 h2)⟩

open Classical in
theorem nick_step (b : Bijection r) (hh : Holding r book) (hc : Consistent book) (op : NickOp) (ho : op.Ok) :
    ∃ book', After book op book' ∧ Holding (regStep confId r op.call) book' ∧ Consistent book' := by
  cases op with
  | register w n =>
    obtain ⟨-, h2, h3⟩ := c80_register b hh hc w n ho
    by_cases hf : MayGoBy book w n
    · exact ⟨_, .entered hf, h2 hf, consistent_cons hc ho hf⟩
    · refine ⟨_, .refused hf, ?_, hc⟩
      simp only [NickOp.call, regStep, h3 hf]
      exact hh
  | removeNick n =>
    have hb : ∀ m w, (m, w) ∈ book.filter (fun e => decide (e.1 ≠ n)) ↔ (m, w) ∈ book ∧ m ≠ n := by simp
    exact ⟨_, .nick hb, (c80_remove_nick b hh (fun m w hm => showable_has_id (hc.1 m w hm)) n).2 _ hb, consistent_sub hc fun m w hm => ((hb m w).1 hm).1⟩
  | removeWhat w =>
    have hb : ∀ m w', (m, w') ∈ book.filter (fun e => decide (¬ SameToIds w e.2)) ↔ (m, w') ∈ book ∧ ¬ SameToIds w w' := by simp
    exact ⟨_, .conf hb, (c80_remove_what b hh hc w ho).2 _ hb, consistent_sub hc fun m w hm => ((hb m w).1 hm).1⟩
  | reset => exact ⟨_, .reset, fun n i => by simp [NickOp.call, regStep, Registry.nickToId, dget], consistent_nil⟩

/-- **C80**. After any history of calls, failing ones included, the registry holds exactly the book that the history makes, in which
a nickname never stands for two configurations nor a configuration has two nicknames. -/
theorem c80_history (ops : List NickOp) (ho : ∀ op ∈ ops, op.Ok) :
    ∃ book, Afters [] ops book ∧ Holding (nickRun ops) book ∧ Consistent book := by
  have key : ∀ (ops : List NickOp) (r : Registry) (book : List (Str × What)), (∀ op ∈ ops, op.Ok) → Bijection r → Holding r book → Consistent book →
      ∃ book', Afters book ops book' ∧ Holding (regRun r (ops.map fun op => (confId, op.call))) book' ∧ Consistent book' := by
    intro ops
    induction ops with
    | nil => intro r book _ _ hh hc; exact ⟨book, .nil _, hh, hc⟩
    | cons op ops ih =>
      intro r book ho b hh hc
      obtain ⟨book1, a1, h1, c1⟩ := nick_step b hh hc op (ho op (.head _))
      obtain ⟨book2, a2, h2, c2⟩ := ih (regStep confId r op.call) book1 (fun o hm => ho o (.tail _ hm)) (regStep_bijection b _) h1 c1
      exact ⟨book2, .cons a1 a2, h2, c2⟩
  exact key ops {} [] ho bijection_empty (fun n i => by simp [Registry.nickToId, dget]) consistent_nil

/-- **C80**. A nickname leads back to the configuration: `parse_whatid(registry.nick2id(n))` equals what was registered as `n`. -/
theorem c80_back (hh : Holding r book) (E : Env) (n : Str) (w : What) (hm : (n, w) ∈ book) (hw : PrintableWhat ⟨False, False, True⟩ w)
    (hl : LoadableWhat ⟨False, False, True⟩ E w) (hnan : ¬ Within (.float c!"nan") w.toVal) :
    ∃ s w', r.nickToId n = some s ∧ parseWhatid E s = .ok w' ∧ pyEq E.fi false w.toVal w'.toVal = true := by
  obtain ⟨s, w', h1, h2, h3⟩ := c06_equal false hw hl (.inr hnan)
  exact ⟨s, w', (hh n s).2 ⟨w, hm, h1⟩, h2, h3⟩

/-- **C80**. `nick_or_id(w)` is the nickname of `w`, if it has one, and otherwise its id. -/
theorem c80_nick_or_id (b : Bijection r) (hh : Holding r book) (hc : Consistent book) (w : What) (hw : Showable w) :
    (∀ n w', (n, w') ∈ book → SameToIds w w' → nickOrId confId r w.toVal = .ok n) ∧
    ((∀ n w', (n, w') ∈ book → ¬ SameToIds w w') → nickOrId confId r w.toVal = idD w) := by
  obtain ⟨i, hi⟩ := showable_has_id hw
  obtain ⟨h1, h2⟩ := (c29_lookups confId r b).1 w.toVal i (confId_what hi)
  refine ⟨fun n w' hm hs => h1 n ?_, fun hno => ?_⟩
  · obtain ⟨s, hs'⟩ := showable_has_id (hc.1 n w' hm)
    obtain rfl := (same_id hw (hc.1 _ _ hm) hi hs').2 hs
    exact (holding_nick b hh n i).2 ⟨w', hm, hs'⟩
  · rw [hi]
    refine h2 ?_
    cases hn : r.idToNick i with
    | none => rfl
    | some n =>
      obtain ⟨w', hm, hi'⟩ := (holding_nick b hh n i).1 hn
      exact absurd ((same_id hw (hc.1 _ _ hm) hi hi').1 rfl) (hno n w' hm)

/-- **C80**. As long as no nickname is the id of something, `nick_or_id` tells configurations apart. -/
theorem c80_tells_apart (b : Bijection r) (hh : Holding r book) (hc : Consistent book) (w w' : What) (hw : Showable w)
    (hw' : Showable w') (hno : ∀ n v, (n, v) ∈ book → idD w ≠ .ok n ∧ idD w' ≠ .ok n) :
    nickOrId confId r w.toVal = nickOrId confId r w'.toVal ↔ SameToIds w w' := by
  obtain ⟨i, hi⟩ := showable_has_id hw
  obtain ⟨i', hi'⟩ := showable_has_id hw'
  obtain ⟨a1, a2⟩ := c80_nick_or_id b hh hc w hw
  obtain ⟨b1, b2⟩ := c80_nick_or_id b hh hc w' hw'
  constructor
  · intro e
    by_cases h : ∃ n v, (n, v) ∈ book ∧ SameToIds w v <;> by_cases h' : ∃ n v, (n, v) ∈ book ∧ SameToIds w' v
    · obtain ⟨n, v, hm, hs⟩ := h
      obtain ⟨n', v', hm', hs'⟩ := h'
      rw [a1 n v hm hs, b1 n' v' hm' hs'] at e
      cases e
      exact .trans hs (.trans ((hc.2 n v n v' hm hm').1 rfl) (.symm hs'))
    · obtain ⟨n, v, hm, hs⟩ := h
      rw [a1 n v hm hs, b2 fun n v hm hs => h' ⟨n, v, hm, hs⟩] at e
      exact absurd e.symm (hno n v hm).2
    · obtain ⟨n', v', hm', hs'⟩ := h'
      rw [b1 n' v' hm' hs', a2 fun n v hm hs => h ⟨n, v, hm, hs⟩] at e
      exact absurd e (hno n' v' hm').1
    · rw [a2 fun n v hm hs => h ⟨n, v, hm, hs⟩, b2 fun n v hm hs => h' ⟨n, v, hm, hs⟩] at e
      rw [hi, hi'] at e
      cases e
      exact (same_id hw hw' hi hi').1 rfl
  · intro hs
    by_cases h : ∃ n v, (n, v) ∈ book ∧ SameToIds w v
    · obtain ⟨n, v, hm, hs1⟩ := h
      rw [a1 n v hm hs1, b1 n v hm (.trans (.symm hs) hs1)]
    · rw [a2 fun n v hm hs1 => h ⟨n, v, hm, hs1⟩, b2 fun n v hm hs1 => h ⟨n, v, hm, .trans hs hs1⟩, hi, hi',
        (same_id hw hw' hi hi').2 hs]

def exNickA : What := ⟨c!"a", [], [], none⟩
def exNickB : What := ⟨c!"b", [(c!"x", .int 1)], [], none⟩

theorem exNick_printable : PrintableWhat ⟨False, False, True⟩ exNickA ∧ PrintableWhat ⟨False, False, True⟩ exNickB := by
  constructor
  · exact ⟨⟨fun x h => (by cases h), ident_of (by rfl), fun k hk => (by cases hk)⟩, by unfold UniqueKeys exNickA; decide, .inl rfl, fun k v hm => (by cases hm)⟩
  · refine ⟨⟨fun x h => (by cases h), ident_of (by rfl), fun k hk => ?_⟩, by unfold UniqueKeys exNickB; decide, .inl rfl, fun k v hm _ => ?_⟩
    · simp only [exNickB, List.map_cons, List.map_nil, List.mem_singleton] at hk
      subst hk; exact ident_of (by rfl)
    · simp only [exNickB, List.mem_singleton, Prod.mk.injEq] at hm
      rw [hm.2]
      simp only [Printable]

theorem exNick_showable : Showable exNickA ∧ Showable exNickB :=
  ⟨printable_showable exNick_printable.1, printable_showable exNick_printable.2⟩

/-- **C80**. A nickname may be the id of another configuration, and then `nick_or_id` confuses the two. -/
theorem c80_confused : ∃ (ops : List NickOp) (w w' : What), (∀ op ∈ ops, op.Ok) ∧ Showable w ∧ Showable w' ∧ ¬ SameToIds w w' ∧ nickOrId confId (nickRun ops) w.toVal = nickOrId confId (nickRun ops) w'.toVal := by
  refine ⟨[.register exNickB c!"a()"], exNickA, exNickB, ?_, exNick_showable.1, exNick_showable.2, fun hs => ?_, rfl⟩
  · intro op hm
    obtain rfl := List.mem_singleton.1 hm
    exact exNick_showable.2
  · have := (same_id exNick_showable.1 exNick_showable.2 (s := c!"a()") (s' := c!"b(x=1)") rfl rfl).2 hs
    exact absurd this (by decide)

def exNicks : List NickOp := [.register exRT c!"best", .register { exRT with conf := exRT.conf.reverse } c!"other", .register exNickB c!"b",
  .register exNickB c!"b", .removeWhat exNickB, .removeNick c!"nobody", .register exNickA c!"best", .register exNickA c!"alpha"]

/-- A history with refusals (the same configuration in another order under a second nickname; a nickname that is taken), a second
registration of the same pair, and removals. -/
theorem exNicks_ok : ∀ op ∈ exNicks, op.Ok := by
  have hrev : PrintableWhat ⟨False, False, True⟩ { exRT with conf := exRT.conf.reverse } := by
    obtain ⟨⟨h1, h2, h3⟩, h4, h5, h6⟩ := exRT_printable ⟨False, False, True⟩
    exact ⟨⟨h1, h2, fun k hk => h3 k (by simpa using hk)⟩, by unfold UniqueKeys exRT; decide, h5,
      fun k v hm => h6 k v (List.mem_reverse.1 hm)⟩
  intro op hm
  simp only [exNicks, List.mem_cons, List.not_mem_nil, or_false] at hm
  rcases hm with rfl | rfl | rfl | rfl | rfl | rfl | rfl | rfl
  · exact printable_showable (exRT_printable _)
  · exact printable_showable hrev
  · exact exNick_showable.2
  · exact exNick_showable.2
  · exact exNick_showable.2
  · exact trivial
  · exact exNick_showable.1
  · exact exNick_showable.1

example : (nickRun exNicks).list.map Prod.fst = [c!"alpha", c!"best"] := by decide +kernel
example : (nickRun exNicks).nickToId c!"alpha" = some c!"a()" := by decide +kernel
example : (nickOrId confId (nickRun exNicks) exNickB.toVal).toOption = some c!"b(x=1)" := by decide +kernel

end Whatami
