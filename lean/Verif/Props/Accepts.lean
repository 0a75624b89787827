import Verif.Props.RoundTrip
import Verif.Props.Meaning
import Verif.Spec.Accepted

/-
C13: exactly which ids are accepted, among those of configurations whose text is in the language of ids.
-/
namespace Whatami

variable {E : Env} {F : Frag}

/-- The syntax has a value with the property. -/
def ReadsTo (E : Env) (P : Val → Prop) (a : Ast) : Prop := ∃ v, sem E a = .ok v ∧ P v

theorem semL_reads {P : Val → Prop} {xs : List Ast} : (∃ l, semL E xs = .ok l ∧ ∀ v ∈ l, P v) ↔ ∀ x ∈ xs, ReadsTo E P x := by
  induction xs with
  | nil => simp [semL]
  | cons x xs ih =>
    simp only [semL, List.mem_cons, forall_eq_or_imp]
    rw [← ih]
    constructor
    · rintro ⟨l, h, hp⟩
      obtain ⟨v, hv, h⟩ := except_bind_ok h
      obtain ⟨l', hl, rfl⟩ := except_map_ok h
      exact ⟨⟨v, hv, hp v (by simp)⟩, l', hl, fun u hu => hp u (by simp [hu])⟩
    · rintro ⟨⟨v, hv, hp⟩, l, hl, hp'⟩
      refine ⟨v :: l, by simp only [hv, hl, Except.bind, Except.map], fun u hu => ?_⟩
      rcases List.mem_cons.1 hu with rfl | hu
      · exact hp
      · exact hp' u hu

theorem semD_reads {P Q : Val → Prop} {xs : List (Ast × Ast)} :
    (∃ l, semD E xs = .ok l ∧ ∀ kv ∈ l, P kv.1 ∧ Q kv.2) ↔ ∀ x ∈ xs, ReadsTo E P x.1 ∧ ReadsTo E Q x.2 := by
  induction xs with
  | nil => simp [semD]
  | cons x xs ih =>
    obtain ⟨k, v⟩ := x
    simp only [semD, List.mem_cons, forall_eq_or_imp]
    rw [← ih]
    constructor
    · rintro ⟨l, h, hp⟩
      obtain ⟨k', hk, h⟩ := except_bind_ok h
      obtain ⟨v', hv, h⟩ := except_bind_ok h
      obtain ⟨l', hl, rfl⟩ := except_map_ok h
      have := hp (k', v') (by simp)
      exact ⟨⟨⟨k', hk, this.1⟩, v', hv, this.2⟩, l', hl, fun u hu => hp u (by simp [hu])⟩
    · rintro ⟨⟨⟨k', hk, hp⟩, v', hv, hq⟩, l, hl, hp'⟩
      refine ⟨(k', v') :: l, by simp only [hk, hv, hl, Except.bind, Except.map], fun u hu => ?_⟩
      rcases List.mem_cons.1 hu with rfl | hu
      · exact ⟨hp, hq⟩
      · exact hp' u hu

theorem semA_reads {xs : List (Str × Ast)} : (∃ l, semA E xs = .ok l) ↔ ∀ x ∈ xs, ReadsTo E (fun _ => True) x.2 := by
  induction xs with
  | nil => simp [semA]
  | cons x xs ih =>
    obtain ⟨k, v⟩ := x
    simp only [semA, List.mem_cons, forall_eq_or_imp]
    rw [← ih]
    constructor
    · rintro ⟨l, h⟩
      obtain ⟨v', hv, h⟩ := except_bind_ok h
      obtain ⟨l', hl, rfl⟩ := except_map_ok h
      exact ⟨⟨v', hv, trivial⟩, l', hl⟩
    · rintro ⟨⟨v', hv, -⟩, l, hl⟩
      exact ⟨(k, v') :: l, by simp only [hv, hl, Except.bind, Except.map]⟩

theorem setFrom_reads {fi : Str → Option Int} {l : List Val} : ∀ acc, (∃ d, setFrom fi acc l = .ok d) ↔ ∀ v ∈ l, hashable v = true := by
  induction l with
  | nil => intro acc; simp [setFrom]
  | cons v l ih =>
    intro acc
    simp only [setFrom, List.mem_cons, forall_eq_or_imp]
    split
    · next h => rw [ih]; simp [h]
    · next h => simp [h]

theorem dictFrom_reads {fi : Str → Option Int} {l : List (Val × Val)} : ∀ acc, (∃ d, dictFrom fi acc l = .ok d) ↔ ∀ kv ∈ l, hashable kv.1 = true := by
  induction l with
  | nil => intro acc; simp [dictFrom]
  | cons v l ih =>
    obtain ⟨k, v⟩ := v
    intro acc
    simp only [dictFrom, List.mem_cons, forall_eq_or_imp]
    split
    · next h => rw [ih]; simp [h]
    · next h => simp [h]

/-- A set, from the values of its elements. -/
theorem reads_set {xs : List Ast} {P : Val → Prop} (hP : ∀ l, ¬ P (Val.set l)) :
    ((∃ v, ((semL E xs).bind fun l => (setFrom E.fi [] l).map Val.set) = .ok v) ↔ ∀ x ∈ xs, ReadsTo E (fun v => hashable v = true) x) ∧
    ¬ ∃ v, ((semL E xs).bind fun l => (setFrom E.fi [] l).map Val.set) = .ok v ∧ P v := by
  constructor
  · rw [← semL_reads]
    constructor
    · rintro ⟨v, h⟩
      obtain ⟨l, hl, h⟩ := except_bind_ok h
      obtain ⟨d, hd, -⟩ := except_map_ok h
      exact ⟨l, hl, (setFrom_reads []).1 ⟨d, hd⟩⟩
    · rintro ⟨l, hl, h⟩
      obtain ⟨d, hd⟩ := (setFrom_reads (fi := E.fi) []).2 h
      exact ⟨.set d, by simp only [hl, Except.bind, hd, Except.map]⟩
  · rintro ⟨v, h, hp⟩
    obtain ⟨l, hl, h⟩ := except_bind_ok h
    obtain ⟨d, hd, rfl⟩ := except_map_ok h
    exact hP d hp

theorem acceptedL_iff {xs : List Val} : AcceptedL E xs ↔ ∀ x ∈ xs, Accepted E x := by
  induction xs with
  | nil => simp [AcceptedL]
  | cons x xs ih => simp only [AcceptedL, ih, List.mem_cons, forall_eq_or_imp]

theorem keyLikeL_iff {xs : List Val} : KeyLikeL E xs ↔ ∀ x ∈ xs, KeyLike E x := by
  induction xs with
  | nil => simp [KeyLikeL]
  | cons x xs ih => simp only [KeyLikeL, ih, List.mem_cons, forall_eq_or_imp]

theorem acceptedD_iff {xs : List (Val × Val)} : AcceptedD E xs ↔ ∀ x ∈ xs, KeyLike E x.1 ∧ Accepted E x.2 := by
  induction xs with
  | nil => simp [AcceptedD]
  | cons x xs ih => obtain ⟨k, v⟩ := x; simp only [AcceptedD, ih, List.mem_cons, forall_eq_or_imp, and_assoc]

theorem acceptedA_iff {nk : List Str} {xs : Conf} : AcceptedA E nk xs ↔ ∀ k v, (k, v) ∈ xs → k ∉ nk → Accepted E v := by
  induction xs with
  | nil => simp [AcceptedA]
  | cons x xs ih =>
    obtain ⟨k, v⟩ := x
    simp only [AcceptedA, ih, List.mem_cons, Prod.mk.injEq]
    constructor
    · rintro ⟨h1, h2⟩ k' v' (⟨rfl, rfl⟩ | h) hn
      · exact h1 hn
      · exact h2 _ _ h hn
    · intro h
      exact ⟨h k v (.inl ⟨rfl, rfl⟩), fun k' v' hm => h k' v' (.inr hm)⟩

theorem hashableL_iff {xs : List Val} : hashableL xs = true ↔ ∀ x ∈ xs, hashable x = true := by
  induction xs with
  | nil => simp [hashableL]
  | cons x xs ih => simp only [hashableL, Bool.and_eq_true, ih, List.mem_cons, forall_eq_or_imp]

/-- Classes. -/
theorem clsVal_reads {f : Str} : (∃ v, clsVal E f = .ok v) ↔ ClassReads E f := by
  have hd : DottedName f (rpartition f '.').1 (rpartition f '.').2 := rpartition_iff.1 rfl
  constructor
  · rintro ⟨v, h⟩
    refine ⟨_, _, hd, ?_⟩
    unfold clsVal at h
    split at h
    · cases h
    · next u hu hn => exact .inl ⟨u, hn, hu⟩
    · next h' => exact .inr (.inl h')
    · next h' => exact .inr (.inr h')
    · cases h
  · rintro ⟨m, n, hmn, h⟩
    have e : rpartition f '.' = (m, n) := rpartition_iff.2 hmn
    unfold clsVal
    rw [e]
    rcases h with ⟨v, hv, hne⟩ | h | h
    · simp only [hv]
      cases v <;> first | exact absurd rfl hne | exact ⟨_, rfl⟩
    · simp only [h]; exact ⟨_, rfl⟩
    · simp only [h]; exact ⟨_, rfl⟩

theorem clsVal_hash {f : Str} : (∃ v, clsVal E f = .ok v ∧ hashable v = true) ↔ ClassHashes E f := by
  have hd : DottedName f (rpartition f '.').1 (rpartition f '.').2 := rpartition_iff.1 rfl
  constructor
  · rintro ⟨v, h, hh⟩
    unfold clsVal at h
    split at h
    · cases h
    · next hu hn => cases h; exact ⟨_, _, v, hd, hn, hu, hh⟩
    · cases h; cases hh
    · cases h; cases hh
    · cases h
  · rintro ⟨m, n, v, hmn, hv, hne, hh⟩
    have e : rpartition f '.' = (m, n) := rpartition_iff.2 hmn
    unfold clsVal
    rw [e]
    simp only [hv]
    cases v <;> first | exact absurd rfl hne | exact ⟨_, rfl, hh⟩


/-- Read at all, and read as something hashable. -/
abbrev Any (E : Env) (a : Ast) : Prop := ReadsTo E (fun _ => True) a
/-- Read as something hashable. -/
abbrev Hashed (E : Env) (a : Ast) : Prop := ReadsTo E (fun v => hashable v = true) a

theorem any_of_ok {a : Ast} {v : Val} (h : sem E a = .ok v) (hh : hashable v = true) : Any E a ∧ Hashed E a := ⟨⟨v, h, trivial⟩, v, h, hh⟩

theorem reads_list {c : List Val → Val} {xs : List Ast} : (∃ v, (semL E xs).map c = .ok v ∧ True) ↔ ∀ x ∈ xs, Any E x := by
  rw [← semL_reads]
  constructor
  · rintro ⟨v, h, -⟩
    obtain ⟨l, hl, -⟩ := except_map_ok h
    exact ⟨l, hl, fun _ _ => trivial⟩
  · rintro ⟨l, hl, -⟩
    exact ⟨c l, by rw [hl]; rfl, trivial⟩

theorem reads_tuple {xs : List Ast} : (∃ v, (semL E xs).map Val.tuple = .ok v ∧ hashable v = true) ↔ ∀ x ∈ xs, Hashed E x := by
  rw [← semL_reads]
  constructor
  · rintro ⟨v, h, hh⟩
    obtain ⟨l, hl, rfl⟩ := except_map_ok h
    exact ⟨l, hl, hashableL_iff.1 (by simpa only [hashable] using hh)⟩
  · rintro ⟨l, hl, hh⟩
    exact ⟨.tuple l, by rw [hl]; rfl, by simp only [hashable]; exact hashableL_iff.2 hh⟩

theorem reads_dict {xs : List (Ast × Ast)} :
    (∃ v, ((semD E xs).bind fun l => (dictFrom E.fi [] l).map Val.dict) = .ok v ∧ True) ↔ ∀ x ∈ xs, Hashed E x.1 ∧ Any E x.2 := by
  rw [← semD_reads]
  constructor
  · rintro ⟨v, h, -⟩
    obtain ⟨l, hl, h⟩ := except_bind_ok h
    obtain ⟨d, hd, -⟩ := except_map_ok h
    exact ⟨l, hl, fun kv hm => ⟨(dictFrom_reads []).1 ⟨d, hd⟩ kv hm, trivial⟩⟩
  · rintro ⟨l, hl, h⟩
    obtain ⟨d, hd⟩ := (dictFrom_reads (fi := E.fi) []).2 fun kv hm => (h kv hm).1
    exact ⟨.dict d, by simp only [hl, Except.bind, hd, Except.map], trivial⟩

/-- The parameters of a What. -/
theorem reads_items {w : What} {α : Type} {f : List (Str × Val) → α} (h : ∀ k v, (k, v) ∈ w.conf → k ∉ w.nonids → (Any E (enc v) ↔ Accepted E v)) :
    (∃ r, ((semA E (encA (idItems w false))).bind fun l =>
      if w.out.isSome && (encA (idItems w false)).isEmpty then .error .valueError else .ok (f l)) = Except.ok r) ↔
    (w.out ≠ none → ∃ k ∈ w.conf.map Prod.fst, k ∉ w.nonids) ∧ AcceptedA E w.nonids w.conf := by
  have ha : (∃ l, semA E (encA (idItems w false)) = .ok l) ↔ AcceptedA E w.nonids w.conf := by
    rw [semA_reads, acceptedA_iff]
    constructor
    · intro hr k v hm hn
      refine (h k v hm hn).1 (hr (k, enc v) ?_)
      rw [encA_map]
      refine List.mem_map.2 ⟨(k, v), ?_, rfl⟩
      simp only [idItems, List.mem_filter, mem_sortBy, Bool.false_or, Bool.not_eq_true', List.contains_eq_mem, decide_eq_false_iff_not]
      exact ⟨hm, hn⟩
    · intro hr x hx
      rw [encA_map, List.mem_map] at hx
      obtain ⟨⟨k, v⟩, hm, rfl⟩ := hx
      obtain ⟨h1, h2⟩ := items_mem hm
      exact (h k v h1 h2).2 (hr k v h1 h2)
  rw [← ha]
  constructor
  · rintro ⟨r, hr⟩
    obtain ⟨l, hl, hr⟩ := except_bind_ok hr
    refine ⟨fun ho => ?_, l, hl⟩
    rcases hi : idItems w false with _ | ⟨⟨k, v⟩, rest⟩
    · rw [hi] at hr
      cases ho' : w.out with
      | none => exact absurd ho' ho
      | some o => rw [ho'] at hr; simp [encA] at hr
    · obtain ⟨h1, h2⟩ := items_mem (w := w) (k := k) (v := v) (by rw [hi]; simp)
      exact ⟨k, List.mem_map.2 ⟨_, h1, rfl⟩, h2⟩
  · rintro ⟨ho, l, hl⟩
    exact ⟨f l, by simp only [hl, Except.bind, out_cond ho]; rfl⟩

theorem mem_encL {x : Ast} {xs : List Val} : x ∈ encL xs ↔ ∃ v ∈ xs, enc v = x := by rw [encL_map, List.mem_map]
theorem mem_encD {x : Ast × Ast} {xs : List (Val × Val)} : x ∈ encD xs ↔ ∃ kv ∈ xs, (enc kv.1, enc kv.2) = x := by rw [encD_map, List.mem_map]

mutual
/-- The text of a printable value is read if it is Accepted, and read as something hashable if it is KeyLike. -/
theorem reads_iff : ∀ v : Val, Printable F v → (Any E (enc v) ↔ Accepted E v) ∧ (Hashed E (enc v) ↔ KeyLike E v)
  | .none, _ => by
      have := any_of_ok (E := E) (a := enc .none) rfl rfl
      simp only [Accepted, KeyLike, iff_true]; exact this
  | .bool b, _ => by
      have := any_of_ok (E := E) (a := enc (.bool b)) rfl rfl
      simp only [Accepted, KeyLike, iff_true]; exact this
  | .int i, _ => by
      have := any_of_ok (E := E) (a := enc (.int i)) (v := .int i) (by simp only [enc, sem, numberOf, pyInt_intStr]) rfl
      simp only [Accepted, KeyLike, iff_true]; exact this
  | .float t, h => by
      simp only [Printable] at h
      have := any_of_ok (E := E) (a := enc (.float t)) (v := .float (E.floatOf t)) (by simp only [enc, sem, numberOf, pyInt_float h]) rfl
      simp only [Accepted, KeyLike, iff_true]; exact this
  | .str s, _ => by
      have := any_of_ok (E := E) (a := enc (.str s)) rfl rfl
      simp only [Accepted, KeyLike, iff_true]; exact this
  | .cls f, _ => by
      refine ⟨?_, ?_⟩
      · simp only [Accepted, Any, ReadsTo, enc, sem, and_true]; exact clsVal_reads
      · simp only [KeyLike, Hashed, ReadsTo, enc, sem]; exact clsVal_hash
  | .tuple xs, h => by
      simp only [Printable] at h
      have ih := readsL_iff xs h
      refine ⟨?_, ?_⟩
      · simp only [Accepted, Any, ReadsTo, enc, sem]
        exact reads_list.trans (ih.1.trans acceptedL_iff.symm)
      · simp only [KeyLike, Hashed, ReadsTo, enc, sem]
        exact reads_tuple.trans (ih.2.trans keyLikeL_iff.symm)
  | .list xs, h => by
      simp only [Printable] at h
      have ih := readsL_iff xs h
      refine ⟨?_, ?_⟩
      · simp only [Accepted, Any, ReadsTo, enc, sem]
        exact reads_list.trans (ih.1.trans acceptedL_iff.symm)
      · simp only [KeyLike, Hashed, ReadsTo, enc, sem, iff_false]
        rintro ⟨v, hv, hh⟩
        obtain ⟨l, -, rfl⟩ := except_map_ok hv
        cases hh
  | .set xs, h => by
      simp only [Printable] at h
      have ih := readsL_iff xs h
      have hs := reads_set (E := E) (xs := sortBy textLe (encL xs)) (P := fun v => hashable v = true) (fun l e => by cases e)
      refine ⟨?_, ?_⟩
      · simp only [Accepted, Any, ReadsTo, enc, sem, and_true]
        rw [hs.1, keyLikeL_iff, ← ih.2]
        simp only [mem_sortBy]
      · simp only [KeyLike, Hashed, ReadsTo, enc, sem, iff_false]
        exact hs.2
  | .fset xs, h => by
      simp only [Printable] at h
      have ih := readsL_iff xs h.2
      have hs := reads_set (E := E) (xs := sortBy textLe (encL xs)) (P := fun v => hashable v = true) (fun l e => by cases e)
      refine ⟨?_, ?_⟩
      · simp only [Accepted, Any, ReadsTo, enc, sem, and_true]
        rw [hs.1, keyLikeL_iff, ← ih.2]
        simp only [mem_sortBy]
      · simp only [KeyLike, Hashed, ReadsTo, enc, sem, iff_false]
        exact hs.2
  | .dict kvs, h => by
      simp only [Printable] at h
      have ih := readsD_iff kvs h
      refine ⟨?_, ?_⟩
      · simp only [Accepted, Any, ReadsTo, enc, sem]
        rw [reads_dict, acceptedD_iff, ← ih]
        simp only [mem_sortBy]
      · simp only [KeyLike, Hashed, ReadsTo, enc, sem, iff_false]
        rintro ⟨v, hv, hh⟩
        obtain ⟨l, -, hv⟩ := except_bind_ok hv
        obtain ⟨d, -, rfl⟩ := except_map_ok hv
        cases hh
  | .what n c nk o, h => by
      simp only [Printable] at h
      have ih := readsA_iff c h.2.2.2.2
      refine ⟨?_, ?_⟩
      · simp only [Accepted, Any, ReadsTo, enc, and_true]
        rw [enc_items ⟨n, c, nk, o⟩]
        simp only [sem]
        exact reads_items (w := ⟨n, c, nk, o⟩) ih
      · simp only [KeyLike, Hashed, ReadsTo, enc, iff_false, sem]
        rintro ⟨v, hv, hh⟩
        obtain ⟨l, -, hv⟩ := except_bind_ok hv
        split at hv
        · cases hv
        · cases hv; cases hh
  | .sub _ _ _ _, h => by simp only [Printable] at h
  | .odict _ _ _, h => by simp only [Printable] at h
  | .ddict _ _ _, h => by simp only [Printable] at h
  | .obj _ _ _ _ _ _ _ _, h => by simp only [Printable] at h
  | .duck _ _ _ _, h => by simp only [Printable] at h
  | .numtype _, h => by simp only [Printable] at h
  | .wcls _, h => by simp only [Printable] at h
  | .func _ _ _, h => by simp only [Printable] at h
  | .part _ _ _ _, h => by simp only [Printable] at h
  | .builtin _, h => by simp only [Printable] at h
  | .property, h => by simp only [Printable] at h
  | .array _ _, h => by simp only [Printable] at h
  | .rng _ _, h => by simp only [Printable] at h
termination_by structural v => v
theorem readsL_iff : ∀ xs : List Val, PrintableL F xs → ((∀ x ∈ encL xs, Any E x) ↔ ∀ x ∈ xs, Accepted E x) ∧
    ((∀ x ∈ encL xs, Hashed E x) ↔ ∀ x ∈ xs, KeyLike E x)
  | [], _ => by simp [encL]
  | x :: xs, h => by
      simp only [PrintableL] at h
      have h1 := reads_iff x h.1
      have h2 := readsL_iff xs h.2
      simp only [encL, List.mem_cons, forall_eq_or_imp]
      exact ⟨by rw [h1.1, h2.1], by rw [h1.2, h2.2]⟩
termination_by structural xs => xs
theorem readsD_iff : ∀ xs : List (Val × Val), PrintableD F xs → ((∀ x ∈ encD xs, Hashed E x.1 ∧ Any E x.2) ↔ ∀ x ∈ xs, KeyLike E x.1 ∧ Accepted E x.2)
  | [], _ => by simp [encD]
  | (k, v) :: xs, h => by
      simp only [PrintableD] at h
      have h1 := reads_iff k h.1
      have h2 := reads_iff v h.2.1
      have h3 := readsD_iff xs h.2.2
      simp only [encD, List.mem_cons, forall_eq_or_imp]
      rw [h1.2, h2.1, h3]
termination_by structural xs => xs
theorem readsA_iff : ∀ {nk : List Str} (xs : Conf), PrintableA F nk xs → ∀ k v, (k, v) ∈ xs → k ∉ nk → (Any E (enc v) ↔ Accepted E v)
  | _, [], _ => by intro k v hm; cases hm
  | nk, (k, v) :: xs, h => by
      simp only [PrintableA] at h
      intro k' v' hm hn
      rcases List.mem_cons.1 hm with e | hm
      · cases e; exact (reads_iff v (h.1 hn)).1
      · exact readsA_iff xs h.2 k' v' hm hn
termination_by structural _ xs => xs
end

/-- C13, exactly: the id of a configuration whose text is in the language of ids is accepted if and only if its classes can be looked up, what is in
its sets and the keys of its dicts is hashable when read, and no What in it has an out_name but no parameters that show. -/
theorem c13_iff {w : What} (h : PrintableWhat F w) : ∃ s, idD w = .ok s ∧ ((∃ w', parseWhatid E s = .ok w') ↔ AcceptedWhat E w) := by
  refine ⟨_, id_text h, ?_⟩
  rw [parse_text h.1.1 h.1.2.1 (id_wf h).1 (id_wf h).2]
  simp only [semTop, AcceptedWhat, What.toVal, Accepted]
  exact reads_items (w := w) fun k v hm hn => (reads_iff v (h.2.2.2 k v hm hn)).1

/-! Configurations of both kinds.  Each is printable; the first two are accepted, the others are not. -/

/-- One parameter. -/
def exOne (v : Val) : What := ⟨c!"f", [(c!"a", v)], [], none⟩

theorem exOne_printable {v : Val} (h : Printable F v) : PrintableWhat F (exOne v) := by
  refine ⟨⟨fun x h => by (cases h), ident_of (by rfl), fun k hk => ?_⟩, by simp [UniqueKeys, exOne], .inl rfl, fun k u hm _ => ?_⟩
  · simp only [exOne, List.map_cons, List.map_nil, List.mem_cons, List.not_mem_nil, or_false] at hk
    subst hk; exact ident_of (by rfl)
  · simp only [exOne, List.mem_cons, Prod.mk.injEq, List.not_mem_nil, or_false] at hm
    obtain ⟨-, rfl⟩ := hm
    exact h

theorem exOne_accepted {v : Val} : AcceptedWhat E (exOne v) ↔ Accepted E v := by
  simp [AcceptedWhat, exOne, What.toVal, Accepted, AcceptedA]

-- a class that cannot be imported is fine, but not in a set; one that can is
example : Accepted exEnv (.list [.cls c!"no.such", .set [.tuple [.cls c!"collections.OrderedDict", .int 1]]]) := by
  simp only [Accepted, AcceptedL, KeyLikeL, KeyLike, and_true]
  refine ⟨⟨c!"no", c!"such", rpartition_iff.1 rfl, .inr (.inl rfl)⟩, c!"collections", c!"OrderedDict", _, rpartition_iff.1 rfl, rfl, ?_, rfl⟩
  intro h; cases h
example : ∃ w', parseWhatid exEnv c!"f(a=[<class 'no.such'>,{(<class 'collections.OrderedDict'>,1)}])" = .ok w' := ⟨_, by rfl⟩
example : ¬ Accepted exEnv (.set [.cls c!"no.such"]) := by
  simp only [Accepted, KeyLikeL, KeyLike, and_true]
  rintro ⟨m, n, v, h, hv, -⟩
  have e := rpartition_iff.2 h
  cases e
  cases hv
example : idD (exOne (.set [.cls c!"no.such"])) = .ok c!"f(a={<class 'no.such'>})" ∧
    parseWhatid exEnv c!"f(a={<class 'no.such'>})" = .error .typeError := ⟨by rfl, by rfl⟩
-- a list as (part of) the key of a dict
example : ¬ Accepted exEnv (.dict [(.tuple [.int 1, .list []], .none)]) := by simp [Accepted, AcceptedD, KeyLike, KeyLikeL]
-- a nested What with an out_name whose only parameter is a non-id one
example : ¬ Accepted exEnv (.tuple [.what c!"g" [(c!"v", .int 1)] [c!"v"] (some c!"o")]) := by simp [Accepted, AcceptedL]
example : Printable ⟨True, True, True⟩ (.tuple [.what c!"g" [(c!"v", .int 1)] [c!"v"] (some c!"o")]) := by
  simp only [Printable, PrintableL, PrintableA, and_true]
  refine ⟨⟨fun x h => by cases h; exact ident_of (by rfl), ident_of (by rfl), fun k hk => ?_⟩, ⟨by unfold NestedStart; decide, fun h => by cases h⟩,
    by unfold UniqueKeys; decide, .inr trivial, fun h => absurd (by simp) h⟩
  simp only [List.map_cons, List.map_nil, List.mem_cons, List.not_mem_nil, or_false] at hk
  subst hk; exact ident_of (by rfl)

end Whatami
