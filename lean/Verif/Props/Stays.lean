import Verif.Props.ReadBack
import Verif.Props.FromIds

/-
C91: which configurations come back from their ids as they were.
-/
namespace Whatami

variable {E : Env}

/-! ### What stays is read as it was -/

theorem cleanedUp_self {s : Str} (h : IsClean s) : CleanedUp s s := ⟨s, [], .refl s, h.1, rfl, by simp, h.2⟩

theorem cleanedUp_clean {s t : Str} (h : CleanedUp s t) : IsClean t := by
  obtain ⟨b, ws, -, h2, rfl, h3, h4⟩ := h
  refine ⟨fun l r e => ?_, h4⟩
  obtain ⟨l', hl⟩ := h2 (ws ++ l) r (by rw [e, List.append_assoc])
  cases l with
  | nil =>
    exfalso
    -- the quote would come right after whitespace
    rw [List.append_nil] at hl
    have := h3 '\\' (by rw [hl]; simp)
    revert this; decide
  | cons c l =>
    rcases List.eq_nil_or_concat (c :: l) with h | ⟨m, d, h⟩
    · cases h
    · rw [List.concat_eq_append] at h
      rw [h] at hl ⊢
      rw [← List.append_assoc] at hl
      exact ⟨m, by rw [(List.append_inj' hl rfl).2]⟩

theorem readAs_key {x : Val} (hc : CanHash x) (h : Stays E x) : ReadAs E x x := by
  induction hc with
  | none => exact .none
  | bool b => exact .bool b
  | int i => exact .int i
  | float t =>
    cases h with
    | float h => have := ReadAs.float (E := E) t; rw [h] at this; exact this
  | str s => cases h with | str h => exact .str (cleanedUp_self h)
  | cls f => cases h with | cls h1 h2 => exact .cls h1 h2 (by simp)
  | numtype f => cases h
  | @tuple xs _ ih =>
    cases h with
    | tuple h =>
      refine .tuple rfl fun i x v hx hv => ?_
      rw [hx] at hv; cases hv
      have hm := List.mem_of_getElem? hx
      exact ih x hm (h x hm)

theorem sameKey_symm {fi : Str → Option Int} {a b : Val} (h : SameKey fi a b) : SameKey fi b a := by
  induction h with
  | none => exact .none
  | str s => exact .str s
  | cls s => exact .cls s
  | numtype s => exact .numtype s
  | integer h1 h2 => exact .integer h2 h1
  | float h1 h2 => exact .float h1 h2
  | tuple hl _ ih => exact .tuple hl.symm fun i x y hx hy => ih i y x hy hx

theorem added_apart {same : Val → Val → Prop} {l : List Val} (h : l.Pairwise fun x y => ¬ same x y) : Added same l l := by
  induction l using list_snoc_induction with
  | h0 => exact .nil
  | h1 l x ih =>
    rw [List.pairwise_append] at h
    exact .new (ih h.1) fun y hy => h.2.2 y hy x (by simp)

theorem assigned_apart {same : Val → Val → Prop} {l : List (Val × Val)} (h : (l.map Prod.fst).Pairwise fun x y => ¬ same x y) : Assigned same l l := by
  induction l using list_snoc_induction with
  | h0 => exact .nil
  | h1 l x ih =>
    rw [List.map_append, List.pairwise_append] at h
    exact .new (ih h.1) fun y hy => h.2.2 y.1 (List.mem_map_of_mem hy) x.1 (by simp)

/-- One for each. -/
theorem choose_list {α : Type} {P : α → α → Prop} {xs : List α} (h : ∀ x ∈ xs, ∃ y, P x y) : ∃ l : List α, All2 P xs l := by
  induction xs with
  | nil => exact ⟨[], .nil⟩
  | cons x xs ih =>
    obtain ⟨y, hy⟩ := h x (by simp)
    obtain ⟨l, hl⟩ := ih fun z hz => h z (by simp [hz])
    exact ⟨y :: l, .cons hy hl⟩

theorem all2_and {α : Type} {P Q : α → α → Prop} {xs l : List α} (h : All2 (fun a b => P a b ∧ Q a b) xs l) : All2 P xs l ∧ All2 Q xs l := by
  induction h with
  | nil => exact ⟨.nil, .nil⟩
  | cons h _ ih => exact ⟨.cons h.1 ih.1, .cons h.2 ih.2⟩
theorem all2_at {α : Type} {P : α → α → Prop} {xs l : List α} (h : All2 P xs l) :
    xs.length = l.length ∧ ∀ (i : Nat) x v, xs[i]? = some x → l[i]? = some v → P x v := by
  induction h with
  | nil => exact ⟨rfl, fun i x v h => by simp at h⟩
  | cons h _ ih => exact ⟨by simp [ih.1], cons_pointwise.2 ⟨h, ih.2⟩⟩
theorem all2_map {α β : Type} {P : α → α → Prop} {f : α → β} (hf : ∀ a b, P a b → f a = f b) {xs l : List α} (h : All2 P xs l) : xs.map f = l.map f := by
  induction h with
  | nil => rfl
  | cons h _ ih => simp only [List.map_cons, hf _ _ h, ih]

theorem stays_params {c : Conf} (hu : UniqueKeys c) (h : ∀ k v, (k, v) ∈ c → ∃ u, ReadAs E v u ∧ Cong Reorder v u) :
    ∃ ps l, ParamsInOrder c [] ps ∧ ps.map Prod.fst = l.map Prod.fst ∧ (∀ (i : Nat) p q, ps[i]? = some p → l[i]? = some q → ReadAs E p.2 q.2) ∧
      (ps = [] → c = []) ∧ ∀ n o, Cong Reorder (.what n c [] o) (.what n l [] o) := by
  have hi := (params_iff (w := ⟨[], c, [], none⟩) hu).2 rfl
  simp only at hi
  generalize idItems ⟨[], c, [], none⟩ false = ps at hi
  have hm : ∀ k v, (k, v) ∈ ps ↔ (k, v) ∈ c := fun k v => by rw [hi.2]; simp
  have hup : UniqueKeys ps := lt_nodup hi.1
  have hp : c.Perm ps := by
    refine (List.perm_ext_iff_of_nodup ?_ ?_).2 fun ⟨k, v⟩ => (hm k v).symm
    · exact (List.pairwise_map.1 hu).imp fun {a b} h (e : a = b) => h (e ▸ rfl)
    · exact (List.pairwise_map.1 hup).imp fun {a b} h (e : a = b) => h (e ▸ rfl)
  obtain ⟨l, hl⟩ := choose_list (P := fun e u : Str × Val => e.1 = u.1 ∧ ReadAs E e.2 u.2 ∧ Cong Reorder e.2 u.2) (xs := ps) (fun e he => by
    obtain ⟨u, h1, h2⟩ := h e.1 e.2 ((hm e.1 e.2).1 he)
    exact ⟨(e.1, u), rfl, h1, h2⟩)
  obtain ⟨h1, h2⟩ := all2_and hl
  obtain ⟨h2, h3⟩ := all2_and h2
  refine ⟨ps, l, hi, all2_map (fun _ _ h => h) h1, (all2_at h2).2, fun e => by rw [e] at hp; exact hp.eq_nil, fun n o => ?_⟩
  refine .trans (.base (.what n [] o hu hp)) ?_
  refine cong_ctx (R := fun a a' : Str × Val => a.1 = a'.1 ∧ ReadAs E a.2 a'.2 ∧ Cong Reorder a.2 a'.2) (fun c => .what n c [] o) ?_ hl
  rintro l ⟨k, v⟩ ⟨k', v'⟩ r ⟨hk, -, hv⟩
  simp only at hk hv
  subst hk
  exact .what n l r k [] o hv

/-- It is read as something that is the same but for the order of dicts, sets and parameters. -/
theorem stays_read {v : Val} (h : Stays E v) : Supported v → DictKeys v → ∃ u, ReadAs E v u ∧ Cong Reorder v u := by
  induction h with
  | none => exact fun _ _ => ⟨_, .none, .refl _⟩
  | bool b => exact fun _ _ => ⟨_, .bool b, .refl _⟩
  | int i => exact fun _ _ => ⟨_, .int i, .refl _⟩
  | @float t h => exact fun _ _ => ⟨_, .float t, by rw [h]; exact .refl _⟩
  | str h => exact fun _ _ => ⟨_, .str (cleanedUp_self h), .refl _⟩
  | cls h1 h2 => exact fun _ _ => ⟨_, .cls h1 h2 (by simp), .refl _⟩
  | @tuple xs _ ih =>
    intro hs hd
    simp only [Supported, supportedL_iff] at hs
    obtain ⟨l, hl⟩ := choose_list fun x hx => ih x hx (hs x hx) (dictKeys_child hd (.tuple hx))
    obtain ⟨h1, h2⟩ := all2_and hl
    exact ⟨.tuple l, .tuple (all2_at h1).1 (all2_at h1).2, cong_ctx .tuple (fun l a b r h => .tuple l r h) h2⟩
  | @list xs _ ih =>
    intro hs hd
    simp only [Supported, supportedL_iff] at hs
    obtain ⟨l, hl⟩ := choose_list fun x hx => ih x hx (hs x hx) (dictKeys_child hd (.list hx))
    obtain ⟨h1, h2⟩ := all2_and hl
    exact ⟨.list l, .list (all2_at h1).1 (all2_at h1).2, cong_ctx .list (fun l a b r h => .list l r h) h2⟩
  | @set xs h hc ha _ =>
    intro hs hd
    simp only [Supported, supportedL_iff] at hs
    obtain ⟨ys, hp, ho⟩ := order_exists hs fun x hx => dictKeys_child hd (.set hx)
    refine ⟨.set ys, .set hp ho rfl (fun i x v hx hv => ?_) (fun v hv => hc v (hp.mem_iff.1 hv)) (added_apart ?_), .base (.set hp.symm)⟩
    · rw [hx] at hv; cases hv
      have hm := hp.mem_iff.1 (List.mem_of_getElem? hx)
      exact readAs_key (hc x hm) (h x hm)
    · exact (hp.pairwise_iff fun {a b} hab e => hab (sameKey_symm e)).2 ha
  | @dict kvs hk hv hc ha ihk ihv =>
    intro hs hd
    simp only [Supported, supportedD_iff] at hs
    have hd' : ∀ x ∈ kvs, DictKeys x.1 ∧ DictKeys x.2 := fun x hx => ⟨dictKeys_child hd (.dictKey hx), dictKeys_child hd (.dictVal hx)⟩
    obtain ⟨es, hp, ho⟩ := order_items_exists hs hd'
    obtain ⟨l, hl⟩ := choose_list (P := fun e u : Val × Val => e.1 = u.1 ∧ ReadAs E e.2 u.2 ∧ Cong Reorder e.2 u.2) (xs := es) (fun e he => by
      have hm := hp.mem_iff.1 he
      obtain ⟨u, h1, h2⟩ := ihv e.1 e.2 hm (hs e hm).2 (hd' e hm).2
      exact ⟨(e.1, u), rfl, h1, h2⟩)
    obtain ⟨h1, h2⟩ := all2_and hl
    obtain ⟨h2, h3⟩ := all2_and h2
    have hkeys : es.map Prod.fst = l.map Prod.fst := all2_map (fun _ _ h => h) h1
    refine ⟨.dict l, .dict hp ho (all2_at h1).1 ?_ (all2_at h2).2 ?_ (assigned_apart ?_), ?_⟩
    · intro i e u he hu
      have hm := hp.mem_iff.1 (List.mem_of_getElem? he)
      rw [← (all2_at h1).2 i e u he hu]
      exact readAs_key (hc e.1 e.2 hm) (hk e.1 e.2 hm)
    · intro u hu
      have : u.1 ∈ l.map Prod.fst := List.mem_map_of_mem hu
      rw [← hkeys] at this
      obtain ⟨e, he, e'⟩ := List.mem_map.1 this
      rw [← e']
      exact hc e.1 e.2 (hp.mem_iff.1 he)
    · rw [← hkeys]
      exact ((hp.map Prod.fst).pairwise_iff fun {a b} hab e => hab (sameKey_symm e)).2 ha
    · refine .trans (.base (.dict hp.symm)) ?_
      refine cong_ctx (R := fun a a' : Val × Val => a.1 = a'.1 ∧ ReadAs E a.2 a'.2 ∧ Cong Reorder a.2 a'.2) .dict ?_ hl
      rintro l ⟨k, v⟩ ⟨k', v'⟩ r ⟨hk, -, hv⟩
      simp only at hk hv
      subst hk
      exact .dictVal k l r hv
  | @what n c o _ hc ih =>
    intro hs hd
    simp only [Supported, supportedA_iff] at hs
    obtain ⟨ps, l, h1, h2, h3, h4, h5⟩ := stays_params (hd _ _ _ _ (.refl _)) fun k v hm =>
      ih k v hm (hs.2.2 k v hm (by simp)).2 (dictKeys_child hd (.what k n [] o hm))
    exact ⟨.what n l [] o, .what h1 h2 h3 (fun e => (hc (h4 e)).1) (fun e => (hc (h4 e)).2), h5 n o⟩

/-! ### What is read stays -/

/-- As `Stays`, but number types are fine. -/
inductive Settled (E : Env) : Val → Prop where
  | none : Settled E .none
  | bool (b : Bool) : Settled E (.bool b)
  | int (i : Int) : Settled E (.int i)
  | float {t : Str} : E.floatOf t = t → Settled E (.float t)
  | str {s : Str} : IsClean s → Settled E (.str s)
  | cls {b m n : Str} : DottedName b m n → E.imp m n = .ok (.cls b) → Settled E (.cls b)
  | numtype (f : Str) : Settled E (.numtype f)
  | tuple {xs : List Val} : (∀ x ∈ xs, Settled E x) → Settled E (.tuple xs)
  | list {xs : List Val} : (∀ x ∈ xs, Settled E x) → Settled E (.list xs)
  | set {xs : List Val} : (∀ x ∈ xs, Settled E x) → (∀ x ∈ xs, CanHash x) → xs.Pairwise (fun x y => ¬ SameKey E.fi x y) → Settled E (.set xs)
  | dict {kvs : List (Val × Val)} : (∀ k v, (k, v) ∈ kvs → Settled E k) → (∀ k v, (k, v) ∈ kvs → Settled E v) →
      (∀ k v, (k, v) ∈ kvs → CanHash k) → (kvs.map Prod.fst).Pairwise (fun x y => ¬ SameKey E.fi x y) → Settled E (.dict kvs)
  | what {n : Str} {c : Conf} {o : Option Str} : (∀ k v, (k, v) ∈ c → Settled E v) → (c = [] → o = .none ∧ n ≠ c!"set" ∧ n ≠ c!"frozenset") →
      Settled E (.what n c [] o)

theorem stays_of_settled {v : Val} (h : Settled E v) : Supported v → Stays E v := by
  induction h with
  | none => exact fun _ => .none
  | bool b => exact fun _ => .bool b
  | int i => exact fun _ => .int i
  | float h => exact fun _ => .float h
  | str h => exact fun _ => .str h
  | cls h1 h2 => exact fun _ => .cls h1 h2
  | numtype f => intro h; simp only [Supported] at h
  | tuple _ ih => intro h; simp only [Supported, supportedL_iff] at h; exact .tuple fun x hx => ih x hx (h x hx)
  | list _ ih => intro h; simp only [Supported, supportedL_iff] at h; exact .list fun x hx => ih x hx (h x hx)
  | set _ h1 h2 ih => intro h; simp only [Supported, supportedL_iff] at h; exact .set (fun x hx => ih x hx (h x hx)) h1 h2
  | dict _ _ h1 h2 ihk ihv =>
    intro h; simp only [Supported, supportedD_iff] at h
    exact .dict (fun k v hx => ihk k v hx (h _ hx).1) (fun k v hx => ihv k v hx (h _ hx).2) h1 h2
  | what _ h1 ih =>
    intro h; simp only [Supported, supportedA_iff] at h
    exact .what (fun k v hx => ih k v hx (h.2.2 k v hx (by simp)).2) h1

/-- The order of dicts, sets and parameters does not matter. -/
theorem settled_cong {a b : Val} (h : Cong Reorder a b) : (Settled E a ↔ Settled E b) ∧ (CanHash a ∨ CanHash b → a = b) := by
  induction h with
  | base h =>
    cases h with
    | @dict a b hp =>
      have key : ∀ {a b : List (Val × Val)}, a.Perm b → Settled E (.dict a) → Settled E (.dict b) := by
        intro a b hp h
        cases h with
        | dict h1 h2 h3 h4 =>
          exact .dict (fun k v hx => h1 k v (hp.mem_iff.2 hx)) (fun k v hx => h2 k v (hp.mem_iff.2 hx)) (fun k v hx => h3 k v (hp.mem_iff.2 hx))
            (((hp.map Prod.fst).pairwise_iff fun {a b} hab e => hab (sameKey_symm e)).1 h4)
      exact ⟨⟨key hp, key hp.symm⟩, fun h => by rcases h with h | h <;> cases h⟩
    | @set a b hp =>
      have key : ∀ {a b : List Val}, a.Perm b → Settled E (.set a) → Settled E (.set b) := by
        intro a b hp h
        cases h with
        | set h1 h2 h3 =>
          exact .set (fun x hx => h1 x (hp.mem_iff.2 hx)) (fun x hx => h2 x (hp.mem_iff.2 hx))
            ((hp.pairwise_iff fun {a b} hab e => hab (sameKey_symm e)).1 h3)
      exact ⟨⟨key hp, key hp.symm⟩, fun h => by rcases h with h | h <;> cases h⟩
    | @what a b n nk o _ hp =>
      have key : ∀ {a b : Conf}, a.Perm b → Settled E (.what n a nk o) → Settled E (.what n b nk o) := by
        intro a b hp h
        cases h with
        | what h1 h2 => exact .what (fun k v hx => h1 k v (hp.mem_iff.2 hx)) fun e => h2 (by subst e; exact hp.eq_nil)
      exact ⟨⟨key hp, key hp.symm⟩, fun h => by rcases h with h | h <;> cases h⟩
    | _ => exact ⟨⟨fun h => (by cases h), fun h => (by cases h)⟩, fun h => by rcases h with h | h <;> cases h⟩
  | refl a => exact ⟨.rfl, fun _ => rfl⟩
  | symm _ ih => exact ⟨ih.1.symm, fun h => (ih.2 h.symm).symm⟩
  | trans _ _ i1 i2 =>
    refine ⟨i1.1.trans i2.1, fun h => ?_⟩
    rcases h with h | h
    · have e := i1.2 (.inl h)
      subst e
      exact i2.2 (.inl h)
    · have e := i2.2 (.inr h)
      subst e
      exact i1.2 (.inr h)
  | @tuple a b l r _ ih =>
    refine ⟨⟨fun h => ?_, fun h => ?_⟩, fun h => ?_⟩
    · cases h with
      | tuple h => exact .tuple (by simpa [← ih.1, or_imp, forall_and] using h)
    · cases h with
      | tuple h => exact .tuple (by simpa [ih.1, or_imp, forall_and] using h)
    · rw [ih.2 (h.imp (fun h => by cases h with | tuple h => exact h a (by simp)) (fun h => by cases h with | tuple h => exact h b (by simp)))]
  | @list a b l r _ ih =>
    refine ⟨⟨fun h => ?_, fun h => ?_⟩, fun h => by rcases h with h | h <;> cases h⟩
    · cases h with
      | list h => exact .list (by simpa [← ih.1, or_imp, forall_and] using h)
    · cases h with
      | list h => exact .list (by simpa [ih.1, or_imp, forall_and] using h)
  | @set a b l r _ ih =>
    refine ⟨⟨fun h => ?_, fun h => ?_⟩, fun h => by rcases h with h | h <;> cases h⟩
    · have e := ih.2 (.inl (by cases h with | set _ h _ => exact h a (by simp)))
      rw [← e]; exact h
    · have e := ih.2 (.inr (by cases h with | set _ h _ => exact h b (by simp)))
      rw [e]; exact h
  | @dictKey a b v l r _ ih =>
    refine ⟨⟨fun h => ?_, fun h => ?_⟩, fun h => by rcases h with h | h <;> cases h⟩
    · have e := ih.2 (.inl (by cases h with | dict _ _ h _ => exact h a v (by simp)))
      rw [← e]; exact h
    · have e := ih.2 (.inr (by cases h with | dict _ _ h _ => exact h b v (by simp)))
      rw [e]; exact h
  | @dictVal a b k l r _ ih =>
    have key : ∀ {a b : Val}, (Settled E a ↔ Settled E b) → Settled E (.dict (l ++ (k, a) :: r)) → Settled E (.dict (l ++ (k, b) :: r)) := by
      intro a b ih h
      cases h with
      | dict h1 h2 h3 h4 =>
        have hb := ih.1 (h2 k a (by simp))
        have mem : ∀ {k' v'}, (k', v') ∈ l ++ (k, b) :: r → (k' = k ∧ v' = b) ∨ (k', v') ∈ l ++ (k, a) :: r := by
          intro k' v' hm
          simp only [List.mem_append, List.mem_cons, Prod.mk.injEq] at hm ⊢
          rcases hm with hm | hm | hm
          · exact .inr (.inl hm)
          · exact .inl hm
          · exact .inr (.inr (.inr hm))
        refine .dict ?_ ?_ ?_ (by simpa using h4)
        · intro k' v' hm
          rcases mem hm with ⟨rfl, rfl⟩ | hm
          · exact h1 k' a (by simp)
          · exact h1 k' v' hm
        · intro k' v' hm
          rcases mem hm with ⟨rfl, rfl⟩ | hm
          · exact hb
          · exact h2 k' v' hm
        · intro k' v' hm
          rcases mem hm with ⟨rfl, rfl⟩ | hm
          · exact h3 k' a (by simp)
          · exact h3 k' v' hm
    exact ⟨⟨key ih.1, key ih.1.symm⟩, fun h => by rcases h with h | h <;> cases h⟩
  | @what a b n l r k nk o _ ih =>
    have key : ∀ {a b : Val}, (Settled E a ↔ Settled E b) → Settled E (.what n (l ++ (k, a) :: r) nk o) → Settled E (.what n (l ++ (k, b) :: r) nk o) := by
      intro a b ih h
      cases h with
      | what h1 h2 =>
        refine .what (fun k' v' hm => ?_) fun e => by simp at e
        simp only [List.mem_append, List.mem_cons, Prod.mk.injEq] at hm
        rcases hm with hm | ⟨rfl, rfl⟩ | hm
        · exact h1 k' v' (by simp [hm])
        · exact ih.1 (h1 k' a (by simp))
        · exact h1 k' v' (by simp [hm])
    exact ⟨⟨key ih.1, key ih.1.symm⟩, fun h => by rcases h with h | h <;> cases h⟩
  | _ => exact ⟨⟨fun h => (by cases h), fun h => (by cases h)⟩, fun h => by rcases h with h | h <;> cases h⟩

theorem added_props {same : Val → Val → Prop} {l d : List Val} (h : Added same l d) : (∀ x ∈ d, x ∈ l) ∧ d.Pairwise fun x y => ¬ same x y := by
  induction h with
  | nil => exact ⟨by simp, .nil⟩
  | @new l d x _ hn ih =>
    refine ⟨fun y hy => ?_, List.pairwise_append.2 ⟨ih.2, List.pairwise_singleton _ _, fun y hy z hz => ?_⟩⟩
    · rcases List.mem_append.1 hy with hy | hy
      · exact List.mem_append.2 (.inl (ih.1 y hy))
      · exact List.mem_append.2 (.inr hy)
    · rw [List.mem_singleton] at hz; subst hz; exact hn y hy
  | known _ _ _ ih => exact ⟨fun y hy => List.mem_append.2 (.inl (ih.1 y hy)), ih.2⟩

theorem assigned_props {same : Val → Val → Prop} {l d : List (Val × Val)} (h : Assigned same l d) :
    (∀ k v, (k, v) ∈ d → (∃ v', (k, v') ∈ l) ∧ ∃ k', (k', v) ∈ l) ∧ (d.map Prod.fst).Pairwise fun x y => ¬ same x y := by
  induction h with
  | nil => exact ⟨by simp, .nil⟩
  | @new l d k v _ hn ih =>
    constructor
    · intro k' v' hm
      rcases List.mem_append.1 hm with hm | hm
      · obtain ⟨⟨a, ha⟩, b, hb⟩ := ih.1 k' v' hm
        exact ⟨⟨a, by simp [ha]⟩, b, by simp [hb]⟩
      · simp only [List.mem_singleton, Prod.mk.injEq] at hm
        obtain ⟨rfl, rfl⟩ := hm
        exact ⟨⟨v', by simp⟩, k', by simp⟩
    · rw [List.map_append, List.pairwise_append]
      refine ⟨ih.2, List.pairwise_singleton _ _, fun x hx y hy => ?_⟩
      obtain ⟨p, hp, rfl⟩ := List.mem_map.1 hx
      simp only [List.map_cons, List.map_nil, List.mem_singleton] at hy
      subst hy
      exact hn p hp
  | @known l d e k k' v v' _ hn hs ih =>
    constructor
    · intro a b hm
      simp only [List.mem_append, List.mem_cons, Prod.mk.injEq] at hm
      rcases hm with hm | ⟨rfl, rfl⟩ | hm
      · obtain ⟨⟨x, hx⟩, y, hy⟩ := ih.1 a b (by simp [hm])
        exact ⟨⟨x, by simp [hx]⟩, y, by simp [hy]⟩
      · obtain ⟨⟨x, hx⟩, -⟩ := ih.1 a v' (by simp)
        exact ⟨⟨x, by simp [hx]⟩, k, by simp⟩
      · obtain ⟨⟨x, hx⟩, y, hy⟩ := ih.1 a b (by simp [hm])
        exact ⟨⟨x, by simp [hx]⟩, y, by simp [hy]⟩
    · simpa using ih.2

theorem clean_class {f : Str} (h : ClassName f) : IsClean f := by
  refine ⟨fun l r e => absurd rfl (h '\'' (by rw [e]; simp)).1, fun c r e => (h c (by rw [e]; simp)).2.2⟩

/-- For every element of the one there is an element of the other. -/
theorem other_at {α β : Type} {xs : List α} {l : List β} (h : xs.length = l.length) {v : β} (hv : v ∈ l) : ∃ (i : Nat) (x : α), xs[i]? = some x ∧ l[i]? = some v := by
  obtain ⟨i, hi, e⟩ := List.getElem_of_mem hv
  refine ⟨i, xs[i], List.getElem?_eq_getElem (by rw [h]; exact hi), ?_⟩
  rw [List.getElem?_eq_getElem hi, e]

theorem read_settled (hF : FindsClasses E) (hE : FindsAgain E) {v u : Val} (h : ReadAs E v u) : Supported v → Settled E u := by
  induction h with
  | none => exact fun _ => .none
  | bool b => exact fun _ => .bool b
  | int i => exact fun _ => .int i
  | float t => exact fun _ => .float (hE.floats t)
  | str h => exact fun _ => .str (cleanedUp_clean h)
  | @cls b m n v h1 h2 h3 =>
    intro _
    rcases hF m n v h2 with ⟨c, rfl⟩ | ⟨c, rfl⟩
    · obtain ⟨m', n', h4, h5⟩ := hE.classes m n c h2
      exact .cls h4 h5
    · exact .numtype c
  | lost h1 h2 h3 =>
    intro h
    simp only [Supported] at h
    refine .dict ?_ ?_ ?_ (by simp)
    · intro k v hm
      simp only [List.mem_singleton, Prod.mk.injEq] at hm
      rw [hm.1]
      exact .str (clean_class (by unfold ClassName; decide))
    · intro k v hm
      simp only [List.mem_singleton, Prod.mk.injEq] at hm
      rw [hm.2]
      exact .str (clean_class h)
    · intro k v hm
      simp only [List.mem_singleton, Prod.mk.injEq] at hm
      rw [hm.1]
      exact .str _
  | tuple hl _ ih =>
    intro h
    simp only [Supported, supportedL_iff] at h
    refine .tuple fun v hv => ?_
    obtain ⟨i, x, hx, hv⟩ := other_at hl hv
    exact ih i x v hx hv (h x (List.mem_of_getElem? hx))
  | list hl _ ih =>
    intro h
    simp only [Supported, supportedL_iff] at h
    refine .list fun v hv => ?_
    obtain ⟨i, x, hx, hv⟩ := other_at hl hv
    exact ih i x v hx hv (h x (List.mem_of_getElem? hx))
  | set hp _ hl _ hc ha ih =>
    intro h
    simp only [Supported, supportedL_iff] at h
    obtain ⟨h1, h2⟩ := added_props ha
    refine .set (fun v hv => ?_) (fun v hv => hc v (h1 v hv)) h2
    obtain ⟨i, x, hx, hv⟩ := other_at hl (h1 v hv)
    exact ih i x v hx hv (h x (hp.mem_iff.1 (List.mem_of_getElem? hx)))
  | fset _ ih => exact fun h => ih (by simpa only [Supported] using h)
  | dict hp _ hl _ _ hc ha ihk ihv =>
    intro h
    simp only [Supported, supportedD_iff] at h
    obtain ⟨h1, h2⟩ := assigned_props ha
    refine .dict ?_ ?_ ?_ h2
    · intro k v hm
      obtain ⟨⟨v', hm⟩, -⟩ := h1 k v hm
      obtain ⟨i, x, hx, hv⟩ := other_at hl hm
      exact ihk i x (k, v') hx hv (h x (hp.mem_iff.1 (List.mem_of_getElem? hx))).1
    · intro k v hm
      obtain ⟨-, k', hm⟩ := h1 k v hm
      obtain ⟨i, x, hx, hv⟩ := other_at hl hm
      exact ihv i x (k', v) hx hv (h x (hp.mem_iff.1 (List.mem_of_getElem? hx))).2
    · intro k v hm
      obtain ⟨⟨v', hm⟩, -⟩ := h1 k v hm
      exact hc _ hm
  | what hi hk _ ho hn ih =>
    intro h
    simp only [Supported, supportedA_iff] at h
    have hl := congrArg List.length hk
    simp only [List.length_map] at hl
    refine .what ?_ ?_
    · intro k v hm
      obtain ⟨i, x, hx, hv⟩ := other_at hl hm
      obtain ⟨h1, h2⟩ := (hi.2 x.1 x.2).1 (List.mem_of_getElem? hx)
      exact ih i x (k, v) hx hv (h.2.2 x.1 x.2 h1 h2).2
    · rintro rfl
      have := List.length_eq_zero_iff.1 hl
      exact ⟨ho this, hn this⟩
  | setCall _ _ => exact fun _ => .set (by simp) (by simp) .nil

/-! ### Whole configurations -/

/-- As `Settled`, for the What of a whole id. -/
def SettledTop (E : Env) : Val → Prop
  | .what _ c nk o => nk = [] ∧ (c = [] → o = none) ∧ ∀ k v, (k, v) ∈ c → Settled E v
  | _ => False

theorem settledTop_cong {a b : Val} (h : Cong Reorder a b) : SettledTop E a ↔ SettledTop E b := by
  induction h with
  | base h =>
    cases h with
    | @what a b n nk o _ hp =>
      have key : ∀ {a b : Conf}, a.Perm b → SettledTop E (.what n a nk o) → SettledTop E (.what n b nk o) := by
        rintro a b hp ⟨h1, h2, h3⟩
        exact ⟨h1, fun e => h2 (by subst e; exact hp.eq_nil), fun k v hm => h3 k v (hp.mem_iff.2 hm)⟩
      exact ⟨key hp, key hp.symm⟩
    | _ => exact .rfl
  | refl => exact .rfl
  | symm _ ih => exact ih.symm
  | trans _ _ i1 i2 => exact i1.trans i2
  | @what a b n l r k nk o hc _ =>
    have key : ∀ {a b : Val}, (Settled E a ↔ Settled E b) → SettledTop E (.what n (l ++ (k, a) :: r) nk o) → SettledTop E (.what n (l ++ (k, b) :: r) nk o) := by
      rintro a b ih ⟨h1, -, h3⟩
      refine ⟨h1, fun e => by simp at e, fun k' v' hm => ?_⟩
      simp only [List.mem_append, List.mem_cons, Prod.mk.injEq] at hm
      rcases hm with hm | ⟨rfl, rfl⟩ | hm
      · exact h3 k' v' (by simp [hm])
      · exact ih.1 (h3 k' a (by simp))
      · exact h3 k' v' (by simp [hm])
    exact ⟨key (settled_cong hc).1, key (settled_cong hc).1.symm⟩
  | _ => exact .rfl

theorem whatRead_settled (hF : FindsClasses E) (hE : FindsAgain E) {w u : What} (hs : SupportedWhat w) (h : WhatReadAs E w u) : SettledTop E u.toVal := by
  obtain ⟨h1, h2, h3, ps, hi, hk, hr, ho⟩ := h
  have hl := congrArg List.length hk
  simp only [List.length_map] at hl
  simp only [SupportedWhat, What.toVal, Supported, supportedA_iff] at hs
  refine ⟨h3, fun e => ?_, fun k v hm => ?_⟩
  · rw [h2]
    rw [e] at hl
    exact ho (List.length_eq_zero_iff.1 hl)
  · obtain ⟨i, x, hx, hv⟩ := other_at hl hm
    obtain ⟨h4, h5⟩ := (hi.2 x.1 x.2).1 (List.mem_of_getElem? hx)
    exact read_settled hF hE (hr i x (k, v) hx hv) (hs.2.2 x.1 x.2 h4 h5).2

/-! ### C91 -/

/-- C91. If nothing in a legible configuration gets lost, it comes back from its id as it was, but for the order of dicts, sets and parameters. -/
theorem c91_back {w : What} (hF : FindsClasses E) (h : SupportedWhat w) (hd : DictKeys w.toVal) (hl : LegibleWhat w) (hs : WhatStays E w) :
    ∃ s u, idD w = .ok s ∧ parseWhatid E s = .ok u ∧ Cong Reorder w.toVal u.toVal := by
  obtain ⟨s, h1, h2⟩ := c91_read hF h hd
  obtain ⟨n, c, nk, o⟩ := w
  obtain ⟨rfl, hs2, hs3⟩ := hs
  have h' := h
  simp only [SupportedWhat, What.toVal, Supported, supportedA_iff] at h'
  obtain ⟨ps, l, h3, h4, h5, h6, h7⟩ := stays_params (E := E) (hd _ _ _ _ (.refl _)) fun k v hm =>
    stays_read (hs3 k v hm) (h'.2.2 k v hm (by simp)).2 (dictKeys_child hd (.what k n [] o hm))
  exact ⟨s, ⟨n, l, [], o⟩, h1, (h2 _).2 ⟨hl, rfl, rfl, rfl, ps, h3, h4, h5, fun e => hs2 (h6 e)⟩, h7 n o⟩

/-- C91. The configuration comes back from its id as it was, but for the order of dicts, sets and parameters, if and only if it is legible and
nothing in it gets lost. -/
theorem c91_stays {w : What} (hF : FindsClasses E) (hE : FindsAgain E) (h : SupportedWhat w) (hd : DictKeys w.toVal) :
    ∃ s, idD w = .ok s ∧ ((∃ u, parseWhatid E s = .ok u ∧ Cong Reorder w.toVal u.toVal) ↔ LegibleWhat w ∧ WhatStays E w) := by
  obtain ⟨s, h1, h2⟩ := c91_read hF h hd
  refine ⟨s, h1, ⟨?_, fun ⟨hl, hs⟩ => ?_⟩⟩
  · rintro ⟨u, hu, hc⟩
    obtain ⟨hl, hr⟩ := (h2 u).1 hu
    have := (settledTop_cong hc).2 (whatRead_settled hF hE h hr)
    obtain ⟨h3, h4, h5⟩ := this
    have hs := h
    simp only [SupportedWhat, What.toVal, Supported, supportedA_iff] at hs
    exact ⟨hl, h3, h4, fun k v hm => stays_of_settled (h5 k v hm) (hs.2.2 k v hm (by rw [h3]; simp)).2⟩
  · obtain ⟨s', u, h3, h4, h5⟩ := c91_back hF h hd hl hs
    rw [h1] at h3
    cases h3
    exact ⟨u, h4, h5⟩

/-- C91. In what was read from an id there is nothing more to lose. -/
theorem c91_again {w u : What} (hF : FindsClasses E) (hE : FindsAgain E) (h : SupportedWhat w) (hr : WhatReadAs E w u) (hu : SupportedWhat u) : WhatStays E u := by
  obtain ⟨h3, h4, h5⟩ := whatRead_settled hF hE h hr
  have hs := hu
  simp only [SupportedWhat, What.toVal, Supported, supportedA_iff] at hs
  exact ⟨h3, h4, fun k v hm => stays_of_settled (h5 k v hm) (hs.2.2 k v hm (by rw [h3]; simp)).2⟩

/-- C91, for values that are not data: the id is read as what stands for them is. -/
theorem c91_seen {w x : What} (hF : FindsClasses E) (h : SeenAs w.toVal x.toVal) (hx : SupportedWhat x) (hd : DictKeys x.toVal) :
    ∃ s, idD w = .ok s ∧ ∀ u, parseWhatid E s = .ok u ↔ LegibleWhat x ∧ WhatReadAs E x u := by
  obtain ⟨s, h1, h2⟩ := c91_read hF hx hd
  have := idD_of_text (c77_text h)
  rw [h1] at this
  cases hw : idD w with
  | error e => rw [hw] at this; cases this
  | ok t =>
    rw [hw] at this
    obtain rfl : t = s := by injection this
    exact ⟨t, rfl, h2⟩

/-! What is lost and what is not. -/

theorem exEnv_again : FindsAgain exEnv := by
  refine ⟨fun _ => rfl, fun m n b h => ?_⟩
  simp only [exEnv] at h
  split at h
  · cases h
    exact ⟨c!"collections", c!"OrderedDict", ⟨by decide, .inl rfl⟩, rfl⟩
  · cases h

/-- Read as it is according to the id. -/
theorem exOne_reads {v u : Val} {s : Str} (h : Supported v) (hd : DictKeys v) (h1 : idD (exOne v) = .ok s) (h2 : parseWhatid exEnv s = .ok (exOne u)) :
    LegibleWhat (exOne v) ∧ WhatReadAs exEnv (exOne v) (exOne u) := by
  obtain ⟨t, h3, h4⟩ := c91_read exEnv_classes (exOne_supported h) (exOne_dictKeys hd)
  rw [h1] at h3
  cases h3
  exact (h4 _).1 h2

theorem dictKeys_leaf {v : Val} (h : ∀ x, ¬ Child x v) (hv : ∀ n c nk o, v ≠ .what n c nk o) : DictKeys v := by
  intro n c nk o hw
  rcases within_cases hw with e | ⟨y, -, hy⟩
  · exact absurd e.symm (hv _ _ _ _)
  · exact absurd hy (h y)
theorem dictKeys_of {v : Val} (hv : ∀ n c nk o, v ≠ .what n c nk o) (h : ∀ x, Child x v → DictKeys x) : DictKeys v := by
  intro n c nk o hw
  rcases within_cases hw with e | ⟨y, hw', hy⟩
  · exact absurd e.symm (hv _ _ _ _)
  · exact h y hy _ _ _ _ hw'

-- the whitespace at the beginning of a string, and quotes without a backslash
example : WhatReadAs exEnv (exOne (.str c!" \tit's ")) (exOne (.str c!"it\\'s ")) := (exOne_reads (v := .str _) trivial (dictKeys_str _) (by rfl) (by rfl)).2
-- a nested What that looks like an empty set
example : WhatReadAs exEnv (exOne (.what c!"set" [(c!"b", .int 1)] [c!"b"] none)) (exOne (.set [])) := by
  refine (exOne_reads ?_ ?_ (by rfl) (by rfl)).2
  · simp only [Supported, SupportedA, and_true]
    exact ⟨fun _ h => by (cases h), ident_of (by rfl), by simp⟩
  · intro n c nk o hw
    rcases within_cases hw with e | ⟨y, hw', hy⟩
    · cases e; simp [UniqueKeys]
    · cases hy with
      | what k _ _ _ hm =>
        simp at hm
        obtain ⟨-, rfl⟩ := hm
        rcases within_cases hw' with e | ⟨z, -, hz⟩
        · cases e
        · cases hz
-- a frozenset whose elements become the same: there is one element left, of a set
example : WhatReadAs exEnv (exOne (.fset [.str c!" a", .str c!"a", .int 1, .bool true])) (exOne (.set [.str c!"a", .int 1])) := by
  refine (exOne_reads ?_ ?_ (by rfl) (by rfl)).2
  · simp [Supported, SupportedL]
  · refine dictKeys_of (by simp) fun x hx => ?_
    cases hx with
    | fset hm =>
      simp at hm
      rcases hm with rfl | rfl | rfl | rfl <;> exact dictKeys_leaf (fun x hx => by cases hx) (by simp)
-- keys that become the same: the first place, and the value that comes last in the order of the texts
example : WhatReadAs exEnv (exOne (.dict [(.str c!"a", .int 1), (.str c!" a", .int 2)])) (exOne (.dict [(.str c!"a", .int 1)])) := by
  refine (exOne_reads ?_ ?_ (by rfl) (by rfl)).2
  · simp [Supported, SupportedD]
  · refine dictKeys_of (by simp) fun x hx => ?_
    cases hx with
    | dictKey hm => simp at hm; rcases hm with ⟨rfl, -⟩ | ⟨rfl, -⟩ <;> exact dictKeys_leaf (fun x hx => by cases hx) (by simp)
    | dictVal hm => simp at hm; rcases hm with ⟨-, rfl⟩ | ⟨-, rfl⟩ <;> exact dictKeys_leaf (fun x hx => by cases hx) (by simp)
-- none of these stays
example : ¬ WhatStays exEnv (exOne (.fset [])) := by
  rintro ⟨-, -, h⟩
  have := h c!"a" (.fset []) (by simp [exOne])
  cases this
example : ¬ WhatStays exEnv (exOne (.str c!" a")) := by
  rintro ⟨-, -, h⟩
  have := h c!"a" (.str c!" a") (by simp [exOne])
  cases this with
  | str h => exact absurd (h.2 ' ' _ rfl) (by decide)
-- this does, as far as C91 is concerned in all its parts
theorem exOne_stays : SupportedWhat (exOne (.list [.cls c!"collections.OrderedDict", .set [.int 2, .str c!"x"], .float c!"1e-05"])) ∧
    WhatStays exEnv (exOne (.list [.cls c!"collections.OrderedDict", .set [.int 2, .str c!"x"], .float c!"1e-05"])) := by
  constructor
  · refine exOne_supported ?_
    simp only [Supported, SupportedL, and_true, true_and]
    refine ⟨by unfold ClassName; decide, .digits false (ds := c!"1") (fr := []) (ex := c!"e-05") ?_ (.inl rfl)
      (.inr ⟨'e', ['-'], c!"05", rfl, .inl rfl, .inr (.inr rfl), ?_⟩), ?_, ?_⟩
    · exact ⟨by decide, by rfl⟩
    · exact ⟨by decide, by rfl⟩
    · rintro ⟨-, h⟩; revert h; decide
    · intro d h; cases h
  · refine ⟨rfl, by simp [exOne], fun k v hm => ?_⟩
    simp [exOne] at hm
    obtain ⟨-, rfl⟩ := hm
    refine .list fun x hx => ?_
    simp at hx
    rcases hx with rfl | rfl | rfl
    · exact .cls (m := c!"collections") (n := c!"OrderedDict") ⟨by decide, .inl rfl⟩ rfl
    · refine .set (fun x hx => ?_) (fun x hx => ?_) ?_
      · simp at hx
        rcases hx with rfl | rfl
        · exact .int _
        · refine .str ⟨fun l r e => ?_, fun c r e => by cases e; rfl⟩
          exfalso
          have : '\'' ∈ c!"x" := by rw [e]; simp
          revert this; decide
      · simp at hx
        rcases hx with rfl | rfl <;> constructor
      · simp
        intro h
        cases h with
        | integer _ h => cases h
    · exact .float rfl

example : ∃ s u, idD (exOne (.list [.cls c!"collections.OrderedDict", .set [.int 2, .str c!"x"], .float c!"1e-05"])) = .ok s ∧
    parseWhatid exEnv s = .ok u ∧ Cong Reorder (exOne (.list [.cls c!"collections.OrderedDict", .set [.int 2, .str c!"x"], .float c!"1e-05"])).toVal u.toVal := by
  refine c91_back exEnv_classes exOne_stays.1 (exOne_dictKeys (dictKeys_of (by simp) fun x hx => ?_)) (exOne_legible.2 ?_) exOne_stays.2
  · cases hx with
    | list hm =>
      simp at hm
      rcases hm with rfl | rfl | rfl
      · exact dictKeys_leaf (fun x hx => by cases hx) (by simp)
      · refine dictKeys_of (by simp) fun x hx => ?_
        cases hx with
        | set hm => simp at hm; rcases hm with rfl | rfl <;> exact dictKeys_leaf (fun x hx => by cases hx) (by simp)
      · exact dictKeys_leaf (fun x hx => by cases hx) (by simp)
  · simp only [Legible, LegibleL, and_true, true_and]
    refine ⟨fun u n e => ?_, fun u n v e => ?_⟩ <;>
    · exfalso
      have : '\\' ∈ c!"x" := by rw [e]; simp [backslashes, List.replicate_succ]
      revert this; decide

end Whatami
