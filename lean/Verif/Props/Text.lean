import Verif.Spec.Text
import Verif.Encode
import Verif.Decode

/-
C52: the text of every value under the default plugins.
-/
namespace Whatami

/-! ### Decimals -/

theorem natStrAux_enough {f : Nat} : ∀ {n : Nat}, n < f → natStrAux f n = natStr n := by
  have key : ∀ (m n f g : Nat), n ≤ m → n < f → n < g → natStrAux f n = natStrAux g n := by
    intro m
    induction m with
    | zero =>
      intro n f g h hf hg
      obtain ⟨f, rfl⟩ : ∃ f', f = f' + 1 := ⟨f - 1, by omega⟩
      obtain ⟨g, rfl⟩ : ∃ g', g = g' + 1 := ⟨g - 1, by omega⟩
      have : n < 10 := by omega
      simp [natStrAux, this]
    | succ m ih =>
      intro n f g h hf hg
      obtain ⟨f, rfl⟩ : ∃ f', f = f' + 1 := ⟨f - 1, by omega⟩
      obtain ⟨g, rfl⟩ : ∃ g', g = g' + 1 := ⟨g - 1, by omega⟩
      by_cases h10 : n < 10
      · simp [natStrAux, h10]
      · simp only [natStrAux, h10, if_false]
        rw [ih (n / 10) f g (by omega) (by omega) (by omega)]
  intro n h
  exact key n n f (n + 1) (Nat.le_refl _) h (Nat.lt_succ_self _)

theorem natStr_small {n : Nat} (h : n < 10) : natStr n = [digitChar n] := by simp [natStr, natStrAux, h]

theorem natStr_big {n : Nat} (h : ¬ n < 10) : natStr n = natStr (n / 10) ++ [digitChar (n % 10)] := by
  have : natStr n = natStrAux n (n / 10) ++ [digitChar (n % 10)] := by simp [natStr, natStrAux, h]
  rw [this, natStrAux_enough (by omega)]

theorem digit_of {c : Char} (h : '0' ≤ c ∧ c ≤ '9') : c.toNat - 48 < 10 ∧ digitChar (c.toNat - 48) = c := by
  have h1 : 48 ≤ c.toNat := h.1
  have h2 : c.toNat ≤ 57 := h.2
  refine ⟨by omega, char_ext ?_⟩
  have := digitChar_facts (c.toNat - 48) (by omega)
  have h3 := this.1
  simp only [isDig, decide_eq_true_eq] at h3
  omega

theorem decimal_unique {t : Str} {n : Nat} (h : DecimalOf t n) : t = natStr n := by
  obtain ⟨hne, hd, hz, hv⟩ := h
  induction hl : t.length using Nat.strongRecOn generalizing t n with
  | _ l ih =>
    rcases List.eq_nil_or_concat t with rfl | ⟨b, c, rfl⟩
    · exact absurd rfl hne
    · rw [List.concat_eq_append] at *
      obtain ⟨h10, hc⟩ := digit_of (hd c (by simp))
      rw [List.foldl_append] at hv
      simp only [List.foldl_cons, List.foldl_nil, show '0'.toNat = 48 from rfl] at hv
      by_cases hb : b = []
      · subst hb
        simp only [List.foldl_nil, Nat.zero_mul, Nat.zero_add] at hv
        subst hv
        rw [natStr_small h10, hc]; rfl
      · have hb0 : b ≠ ['0'] := by
          rintro rfl
          have := hz [c] rfl
          cases this
        have ih := ih b.length (by simp at hl; omega) hb (fun x hx => hd x (by simp [hx])) (fun r hr => by
          subst hr
          have := hz (r ++ [c]) rfl
          simp at this) rfl rfl
        have hpos : 1 ≤ b.foldl (fun acc c => acc * 10 + (c.toNat - 48)) 0 := by
          rcases Nat.eq_zero_or_pos (b.foldl (fun acc c => acc * 10 + (c.toNat - 48)) 0) with h0 | h0
          · exfalso
            have e : b = natStr (b.foldl (fun acc c => acc * 10 + (c.toNat - 48)) 0) := ih
            rw [h0] at e
            exact hb0 (e.trans (by decide))
          · exact h0
        have hn : ¬ n < 10 := by omega
        rw [natStr_big hn]
        have e1 : n / 10 = b.foldl (fun acc c => acc * 10 + (c.toNat - 48)) 0 := by omega
        have e2 : n % 10 = c.toNat - 48 := by omega
        rw [e1, e2, hc]
        congr 1

theorem decimal_natStr (n : Nat) : DecimalOf (natStr n) n := by
  obtain ⟨⟨h1, h2⟩, h3⟩ := natStr_spec n
  refine ⟨h1, ?_, ?_, h3⟩
  · intro c hc
    have := List.all_eq_true.1 h2 c hc
    simp only [isDig, decide_eq_true_eq] at this
    exact this
  · intro r hr
    clear h1 h2 h3
    induction n using Nat.strongRecOn generalizing r with
    | _ n ih =>
      by_cases h : n < 10
      · rw [natStr_small h] at hr; injection hr with _ e; exact e.symm
      · rw [natStr_big h] at hr
        cases hb : natStr (n / 10) with
        | nil => exact absurd hb (natStr_spec (n / 10)).1.1
        | cons a b =>
          rw [hb] at hr
          injection hr with e1 e2
          subst e1
          have hnil := ih (n / 10) (by omega) b hb
          subst hnil
          have : digitsVal (natStr (n / 10)) = n / 10 := (natStr_spec _).2
          rw [hb] at this
          have h0 : digitsVal ['0'] = 0 := by decide
          omega

theorem decimal_iff (t : Str) (n : Nat) : DecimalOf t n ↔ t = natStr n :=
  ⟨decimal_unique, fun h => h ▸ decimal_natStr n⟩

/-! ### Strings -/

theorem escFrom_fixed (s : Str) : ∀ l : Str, (∀ a r, l ++ s = a ++ '\'' :: r → ∃ a', a = a' ++ ['\\']) → escFrom (endsBS false l) s = s := by
  induction s with
  | nil => intro l _; rfl
  | cons c r ih =>
    intro l h
    have e1 : endsBS false (l ++ [c]) = (c == '\\') := by simp [endsBS]
    have ih := ih (l ++ [c]) (fun a r' e => h a r' (by simpa using e))
    rw [e1] at ih
    by_cases hq : c = '\''
    · subst hq
      obtain ⟨a', ha⟩ := h l r rfl
      have : endsBS false l = true := by subst ha; simp [endsBS]
      have hb : ('\'' == '\\') = false := rfl
      rw [hb] at ih
      simp [escFrom, this, ih]
    · simp only [escFrom, hq, if_false, ih]

theorem strBody_fixed {b : Str} (h : QuotesEscaped b) : strBody b = b := by
  have := escFrom_fixed b [] h
  rw [strBody_eq]
  simpa [endsBS] using this

theorem escaped_strBody (s : Str) : QuotesEscaped (strBody s) := by
  intro l r h
  have := strBody_quoted s l r h
  rcases List.eq_nil_or_concat l with rfl | ⟨l', c, rfl⟩
  · simp at this
  · rw [List.concat_eq_append] at this ⊢
    simp at this
    exact ⟨l', by rw [this]⟩

/-! ### Sorting -/

theorem strLe_of_strLt {a b : Str} (h : strLt a b) : strLe a b = true := by
  induction h with
  | nil => rfl
  | rel h => simp [strLe, h]
  | cons _ ih => simp [strLe, ih]

theorem strLt_irrefl (a : Str) : ¬ strLt a a := by
  induction a with
  | nil => intro h; cases h
  | cons c r ih =>
    intro h
    cases h with
    | rel h => omega
    | cons h => exact ih h

theorem le_iff (a b : Str) : strLe a b = true ↔ a = b ∨ strLt a b := by
  constructor
  · intro h
    by_cases e : a = b
    · exact Or.inl e
    · exact Or.inr (strLt_of_strLe h e)
  · rintro (rfl | h)
    · exact strLe_refl _
    · exact strLe_of_strLt h

theorem sortedTexts_iff (ts us : List Str) : SortedTexts ts us ↔ us = sortBy strLe ts := by
  constructor
  · rintro ⟨h1, h2⟩
    apply sorted_perm_eq (le := strLe) (fun a _ b _ => strLe_antisymm a b)
    · exact h2.imp fun h => (le_iff _ _).2 h
    · exact sortBy_sorted strLe_total strLe_trans ts
    · exact h1.trans (sortBy_perm strLe ts).symm
  · rintro rfl
    exact ⟨sortBy_perm strLe ts, (sortBy_sorted strLe_total strLe_trans ts).imp fun h => (le_iff _ _).1 h⟩

theorem lt_nodup {l : List Str} (h : l.Pairwise strLt) : l.Nodup :=
  List.Pairwise.imp (fun {a b} (hab : strLt a b) (e : a = b) => strLt_irrefl b (e ▸ hab)) h

theorem keys_eq {l m : List Str} (hl : l.Pairwise strLt) (hm : m.Pairwise strLt) (h : ∀ k, k ∈ l ↔ k ∈ m) : l = m := by
  apply sorted_perm_eq (le := strLe) (fun a _ b _ => strLe_antisymm a b)
  · exact hl.imp strLe_of_strLt
  · exact hm.imp strLe_of_strLt
  · have nd : ∀ {l : List Str}, l.Pairwise strLt → l.Nodup := lt_nodup
    exact (List.perm_ext_iff_of_nodup (nd hl) (nd hm)).2 h

/-! ### Values -/

/-- The text exists, and it is the one of the specification. -/
def Fixed (v : Val) : Prop := ∃ s, buildD v = .ok (some s) ∧ ∀ s', IdTextOf v s' ↔ s' = s

theorem texts_fixed {xs : List Val} (h : ∀ x ∈ xs, Fixed x) :
    ∃ ts, strings buildD xs = .ok ts ∧ ∀ ts' : List Str,
      (ts'.length = xs.length ∧ ∀ (i : Nat) x t, xs[i]? = some x → ts'[i]? = some t → IdTextOf x t) ↔ ts' = ts := by
  induction xs with
  | nil =>
    refine ⟨[], rfl, fun ts' => ⟨fun h => List.eq_nil_of_length_eq_zero h.1, ?_⟩⟩
    rintro rfl
    exact ⟨rfl, fun i x t hx => by simp at hx⟩
  | cons x xs ih =>
    obtain ⟨s, hs, hu⟩ := h x (by simp)
    obtain ⟨ts, hts, hus⟩ := ih fun y hy => h y (by simp [hy])
    refine ⟨s :: ts, ?_, fun ts' => ⟨?_, ?_⟩⟩
    · simp only [strings, mapR, hs] at hts ⊢
      cases hm : mapR buildD xs with
      | error e => rw [hm] at hts; cases hts
      | ok l => rw [hm] at hts; simp only [] at hts ⊢; simp [unNone, hts]
    · rintro ⟨hl, hp⟩
      cases ts' with
      | nil => simp at hl
      | cons t ts' =>
        have e1 := (hu t).1 (hp 0 x t rfl rfl)
        have e2 := (hus ts').1 ⟨by simpa using hl, fun i y t hy ht => hp (i + 1) y t (by simpa using hy) (by simpa using ht)⟩
        rw [e1, e2]
    · rintro rfl
      obtain ⟨hl, hp⟩ := (hus ts).2 rfl
      refine ⟨by simp [hl], fun i y t hy ht => ?_⟩
      cases i with
      | zero => simp at hy ht; subst hy; subst ht; exact (hu s).2 rfl
      | succ i => exact hp i y t (by simpa using hy) (by simpa using ht)

theorem join_commas (l r : Str) (ts : List Str) : bracket l r ts = l ++ commas ts ++ r := by
  simp only [bracket, commas, pyJoin_eq]

/-- The texts of the items of a dict. -/
theorem items_fixed {kvs : List (Val × Val)} (hk : ∀ k v, (k, v) ∈ kvs → Fixed k) (hv : ∀ k v, (k, v) ∈ kvs → Fixed v) :
    ∃ ts : List (Str × Str), mapR (dkvStr buildD) kvs = .ok (ts.map fun t => t.1 ++ c!":" ++ t.2) ∧ ∀ ts' : List (Str × Str),
      (ts'.length = kvs.length ∧ (∀ (i : Nat) e t, kvs[i]? = some e → ts'[i]? = some t → IdTextOf e.1 t.1) ∧
        (∀ (i : Nat) e t, kvs[i]? = some e → ts'[i]? = some t → IdTextOf e.2 t.2)) ↔ ts' = ts := by
  induction kvs with
  | nil =>
    refine ⟨[], rfl, fun ts' => ⟨fun h => List.eq_nil_of_length_eq_zero h.1, ?_⟩⟩
    rintro rfl
    exact ⟨rfl, fun i x t hx => by simp at hx, fun i x t hx => by simp at hx⟩
  | cons e kvs ih =>
    obtain ⟨k, v⟩ := e
    obtain ⟨s, hs, hu⟩ := hk k v (by simp)
    obtain ⟨s2, hs2, hu2⟩ := hv k v (by simp)
    obtain ⟨ts, hts, hus⟩ := ih (fun k v h => hk k v (by simp [h])) (fun k v h => hv k v (by simp [h]))
    refine ⟨(s, s2) :: ts, ?_, fun ts' => ⟨?_, ?_⟩⟩
    · simp only [mapR, dkvStr, hs, hs2, List.map_cons, showOpt]
      rw [hts]
    · rintro ⟨hl, hp, hq⟩
      cases ts' with
      | nil => simp at hl
      | cons t ts' =>
        obtain ⟨t1, t2⟩ := t
        have e1 := (hu t1).1 (hp 0 _ _ rfl rfl)
        have e3 := (hu2 t2).1 (hq 0 _ _ rfl rfl)
        have e2 := (hus ts').1 ⟨by simpa using hl, fun i y t hy ht => hp (i + 1) y t (by simpa using hy) (by simpa using ht),
          fun i y t hy ht => hq (i + 1) y t (by simpa using hy) (by simpa using ht)⟩
        rw [e1, e2, e3]
    · rintro rfl
      obtain ⟨hl, hp, hq⟩ := (hus ts).2 rfl
      refine ⟨by simp [hl], fun i y t hy ht => ?_, fun i y t hy ht => ?_⟩
      · cases i with
        | zero => simp at hy ht; subst hy; subst ht; exact (hu s).2 rfl
        | succ i => exact hp i y t (by simpa using hy) (by simpa using ht)
      · cases i with
        | zero => simp at hy ht; subst hy; subst ht; exact (hu2 s2).2 rfl
        | succ i => exact hq i y t (by simpa using hy) (by simpa using ht)

theorem pairs_eq {ps qs : List (Str × Str)} (hk : ps.map Prod.fst = qs.map Prod.fst) (nd : (qs.map Prod.fst).Nodup)
    (h : ∀ k t u, (k, t) ∈ ps → (k, u) ∈ qs → t = u) : ps = qs := by
  induction ps generalizing qs with
  | nil => cases qs with
    | nil => rfl
    | cons => simp at hk
  | cons p ps ih =>
    cases qs with
    | nil => simp at hk
    | cons q qs =>
      obtain ⟨k, t⟩ := p
      obtain ⟨k', u⟩ := q
      simp only [List.map_cons, List.cons.injEq] at hk nd
      obtain ⟨rfl, hk⟩ := hk
      rw [h k t u (by simp) (by simp), ih hk (List.nodup_cons.1 nd).2 fun k t u h1 h2 => h k t u (by simp [h1]) (by simp [h2])]

theorem what_fixed {n : Str} {conf : Conf} {nk : List Str} {o : Option Str} (nd : (conf.map Prod.fst).Nodup)
    (h : ∀ k v, (k, v) ∈ conf → k ∉ nk → Fixed v) :
    ∃ s, idStr buildD { name := n, conf := conf, nonids := nk, out := o } false = .ok s ∧
      ∀ s', IdTextOf (.what n conf nk o) s' ↔ s' = s := by
  have hd := (c04_defined noCustom defaultPlugins ⟨n, conf, nk, o⟩ false).2 (by
    intro k v hv hk
    rcases hk with hk | hk
    · cases hk
    · obtain ⟨s, hs, _⟩ := h k v hv hk
      exact ⟨_, hs⟩)
  obtain ⟨s, hs⟩ := hd
  obtain ⟨items, h1, h2, h3, h4⟩ := c04_shape noCustom defaultPlugins ⟨n, conf, nk, o⟩ false s nd hs
  refine ⟨s, hs, ?_⟩
  have shown : ShownKeys conf nk items := ⟨h2, h3⟩
  have notIn : ∀ {k t}, (k, t) ∈ items → k ∉ nk := by
    intro k t hkt
    have := ((h3 k).1 (List.mem_map_of_mem (f := Prod.fst) hkt)).2
    simpa using this
  have texts : ∀ k v t, (k, v) ∈ conf → (k, t) ∈ items → ∀ t', IdTextOf v t' ↔ t' = t := by
    intro k v t hv ht
    obtain ⟨v', r, hv', hb, e⟩ := h4 k t ht
    have : v = v' := by
      have a := dget_eq_some_of_mem nd hv
      have b := dget_eq_some_of_mem nd hv'
      rw [a] at b; injection b
    subst this
    obtain ⟨u, hu, huu⟩ := h k v hv (notIn ht)
    have hb : buildD v = .ok r := hb
    rw [hu] at hb
    injection hb with hb
    subst hb
    rcases e with e | ⟨e, _⟩
    · injection e with e; subst e; exact huu
    · cases e
  intro s'
  constructor
  · intro ht
    cases ht with
    | what sh tx =>
      rename_i ps
      rw [h1]
      have : ps = items := by
        apply pairs_eq
        · exact keys_eq sh.1 h2 fun k => (sh.2 k).trans (h3 k).symm
        · exact lt_nodup h2
        · intro k t u hp hq
          obtain ⟨v, hv⟩ := ((h3 k).1 (List.mem_map_of_mem (f := Prod.fst) hq)).1
          exact (texts k v u hv hq t).1 (tx k v t hv hp)
      rw [this]
  · rintro rfl
    rw [h1]
    exact .what shown fun k v t hv ht => (texts k v t hv ht t).2 rfl

theorem isInfix_blank {p s : Str} (hp : p.head? = some ' ') (h : ' ' ∉ s) : isInfix p s = false := by
  cases p with
  | nil => cases hp
  | cons c p =>
    simp at hp; subst hp
    induction s with
    | nil => rfl
    | cons d s ih =>
      simp only [List.mem_cons, not_or] at h
      have : (' ' == d) = false := by simp [h.1]
      simp [isInfix, List.isPrefixOf, this, ih h.2]

theorem isInfix_iff {p s : Str} : isInfix p s = true ↔ p <:+: s := by
  induction s with
  | nil => simp [isInfix, List.infix_nil]
  | cons c r ih =>
    simp only [isInfix, Bool.or_eq_true, List.isPrefixOf_iff_prefix, ih, List.infix_cons_iff]

theorem isInfix_skip (a b : Str) : isInfix (' ' :: 'a' :: b) (c!"<class '" ++ a) = isInfix (' ' :: 'a' :: b) a := by
  simp [isInfix, List.isPrefixOf]

theorem captureAll_plain {v : Val} (h : ' ' ∉ pyStr v) : captureAll v = pyStr v := by
  have := isInfix_blank (p := c!" at 0x") rfl h
  simp [captureAll, this]

theorem digits_no_blank (n : Nat) : ' ' ∉ natStr n := by
  intro h
  have := List.all_eq_true.1 (natStr_spec n).1.2 ' ' h
  exact absurd this (by decide)

theorem ret_map {r : R (List Str)} {ts : List Str} (f : List Str → Str) (h : r = .ok ts) : ret (r.map f) = .ok (some (f ts)) := by
  subst h; rfl

theorem setStr_nil : setStr [] = c!"set()" := rfl
theorem setStr_cons {l : List Str} (h : l ≠ []) : setStr l = c!"{" ++ commas l ++ c!"}" := by
  cases l with
  | nil => exact absurd rfl h
  | cons a l => simp only [setStr, List.isEmpty, join_commas]; rfl
theorem fsetStr_cons {l : List Str} (h : l ≠ []) : fsetStr l = c!"frozenset({" ++ commas l ++ c!"})" := by
  cases l with
  | nil => exact absurd rfl h
  | cons a l => simp only [fsetStr, List.isEmpty, join_commas]; rfl

theorem sort_ne {ts : List Str} {xs : List Val} (hl : ts.length = xs.length) (h : xs ≠ []) : sortBy strLe ts ≠ [] := by
  intro e
  have := (sortBy_perm strLe ts).length_eq
  rw [e] at this
  apply h
  apply List.eq_nil_of_length_eq_zero
  simp at this; omega

/-- The text of the specification, for elements whose texts are known. -/
theorem list_fixed {xs : List Val} {ts : List Str} (hu : ∀ ts' : List Str,
      (ts'.length = xs.length ∧ ∀ (i : Nat) x t, xs[i]? = some x → ts'[i]? = some t → IdTextOf x t) ↔ ts' = ts) (s' : Str) :
    IdTextOf (.list xs) s' ↔ s' = bracket c!"[" c!"]" ts := by
  rw [join_commas]
  constructor
  · intro h
    cases h with
    | list hl hp => rw [(hu _).1 ⟨hl, hp⟩]
  · rintro rfl
    obtain ⟨hl, hp⟩ := (hu ts).2 rfl
    exact .list hl hp

theorem tuple_fixed {xs : List Val} {ts : List Str} (hu : ∀ ts' : List Str,
      (ts'.length = xs.length ∧ ∀ (i : Nat) x t, xs[i]? = some x → ts'[i]? = some t → IdTextOf x t) ↔ ts' = ts) (s' : Str) :
    IdTextOf (.tuple xs) s' ↔ s' = bracket c!"(" c!")" ts := by
  rw [join_commas]
  constructor
  · intro h
    cases h with
    | tuple hl hp => rw [(hu _).1 ⟨hl, hp⟩]
  · rintro rfl
    obtain ⟨hl, hp⟩ := (hu ts).2 rfl
    exact .tuple hl hp

theorem set_fixed {xs : List Val} {ts : List Str} (hu : ∀ ts' : List Str,
      (ts'.length = xs.length ∧ ∀ (i : Nat) x t, xs[i]? = some x → ts'[i]? = some t → IdTextOf x t) ↔ ts' = ts) (s' : Str) :
    IdTextOf (.set xs) s' ↔ s' = setStr (sortBy strLe ts) := by
  obtain ⟨hl, hp⟩ := (hu ts).2 rfl
  constructor
  · intro h
    cases h with
    | noSet =>
      have : ts = [] := List.eq_nil_of_length_eq_zero (by simpa using hl)
      subst this; rfl
    | set hne hl' hp' hs =>
      have := (hu _).1 ⟨hl', hp'⟩
      subst this
      rw [(sortedTexts_iff _ _).1 hs, setStr_cons (sort_ne hl hne)]
  · rintro rfl
    by_cases hne : xs = []
    · subst hne
      have : ts = [] := List.eq_nil_of_length_eq_zero (by simpa using hl)
      subst this
      exact .noSet
    · rw [setStr_cons (sort_ne hl hne)]
      exact .set hne hl hp ((sortedTexts_iff _ _).2 rfl)

theorem fset_fixed {xs : List Val} {ts : List Str} (hu : ∀ ts' : List Str,
      (ts'.length = xs.length ∧ ∀ (i : Nat) x t, xs[i]? = some x → ts'[i]? = some t → IdTextOf x t) ↔ ts' = ts) (s' : Str) :
    IdTextOf (.fset xs) s' ↔ s' = fsetStr (sortBy strLe ts) := by
  obtain ⟨hl, hp⟩ := (hu ts).2 rfl
  constructor
  · intro h
    cases h with
    | noFset =>
      have : ts = [] := List.eq_nil_of_length_eq_zero (by simpa using hl)
      subst this; rfl
    | fset hne hl' hp' hs =>
      have := (hu _).1 ⟨hl', hp'⟩
      subst this
      rw [(sortedTexts_iff _ _).1 hs, fsetStr_cons (sort_ne hl hne)]
  · rintro rfl
    by_cases hne : xs = []
    · subst hne
      have : ts = [] := List.eq_nil_of_length_eq_zero (by simpa using hl)
      subst this
      exact .noFset
    · rw [fsetStr_cons (sort_ne hl hne)]
      exact .fset hne hl hp ((sortedTexts_iff _ _).2 rfl)

theorem dict_fixed {kvs : List (Val × Val)} (hk : ∀ k v, (k, v) ∈ kvs → Fixed k) (hv : ∀ k v, (k, v) ∈ kvs → Fixed v) :
    ∃ s, dictStr buildD kvs = .ok s ∧ ∀ s', IdTextOf (.dict kvs) s' ↔ s' = s := by
  obtain ⟨ts, hm, hu⟩ := items_fixed hk hv
  refine ⟨bracket c!"{" c!"}" (sortBy strLe (ts.map fun t => t.1 ++ c!":" ++ t.2)), by rw [dictStr, hm]; rfl, fun s' => ⟨?_, ?_⟩⟩
  · intro h
    cases h with
    | dict hl hp hq hs =>
      have := (hu _).1 ⟨hl, hp, hq⟩
      subst this
      rw [(sortedTexts_iff _ _).1 hs, join_commas]
  · rintro rfl
    rw [join_commas]
    obtain ⟨hl, hp, hq⟩ := (hu ts).2 rfl
    exact .dict hl hp hq ((sortedTexts_iff _ _).2 rfl)

theorem idStr_seq {c s : Str} {v : Val} (h : buildD v = .ok (some s)) :
    idStr buildD { name := c, conf := [(c!"seq", v)] } false = .ok (c ++ c!"(seq=" ++ s ++ c!")") := by
  simp [idStr, idItems, sortBy, insertBy, mapR, kvStr, h, wrapId, pyJoin, showOpt]

theorem plain_fixed {v : Val} {s : Str} (hp : plainVal v = true) (hs : pyStr v = s) (hb : ' ' ∉ s) (h : ∀ s', IdTextOf v s' ↔ s' = s) : Fixed v := by
  refine ⟨s, ?_, h⟩
  rw [buildD_plain v hp, captureAll_plain (hs ▸ hb), hs]

theorem hasText_fixed {v : Val} (h : HasText v) : Fixed v := by
  induction h with
  | none => exact plain_fixed rfl rfl (by decide) fun s' => ⟨fun h => by cases h; rfl, fun h => h ▸ .none⟩
  | bool b =>
    cases b
    · exact plain_fixed rfl rfl (by decide) fun s' => ⟨fun h => by cases h; rfl, fun h => h ▸ .false⟩
    · exact plain_fixed rfl rfl (by decide) fun s' => ⟨fun h => by cases h; rfl, fun h => h ▸ .true⟩
  | int i =>
    cases i with
    | ofNat n =>
      refine plain_fixed rfl rfl (digits_no_blank n) fun s' => ⟨fun h => ?_, fun h => h ▸ .nat (decimal_natStr n)⟩
      generalize hi : Int.ofNat n = i at h
      cases h with
      | nat hd =>
        rename_i m
        have : n = m := Int.ofNat.inj hi
        subst this
        exact decimal_unique hd
      | neg hm hd =>
        rename_i m
        have : (n : Int) = -(m : Int) := hi
        omega
    | negSucc n =>
      refine plain_fixed rfl rfl (s := '-' :: natStr (n + 1)) ?_ fun s' => ⟨fun h => ?_, fun h => h ▸ .neg (n := n + 1) (by omega) (decimal_natStr _)⟩
      · intro h
        rcases List.mem_cons.1 h with h | h
        · exact absurd h (by decide)
        · exact digits_no_blank _ h
      · generalize hi : Int.negSucc n = i at h
        cases h with
        | nat hd =>
          rename_i m
          have : Int.negSucc n = (m : Int) := hi
          omega
        | neg hm hd =>
          rename_i t m
          have : m = n + 1 := by omega
          subst this
          rw [decimal_unique hd]
  | float hb => exact plain_fixed rfl rfl hb fun s' => ⟨fun h => by cases h; rfl, fun h => h ▸ .float _⟩
  | str s =>
    refine ⟨_, buildD_str s, fun s' => ⟨fun h => ?_, fun h => h ▸ .str (quoteEq_strBody s) (escaped_strBody s)⟩⟩
    cases h with
    | str hq he =>
      rw [← strBody_fixed he, ← strBody_of_quoteEq hq]
  | @cls f hb =>
    refine ⟨c!"<class '" ++ f ++ c!"'>", ?_, fun s' => ⟨fun h => by cases h; rfl, fun h => h ▸ .cls _⟩⟩
    rw [buildD_plain _ rfl]
    have : isInfix c!" at 0x" (pyStr (.cls f)) = false := by
      have e : pyStr (.cls f) = c!"<class '" ++ (f ++ c!"'>") := by simp [pyStr]
      rw [e, isInfix_skip]
      apply isInfix_blank rfl
      intro h
      rcases List.mem_append.1 h with h | h
      · exact hb h
      · exact absurd h (by decide)
    simp only [captureAll, this]; rfl
  | numtype n => exact ⟨_, buildD_numtype n, fun s' => ⟨fun h => by cases h; rfl, fun h => h ▸ .numtype _⟩⟩
  | list _ ih =>
    obtain ⟨ts, hs, hu⟩ := texts_fixed ih
    exact ⟨_, by rw [buildD_list, ret_map _ hs], list_fixed hu⟩
  | tuple _ ih =>
    obtain ⟨ts, hs, hu⟩ := texts_fixed ih
    exact ⟨_, by rw [buildD_tuple, ret_map _ hs], tuple_fixed hu⟩
  | set _ ih =>
    obtain ⟨ts, hs, hu⟩ := texts_fixed ih
    exact ⟨_, by rw [buildD_set, ret_map _ hs], set_fixed hu⟩
  | fset _ ih =>
    obtain ⟨ts, hs, hu⟩ := texts_fixed ih
    exact ⟨_, by rw [buildD_fset, ret_map _ hs], fset_fixed hu⟩
  | sub k c a _ ih =>
    obtain ⟨ts, hs, hu⟩ := texts_fixed ih
    refine ⟨_, by rw [buildD_sub, ret_map _ hs], fun s' => ?_⟩
    cases k
    · refine ⟨fun h => ?_, fun h => ?_⟩
      · cases h with
        | subList h => rw [(list_fixed hu _).1 h]; rfl
      · subst h; exact .subList ((list_fixed hu _).2 rfl)
    · refine ⟨fun h => ?_, fun h => ?_⟩
      · cases h with
        | subTuple h => rw [(tuple_fixed hu _).1 h]; rfl
      · subst h; exact .subTuple ((tuple_fixed hu _).2 rfl)
    · refine ⟨fun h => ?_, fun h => ?_⟩
      · cases h with
        | subSet h => rw [(set_fixed hu _).1 h]; rfl
      · subst h; exact .subSet ((set_fixed hu _).2 rfl)
    · refine ⟨fun h => ?_, fun h => ?_⟩
      · cases h with
        | subFset h => rw [(set_fixed hu _).1 h]; rfl
      · subst h; exact .subFset ((set_fixed hu _).2 rfl)
  | dict _ _ ihk ihv =>
    obtain ⟨s, hs, hu⟩ := dict_fixed ihk ihv
    exact ⟨s, by rw [buildD_dict, hs]; rfl, hu⟩
  | what n nk o nd _ ih =>
    obtain ⟨s, hs, hu⟩ := what_fixed (n := n) (o := o) nd ih
    exact ⟨s, by rw [buildD_what, hs]; rfl, hu⟩
  | duck n nk o nd _ ih =>
    obtain ⟨s, hs, hu⟩ := what_fixed (n := n) (o := o) nd ih
    refine ⟨s, by rw [buildD_duck, hs]; rfl, fun s' => ?_⟩
    rw [← hu]
    exact ⟨fun h => by cases h; assumption, .duck⟩
  | @odict kvs c _ _ ihk ihv =>
    have hx : ∀ x ∈ kvs.map (fun e => Val.tuple [e.1, e.2]), Fixed x := by
      intro x hx
      obtain ⟨⟨k, v⟩, he, rfl⟩ := List.mem_map.1 hx
      obtain ⟨ts, hs, hu⟩ := texts_fixed (xs := [k, v]) (by
        intro y hy
        simp only [List.mem_cons, List.not_mem_nil, or_false] at hy
        rcases hy with rfl | rfl
        · exact ihk _ _ he
        · exact ihv _ _ he)
      exact ⟨_, by rw [buildD_tuple, ret_map _ hs], tuple_fixed hu⟩
    obtain ⟨ts, hs, hu⟩ := texts_fixed hx
    have hb : buildD (itemsList kvs) = .ok (some (bracket c!"[" c!"]" ts)) := by
      rw [itemsList, buildD_list, ret_map _ hs]
    refine ⟨_, by rw [buildD_odict, show dset (dictConf [] (.dict kvs)) c!"seq" (itemsList kvs) = [(c!"seq", itemsList kvs)] from rfl,
      idStr_seq hb]; rfl, fun s' => ⟨fun h => ?_, fun h => ?_⟩⟩
    · cases h with
      | odict h => rw [(list_fixed hu _).1 h]
    · subst h; exact .odict ((list_fixed hu _).2 rfl)
  | @ddict kvs c _ _ ihk ihv =>
    obtain ⟨s, hs, hu⟩ := dict_fixed ihk ihv
    have hb : buildD (.dict kvs) = .ok (some s) := by rw [buildD_dict, hs]; rfl
    refine ⟨_, by rw [buildD_ddict, hs]; simp only []; rw [show dictConf [] (.dict kvs) = [(c!"seq", .dict kvs)] from rfl,
      idStr_seq hb]; rfl, fun s' => ⟨fun h => ?_, fun h => ?_⟩⟩
    · cases h with
      | ddict h => rw [(hu _).1 h]
    · subst h; exact .ddict ((hu _).2 rfl)
  | @func names ds n nd hl _ ih =>
    have e : (pyLast ds.length names).zip ds = (names.drop (names.length - ds.length)).zip ds := by
      simp only [pyLast]
      split
      · rename_i h0
        have : ds = [] := List.eq_nil_of_length_eq_zero h0
        subst this; simp
      · rfl
    have hlen : (names.drop (names.length - ds.length)).length = ds.length := by simp; omega
    have hkeys : ((names.drop (names.length - ds.length)).zip ds).map Prod.fst = names.drop (names.length - ds.length) := by
      rw [List.map_fst_zip]; omega
    have hnd : (((names.drop (names.length - ds.length)).zip ds).map Prod.fst).Nodup := by
      rw [hkeys]; exact nd.sublist (List.drop_sublist _ _)
    obtain ⟨s, hs, hu⟩ := what_fixed (n := funcName n) (nk := []) (o := none) hnd (fun k v h _ => ih v (List.of_mem_zip h).2)
    refine ⟨s, by rw [buildD_func, e, dictOf_unique hnd, hs]; rfl, fun s' => ?_⟩
    rw [← hu]
    constructor
    · intro h
      cases h with
      | func hn hl' h =>
        simpa [funcName, hn, ← hl'] using h
      | lambda hl' h =>
        simpa [funcName, ← hl'] using h
    · intro h
      have ea : names = names.take (names.length - ds.length) ++ names.drop (names.length - ds.length) := by simp
      by_cases hn : n = c!"<lambda>"
      · subst hn
        rw [ea]
        refine .lambda hlen ?_
        simpa [funcName] using h
      · rw [ea]
        refine .func hn hlen ?_
        simpa [funcName, hn] using h
  | array c h => exact ⟨_, buildD_array c h, fun s' => ⟨fun h => by cases h; rfl, fun h => h ▸ .array _ _⟩⟩
  | @rngTuple xs c _ ih =>
    obtain ⟨s, hs, hu⟩ := ih
    refine ⟨c ++ c!"(state=tuple(seq=" ++ s ++ c!"))", ?_, fun s' => ⟨fun h => ?_, fun h => h ▸ .rngTuple ((hu _).2 rfl)⟩⟩
    · rw [buildD_rng, show whatareyou {} (.tuple xs) = .ok { name := c!"tuple", conf := [(c!"seq", .tuple xs)] } from rfl]
      simp only []
      rw [idStr_seq hs]
      simp [ret, Except.map]
    · cases h with
      | rngTuple h => rw [(hu _).1 h]
  | @rngDict kvs c _ ih =>
    obtain ⟨s, hs, hu⟩ := ih
    refine ⟨c ++ c!"(state=dict(seq=" ++ s ++ c!"))", ?_, fun s' => ⟨fun h => ?_, fun h => h ▸ .rngDict ((hu _).2 rfl)⟩⟩
    · rw [buildD_rng, show whatareyou {} (.dict kvs) = .ok { name := c!"dict", conf := [(c!"seq", .dict kvs)] } from rfl]
      simp only []
      rw [idStr_seq hs]
      simp [ret, Except.map]
    · cases h with
      | rngDict h => rw [(hu _).1 h]
  | obj c s cl cd dd sd pd =>
    refine ⟨_, buildD_plain _ rfl, fun s' => ?_⟩
    by_cases hi : c!" at 0x" <:+: s
    · have e : captureAll (.obj c cl cd dd sd pd none s) = c ++ c!"()" := by
        simp [captureAll, pyStr, isInfix_iff.2 hi, className]
      rw [e]
      constructor
      · intro h
        cases h with
        | obj h => exact absurd hi h
        | address => rfl
      · rintro rfl; exact .address hi
    · have e : captureAll (.obj c cl cd dd sd pd none s) = s := by
        have : isInfix c!" at 0x" s = false := by
          cases h : isInfix c!" at 0x" s with
          | false => rfl
          | true => exact absurd (isInfix_iff.1 h) hi
        simp [captureAll, pyStr, this]
      rw [e]
      constructor
      · intro h
        cases h with
        | obj => rfl
        | address h => exact absurd h hi
      · rintro rfl; exact .obj hi

/-- C52. Under the default plugins, the text of a value is the one the specification gives, and the only one. -/
theorem c52_text {v : Val} (h : HasText v) (s : Str) : buildD v = .ok (some s) ↔ IdTextOf v s := by
  obtain ⟨t, ht, hu⟩ := hasText_fixed h
  rw [hu, ht]
  constructor
  · intro e; injection e with e; injection e with e; exact e.symm
  · rintro rfl; rfl

/-- C52. Every such value has a text. -/
theorem c52_defined {v : Val} (h : HasText v) : ∃ s, buildD v = .ok (some s) :=
  let ⟨s, hs, _⟩ := hasText_fixed h
  ⟨s, hs⟩

/-- A value with every kind of collection, a negative number, quotes, unsorted keys and a non-id key. -/
def exText : Val := .what c!"f" [(c!"z", .list [.int (-12), .none, .str c!"it's"]), (c!"j", .builtin c!"len"),
  (c!"a", .dict [(.str c!"k", .set [.float c!"2.5", .bool true]), (.int 3, .sub .list c!"L" [] [.numtype c!"int"])]),
  (c!"g", .func c!"<lambda>" [c!"x", c!"y"] [.int 0])] [c!"j"] (some c!"o")
example : HasText (.rng c!"RandomState" (.dict [(.str c!"pos", .int 3)])) ∧
    buildD (.rng c!"RandomState" (.dict [(.str c!"pos", .int 3)])) = .ok (some c!"RandomState(state=dict(seq={'pos':3}))") :=
  ⟨.rngDict _ (.dict (by intro k v h; simp only [List.mem_singleton, Prod.mk.injEq] at h; rw [h.1]; exact .str _)
    (by intro k v h; simp only [List.mem_singleton, Prod.mk.injEq] at h; rw [h.2]; exact .int _)), by decide⟩
example : HasText exText :=
  .what _ _ _ (by decide) (by
    intro k v h hk
    simp only [List.mem_cons, Prod.mk.injEq, List.not_mem_nil, or_false] at h
    rcases h with ⟨rfl, rfl⟩ | ⟨rfl, rfl⟩ | ⟨rfl, rfl⟩ | ⟨rfl, rfl⟩
    · refine .list fun x hx => ?_
      simp only [List.mem_cons, List.not_mem_nil, or_false] at hx
      rcases hx with rfl | rfl | rfl <;> constructor
    · exact absurd hk (by decide)
    · refine .dict ?_ ?_
      · intro k v h
        simp only [List.mem_cons, Prod.mk.injEq, List.not_mem_nil, or_false] at h
        rcases h with ⟨rfl, rfl⟩ | ⟨rfl, rfl⟩ <;> constructor
      · intro k v h
        simp only [List.mem_cons, Prod.mk.injEq, List.not_mem_nil, or_false] at h
        rcases h with ⟨rfl, rfl⟩ | ⟨rfl, rfl⟩
        · refine .set fun x hx => ?_
          simp only [List.mem_cons, List.not_mem_nil, or_false] at hx
          rcases hx with rfl | rfl
          · exact .float (by decide)
          · exact .bool _
        · refine .sub _ _ _ fun x hx => ?_
          simp only [List.mem_cons, List.not_mem_nil, or_false] at hx
          subst hx; exact .numtype _
    · refine .func _ (by decide) (by decide) fun x hx => ?_
      simp only [List.mem_cons, List.not_mem_nil, or_false] at hx
      subst hx; exact .int _)
example : buildD exText = .ok (some c!"o=f(a={'k':{2.5,True},3:L(seq=[int()])},g=lambda(y=0),z=[-12,None,'it\\'s'])") := by decide

/-! ### Collections under any chain -/

theorem strings_ok {bs : BS} {xs : List Val} {ts : List Str} (hl : ts.length = xs.length)
    (h : ∀ (i : Nat) x t, xs[i]? = some x → ts[i]? = some t → bs x = .ok (some t)) : strings bs xs = .ok ts := by
  induction xs generalizing ts with
  | nil => rw [List.eq_nil_of_length_eq_zero hl]; rfl
  | cons x xs ih =>
    cases ts with
    | nil => simp at hl
    | cons t ts =>
      have h0 := h 0 x t rfl rfl
      have ih := ih (ts := ts) (by simpa using hl) fun i x t hx ht => h (i + 1) x t (by simpa using hx) (by simpa using ht)
      simp only [strings, mapR, h0] at ih ⊢
      cases hm : mapR bs xs with
      | error e => rw [hm] at ih; cases ih
      | ok l => rw [hm] at ih; simp only [] at ih ⊢; simp [unNone, ih]

theorem unNone_none {l : List (Option Str)} (h : none ∈ l) : unNone l = .error .typeError := by
  induction l with
  | nil => cases h
  | cons a l ih =>
    cases a with
    | none => rfl
    | some s =>
      have : none ∈ l := by simpa using h
      simp [unNone, ih this]

theorem mapR_mem {α β : Type} {f : α → R β} {l : List α} {ys : List β} (h : mapR f l = .ok ys) {x : α} (hx : x ∈ l) :
    ∃ y ∈ ys, f x = .ok y := by
  induction l generalizing ys with
  | nil => cases hx
  | cons a l ih =>
    simp only [mapR] at h
    cases hf : f a with
    | error e => rw [hf] at h; cases h
    | ok b =>
      rw [hf] at h
      cases hm : mapR f l with
      | error e => rw [hm] at h; cases h
      | ok bs =>
        rw [hm] at h
        cases h
        rcases List.mem_cons.1 hx with rfl | hx
        · exact ⟨b, by simp, hf⟩
        · obtain ⟨y, hy, e⟩ := ih hm hx
          exact ⟨y, by simp [hy], e⟩

theorem strings_none {bs : BS} {xs : List Val} (ok : ∀ x ∈ xs, ∃ r, bs x = .ok r) (h : ∃ x ∈ xs, bs x = .ok none) :
    strings bs xs = .error .typeError := by
  obtain ⟨ys, hys⟩ := mapR_ok_iff.2 ok
  obtain ⟨x, hx, hn⟩ := h
  obtain ⟨y, hy, e⟩ := mapR_mem hys hx
  rw [hn] at e
  injection e with e
  subst e
  simp only [strings, hys]
  exact unNone_none hy

/-- How the texts of the elements of a list, tuple, set or frozenset make up its text. -/
inductive Enclosed : Val → List Val → List Str → Str → Plugin → Prop where
  | list (xs : List Val) (ts : List Str) : Enclosed (.list xs) xs ts (c!"[" ++ commas ts ++ c!"]") .list
  | tuple (xs : List Val) (ts : List Str) : Enclosed (.tuple xs) xs ts (c!"(" ++ commas ts ++ c!")") .tuple
  | set {xs : List Val} {ts us : List Str} : xs ≠ [] → SortedTexts ts us → Enclosed (.set xs) xs ts (c!"{" ++ commas us ++ c!"}") .set
  | fset {xs : List Val} {ts us : List Str} : xs ≠ [] → SortedTexts ts us → Enclosed (.fset xs) xs ts (c!"frozenset({" ++ commas us ++ c!"})") .set

theorem build_at (cu : Customs) {ps pre post : List Plugin} {p : Plugin} {v : Val} (e : ps = pre ++ p :: post)
    (declined : ∀ q ∈ pre, q.run cu (build cu ps) v = .ok none) (ne : p.run cu (build cu ps) v ≠ .ok none) :
    build cu ps v = p.run cu (build cu ps) v := by
  conv => lhs; rw [build_eq]
  generalize hf : (fun p : Plugin => p.run cu (build cu ps) v) = f
  have h1 : ∀ q, f q = q.run cu (build cu ps) v := fun q => by rw [← hf]
  rw [← h1] at ne ⊢
  replace declined : ∀ q ∈ pre, f q = .ok none := fun q hq => by rw [h1]; exact declined q hq
  clear hf h1
  subst e
  induction pre with
  | nil => exact firstSome_ne rfl ne
  | cons q pre ih =>
    rw [List.cons_append, firstSome_none (declined q (by simp))]
    exact ih fun q hq => declined q (by simp [hq])

/-- C52. With any plugins: when the plugin of the collection is the first that does not decline it, its text encloses the texts of its elements under the same plugins. -/
theorem c52_elements (cu : Customs) {ps pre post : List Plugin} {p : Plugin} {v : Val} {xs : List Val} {ts : List Str} {s : Str}
    (hv : Enclosed v xs ts s p) (chain : ps = pre ++ p :: post) (declined : ∀ q ∈ pre, q.run cu (build cu ps) v = .ok none)
    (hl : ts.length = xs.length) (texts : ∀ (i : Nat) x t, xs[i]? = some x → ts[i]? = some t → build cu ps x = .ok (some t)) :
    build cu ps v = .ok (some s) := by
  have hs := strings_ok hl texts
  have key : p.run cu (build cu ps) v = .ok (some s) := by
    cases hv with
    | list => simp only [Plugin.run, listPlugin]; rw [ret_map _ hs, join_commas]
    | tuple => simp only [Plugin.run, tuplePlugin]; rw [ret_map _ hs, join_commas]
    | set hne hst => simp only [Plugin.run, setPlugin]; rw [ret_map _ hs, setStr_cons (sort_ne hl hne), (sortedTexts_iff _ _).1 hst]
    | fset hne hst => simp only [Plugin.run, setPlugin]; rw [ret_map _ hs, fsetStr_cons (sort_ne hl hne), (sortedTexts_iff _ _).1 hst]
  rw [build_at cu chain declined (by rw [key]; simp), key]

/-- C52. An element no plugin has a text for is never left out or shown as something else: it raises TypeError. -/
theorem c52_no_text (cu : Customs) {ps pre post : List Plugin} {p : Plugin} {v : Val} {xs : List Val} {ts : List Str} {s : Str}
    (hv : Enclosed v xs ts s p) (chain : ps = pre ++ p :: post) (declined : ∀ q ∈ pre, q.run cu (build cu ps) v = .ok none)
    (ok : ∀ x ∈ xs, ∃ r, build cu ps x = .ok r) (none : ∃ x ∈ xs, build cu ps x = .ok none) :
    build cu ps v = .error .typeError := by
  have hs := strings_none ok none
  have key : p.run cu (build cu ps) v = .error .typeError := by
    cases hv <;> simp only [Plugin.run, listPlugin, tuplePlugin, setPlugin, hs] <;> rfl
  rw [build_at cu chain declined (by rw [key]; simp), key]

/-- A chain without the capture-all plugins: a list with a float in it. -/
def exChain : List Plugin := [.string, .list]
example : Enclosed (.list [.str c!"a", .float c!"1.5"]) [.str c!"a", .float c!"1.5"] [] c!"[]" .list := .list _ []
example : build noCustom exChain (.list [.str c!"a", .str c!"b"]) = .ok (some c!"['a','b']") := by decide
example : build noCustom exChain (.list [.str c!"a", .float c!"1.5"]) = .error .typeError :=
  c52_no_text noCustom (pre := [.string]) (post := []) (.list _ []) rfl
    (by intro q hq; simp only [List.mem_cons, List.not_mem_nil, or_false] at hq; subst hq; rfl)
    (by intro x hx
        simp only [List.mem_cons, List.not_mem_nil, or_false] at hx
        rcases hx with rfl | rfl
        · exact ⟨_, rfl⟩
        · exact ⟨_, rfl⟩) ⟨_, List.mem_cons_of_mem _ (List.mem_cons_self ..), rfl⟩

end Whatami
