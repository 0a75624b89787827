import Verif.Normal

/-
C46: whatever was parsed can be written and parsed again.
-/
namespace Whatami

/-- C46. Let `w` be what `parse_whatid` makes of any text at all (spacing, order and escapes as they may).  Then `w.id()` works, it is
accepted by `parse_whatid`, what that gives differs from `w` at most in the order of parameters, dict items and set elements,
and it has the same id.  (The exception is a What nested in `w` that would be written `set()` or `frozenset()`.) -/
theorem c46_reparse {E : Env} (hE : SaneEnv E) {s : Str} {w : What} (h : parseWhatid E s = .ok w)
    (hs : ∀ k v, (k, v) ∈ w.conf → NoSetWhat v) :
    ∃ s' w', idD w = .ok s' ∧ parseWhatid E s' = .ok w' ∧ Cong Reorder w.toVal w'.toVal ∧ idD w' = .ok s' := by
  obtain ⟨h1, h2⟩ := parse_fine (F := ⟨False, False, False⟩) hE (fun h => h) h hs
  obtain ⟨s', w', h3, h4, h5⟩ := c06_round_trip h1 h2
  refine ⟨s', w', h3, h4, h5, ?_⟩
  have := idD_of_text (cong_text (fun a b hc => reorder_text hc) h5)
  rw [h3] at this
  cases hw : idD w' with
  | error e => rw [hw] at this; cases this
  | ok t => rw [hw] at this; rw [show s' = t from Option.some.inj this]

/-- C46, with Python's `==`: unless there is a nan in it, `w` equals what parsing its id gives. -/
theorem c46_equal {E : Env} (hE : SaneEnv E) {s : Str} {w : What} (h : parseWhatid E s = .ok w)
    (hs : ∀ k v, (k, v) ∈ w.conf → NoSetWhat v) (hn : ¬ Within (.float c!"nan") w.toVal) :
    ∃ s' w', idD w = .ok s' ∧ parseWhatid E s' = .ok w' ∧ pyEq E.fi false w.toVal w'.toVal = true := by
  obtain ⟨h1, h2⟩ := parse_fine (F := ⟨False, False, True⟩) hE (fun h => h) h hs
  exact c06_equal false h1 h2 (.inr hn)

/-- C46. `w.id()` is a normal form: texts that parse to Whats that are equal up to order get the same one, and normalising twice is
normalising once. -/
theorem c46_normal_form {E : Env} (hE : SaneEnv E) {s t : Str} {w u : What} (h : parseWhatid E s = .ok w) (h' : parseWhatid E t = .ok u)
    (hs : ∀ k v, (k, v) ∈ w.conf → NoSetWhat v) (hs' : ∀ k v, (k, v) ∈ u.conf → NoSetWhat v) :
    idD w = idD u ↔ Cong Reorder w.toVal u.toVal :=
  c08_iff (parse_fine hE (fun h => h) h hs).1 (parse_fine hE (fun h => h) h' hs').1

/-- C46, why the exception: `f(x=set ())` parses to a nested What whose id then reads as the empty set. -/
theorem c46_set_what {E : Env} :
    ∃ w w', parseWhatid E c!"f(x=set ())" = .ok w ∧ idD w = .ok c!"f(x=set())" ∧ parseWhatid E c!"f(x=set())" = .ok w' ∧
      w.conf = [(c!"x", .what c!"set" [] [] none)] ∧ w'.conf = [(c!"x", .set [])] :=
  ⟨_, _, rfl, rfl, rfl, rfl, rfl⟩

/-! ### A case that meets the hypotheses -/

theorem floatText_of {t : Str} (h : NumShape t) (hp : pyInt t = none) : FloatText t := by
  have hd : ∀ d : Str, Digits d → ∀ c ∈ d, isDig c = true := fun d hd => List.all_eq_true.1 hd.2
  refine ⟨h, ?_, ?_⟩
  · rintro ⟨hne, ha⟩
    cases t with
    | nil => exact hne rfl
    | cons c r =>
      have hc : c ≠ '-' := by
        rintro rfl
        simp [isDig] at ha
      simp only [pyInt, hc, if_false, ha, if_true] at hp
      cases hp
  · rintro d rfl hdd
    simp only [pyInt, if_true, ne_eq, hdd.1, not_false_eq_true, hdd.2, and_self] at hp
    cases hp

theorem exEnv_sane : SaneEnv exEnv where
  float t h hp := ⟨floatText_of h hp, rfl⟩
  cls m n v h := by
    simp only [exEnv] at h
    split at h
    · cases h
      exact ⟨_, rfl, ⟨by simp, by decide⟩, by rfl⟩
    · cases h

/-- Spaces, an escaped quote, a set with an element twice, a class that can be found and one that cannot. -/
def exMessy : Str := c!" out = f( b ={3,  1,3} ,a='it\\'s', c=[-1.5e3,<class 'collections.OrderedDict'>, <class 'no.Such'>],d=g (x = set()))"

example : ∃ w, parseWhatid exEnv exMessy = .ok w ∧
    idD w = .ok c!"out=f(a='it\\'s',b={1,3},c=[-1.5e3,<class 'collections.OrderedDict'>,{'class':'no.Such'}],d=g(x=set()))" := ⟨_, rfl, rfl⟩

/-- A smaller one, for which the hypotheses are shown. -/
def exMessy2 : Str := c!" out = f( b ={3,  1,3} ,a='it\\'s')"

def exMessy2What : What := ⟨c!"f", [(c!"b", .set [.int 3, .int 1]), (c!"a", .str c!"it\\'s")], [], some c!"out"⟩

example : parseWhatid exEnv exMessy2 = .ok exMessy2What := by rfl

example : ∀ k v, (k, v) ∈ exMessy2What.conf → NoSetWhat v := by
  intro k v hm n nk hw
  exfalso
  simp only [exMessy2What, List.mem_cons, Prod.mk.injEq, List.not_mem_nil, or_false] at hm
  rcases hm with ⟨_, rfl⟩ | ⟨_, rfl⟩
  · cases hw with
    | step hw hc =>
      cases hc with
      | set hm =>
        simp only [List.mem_cons, List.not_mem_nil, or_false] at hm
        rcases hm with rfl | rfl <;> cases hw <;> rename_i hc <;> cases hc
  · cases hw; rename_i hc; cases hc

example : ¬ Within (.float c!"nan") exMessy2What.toVal := by
  intro hw
  cases hw with
  | step hw hc =>
    cases hc with
    | what k n nk o hm =>
      simp only [exMessy2What, List.mem_cons, Prod.mk.injEq, List.not_mem_nil, or_false] at hm
      rcases hm with ⟨_, rfl⟩ | ⟨_, rfl⟩
      · cases hw with
        | step hw hc =>
          cases hc with
          | set hm =>
            simp only [List.mem_cons, List.not_mem_nil, or_false] at hm
            rcases hm with rfl | rfl <;> cases hw <;> rename_i hc <;> cases hc
      · cases hw; rename_i hc; cases hc

end Whatami
