import Verif.RegThreads
import Verif.Props.Registry

/-
C95: a registry that several threads use, and calls that are interrupted.
-/
namespace Whatami

/-- What a call does when nothing else happens meanwhile: as in C28-C31. -/
def RegCall.now (c : RegCall) (r : Registry) : Registry × R Unit :=
  match c with
  | .register i n => ((Whatami.register (fun _ => .ok i) r (some .none) (some n)).1, (Whatami.register (fun _ => .ok i) r (some .none) (some n)).2.map fun _ => ())
  | .removeNick n => remove (fun _ => .ok []) r (some n) none
  | .removeId i => remove (fun _ => .ok i) r none (some .none)
  | .removeBoth n i => remove (fun _ => .ok i) r (some n) (some .none)
  | .reset => (⟨[], []⟩, .ok ())

theorem view_set_ids (h : RegHeap) (d : List (Str × Str)) : (h.set .ids (h.cur .ids) d).view = ⟨d, h.view.nick2id⟩ := by
  simp [RegHeap.view, RegHeap.set]

theorem view_set_nicks (h : RegHeap) (d : List (Str × Str)) : (h.set .nicks (h.cur .nicks) d).view = ⟨h.view.id2nick, d⟩ := by
  simp [RegHeap.view, RegHeap.set]

theorem alone_check {t : Table} {d : Nat} {key val : Str} {k : RegProg} {h : RegHeap} : (checkFree t d key val k).alone h =
    if dhas (h.dicts t d) key && !(dget (h.dicts t d) key == some val) then (h, .error .exception) else k.alone h := by
  simp only [checkFree, RegProg.alone, dhas]
  have hc : dget (h.dicts t d) key = none ∨ ∃ v, dget (h.dicts t d) key = some v := by
    cases dget (h.dicts t d) key with
    | none => exact .inl rfl
    | some v => exact .inr ⟨v, rfl⟩
  obtain hg | ⟨v, hg⟩ := hc
  · simp [hg]
  · simp only [RegProg.alone, hg]
    by_cases hv : v = val <;> simp [hv, RegProg.alone, hg]

theorem alone_remove {nick id : Option Str} {h : RegHeap} :
    (((removeProg nick id).alone h).1.view, ((removeProg nick id).alone h).2) = removeBoth h.view nick id ∧
    ((removeProg nick id).alone h).1.cur = h.cur := by
  simp only [removeProg, delProg, RegProg.alone]
  cases nick with
  | none => simp [RegProg.alone, removeBoth, delKey]
  | some n =>
    simp only [RegProg.alone, removeBoth, delKey]
    by_cases hn : dhas h.view.nick2id n = true
    · have hn' : dhas (h.dicts .nicks (h.cur .nicks)) n = true := hn
      rw [if_pos hn', if_pos hn]
      simp only [if_true, RegProg.alone]
      cases id with
      | none =>
        simp only [RegProg.alone]
        exact ⟨by rw [view_set_nicks]; rfl, rfl⟩
      | some i =>
        simp only [RegProg.alone]
        by_cases hi : dhas h.view.id2nick i = true
        · have hi' : dhas ((h.set .nicks (h.cur .nicks) (ddel (h.dicts .nicks (h.cur .nicks)) n)).dicts .ids
            ((h.set .nicks (h.cur .nicks) (ddel (h.dicts .nicks (h.cur .nicks)) n)).cur .ids)) i = true := by simpa [RegHeap.set, RegHeap.view] using hi
          rw [if_pos hi', if_pos hi]
          simp only [if_true, RegProg.alone]
          refine ⟨?_, rfl⟩
          rw [show (h.set .nicks (h.cur .nicks) (ddel (h.dicts .nicks (h.cur .nicks)) n)).cur .ids = h.cur .ids from rfl]
          simp [RegHeap.view, RegHeap.set]
        · have hi' : ¬ dhas ((h.set .nicks (h.cur .nicks) (ddel (h.dicts .nicks (h.cur .nicks)) n)).dicts .ids
            ((h.set .nicks (h.cur .nicks) (ddel (h.dicts .nicks (h.cur .nicks)) n)).cur .ids)) i = true := by simpa [RegHeap.set, RegHeap.view] using hi
          rw [if_neg hi', if_neg hi]
          simp only [Bool.false_eq_true, if_false, RegProg.alone]
          exact ⟨by rw [view_set_nicks]; rfl, rfl⟩
    · have hn' : ¬ dhas (h.dicts .nicks (h.cur .nicks)) n = true := hn
      rw [if_neg hn', if_neg hn]
      simp only [Bool.false_eq_true, if_false, RegProg.alone]
      exact ⟨trivial, trivial⟩

/-- C95. A call that runs from its beginning to its end without anything between its steps does what C28-C31 say. -/
theorem c95_alone (c : RegCall) (h : RegHeap) : ((c.prog.alone h).1.view, (c.prog.alone h).2) = c.now h.view := by
  cases c with
  | register i n =>
    simp only [RegCall.prog, registerProg, RegProg.alone, alone_check, RegCall.now, Whatami.register]
    show (_, _) = (_, _)
    by_cases h1 : (dhas h.view.nick2id n && !(dget h.view.nick2id n == some i)) = true
    · have h1' : (dhas (h.dicts .nicks (h.cur .nicks)) n && !(dget (h.dicts .nicks (h.cur .nicks)) n == some i)) = true := h1
      simp only [if_pos h1, if_pos h1']; rfl
    · have h1' : ¬ (dhas (h.dicts .nicks (h.cur .nicks)) n && !(dget (h.dicts .nicks (h.cur .nicks)) n == some i)) = true := h1
      simp only [if_neg h1, if_neg h1']
      by_cases h2 : (dhas h.view.id2nick i && !(dget h.view.id2nick i == some n)) = true
      · have h2' : (dhas (h.dicts .ids (h.cur .ids)) i && !(dget (h.dicts .ids (h.cur .ids)) i == some n)) = true := h2
        simp only [if_pos h2, if_pos h2']; rfl
      · have h2' : ¬ (dhas (h.dicts .ids (h.cur .ids)) i && !(dget (h.dicts .ids (h.cur .ids)) i == some n)) = true := h2
        simp only [if_neg h2, if_neg h2', RegProg.alone]
        simp [RegHeap.view, RegHeap.set, Except.map]
  | removeNick n =>
    simp only [RegCall.prog, RegProg.alone, RegCall.now, remove]
    exact alone_remove.1
  | removeId i =>
    simp only [RegCall.prog, RegProg.alone, RegCall.now, remove]
    exact alone_remove.1
  | removeBoth n i =>
    simp only [RegCall.prog, RegProg.alone, RegCall.now, remove, Except.map]
    show (_, _) = _
    by_cases hc : dget h.view.nick2id n ≠ some i ∨ dget h.view.id2nick n ≠ some n
    · have hc' : dget (h.dicts .nicks (h.cur .nicks)) n ≠ some i ∨ dget (h.dicts .ids (h.cur .ids)) n ≠ some n := hc
      simp only [if_pos hc, if_pos hc', RegProg.alone]
    · have hc' : ¬ (dget (h.dicts .nicks (h.cur .nicks)) n ≠ some i ∨ dget (h.dicts .ids (h.cur .ids)) n ≠ some n) := hc
      simp only [if_neg hc, if_neg hc']
      exact alone_remove.1
  | reset =>
    simp [RegCall.prog, RegProg.alone, RegCall.now, RegHeap.view, RegHeap.renew, RegHeap.set]

/-! ### A thread by itself -/

/-- A thread after some steps, when no other thread runs. -/
def solo (h : RegHeap) (p : RegProg) : Nat → RegHeap × RegProg
  | 0 => (h, p)
  | k + 1 => (solo h p k).2.step (solo h p k).1

theorem alone_step (p : RegProg) (h : RegHeap) : (p.step h).2.alone (p.step h).1 = p.alone h := by
  cases p with
  | done r => rfl
  | load t k => rfl
  | look t d key k => rfl
  | put t d key val k => rfl
  | del t d key k => simp only [RegProg.step, RegProg.alone]; split <;> rfl
  | fresh t k => rfl

theorem alone_solo (h : RegHeap) (p : RegProg) (k : Nat) : (solo h p k).2.alone (solo h p k).1 = p.alone h := by
  induction k with
  | zero => rfl
  | succ k ih => rw [solo, alone_step, ih]

theorem solo_done {h : RegHeap} {p : RegProg} {k : Nat} {o : R Unit} (e : (solo h p k).2 = .done o) : p.alone h = ((solo h p k).1, o) := by
  rw [← alone_solo h p k, e]; rfl

theorem solo_ends : ∀ (p : RegProg) (h : RegHeap), ∃ k, solo h p k = ((p.alone h).1, .done (p.alone h).2) := by
  have shift : ∀ (p : RegProg) (h : RegHeap) (k : Nat), solo h p (k + 1) = solo (p.step h).1 (p.step h).2 k := by
    intro p h k
    induction k with
    | zero => rfl
    | succ k ih => rw [solo, ih]; rfl
  intro p
  induction p with
  | done r => intro h; exact ⟨0, rfl⟩
  | load t k ih => intro h; obtain ⟨m, hm⟩ := ih _ h; exact ⟨m + 1, by rw [shift]; exact hm⟩
  | look t d key k ih => intro h; obtain ⟨m, hm⟩ := ih _ h; exact ⟨m + 1, by rw [shift]; exact hm⟩
  | put t d key val k ih => intro h; obtain ⟨m, hm⟩ := ih _; exact ⟨m + 1, by rw [shift]; exact hm⟩
  | del t d key k ih =>
    intro h
    by_cases hd : dhas (h.dicts t d) key = true
    · obtain ⟨m, hm⟩ := ih true (h.set t d (ddel (h.dicts t d) key))
      refine ⟨m + 1, ?_⟩
      rw [shift]
      simp only [RegProg.step, RegProg.alone, if_pos hd]
      exact hm
    · obtain ⟨m, hm⟩ := ih false h
      refine ⟨m + 1, ?_⟩
      rw [shift]
      simp only [RegProg.step, RegProg.alone, if_neg hd]
      exact hm
  | fresh t k ih => intro h; obtain ⟨m, hm⟩ := ih _; exact ⟨m + 1, by rw [shift]; exact hm⟩

/-! ### Threads that are about different entries -/

/-- What an attribute has for a key. -/
def RegHeap.at (h : RegHeap) (t : Table) (key : Str) : Option Str := dget (h.dicts t (h.cur t)) key

/-- As in any Python dict. -/
def RegHeap.Ok (h : RegHeap) : Prop := ∀ t d, (dkeys (h.dicts t d)).Nodup

/-- The next step is on a key of `K`, in a dictionary that is in use. -/
def InFoot (cur : Table → Nat) (K : Table → Str → Prop) : RegProg → Prop
  | .done _ | .load _ _ => True
  | .look t d key _ | .put t d key _ _ | .del t d key _ => d = cur t ∧ K t key
  | .fresh _ _ => False

theorem step_ok {p : RegProg} {h : RegHeap} (ok : h.Ok) : (p.step h).1.Ok := by
  have set : ∀ {h : RegHeap} {t n d}, h.Ok → (dkeys d).Nodup → (h.set t n d).Ok := by
    intro h t n d ok hd t' n'
    simp only [RegHeap.set]
    split
    · exact hd
    · exact ok t' n'
  cases p with
  | done r => exact ok
  | load t k => exact ok
  | look t d key k => exact ok
  | put t d key val k => exact set ok (nodup_dset (ok t d) _ _)
  | del t d key k =>
    simp only [RegProg.step]
    split
    · exact set ok (nodup_ddel (ok t d) _)
    · exact ok
  | fresh t k =>
    intro t' n'
    exact set (h := h) (t := t) (n := h.used t) (d := []) ok List.nodup_nil t' n'

/-- A step within `K` answers to what there is at `K`, and changes nothing else. -/
theorem step_foot {K : Table → Str → Prop} {p : RegProg} {h h' : RegHeap} (ok : h.Ok) (ok' : h'.Ok) (hc : h.cur = h'.cur) (hf : InFoot h.cur K p)
    (ha : ∀ t key, K t key → h.at t key = h'.at t key) :
    (p.step h).2 = (p.step h').2 ∧ (p.step h).1.cur = h.cur ∧ (∀ t key, K t key → (p.step h).1.at t key = (p.step h').1.at t key) ∧
      ∀ t key, ¬ K t key → (p.step h).1.at t key = h.at t key := by
  cases p with
  | done r => exact ⟨rfl, rfl, ha, fun _ _ _ => rfl⟩
  | load t k => exact ⟨by simp only [RegProg.step, hc], rfl, ha, fun _ _ _ => rfl⟩
  | look t d key k =>
    obtain ⟨rfl, hk⟩ := hf
    have := ha t key hk
    simp only [RegHeap.at, ← hc] at this
    exact ⟨by simp only [RegProg.step, this], rfl, ha, fun _ _ _ => rfl⟩
  | put t d key val k =>
    obtain ⟨rfl, hk⟩ := hf
    refine ⟨rfl, rfl, fun t' key' hk' => ?_, fun t' key' hk' => ?_⟩
    · have := ha t' key' hk'
      simp only [RegHeap.at, RegProg.step, RegHeap.set, ← hc] at this ⊢
      by_cases e : t' = t
      · subst e; simp only [and_self, if_true, dget_dset, this]
      · simp only [e, false_and, if_false, this]
    · simp only [RegHeap.at, RegProg.step, RegHeap.set]
      by_cases e : t' = t
      · subst e
        have : key ≠ key' := fun e => hk' (e ▸ hk)
        simp only [and_self, if_true, dget_dset, if_neg this]
      · simp only [e, false_and, if_false]
  | del t d key k =>
    obtain ⟨rfl, hk⟩ := hf
    have h0 := ha t key hk
    simp only [RegHeap.at, ← hc] at h0
    have hh : dhas (h.dicts t (h.cur t)) key = dhas (h'.dicts t (h.cur t)) key := by simp only [dhas, h0]
    simp only [RegProg.step, ← hh]
    by_cases hd : dhas (h.dicts t (h.cur t)) key = true
    · simp only [if_pos hd]
      refine ⟨trivial, rfl, fun t' key' hk' => ?_, fun t' key' hk' => ?_⟩
      · have := ha t' key' hk'
        simp only [RegHeap.at, RegHeap.set, ← hc] at this ⊢
        by_cases e : t' = t
        · subst e; simp only [and_self, if_true, dget_ddel (ok _ _), dget_ddel (ok' _ _), this]
        · simp only [e, false_and, if_false, this]
      · simp only [RegHeap.at, RegHeap.set]
        by_cases e : t' = t
        · subst e
          have : key' ≠ key := fun e => hk' (e ▸ hk)
          simp only [and_self, if_true, dget_ddel (ok _ _), if_neg this]
        · simp only [e, false_and, if_false]
    · simp only [if_neg hd]
      exact ⟨trivial, trivial, ha, fun _ _ _ => trivial⟩
  | fresh t k => exact hf.elim

theorem solo_ok {h : RegHeap} (ok : h.Ok) (p : RegProg) (k : Nat) : (solo h p k).1.Ok := by
  induction k with
  | zero => exact ok
  | succ k ih => exact step_ok ih

theorem solo_cur {h : RegHeap} {p : RegProg} {K : Table → Str → Prop} (hf : ∀ k, InFoot h.cur K (solo h p k).2) (k : Nat) : (solo h p k).1.cur = h.cur := by
  induction k with
  | zero => rfl
  | succ k ih =>
    have := hf k
    simp only [solo]
    cases hp : (solo h p k).2 with
    | fresh t q => rw [hp] at this; exact this.elim
    | del t d key q => simp only [RegProg.step]; split <;> exact ih
    | _ => exact ih

/-- What threads with disjoint keys have done so far: each is where it would be by itself, and so are its keys. -/
structure Separate (h₀ : RegHeap) (ps : Nat → RegProg) (K : Nat → Table → Str → Prop) (s : RegState) : Prop where
  ok : s.heap.Ok
  cur : s.heap.cur = h₀.cur
  each : ∀ t, ∃ k, s.threads t = (solo h₀ (ps t) k).2 ∧ ∀ tb key, K t tb key → s.heap.at tb key = (solo h₀ (ps t) k).1.at tb key
  rest : ∀ tb key, (∀ t, ¬ K t tb key) → s.heap.at tb key = h₀.at tb key

theorem separate_run {h₀ : RegHeap} {ps : Nat → RegProg} {K : Nat → Table → Str → Prop} (ok : h₀.Ok)
    (foot : ∀ t k, InFoot h₀.cur (K t) (solo h₀ (ps t) k).2) (apart : ∀ t t', t ≠ t' → ∀ tb key, K t tb key → ¬ K t' tb key) (sched : List Nat) :
    Separate h₀ ps K ((⟨h₀, ps⟩ : RegState).run sched) := by
  have main : ∀ s, Separate h₀ ps K s → Separate h₀ ps K (s.run sched) := by
    induction sched with
    | nil => exact fun s h => h
    | cons t sched ih =>
      intro s hs
      refine ih _ ?_
      obtain ⟨k, hp, hk⟩ := hs.each t
      have hcur := solo_cur (foot t) k
      obtain ⟨h1, h2, h3, h4⟩ := step_foot (K := K t) (p := s.threads t) hs.ok (solo_ok ok (ps t) k) (by rw [hs.cur, hcur]) (by rw [hs.cur, hp]; exact foot t k) hk
      refine ⟨step_ok hs.ok, h2.trans hs.cur, fun t' => ?_, fun tb key hn => (h4 tb key (hn t)).trans (hs.rest tb key hn)⟩
      by_cases e : t' = t
      · subst e
        refine ⟨k + 1, ?_, fun tb key hkey => ?_⟩
        · simp only [RegState.tick, if_true, solo]; rw [h1, hp]
        · have := h3 tb key hkey
          rw [hp] at this
          simp only [RegState.tick, solo]
          rw [hp]; exact this
      · obtain ⟨k', hp', hk'⟩ := hs.each t'
        refine ⟨k', ?_, fun tb key hkey => ?_⟩
        · simp only [RegState.tick, if_neg e]; exact hp'
        · exact (h4 tb key (apart t' t e tb key hkey)).trans (hk' tb key hkey)
  exact main _ ⟨ok, rfl, fun t => ⟨0, rfl, fun _ _ _ => rfl⟩, fun _ _ _ => rfl⟩

/-- All steps are on keys of `K`, whatever the answers. -/
def FootEver (cur : Table → Nat) (K : Table → Str → Prop) : RegProg → Prop
  | .done _ => True
  | .load t k => FootEver cur K (k (cur t))
  | .look t d key k => d = cur t ∧ K t key ∧ ∀ r, FootEver cur K (k r)
  | .put t d key _ k => d = cur t ∧ K t key ∧ FootEver cur K k
  | .del t d key k => d = cur t ∧ K t key ∧ ∀ b, FootEver cur K (k b)
  | .fresh _ _ => False

theorem footEver_solo {cur : Table → Nat} {K : Table → Str → Prop} {p : RegProg} {h : RegHeap} (hf : FootEver cur K p) (hc : h.cur = cur) (k : Nat) :
    InFoot cur K (solo h p k).2 := by
  have main : ∀ k, FootEver cur K (solo h p k).2 ∧ (solo h p k).1.cur = cur := by
    intro k
    induction k with
    | zero => exact ⟨hf, hc⟩
    | succ k ih =>
      simp only [solo]
      generalize (solo h p k).2 = q at ih ⊢
      generalize (solo h p k).1 = g at ih ⊢
      obtain ⟨h1, h2⟩ := ih
      cases q with
      | done r => exact ⟨trivial, h2⟩
      | load t k => subst h2; exact ⟨h1, rfl⟩
      | look t d key k => exact ⟨h1.2.2 _, h2⟩
      | put t d key val k => exact ⟨h1.2.2, h2⟩
      | del t d key k => simp only [RegProg.step]; split <;> exact ⟨h1.2.2 _, h2⟩
      | fresh t k => exact h1.elim
  have := (main k).1
  cases h : (solo _ _ k).2 with
  | done r => trivial
  | load t k => trivial
  | look t d key k => rw [h] at this; exact ⟨this.1, this.2.1⟩
  | put t d key val k => rw [h] at this; exact ⟨this.1, this.2.1⟩
  | del t d key k => rw [h] at this; exact ⟨this.1, this.2.1⟩
  | fresh t k => rw [h] at this; exact this

theorem foot_remove {cur : Table → Nat} {K : Table → Str → Prop} {nick id : Option Str} (hn : ∀ n, nick = some n → K .nicks n)
    (hi : ∀ i, id = some i → K .ids i) : FootEver cur K (removeProg nick id) := by
  simp only [removeProg, delProg, FootEver]
  cases nick with
  | none => trivial
  | some n =>
    refine ⟨rfl, hn n rfl, fun b => ?_⟩
    cases b with
    | false => trivial
    | true =>
      simp only [if_true, FootEver]
      cases id with
      | none => trivial
      | some i => exact ⟨rfl, hi i rfl, fun b => by cases b <;> trivial⟩

theorem foot_check {cur : Table → Nat} {K : Table → Str → Prop} {t : Table} {key val : Str} {k : RegProg} (hk : K t key) (h : FootEver cur K k) :
    FootEver cur K (checkFree t (cur t) key val k) := by
  refine ⟨rfl, hk, fun r => ?_⟩
  cases r with
  | none => exact h
  | some _ =>
    refine ⟨rfl, hk, fun r => ?_⟩
    cases r with
    | none => trivial
    | some v =>
      simp only
      split
      · exact h
      · exact ⟨rfl, hk, fun r => by cases r <;> trivial⟩

/-- The nicknames and ids that a call is given; `remove` with both looks the nickname up among the ids as well (C31). -/
def RegCall.Given : RegCall → Table → Str → Prop
  | .register i _, .ids, k => k = i
  | .register _ n, .nicks, k => k = n
  | .removeNick n, .nicks, k => k = n
  | .removeNick _, .ids, _ => False
  | .removeId i, .ids, k => k = i
  | .removeId _, .nicks, _ => False
  | .removeBoth n i, .ids, k => k = i ∨ k = n
  | .removeBoth n _, .nicks, k => k = n
  | .reset, _, _ => True

/-- The nicknames and ids that a call is about: those it is given and those that belong to them. -/
def RegCall.About (r : Registry) (c : RegCall) : Table → Str → Prop
  | .ids, i => c.Given .ids i ∨ ∃ n, c.Given .nicks n ∧ r.nickToId n = some i
  | .nicks, n => c.Given .nicks n ∨ ∃ i, c.Given .ids i ∧ r.idToNick i = some n

theorem call_foot (r : Registry) (c : RegCall) (hc : c ≠ .reset) (k : Nat) : InFoot r.heap.cur (c.About r) (solo r.heap c.prog k).2 := by
  cases c with
  | register i n =>
    refine footEver_solo (cur := r.heap.cur) ?_ rfl k
    simp only [RegCall.prog, registerProg, FootEver]
    exact foot_check (.inl rfl) (foot_check (.inl rfl) ⟨rfl, .inl rfl, rfl, .inl rfl, trivial⟩)
  | removeNick n =>
    match k with
    | 0 => trivial
    | 1 => exact ⟨rfl, .inl rfl⟩
    | k + 2 =>
      have shift : ∀ k, solo r.heap (RegCall.removeNick n).prog (k + 2) = solo r.heap (removeProg (some n) (r.nickToId n)) k := by
        intro k
        induction k with
        | zero => rfl
        | succ k ih => rw [solo, ih]; rfl
      rw [shift]
      refine footEver_solo (foot_remove (fun m e => .inl (Option.some.inj e).symm) fun i e => .inr ⟨n, rfl, e⟩) rfl k
  | removeId i =>
    match k with
    | 0 => trivial
    | 1 => exact ⟨rfl, .inl rfl⟩
    | k + 2 =>
      have shift : ∀ k, solo r.heap (RegCall.removeId i).prog (k + 2) = solo r.heap (removeProg (r.idToNick i) (some i)) k := by
        intro k
        induction k with
        | zero => rfl
        | succ k ih => rw [solo, ih]; rfl
      rw [shift]
      refine footEver_solo (foot_remove (fun n e => .inr ⟨i, rfl, e⟩) fun m e => .inl (Option.some.inj e).symm) rfl k
  | removeBoth n i =>
    refine footEver_solo (cur := r.heap.cur) ?_ rfl k
    simp only [RegCall.prog, FootEver]
    refine ⟨trivial, .inl rfl, fun i' => ⟨trivial, .inl (.inr rfl), fun n' => ?_⟩⟩
    split
    · trivial
    · exact foot_remove (fun m e => .inl (Option.some.inj e).symm) fun m e => .inl (.inl (Option.some.inj e).symm)
  | reset => exact absurd rfl hc

/-- The registry has for the key in question what it has after the call alone. -/
def Registry.at (r : Registry) : Table → Str → Option Str
  | .ids, i => r.idToNick i
  | .nicks, n => r.nickToId n

theorem view_at (h : RegHeap) (t : Table) (key : Str) : h.view.at t key = h.at t key := by cases t <;> rfl

theorem now_bijection {r : Registry} (b : Bijection r) (c : RegCall) : Bijection (c.now r).1 := by
  cases c with
  | register i n => exact regStep_bijection b (.register (some .none) (some n)) (w2i := fun _ => .ok i)
  | removeNick n => exact regStep_bijection b (.remove (some n) none) (w2i := fun _ => .ok [])
  | removeId i => exact regStep_bijection b (.remove none (some .none)) (w2i := fun _ => .ok i)
  | removeBoth n i => exact regStep_bijection b (.remove (some n) (some .none)) (w2i := fun _ => .ok i)
  | reset => exact bijection_empty

theorem now_entries {r : Registry} (b : Bijection r) (c : RegCall) {n i : Str} (h : (c.now r).1.nickToId n = some i) :
    r.nickToId n = some i ∨ c = .register i n := by
  have rem : ∀ {w2i nick what}, (remove w2i r nick what).1.nickToId n = some i → r.nickToId n = some i := by
    intro w2i nick what h
    obtain ⟨e, he⟩ | ⟨m, j, -, he⟩ := remove_cases (w2i := w2i) b nick what
    · rw [he] at h; exact h
    · rw [he] at h
      simp only [Registry.nickToId, dget_ddel b.uniqueNicks] at h
      split at h
      · cases h
      · exact h
  cases c with
  | register j m =>
    simp only [RegCall.now] at h
    cases hr : Whatami.register (fun _ => .ok j) r (some .none) (some m) with
    | mk r' o =>
      rw [hr] at h
      cases o with
      | error e => rw [register_error hr] at h; exact .inl h
      | ok x =>
        obtain ⟨w, m', j', -, e1, e2, -, h1, h2, rfl⟩ := register_ok hr
        cases e1; cases e2
        simp only [Registry.nickToId, dget_dset] at h
        split at h
        · next e => cases h; subst e; exact .inr rfl
        · exact .inl h
  | removeNick m => exact .inl (rem h)
  | removeId j => exact .inl (rem h)
  | removeBoth m j => exact .inl (rem h)
  | reset => cases h

theorem about_partner {r : Registry} (b : Bijection r) {c : RegCall} {n i : Str} (h : r.nickToId n = some i) : c.About r .nicks n ↔ c.About r .ids i := by
  constructor
  · rintro (h' | ⟨j, h1, h2⟩)
    · exact .inr ⟨n, h', h⟩
    · have := (b.inverse n j).2 h2
      rw [h] at this; cases this
      exact .inl h1
  · rintro (h' | ⟨m, h1, h2⟩)
    · exact .inr ⟨i, h', (b.inverse n i).1 h⟩
    · have := (b.inverse m i).1 h2
      rw [(b.inverse n i).1 h] at this; cases this
      exact .inl h1

/-- C95. Threads that are about different nicknames and ids do not disturb each other, in whatever order their steps are done: every call that
has come to its end has returned or raised what it would have by itself, and has left for what it is about what it would have left by itself, also if other
calls are interrupted; nothing else has changed; and when all have come to their end, nicknames and ids are inverse of each other. -/
theorem c95_apart {r : Registry} (b : Bijection r) {calls : List RegCall} (noReset : .reset ∉ calls)
    (apart : ∀ (t t' : Nat) c c', t ≠ t' → calls[t]? = some c → calls[t']? = some c' → ∀ tb key, c.About r tb key → ¬ c'.About r tb key)
    (sched : List Nat) :
    let s := (startCalls r.heap calls).run sched
    (∀ (t : Nat) c o, calls[t]? = some c → s.threads t = .done o → o = (c.now r).2 ∧ ∀ tb key, c.About r tb key → s.heap.view.at tb key = (c.now r).1.at tb key) ∧
    (∀ tb key, (∀ c ∈ calls, ¬ c.About r tb key) → s.heap.view.at tb key = r.at tb key) ∧
    ((∀ t, ∃ o, s.threads t = .done o) → ∀ n i, s.heap.view.nickToId n = some i ↔ s.heap.view.idToNick i = some n) := by
  intro s
  let K : Nat → Table → Str → Prop := fun t tb key => ∃ c, calls[t]? = some c ∧ c.About r tb key
  have hview : r.heap.view = r := rfl
  have ok : r.heap.Ok := by
    intro t d
    simp only [Registry.heap]
    split
    · cases t
      · exact b.uniqueIds
      · exact b.uniqueNicks
    · exact List.nodup_nil
  have sep : Separate r.heap (startCalls r.heap calls).threads K s := by
    refine separate_run ok (fun t k => ?_) (fun t t' hne tb key h h' => ?_) sched
    · simp only [startCalls]
      cases hc : calls[t]? with
      | none => exact footEver_solo (cur := r.heap.cur) (p := .done (.ok ())) trivial rfl k
      | some c =>
        have := call_foot r c (fun e => noReset (e ▸ List.mem_of_getElem? hc)) k
        revert this
        simp only
        cases (solo r.heap c.prog k).2 with
        | done _ => exact fun _ => trivial
        | load _ _ => exact fun _ => trivial
        | look _ _ _ _ => exact fun h => ⟨h.1, c, hc, h.2⟩
        | put _ _ _ _ _ => exact fun h => ⟨h.1, c, hc, h.2⟩
        | del _ _ _ _ => exact fun h => ⟨h.1, c, hc, h.2⟩
        | fresh _ _ => exact fun h => h
    · obtain ⟨c, h1, h2⟩ := h
      obtain ⟨c', h1', h2'⟩ := h'
      exact apart t t' c c' hne h1 h1' tb key h2 h2'
  have A : ∀ (t : Nat) c o, calls[t]? = some c → s.threads t = .done o →
      o = (c.now r).2 ∧ ∀ tb key, c.About r tb key → s.heap.view.at tb key = (c.now r).1.at tb key := by
    intro t c o hc ho
    obtain ⟨k, h1, h2⟩ := sep.each t
    have hp : (startCalls r.heap calls).threads t = c.prog := by simp only [startCalls, hc]
    rw [hp] at h1 h2
    have hd := solo_done (h1.symm.trans ho)
    have ha := c95_alone c r.heap
    rw [hd, hview] at ha
    have e1 : (solo r.heap c.prog k).1.view = (c.now r).1 := congrArg Prod.fst ha
    refine ⟨congrArg Prod.snd ha, fun tb key hk => ?_⟩
    rw [view_at, h2 tb key ⟨c, hc, hk⟩, ← e1, view_at]
  have B : ∀ tb key, (∀ c ∈ calls, ¬ c.About r tb key) → s.heap.view.at tb key = r.at tb key := by
    intro tb key h
    rw [view_at, sep.rest tb key fun t ⟨c, hc, hk⟩ => h c (List.mem_of_getElem? hc) hk, ← view_at, hview]
  refine ⟨A, B, fun hall n i => ?_⟩
  -- for a key that some call is about, look at what that call left; otherwise at what there was
  have find : ∀ tb key, (∃ (t : Nat) (c : RegCall), calls[t]? = some c ∧ c.About r tb key) ∨ ∀ c ∈ calls, ¬ c.About r tb key := by
    intro tb key
    by_cases h : ∃ (t : Nat) (c : RegCall), calls[t]? = some c ∧ c.About r tb key
    · exact .inl h
    · refine .inr fun c hc hk => h ?_
      obtain ⟨t, ht⟩ := List.getElem?_of_mem hc
      exact ⟨t, c, ht, hk⟩
  have done : ∀ (t : Nat) (c : RegCall), calls[t]? = some c → ∀ tb key, c.About r tb key → s.heap.view.at tb key = (c.now r).1.at tb key := by
    intro t c hc
    obtain ⟨o, ho⟩ := hall t
    exact (A t c o hc ho).2
  have both : ∀ {c : RegCall} {n i : Str}, (c.now r).1.nickToId n = some i → (c.About r .nicks n ↔ c.About r .ids i) := by
    intro c n i h
    rcases now_entries b c h with h | rfl
    · exact about_partner b h
    · exact ⟨fun _ => .inl rfl, fun _ => .inl rfl⟩
  constructor
  · intro h
    rcases find .nicks n with ⟨t, c, hc, hk⟩ | hn
    · have e := done t c hc .nicks n hk
      have h' : (c.now r).1.nickToId n = some i := by rw [← h]; exact e.symm
      have e2 := done t c hc .ids i ((both h').1 hk)
      exact e2.trans (((now_bijection b c).inverse n i).1 h')
    · have e := B .nicks n hn
      have h' : r.nickToId n = some i := by rw [← h]; exact e.symm
      have e2 := B .ids i fun c hc hk => hn c hc ((about_partner b h').2 hk)
      exact e2.trans ((b.inverse n i).1 h')
  · intro h
    rcases find .ids i with ⟨t, c, hc, hk⟩ | hn
    · have e := done t c hc .ids i hk
      have h' : (c.now r).1.idToNick i = some n := by rw [← h]; exact e.symm
      have h'' := ((now_bijection b c).inverse n i).2 h'
      have e2 := done t c hc .nicks n ((both h'').2 hk)
      exact e2.trans h''
    · have e := B .ids i hn
      have h' : r.idToNick i = some n := by rw [← h]; exact e.symm
      have h'' := (b.inverse n i).2 h'
      have e2 := B .nicks n fun c hc hk => hn c hc ((about_partner b h'').1 hk)
      exact e2.trans h''

/-! ### Calls that are interrupted -/

theorem solo_shift (p : RegProg) (h : RegHeap) (k : Nat) : solo h p (k + 1) = solo (p.step h).1 (p.step h).2 k := by
  induction k with
  | zero => rfl
  | succ k ih => rw [solo, ih]; rfl

theorem passes {P : Registry → Prop} {p : RegProg} {h : RegHeap} (h0 : P h.view) (h1 : ∀ k, P (solo (p.step h).1 (p.step h).2 k).1.view) (k : Nat) :
    P (solo h p k).1.view := by
  cases k with
  | zero => exact h0
  | succ k => rw [solo_shift]; exact h1 k

theorem passes_done {P : Registry → Prop} {o : R Unit} {h : RegHeap} (h0 : P h.view) (k : Nat) : P (solo h (.done o) k).1.view := by
  have : solo h (.done o) k = (h, .done o) := by
    induction k with
    | zero => rfl
    | succ k ih => rw [solo, ih]; rfl
  rw [this]; exact h0

theorem passes_check {P : Registry → Prop} {t : Table} {d : Nat} {key val : Str} {k : RegProg} {h : RegHeap} (h0 : P h.view)
    (hk : ¬ (dhas (h.dicts t d) key && !(dget (h.dicts t d) key == some val)) = true → ∀ m, P (solo h k m).1.view) (m : Nat) :
    P (solo h (checkFree t d key val k) m).1.view := by
  refine passes h0 ?_ m
  simp only [checkFree, RegProg.step]
  obtain hg | ⟨v, hg⟩ : dget (h.dicts t d) key = none ∨ ∃ v, dget (h.dicts t d) key = some v := by
    cases dget (h.dicts t d) key with
    | none => exact .inl rfl
    | some v => exact .inr ⟨v, rfl⟩
  · simp only [hg]
    exact hk (by simp [dhas, hg])
  · simp only [hg]
    refine passes h0 ?_
    simp only [RegProg.step, hg]
    by_cases hv : v = val
    · simp only [hv, if_true]
      exact hk (by simp [hg, hv])
    · simp only [hv, if_false]
      refine passes h0 ?_
      simp only [RegProg.step, hg]
      exact passes_done h0

/-- What is left of a call that is interrupted: `r` is what there was, `r'` what the whole call makes of it.  `register` and `reset` change the ids first,
`remove` the nicknames. -/
def RegCall.Half (c : RegCall) (r r' : Registry) : Registry :=
  match c with
  | .register _ _ | .reset => ⟨r'.id2nick, r.nick2id⟩
  | .removeNick _ | .removeId _ | .removeBoth _ _ => ⟨r.id2nick, r'.nick2id⟩

theorem passes_remove {nick id : Option Str} {h : RegHeap} (k : Nat) :
    let v := (solo h (removeProg nick id) k).1.view
    v = h.view ∨ v = ⟨h.view.id2nick, (removeBoth h.view nick id).1.nick2id⟩ ∨ v = (removeBoth h.view nick id).1 := by
  let P : Registry → Prop := fun v => v = h.view ∨ v = ⟨h.view.id2nick, (removeBoth h.view nick id).1.nick2id⟩ ∨ v = (removeBoth h.view nick id).1
  have p0 : P h.view := .inl rfl
  refine passes (P := P) p0 ?_ k
  simp only [removeProg, delProg, RegProg.step]
  cases nick with
  | none => exact passes_done p0
  | some n =>
    refine passes p0 ?_
    simp only [RegProg.step]
    by_cases hn : dhas (h.dicts .nicks (h.cur .nicks)) n = true
    · simp only [if_pos hn, if_true]
      have hn' : dhas h.view.nick2id n = true := hn
      have v1 : (h.set .nicks (h.cur .nicks) (ddel (h.dicts .nicks (h.cur .nicks)) n)).view = ⟨h.view.id2nick, ddel h.view.nick2id n⟩ := view_set_nicks _ _
      have e1 : (removeBoth h.view (some n) id).1.nick2id = ddel h.view.nick2id n := by
        cases id with
        | none => simp only [removeBoth, delKey, if_pos hn']
        | some i => simp only [removeBoth, delKey, if_pos hn']; split <;> simp_all
      have p1 : P (h.set .nicks (h.cur .nicks) (ddel (h.dicts .nicks (h.cur .nicks)) n)).view := .inr (.inl (by rw [v1, e1]))
      refine passes p1 ?_
      simp only [RegProg.step]
      cases id with
      | none => exact passes_done p1
      | some i =>
        refine passes p1 ?_
        simp only [RegProg.step]
        have hd : (h.set .nicks (h.cur .nicks) (ddel (h.dicts .nicks (h.cur .nicks)) n)).dicts .ids
          ((h.set .nicks (h.cur .nicks) (ddel (h.dicts .nicks (h.cur .nicks)) n)).cur .ids) = h.view.id2nick := by simp [RegHeap.set, RegHeap.view]
        rw [hd]
        by_cases hi : dhas h.view.id2nick i = true
        · simp only [if_pos hi, if_true]
          refine passes_done (.inr (.inr ?_))
          rw [view_set_ids, v1]
          simp only [removeBoth, delKey, if_pos hn', if_pos hi]
        · simp only [if_neg hi, Bool.false_eq_true, if_false]
          exact passes_done p1
    · simp only [if_neg hn, Bool.false_eq_true, if_false]
      exact passes_done p0

/-- C95. A call that is interrupted has changed nothing, or everything it would have changed, or one of the two dictionaries only. -/
theorem c95_interrupted (c : RegCall) (h : RegHeap) (k : Nat) :
    let v := (solo h c.prog k).1.view
    v = h.view ∨ v = c.Half h.view (c.now h.view).1 ∨ v = (c.now h.view).1 := by
  let P : Registry → Prop := fun v => v = h.view ∨ v = c.Half h.view (c.now h.view).1 ∨ v = (c.now h.view).1
  have p0 : P h.view := .inl rfl
  show P (solo h c.prog k).1.view
  cases c with
  | register i n =>
    refine passes p0 ?_ k
    simp only [RegCall.prog, registerProg, RegProg.step]
    refine passes p0 ?_
    simp only [RegProg.step]
    refine passes_check p0 fun h1 => passes_check p0 fun h2 => ?_
    have h1' : ¬ (dhas h.view.nick2id n && !(dget h.view.nick2id n == some i)) = true := h1
    have h2' : ¬ (dhas h.view.id2nick i && !(dget h.view.id2nick i == some n)) = true := h2
    have e : ((RegCall.register i n).now h.view).1 = ⟨dset h.view.id2nick i n, dset h.view.nick2id n i⟩ := by
      simp only [RegCall.now, Whatami.register, if_neg h1', if_neg h2']
    refine passes p0 ?_
    simp only [RegProg.step]
    have v1 := view_set_ids h (dset (h.dicts .ids (h.cur .ids)) i n)
    have p1 : P (h.set .ids (h.cur .ids) (dset (h.dicts .ids (h.cur .ids)) i n)).view := .inr (.inl (by rw [v1, e]; rfl))
    refine passes p1 ?_
    simp only [RegProg.step]
    refine passes_done (.inr (.inr ?_))
    rw [e]
    simp [RegHeap.view, RegHeap.set]
  | removeNick n =>
    refine passes p0 ?_ k
    simp only [RegCall.prog, RegProg.step]
    refine passes p0 ?_
    simp only [RegProg.step]
    exact passes_remove
  | removeId i =>
    refine passes p0 ?_ k
    simp only [RegCall.prog, RegProg.step]
    refine passes p0 ?_
    simp only [RegProg.step]
    exact passes_remove
  | removeBoth n i =>
    refine passes p0 ?_ k
    simp only [RegCall.prog, RegProg.step]
    refine passes p0 ?_
    simp only [RegProg.step]
    refine passes p0 ?_
    simp only [RegProg.step]
    refine passes p0 ?_
    simp only [RegProg.step]
    by_cases hc : dget (h.dicts .nicks (h.cur .nicks)) n ≠ some i ∨ dget (h.dicts .ids (h.cur .ids)) n ≠ some n
    · simp only [if_pos hc]
      exact passes_done p0
    · have hc' : ¬ (dget h.view.nick2id n ≠ some i ∨ dget h.view.id2nick n ≠ some n) := hc
      have e : (RegCall.removeBoth n i).now h.view = removeBoth h.view (some n) (some i) := by
        simp only [RegCall.now, remove, Except.map, if_neg hc']
      simp only [if_neg hc]
      intro k
      simp only [P, e]
      exact passes_remove k
  | reset =>
    refine passes p0 ?_ k
    simp only [RegCall.prog, RegProg.step]
    have p1 : P (h.renew .ids).view := .inr (.inl (by simp [RegHeap.view, RegHeap.renew, RegHeap.set, RegCall.Half, RegCall.now]))
    refine passes p1 ?_
    simp only [RegProg.step]
    refine passes_done (.inr (.inr ?_))
    simp [RegHeap.view, RegHeap.renew, RegHeap.set, RegCall.now]

/-- A nickname that is left at an id only. -/
def LeftAt (r : Registry) (i n : Str) : Prop := r.idToNick i = some n ∧ r.nickToId n = none

/-- C95. There is a moment where an interruption leaves the nickname at the id only: when a new pair is registered, and when a pair is removed. -/
theorem c95_half_done {r : Registry} (b : Bijection r) (i n : Str) :
    (r.idToNick i = none → r.nickToId n = none → ∃ k, LeftAt (solo r.heap (RegCall.register i n).prog k).1.view i n) ∧
    (r.nickToId n = some i → (∃ k, LeftAt (solo r.heap (RegCall.removeNick n).prog k).1.view i n) ∧
      ∃ k, LeftAt (solo r.heap (RegCall.removeId i).prog k).1.view i n) := by
  constructor
  · intro h1 h2
    have h1' : dget r.id2nick i = none := h1
    have h2' : dget r.nick2id n = none := h2
    refine ⟨5, ?_⟩
    have e : (solo r.heap (RegCall.register i n).prog 5).1.view = ⟨dset r.id2nick i n, r.nick2id⟩ := by
      simp [solo, RegCall.prog, registerProg, RegProg.step, Registry.heap, checkFree, h1', h2', RegHeap.view, RegHeap.set]
    rw [e]
    exact ⟨by simp [Registry.idToNick, dget_dset], h2⟩
  · intro h1
    have h2 := (b.inverse n i).1 h1
    have h1' : dget r.nick2id n = some i := h1
    have h2' : dget r.id2nick i = some n := h2
    have hd : LeftAt ⟨r.id2nick, ddel r.nick2id n⟩ i n := ⟨h2, by simp [Registry.nickToId, dget_ddel b.uniqueNicks]⟩
    constructor
    · refine ⟨4, ?_⟩
      have e : (solo r.heap (RegCall.removeNick n).prog 4).1.view = ⟨r.id2nick, ddel r.nick2id n⟩ := by
        simp [solo, RegCall.prog, removeProg, delProg, RegProg.step, Registry.heap, h1', RegHeap.view, RegHeap.set, dhas]
      rw [e]; exact hd
    · refine ⟨4, ?_⟩
      have e : (solo r.heap (RegCall.removeId i).prog 4).1.view = ⟨r.id2nick, ddel r.nick2id n⟩ := by
        simp [solo, RegCall.prog, removeProg, delProg, RegProg.step, Registry.heap, h1', h2', RegHeap.view, RegHeap.set, dhas]
      rw [e]; exact hd

theorem dhas_none {d : List (Str × Str)} {k : Str} (h : dget d k = none) : dhas d k = false := by simp [dhas, h]

/-- C95. A nickname that is left at an id: `remove` raises for it, by nickname, by what and by both, and changes nothing; registering the pair again puts
it right; and the nickname may be registered for another id, after which two ids have it. -/
theorem c95_half {r : Registry} {i n : Str} (l : LeftAt r i n) {w2i : Val → R Str} {w : Val} (hw : w2i w = .ok i) :
    remove w2i r (some n) none = (r, .error .keyError) ∧ remove w2i r none (some w) = (r, .error .keyError) ∧
    remove w2i r (some n) (some w) = (r, .error .valueError) ∧
    (∃ r', Whatami.register w2i r (some w) (some n) = (r', .ok (some w)) ∧ r'.idToNick i = some n ∧ r'.nickToId n = some i) ∧
    ∀ i' w', w2i w' = .ok i' → i' ≠ i → r.idToNick i' = none →
      ∃ r', Whatami.register w2i r (some w') (some n) = (r', .ok (some w')) ∧ r'.idToNick i = some n ∧ r'.idToNick i' = some n ∧ r'.nickToId n = some i' := by
  obtain ⟨h1, h2⟩ := l
  have h1' : dget r.id2nick i = some n := h1
  have h2' : dget r.nick2id n = none := h2
  refine ⟨?_, ?_, ?_, ?_, ?_⟩
  · simp [remove, removeBoth, delKey, dhas_none h2']
  · simp [remove, Except.map, hw, removeBoth, delKey, h1', dhas_none h2']
  · simp [remove, Except.map, hw, h2']
  · refine ⟨⟨dset r.id2nick i n, dset r.nick2id n i⟩, ?_, ?_, ?_⟩
    · simp [Whatami.register, hw, dhas_none h2', h1']
    · simp [Registry.idToNick, dget_dset]
    · simp [Registry.nickToId, dget_dset]
  · intro i' w' hw' hne hi
    have hi' : dget r.id2nick i' = none := hi
    refine ⟨⟨dset r.id2nick i' n, dset r.nick2id n i'⟩, ?_, ?_, ?_, ?_⟩
    · simp [Whatami.register, hw', dhas_none h2', dhas_none hi']
    · simp [Registry.idToNick, dget_dset, hne, h1']
    · simp [Registry.idToNick, dget_dset]
    · simp [Registry.nickToId, dget_dset]

/-! ### What puts a half-done call right -/

/-- Each nickname has an id that has the nickname, as in any registry that calls have made from an empty one, whole or interrupted, unless a `reset` was
interrupted (`c95_sided`). -/
structure OneSided (r : Registry) : Prop where
  uniqueIds : (dkeys r.id2nick).Nodup
  uniqueNicks : (dkeys r.nick2id).Nodup
  back : ∀ n i, r.nickToId n = some i → r.idToNick i = some n

/-- An id has a nickname that is not its nickname the other way. -/
def Stale (r : Registry) (i n : Str) : Prop := r.idToNick i = some n ∧ r.nickToId n ≠ some i

theorem stale_not {r : Registry} {i n : Str} (s : Stale r i n) : ¬ Bijection r := fun b => s.2 ((b.inverse n i).2 s.1)

/-- What `remove` may do. -/
theorem remove_sided {w2i : Val → R Str} {r : Registry} (o : OneSided r) (nick : Option Str) (what : Option Val) :
    (∃ e, remove w2i r nick what = (r, .error e)) ∨
    ∃ n i j, r.nickToId n = some j ∧ r.idToNick i = some n ∧ remove w2i r nick what = (⟨ddel r.id2nick i, ddel r.nick2id n⟩, .ok ()) := by
  have both : ∀ {n i j}, r.nickToId n = some j → r.idToNick i = some n → removeBoth r (some n) (some i) = (⟨ddel r.id2nick i, ddel r.nick2id n⟩, .ok ()) := by
    intro n i j h1 h2
    simp [removeBoth, delKey, dget_some_dhas (show dget r.nick2id n = some j from h1), dget_some_dhas (show dget r.id2nick i = some n from h2)]
  have opt : ∀ x : Option Str, x = none ∨ ∃ v, x = some v := by
    intro x; cases x with
    | none => exact .inl rfl
    | some v => exact .inr ⟨v, rfl⟩
  cases what with
  | none =>
    cases nick with
    | none => exact .inl ⟨.valueError, rfl⟩
    | some n =>
      rcases opt (r.nickToId n) with h | ⟨i, h⟩
      · have h' : dget r.nick2id n = none := h
        exact .inl ⟨.keyError, by simp [remove, removeBoth, delKey, dhas_none h']⟩
      · have h' : dget r.nick2id n = some i := h
        refine .inr ⟨n, i, i, h, o.back n i h, ?_⟩
        simp only [remove]
        rw [h']
        exact both h (o.back n i h)
  | some w =>
    cases hw : w2i w with
    | error e => exact .inl ⟨e, by cases nick <;> simp [remove, hw, Except.map]⟩
    | ok i =>
      cases nick with
      | none =>
        rcases opt (r.idToNick i) with h | ⟨n, h⟩
        · have h' : dget r.id2nick i = none := h
          exact .inl ⟨.keyError, by simp [remove, hw, Except.map, h', removeBoth, delKey]⟩
        · have h' : dget r.id2nick i = some n := h
          rcases opt (r.nickToId n) with g | ⟨j, g⟩
          · have g' : dget r.nick2id n = none := g
            exact .inl ⟨.keyError, by simp [remove, hw, Except.map, h', removeBoth, delKey, dhas_none g']⟩
          · refine .inr ⟨n, i, j, g, h, ?_⟩
            simp only [remove, hw, Except.map]
            rw [h']
            exact both g h
      | some n =>
        by_cases hc : dget r.nick2id n ≠ some i ∨ dget r.id2nick n ≠ some n
        · exact .inl ⟨.valueError, by simp only [remove, hw, Except.map, if_pos hc]⟩
        · have hn : r.nickToId n = some i := by
            simp only [not_or, Classical.not_not] at hc
            exact hc.1
          refine .inr ⟨n, i, i, hn, o.back n i hn, ?_⟩
          simp only [remove, hw, Except.map, if_neg hc]
          exact both hn (o.back n i hn)

theorem oneSided_del {r : Registry} (o : OneSided r) {n i : Str} (h : r.idToNick i = some n) : OneSided ⟨ddel r.id2nick i, ddel r.nick2id n⟩ := by
  refine ⟨nodup_ddel o.uniqueIds _, nodup_ddel o.uniqueNicks _, fun m j hm => ?_⟩
  simp only [Registry.nickToId, Registry.idToNick, dget_ddel o.uniqueIds, dget_ddel o.uniqueNicks] at hm ⊢
  by_cases e : m = n
  · simp [e] at hm
  · simp only [if_neg e] at hm
    have hb := o.back m j hm
    have : j ≠ i := by
      rintro rfl
      rw [h] at hb; cases hb; exact e rfl
    rw [if_neg this]; exact hb

theorem oneSided_set {r : Registry} (o : OneSided r) {n i : Str} (h : ∀ m, r.idToNick i = some m → m = n) : OneSided ⟨dset r.id2nick i n, dset r.nick2id n i⟩ := by
  refine ⟨nodup_dset o.uniqueIds _ _, nodup_dset o.uniqueNicks _ _, fun m j hm => ?_⟩
  simp only [Registry.nickToId, Registry.idToNick, dget_dset] at hm ⊢
  by_cases e : n = m
  · simp only [if_pos e, Option.some.injEq] at hm
    rw [if_pos hm, e]
  · simp only [if_neg e] at hm
    have hb := o.back m j hm
    by_cases e2 : i = j
    · subst e2; exact absurd (h m hb).symm e
    · rw [if_neg e2]; exact hb

theorem oneSided_step {w2i : Val → R Str} {r : Registry} (o : OneSided r) (op : RegOp) : OneSided (regStep w2i r op) := by
  cases op with
  | register w n =>
    simp only [regStep]
    cases hr : Whatami.register w2i r w n with
    | mk r' x =>
      cases x with
      | error e => rw [register_error hr]; exact o
      | ok x =>
        obtain ⟨w', m, j, -, -, -, -, h1, h2, rfl⟩ := register_ok hr
        exact oneSided_set o (fun m' hm' => h2 m' hm')
  | remove n w =>
    simp only [regStep]
    rcases remove_sided (w2i := w2i) o n w with ⟨e, he⟩ | ⟨m, i, j, h1, h2, he⟩
    · rw [he]; exact o
    · rw [he]; exact oneSided_del o h2
  | reset => exact ⟨List.nodup_nil, List.nodup_nil, fun n i h => by cases h⟩

/-- C95. Calls that are interrupted, other than `reset`, leave no nickname without an id. -/
theorem c95_sided {r : Registry} (o : OneSided r) (c : RegCall) (h : c ≠ .reset) (k : Nat) : OneSided (solo r.heap c.prog k).1.view := by
  have rem : ∀ {w2i nick what}, OneSided (remove w2i r nick what).1 ∧ OneSided ⟨r.id2nick, (remove w2i r nick what).1.nick2id⟩ := by
    intro w2i nick what
    rcases remove_sided (w2i := w2i) o nick what with ⟨e, he⟩ | ⟨m, i, j, h1, h2, he⟩
    · rw [he]; exact ⟨o, o⟩
    · rw [he]
      refine ⟨oneSided_del o h2, o.uniqueIds, nodup_ddel o.uniqueNicks _, fun m' j' hm => ?_⟩
      simp only [Registry.nickToId, dget_ddel o.uniqueNicks] at hm
      split at hm
      · cases hm
      · exact o.back m' j' hm
  have whole : OneSided (c.now r).1 ∧ OneSided (c.Half r (c.now r).1) := by
    cases c with
    | register i n =>
      simp only [RegCall.now, RegCall.Half]
      cases hr : Whatami.register (fun _ => .ok i) r (some .none) (some n) with
      | mk r' x =>
        cases x with
        | error e => rw [register_error hr]; exact ⟨o, o⟩
        | ok x =>
          obtain ⟨w, n', i', -, e1, e2, -, h1, h2, rfl⟩ := register_ok hr
          cases e1; cases e2
          refine ⟨oneSided_set o fun m hm => h2 m hm, nodup_dset o.uniqueIds _ _, o.uniqueNicks, fun m j hm => ?_⟩
          have hb := o.back m j hm
          simp only [Registry.idToNick, dget_dset]
          split
          · next e => subst e; rw [h2 m hb]
          · exact hb
    | removeNick n => exact rem
    | removeId i => exact rem
    | removeBoth n i => exact rem
    | reset => exact absurd rfl h
  have := c95_interrupted c r.heap k
  rcases this with e | e | e
  · rw [e]; exact o
  · rw [e]; exact whole.2
  · rw [e]; exact whole.1

/-- C95. A `reset` that is interrupted may leave nicknames whose ids have none; removing such a nickname raises KeyError although it removes it, and the
nickname cannot be registered for another id meanwhile. -/
theorem c95_half_reset {r : Registry} {i n : Str} (h : r.nickToId n = some i) :
    (∃ k, (solo r.heap RegCall.reset.prog k).1.view = ⟨[], r.nick2id⟩) ∧
    ∀ w2i : Val → R Str, remove w2i ⟨[], r.nick2id⟩ (some n) none = (⟨[], ddel r.nick2id n⟩, .error .keyError) ∧
      ∀ w i', w2i w = .ok i' → i' ≠ i → Whatami.register w2i ⟨[], r.nick2id⟩ (some w) (some n) = (⟨[], r.nick2id⟩, .error .exception) := by
  have h' : dget r.nick2id n = some i := h
  refine ⟨⟨1, ?_⟩, fun w2i => ⟨?_, fun w i' hw hne => ?_⟩⟩
  · simp [solo, RegCall.prog, RegProg.step, RegHeap.renew, RegHeap.view, RegHeap.set, Registry.heap]
  · simp [remove, h', removeBoth, delKey, dhas, dget]
  · simp [Whatami.register, hw, h', dhas, Ne.symm hne]

/-- C95. Of the calls that run whole, only `reset`, and registering again a pair that was left half done, may put a registry right: after any other call some
id still has a nickname that is not its own. -/
theorem c95_stale {w2i : Val → R Str} {r : Registry} (o : OneSided r) {i n : Str} (s : Stale r i n) (op : RegOp)
    (h : op ≠ .reset) (hr : ∀ w m j, op = .register (some w) (some m) → w2i w = .ok j → ¬ Stale r j m) :
    OneSided (regStep w2i r op) ∧ ∃ i' n', Stale (regStep w2i r op) i' n' := by
  refine ⟨oneSided_step o op, ?_⟩
  cases op with
  | register w m =>
    simp only [regStep]
    cases hreg : Whatami.register w2i r w m with
    | mk r' x =>
      cases x with
      | error e => rw [register_error hreg]; exact ⟨i, n, s⟩
      | ok x =>
        obtain ⟨w', m', j, e0, e1, e2, e3, h1, h2, rfl⟩ := register_ok hreg
        refine ⟨i, n, ?_⟩
        have hs := hr w' m' j (by simp_all) (by simp_all)
        have hne : ¬ (j = i ∧ m' = n) := fun e => hs (e.1 ▸ e.2 ▸ s)
        simp only [Stale, Registry.idToNick, Registry.nickToId, dget_dset]
        by_cases ej : j = i
        · subst ej
          exact absurd ⟨rfl, (h2 n s.1).symm⟩ hne
        · rw [if_neg ej]
          refine ⟨s.1, ?_⟩
          by_cases em : m' = n
          · rw [if_pos em]; exact fun e => ej (Option.some.inj e)
          · rw [if_neg em]; exact s.2
  | remove m w =>
    simp only [regStep]
    rcases remove_sided (w2i := w2i) o m w with ⟨e, he⟩ | ⟨m', k, j, h1, h2, he⟩
    · rw [he]; exact ⟨i, n, s⟩
    · rw [he]
      by_cases ek : j = k
      · subst ek
        refine ⟨i, n, ?_⟩
        have : i ≠ j := by
          rintro rfl
          have := s.1; rw [h2] at this; cases this
          exact s.2 h1
        simp only [Stale, Registry.idToNick, Registry.nickToId, dget_ddel o.uniqueIds, dget_ddel o.uniqueNicks, if_neg this]
        refine ⟨s.1, ?_⟩
        split
        · simp
        · exact s.2
      · refine ⟨j, m', ?_⟩
        simp only [Stale, Registry.idToNick, Registry.nickToId, dget_ddel o.uniqueIds, dget_ddel o.uniqueNicks, if_neg ek, if_true]
        exact ⟨o.back m' j h1, by simp⟩
  | reset => exact absurd rfl h

/-- C95. No removals put it right. -/
theorem c95_no_removal {r : Registry} (o : OneSided r) {i n : Str} (l : LeftAt r i n) (ops : List ((Val → R Str) × RegOp))
    (h : ∀ op ∈ ops, ∃ m w, op.2 = .remove m w) : ¬ Bijection (regRun r ops) := by
  have main : ∀ (ops : List ((Val → R Str) × RegOp)) (r : Registry), (∀ op ∈ ops, ∃ m w, op.2 = .remove m w) → OneSided r → (∃ i n, Stale r i n) →
      ∃ i n, Stale (regRun r ops) i n := by
    intro ops
    induction ops with
    | nil => exact fun r _ _ h => h
    | cons op ops ih =>
      rintro r h o ⟨i, n, s⟩
      obtain ⟨m, w, e⟩ := h op List.mem_cons_self
      have := c95_stale (w2i := op.1) o s op.2 (by rw [e]; simp) (by rw [e]; simp)
      exact ih _ (fun op' h' => h op' (List.mem_cons_of_mem _ h')) this.1 this.2
  obtain ⟨i', n', s⟩ := main ops r h o ⟨i, n, l.1, by rw [l.2]; simp⟩
  exact stale_not s

/-! ### Threads that are about the same -/

/-- C95. Two threads that register one new nickname for two new ids may both return normally, and then both ids have it. -/
theorem c95_race {r : Registry} {i i' n : Str} (hne : i ≠ i') (h1 : r.idToNick i = none) (h2 : r.idToNick i' = none) (h3 : r.nickToId n = none) :
    ∃ sched, let s := (startCalls r.heap [.register i n, .register i' n]).run sched
      s.threads 0 = .done (.ok ()) ∧ s.threads 1 = .done (.ok ()) ∧
      s.heap.view.idToNick i = some n ∧ s.heap.view.idToNick i' = some n ∧ s.heap.view.nickToId n = some i' := by
  have h1' : dget r.id2nick i = none := h1
  have h2' : dget r.id2nick i' = none := h2
  have h3' : dget r.nick2id n = none := h3
  refine ⟨[0, 0, 0, 0, 1, 1, 1, 1, 0, 0, 1, 1], ?_⟩
  simp [RegState.run, RegState.tick, startCalls, RegCall.prog, registerProg, RegProg.step, Registry.heap, checkFree, h1', h2', h3', RegHeap.view,
    RegHeap.set, Registry.idToNick, Registry.nickToId, dget_dset, Ne.symm hne]

/-- C95. Two threads, one that registers a new pair and one that resets, may both return normally, and then the nickname is left at the id, or both are
gone although the registration was the last to return. -/
theorem c95_race_reset {r : Registry} {i n : Str} (h1 : r.idToNick i = none) (h2 : r.nickToId n = none) :
    (∃ sched, let s := (startCalls r.heap [.register i n, .reset]).run sched
      s.threads 0 = .done (.ok ()) ∧ s.threads 1 = .done (.ok ()) ∧ LeftAt s.heap.view i n) ∧
    ∃ before, let s := (startCalls r.heap [.register i n, .reset]).run before
      s.threads 1 = .done (.ok ()) ∧ (∀ o, s.threads 0 ≠ .done o) ∧
      ∃ after, let s' := s.run after; s'.threads 0 = .done (.ok ()) ∧ s'.heap.view = ⟨[], []⟩ := by
  have h1' : dget r.id2nick i = none := h1
  have h2' : dget r.nick2id n = none := h2
  refine ⟨⟨[1, 0, 0, 0, 0, 0, 0, 1], ?_⟩, [0, 0, 0, 0, 1, 1], ?_, ?_, [0, 0], ?_⟩
  · have hnil : dget ([] : List (Str × Str)) i = none := rfl
    simp [RegState.run, RegState.tick, startCalls, RegCall.prog, registerProg, RegProg.step, Registry.heap, checkFree, h1', h2', RegHeap.view,
      RegHeap.set, RegHeap.renew, LeftAt, Registry.idToNick, Registry.nickToId, dget_dset, hnil, dget]
  · simp [RegState.run, RegState.tick, startCalls, RegCall.prog, registerProg, RegProg.step, Registry.heap, checkFree, h1', h2', RegHeap.view,
      RegHeap.set, RegHeap.renew]
  · simp [RegState.run, RegState.tick, startCalls, RegCall.prog, registerProg, RegProg.step, Registry.heap, checkFree, h1', h2', RegHeap.view,
      RegHeap.set, RegHeap.renew]
  · simp [RegState.run, RegState.tick, startCalls, RegCall.prog, registerProg, RegProg.step, Registry.heap, checkFree, h1', h2', RegHeap.view,
      RegHeap.set, RegHeap.renew]

/-- What a call may still write is a pair of `P`. -/
def WritesOf (P : Str → Str → Prop) : RegProg → Prop
  | .done _ => True
  | .load _ k => ∀ d, WritesOf P (k d)
  | .look _ _ _ k => ∀ r, WritesOf P (k r)
  | .put .ids _ i n k => P i n ∧ WritesOf P k
  | .put .nicks _ n i k => P i n ∧ WritesOf P k
  | .del _ _ _ k => ∀ b, WritesOf P (k b)
  | .fresh _ k => WritesOf P k

/-- What the dictionaries have are pairs of `P`. -/
def HoldsOf (P : Str → Str → Prop) (h : RegHeap) : Prop :=
  (∀ d i n, dget (h.dicts .ids d) i = some n → P i n) ∧ ∀ d n i, dget (h.dicts .nicks d) n = some i → P i n

theorem step_writes {P : Str → Str → Prop} {p : RegProg} {h : RegHeap} (ok : h.Ok) (hp : WritesOf P p) (hh : HoldsOf P h) :
    WritesOf P (p.step h).2 ∧ HoldsOf P (p.step h).1 := by
  cases p with
  | done r => exact ⟨hp, hh⟩
  | load t k => exact ⟨hp _, hh⟩
  | look t d key k => exact ⟨hp _, hh⟩
  | put t d key val k =>
    cases t with
    | ids =>
      refine ⟨hp.2, fun d' i n h' => ?_, fun d' n i h' => hh.2 d' n i (by simpa [RegProg.step, RegHeap.set] using h')⟩
      simp only [RegProg.step, RegHeap.set, true_and] at h'
      by_cases e : d' = d
      · rw [if_pos e, dget_dset] at h'
        split at h'
        · next e => cases h'; subst e; exact hp.1
        · exact hh.1 _ _ _ h'
      · rw [if_neg e] at h'; exact hh.1 _ _ _ h'
    | nicks =>
      refine ⟨hp.2, fun d' i n h' => hh.1 d' i n (by simpa [RegProg.step, RegHeap.set] using h'), fun d' n i h' => ?_⟩
      simp only [RegProg.step, RegHeap.set, true_and] at h'
      by_cases e : d' = d
      · rw [if_pos e, dget_dset] at h'
        split at h'
        · next e => cases h'; subst e; exact hp.1
        · exact hh.2 _ _ _ h'
      · rw [if_neg e] at h'; exact hh.2 _ _ _ h'
  | del t d key k =>
    simp only [RegProg.step]
    split
    · refine ⟨hp _, ?_, ?_⟩
      · intro d' i n h'
        simp only [RegHeap.set] at h'
        split at h'
        · next e =>
          rw [dget_ddel (ok _ _)] at h'
          split at h'
          · cases h'
          · obtain ⟨e1, e2⟩ := e
            subst e1; exact hh.1 _ _ _ h'
        · exact hh.1 _ _ _ h'
      · intro d' n i h'
        simp only [RegHeap.set] at h'
        split at h'
        · next e =>
          rw [dget_ddel (ok _ _)] at h'
          split at h'
          · cases h'
          · obtain ⟨e1, e2⟩ := e
            subst e1; exact hh.2 _ _ _ h'
        · exact hh.2 _ _ _ h'
    · exact ⟨hp _, hh⟩
  | fresh t k =>
    refine ⟨hp, ?_, ?_⟩
    · intro d' i n h'
      simp only [RegProg.step, RegHeap.renew, RegHeap.set] at h'
      split at h'
      · cases h'
      · exact hh.1 _ _ _ h'
    · intro d' n i h'
      simp only [RegProg.step, RegHeap.renew, RegHeap.set] at h'
      split at h'
      · cases h'
      · exact hh.2 _ _ _ h'

theorem writes_remove {P : Str → Str → Prop} {nick id : Option Str} : WritesOf P (removeProg nick id) := by
  intro d
  cases nick with
  | none => trivial
  | some n =>
    intro b
    cases b with
    | false => trivial
    | true =>
      intro d
      cases id with
      | none => trivial
      | some i => intro b; cases b <;> trivial

theorem writes_check {P : Str → Str → Prop} {t : Table} {d : Nat} {key val : Str} {k : RegProg} (h : WritesOf P k) : WritesOf P (checkFree t d key val k) := by
  intro r
  cases r with
  | none => exact h
  | some _ =>
    intro r
    cases r with
    | none => trivial
    | some v =>
      simp only
      split
      · exact h
      · intro r; cases r <;> trivial

theorem writes_call {P : Str → Str → Prop} {c : RegCall} (h : ∀ i n, c = .register i n → P i n) : WritesOf P c.prog := by
  cases c with
  | register i n => exact fun a b => writes_check (writes_check ⟨h i n rfl, h i n rfl, trivial⟩)
  | removeNick n => exact fun _ _ => writes_remove
  | removeId n => exact fun _ _ => writes_remove
  | removeBoth n i =>
    intro _ _ _ _
    simp only
    split
    · trivial
    · exact writes_remove
  | reset => trivial

/-- C95. Whatever calls threads make and however their steps mix, also when some are interrupted: all pairs that a registry has, either way, are pairs that it
had at first or that some call has registered. -/
theorem c95_nothing_else {r : Registry} (u1 : (dkeys r.id2nick).Nodup) (u2 : (dkeys r.nick2id).Nodup) (calls : List RegCall) (sched : List Nat) (i n : Str) :
    let v := ((startCalls r.heap calls).run sched).heap.view
    (v.idToNick i = some n → r.idToNick i = some n ∨ r.nickToId n = some i ∨ .register i n ∈ calls) ∧
    (v.nickToId n = some i → r.idToNick i = some n ∨ r.nickToId n = some i ∨ .register i n ∈ calls) := by
  intro v
  let P : Str → Str → Prop := fun i n => r.idToNick i = some n ∨ r.nickToId n = some i ∨ .register i n ∈ calls
  have main : ∀ (sched : List Nat) (s : RegState), s.heap.Ok → (∀ t, WritesOf P (s.threads t)) → HoldsOf P s.heap → HoldsOf P (s.run sched).heap := by
    intro sched
    induction sched with
    | nil => exact fun s _ _ h => h
    | cons t sched ih =>
      intro s ok hw hh
      have := step_writes ok (hw t) hh
      refine ih _ (step_ok ok) (fun t' => ?_) this.2
      simp only [RegState.tick]
      split
      · exact this.1
      · exact hw t'
  have ok : r.heap.Ok := by
    intro t d
    simp only [Registry.heap]
    split
    · cases t
      · exact u1
      · exact u2
    · exact List.nodup_nil
  have hh : HoldsOf P r.heap := by
    constructor
    · intro d i n h
      simp only [Registry.heap] at h
      split at h
      · exact .inl h
      · cases h
    · intro d n i h
      simp only [Registry.heap] at h
      split at h
      · exact .inr (.inl h)
      · cases h
  have := main sched (startCalls r.heap calls) ok (fun t => ?_) hh
  · exact ⟨fun h => this.1 _ i n h, fun h => this.2 _ n i h⟩
  · simp only [startCalls]
    cases hc : calls[t]? with
    | none => trivial
    | some c => exact writes_call fun i n e => .inr (.inr (e ▸ List.mem_of_getElem? hc))

/-! ### Examples -/

/-- A registry with one entry. -/
def exRegOne : Registry := ⟨[("a()".toList, "a".toList)], [("a".toList, "a()".toList)]⟩

theorem exRegOne_bijection : Bijection exRegOne :=
  bijection_set bijection_empty (r := {}) (n := "a".toList) (i := "a()".toList) (by intro i' h; cases h) (by intro i' h; cases h)

/-- One thread removes the entry that there is, another registers a new one. -/
example (sched : List Nat) := c95_apart exRegOne_bijection (calls := [.removeNick "a".toList, .register "b()".toList "b".toList]) (by decide) (by
  have key : ∀ tb key, RegCall.About exRegOne (.removeNick "a".toList) tb key → ¬ RegCall.About exRegOne (.register "b()".toList "b".toList) tb key := by
    intro tb key
    cases tb with
    | ids =>
      rintro (h | ⟨n, rfl, h⟩) (h' | ⟨n', rfl, h'⟩)
      · exact h
      · exact h
      · subst h'; exact absurd h (by decide)
      · exact absurd (show exRegOne.nickToId "b".toList = none by decide) (by rw [h']; simp)
    | nicks =>
      rintro (rfl | ⟨n, h, -⟩) (h' | ⟨n', rfl, h'⟩)
      · exact absurd (show "a".toList = "b".toList from h') (by decide)
      · exact absurd (show exRegOne.idToNick "b()".toList = none by decide) (by rw [h']; simp)
      · exact h
      · exact h
  intro t t' c c' hne h h' tb k h1 h2
  match t, t' with
  | 0, 0 => exact hne rfl
  | 1, 1 => exact hne rfl
  | 0, 1 => cases h; cases h'; exact key tb k h1 h2
  | 1, 0 => cases h; cases h'; exact key tb k h2 h1
  | t + 2, _ => simp at h
  | _, t' + 2 => simp at h') sched

/-- A removal that was interrupted. -/
example : LeftAt (solo exRegOne.heap (RegCall.removeNick "a".toList).prog 4).1.view "a()".toList "a".toList := ⟨by decide, by decide⟩

example : OneSided (solo exRegOne.heap (RegCall.removeNick "a".toList).prog 4).1.view :=
  ⟨by decide, by decide, fun n i h => by
    have : (solo exRegOne.heap (RegCall.removeNick "a".toList).prog 4).1.view.nickToId n = none := rfl
    rw [this] at h; cases h⟩

example : ∃ sched, let s := (startCalls exRegOne.heap [.register "b()".toList "b".toList, .register "c()".toList "b".toList]).run sched
    s.threads 0 = .done (.ok ()) ∧ s.threads 1 = .done (.ok ()) ∧ s.heap.view.idToNick "b()".toList = some "b".toList ∧
    s.heap.view.idToNick "c()".toList = some "b".toList ∧ s.heap.view.nickToId "b".toList = some "c()".toList :=
  c95_race (by decide) (by decide) (by decide) (by decide)

end Whatami
