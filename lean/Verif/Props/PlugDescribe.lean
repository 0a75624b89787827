import Verif.PlugDescribe
import Verif.Props.Callbacks
import Verif.Props.PlugThreads

/-
C101: ids that are made while other threads change the plugin list.
-/
namespace Whatami

/-! ### Queries -/

/-- What a function does if `build_string` is `bs` all the time. -/
def Queries.eval {α : Type} (bs : BS) : Queries α → R α
  | .done r => r
  | .ask v k =>
    match bs v with
    | .error .recursionError => .error .recursionError
    | r => (k r).eval bs

/-- All that is asked has `Q`. -/
def Queries.Only {α : Type} (Q : Val → Prop) : Queries α → Prop
  | .done _ => True
  | .ask v k => Q v ∧ ∀ r, r ≠ tooDeep → (k r).Only Q

section
variable {α β : Type} {bs : BS} {Q : Val → Prop}

theorem eval_bind (c : Queries α) (f : α → Queries β) : (c.bind f).eval bs =
    match c.eval bs with
    | .ok a => (f a).eval bs
    | .error e => .error e := by
  induction c with
  | done r => cases r <;> rfl
  | ask v k ih =>
    simp only [Queries.bind, Queries.eval]
    split
    · rfl
    · exact ih _

theorem only_bind {c : Queries α} {f : α → Queries β} (hc : c.Only Q) (hf : ∀ a, (f a).Only Q) : (c.bind f).Only Q := by
  induction c with
  | done r =>
    cases r with
    | ok a => exact hf a
    | error e => trivial
  | ask v k ih => exact ⟨hc.1, fun r hr => ih r (hc.2 r hr)⟩

theorem eval_askC (v : Val) : (askC v).eval bs = bs v := by
  simp only [askC, Queries.eval]
  split
  · next h => exact h.symm
  · rfl

theorem only_askC {v : Val} (h : Q v) : (askC v).Only Q := ⟨h, fun _ _ => trivial⟩

theorem eval_mapCalls {f : α → Queries β} {g : α → R β} (h : ∀ a, (f a).eval bs = g a) (l : List α) : (mapCalls f l).eval bs = mapR g l := by
  induction l with
  | nil => rfl
  | cons x xs ih =>
    simp only [mapCalls, eval_bind, h, ih, mapR]
    cases g x with
    | error e => rfl
    | ok y => cases mapR g xs <;> rfl

theorem only_mapCalls {f : α → Queries β} (l : List α) (h : ∀ a ∈ l, (f a).Only Q) : (mapCalls f l).Only Q := by
  induction l with
  | nil => trivial
  | cons x xs ih =>
    exact only_bind (h x (.head _)) fun y => only_bind (ih fun a ha => h a (.tail _ ha)) fun ys => trivial

theorem eval_idCalls (w : What) (b : Bool) : (idCalls w b).eval bs = idStr bs w b := by
  have h : ∀ kv, (kvCalls kv).eval bs = kvStr bs kv := by
    intro kv
    simp only [kvCalls, eval_bind, eval_askC, kvStr]
    cases bs kv.2 <;> rfl
  simp only [idCalls, eval_bind, eval_mapCalls h, idStr]
  cases mapR (kvStr bs) (idItems w b) <;> rfl

theorem only_idCalls {w : What} (b : Bool) (h : ∀ kv ∈ w.conf, Q kv.2) : (idCalls w b).Only Q := by
  refine only_bind (only_mapCalls _ fun kv hkv => only_bind (only_askC (h kv ?_)) fun _ => trivial) fun _ => trivial
  exact idItems_sub hkv

theorem eval_idText (w : What) : (idText w).eval bs = ret (idStr bs w false) := by
  simp only [idText, eval_bind, eval_idCalls]
  cases idStr bs w false <;> rfl

theorem only_idText {w : What} (h : ∀ kv ∈ w.conf, Q kv.2) : (idText w).Only Q := only_bind (only_idCalls false h) fun _ => trivial

theorem eval_seqCalls (xs : List Val) (g : List Str → Str) : (seqCalls xs g).eval bs = ret ((strings bs xs).map g) := by
  simp only [seqCalls, stringsCalls, eval_bind, eval_mapCalls (g := bs) eval_askC, strings]
  cases mapR bs xs with
  | error e => rfl
  | ok l =>
    simp only [Queries.eval]
    cases unNone l <;> rfl

theorem only_seqCalls {xs : List Val} (g : List Str → Str) (h : ∀ x ∈ xs, Q x) : (seqCalls xs g).Only Q :=
  only_bind (only_bind (only_mapCalls _ fun x hx => only_askC (h x hx)) fun _ => trivial) fun _ => trivial

theorem eval_dictCalls (kvs : List (Val × Val)) : (dictCalls kvs).eval bs = dictStr bs kvs := by
  have h : ∀ kv, (dkvCalls kv).eval bs = dkvStr bs kv := by
    intro kv
    simp only [dkvCalls, eval_bind, eval_askC, dkvStr]
    cases bs kv.1 with
    | error e => rfl
    | ok k => cases bs kv.2 <;> rfl
  simp only [dictCalls, eval_bind, eval_mapCalls h, dictStr]
  cases mapR (dkvStr bs) kvs <;> rfl

theorem only_dictCalls {kvs : List (Val × Val)} (h : ∀ kv ∈ kvs, Q kv.1 ∧ Q kv.2) : (dictCalls kvs).Only Q :=
  only_bind (only_mapCalls _ fun kv hkv => only_bind (only_askC (h kv hkv).1) fun _ => only_bind (only_askC (h kv hkv).2) fun _ => trivial) fun _ => trivial

theorem eval_act (a : Act) : (actCalls a).eval bs = a.eval bs := by
  induction a with
  | done r => rfl
  | ask v k ih =>
    simp only [actCalls, Queries.eval, Act.eval]
    cases bs v with
    | ok s => exact ih _
    | error e => cases e <;> first | rfl | exact ih _

theorem only_act {D : R (Option Str) → Prop} (a : Act) (h : a.Only Q D) : (actCalls a).Only Q := by
  induction a with
  | done r => trivial
  | ask v k ih => exact ⟨h.1, fun r hr => ih r (h.2 r hr)⟩

end

/-- The plugins do what they do in the model of C14 and C82 if the list does not change. -/
theorem eval_calls (cu : Callers) (bs : BS) (p : Plugin) (v : Val) : (p.calls cu v).eval bs = p.runC cu bs v := by
  unfold Plugin.runC
  cases p <;> simp only [Plugin.calls, Plugin.run]
  case what => cases v <;> simp only [whatPlugin, eval_idText] <;> rfl
  case whatable =>
    unfold whatablePlugin
    cases isWhatable v with
    | false => rfl
    | true =>
      simp only [if_true]
      cases whatMethod v with
      | none => rfl
      | some r =>
        cases r with
        | error e => rfl
        | ok w => exact eval_idText w
  case tuple =>
    cases v <;> first | rfl | exact eval_seqCalls _ _ | skip
    case sub k c a xs => cases k <;> first | rfl | exact eval_seqCalls _ _
  case list =>
    cases v <;> first | rfl | exact eval_seqCalls _ _ | skip
    case sub k c a xs => cases k <;> first | rfl | exact eval_seqCalls _ _
  case set =>
    cases v <;> first | rfl | exact eval_seqCalls _ _ | skip
    case sub k c a xs => cases k <;> first | rfl | exact eval_seqCalls _ _
  case dict =>
    cases v <;> simp only [dictPlugin] <;> try rfl
    case odict c a kvs =>
      cases whatareyou {} (.odict c a kvs) with
      | error e => rfl
      | ok w => exact eval_idText _
    case dict kvs =>
      simp only [eval_bind, eval_dictCalls]
      cases dictStr bs kvs <;> rfl
    case ddict c a kvs =>
      simp only [eval_bind, eval_dictCalls]
      cases dictStr bs kvs with
      | error e => rfl
      | ok s =>
        simp only
        cases whatareyou {} (.ddict c a kvs) with
        | error e => rfl
        | ok w => exact eval_idText _
  case part =>
    cases v <;> simp only [partialPlugin] <;> try rfl
    case part p f args kws =>
      cases callable2call (curry2partial (.part p f args kws)) [] [] with
      | error e => rfl
      | ok r => exact eval_idText _
  case function => cases v <;> simp only [functionPlugin] <;> first | rfl | exact eval_idText _
  case rng =>
    cases v <;> simp only [rngPlugin] <;> try rfl
    case rng c st =>
      cases whatareyou {} st with
      | error e => rfl
      | ok w =>
        simp only [eval_bind, eval_idCalls]
        cases idStr bs w false <;> rfl
  case any0x =>
    unfold any0xPlugin
    cases isInfix c!" at 0x" (pyStr v) with
    | false => rfl
    | true => exact eval_idText _
  case custom k => exact eval_act _
  all_goals rfl

/-- The plugins of whatami ask about what is in their argument. -/
theorem only_calls (cu : Callers) {P : Val → Prop} (hP : Closed P) (p : Plugin) {v : Val} (hv : P v)
    (hc : ∀ k, p = .custom k → (actCalls (cu k v)).Only P) : (p.calls cu v).Only P := by
  cases p <;> simp only [Plugin.calls]
  case what =>
    split
    · exact only_idText fun kv hkv => hP.child _ _ (.what kv.1 _ _ _ hkv) hv
    · trivial
  case whatable =>
    split
    · split
      · next w hw =>
        refine only_idText fun kv hkv => ?_
        unfold whatMethod at hw
        split at hw
        · cases hw; exact hP.child _ _ (.duck kv.1 _ _ _ hkv) hv
        · simp only [Option.some.injEq] at hw; exact whatareyou_closed hP hv hw hkv
        · cases hw
        · cases hw
      · trivial
      · trivial
    · trivial
  case tuple =>
    split
    · exact only_seqCalls _ fun x hx => hP.child _ _ (.tuple hx) hv
    · exact only_seqCalls _ fun x hx => hP.child _ _ (.sub _ _ _ hx) hv
    · trivial
  case list =>
    split
    · exact only_seqCalls _ fun x hx => hP.child _ _ (.list hx) hv
    · exact only_seqCalls _ fun x hx => hP.child _ _ (.sub _ _ _ hx) hv
    · trivial
  case set =>
    split
    · exact only_seqCalls _ fun x hx => hP.child _ _ (.set hx) hv
    · exact only_seqCalls _ fun x hx => hP.child _ _ (.fset hx) hv
    · exact only_seqCalls _ fun x hx => hP.child _ _ (.sub _ _ _ hx) hv
    · exact only_seqCalls _ fun x hx => hP.child _ _ (.sub _ _ _ hx) hv
    · trivial
  case dict =>
    split
    · next c attrs kvs =>
      split
      · trivial
      · next w hw =>
        refine only_idText fun kv hkv => ?_
        rcases mem_dset hkv with hm | hm
        · exact whatareyou_closed hP hv hw hm
        · rw [hm]
          refine hP.list _ fun x hx => ?_
          obtain ⟨⟨a, b⟩, hab, rfl⟩ := List.mem_map.1 hx
          refine hP.tuple _ fun y hy => ?_
          simp only [List.mem_cons, List.not_mem_nil, or_false] at hy
          rcases hy with rfl | rfl
          · exact hP.child _ _ (.odictKey _ _ hab) hv
          · exact hP.child _ _ (.odictVal _ _ hab) hv
    · next kvs =>
      exact only_bind (only_dictCalls fun kv hkv => ⟨hP.child _ _ (.dictKey hkv) hv, hP.child _ _ (.dictVal hkv) hv⟩) fun _ => trivial
    · next c attrs kvs =>
      refine only_bind (only_dictCalls fun kv hkv => ⟨hP.child _ _ (.ddictKey _ _ hkv) hv, hP.child _ _ (.ddictVal _ _ hkv) hv⟩) fun _ => ?_
      split
      · trivial
      · next w hw => exact only_idText fun kv hkv => whatareyou_closed hP hv hw hkv
    · trivial
  case part =>
    split
    · split
      · trivial
      · next n kw hk => exact only_idText fun kv hkv => within_closed hP (partial_within hk kv hkv) hv
    · trivial
  case function =>
    split
    · exact only_idText fun kv hkv => hP.child _ _ (.func _ _ (List.of_mem_zip (mem_dictOf hkv)).2) hv
    · trivial
  case rng =>
    split
    · split
      · trivial
      · next w hw => exact only_bind (only_idCalls _ fun kv hkv => whatareyou_closed hP (hP.child _ _ (.rng _ _) hv) hw hkv) fun _ => trivial
    · trivial
  case any0x =>
    split
    · exact only_idText fun kv hkv => (by cases hkv)
    · trivial
  case custom k => exact hc k rfl
  all_goals trivial

/-! ### Programs -/

/-- Whatever lists of `P` a thread reads, in the end it does something of `Q`. -/
def DProg.Ends {α : Type} (P : List Plugin → Prop) (Q : R α → Prop) : DProg α → Prop
  | .done r => Q r
  | .load k => ∀ ps, P ps → (k ps).Ends P Q

section
variable {α β : Type} {P : List Plugin → Prop} {Q : R β → Prop} {S : Val → Prop}

theorem ends_prog {bp : Val → (R (Option Str) → DProg β) → DProg β} {bs : BS}
    (h : ∀ v k, S v → (k (bs v)).Ends P Q → (bp v k).Ends P Q) (c : Queries α) (hc : c.Only S) (k : R α → DProg β) (hk : (k (c.eval bs)).Ends P Q) :
    (c.prog bp k).Ends P Q := by
  induction c with
  | done r => exact hk
  | ask v c ih =>
    simp only [Queries.prog]
    refine h v _ hc.1 ?_
    simp only [Queries.eval] at hk
    cases hb : bs v with
    | ok s =>
      rw [hb] at hk
      exact ih (.ok s) (hc.2 _ (by simp)) hk
    | error e =>
      rw [hb] at hk
      cases e <;> first | exact hk | exact ih _ (hc.2 _ (by simp)) hk

theorem ends_chain {f : Plugin → (R (Option Str) → DProg β) → DProg β} {g : Plugin → R (Option Str)} (ps : List Plugin)
    (h : ∀ p ∈ ps, ∀ k, (k (g p)).Ends P Q → (f p k).Ends P Q) (k : R (Option Str) → DProg β) (hk : (k (firstSome g ps)).Ends P Q) :
    (chainProg f ps k).Ends P Q := by
  induction ps with
  | nil => exact hk
  | cons p ps ih =>
    refine h p (.head _) _ ?_
    simp only [firstSome] at hk
    cases hg : g p with
    | error e => rw [hg] at hk; exact hk
    | ok o =>
      rw [hg] at hk
      cases o with
      | some s => exact hk
      | none => exact ih (fun p hp => h p (.tail _ hp)) hk

/-- Lists that answer alike give the same answers although they change. -/
theorem ends_build (cu : Callers) (hS : Closed S) {base : List Plugin}
    (others : ∀ ps, P ps → ∀ j v, .custom j ∈ ps → S v → (actCalls (cu j v)).Only S)
    (alike : ∀ ps, P ps → ∀ v bs, S v → firstSome (fun p => p.runC cu bs v) ps = firstSome (fun p => p.runC cu bs v) base) (n : Nat) :
    ∀ v (k : R (Option Str) → DProg β), S v → (k (buildC cu base n v)).Ends P Q → (buildProg cu n v k).Ends P Q := by
  induction n with
  | zero => intro v k _ hk; exact hk
  | succ n ih =>
    intro v k hv hk ps hps
    refine ends_chain (g := fun p => p.runC cu (buildC cu base n) v) ps (fun p hp k hk => ?_) k ?_
    · refine ends_prog ih _ (only_calls cu hS p hv fun j e => others ps hps j v (e ▸ hp) hv) k ?_
      rw [eval_calls]; exact hk
    · rw [alike ps hps v _ hv]; exact hk

end

/-- If the list is one of `P` at every moment, then what is described in the end is of `Q`. -/
theorem ends_run {α : Type} {P : List Plugin → Prop} {Q : R α → Prop} (sched : List (Option Nat)) (s : DescState α)
    (h : ∀ pre suf, sched = pre ++ suf → P (s.run pre).plug.plugins) (hp : s.prog.Ends P Q) : (s.run sched).prog.Ends P Q := by
  induction sched generalizing s with
  | nil => exact hp
  | cons t sched ih =>
    refine ih (s.tick t) (fun pre suf e => h (t :: pre) suf (by rw [e]; rfl)) ?_
    cases t with
    | none =>
      simp only [DescState.tick]
      cases hq : s.prog with
      | done r => rw [hq] at hp; exact hp
      | load k => rw [hq] at hp; exact hp _ (h [] _ rfl)
    | some t => exact hp

theorem plug_run {α : Type} (sched : List (Option Nat)) (s : DescState α) : (s.run sched).plug = s.plug.run (sched.filterMap id) := by
  induction sched generalizing s with
  | nil => rfl
  | cons t sched ih =>
    cases t with
    | none =>
      have : (s.tick none).plug = s.plug := by simp only [DescState.tick]; split <;> rfl
      show ((s.tick none).run sched).plug = _
      rw [ih, this]; rfl
    | some t =>
      show ((s.tick (some t)).run sched).plug = _
      rw [ih]; rfl

/-! ### Every answer is by one list -/

/-- What a function may do if `build_string` may answer `a` about `v` whenever `A v a`. -/
inductive Queries.Gives {α : Type} (A : Val → R (Option Str) → Prop) : Queries α → R α → Prop where
  | done (r : R α) : Queries.Gives A (.done r) r
  | ask {v : Val} {k : R (Option Str) → Queries α} {a : R (Option Str)} {r : R α} : A v a → a ≠ tooDeep → Queries.Gives A (k a) r → Queries.Gives A (.ask v k) r
  | deep {v : Val} {k : R (Option Str) → Queries α} : A v tooDeep → Queries.Gives A (.ask v k) tooDeep

/-- `build_string` goes through one list: the plugins before `p` decline, and `p` does not; or all decline. -/
inductive ByList (G : Plugin → R (Option Str) → Prop) : List Plugin → R (Option Str) → Prop where
  | first {pre post : List Plugin} {p : Plugin} {r : R (Option Str)} : (∀ q ∈ pre, G q (.ok none)) → G p r → r ≠ .ok none → ByList G (pre ++ p :: post) r
  | none {ps : List Plugin} : (∀ q ∈ ps, G q (.ok none)) → ByList G ps (.ok none)

/-- What `build_string(v)` may do: it goes through one of the lists of `P`, and so does every call of it by a plugin, each through one of them. -/
def ShownBy (cu : Callers) (P : List Plugin → Prop) : Nat → Val → R (Option Str) → Prop
  | 0, _, r => r = tooDeep
  | n + 1, v, r => ∃ ps, P ps ∧ ByList (fun p r => (p.calls cu v).Gives (ShownBy cu P n) r) ps r

section
variable {α β : Type} {P : List Plugin → Prop} {Q : R β → Prop}

theorem gives_prog {bp : Val → (R (Option Str) → DProg β) → DProg β} {A : Val → R (Option Str) → Prop}
    (h : ∀ v k, (∀ a, A v a → (k a).Ends P Q) → (bp v k).Ends P Q) (c : Queries α) (k : R α → DProg β) (hk : ∀ r, c.Gives A r → (k r).Ends P Q) :
    (c.prog bp k).Ends P Q := by
  induction c with
  | done r => exact hk r (.done r)
  | ask v c ih =>
    simp only [Queries.prog]
    refine h v _ fun a ha => ?_
    cases a with
    | ok s => exact ih (.ok s) fun r hr => hk r (.ask ha (by simp) hr)
    | error e => cases e <;> first | exact hk _ (.deep ha) | exact ih _ fun r hr => hk r (.ask ha (by simp) hr)

theorem gives_chain {f : Plugin → (R (Option Str) → DProg β) → DProg β} {G : Plugin → R (Option Str) → Prop}
    (h : ∀ p k, (∀ r, G p r → (k r).Ends P Q) → (f p k).Ends P Q) (ps : List Plugin) (k : R (Option Str) → DProg β) (hk : ∀ r, ByList G ps r → (k r).Ends P Q) :
    (chainProg f ps k).Ends P Q := by
  induction ps with
  | nil => exact hk _ (.none (by simp))
  | cons p ps ih =>
    refine h p _ fun r hr => ?_
    cases r with
    | error e => exact hk _ (.first (pre := []) (by simp) hr (by simp))
    | ok o =>
      cases o with
      | some s => exact hk _ (.first (pre := []) (by simp) hr (by simp))
      | none =>
        refine ih fun r' hr' => hk r' ?_
        cases hr' with
        | first h1 h2 h3 =>
          refine .first (pre := p :: _) (fun q hq => ?_) h2 h3
          rcases List.mem_cons.1 hq with rfl | hq
          · exact hr
          · exact h1 q hq
        | none h1 =>
          refine .none fun q hq => ?_
          rcases List.mem_cons.1 hq with rfl | hq
          · exact hr
          · exact h1 q hq

theorem gives_build (cu : Callers) (n : Nat) : ∀ v (k : R (Option Str) → DProg β), (∀ a, ShownBy cu P n v a → (k a).Ends P Q) → (buildProg cu n v k).Ends P Q := by
  induction n with
  | zero => intro v k hk; exact hk _ rfl
  | succ n ih =>
    intro v k hk ps hps
    exact gives_chain (G := fun p r => (p.calls cu v).Gives (ShownBy cu P n) r) (fun p k hk => gives_prog ih _ k hk) ps k fun r hr => hk r ⟨ps, hps, hr⟩

end

/-- The plugin list was `ps` at some moment. -/
def WasList {α : Type} (s : DescState α) (sched : List (Option Nat)) (ps : List Plugin) : Prop := ∃ pre suf, sched = pre ++ suf ∧ (s.run pre).plug.plugins = ps

/-- **C101** Whatever other threads do to the plugin list while an id is made: every call of `build_string` for it goes through one list, first match first,
and that list was the plugin list at some moment. -/
theorem c101_each {cu : Callers} {n : Nat} {w : What} {b : Bool} {plug : PlugState} {sched : List (Option Nat)} {r : R Str}
    (h : ((DescState.mk plug (idProg cu n w b)).run sched).prog = .done r) :
    (idCalls w b).Gives (ShownBy cu (WasList ⟨plug, idProg cu n w b⟩ sched) n) r := by
  have := ends_run (P := WasList ⟨plug, idProg cu n w b⟩ sched) (Q := fun r => (idCalls w b).Gives (ShownBy cu (WasList ⟨plug, idProg cu n w b⟩ sched) n) r) sched
    ⟨plug, idProg cu n w b⟩ (fun pre suf e => ⟨pre, suf, e, rfl⟩) (gives_prog (gives_build cu n) _ _ fun r hr => hr)
  rw [h] at this
  exact this

/-! ### Nobody else -/

theorem only_true {α : Type} (c : Queries α) : c.Only fun _ => True := by
  induction c with
  | done r => trivial
  | ask v k ih => exact ⟨trivial, fun r _ => ih r⟩

/-- **C101, alone** An id that is made while nobody writes the list is the id of C14 and C82. -/
theorem c101_alone {cu : Callers} {n : Nat} {w : What} {b : Bool} {plug : PlugState} {sched : List (Option Nat)} {r : R Str}
    (quiet : ∀ ps, WasList ⟨plug, idProg cu n w b⟩ sched ps → ps = plug.plugins)
    (h : ((DescState.mk plug (idProg cu n w b)).run sched).prog = .done r) : r = idStr (buildC cu plug.plugins n) w b := by
  have := ends_run (P := (· = plug.plugins)) (Q := (· = idStr (buildC cu plug.plugins n) w b)) sched ⟨plug, idProg cu n w b⟩
    (fun pre suf e => quiet _ ⟨pre, suf, e, rfl⟩) ?_
  · rw [h] at this; exact this
  · refine ends_prog (S := fun _ => True) (ends_build cu (by constructor <;> simp) (fun _ _ _ _ _ _ => only_true _) (fun ps e v bs _ => by rw [e]) n) _ (only_true _) _ ?_
    exact eval_idCalls w b

/-! ### Plugins that have nothing to do with it -/

/-- The user plugins of `K`. -/
def mine (K : Nat → Bool) : Plugin → Bool
  | .custom k => K k
  | _ => false

/-- The call inserts or drops a plugin of `K`; or resets a list that, but for those, is the default list. -/
def Concerns (K : Nat → Bool) (ps : List Plugin) : MOp → Prop
  | .insert p _ => mine K p = true
  | .drop p => mine K p = true
  | .reset => (ps.filter fun p => !mine K p) = defaultPlugins

theorem filter_pyRemove {f : Plugin → Bool} {p : Plugin} (hp : f p = false) (ps : List Plugin) : (pyRemove p ps).filter f = ps.filter f := by
  induction ps with
  | nil => rfl
  | cons q ps ih =>
    simp only [pyRemove]
    split
    · next e => subst e; rw [List.filter_cons_of_neg (by simp [hp])]
    · simp only [List.filter_cons, ih]

theorem filter_insertAtIndex {f : Plugin → Bool} {p b : Plugin} (hp : f p = false) (ps : List Plugin) : (insertAtIndex p b ps).filter f = ps.filter f := by
  induction ps with
  | nil => simp [insertAtIndex]
  | cons q ps ih =>
    simp only [insertAtIndex]
    split
    · rw [List.filter_cons_of_neg (by simp [hp])]
    · simp only [List.filter_cons, ih]

theorem concerns_stores {K : Nat → Bool} {ps0 : List Plugin} (named : Nat → Bool) {op : MOp} (h : Concerns K ps0 op) :
    StoresOf (fun ps => (ps.filter fun p => !mine K p) = ps0.filter fun p => !mine K p) (op.prog named) := by
  cases op with
  | reset => exact ⟨by rw [show (ps0.filter fun p => !mine K p) = defaultPlugins from h]; rfl, trivial⟩
  | drop p =>
    have hp : mine K p = true := h
    intro ps hps
    simp only
    split
    · exact ⟨by dsimp only; rw [filter_pyRemove (by simp [hp])]; exact hps, trivial⟩
    · trivial
  | insert p before =>
    have hp : mine K p = true := h
    intro ps hps
    simp only
    split
    · trivial
    · intro ps hps
      cases before with
      | none => exact ⟨by dsimp only; rw [List.filter_append, List.filter_cons_of_neg (by simp [hp]), List.filter_nil, List.append_nil]; exact hps, trivial⟩
      | some b =>
        simp only
        split
        · exact ⟨by dsimp only; rw [filter_insertAtIndex (by simp [hp])]; exact hps, trivial⟩
        · trivial

theorem firstSome_filter {f : Plugin → R (Option Str)} {g : Plugin → Bool} (ps : List Plugin) (h : ∀ p ∈ ps, g p = false → f p = .ok none) :
    firstSome f (ps.filter g) = firstSome f ps := by
  induction ps with
  | nil => rfl
  | cons p ps ih =>
    have ih := ih fun q hq => h q (.tail _ hq)
    cases hg : g p with
    | true => rw [List.filter_cons_of_pos hg]; simp only [firstSome, ih]
    | false => rw [List.filter_cons_of_neg (by simp [hg])]; simp only [firstSome, h p (.head _) hg, ih]

theorem only_weaken {α : Type} {Q Q' : Val → Prop} (h : ∀ v, Q v → Q' v) (c : Queries α) (hc : c.Only Q) : c.Only Q' := by
  induction c with
  | done r => trivial
  | ask v k ih => exact ⟨h v hc.1, fun r hr => ih r (hc.2 r hr)⟩

theorem Closed.all {ι : Type} {I : ι → Prop} {P : ι → Val → Prop} (h : ∀ i, I i → Closed (P i)) : Closed fun v => ∀ i, I i → P i v where
  child x v c hv i hi := (h i hi).child x v c (hv i hi)
  none i hi := (h i hi).none
  int n i hi := (h i hi).int n
  zero i hi := (h i hi).zero
  str s i hi := (h i hi).str s
  tuple xs hx i hi := (h i hi).tuple xs fun x hm => hx x hm i hi
  list xs hx i hi := (h i hi).list xs fun x hm => hx x hm i hi
  set xs hx i hi := (h i hi).set xs fun x hm => hx x hm i hi
  dict kvs hx i hi := (h i hi).dict kvs fun kv hm => ⟨(hx kv hm).1 i hi, (hx kv hm).2 i hi⟩

/-- **C101, unaffected** Threads may insert and drop plugins that decline whatever is in the configuration (and the built-in data types), all at once and over
and over: the id that is made meanwhile is the one that is made when nobody touches the list.  (The other user plugins ask about values that occur in the one
they are given.) -/
theorem c101_unaffected {cu : Callers} {K : Nat → Bool} {named : Nat → Bool} {ps : List Plugin} {ops : List MOp} (hops : ∀ op ∈ ops, Concerns K ps op)
    (data : ∀ k v, K k = true → Datatype v → cu k v = .done (.ok none))
    (others : ∀ j v, .custom j ∈ ps → K j = false → (cu j v).Only (fun u => Within u v) fun _ => True)
    {w : What} (hw : ∀ kv ∈ w.conf, ∀ u, Within u kv.2 → ∀ k, K k = true → cu k u = .done (.ok none))
    {n : Nat} {b : Bool} {sched : List (Option Nat)} {r : R Str} (h : ((DescState.mk (startOps named ps ops) (idProg cu n w b)).run sched).prog = .done r) :
    r = idStr (buildC cu ps n) w b := by
  have hS : Closed fun v => ∀ k, K k = true → ∀ u, Within u v → cu k u = .done (.ok none) := Closed.all fun k hk => own_closed fun v hv => data k v hk hv
  have := ends_run (P := fun ps' => (ps'.filter fun p => !mine K p) = ps.filter fun p => !mine K p) (Q := (· = idStr (buildC cu ps n) w b)) sched
    ⟨startOps named ps ops, idProg cu n w b⟩ ?_ ?_
  · rw [h] at this; exact this
  · intro pre suf _
    rw [plug_run]
    refine stores_run (P := fun ps' => (ps'.filter fun p => !mine K p) = ps.filter fun p => !mine K p) _ _ rfl fun t => ?_
    simp only [startOps]
    split
    · next op hop => exact concerns_stores named (hops op (List.mem_of_getElem? hop))
    · trivial
  · refine ends_prog (ends_build (base := ps) cu hS (fun ps' hps' j v hj hv => ?_) (fun ps' hps' v bs hv => ?_) n) _ (only_idCalls b fun kv hkv k hk u hu => hw kv hkv u hu k hk) _ ?_
    · cases hk : K j with
      | true => rw [hv j hk v (.refl v)]; trivial
      | false =>
        have hm : Plugin.custom j ∈ ps'.filter fun p => !mine K p := List.mem_filter.2 ⟨hj, by simp [mine, hk]⟩
        rw [hps'] at hm
        exact only_weaken (fun u hu => within_closed hS hu hv) _ (only_act _ (others j v (List.mem_filter.1 hm).1 hk))
    · have dec : ∀ p, (!mine K p) = false → p.runC cu bs v = .ok none := by
        intro p hp
        cases p <;> simp [mine] at hp
        rename_i k
        show (cu k v).eval bs = _
        rw [hv k hp v (.refl v)]; rfl
      rw [← firstSome_filter ps' fun p _ hp => dec p hp, hps', firstSome_filter ps fun p _ hp => dec p hp]
    · exact eval_idCalls w b

/-- **C101, finishes** However the other threads run, a thread that makes an id finishes after some of its steps: it waits for nobody. -/
theorem c101_finishes {α : Type} (s : DescState α) (sched : Nat → Option Nat) (fair : ∀ i, ∃ j, i ≤ j ∧ sched j = none) :
    ∃ m r, (s.run ((List.range m).map sched)).prog = .done r := by
  have key : ∀ (p : DProg α) (s : DescState α) (sched : Nat → Option Nat), (∀ i, ∃ j, i ≤ j ∧ sched j = none) → s.prog = p →
      ∃ m r, (s.run ((List.range m).map sched)).prog = .done r := by
    intro p
    induction p with
    | done r => intro s sched _ e; exact ⟨0, r, e⟩
    | load k ih =>
      intro s sched fair e
      obtain ⟨j, -, hj⟩ := fair 0
      -- the first step of the thread
      have first : ∀ j (s : DescState α) (sched : Nat → Option Nat), s.prog = .load k → (∀ i, ∃ j, i ≤ j ∧ sched j = none) → sched j = none →
          ∃ m r, (s.run ((List.range m).map sched)).prog = .done r := by
        intro j
        induction j with
        | zero =>
          intro s sched e fair hj
          obtain ⟨m, r, h⟩ := ih s.plug.plugins (s.tick none) (fun i => sched (i + 1))
            (fun i => by obtain ⟨j, h1, h2⟩ := fair (i + 1); exact ⟨j - 1, by omega, by rwa [show j - 1 + 1 = j by omega]⟩) (by simp [DescState.tick, e])
          refine ⟨m + 1, r, ?_⟩
          rw [List.range_succ_eq_map, List.map_cons, List.map_map, hj]
          exact h
        | succ j ih2 =>
          intro s sched e fair hj
          cases h0 : sched 0 with
          | none =>
            obtain ⟨m, r, h⟩ := ih s.plug.plugins (s.tick none) (fun i => sched (i + 1))
              (fun i => by obtain ⟨j, h1, h2⟩ := fair (i + 1); exact ⟨j - 1, by omega, by rwa [show j - 1 + 1 = j by omega]⟩) (by simp [DescState.tick, e])
            refine ⟨m + 1, r, ?_⟩
            rw [List.range_succ_eq_map, List.map_cons, List.map_map, h0]
            exact h
          | some t =>
            obtain ⟨m, r, h⟩ := ih2 (s.tick (some t)) (fun i => sched (i + 1)) e
              (fun i => by obtain ⟨j, h1, h2⟩ := fair (i + 1); exact ⟨j - 1, by omega, by rwa [show j - 1 + 1 = j by omega]⟩) hj
            refine ⟨m + 1, r, ?_⟩
            rw [List.range_succ_eq_map, List.map_cons, List.map_map, h0]
            exact h
      exact first j s sched (by assumption) fair hj
  exact key s.prog s sched fair rfl

/-! ### Mixtures -/

/-- A user plugin that shows the number 1 as `on`. -/
def exOn : Callers := fun _ v =>
  match v with
  | .int 1 => .done (.ok (some c!"on"))
  | _ => .done (.ok none)

/-- `What('f', {'a': 1, 'b': 1})`. -/
def exTwice : What := { name := c!"f", conf := [(c!"a", .int 1), (c!"b", .int 1)] }

/-- **C101, finding** An id that is made while another thread inserts a plugin may be one that no plugin list gives: the same value is shown in two ways. -/
theorem c101_mixture : ∃ sched, ((DescState.mk (startOps (fun _ => true) defaultPlugins [.insert (.custom 0) (some .any0x)]) (idProg exOn 1 exTwice false)).run sched).prog =
      .done (.ok c!"f(a=1,b=on)") ∧ ∀ ps n, idStr (buildC exOn ps n) exTwice false ≠ .ok c!"f(a=1,b=on)" := by
  refine ⟨[none, some 0, some 0, some 0, none], rfl, fun ps n h => ?_⟩
  have hi : idItems exTwice false = [(c!"a", .int 1), (c!"b", .int 1)] := rfl
  simp only [idStr, hi, mapR, kvStr] at h
  cases hb : buildC exOn ps n (.int 1) with
  | error e => rw [hb] at h; cases h
  | ok o =>
    rw [hb] at h
    simp only [exTwice, wrapId, pyJoin, Except.ok.injEq] at h
    have := congrArg List.length h
    simp at this
    omega

/-! ### Examples -/

/-- A user plugin for the list subclass Bag. -/
def exBags : Callers := fun _ v =>
  match v with
  | .sub .list _ _ _ => .done (.ok (some c!"bag"))
  | _ => .done (.ok none)

-- a list of two numbers is described while two threads insert, drop and reset
example : ((DescState.mk (startOps (fun _ => true) defaultPlugins [.insert (.custom 0) (some .any0x), .drop (.custom 0), .reset])
    (idProg exBags 2 { name := c!"f", conf := [(c!"a", .list [.int 1, .int 2])] } false)).run
    [some 0, none, some 0, some 0, some 1, none, some 2, some 1, none]).prog = .done (.ok c!"f(a=[1,2])") := rfl

example (sched : List (Option Nat)) (r : R Str)
    (h : ((DescState.mk (startOps (fun _ => true) defaultPlugins [.insert (.custom 0) (some .any0x), .drop (.custom 0), .reset])
      (idProg exBags 2 { name := c!"f", conf := [(c!"a", .int 1)] } false)).run sched).prog = .done r) : r = .ok c!"f(a=1)" := by
  refine (c101_unaffected (K := fun _ => true) ?_ ?_ ?_ ?_ h).trans rfl
  · intro op hop
    simp only [List.mem_cons, List.not_mem_nil, or_false] at hop
    rcases hop with rfl | rfl | rfl
    · rfl
    · rfl
    · rfl
  · intro k v _ hv; cases hv <;> rfl
  · intro j v hj; simp [defaultPlugins] at hj
  · intro kv hkv u hu k _
    simp only [List.mem_cons, List.not_mem_nil, or_false] at hkv
    subst hkv
    rcases within_inv hu with rfl | ⟨y, hy, -⟩
    · rfl
    · cases hy

end Whatami
