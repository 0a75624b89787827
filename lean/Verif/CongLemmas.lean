import Verif.DefaultChain
import Verif.Spec.Same

/-
Ids are invariant under changes that leave the text of every replaced part unchanged.
Definitions here are vocabulary for statements and proofs: the code they are about is cited in the model modules.
-/
namespace Whatami

/-- Pointwise related lists. -/
inductive All2 {α : Type} (R : α → α → Prop) : List α → List α → Prop where
  | nil : All2 R [] []
  | cons {a b : α} {l m : List α} : R a b → All2 R l m → All2 R (a :: l) (b :: m)

section
variable {α : Type} {R : α → α → Prop}

theorem All2.rfl' (h : ∀ a, R a a) : ∀ l, All2 R l l
  | [] => .nil
  | a :: l => .cons (h a) (All2.rfl' h l)

theorem All2.append {l l' m m' : List α} (h : All2 R l l') (k : All2 R m m') : All2 R (l ++ m) (l' ++ m') := by
  induction h with
  | nil => exact k
  | cons hr _ ih => exact .cons hr ih

theorem All2.hole (h : ∀ a, R a a) {a b : α} (hab : R a b) (l r : List α) :
    All2 R (l ++ a :: r) (l ++ b :: r) :=
  (All2.rfl' h l).append (.cons hab (All2.rfl' h r))

theorem All2.filter {p : α → Bool} (hp : ∀ a b, R a b → p a = p b) {l m : List α} (h : All2 R l m) :
    All2 R (l.filter p) (m.filter p) := by
  induction h with
  | nil => exact .nil
  | @cons a b l m hr _ ih =>
    have := hp _ _ hr
    by_cases ha : p a = true
    · rw [List.filter_cons_of_pos ha, List.filter_cons_of_pos (this ▸ ha)]; exact .cons hr ih
    · rw [List.filter_cons_of_neg ha, List.filter_cons_of_neg (this ▸ ha)]; exact ih

theorem All2.insertBy {le : α → α → Bool} (hle : ∀ a b c d, R a b → R c d → le a c = le b d) {a b : α}
    (hab : R a b) {l m : List α} (h : All2 R l m) : All2 R (insertBy le a l) (insertBy le b m) := by
  induction h with
  | nil => exact .cons hab .nil
  | @cons c d l m hr hrest ih =>
    simp only [Whatami.insertBy, hle _ _ _ _ hab hr]
    split
    · exact .cons hab (.cons hr hrest)
    · exact .cons hr ih

theorem All2.sortBy {le : α → α → Bool} (hle : ∀ a b c d, R a b → R c d → le a c = le b d)
    {l m : List α} (h : All2 R l m) : All2 R (sortBy le l) (sortBy le m) := by
  induction h with
  | nil => exact .nil
  | cons hr _ ih => exact All2.insertBy hle hr ih

theorem All2.length {l m : List α} (h : All2 R l m) : l.length = m.length := by
  induction h with
  | nil => rfl
  | cons _ _ ih => simp [ih]

theorem All2.map {β : Type} {S : β → β → Prop} {f : α → β} (hf : ∀ a b, R a b → S (f a) (f b))
    {l m : List α} (h : All2 R l m) : All2 S (l.map f) (m.map f) := by
  induction h with
  | nil => exact .nil
  | cons hr _ ih => exact .cons (hf _ _ hr) ih

theorem All2.imp {S : α → α → Prop} (hf : ∀ a b, R a b → S a b) {l m : List α} (h : All2 R l m) :
    All2 S l m := by
  induction h with
  | nil => exact .nil
  | cons hr _ ih => exact .cons (hf _ _ hr) ih

theorem All2.mapO {β : Type} {f : α → Option β} (hf : ∀ a b, R a b → f a = f b) {l m : List α}
    (h : All2 R l m) : mapO f l = mapO f m := by
  induction h with
  | nil => rfl
  | cons hr _ ih => simp only [Whatami.mapO, hf _ _ hr, ih]

theorem All2.drop {l m : List α} (h : All2 R l m) (n : Nat) : All2 R (l.drop n) (m.drop n) := by
  induction h generalizing n with
  | nil => simp; exact .nil
  | cons hr hrest ih =>
    cases n with
    | zero => exact .cons hr hrest
    | succ n => exact ih n

end

/-! ### val? -/

theorem val?_ret (r : R Str) : val? (ret r) = (val? r).map some := by cases r <;> rfl

theorem val?_map {α β : Type} (f : α → β) (r : R α) : val? (Except.map f r) = (val? r).map f := by
  cases r <;> rfl

theorem val?_unNone (l : List (Option Str)) : val? (unNone l) = mapO id l := by
  induction l with
  | nil => rfl
  | cons a r ih =>
    cases a with
    | none => simp [unNone, mapO, val?]
    | some s =>
      simp only [unNone, mapO, ← ih, id]
      cases unNone r <;> simp [val?]

/-- The texts `build_string` gives to two values are the same, or both raise. -/
def SameText (bs : BS) (a b : Val) : Prop := val? (bs a) = val? (bs b)

/-- Same key and same text of the value. -/
def SameKV (bs : BS) (a b : Str × Val) : Prop := a.1 = b.1 ∧ SameText bs a.2 b.2

/-- Same text of key and value. -/
def SameDKV (bs : BS) (a b : Val × Val) : Prop := SameText bs a.1 b.1 ∧ SameText bs a.2 b.2

theorem SameText.refl (bs : BS) (a : Val) : SameText bs a a := rfl
theorem SameKV.refl (bs : BS) (a : Str × Val) : SameKV bs a a := ⟨rfl, rfl⟩
theorem SameDKV.refl (bs : BS) (a : Val × Val) : SameDKV bs a a := ⟨rfl, rfl⟩

/-- `strings` without the kind of exception. -/
def stringsO (bs : BS) (xs : List Val) : Option (List Str) :=
  (mapO (fun x => val? (bs x)) xs).bind (mapO id)

theorem val?_strings (bs : BS) (xs : List Val) : val? (strings bs xs) = stringsO bs xs := by
  simp only [strings, stringsO, ← val?_mapR]
  cases mapR bs xs with
  | error e => rfl
  | ok l => exact val?_unNone l

theorem strings_same {bs : BS} {xs ys : List Val} (h : All2 (SameText bs) xs ys) :
    val? (strings bs xs) = val? (strings bs ys) := by
  rw [val?_strings, val?_strings, stringsO, stringsO, h.mapO fun a b hab => hab]

theorem mapO_id_perm {l m : List (Option Str)} (h : l.Perm m) : PermO (mapO id l) (mapO id m) := mapO_perm id h

theorem strings_perm {bs : BS} {xs ys : List Val} (h : xs.Perm ys) :
    (val? (strings bs xs)).map (sortBy strLe) = (val? (strings bs ys)).map (sortBy strLe) := by
  rw [val?_strings, val?_strings, stringsO, stringsO]
  have := mapO_perm (fun x => val? (bs x)) h
  revert this
  cases mapO (fun x => val? (bs x)) xs <;> cases mapO (fun x => val? (bs x)) ys <;> simp only [PermO] <;> intro p
  · first | rfl | trivial
  · exact p.elim
  · exact p.elim
  · simp only [Option.bind_some]
    have := mapO_id_perm p
    revert this
    cases mapO id _ <;> cases mapO id _ <;> simp only [PermO] <;> intro q
    · first | rfl | trivial
    · exact q.elim
    · exact q.elim
    · simp only [Option.map_some, sort_strLe_perm q]

theorem val?_kvStr {bs : BS} {a b : Str × Val} (h : SameKV bs a b) : val? (kvStr bs a) = val? (kvStr bs b) := by
  obtain ⟨k, v⟩ := a
  obtain ⟨k', v'⟩ := b
  obtain ⟨h1, h2⟩ := h
  simp only [SameText] at h1 h2
  subst h1
  simp only [kvStr]
  revert h2
  cases bs v <;> cases bs v' <;> simp [val?]
  intro h; rw [h]

theorem idStr_same {bs : BS} {n : Str} {c c' : Conf} {nk : List Str} {o : Option Str} {f : Bool}
    (h : All2 (SameKV bs) c c') :
    val? (idStr bs { name := n, conf := c, nonids := nk, out := o } f) =
      val? (idStr bs { name := n, conf := c', nonids := nk, out := o } f) := by
  have h1 : All2 (SameKV bs) (idItems { name := n, conf := c, nonids := nk, out := o } f)
      (idItems { name := n, conf := c', nonids := nk, out := o } f) := by
    simp only [idItems]
    apply All2.filter
    · intro a b hab; rw [hab.1]
    · apply All2.sortBy _ h
      intro a b c d hab hcd
      simp only [keyLe, hab.1, hcd.1]
  have h2 : val? (mapR (kvStr bs) (idItems { name := n, conf := c, nonids := nk, out := o } f)) =
      val? (mapR (kvStr bs) (idItems { name := n, conf := c', nonids := nk, out := o } f)) := by
    rw [val?_mapR, val?_mapR]
    exact h1.mapO fun a b hab => val?_kvStr hab
  simp only [idStr]
  revert h2
  cases mapR (kvStr bs) (idItems { name := n, conf := c, nonids := nk, out := o } f) <;>
    cases mapR (kvStr bs) (idItems { name := n, conf := c', nonids := nk, out := o } f) <;> simp [val?]
  intro h; rw [h]

theorem val?_dkvStr {bs : BS} {a b : Val × Val} (h : SameDKV bs a b) : val? (dkvStr bs a) = val? (dkvStr bs b) := by
  obtain ⟨k, v⟩ := a
  obtain ⟨k', v'⟩ := b
  obtain ⟨h1, h2⟩ := h
  simp only [SameText] at h1 h2
  simp only [dkvStr]
  revert h1 h2
  cases bs k <;> cases bs k' <;> cases bs v <;> cases bs v' <;> simp [val?]
  intro h1 h2; rw [h1, h2]

theorem dictStr_same {bs : BS} {a b : List (Val × Val)} (h : All2 (SameDKV bs) a b) :
    val? (dictStr bs a) = val? (dictStr bs b) := by
  simp only [dictStr, val?_map, val?_mapR]
  rw [h.mapO fun a b hab => val?_dkvStr hab]

theorem dictStr_perm {bs : BS} {a b : List (Val × Val)} (h : a.Perm b) :
    val? (dictStr bs a) = val? (dictStr bs b) := by
  simp only [dictStr, val?_map, val?_mapR]
  have := mapO_perm (fun x => val? (dkvStr bs x)) h
  revert this
  cases mapO _ a <;> cases mapO _ b <;> simp only [PermO] <;> intro p
  · first | rfl | trivial
  · exact p.elim
  · exact p.elim
  · simp only [Option.map_some, sort_strLe_perm p]

/-! ### dictionaries with pointwise equal texts -/

theorem dset_same {bs : BS} {c c' : Conf} (h : All2 (SameKV bs) c c') (k : Str) {v v' : Val}
    (hv : SameText bs v v') : All2 (SameKV bs) (dset c k v) (dset c' k v') := by
  induction h with
  | nil => exact .cons ⟨rfl, hv⟩ .nil
  | @cons a b l m hr hrest ih =>
    obtain ⟨ka, va⟩ := a
    obtain ⟨kb, vb⟩ := b
    obtain ⟨h1, h2⟩ := hr
    simp only at h1; subst h1
    simp only [dset]
    split
    · exact .cons ⟨rfl, hv⟩ hrest
    · exact .cons ⟨rfl, h2⟩ ih

theorem dupdate_same {bs : BS} {c c' e e' : Conf} (h : All2 (SameKV bs) c c') (he : All2 (SameKV bs) e e') :
    All2 (SameKV bs) (dupdate c e) (dupdate c' e') := by
  induction he generalizing c c' with
  | nil => exact h
  | @cons a b l m hr _ ih =>
    simp only [dupdate, List.foldl_cons]
    have := dset_same h a.1 hr.2
    rw [hr.1] at this ⊢
    exact ih this

theorem dictOf_same {bs : BS} {e e' : Conf} (he : All2 (SameKV bs) e e') :
    All2 (SameKV bs) (dictOf e) (dictOf e') := dupdate_same .nil he

theorem trimDict_same {bs : BS} {o : WhatOpts} {e e' : Conf} (he : All2 (SameKV bs) e e') :
    All2 (SameKV bs) (trimDict o e) (trimDict o e') := by
  apply All2.filter _ he
  intro a b hab; rw [hab.1]

theorem configDict_same {bs : BS} {o : WhatOpts} {s s' : Srcs} (h1 : All2 (SameKV bs) s.cd s'.cd)
    (h2 : All2 (SameKV bs) s.dd s'.dd) (h3 : All2 (SameKV bs) s.sd s'.sd) (h4 : All2 (SameKV bs) s.pd s'.pd) :
    All2 (SameKV bs) (configDictOfSrcs o s) (configDictOfSrcs o s') := by
  have step : ∀ (b : Bool) {c c' e e' : Conf}, All2 (SameKV bs) c c' → All2 (SameKV bs) e e' →
      All2 (SameKV bs) (if b = true then dupdate c e else c) (if b = true then dupdate c' e' else c') := by
    intro b c c' e e' hc he
    cases b
    · exact hc
    · exact dupdate_same hc he
  exact step _ (step _ (step _ (step _ .nil h1) h2) h3) h4

theorem zip_same {bs : BS} (args : List Str) {xs ys : List Val} (h : All2 (SameText bs) xs ys) :
    All2 (SameKV bs) (args.zip xs) (args.zip ys) := by
  induction h generalizing args with
  | nil => simp; exact .nil
  | cons hr _ ih =>
    cases args with
    | nil => exact .nil
    | cons a as => exact .cons ⟨rfl, hr⟩ (ih as)

theorem any_same {bs : BS} {c c' : Conf} (h : All2 (SameKV bs) c c') (p : Str → Bool) :
    (c.any fun e => p e.1) = c'.any fun e => p e.1 := by
  induction h with
  | nil => rfl
  | cons hr _ ih => simp only [List.any_cons, hr.1, ih]

theorem dget_same {bs : BS} {c c' : Conf} (h : All2 (SameKV bs) c c') (k : Str) :
    (dget c k).isSome = (dget c' k).isSome := by
  induction h with
  | nil => rfl
  | @cons a b l m hr _ ih =>
    obtain ⟨ka, va⟩ := a
    obtain ⟨kb, vb⟩ := b
    have h1 := hr.1
    simp only at h1; subst h1
    simp only [dget]
    split
    · rfl
    · exact ih

/-- Same name and pointwise same texts, or the same exception. -/
def SameCall (bs : BS) : R (Str × Conf) → R (Str × Conf) → Prop
  | .ok (n, c), .ok (n', c') => n = n' ∧ All2 (SameKV bs) c c'
  | .error e, .error e' => e = e'
  | _, _ => False

theorem funcCall_same {bs : BS} {n : Str} {args : List Str} {ds ds' pos pos' : List Val} {kw kw' : Conf}
    (hd : All2 (SameText bs) ds ds') (hp : All2 (SameText bs) pos pos') (hk : All2 (SameKV bs) kw kw') :
    SameCall bs (funcCall n args ds pos kw) (funcCall n args ds' pos' kw') := by
  simp only [funcCall, ← hd.length, ← hp.length]
  have h1 : All2 (SameKV bs) (dictOf ((pyLast ds.length args).zip ds ++ kw)) (dictOf ((pyLast ds.length args).zip ds' ++ kw')) :=
    dictOf_same ((zip_same _ hd).append hk)
  have h2 : All2 (SameKV bs) (dictOf ((args.take pos.length).zip pos)) (dictOf ((args.take pos.length).zip pos')) :=
    dictOf_same (zip_same _ hp)
  rw [any_same h1 (fun k => !args.contains k)]
  have e2 : ((dictOf ((args.take pos.length).zip pos)).any fun e => dhas (dictOf ((pyLast ds.length args).zip ds ++ kw)) e.1) =
      ((dictOf ((args.take pos.length).zip pos')).any fun e => dhas (dictOf ((pyLast ds.length args).zip ds' ++ kw')) e.1) := by
    rw [any_same h2]
    congr 1
    funext e
    exact dget_same h1 e.1
  rw [e2, h1.length]
  split
  · rfl
  split
  · rfl
  split
  · rfl
  exact ⟨rfl, dictOf_same (h1.append h2)⟩

theorem c2c_same {bs : BS} (v : Val) : ∀ (pos : List Val) (kw : Conf) (pos' : List Val) (kw' : Conf),
    All2 (SameText bs) pos pos' → All2 (SameKV bs) kw kw' →
    SameCall bs (callable2call v pos kw) (callable2call v pos' kw') := by
  intro pos kw
  induction v, pos, kw using callable2call.induct with
  | case1 pos kw n args defaults =>
    intro pos' kw' hp hk
    simp only [callable2call]
    exact funcCall_same (All2.rfl' (SameText.refl _) _) hp hk
  | case2 pos kw pl g a k args kws ih =>
    intro pos' kw' hp hk
    simp only [callable2call]
    exact ih _ _ (hp.append (All2.rfl' (SameText.refl _) _)) (dictOf_same ((All2.rfl' (SameKV.refl bs) _).append hk))
  | case3 pl f args kws pos kw hne ih =>
    intro pos' kw' hp hk
    have e : ∀ pos kw, callable2call (.part pl f args kws) pos kw = callable2call f (pos ++ args) (dictOf (kws ++ kw)) := by
      intro pos kw; rw [callable2call]; exact hne
    rw [e, e]
    exact ih _ _ (hp.append (All2.rfl' (SameText.refl _) _)) (dictOf_same ((All2.rfl' (SameKV.refl bs) _).append hk))
  | case4 => intro pos' kw' hp hk; exact ⟨rfl, hk⟩
  | case5 => intro pos' kw' hp hk; exact ⟨rfl, hk⟩
  | case6 => intro pos' kw' hp hk; exact ⟨rfl, hk⟩
  | case7 => intro pos' kw' hp hk; exact ⟨rfl, hk⟩
  | case8 => intro pos' kw' hp hk; rfl
  | case9 v pos kw h1 h2 h3 h4 h5 h6 h7 h8 =>
    intro pos' kw' hp hk
    have e : ∀ pos kw, callable2call v pos kw = .error .valueError := by
      intro pos kw; rw [callable2call] <;> assumption
    rw [e, e]; rfl

theorem buildPart_same {p : Bool} {f : Val} {args args' : List Val} {kws kws' : Conf}
    (ha : All2 (SameText buildD) args args') (hk : All2 (SameKV buildD) kws kws') :
    val? (buildD (.part p f args kws)) = val? (buildD (.part p f args' kws')) := by
  have key : SameCall buildD (callable2call (curry2partial (.part p f args kws)) [] [])
      (callable2call (curry2partial (.part p f args' kws')) [] []) := by
    have plainCase : ∀ (g : Val) (xs ys : List Val) (c d : Conf), All2 (SameText buildD) xs ys →
        All2 (SameKV buildD) c d → SameCall buildD (callable2call (.part true g xs c) [] [])
          (callable2call (.part true g ys d) [] []) := by
      intro g xs ys c d hx hc
      by_cases hg : ∃ g' a k, g = .part true g' a k
      · obtain ⟨g', a, k, rfl⟩ := hg
        simp only [callable2call]
        simp only [List.nil_append]
        exact c2c_same _ _ _ _ _ ((All2.rfl' (SameText.refl _) _).append hx)
          (dictOf_same ((dupdate_same (All2.rfl' (SameKV.refl _) _) hc).append .nil))
      · have e : ∀ xs c, callable2call (.part true g xs c) [] [] = callable2call g ([] ++ xs) (dictOf (c ++ [])) := by
          intro xs c; rw [callable2call]
          intro g' a k e; exact hg ⟨g', a, k, e⟩
        rw [e, e]
        exact c2c_same _ _ _ _ _ hx (dictOf_same (hc.append .nil))
    by_cases hf : ∃ g a k, f = .part true g a k
    · obtain ⟨g, a, k, rfl⟩ := hf
      exact plainCase _ _ _ _ _ ((All2.rfl' (SameText.refl _) _).append ha)
        (dupdate_same (All2.rfl' (SameKV.refl _) _) hk)
    · have e : ∀ xs c, curry2partial (.part p f xs c) = .part true f xs c := by
        intro xs c; rw [curry2partial]
        intro g' a k e; exact hf ⟨g', a, k, e⟩
      rw [e, e]
      exact plainCase _ _ _ _ _ ha hk
  rw [buildD_part, buildD_part]
  revert key
  cases callable2call (curry2partial (.part p f args kws)) [] [] <;>
    cases callable2call (curry2partial (.part p f args' kws')) [] [] <;> simp only [SameCall]
  · intro _; rfl
  · intro h; exact h.elim
  · intro h; exact h.elim
  · rintro ⟨h1, h2⟩
    simp only [val?_ret, h1]
    rw [idStr_same h2]

theorem dictConf_same {attrs attrs' : Conf} {s s' : Val} (h : All2 (SameKV buildD) attrs attrs')
    (hs : SameText buildD s s') : All2 (SameKV buildD) (dictConf attrs s) (dictConf attrs' s') :=
  trimDict_same (dset_same (dupdate_same .nil h) _ hs)

theorem dict_same {a b : List (Val × Val)} (h : All2 (SameDKV buildD) a b) :
    SameText buildD (.dict a) (.dict b) := by
  simp only [SameText, buildD_dict, val?_ret, dictStr_same h]

theorem itemsList_same {a b : List (Val × Val)} (h : All2 (SameDKV buildD) a b) :
    SameText buildD (itemsList a) (itemsList b) := by
  simp only [SameText, itemsList, buildD_list, val?_ret, val?_map]
  rw [strings_same]
  refine All2.map (f := fun kv : Val × Val => Val.tuple [kv.1, kv.2]) ?_ h
  intro x y hxy
  simp only [SameText, buildD_tuple, val?_ret, val?_map]
  rw [strings_same (ys := [y.1, y.2])]
  exact .cons hxy.1 (.cons hxy.2 .nil)

theorem odict_same {c : Str} {attrs attrs' : Conf} {a b : List (Val × Val)}
    (ha : All2 (SameKV buildD) attrs attrs') (h : All2 (SameDKV buildD) a b) :
    SameText buildD (.odict c attrs a) (.odict c attrs' b) := by
  simp only [SameText, buildD_odict, val?_ret]
  rw [idStr_same (dset_same (dictConf_same ha (dict_same h)) _ (itemsList_same h))]

theorem ddict_same {c : Str} {attrs attrs' : Conf} {a b : List (Val × Val)}
    (ha : All2 (SameKV buildD) attrs attrs') (h : val? (dictStr buildD a) = val? (dictStr buildD b)) :
    SameText buildD (.ddict c attrs a) (.ddict c attrs' b) := by
  simp only [SameText, buildD_ddict]
  have hs : SameText buildD (.dict a) (.dict b) := by simp only [SameText, buildD_dict, val?_ret, h]
  have := idStr_same (n := c) (nk := []) (o := none) (f := false) (dictConf_same ha hs)
  have key : val? (ret (idStr buildD { name := c, conf := dictConf attrs (.dict a) } false)) =
      val? (ret (idStr buildD { name := c, conf := dictConf attrs' (.dict b) } false)) := by
    rw [val?_ret, val?_ret, this]
  cases ha : dictStr buildD a <;> cases hb : dictStr buildD b <;> rw [ha, hb] at h
  · rfl
  · cases h
  · cases h
  · exact key

theorem obj_same {c : Str} {cl : Bool} {wh : Option WhatOpts} {s : Str} {cd cd' dd dd' sd sd' pd pd' : Conf}
    (h1 : All2 (SameKV buildD) cd cd') (h2 : All2 (SameKV buildD) dd dd') (h3 : All2 (SameKV buildD) sd sd')
    (h4 : All2 (SameKV buildD) pd pd') :
    SameText buildD (.obj c cl cd dd sd pd wh s) (.obj c cl cd' dd' sd' pd' wh s) := by
  simp only [SameText]
  cases wh with
  | none => rw [buildD_plain _ rfl, buildD_plain _ rfl]; rfl
  | some o =>
    cases cl with
    | true => rw [buildD_plain _ rfl, buildD_plain _ rfl]; rfl
    | false =>
      rw [buildD_obj, buildD_obj, val?_ret, val?_ret]
      rw [idStr_same (trimDict_same (configDict_same (s := ⟨cd, dd, sd, pd⟩) (s' := ⟨cd', dd', sd', pd'⟩) h1 h2 h3 h4))]

theorem holeKV {bs : BS} (k : Str) {a b : Val} (h : SameText bs a b) (l r : Conf) :
    All2 (SameKV bs) (l ++ (k, a) :: r) (l ++ (k, b) :: r) :=
  All2.hole (SameKV.refl bs) (show SameKV bs (k, a) (k, b) from ⟨rfl, h⟩) l r

theorem holeDK {bs : BS} {a b : Val} (h : SameText bs a b) (v : Val) (l r : List (Val × Val)) :
    All2 (SameDKV bs) (l ++ (a, v) :: r) (l ++ (b, v) :: r) :=
  All2.hole (SameDKV.refl bs) (show SameDKV bs (a, v) (b, v) from ⟨h, rfl⟩) l r

theorem holeDV {bs : BS} (k : Val) {a b : Val} (h : SameText bs a b) (l r : List (Val × Val)) :
    All2 (SameDKV bs) (l ++ (k, a) :: r) (l ++ (k, b) :: r) :=
  All2.hole (SameDKV.refl bs) (show SameDKV bs (k, a) (k, b) from ⟨rfl, h⟩) l r

/-- The congruence theorem: changes that leave the text of the changed part alone leave every text alone. -/
theorem cong_text {P : Val → Val → Prop} (hP : ∀ a b, P a b → SameText buildD a b) {a b : Val}
    (h : Cong P a b) : SameText buildD a b := by
  have rT : ∀ x : Val, SameText buildD x x := fun _ => rfl
  have rK := SameKV.refl buildD
  have rD := SameDKV.refl buildD
  induction h with
  | base h => exact hP _ _ h
  | refl => rfl
  | symm _ ih => exact Eq.symm ih
  | trans _ _ i1 i2 => exact Eq.trans i1 i2
  | tuple l r _ ih => simp only [SameText, buildD_tuple, val?_ret, val?_map]; rw [strings_same (All2.hole rT ih l r)]
  | list l r _ ih => simp only [SameText, buildD_list, val?_ret, val?_map]; rw [strings_same (All2.hole rT ih l r)]
  | set l r _ ih => simp only [SameText, buildD_set, val?_ret, val?_map]; rw [strings_same (All2.hole rT ih l r)]
  | fset l r _ ih => simp only [SameText, buildD_fset, val?_ret, val?_map]; rw [strings_same (All2.hole rT ih l r)]
  | sub k c attrs l r _ ih => simp only [SameText, buildD_sub, val?_ret, val?_map]; rw [strings_same (All2.hole rT ih l r)]
  | dictKey v l r _ ih => exact dict_same (holeDK ih _ l r)
  | dictVal v l r _ ih => exact dict_same (holeDV _ ih l r)
  | odictKey c attrs v l r _ ih => exact odict_same (All2.rfl' rK _) (holeDK ih _ l r)
  | odictVal c attrs v l r _ ih => exact odict_same (All2.rfl' rK _) (holeDV _ ih l r)
  | odictAttr c l r k kvs _ ih => exact odict_same (holeKV _ ih l r) (All2.rfl' rD _)
  | ddictKey c attrs v l r _ ih => exact ddict_same (All2.rfl' rK _) (dictStr_same (holeDK ih _ l r))
  | ddictVal c attrs v l r _ ih => exact ddict_same (All2.rfl' rK _) (dictStr_same (holeDV _ ih l r))
  | ddictAttr c l r k kvs _ ih => exact ddict_same (holeKV _ ih l r) rfl
  | what n l r k nk o _ ih => simp only [SameText, buildD_what, val?_ret]; rw [idStr_same (holeKV _ ih l r)]
  | duck n l r k nk o _ ih => simp only [SameText, buildD_duck, val?_ret]; rw [idStr_same (holeKV _ ih l r)]
  | objClass c cl l r dd sd pd k wh s _ ih =>
    exact obj_same (holeKV _ ih l r) (All2.rfl' rK _) (All2.rfl' rK _) (All2.rfl' rK _)
  | objDict c cl cd l r sd pd k wh s _ ih =>
    exact obj_same (All2.rfl' rK _) (holeKV _ ih l r) (All2.rfl' rK _) (All2.rfl' rK _)
  | objSlot c cl cd dd l r pd k wh s _ ih =>
    exact obj_same (All2.rfl' rK _) (All2.rfl' rK _) (holeKV _ ih l r) (All2.rfl' rK _)
  | objProp c cl cd dd sd l r k wh s _ ih =>
    exact obj_same (All2.rfl' rK _) (All2.rfl' rK _) (All2.rfl' rK _) (holeKV _ ih l r)
  | func n args l r _ ih =>
    have h := All2.hole rT ih l r
    simp only [SameText, buildD_func, val?_ret, h.length]
    rw [idStr_same (dictOf_same (zip_same _ h))]
  | partArg p f l r kws _ ih => exact buildPart_same (All2.hole rT ih l r) (All2.rfl' rK _)
  | partKw p f args l r k _ ih => exact buildPart_same (All2.rfl' rT _) (holeKV _ ih l r)
  | @rngTuple xs ys c _ ih =>
    have e : ∀ xs, whatareyou {} (.tuple xs) = .ok { name := c!"tuple", conf := [(c!"seq", .tuple xs)] } := fun _ => rfl
    simp only [SameText, buildD_rng, e, val?_ret, val?_map]
    have := idStr_same (n := c!"tuple") (nk := []) (o := none) (f := false) (holeKV c!"seq" ih [] [])
    simp only [List.nil_append] at this
    rw [this]
  | @rngDict xs ys c _ ih =>
    have e : ∀ xs, whatareyou {} (.dict xs) = .ok { name := c!"dict", conf := [(c!"seq", .dict xs)] } := fun _ => rfl
    simp only [SameText, buildD_rng, e, val?_ret, val?_map]
    have := idStr_same (n := c!"dict") (nk := []) (o := none) (f := false) (holeKV c!"seq" ih [] [])
    simp only [List.nil_append] at this
    rw [this]

end Whatami
