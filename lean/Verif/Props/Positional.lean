import Verif.Listing
import Verif.Props.SameToIds
import Verif.Props.Answers

/-
C19, with recursion: what flatten lists, in which order.  C94: exactly which configurations have the same positional id.
-/
namespace Whatami

theorem strLt_asymm : ∀ {a b : Str}, strLt a b → strLt b a → False := by
  intro a
  induction a with
  | nil => intro b _ h; cases h
  | cons c r ih =>
    intro b h h'
    cases h with
    | rel h1 =>
      cases h' with
      | rel h2 => omega
      | cons h2 => omega
    | cons h1 =>
      cases h' with
      | rel h2 => omega
      | cons h2 => exact ih h1 h2

theorem before_asymm : ∀ {p q : List Str}, Before p q → Before q p → False := by
  intro p q h
  induction h with
  | parent k q => intro h'; cases h'
  | sibling q q' h =>
    intro h'
    cases h' with
    | sibling _ _ h2 => exact strLt_asymm h h2
    | inside _ _ => exact strLt_irrefl _ h
  | inside k h ih =>
    intro h'
    cases h' with
    | sibling _ _ h2 => exact strLt_irrefl _ h2
    | inside _ h2 => exact ih h2

theorem listing_unique {f : Bool} {w : What} {ps qs : List (List Str × Val)} (h : Listing f w ps) (h' : Listing f w qs) : ps = qs := by
  have key : ∀ ps qs : List (List Str × Val), ps.Pairwise (fun a b => Before a.1 b.1) → qs.Pairwise (fun a b => Before a.1 b.1) →
      (∀ e, e ∈ ps ↔ e ∈ qs) → ps = qs := by
    intro ps
    induction ps with
    | nil =>
      intro qs _ _ hm
      cases qs with
      | nil => rfl
      | cons b t => exact absurd ((hm b).2 (.head _)) (by simp)
    | cons a t ih =>
      intro qs h1 h2 hm
      cases qs with
      | nil => exact absurd ((hm a).1 (.head _)) (by simp)
      | cons b t' =>
        rw [List.pairwise_cons] at h1 h2
        have hab : a = b := by
          rcases List.mem_cons.1 ((hm a).1 (.head _)) with e | ha
          · exact e
          · rcases List.mem_cons.1 ((hm b).2 (.head _)) with e | hb
            · exact e.symm
            · exact (before_asymm (h1.1 b hb) (h2.1 a ha)).elim
        subst hab
        refine congrArg _ (ih t' h1.2 h2.2 fun e => ⟨fun he => ?_, fun he => ?_⟩)
        · rcases List.mem_cons.1 ((hm e).1 (.tail _ he)) with r | r
          · subst r; exact (before_asymm (h1.1 _ he) (h1.1 _ he)).elim
          · exact r
        · rcases List.mem_cons.1 ((hm e).2 (.tail _ he)) with r | r
          · subst r; exact (before_asymm (h2.1 _ he) (h2.1 _ he)).elim
          · exact r
  exact key ps qs h.1 h'.1 fun e => (h.2 e.1 e.2).trans (h'.2 e.1 e.2).symm

theorem flatten_of (srt : SortItems) (f : Bool) (w : What) :
    ∃ ps, flatten srt { nonIdsToo := f } w = .ok (ps.map fun e => (pathKey (e.1.map .str), e.2)) ∧ FlatOf f w.toVal ps := by
  obtain ⟨ps, h, hf⟩ := flattenN_of srt f (depth w.toVal) w.toVal (Nat.le_refl _)
  refine ⟨ps, ?_, hf⟩
  rw [flatten, h]
  simp [Except.map, Function.comp_def]

/-- C19. With recursion, `flatten` (without collections) lists all parameters, at any depth, each once, with the names that lead to it as its key:
parameters before their own parameters, siblings by name.  There is only one such list. -/
theorem c19_order (srt : SortItems) (f : Bool) (w : What) (hd : DictKeys w.toVal) :
    ∃ ps, Listing f w ps ∧ (∀ qs, Listing f w qs → qs = ps) ∧
      flatten srt { nonIdsToo := f } w = .ok (ps.map fun e => ((match e.1 with | [k] => .str k | p => .tuple (p.map .str)), e.2)) := by
  obtain ⟨ps, h, hf⟩ := flatten_of srt f w
  have hl : Listing f w ps := ⟨hf.order hd, hf.mem⟩
  refine ⟨ps, hl, fun qs hq => listing_unique hq hl, ?_⟩
  rw [h]
  congr 2
  funext e
  rcases e with ⟨_ | ⟨k, _ | ⟨k', p⟩⟩, x⟩ <;> rfl

/-! ### C94 -/

theorem values_of (srt : SortItems) (f : Bool) (w : What) : ∃ ps, whatValues srt { nonIdsToo := f } w = .ok (ps.map Prod.snd) ∧ FlatOf f w.toVal ps := by
  obtain ⟨ps, h, hf⟩ := flatten_of srt f w
  refine ⟨ps, ?_, hf⟩
  rw [whatValues, h]
  simp [Except.map, Function.comp_def]

theorem seen_told {v x : Val} (h : SeenAs v x) (hx : Supported x) : buildD v = buildD x := by
  have e : val? (buildD v) = val? (buildD x) := c77_text h
  have ht : buildD x = .ok (some (text (enc x))) := (knows (E := exEnv) x hx).text
  rw [ht] at e ⊢
  revert e
  cases buildD v with
  | error _ => intro e; cases e
  | ok u => intro e; exact congrArg Except.ok (Option.some.inj e)

theorem shown_list {vs : List Val} (h : ∀ v ∈ vs, ShownVal v) :
    ∃ xs : List Val, SupportedL xs ∧ (∀ x ∈ xs, DictKeys x) ∧ All2 SameShown vs xs ∧ mapR buildD vs = mapR buildD xs := by
  induction vs with
  | nil => exact ⟨[], trivial, by simp, .nil, rfl⟩
  | cons v r ih =>
    obtain ⟨x, hs, hx, hd⟩ := h v (.head _)
    obtain ⟨xs, h1, h2, h3, h4⟩ := ih fun u hu => h u (.tail _ hu)
    refine ⟨x :: xs, ⟨hx, h1⟩, ?_, .cons (cong_mono (fun _ _ h => h.imp id fun h => .inr (.inr (.inl h))) hs) h3, ?_⟩
    · intro y hy
      rcases List.mem_cons.1 hy with e | hy
      · exact e ▸ hd
      · exact h2 y hy
    · simp only [mapR, seen_told hs hx, h4]

theorem name_split : ∀ {a a' : Str} {c c' : Char} {r r' : Str}, (∀ x ∈ a, isIdChar x = true) → (∀ x ∈ a', isIdChar x = true) →
    isIdChar c = false → isIdChar c' = false → a ++ c :: r = a' ++ c' :: r' → a = a' ∧ c = c' ∧ r = r'
  | [], [], _, _, _, _, _, _, _, _, e => by simp at e; exact ⟨rfl, e⟩
  | [], x :: a', c, c', r, r', _, h', h1, _, e => by
      simp at e
      rw [e.1, h' x (.head _)] at h1; cases h1
  | x :: a, [], c, c', r, r', h, _, _, h2, e => by
      simp at e
      rw [← e.1, h x (.head _)] at h2; cases h2
  | x :: a, x' :: a', c, c', r, r', h, h', h1, h2, e => by
      simp only [List.cons_append, List.cons.injEq] at e
      obtain ⟨e1, e2⟩ := e
      obtain ⟨e3, e4⟩ := name_split (fun y hy => h y (.tail _ hy)) (fun y hy => h' y (.tail _ hy)) h1 h2 e2
      exact ⟨by rw [e1, e3], e4⟩

theorem wrap_split {n n' : Str} {o o' : Option Str} {s s' : Str} (hn : Ident n) (hn' : Ident n') (ho : ∀ x, o = some x → Ident x)
    (ho' : ∀ x, o' = some x → Ident x) (e : wrapId n o s = wrapId n' o' s') : n = n' ∧ o = o' ∧ s = s' := by
  have ch : ∀ {x : Str}, Ident x → ∀ y ∈ x, isIdChar y = true := by
    rintro x ⟨c, r, rfl, h1, h2⟩ y hy
    rcases List.mem_cons.1 hy with rfl | hy
    · simp only [isIdStart, isIdChar, Bool.or_eq_true] at h1 ⊢; tauto
    · exact List.all_eq_true.1 h2 y hy
  have fin : ∀ {s s' : Str}, s ++ [')'] = s' ++ [')'] → s = s' := fun h => (List.append_inj' h rfl).1
  cases o with
  | none =>
    cases o' with
    | none =>
      simp only [wrapId, List.append_assoc] at e
      obtain ⟨h1, -, h3⟩ := name_split (ch hn) (ch hn') (c := '(') (c' := '(') rfl rfl e
      exact ⟨h1, rfl, fin h3⟩
    | some x' =>
      simp only [wrapId, List.append_assoc] at e
      obtain ⟨-, h2, -⟩ := name_split (ch hn) (ch (ho' _ rfl)) (c := '(') (c' := '=') rfl rfl e
      exact absurd h2 (by decide)
  | some x =>
    cases o' with
    | none =>
      simp only [wrapId, List.append_assoc] at e
      obtain ⟨-, h2, -⟩ := name_split (ch (ho _ rfl)) (ch hn') (c := '=') (c' := '(') rfl rfl e
      exact absurd h2 (by decide)
    | some x' =>
      simp only [wrapId, List.append_assoc] at e
      obtain ⟨h1, -, h3⟩ := name_split (ch (ho _ rfl)) (ch (ho' _ rfl)) (c := '=') (c' := '=') rfl rfl e
      obtain ⟨h4, -, h6⟩ := name_split (ch hn) (ch hn') (c := '(') (c' := '(') rfl rfl h3
      exact ⟨h4, by rw [h1], fin h6⟩

/-- The text of a list of supported values. -/
theorem list_text {xs : List Val} (h : SupportedL xs) : strings buildD xs = .ok ((encL xs).map text) ∧
    text (enc (.list xs)) = bracket c!"[" c!"]" ((encL xs).map text) ∧ Loose (enc (.list xs)) := by
  have hk := knows (E := exEnv) (.list xs) (by simpa only [Supported] using h)
  have hs : strings buildD xs = .ok ((encL xs).map text) := strings_text fun x hx => (knows (E := exEnv) x (supportedL_iff.1 h x hx)).text
  refine ⟨hs, ?_, hk.loose⟩
  have := hk.text
  simp only [TextOf, buildD_list, hs, Except.map, ret] at this
  exact (Option.some.inj (Except.ok.inj this)).symm

theorem told_of_join {xs xs' : List Val} (h : SupportedL xs) (h' : SupportedL xs') (e : pyJoin c!"," ((encL xs).map text) = pyJoin c!"," ((encL xs').map text)) :
    xs.map toldAst = xs'.map toldAst := by
  obtain ⟨-, h1, h2⟩ := list_text h
  obtain ⟨-, h1', h2'⟩ := list_text h'
  have := blur_of_text h2 h2' (by rw [h1, h1', bracket, bracket, e])
  simp only [enc, blur, Ast.list.injEq] at this
  rw [blurL_map, blurL_map, encL_map, encL_map, List.map_map, List.map_map] at this
  exact this

theorem same_of_told : ∀ {xs xs' : List Val}, SupportedL xs → SupportedL xs' → (∀ x ∈ xs, DictKeys x) → (∀ x ∈ xs', DictKeys x) →
    xs.map toldAst = xs'.map toldAst → All2 SameShown xs xs'
  | [], [], _, _, _, _, _ => .nil
  | [], _ :: _, _, _, _, _, e => by cases e
  | _ :: _, [], _, _, _, _, e => by cases e
  | x :: xs, x' :: xs', h, h', hd, hd', e => by
      simp only [List.map_cons, List.cons.injEq] at e
      have h1 := cong_told x h.1 (hd x (.head _))
      have h2 := cong_told x' h'.1 (hd' x' (.head _))
      have : toldBy x = toldBy x' := congrArg (dec true) e.1
      rw [this] at h1
      exact .cons (cong_mono (fun _ _ h => .inr h) (.trans h1 (.symm h2)))
        (same_of_told h.2 h'.2 (fun y hy => hd y (.tail _ hy)) (fun y hy => hd' y (.tail _ hy)) e.2)

theorem All2.nth {α : Type} {R : α → α → Prop} {l m : List α} (h : All2 R l m) (i : Nat) (x y : α) (hx : l[i]? = some x) (hy : m[i]? = some y) : R x y := by
  induction h generalizing i with
  | nil => simp at hx
  | cons hr _ ih =>
    cases i with
    | zero => simp at hx hy; subst hx hy; exact hr
    | succ i => exact ih i (by simpa using hx) (by simpa using hy)

theorem All2.sameList {vs vs' : List Val} (h : All2 SameShown vs vs') : SameList vs vs' := ⟨h.length, fun i v v' h1 h2 => h.nth i v v' h1 h2⟩

theorem SameList.all2 : ∀ {vs vs' : List Val}, SameList vs vs' → All2 SameShown vs vs'
  | [], [], _ => .nil
  | [], _ :: _, h => by cases h.1
  | _ :: _, [], h => by cases h.1
  | _ :: _, _ :: _, h => .cons (h.2 0 _ _ rfl rfl)
      (SameList.all2 ⟨Nat.succ.inj h.1, fun i v v' h1 h2 => h.2 (i + 1) v v' (by simpa using h1) (by simpa using h2)⟩)

theorem All2.flip {α : Type} {R : α → α → Prop} (hs : ∀ a b, R a b → R b a) {l m : List α} (h : All2 R l m) : All2 R m l := by
  induction h with
  | nil => exact .nil
  | cons hr _ ih => exact .cons (hs _ _ hr) ih

theorem All2.comp {α : Type} {R : α → α → Prop} (ht : ∀ a b c, R a b → R b c → R a c) {l m n : List α} (h : All2 R l m) (h' : All2 R m n) : All2 R l n := by
  induction h generalizing n with
  | nil => exact h'
  | cons hr _ ih => cases h' with | cons hr' h' => exact .cons (ht _ _ _ hr hr') (ih h')

theorem positional_of {srt : SortItems} {f : Bool} {w : What} (h : Positionable f w) :
    ∃ ps xs, Listing f w ps ∧ SupportedL xs ∧ (∀ x ∈ xs, DictKeys x) ∧ All2 SameShown (ps.map Prod.snd) xs ∧
      positionalStr srt buildD w f = .ok (wrapId w.name w.out (pyJoin c!"," ((encL xs).map text))) := by
  obtain ⟨hn, ho, hd, hv⟩ := h
  obtain ⟨ps, e, hf⟩ := values_of srt f w
  obtain ⟨xs, h1, h2, h3, h4⟩ := shown_list (vs := ps.map Prod.snd) fun v hm => by
    obtain ⟨⟨p, x⟩, hx, rfl⟩ := List.mem_map.1 hm
    exact hv p x ((hf.mem _ _).1 hx)
  refine ⟨ps, xs, ⟨hf.order hd, hf.mem⟩, h1, h2, h3, ?_⟩
  have : strings buildD (ps.map Prod.snd) = strings buildD xs := by simp only [strings, h4]
  simp only [positionalStr, e, this, (list_text h1).1, Except.map]

/-- C94. The positional id always exists, and two configurations have the same one if and only if they have the same name and out_name, and the same
values, one by one, but for what ids do not show: values of parameters at any depth, in the order of the names that lead to them. -/
theorem c94_same {srt : SortItems} {f : Bool} {w w' : What} (h : Positionable f w) (h' : Positionable f w') :
    (∃ s, positionalStr srt buildD w f = .ok s) ∧
    (positionalStr srt buildD w f = positionalStr srt buildD w' f ↔
      w.name = w'.name ∧ w.out = w'.out ∧ ∀ ps ps', Listing f w ps → Listing f w' ps' → SameList (ps.map Prod.snd) (ps'.map Prod.snd)) := by
  obtain ⟨ps, xs, hl, h1, h2, h3, e⟩ := positional_of (srt := srt) h
  obtain ⟨ps', xs', hl', h1', h2', h3', e'⟩ := positional_of (srt := srt) h'
  refine ⟨⟨_, e⟩, ?_⟩
  rw [e, e']
  constructor
  · intro he
    obtain ⟨hn, ho, hj⟩ := wrap_split h.1 h'.1 h.2.1 h'.2.1 (Except.ok.inj he)
    refine ⟨hn, ho, fun qs qs' hq hq' => ?_⟩
    rw [listing_unique hq hl, listing_unique hq' hl']
    have := same_of_told h1 h1' h2 h2' (told_of_join h1 h1' hj)
    exact (All2.comp (fun _ _ _ => .trans) h3 (All2.comp (fun _ _ _ => .trans) this (h3'.flip fun _ _ => .symm))).sameList
  · rintro ⟨hn, ho, hs⟩
    have hs := (hs ps ps' hl hl').all2
    have h5 : All2 SameShown xs xs' := All2.comp (fun _ _ _ => .trans) (h3.flip fun _ _ => .symm) (All2.comp (fun _ _ _ => .trans) hs h3')
    have : All2 (SameText buildD) xs xs' := h5.imp fun _ _ h => cong_text (fun _ _ hp => hp.elim standIn_text collide_text) h
    have hv : val? (strings buildD xs) = val? (strings buildD xs') := by
      rw [val?_strings, val?_strings]; simp only [stringsO]; rw [this.mapO fun _ _ h => h]
    rw [(list_text h1).1, (list_text h1').1] at hv
    rw [hn, ho, Option.some.inj hv]

theorem supported_param : ∀ {v : Val} {p : List Str} {x : Val}, ParamAt false v p x → Supported v → DictKeys v → Supported x ∧ DictKeys x := by
  intro v p x h
  induction h with
  | here hm hk =>
    intro hs hd
    simp only [Supported] at hs
    exact ⟨(supportedA_iff.1 hs.2.2 _ _ hm (by simpa using hk)).2, dictKeys_child hd (.what _ _ _ _ hm)⟩
  | deeper hm hk _ ih =>
    intro hs hd
    simp only [Supported] at hs
    exact ih (supportedA_iff.1 hs.2.2 _ _ hm (by simpa using hk)).2 (dictKeys_child hd (.what _ _ _ _ hm))

/-- C94. Configurations of data and Whats (any strings, any names) are among those that C94 is about. -/
theorem supported_positionable {w : What} (h : SupportedWhat w) (hd : DictKeys w.toVal) : Positionable false w := by
  have h0 := h
  simp only [SupportedWhat, What.toVal, Supported] at h0
  exact ⟨h0.2.1, h0.1, hd, fun p x hp => ⟨x, .refl _, supported_param hp h hd⟩⟩

/-- C94. For configurations of data and Whats, the positional id (without the non-id parameters) is determined by the id. -/
theorem c94_from_id {srt : SortItems} {w w' : What} (h : SupportedWhat w) (h' : SupportedWhat w') (hd : DictKeys w.toVal) (hd' : DictKeys w'.toVal)
    (e : idD w = idD w') : positionalStr srt buildD w false = positionalStr srt buildD w' false := by
  obtain ⟨ho, hn, -, -⟩ := c90_parts h h' hd hd' e
  refine (c94_same (supported_positionable h hd) (supported_positionable h' hd')).2.2 ⟨hn, ho, fun ps ps' hl hl' => ?_⟩
  obtain ⟨qs, -, hf⟩ := values_of srt false w
  obtain ⟨qs', -, hf'⟩ := values_of srt false w'
  rw [listing_unique hl ⟨hf.order hd, hf.mem⟩, listing_unique hl' ⟨hf'.order hd', hf'.mem⟩]
  rw [(supported_id h).1, (supported_id h').1] at e
  have hb : toldAst w.toVal = toldAst w'.toVal := blur_of_text (supported_id h).2 (supported_id h').2 (Except.ok.inj e)
  have ht := hf.told rfl h
  rw [hb, ← hf'.told rfl h'] at ht
  have sup : ∀ {w : What} {qs : List (List Str × Val)}, SupportedWhat w → DictKeys w.toVal → FlatOf false w.toVal qs →
      ∀ x ∈ qs.map Prod.snd, Supported x ∧ DictKeys x := by
    intro w qs h hd hf x hx
    obtain ⟨⟨p, y⟩, hy, rfl⟩ := List.mem_map.1 hx
    exact supported_param ((hf.mem _ _).1 hy) h hd
  exact (same_of_told (supportedL_iff.2 fun x hx => (sup h hd hf x hx).1) (supportedL_iff.2 fun x hx => (sup h' hd' hf' x hx).1)
    (fun x hx => (sup h hd hf x hx).2) (fun x hx => (sup h' hd' hf' x hx).2) ht).sameList

/-- C94. The names of the parameters (not of the parameters of Whats among the values, which show in their ids) do not show but for their order: any
other names in the same order give the same positional id. -/
theorem c94_renamed {srt : SortItems} {f : Bool} {w w' : What} (h : Positionable f w) (h' : Positionable f w') (hn : w.name = w'.name) (ho : w.out = w'.out)
    (g : Str → Str)
    (same : ∀ k' x, ((k', x) ∈ w'.conf ∧ (f = true ∨ k' ∉ w'.nonids)) ↔ ∃ k, k' = g k ∧ (k, x) ∈ w.conf ∧ (f = true ∨ k ∉ w.nonids))
    (mono : ∀ k k', k ∈ w.conf.map Prod.fst → k' ∈ w.conf.map Prod.fst → strLt k k' → strLt (g k) (g k')) :
    positionalStr srt buildD w f = positionalStr srt buildD w' f := by
  refine (c94_same h h').2.2 ⟨hn, ho, fun ps ps' hl hl' => ?_⟩
  have at_iff : ∀ p' x, ParamAt f w'.toVal p' x ↔ ∃ k p, p' = g k :: p ∧ ParamAt f w.toVal (k :: p) x := by
    intro p' x
    constructor
    · intro hp
      simp only [What.toVal] at hp
      cases hp with
      | here hm hk =>
        obtain ⟨k, rfl, h1, h2⟩ := (same _ _).1 ⟨hm, hk⟩
        exact ⟨k, [], rfl, .here h1 h2⟩
      | deeper hm hk hq =>
        obtain ⟨k, rfl, h1, h2⟩ := (same _ _).1 ⟨hm, hk⟩
        exact ⟨k, _, rfl, .deeper h1 h2 hq⟩
    · rintro ⟨k, p, rfl, hp⟩
      simp only [What.toVal] at hp
      cases hp with
      | here hm hk =>
        obtain ⟨h1, h2⟩ := (same _ _).2 ⟨k, rfl, hm, hk⟩
        exact .here h1 h2
      | deeper hm hk hq =>
        obtain ⟨h1, h2⟩ := (same _ _).2 ⟨k, rfl, hm, hk⟩
        exact .deeper h1 h2 hq
  have key : ∀ {p x}, ParamAt f w.toVal p x → ∃ k q, p = k :: q ∧ k ∈ w.conf.map Prod.fst := by
    intro p x hp
    simp only [What.toVal] at hp
    cases hp with
    | here hm _ => exact ⟨_, _, rfl, List.mem_map.2 ⟨_, hm, rfl⟩⟩
    | deeper hm _ _ => exact ⟨_, _, rfl, List.mem_map.2 ⟨_, hm, rfl⟩⟩
  let ren : List Str × Val → List Str × Val := fun e => ((match e.1 with | [] => [] | k :: q => g k :: q), e.2)
  have hl2 : Listing f w' (ps.map ren) := by
    refine ⟨List.pairwise_map.2 (hl.1.imp_of_mem ?_), fun p' x => ?_⟩
    · rintro ⟨p, x⟩ ⟨q, y⟩ ha hb hbef
      obtain ⟨k, p, rfl, hk⟩ := key ((hl.2 _ _).1 ha)
      obtain ⟨k', q, rfl, hk'⟩ := key ((hl.2 _ _).1 hb)
      cases hbef with
      | sibling _ _ hlt => exact .sibling _ _ (mono _ _ hk hk' hlt)
      | inside _ hin => exact .inside _ hin
    · rw [at_iff]
      constructor
      · intro hm
        obtain ⟨⟨p, y⟩, hy, e⟩ := List.mem_map.1 hm
        have hp := (hl.2 _ _).1 hy
        obtain ⟨k, q, rfl, -⟩ := key hp
        cases e
        exact ⟨k, q, rfl, hp⟩
      · rintro ⟨k, p, rfl, hp⟩
        exact List.mem_map.2 ⟨(k :: p, x), (hl.2 _ _).2 hp, rfl⟩
  rw [listing_unique hl' hl2, List.map_map]
  have : (Prod.snd ∘ ren) = Prod.snd := rfl
  rw [this]
  exact (All2.rfl' (fun _ => .refl _) _).sameList

/-- C94. Objects are not like Whats: an object whose what() gives a What has the id of that What, but its parameters are not listed.  So the same id does
not imply the same positional id, and a What among the values may be mistaken for an object and one more parameter. -/
theorem c94_not_from_id (srt : SortItems) : ∃ w w' u : What, idD w = idD w' ∧ positionalStr srt buildD w false ≠ positionalStr srt buildD w' false ∧
    positionalStr srt buildD w false = positionalStr srt buildD u false ∧ idD w ≠ idD u := by
  refine ⟨⟨c!"f", [(c!"a", .what c!"g" [(c!"x", .int 1)] [] none)], [], none⟩, ⟨c!"f", [(c!"a", .duck c!"g" [(c!"x", .int 1)] [] none)], [], none⟩,
    ⟨c!"f", [(c!"a", .duck c!"g" [(c!"x", .int 1)] [] none), (c!"b", .int 1)], [], none⟩, by rfl, ?_, by rfl, ?_⟩
  · intro h
    have h1 : positionalStr srt buildD ⟨c!"f", [(c!"a", .what c!"g" [(c!"x", .int 1)] [] none)], [], none⟩ false = .ok c!"f(g(x=1),1)" := by rfl
    have h2 : positionalStr srt buildD ⟨c!"f", [(c!"a", .duck c!"g" [(c!"x", .int 1)] [] none)], [], none⟩ false = .ok c!"f(g(x=1))" := by rfl
    rw [h1, h2] at h
    exact absurd (Except.ok.inj h) (by decide)
  · intro h
    have h1 : idD ⟨c!"f", [(c!"a", .what c!"g" [(c!"x", .int 1)] [] none)], [], none⟩ = .ok c!"f(a=g(x=1))" := by rfl
    have h2 : idD ⟨c!"f", [(c!"a", .duck c!"g" [(c!"x", .int 1)] [] none), (c!"b", .int 1)], [], none⟩ = .ok c!"f(a=g(x=1),b=1)" := by rfl
    rw [h1, h2] at h
    exact absurd (Except.ok.inj h) (by decide)

/-- C94. With the non-id parameters: configurations with the same id may differ in them at any depth, and it shows. -/
theorem c94_nonids (srt : SortItems) : ∃ w w' : What, idD w = idD w' ∧ idStr buildD w true = idStr buildD w' true ∧
    positionalStr srt buildD w true ≠ positionalStr srt buildD w' true := by
  refine ⟨⟨c!"f", [(c!"a", .what c!"g" [(c!"x", .int 1)] [c!"x"] none)], [], none⟩, ⟨c!"f", [(c!"a", .what c!"g" [(c!"x", .int 2)] [c!"x"] none)], [], none⟩,
    by rfl, by rfl, ?_⟩
  intro h
  have h1 : positionalStr srt buildD ⟨c!"f", [(c!"a", .what c!"g" [(c!"x", .int 1)] [c!"x"] none)], [], none⟩ true = .ok c!"f(g(),1)" := by rfl
  have h2 : positionalStr srt buildD ⟨c!"f", [(c!"a", .what c!"g" [(c!"x", .int 2)] [c!"x"] none)], [], none⟩ true = .ok c!"f(g(),2)" := by rfl
  rw [h1, h2] at h
  exact absurd (Except.ok.inj h) (by decide)

/-- C90, for full ids, those of `str(what)` and `id(nonids_too=True)`: the same if and only if the configurations are the same but for what ids do not
show, where all the parameters of the configuration itself do show. -/
theorem c90_full {w w' : What} (h : Showable { w with nonids := [] }) (h' : Showable { w' with nonids := [] }) :
    idStr buildD w true = idStr buildD w' true ↔ SameToIds { w with nonids := [] } { w' with nonids := [] } := by
  rw [idStr_nonidsToo, idStr_nonidsToo]
  exact c90_same_to_ids h h'

/-! ### Examples -/

/-- A configuration with a What that has parameters of its own, one of which is no id parameter. -/
def exListed : What := ⟨c!"rf", [(c!"b", .what c!"tree" [(c!"z", .int 2), (c!"d", .str c!"it's"), (c!"v", .bool true)] [c!"v"] none), (c!"a", .list [.int 1])],
  [], some c!"y"⟩

theorem exListed_dict : DictKeys exListed.toVal := by
  intro n c nk o h
  rcases within_cases h with e | ⟨y, hw, hy⟩
  · cases e; exact (by decide : [c!"b", c!"a"].Nodup)
  · cases hy with
    | what k _ _ _ hm =>
      simp [exListed] at hm
      rcases hm with ⟨-, rfl⟩ | ⟨-, rfl⟩
      · rcases within_cases hw with e | ⟨z, hw', hz⟩
        · cases e; exact (by decide : [c!"z", c!"d", c!"v"].Nodup)
        · cases hz with
          | what k' _ _ _ hm' =>
            simp at hm'
            rcases hm' with ⟨-, rfl⟩ | ⟨-, rfl⟩ | ⟨-, rfl⟩ <;>
              (rcases within_cases hw' with e | ⟨_, _, h⟩; cases e; cases h)
      · rcases within_cases hw with e | ⟨z, hw', hz⟩
        · cases e
        · cases hz with
          | list hm' =>
            simp at hm'
            subst hm'
            rcases within_cases hw' with e | ⟨_, _, h⟩
            · cases e
            · cases h

theorem exListed_ok : Positionable false exListed :=
  supported_positionable (by
    have id : ∀ c r, isIdStart c = true → r.all isIdChar = true → Ident (c :: r) := fun c r h h' => ⟨c, r, rfl, h, h'⟩
    simp only [SupportedWhat, exListed, What.toVal, Supported, SupportedA, SupportedL, and_true]
    refine ⟨fun x e => ?_, id _ _ (by decide) (by decide), fun _ => ⟨id _ _ (by decide) (by decide), ?_, id _ _ (by decide) (by decide),
      fun _ => id _ _ (by decide) (by decide), fun _ => id _ _ (by decide) (by decide), fun _ => id _ _ (by decide) (by decide)⟩,
      fun _ => id _ _ (by decide) (by decide)⟩
    · cases e; exact id _ _ (by decide) (by decide)
    · simp) exListed_dict

example : positionalStr srtId buildD exListed false = .ok c!"y=rf([1],tree(d='it\\'s',z=2),'it\\'s',2)" := by rfl

end Whatami
