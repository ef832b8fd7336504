/-
The operation `user` does not look at the password hash of an account unless it is asked to set one.
-/
import Verif.Ops.PasswordSpec
import Verif.Ops.System

namespace Verif.Ops

open Script
open Client (Prog)
open Wire (Packet)

variable {α β γ δ : Type} {env : Env}

/-- Two programs that make the same requests as long as they get the same answers but for password hashes, with related results. -/
inductive Hides (R : α → β → Prop) : Prog α → Prog β → Prop where
  | ret {a : α} {b : β} : R a b → Hides R (.ret a) (.ret b)
  | req {p : Packet} {k : Except Exn Packet → Prog α} {k' : Except Exn Packet → Prog β} : (∀ x x', SameButHashAnswer x x' → Hides R (k x) (k' x')) →
      Hides R (.req p k) (.req p k')

theorem Hides.bind {R : α → β → Prop} {S : γ → δ → Prop} {m : Prog α} {m' : Prog β} {f : α → Prog γ} {f' : β → Prog δ} (h : Hides R m m')
    (hf : ∀ a b, R a b → Hides S (f a) (f' b)) : Hides S (m.bind f) (m'.bind f') := by
  induction h with
  | ret hr => exact hf _ _ hr
  | req _ ih => exact .req ih

theorem Hides.runs {R : α → β → Prop} {m : Prog α} {m' : Prog β} (h : Hides R m m') {t t' : Trace} {a : α} (hr : Prog.Runs m t a) (ht : SameButHash t t') :
    ∃ b, Prog.Runs m' t' b ∧ R a b := by
  induction h generalizing t t' with
  | ret hr' =>
    obtain ⟨rfl, rfl⟩ := runs_ret.mp hr
    cases ht
    exact ⟨_, .ret _, hr'⟩
  | req _ ih =>
    cases hr with
    | req _ _ r t _ hr =>
      cases ht with
      | cons _ hx ht =>
        obtain ⟨b, h1, h2⟩ := ih _ _ hx hr ht
        exact ⟨b, .req _ _ _ _ _ h1, h2⟩

/-- Related ends: the same exception, or related values. -/
def EndRel (R : α → β → Prop) : Except Exn α → Except Exn β → Prop
  | .ok a, .ok b => R a b
  | .error e, .error e' => e = e'
  | _, _ => False

/-- The same for code in scripts: started in related states, it ends in related states. -/
def Conceals (env : Env) (S : St → St → Prop) (R : α → β → Prop) (S' : St → St → Prop) (m : Op α) (m' : Op β) : Prop :=
  ∀ st st', S st st' → Hides (fun x y => EndRel R x.1 y.1 ∧ (match x.1 with | .ok _ => S' x.2 y.2 | .error _ => S x.2 y.2)) (m env st) (m' env st')

variable {S S' S'' : St → St → Prop}

theorem Conceals.pure {R : α → β → Prop} {a : α} {b : β} (h : R a b) : Conceals env S R S (Op.pure a) (Op.pure b) := fun _ _ hs => .ret ⟨h, hs⟩

/-- One statement after the other, where the first keeps the states related in the same way. -/
theorem Conceals.bind {R : α → β → Prop} {Q : γ → δ → Prop} {m : Op α} {m' : Op β} {f : α → Op γ} {f' : β → Op δ}
    (h : Conceals env S R S m m') (hf : ∀ a b, R a b → Conceals env S Q S' (f a) (f' b)) : Conceals env S Q S' (m >>= f) (m' >>= f') := by
  intro st st' hs
  refine Hides.bind (h st st' hs) ?_
  rintro ⟨r, s⟩ ⟨r', s'⟩ ⟨h1, h2⟩
  cases r with
  | error e =>
    cases r' with
    | error e' => exact .ret ⟨h1, h2⟩
    | ok b => exact h1.elim
  | ok a =>
    cases r' with
    | error e' => exact h1.elim
    | ok b => exact hf a b h1 _ _ h2

theorem Conceals.ite {R : α → β → Prop} {b b' : Bool} (hb : b = b') {m n : Op α} {m' n' : Op β} (hm : b = true → Conceals env S R S' m m')
    (hn : b = false → Conceals env S R S' n n') : Conceals env S R S' (if b then m else n) (if b' then m' else n') := by
  subst hb
  cases b
  · exact hn rfl
  · exact hm rfl

/-- The states of an operation that has set both its states; nothing has been shown yet. -/
structure BothSet (i f i' f' : Dict) (s s' : St) : Prop where
  stack : s.stack = s'.stack
  shown : s.shown = s'.shown
  op : s.op = { initial := some i, final := some f }
  op' : s'.op = { initial := some i', final := some f' }

theorem SameButHashAnswer.run {x x' : Except Exn Packet} (h : SameButHashAnswer x x') : x = x' ∨ ∃ n u g i l h1 h2 c d e,
    x = .ok (.userEntry n u g i l h1 c d e) ∧ x' = .ok (.userEntry n u g i l h2 c d e) := by
  cases h with
  | same => exact .inl rfl
  | entry => exact .inr ⟨_, _, _, _, _, _, _, _, _, _, rfl, rfl⟩

theorem conceals_run {i f i' f' : Dict} (command : List Str) :
    Conceals env (BothSet i f i' f') (fun _ _ => True) (BothSet i f i' f') (runCommand command) (runCommand command) := by
  refine .bind (R := fun _ _ => True) ?_ fun _ _ _ => .pure trivial
  intro st st' hs
  show Hides _ (Prog.bind (currentDefaults env st) _) (Prog.bind (currentDefaults env st') _)
  unfold currentDefaults
  rw [← hs.stack]
  cases hst : st.stack with
  | nil => exact .ret ⟨rfl, hs⟩
  | cons d ds =>
    refine .req fun x x' hx => ?_
    rcases hx.run with rfl | ⟨n, u, g, k, l, h1, h2, c, d, e, rfl, rfl⟩
    · refine .ret ⟨?_, ?_⟩
      · dsimp only
        split
        · rfl
        · rfl
        · split <;> trivial
        · rfl
      · dsimp only
        split <;> exact hs
    · exact .ret ⟨rfl, hs⟩

/-- What `changed` gives for a key. -/
def changedAt (i f : Dict) (k : Str) : Option Bool :=
  match i.get k, f.get k with
  | some a, some b => some (!a.eq b)
  | _, _ => none

theorem conceals_changed {i f i' f' : Dict} {k : Str} (hk : changedAt i f k = changedAt i' f' k) :
    Conceals env (BothSet i f i' f') (fun b b' => b = b' ∧ changedAt i f k = some b) (BothSet i f i' f') (changed k) (changed k) := by
  intro st st' hs
  unfold changed
  rw [hs.op, hs.op']
  unfold changedAt at hk ⊢
  dsimp only
  rw [if_neg (by simp), if_neg (by simp)]
  revert hk
  rcases i.get k with _ | a <;> rcases f.get k with _ | b <;> rcases i'.get k with _ | a' <;> rcases f'.get k with _ | b' <;> intro hk <;>
    first
    | exact .ret ⟨rfl, hs⟩
    | cases hk; done
    | exact .ret ⟨⟨Option.some.inj hk, rfl⟩, hs⟩

theorem conceals_whenChanged {i f i' f' : Dict} {k : Str} (hk : changedAt i f k = changedAt i' f' k) {m m' : Op Unit}
    (hm : changedAt i f k = some true → Conceals env (BothSet i f i' f') (fun _ _ => True) (BothSet i f i' f') m m') :
    Conceals env (BothSet i f i' f') (fun _ _ => True) (BothSet i f i' f') (whenChanged k m) (whenChanged k m') :=
  .bind (conceals_changed hk) fun _ _ h => .ite h.1 (fun hb => hm (hb ▸ h.2)) fun _ => .pure trivial

theorem conceals_usermodIf {i f i' f' : Dict} {k option : Str} {v v' : Option Str} {user : Str} (hk : changedAt i f k = changedAt i' f' k)
    (hv : changedAt i f k = some true → v = v') :
    Conceals env (BothSet i f i' f') (fun _ _ => True) (BothSet i f i' f') (usermodIf k option v user) (usermodIf k option v' user) := by
  refine conceals_whenChanged hk fun h => ?_
  rw [hv h]
  cases v' with
  | none => exact .pure trivial
  | some v => exact conceals_run _

/-- The actions of `user`, if the states and targets differ at most in the hash, and not in whether it changes. -/
theorem conceals_actions {i f i' f' : Dict} (a : UserArgs) (t : UserTarget) (h h' : Option Str)
    (hk : ∀ k, k ≠ p!"password_hash" → changedAt i f k = changedAt i' f' k)
    (hadd : a.present = true → changedAt i f p!"exists" = some true → h = h')
    (hp : a.present = true → changedAt i f p!"password_hash" = changedAt i' f' p!"password_hash" ∧ (changedAt i f p!"password_hash" = some true → h = h')) :
    Conceals env (BothSet i f i' f') (fun _ _ => True) (BothSet i f i' f') (userActions a { t with passwordHash := h })
      (userActions a { t with passwordHash := h' }) := by
  refine .bind (conceals_changed (hk _ (by decide))) fun e e' he => ?_
  refine .ite he.1 (fun h1 => ?_) fun _ => ?_
  · refine .ite rfl (fun h2 => ?_) fun _ => conceals_run _
    rw [hadd h2 (h1 ▸ he.2)]
    exact conceals_run _
  · refine .ite rfl (fun h2 => ?_) fun _ => .pure trivial
    exact .bind (conceals_usermodIf (hk _ (by decide)) fun _ => rfl) fun _ _ _ => .bind (conceals_usermodIf (hk _ (by decide)) fun _ => rfl) fun _ _ _ =>
      .bind (conceals_usermodIf (hk _ (by decide)) fun _ => rfl) fun _ _ _ => .bind (conceals_usermodIf (hk _ (by decide)) fun _ => rfl) fun _ _ _ =>
      .bind (conceals_usermodIf (hk _ (by decide)) fun _ => rfl) fun _ _ _ => .bind (conceals_usermodIf (hk _ (by decide)) fun _ => rfl) fun _ _ _ =>
      conceals_usermodIf (hp h2).1 (hp h2).2

/-! ### States -/

/-- Initial and final states that differ in the password hash only, such that this does not show. -/
structure Unseen (i f i' f' : Dict) : Prop where
  eq : i.eq f = i'.eq f'
  printable : Script.printable i f = Script.printable i' f'
  infos : ∀ (o : Run.Options) (repr : Val → Str), o.verbose = 0 → Run.stateInfos o repr i f = Run.stateInfos o repr i' f'
  initial : withoutHash i = withoutHash i'
  final : withoutHash f = withoutHash f'

theorem Unseen.rfl {i f : Dict} : Unseen i f i f := ⟨Eq.refl _, Eq.refl _, fun _ _ _ => Eq.refl _, Eq.refl _, Eq.refl _⟩

theorem infos_congr (o : Run.Options) (repr : Val → Str) {i i' : Dict} : ∀ f : Dict, (∀ k, k ∈ f.map (·.1) → i.get k = i'.get k) →
    Run.stateInfos o repr i f = Run.stateInfos o repr i' f
  | [], _ => Eq.refl _
  | (k, v) :: f, h => by
    simp only [Run.stateInfos]
    rw [infos_congr o repr f fun k hk => h k (List.mem_cons_of_mem _ hk), h k (List.mem_cons_self ..)]

theorem infos_snoc (o : Run.Options) (repr : Val → Str) (ho : o.verbose = 0) {i : Dict} {k : Str} {v : Val}
    (h : v.isNull = true ∨ (i.get k = some v ∧ v.eq v = true)) : ∀ f : Dict, Run.stateInfos o repr i (f ++ [(k, v)]) = Run.stateInfos o repr i f
  | [] => by
    rcases h with h | ⟨h1, h2⟩
    · simp [Run.stateInfos, h]
    · simp [Run.stateInfos, h1, Run.stateInfo, h2, ho]
  | (k', v') :: f => by
    simp only [List.cons_append, Run.stateInfos]
    rw [infos_snoc o repr ho h f]

theorem hashVal_eq (x : Option Str) : (Val.optStr x).eq (Val.optStr x) = true := by
  cases x <;> simp [Val.optStr, Val.eq]

/-- The states of an account that stays. -/
theorem unseen_present (e1 e2 : Bool) (u1 u2 : Option Int) (g1 g2 : Option Str) (l1 l2 : List Str) (c1 c2 d1 d2 s1 s2 h h' : Option Str) :
    Unseen (userState e1 u1 g1 l1 c1 d1 s1 h) (userState e2 u2 g2 l2 c2 d2 s2 h) (userState e1 u1 g1 l1 c1 d1 s1 h') (userState e2 u2 g2 l2 c2 d2 s2 h') := by
  have hget : ∀ h : Option Str, Dict.get (userState e1 u1 g1 l1 c1 d1 s1 h) p!"password_hash" = some (.optStr h) := fun _ => by
    simp [userState, Dict.get]
  refine ⟨?_, ?_, fun o repr ho => ?_, by simp [withoutHash, userState], by simp [withoutHash, userState]⟩
  · simp [Dict.eq, Dict.within, userState, eqAt, Dict.get, hashVal_eq]
  · simp [Script.printable, userState, Dict.get]
  · have hsplit : ∀ h : Option Str, userState e2 u2 g2 l2 c2 d2 s2 h = (userState e2 u2 g2 l2 c2 d2 s2 h).dropLast ++ [(p!"password_hash", .optStr h)] := fun _ => Eq.refl _
    rw [hsplit h, hsplit h', infos_snoc o repr ho (.inr ⟨hget h, hashVal_eq h⟩), infos_snoc o repr ho (.inr ⟨hget h', hashVal_eq h'⟩)]
    refine infos_congr o repr _ fun k hk => ?_
    simp only [userState, List.dropLast, List.map, List.mem_cons, List.not_mem_nil, or_false] at hk
    rcases hk with rfl | rfl | rfl | rfl | rfl | rfl | rfl <;> simp [userState, Dict.get]

/-- The states of an account that is removed. -/
theorem unseen_absent (u1 : Option Int) (g1 : Option Str) (l1 : List Str) (c1 d1 s1 h h' : Option Str) :
    Unseen (userState true u1 g1 l1 c1 d1 s1 h) (userState false none none [] none none none none)
      (userState true u1 g1 l1 c1 d1 s1 h') (userState false none none [] none none none none) := by
  refine ⟨?_, ?_, fun o repr ho => ?_, by simp [withoutHash, userState], Eq.refl _⟩
  · simp [Dict.eq, Dict.within, userState, eqAt, Dict.get, Val.eq]
  · simp [Script.printable, userState, Dict.get]
  · have hsplit : userState false none none [] none none none none = (userState false none none [] none none none none).dropLast ++ [(p!"password_hash", .optStr none)] := Eq.refl _
    rw [hsplit, infos_snoc o repr ho (.inl (Eq.refl _)), infos_snoc o repr ho (.inl (Eq.refl _))]
    refine infos_congr o repr _ fun k hk => ?_
    simp only [userState, List.dropLast, List.map, List.mem_cons, List.not_mem_nil, or_false] at hk
    rcases hk with rfl | rfl | rfl | rfl | rfl | rfl | rfl <;> simp [userState, Dict.get]

/-! ### The end of the operation -/

/-- Two summaries of which the same is printed unless -v is given. -/
structure SameSummary (p p' : Report) : Prop where
  result : SameResult p.result p'.result
  printed : ∀ (udiff : List Bytes → List Bytes → List Bytes) (repr : Val → Str) (o : Run.Options) (level : Int) (title : Run.Title), o.verbose = 0 →
    Run.printOperation udiff repr o level title p = Run.printOperation udiff repr o level title p'

/-- One summary has been shown since. -/
def Finished (s s' : St) : Prop :=
  s.stack = s'.stack ∧ ∃ old p p', s.shown = old ++ [p] ∧ s'.shown = old ++ [p'] ∧ SameSummary p p'

theorem summary_success {i f i' f' : Dict} (h : Unseen i f i' f') :
    SameSummary ⟨{ success := true, changed := !i.eq f, initial := i, final := f }, []⟩ ⟨{ success := true, changed := !i'.eq f', initial := i', final := f' }, []⟩ := by
  refine ⟨⟨Eq.refl _, by simp [h.eq], Eq.refl _, h.initial, h.final⟩, fun udiff repr o level title ho => ?_⟩
  simp only [Run.printOperation, h.eq, h.infos o repr ho]

theorem summary_failed {i f i' f' : Dict} (hi : withoutHash i = withoutHash i') (hf : withoutHash f = withoutHash f') (m : Option Str) :
    SameSummary ⟨{ success := false, changed := false, initial := i, final := f, failureMessage := m }, []⟩
      ⟨{ success := false, changed := false, initial := i', final := f', failureMessage := m }, []⟩ :=
  ⟨⟨Eq.refl _, Eq.refl _, Eq.refl _, hi, hf⟩, fun _ _ _ _ _ _ => Eq.refl _⟩

theorem conceals_success {i f i' f' : Dict} (h : Unseen i f i' f') :
    Conceals env (BothSet i f i' f') (fun r r' => SameResult r r' ∧ r.success = true) Finished success success := by
  intro st st' hs
  unfold success
  simp only [hs.op, hs.op', h.printable]
  split
  · exact .ret ⟨Eq.refl _, hs⟩
  · refine .ret ⟨⟨(summary_success h).result, Eq.refl _⟩, ?_⟩
    refine ⟨by simp [hs.stack], st.shown, _, _, ?_, ?_, summary_success h⟩
    · simp [St.show, hs.op]
    · simp [St.show, hs.op', hs.shown]

theorem conceals_unchanged {i f i' f' : Dict} (h : Unseen i f i' f') :
    Conceals env (BothSet i f i' f') (fun b b' => b = b') (BothSet i f i' f') (unchanged false) (unchanged false) := by
  intro st st' hs
  unfold unchanged
  simp only [hs.op, hs.op']
  exact .ret ⟨h.eq, hs⟩

theorem conceals_settle {i f i' f' : Dict} (h : Unseen i f i' f') {m m' : Op Unit}
    (hm : Conceals env (BothSet i f i' f') (fun _ _ => True) (BothSet i f i' f') m m') :
    Conceals env (BothSet i f i' f') (fun r r' => SameResult r r' ∧ r.success = true) Finished (settle (Op.pure ()) m) (settle (Op.pure ()) m') := by
  refine .bind (conceals_unchanged h) fun u u' hu => .ite hu (fun _ => conceals_success h) fun _ => ?_
  refine .bind (R := fun _ _ => True) (.pure trivial) fun _ _ _ => .bind (R := fun _ _ => True) ?_ fun _ _ _ => conceals_success h
  refine .bind (R := fun b b' => b = b') (fun st st' hs => .ret ⟨Eq.refl _, hs⟩) fun d d' hd => .ite hd (fun _ => .pure trivial) fun _ => hm

/-- The end of two runs of `user`. -/
def UserEnd (x y : Except Exn OpResult × St) : Prop := SameEnd x.1 y.1 ∧ Finished x.2 y.2 ∧ x.2.op = y.2.op

/-- What follows the query, for two answers. -/
def rest (a : UserArgs) (current : Option Client.UserEntry) : Op (Option OpResult) := do
  initialState (currentUser current)
  finalState (wantedUser a (userTarget a current))
  returned (settle (Op.pure ()) (userActions a (userTarget a current)))

/-- What the function of an operation may end with: an exception after which a failure is shown, or a result that has been shown. -/
def FunctionEnd (x y : Except Exn (Option OpResult) × St) : Prop :=
  match x.1, y.1 with
  | .ok (some r), .ok (some r') => SameResult r r' ∧ r.success = true ∧ Finished x.2 y.2
  | .error e, .error e' => e = e' ∧ x.2.stack = y.2.stack ∧ x.2.shown = y.2.shown ∧ x.2.op.hasNested = false ∧ y.2.op.hasNested = false
      ∧ x.2.op.diffs = [] ∧ y.2.op.diffs = [] ∧ withoutHash (x.2.op.initial.getD []) = withoutHash (y.2.op.initial.getD [])
      ∧ withoutHash (x.2.op.final.getD []) = withoutHash (y.2.op.final.getD [])
  | _, _ => False

theorem hides_rest {i f i' f' : Dict} (h : Unseen i f i' f') {m m' : Op Unit}
    (hm : Conceals env (BothSet i f i' f') (fun _ _ => True) (BothSet i f i' f') m m') (st : St) :
    Hides FunctionEnd (returned (settle (Op.pure ()) m) env { st with op := { initial := some i, final := some f } })
      (returned (settle (Op.pure ()) m') env { st with op := { initial := some i', final := some f' } }) := by
  refine Hides.bind (conceals_settle h hm _ _ ⟨Eq.refl _, Eq.refl _, Eq.refl _, Eq.refl _⟩) ?_
  rintro ⟨r, s⟩ ⟨r', s'⟩ ⟨h1, h2⟩
  cases r with
  | error e =>
    cases r' with
    | error e' =>
      have h2 : BothSet i f i' f' s s' := h2
      exact .ret ⟨h1, h2.stack, h2.shown, by simp [h2.op], by simp [h2.op'], by simp [h2.op], by simp [h2.op'], by simp [h2.op, h2.op', h.initial],
        by simp [h2.op, h2.op', h.final]⟩
    | ok b => exact h1.elim
  | ok a =>
    cases r' with
    | error e' => exact h1.elim
    | ok b => exact .ret ⟨h1.1, h1.2, h2⟩

/-- The operation makes the same of it. -/
theorem hides_operation {check : Bool} {m m' : Op (Option OpResult)} {st : St} (h : Hides FunctionEnd (m env { st with op := {} }) (m' env { st with op := {} })) :
    Hides UserEnd (operation check m env st) (operation check m' env st) := by
  refine Hides.bind h ?_
  rintro ⟨r, s⟩ ⟨r', s'⟩ h
  rcases r with e | (_ | r) <;> rcases r' with e' | (_ | r') <;> try exact h.elim
  · obtain ⟨rfl, h1, h2, h3, h4, h5, h6, h7, h8⟩ := h
    refine .ret ⟨.error _, ⟨by simpa using h1, s.shown, _, _, ?_, ?_, summary_failed h7 h8 (errorText e)⟩, Eq.refl _⟩
    · simp [St.show, failed, show s.op.hasNested = false from h3, show s.op.diffs = [] from h5]
    · simp [St.show, failed, show s'.op.hasNested = false from h4, show s'.op.diffs = [] from h6, show s.shown = s'.shown from h2]
  · obtain ⟨h1, h2, h3, h4⟩ := h
    have h5 : r'.success = true := h1.success ▸ h2
    simp only [h2, h5]
    rw [if_neg (by simp), if_neg (by simp)]
    exact .ret ⟨.ok h1, ⟨h3, h4⟩, Eq.refl _⟩

/-! ### The operation -/

theorem changedAt_congr {i f i' f' : Dict} {k : Str} (hi : i.get k = i'.get k) (hf : f.get k = f'.get k) : changedAt i f k = changedAt i' f' k := by
  unfold changedAt
  rw [hi, hf]

theorem userState_get (e : Bool) (u : Option Int) (g : Option Str) (l : List Str) (c d s h h' : Option Str) {k : Str} (hk : k ≠ p!"password_hash") :
    (userState e u g l c d s h).get k = (userState e u g l c d s h').get k := by
  simp [userState, Dict.get, Ne.symm hk]

/-- What follows the answer, if the account exists. -/
theorem hides_some (a : UserArgs) (ha : a.passwordHash = none ∨ a.passwordHash = some []) (c : Client.UserEntry) (h h' : Option Str) (st : St) :
    Hides FunctionEnd (rest a (some { c with passwordHash := h }) env { st with op := {} }) (rest a (some { c with passwordHash := h' }) env { st with op := {} }) := by
  have hor : ∀ x, orStr a.passwordHash x = x := fun x => by rcases ha with h | h <;> rw [h] <;> rfl
  have ht : ∀ h, userTarget a (some { c with passwordHash := h }) = { userTarget a (some c) with passwordHash := h } := fun h => by
    simp [userTarget, hor]
  show Hides FunctionEnd (returned (settle (Op.pure ()) (userActions a (userTarget a (some { c with passwordHash := h })))) env
      { st with op := { initial := some (currentUser (some { c with passwordHash := h })), final := some (wantedUser a (userTarget a (some { c with passwordHash := h }))) } })
    (returned (settle (Op.pure ()) (userActions a (userTarget a (some { c with passwordHash := h' })))) env
      { st with op := { initial := some (currentUser (some { c with passwordHash := h' })), final := some (wantedUser a (userTarget a (some { c with passwordHash := h' }))) } })
  rw [ht h, ht h']
  cases hp : a.present with
  | true =>
    simp only [wantedUser, hp, if_true, currentUser]
    refine hides_rest (unseen_present _ _ _ _ _ _ _ _ _ _ _ _ _ _ h h') ?_ st
    refine conceals_actions a _ h h' (fun k hk => changedAt_congr (userState_get _ _ _ _ _ _ _ _ _ hk) (userState_get _ _ _ _ _ _ _ _ _ hk)) ?_ ?_
    · intro _ he
      simp [changedAt, userState, Dict.get, Val.eq] at he
    · intro _
      refine ⟨?_, ?_⟩
      · simp [changedAt, userState, Dict.get, hashVal_eq]
      · intro he
        simp [changedAt, userState, Dict.get, hashVal_eq] at he
  | false =>
    simp only [wantedUser, hp, currentUser, Bool.false_eq_true, if_false]
    refine hides_rest (unseen_absent _ _ _ _ _ _ h h') ?_ st
    refine conceals_actions a _ h h' (fun k hk => changedAt_congr (userState_get _ _ _ _ _ _ _ _ _ hk) (Eq.refl _)) ?_ ?_
    · intro h1; rw [hp] at h1; cases h1
    · intro h1; rw [hp] at h1; cases h1

/-- What follows the answer, if it is the same. -/
theorem hides_same (a : UserArgs) (c : Option Client.UserEntry) (st : St) : Hides FunctionEnd (rest a c env { st with op := {} }) (rest a c env { st with op := {} }) :=
  hides_rest Unseen.rfl (conceals_actions a (userTarget a c) (userTarget a c).passwordHash (userTarget a c).passwordHash (fun _ _ => Eq.refl _) (fun _ _ => Eq.refl _)
    fun _ => ⟨Eq.refl _, fun _ => Eq.refl _⟩) st

theorem hides_user (a : UserArgs) (ha : a.passwordHash = none ∨ a.passwordHash = some []) (check : Bool) (st : St) :
    Hides UserEnd (user a check env st) (user a check env st) := by
  refine hides_operation (.req fun x x' hx => ?_)
  rcases hx.run with rfl | ⟨n, u, g, k, l, h1, h2, c, d, e, rfl, rfl⟩
  · rcases x with e | p
    · by_cases he : e.isValueError = true
      · simp only [Prog.bind, he, Op.pure, if_true]
        exact hides_same a none st
      · simp only [Prog.bind, he]
        exact .ret ⟨Eq.refl _, Eq.refl _, Eq.refl _, Eq.refl _, Eq.refl _, Eq.refl _, Eq.refl _, Eq.refl _, Eq.refl _⟩
    · cases p
      case userEntry n u g k l h c d e => exact hides_same a (some ⟨n, u, g, k, l, h, c, d, e⟩) st
      all_goals exact .ret ⟨Eq.refl _, Eq.refl _, Eq.refl _, Eq.refl _, Eq.refl _, Eq.refl _, Eq.refl _, Eq.refl _, Eq.refl _⟩
  · exact hides_some a ha ⟨n, u, g, k, l, h1, c, d, e⟩ h1 h2 st

end Verif.Ops
