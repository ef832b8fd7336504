/-
A dry run beside a real run that finds another host: what both have in common. (`upload_dir` looks, in its later steps, at what
it has created in its earlier ones; a dry run does not find that.)
-/
import Verif.Ops.PredictProps
import Verif.Ops.MirrorLemmas

namespace Verif.Ops

open Script Remote
open Client (Prog direct lostConnection)
open Wire (Packet)

/-- A query that both hosts answer in the same way. -/
structure SameAnswer (sys : Sys) (w v : World) (p : Packet) : Prop where
  query : Client.isQuery p = true
  answer : (direct sys p v).1 = (direct sys p w).1

/-- If the code ends normally in a real run on `w`, it has only looked, and a dry run on `v` ends in the same way. -/
def Echoes {α : Type} (sys : Sys) (lost : Nat → Option Bool) (w v : World) (env : Env) (st : St) (m : Op α) : Prop :=
  ∀ k a st' s, exec (flaky sys lost) m { env with dry := false } st (w, k) = ((.ok a, st'), s) →
    s.1 = w ∧ exec (direct sys) m { env with dry := true } st v = ((.ok a, st'), v)

/-- If the code ends well in a real run on `w`, a dry run on `v` ends in the same way. -/
def Foretold {α : Type} (good : α → Prop) (sys : Sys) (lost : Nat → Option Bool) (w v : World) (env : Env) (st : St) (m : Op α) : Prop :=
  ∀ k a st' s, exec (flaky sys lost) m { env with dry := false } st (w, k) = ((.ok a, st'), s) → good a →
    exec (direct sys) m { env with dry := true } st v = ((.ok a, st'), v)

section
variable {α β : Type} {sys : Sys} {lost : Nat → Option Bool} {w v : World} {env : Env} {st : St} {good : α → Prop}

theorem Echoes.foretold {m : Op α} (h : Echoes sys lost w v env st m) : Foretold good sys lost w v env st m := fun k a st' s he _ => (h k a st' s he).2

theorem Echoes.bind {m : Op α} {f : α → Op β} (hm : Echoes sys lost w v env st m) (hf : ∀ a st', Echoes sys lost w v env st' (f a)) :
    Echoes sys lost w v env st (m >>= f) := by
  intro k b st' s h
  obtain ⟨a, st1, s1, h1, h2⟩ := exec_bind_ok.mp h
  obtain ⟨hw, h3⟩ := hm _ _ _ _ h1
  obtain ⟨w1, k1⟩ := s1
  simp only at hw
  subst hw
  obtain ⟨hw', h4⟩ := hf _ _ _ _ _ _ h2
  exact ⟨hw', exec_bind_ok.mpr ⟨_, _, _, h3, h4⟩⟩

theorem Foretold.bind {good : β → Prop} {m : Op α} {f : α → Op β} (hm : Echoes sys lost w v env st m)
    (hf : ∀ a st', (∃ k s, exec (flaky sys lost) m { env with dry := false } st (w, k) = ((.ok a, st'), s)) → Foretold good sys lost w v env st' (f a)) :
    Foretold good sys lost w v env st (m >>= f) := by
  intro k b st' s h hg
  obtain ⟨a, st1, s1, h1, h2⟩ := exec_bind_ok.mp h
  obtain ⟨hw, h3⟩ := hm _ _ _ _ h1
  obtain ⟨w1, k1⟩ := s1
  simp only at hw
  subst hw
  exact exec_bind_ok.mpr ⟨_, _, _, h3, hf _ _ ⟨_, _, h1⟩ _ _ _ _ h2 hg⟩

/-- Code without requests that does not look at `fora.args.dry`. -/
theorem Echoes.local {m : Op α} {x : Except Exn α × St} (h1 : m { env with dry := false } st = .ret x) (h2 : m { env with dry := true } st = .ret x) :
    Echoes sys lost w v env st m := by
  intro k a st' s h
  unfold exec at h ⊢
  rw [h1] at h
  rw [h2]
  cases h
  exact ⟨rfl, rfl⟩

theorem Echoes.pure (a : α) : Echoes sys lost w v env st (Op.pure a) := .local rfl rfl
theorem Echoes.pure' (a : α) : Echoes sys lost w v env st (Pure.pure a : Op α) := .local rfl rfl
theorem Echoes.raise (e : Exn) : Echoes sys lost w v env st (Op.raise e : Op α) := .local rfl rfl
theorem Echoes.ofExcept (x : Except Exn α) : Echoes sys lost w v env st (Op.ofExcept x) := by
  cases x
  · exact .raise _
  · exact .pure _

theorem Echoes.ite {c : Prop} [Decidable c] {a b : Op α} (ha : Echoes sys lost w v env st a) (hb : Echoes sys lost w v env st b) :
    Echoes sys lost w v env st (if c then a else b) := by
  split <;> assumption

theorem Foretold.ite {c : Prop} [Decidable c] {a b : Op α} (ha : Foretold good sys lost w v env st a) (hb : Foretold good sys lost w v env st b) :
    Foretold good sys lost w v env st (if c then a else b) := by
  split <;> assumption

theorem Echoes.currentDefaults : Echoes sys lost w v env st currentDefaults := by
  cases hs : st.stack with
  | nil => exact .local (x := (.error .indexError, st)) (by unfold Script.currentDefaults; rw [hs]) (by unfold Script.currentDefaults; rw [hs])
  | cons c r => exact .local (x := (.ok c, st)) (by unfold Script.currentDefaults; rw [hs]) (by unfold Script.currentDefaults; rw [hs])

theorem Echoes.finalState (d : Dict) : Echoes sys lost w v env st (finalState d) := by
  cases h : st.op.hasNested with
  | true => exact .local (by unfold Script.finalState; rw [h]; rfl) (by unfold Script.finalState; rw [h]; rfl)
  | false =>
    cases h' : st.op.final with
    | none => exact .local (by unfold Script.finalState; rw [h, h']; rfl) (by unfold Script.finalState; rw [h, h']; rfl)
    | some x => exact .local (by unfold Script.finalState; rw [h, h']; rfl) (by unfold Script.finalState; rw [h, h']; rfl)

theorem Echoes.initialState (d : Dict) : Echoes sys lost w v env st (initialState d) := by
  cases h : st.op.hasNested with
  | true => exact .local (by unfold Script.initialState; rw [h]; rfl) (by unfold Script.initialState; rw [h]; rfl)
  | false =>
    cases h' : st.op.initial with
    | none => exact .local (by unfold Script.initialState; rw [h, h']; rfl) (by unfold Script.initialState; rw [h, h']; rfl)
    | some x => exact .local (by unfold Script.initialState; rw [h, h']; rfl) (by unfold Script.initialState; rw [h, h']; rfl)

theorem Echoes.unchanged : Echoes sys lost w v env st unchanged := by
  cases h : st.op.initial with
  | none => exact .local (by unfold Script.unchanged; rw [h]) (by unfold Script.unchanged; rw [h])
  | some i =>
    cases h' : st.op.final with
    | none => exact .local (by unfold Script.unchanged; rw [h, h']) (by unfold Script.unchanged; rw [h, h'])
    | some x => exact .local (by unfold Script.unchanged; rw [h, h']; rfl) (by unfold Script.unchanged; rw [h, h']; rfl)

theorem Echoes.success : Echoes sys lost w v env st success := by
  obtain ⟨x, h1, h2⟩ := Predicts.success' env st
  exact .local h1 h2

theorem Echoes.failure (m : Str) : Echoes sys lost w v env st (failure m) := .local rfl rfl

theorem Echoes.opDiff (f : Str) (a b : Option Bytes) : Echoes sys lost w v env st (opDiff f a b) := by
  cases h : st.op.hasNested with
  | true => exact .local (by unfold Script.opDiff; rw [h]; rfl) (by unfold Script.opDiff; rw [h]; rfl)
  | false =>
    by_cases h' : a = b
    · exact .local (by unfold Script.opDiff; rw [h, if_pos h']; rfl) (by unfold Script.opDiff; rw [h, if_pos h']; rfl)
    · exact .local (by unfold Script.opDiff; rw [h, if_neg h']; rfl) (by unfold Script.opDiff; rw [h, if_neg h']; rfl)

theorem Echoes.addNestedResult (key : Str) (r : OpResult) : Echoes sys lost w v env st (addNestedResult key r) := by
  cases h : st.op.hasNested with
  | false => exact .local (by unfold Script.addNestedResult; rw [h]; rfl) (by unfold Script.addNestedResult; rw [h]; rfl)
  | true =>
    by_cases h' : (((st.op.initial.getD []).get key).isSome || ((st.op.final.getD []).get key).isSome) = true
    · exact .local (by unfold Script.addNestedResult; simp only [h, Bool.not_true, Bool.false_eq_true, if_false]; rw [if_pos h'])
        (by unfold Script.addNestedResult; simp only [h, Bool.not_true, Bool.false_eq_true, if_false]; rw [if_pos h'])
    · exact .local (by unfold Script.addNestedResult; simp only [h, Bool.not_true, Bool.false_eq_true, if_false]; rw [if_neg h'])
        (by unfold Script.addNestedResult; simp only [h, Bool.not_true, Bool.false_eq_true, if_false]; rw [if_neg h'])

/-! ### Queries -/

theorem Echoes.call {pk : Packet} {f : Except Exn Packet → Except Exn α} (hp : SameAnswer sys w v pk) (hf : f (.error lostConnection) = .error lostConnection) :
    Echoes sys lost w v env st (Op.call (.req pk fun r => .ret (f r))) := by
  intro k a st' s h
  rw [exec_call] at h ⊢
  simp only [Prog.run] at h ⊢
  unfold flaky at h
  cases hl : lost k with
  | none =>
    simp only [hl, Prod.mk.injEq] at h
    obtain ⟨⟨h1, h2⟩, h3⟩ := h
    rw [← h3, ← h2, hp.answer, h1]
    exact ⟨direct_query pk hp.query, by rw [direct_query pk hp.query]⟩
  | some b =>
    cases b <;> simp [hl, hf] at h

/-- `download_or` in one step. -/
def downloaded : Except Exn Packet → Except Exn (Option Bytes)
  | .error e => if e.isValueError then .ok none else .error e
  | .ok (.downloadResult content) => .ok (some content)
  | .ok _ => if Client.unexpectedResponse.isValueError then .ok none else .error Client.unexpectedResponse

theorem downloadOr_eq (path : Str) : Connection.downloadOr path = Op.call (.req (.download path) fun r => .ret (downloaded r)) := by
  funext env st
  show Prog.req (.download path) _ = Prog.req (.download path) _
  congr 1
  funext r
  cases r with
  | error e =>
    show (if e.isValueError then Op.pure none else Op.raise e : Op (Option Bytes)) env st
      = Prog.ret (if e.isValueError then .ok none else .error e, st)
    by_cases h : e.isValueError = true
    · rw [if_pos h, if_pos h]; rfl
    · rw [if_neg h, if_neg h]; rfl
  | ok q => cases q <;> rfl

theorem Echoes.downloadOr {path : Str} (hp : SameAnswer sys w v (.download path)) : Echoes sys lost w v env st (Connection.downloadOr path) := by
  rw [downloadOr_eq]
  exact .call hp rfl

theorem Echoes.stat {path : Str} {fo sha : Bool} (hp : SameAnswer sys w v (.stat path fo sha)) :
    Echoes sys lost w v env st (Connection.stat path fo sha) := .call hp rfl

theorem Echoes.resolveUser {x : Option Str} (hp : ∀ u, SameAnswer sys w v (.resolveUser (some u))) : Echoes sys lost w v env st (mapOpt Connection.resolveUser x) := by
  cases x with
  | none => exact .pure _
  | some u => exact .bind (.call (hp u) rfl) fun _ _ => .pure' _

theorem Echoes.resolveGroup {x : Option Str} (hp : ∀ u, SameAnswer sys w v (.resolveGroup (some u))) : Echoes sys lost w v env st (mapOpt Connection.resolveGroup x) := by
  cases x with
  | none => exact .pure _
  | some u => exact .bind (.call (hp u) rfl) fun _ _ => .pure' _

/-- The check of the working directory passes on this host. -/
def CwdFine (sys : Sys) (v : World) (c : Option Str) : Prop := ∀ env st, exec (direct sys) (checkCwd c) env st v = ((.ok (), st), v)

/-- A check that has passed shows this. -/
theorem cwdFine_of {c : Option Str} {k : Nat} {st' : St} {s : World × Nat}
    (h : exec (flaky sys lost) (checkCwd c) { env with dry := false } st (w, k) = ((.ok (), st'), s)) : st' = st ∧ s.1 = w ∧ CwdFine sys w c := by
  rcases c with _ | _ | ⟨a, c⟩
  · cases h; exact ⟨rfl, rfl, fun _ _ => rfl⟩
  · cases h; exact ⟨rfl, rfl, fun _ _ => rfl⟩
  · unfold checkCwd at h
    obtain ⟨r, st1, s1, h1, h2⟩ := exec_bind_ok.mp h
    have hst : st1 = st := by
      unfold Connection.stat at h1
      rw [exec_call] at h1
      exact (congrArg (fun x => x.1.2) h1).symm
    subst hst
    obtain ⟨hw, h3⟩ := Echoes.stat (v := w) ⟨rfl, rfl⟩ _ _ _ _ h1
    cases r with
    | none => cases h2
    | some r =>
      simp only at h2
      by_cases ht : r.type ≠ p!"dir"
      · rw [if_pos ht] at h2; cases h2
      · rw [if_neg ht] at h2
        cases h2
        refine ⟨rfl, hw, fun env' st' => ?_⟩
        unfold checkCwd
        refine exec_bind_ok.mpr ⟨some r, st', w, ?_, ?_⟩
        · unfold Connection.stat at h3 ⊢
          rw [exec_call] at h3 ⊢
          simp only [Prod.mk.injEq] at h3 ⊢
          exact ⟨⟨h3.1.1, trivial⟩, h3.2⟩
        · simp only
          rw [if_neg ht]
          rfl

theorem Echoes.checkCwd {c : Option Str} (h : CwdFine sys v c) : Echoes sys lost w v env st (checkCwd c) := by
  intro k a st' s he
  obtain ⟨rfl, hw, _⟩ := cwdFine_of he
  exact ⟨hw, h _ _⟩

/-- The accounts, as the host tells them. -/
structure SameAccounts (sys : Sys) (w v : World) : Prop where
  user : ∀ u, SameAnswer sys w v (.resolveUser (some u))
  group : ∀ g, SameAnswer sys w v (.resolveGroup (some g))

theorem Echoes.resolveDefaults {s : Settings} (ha : SameAccounts sys w v) (hc : ∀ c rest, st.stack = c :: rest → CwdFine sys v (c.overlay s).cwd) :
    Echoes sys lost w v env st (resolveDefaults s) := by
  intro k a st' s' he
  unfold Script.resolveDefaults at he ⊢
  obtain ⟨c, st1, s1, h1, h2⟩ := exec_bind_ok.mp he
  obtain ⟨rfl, rfl, rest, hs⟩ := currentDefaults_ok h1
  have key : Echoes sys lost w v env st1 (do
      let asUser ← mapOpt Connection.resolveUser (c.overlay s).asUser
      let asGroup ← mapOpt Connection.resolveGroup (c.overlay s).asGroup
      let owner ← mapOpt Connection.resolveUser (c.overlay s).owner
      let group ← mapOpt Connection.resolveGroup (c.overlay s).group
      Op.ofExcept (checkMask (c.overlay s).fileMode p!"file_mode")
      Op.ofExcept (checkMask (c.overlay s).dirMode p!"dir_mode")
      Op.ofExcept (checkMask (c.overlay s).umask p!"umask")
      Script.checkCwd (c.overlay s).cwd
      return { c.overlay s with asUser, asGroup, owner, group }) :=
    .bind (.resolveUser ha.user) fun _ _ => .bind (.resolveGroup ha.group) fun _ _ => .bind (.resolveUser ha.user) fun _ _ => .bind (.resolveGroup ha.group) fun _ _ =>
      .bind (.ofExcept _) fun _ _ => .bind (.ofExcept _) fun _ _ => .bind (.ofExcept _) fun _ _ => .bind (.checkCwd (hc c rest hs)) fun _ _ => .pure' _
  obtain ⟨hw', h4⟩ := key _ _ _ _ h2
  exact ⟨hw', exec_bind_ok.mpr ⟨c, st1, v, (by unfold exec Script.currentDefaults; rw [hs]; rfl), h4⟩⟩

/-! ### The parts of an operation -/

theorem Foretold.finally {m : Op α} {f : St → St} (h : Foretold good sys lost w v env st m) : Foretold good sys lost w v env st (Op.finally_ m f) := by
  intro k a st' s he hg
  rw [exec_finally] at he ⊢
  simp only [Prod.mk.injEq] at he
  obtain ⟨⟨h1, h2⟩, h3⟩ := he
  have := h k a (exec (flaky sys lost) m { env with dry := false } st (w, k)).1.2 s
    (by rw [← h1, ← h3]) hg
  rw [this, ← h2]

theorem Foretold.withDefaults {q : Settings} {body : Settings → Op α} (ha : SameAccounts sys w v)
    (hc : ∀ q' c rest, canonicalize q = .ok q' → st.stack = c :: rest → CwdFine sys v ((env.base.overlay c).overlay q').cwd)
    (hbody : ∀ a st', Foretold good sys lost w v env st' (body a)) :
    Foretold good sys lost w v env st (withDefaults q body) := by
  unfold Script.withDefaults
  intro k b st' s h hg
  obtain ⟨q', st1, s1, h1, h2⟩ := exec_bind_ok.mp h
  obtain ⟨hq, rfl, rfl⟩ := exec_ofExcept_ok h1
  obtain ⟨e1, st2, s2, h3, h4⟩ := exec_bind_ok.mp h2
  cases h3
  obtain ⟨c, st3, s3, h5, h6⟩ := exec_bind_ok.mp h4
  have h5' := h5
  obtain ⟨rfl, rfl, rest, hs⟩ := currentDefaults_ok h5'
  obtain ⟨r, st4, s4, h7, h8⟩ := exec_bind_ok.mp h6
  obtain ⟨hw4, h9⟩ := Echoes.resolveDefaults ha (fun c' rest' hs' => by
    rw [hs] at hs'; cases hs'
    rw [overlay_absorb]
    exact hc _ _ _ hq hs) _ _ _ _ h7
  obtain ⟨w4, k4⟩ := s4
  cases (show w4 = w from hw4)
  obtain ⟨u, st5, s5, h10, h11⟩ := exec_bind_ok.mp h8
  cases h10
  refine exec_bind_ok.mpr ⟨q', _, _, (by rw [exec_ofExcept, hq]), exec_bind_ok.mpr ⟨_, _, _, rfl, exec_bind_ok.mpr ⟨c, _, _, (by unfold exec Script.currentDefaults; rw [hs]; rfl),
    exec_bind_ok.mpr ⟨_, _, _, h9, exec_bind_ok.mpr ⟨_, _, _, rfl, ?_⟩⟩⟩⟩⟩
  exact (Foretold.finally (hbody _ _)) _ _ _ _ h11 hg

theorem Foretold.returned {m : Op OpResult} (h : Foretold (·.success = true) sys lost w v env st m) :
    Foretold (fun r => ∀ x, r = some x → x.success = true) sys lost w v env st (returned m) := by
  intro k a st' s he hg
  obtain ⟨r, st1, s1, h1, h2⟩ := exec_bind_ok.mp he
  cases h2
  exact exec_bind_ok.mpr ⟨_, _, _, h _ _ _ _ h1 (hg r rfl), rfl⟩

theorem exec_operation {σ : Type} {remote : Packet → σ → Except Exn Packet × σ} {check : Bool} {f : Op (Option OpResult)} {s : σ} :
    exec remote (operation check f) env st s = match exec remote f env { st with op := {} } s with
      | ((.error e, st'), s) => ((.error e, { st'.show (failed st' (errorText e)) with op := st.op }), s)
      | ((.ok none, st'), s) => ((.error (.operationError p!"The operation failed to return a status."), { st' with op := st.op }), s)
      | ((.ok (some r), st'), s) =>
        if check && !r.success then ((.error (failureError r), { st' with op := st.op }), s) else ((.ok r, { st' with op := st.op }), s) := by
  show Prog.run _ (Prog.bind (f env { st with op := {} }) _) _ = _
  rw [run_bind]
  simp only [exec]
  match Prog.run remote (f env { st with op := {} }) s with
  | ((.error e, st'), s) => rfl
  | ((.ok none, st'), s) => rfl
  | ((.ok (some r), st'), s) =>
    simp only
    split <;> rfl

theorem Foretold.operation {check : Bool} {f : Op (Option OpResult)}
    (h : Foretold (fun r => ∀ x, r = some x → x.success = true) sys lost w v env { st with op := {} } f) :
    Foretold (·.success = true) sys lost w v env st (operation check f) := by
  intro k a st' s he hg
  rw [exec_operation] at he ⊢
  match hm : exec (flaky sys lost) f { env with dry := false } { st with op := {} } (w, k) with
  | ((.error e, st1), s1) => rw [hm] at he; cases he
  | ((.ok none, st1), s1) => rw [hm] at he; cases he
  | ((.ok (some r), st1), s1) =>
    rw [hm] at he
    simp only at he
    by_cases hc : (check && !r.success) = true
    · rw [if_pos hc] at he; cases he
    · rw [if_neg hc] at he
      cases he
      rw [h _ _ _ _ hm (fun x hx => by cases hx; exact hg)]
      simp only
      rw [if_neg hc]

theorem Foretold.settle {between action : Op Unit} {good : OpResult → Prop} (hb : ∀ st', Echoes sys lost w v env st' between)
    (ha : Keeps (id : St → St) action) : Foretold good sys lost w v env st (settle between action) := by
  refine .bind .unchanged fun u st1 _ => .ite Echoes.success.foretold (.bind (hb _) fun _ st2 _ => ?_)
  intro k a st' s he _
  obtain ⟨x, st3, s3, h1, h2⟩ := exec_bind_ok.mp he
  have h1' : exec (flaky sys lost) action { env with dry := false } st2 (w, k) = ((.ok x, st3), s3) := h1
  have hst : st3 = st2 := by
    have hr := runs_recorded (flaky sys lost) (action { env with dry := false } st2) (w, k)
    unfold exec at h1'
    rw [h1'] at hr
    exact ha _ _ _ _ _ hr
  subst hst
  obtain ⟨w3, k3⟩ := s3
  obtain ⟨_, h3⟩ := Echoes.success (w := w3) (v := v) _ _ _ _ h2
  exact exec_bind_ok.mpr ⟨(), st3, v, rfl, h3⟩

/-! ### Operations -/

theorem directory_foretold {path : Str} {present touch : Bool} {mode owner group : Option Str} {check : Bool} (ha : SameAccounts sys w v)
    (hc : ∀ c rest, st.stack = c :: rest → CwdFine sys v (env.base.overlay c).cwd) (hs : SameAnswer sys w v (.stat path false false)) :
    Foretold (·.success = true) sys lost w v env st (directory path present touch mode owner group check) := by
  refine .operation (.bind (.ofExcept _) fun _ st1 h1 => .returned (.withDefaults ha ?_ fun attr st2 => ?_))
  · obtain ⟨_, _, h1⟩ := h1
    obtain ⟨_, rfl, _⟩ := exec_ofExcept_ok h1
    intro q' c rest hq hst
    rw [(canonicalize_ok hq)]
    exact hc c rest hst
  · refine .bind (.finalState _) fun _ _ _ => .bind (.stat hs) fun s _ _ => ?_
    cases s with
    | none => exact .bind (.initialState _) fun _ _ _ => .settle (fun _ => .pure _) (keeps_directoryActions _ _ _)
    | some s => exact .ite (Echoes.failure _).foretold (.bind (.initialState _) fun _ _ _ => .settle (fun _ => .pure _) (keeps_directoryActions _ _ _))

theorem Echoes.diffWanted : Echoes sys lost w v env st diffWanted := .local rfl rfl

theorem save_foretold {sha512 : Bytes → Bytes} {content : Content} {dest : Str} {mode owner group : Option Str}
    (ha : SameAccounts sys w v) (hc : ∀ c rest, st.stack = c :: rest → CwdFine sys v (env.base.overlay c).cwd)
    (hs : SameAnswer sys w v (.stat dest false true)) (hd : SameAnswer sys w v (.download dest)) :
    Foretold (·.success = true) sys lost w v env st (saveContent sha512 content dest mode owner group) := by
  refine .bind (.ofExcept _) fun c st2 h2 => .withDefaults ha ?_ fun attr st3 => ?_
  · obtain ⟨_, _, h2⟩ := h2
    obtain ⟨_, rfl, _⟩ := exec_ofExcept_ok h2
    intro q' c rest hq hst
    rw [(canonicalize_ok hq)]
    exact hc c rest hst
  · have hdiff : ∀ st', Echoes sys lost w v env st' (saveDiff dest c) := fun st' =>
      .bind .diffWanted fun _ _ => .ite (.bind (.downloadOr hd) fun _ _ => .opDiff _ _ _) (.pure _)
    refine .bind (.finalState _) fun _ _ _ => .bind (.stat hs) fun s _ _ => ?_
    cases s with
    | none => exact .bind (.initialState _) fun _ _ _ => .settle hdiff (keeps_saveActions _ _ _)
    | some s => exact .ite (Echoes.failure _).foretold (.bind (.initialState _) fun _ _ _ => .settle hdiff (keeps_saveActions _ _ _))

theorem store_foretold {sha512 : Bytes → Bytes} {op : Op OpResult} {path : Str} {source : Except Exn Bytes} {mode owner group : Option Str} {check : Bool}
    (hop : Stores sha512 mode owner group check op path source)
    (ha : SameAccounts sys w v) (hc : ∀ c rest, st.stack = c :: rest → CwdFine sys v (env.base.overlay c).cwd)
    (hs : SameAnswer sys w v (.stat path false true)) (hd : SameAnswer sys w v (.download path)) :
    Foretold (·.success = true) sys lost w v env st op := by
  cases hop with
  | content content =>
    refine .operation (.bind (.ofExcept _) fun _ st1 h1 => .returned (save_foretold ha ?_ hs hd))
    obtain ⟨_, _, h1⟩ := h1
    obtain ⟨_, rfl, _⟩ := exec_ofExcept_ok h1
    exact hc
  | file src =>
    refine .operation (.bind (.ofExcept _) fun _ st1 h1 => .bind (.ofExcept _) fun _ st2 h2 => .returned (save_foretold ha ?_ hs hd))
    obtain ⟨_, _, h1⟩ := h1
    obtain ⟨_, _, h2⟩ := h2
    obtain ⟨_, rfl, _⟩ := exec_ofExcept_ok h1
    obtain ⟨_, rfl, _⟩ := exec_ofExcept_ok h2
    exact hc
  | templateContent =>
    refine .operation (.bind (.ofExcept _) fun _ st1 h1 => .bind (.ofExcept _) fun _ st2 h2 => .returned (save_foretold ha ?_ hs hd))
    obtain ⟨_, _, h1⟩ := h1
    obtain ⟨_, _, h2⟩ := h2
    obtain ⟨_, rfl, _⟩ := exec_ofExcept_ok h1
    obtain ⟨_, rfl, _⟩ := exec_ofExcept_ok h2
    exact hc
  | template =>
    refine .operation (.bind (.ofExcept _) fun _ st1 h1 => .bind (.ofExcept _) fun _ st2 h2 => .bind (.ofExcept _) fun _ st3 h3 =>
      .returned (save_foretold ha ?_ hs hd))
    obtain ⟨_, _, h1⟩ := h1
    obtain ⟨_, _, h2⟩ := h2
    obtain ⟨_, _, h3⟩ := h3
    obtain ⟨_, rfl, _⟩ := exec_ofExcept_ok h1
    obtain ⟨_, rfl, _⟩ := exec_ofExcept_ok h2
    obtain ⟨_, rfl, _⟩ := exec_ofExcept_ok h3
    exact hc

theorem upload_foretold {sha512 : Bytes → Bytes} {src dest : Str} {source : Except Exn Bytes} {mode owner group : Option Str} {check : Bool}
    (ha : SameAccounts sys w v) (hc : ∀ c rest, st.stack = c :: rest → CwdFine sys v (env.base.overlay c).cwd)
    (hs : SameAnswer sys w v (.stat (destOf src dest) false true)) (hd : SameAnswer sys w v (.download (destOf src dest))) :
    Foretold (·.success = true) sys lost w v env st (upload sha512 src source dest mode owner group check) :=
  store_foretold (.file src source dest) ha hc hs hd

/-! ### Answers -/

theorem direct_reply {p : Packet} (h : (handle sys p v).1 = (handle sys p w).1) : (direct sys p v).1 = (direct sys p w).1 := by
  unfold direct
  generalize handle sys p v = a at h ⊢
  generalize handle sys p w = b at h ⊢
  obtain ⟨a, _⟩ := a
  obtain ⟨b, _⟩ := b
  simp only at h
  subst h
  match a with
  | .answer _ q => rfl
  | .raise (.osError (some n) s m) => rfl
  | .raise (.osError none s m) => rfl
  | .close => rfl
  | .raise e => cases e <;> first | rfl | (rename_i o _ _; cases o <;> rfl)

theorem sameAccounts_of (hu : v.users = w.users) (hg : v.groups = w.groups) : SameAccounts sys w v := by
  refine ⟨fun u => ⟨rfl, direct_reply ?_⟩, fun g => ⟨rfl, direct_reply ?_⟩⟩
  · have h1 : getpwnam v u = getpwnam w u := by unfold getpwnam; rw [hu]
    have h2 : ∀ i, getpwuid v i = getpwuid w i := by intro i; unfold getpwuid; rw [hu]
    simp only [handle, handleResolveUser, Option.getD_some]
    rw [h1]
    cases getpwnam w u with
    | ok e => rfl
    | error e =>
      cases e <;> try rfl
      simp only
      cases Py.parseInt 10 u with
      | none => rfl
      | some i =>
        simp only
        rw [h2]
        cases getpwuid w i <;> rfl
  · have h1 : getgrnam v g = getgrnam w g := by unfold getgrnam; rw [hg]
    have h2 : ∀ i, getgrgid v i = getgrgid w i := by intro i; unfold getgrgid; rw [hg]
    simp only [handle, handleResolveGroup, Option.getD_some]
    rw [h1]
    cases getgrnam w g with
    | ok e => rfl
    | error e =>
      cases e <;> try rfl
      simp only
      cases Py.parseInt 10 g with
      | none => rfl
      | some i =>
        simp only
        rw [h2]
        cases getgrgid w i <;> rfl

/-- Both hosts have the same at this path, or nothing. -/
def SameLook (w v : World) (path : Str) (fo : Bool) : Prop :=
  (lookup v.fs v.cwd path fo).map (·.2) = (lookup w.fs w.cwd path fo).map (·.2)

theorem guard_same (hf : SteadyLooks sys) (path : Str) (fo : Bool) : guardCall sys v path (.stat path fo) = guardCall sys w path (.stat path fo)
    ∧ guardCall sys v path (.openRead path) = guardCall sys w path (.openRead path) := by
  obtain ⟨h1, h2, _⟩ := hf v w path fo
  unfold guardCall
  rw [h1, h2]
  exact ⟨rfl, rfl⟩

theorem osRead_same (hf : SteadyLooks sys) {path : Str} (h : SameLook w v path true) : osRead sys v path = osRead sys w path := by
  obtain ⟨_, _, h3⟩ := hf v w path true
  unfold osRead
  rw [(guard_same (v := v) (w := w) hf path true).2]
  unfold SameLook at h
  revert h
  generalize lookup v.fs v.cwd path true = a
  generalize lookup w.fs w.cwd path true = b
  intro h
  cases guardCall sys w path (.openRead path) with
  | error e => rfl
  | ok _ =>
    cases a with
    | error e =>
      cases b with
      | error e' => cases h; rfl
      | ok b => cases h
    | ok a =>
      cases b with
      | error e' => cases h
      | ok b =>
        obtain ⟨_, a⟩ := a
        obtain ⟨_, b⟩ := b
        have : a = b := Except.ok.inj h
        subst this
        simp only [h3]

theorem osStat_same (hf : SteadyLooks sys) {path : Str} {fo : Bool} (h : SameLook w v path fo) : osStat sys v path fo = osStat sys w path fo := by
  unfold osStat
  rw [(guard_same (v := v) (w := w) hf path fo).1]
  unfold SameLook at h
  revert h
  generalize lookup v.fs v.cwd path fo = a
  generalize lookup w.fs w.cwd path fo = b
  intro h
  cases guardCall sys w path (.stat path fo) with
  | error e => rfl
  | ok _ =>
    cases a with
    | error e =>
      cases b with
      | error e' => cases h; rfl
      | ok b => cases h
    | ok a =>
      cases b with
      | error e' => cases h
      | ok b =>
        have : a.2 = b.2 := Except.ok.inj h
        simp only [this]

theorem stat_same (hf : SteadyLooks sys) (hu : v.users = w.users) (hg : v.groups = w.groups) {path : Str} {fo sha : Bool} (h : SameLook w v path fo)
    (h' : sha = true → SameLook w v path true) : SameAnswer sys w v (.stat path fo sha) := by
  refine ⟨rfl, direct_reply ?_⟩
  have hn : ∀ i, ownerName v i = ownerName w i := by intro i; unfold ownerName getpwuid; rw [hu]
  have hgn : ∀ i, groupName v i = groupName w i := by intro i; unfold groupName getgrgid; rw [hg]
  simp only [handle, handleStat]
  rw [osStat_same hf h]
  cases osStat sys w path fo with
  | error e => simp only; split <;> rfl
  | ok n =>
    simp only [hn, hgn]
    have : (if (sha && ftype n.stMode == p!"file") = true then Remote.optional (osRead sys v) (some path) else .ok none)
        = (if (sha && ftype n.stMode == p!"file") = true then Remote.optional (osRead sys w) (some path) else .ok none) := by
      cases sha with
      | false => rfl
      | true =>
        unfold Remote.optional
        simp only [osRead_same hf (h' rfl)]
    rw [this]
    split <;> rfl

theorem download_same (hf : SteadyLooks sys) {path : Str} (h : SameLook w v path true) : SameAnswer sys w v (.download path) := by
  refine ⟨rfl, direct_reply ?_⟩
  simp only [handle, handleDownload]
  rw [osRead_same hf h]
  cases osRead sys w path with
  | error e => simp only; split <;> rfl
  | ok c => rfl

/-! ### Paths below a directory that is not there -/

/-- The path leads nowhere. -/
def Missing (fs : Loc → Option Node) (r : Except Int Loc) : Prop := r = .error ENOENT ∨ ∃ L, r = .ok L ∧ fs L = none

theorem walkAux_missing {fs : Loc → Option Node} {fo : Bool} {n : Str} {onLink onLink' : Loc → List Str → Except Int Loc}
    (hl : ∀ l cs, Missing fs (onLink l cs) → onLink' l (cs ++ [n]) = .error ENOENT) (cs : List Str) :
    ∀ loc, Missing fs (walkAux fs true onLink cs loc) → walkAux fs fo onLink' (cs ++ [n]) loc = .error ENOENT := by
  induction cs with
  | nil =>
    intro loc h
    rcases h with h | ⟨L, h, hL⟩
    · cases h
    · have : loc = L := Except.ok.inj h
      rw [List.nil_append, walkAux_cons, this, hL]
      rfl
  | cons c r ih =>
    intro loc hw
    rw [walkAux_cons] at hw
    rw [List.cons_append, walkAux_cons]
    cases h1 : shape (fs loc) with
    | none => rfl
    | link t =>
      rw [h1] at hw
      rcases hw with h | ⟨L, h, _⟩
      · cases h
      · cases h
    | leaf =>
      rw [h1] at hw
      rcases hw with h | ⟨L, h, _⟩
      · cases h
      · cases h
    | dir =>
      rw [h1] at hw
      simp only at hw ⊢
      by_cases hc : c = p!".."
      · rw [if_pos hc] at hw ⊢; exact ih _ hw
      · rw [if_neg hc] at hw ⊢
        cases h2 : shape (fs (loc ++ [c])) with
        | none => simp
        | dir => rw [h2] at hw; exact ih _ hw
        | leaf => rw [h2] at hw; exact ih _ hw
        | link t =>
          rw [h2] at hw
          simp only at hw ⊢
          rw [if_neg (by simp)] at hw
          rw [if_neg (by simp), ← List.append_assoc]
          exact hl _ _ hw

theorem resolve_missing {fs : Loc → Option Node} {cwd : Loc} {names : List Str} {n : Str} (hns : ∀ n ∈ names, FileName n) (hn : FileName n)
    (hr : Missing fs (resolve fs cwd (pathOf names) true)) (fo : Bool) : resolve fs cwd (pathOf (names ++ [n])) fo = .error ENOENT := by
  have key : ∀ k cs loc, Missing fs (walk fs true k cs loc) → walk fs fo k (cs ++ [n]) loc = .error ENOENT := by
    intro k
    induction k with
    | zero =>
      refine walkAux_missing fun _ _ h => ?_
      rcases h with h | ⟨L, h, _⟩
      · cases h
      · cases h
    | succ k ih => exact walkAux_missing fun l c h => ih c l h
  have hall : ∀ m ∈ names ++ [n], FileName m := by
    intro m hm
    rcases List.mem_append.mp hm with hm | hm
    · exact hns m hm
    · simp only [List.mem_singleton] at hm; rw [hm]; exact hn
  unfold resolve at hr ⊢
  rw [if_neg (by simp [pathOf]), components_pathOf hns] at hr
  rw [if_neg (by simp [pathOf]), components_pathOf hall]
  exact key _ _ _ hr

/-- A path, on a host where a part of it may be missing. -/
def Leads (v : World) (path : Str) (q : Loc) : Prop :=
  Denotes v path q ∨ (v.fs q = none ∧ ∀ fo, resolve v.fs v.cwd path fo = .error ENOENT)

theorem Leads.child {names : List Str} {n : Str} {q : Loc} (h : Leads v (pathOf names) q) (hr : Rooted v) (hns : ∀ n ∈ names, FileName n) (hn : FileName n)
    (hd : v.fs q ≠ none → shape (v.fs q) = .dir) : Leads v (pathOf (names ++ [n])) (q ++ [n]) := by
  have hnone : v.fs q = none → v.fs (q ++ [n]) = none := by
    intro h0
    cases h1 : v.fs (q ++ [n]) with
    | none => rfl
    | some m =>
      obtain ⟨p, hp, _⟩ := hr q n m h1
      rw [h0] at hp; cases hp
  rcases h with h | ⟨h0, h⟩
  · by_cases h0 : v.fs q = none
    · refine .inr ⟨hnone h0, resolve_missing hns hn (.inr ⟨q, resolve_follow (fun t => ?_) h, h0⟩)⟩
      rw [h0]; simp [shape]
    · exact .inl (resolve_child hns hn h (hd h0))
  · exact .inr ⟨hnone h0, resolve_missing hns hn (.inl (h true))⟩

theorem Leads.same {path : Str} {q : Loc} (hw : Denotes w path q) (hv : Leads v path q) (hn : w.fs q = v.fs q) : SameLook w v path false
    ∧ ((∀ t, shape (v.fs q) ≠ .link t) → SameLook w v path true) := by
  have one : ∀ {x : World} {fo : Bool}, resolve x.fs x.cwd path fo = .ok q → (lookup x.fs x.cwd path fo).map (·.2) = match x.fs q with
      | none => .error ENOENT
      | some n => .ok n := by
    intro x fo hx
    unfold lookup
    rw [hx]
    simp only
    cases x.fs q <;> rfl
  have two : ∀ {fo : Bool}, resolve v.fs v.cwd path fo = .error ENOENT → (lookup v.fs v.cwd path fo).map (·.2) = .error ENOENT := by
    intro fo hx
    unfold lookup
    rw [hx]
    rfl
  unfold SameLook
  refine ⟨?_, fun hl => ?_⟩
  · rw [one hw]
    rcases hv with h | ⟨h0, h⟩
    · rw [one h, hn]
    · rw [two (h false), hn, h0]
  · rw [one (resolve_follow (by rw [hn]; exact hl) hw)]
    rcases hv with h | ⟨h0, h⟩
    · rw [one (resolve_follow hl h), hn]
    · rw [two (h true), hn, h0]

end
end Verif.Ops
