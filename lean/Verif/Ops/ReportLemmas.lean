/-
What operations print: lemmas.
-/
import Verif.Ops.Honest

namespace Verif.Ops

open Script

variable {α : Type} {env : Env}

/-- Prints nothing, and records no diff unless diffs are wanted. -/
def Hush (env : Env) (m : Op α) : Prop :=
  ∀ st t r st', Execution m env st t r st' →
    st'.op.hasNested = st.op.hasNested ∧ st'.shown = st.shown ∧ (env.diff = false → st'.op.diffs = st.op.diffs)

/-- Prints the result and nothing else; nothing at all if there is none. -/
def Tells (env : Env) (m : Op OpResult) : Prop :=
  ∀ st t r st', st.op.hasNested = false → Execution m env st t r st' →
    st'.op.hasNested = false ∧ (env.diff = false → st'.op.diffs = st.op.diffs) ∧
    (∀ x, r = .ok x → st'.shown = st.shown ++ [⟨x, st'.op.diffs⟩]) ∧ (∀ e, r = .error e → st'.shown = st.shown)

/-- The same for the function of an operation. -/
def TellsR (env : Env) (m : Op (Option OpResult)) : Prop :=
  ∀ st t r st', st.op.hasNested = false → Execution m env st t r st' →
    st'.op.hasNested = false ∧ (env.diff = false → st'.op.diffs = st.op.diffs) ∧
    (∀ x, r = .ok x → ∃ y, x = some y ∧ st'.shown = st.shown ++ [⟨y, st'.op.diffs⟩]) ∧ (∀ e, r = .error e → st'.shown = st.shown)

/-- Prints one summary: that of the result, or that of a failure. -/
def Says (env : Env) (m : Op OpResult) : Prop :=
  ∀ st t r st', Execution m env st t r st' →
    ∃ x d, st'.shown = st.shown ++ [⟨x, d⟩] ∧ (env.diff = false → d = []) ∧
      (∀ y, r = .ok y → x = y) ∧ (∀ e, r = .error e → x.success = false ∧ (∀ m, e = .operationError m → m = x.failureMessage.getD p!"None"))

/-! ### Hush -/

theorem Keeps.hush {m : Op α} (h : Keeps id m) : Hush env m := fun _ _ _ _ he => by
  have := h _ _ _ _ _ he
  simp only [id_eq] at this
  subst this
  exact ⟨rfl, rfl, fun _ => rfl⟩

namespace Hush

theorem of_ret {m : Op α} (h : ∀ st, ∃ r st', m env st = .ret (r, st') ∧ st'.op.hasNested = st.op.hasNested ∧ st'.shown = st.shown ∧
    st'.op.diffs = st.op.diffs) : Hush env m := by
  intro st t r st' he
  obtain ⟨r0, st0, h1, h2, h3, h4⟩ := h st
  obtain ⟨_, _, rfl⟩ := (execution_ret h1).mp he
  exact ⟨h2, h3, fun _ => h4⟩

theorem bind {β : Type} {m : Op α} {g : α → Op β} (hm : Hush env m) (hf : ∀ a, Hush env (g a)) : Hush env (m >>= g) := by
  intro st t r st' h
  rcases execution_bind.mp h with ⟨e, _, h⟩ | ⟨t1, t2, a, st1, h1, h2, _⟩
  · exact hm _ _ _ _ h
  · obtain ⟨a1, a2, a3⟩ := hm _ _ _ _ h1
    obtain ⟨b1, b2, b3⟩ := hf a _ _ _ _ h2
    exact ⟨b1.trans a1, b2.trans a2, fun h => (b3 h).trans (a3 h)⟩

theorem ite {c : Prop} [Decidable c] {a b : Op α} (ha : Hush env a) (hb : Hush env b) : Hush env (if c then a else b) := by
  split <;> assumption

theorem initialState (d : Dict) : Hush env (initialState d) := .of_ret fun st => by
  unfold Script.initialState
  split
  · exact ⟨_, _, rfl, rfl, rfl, rfl⟩
  · split <;> exact ⟨_, _, rfl, rfl, rfl, rfl⟩

theorem finalState (d : Dict) : Hush env (finalState d) := .of_ret fun st => by
  unfold Script.finalState
  split
  · exact ⟨_, _, rfl, rfl, rfl, rfl⟩
  · split <;> exact ⟨_, _, rfl, rfl, rfl, rfl⟩

theorem unchanged (b : Bool) : Hush env (unchanged b) := .of_ret fun st => by
  unfold Script.unchanged
  split
  · split <;> exact ⟨_, _, rfl, rfl, rfl, rfl⟩
  · exact ⟨_, _, rfl, rfl, rfl, rfl⟩

/-- Recording a diff is only done if diffs are wanted. -/
theorem diffs {m : Op Unit} (h : ∀ st t r st', Execution m env st t r st' → st'.op.hasNested = st.op.hasNested ∧ st'.shown = st.shown) :
    Hush env (do let d ← diffWanted; if d then m else Op.pure ()) := by
  intro st t r st' he
  rcases execution_bind.mp he with ⟨e, _, he⟩ | ⟨t1, t2, a, st1, h1, h2, _⟩
  · obtain ⟨_, h, _⟩ := (execution_ret rfl).mp he
    cases h
  · obtain ⟨_, h, rfl⟩ := (execution_ret rfl).mp h1
    cases h
    split at h2
    · next hd =>
      obtain ⟨h3, h4⟩ := h _ _ _ _ h2
      exact ⟨h3, h4, fun h => by rw [hd] at h; cases h⟩
    · obtain ⟨_, _, rfl⟩ := execution_pure.mp h2
      exact ⟨rfl, rfl, fun _ => rfl⟩

end Hush

theorem opDiff_quiet {file : Str} {a b : Option Bytes} {st st' : St} {t : Trace} {r : Except Exn Unit}
    (h : Execution (opDiff file a b) env st t r st') : st'.op.hasNested = st.op.hasNested ∧ st'.shown = st.shown := by
  simp only [Execution, opDiff] at h
  split at h
  · obtain ⟨_, h⟩ := runs_ret.mp h; cases h; exact ⟨rfl, rfl⟩
  · split at h
    · obtain ⟨_, h⟩ := runs_ret.mp h; cases h; exact ⟨rfl, rfl⟩
    · obtain ⟨_, h⟩ := runs_ret.mp h; cases h; exact ⟨rfl, rfl⟩

theorem hush_lineDiff (path : Str) (orig : Option Bytes) (new : Bytes) : Hush env (lineDiff path orig new) :=
  .diffs fun _ _ _ _ h => opDiff_quiet h

theorem hush_saveDiff (dest : Str) (content : Bytes) : Hush env (saveDiff dest content) :=
  .diffs fun st t r st' h => by
    rcases execution_bind.mp h with ⟨e, _, h⟩ | ⟨t1, t2, a, st1, h1, h2, _⟩
    · have := keeps_downloadOr (g := id) _ _ _ _ _ _ _ h
      simp only [id_eq] at this
      subst this
      exact ⟨rfl, rfl⟩
    · have := keeps_downloadOr (g := id) _ _ _ _ _ _ _ h1
      simp only [id_eq] at this
      subst this
      exact opDiff_quiet h2

theorem keeps_mapOpt {β : Type} {g : St → β} {f : Option Str → Op Str} (h : ∀ x, Keeps g (f x)) (x : Option Str) : Keeps g (mapOpt f x) := by
  cases x with
  | none => exact .pure _
  | some x => exact .bind (h _) fun _ => .pure' _

theorem keeps_checkCwd {β : Type} {g : St → β} (c : Option Str) : Keeps g (checkCwd c) := by
  unfold Script.checkCwd
  split
  · exact .pure _
  · exact .pure _
  · refine .bind (.call _) fun s => ?_
    split
    · exact .raise _
    · split
      · exact .raise _
      · exact .pure _

theorem keeps_resolveDefaults {β : Type} {g : St → β} (s : Settings) : Keeps g (resolveDefaults s) := by
  unfold Script.resolveDefaults
  exact .bind .currentDefaults fun _ => .bind (keeps_mapOpt (fun _ => .call _) _) fun _ => .bind (keeps_mapOpt (fun _ => .call _) _) fun _ =>
    .bind (keeps_mapOpt (fun _ => .call _) _) fun _ => .bind (keeps_mapOpt (fun _ => .call _) _) fun _ => .bind (.ofExcept _) fun _ =>
    .bind (.ofExcept _) fun _ => .bind (.ofExcept _) fun _ => .bind (keeps_checkCwd _) fun _ => .pure' _

theorem keeps_queryUser {β : Type} {g : St → β} (u : Str) (h : Bool) (d : Option Client.UserEntry) : Keeps g (Connection.queryUser u h d) :=
  .tryCatch (.bind (.call _) fun _ => .pure' _) fun e => by
    split
    · exact .pure _
    · exact .raise _

theorem keeps_queryGroup {β : Type} {g : St → β} (u : Str) (d : Option Client.GroupEntry) : Keeps g (Connection.queryGroup u d) :=
  .tryCatch (.bind (.call _) fun _ => .pure' _) fun e => by
    split
    · exact .pure _
    · exact .raise _

theorem keeps_showProperty {β : Type} {g : St → β} (p s : Str) : Keeps g (showProperty p s) := .bind (.run _ _ _ _ _ _ _ _) fun _ => .pure' _

theorem keeps_findCommand {β γ : Type} {g : St → β} (m : List (Str × γ)) : Keeps g (findCommand m) := .bind (.run _ _ _ _ _ _ _ _) fun _ => .pure' _

theorem keeps_queryInstalled {β : Type} {g : St → β} {m : Manager} (h : ∀ p, Keeps g (m.isInstalled p)) : ∀ l, Keeps g (queryInstalled m l)
  | [] => .pure _
  | _ :: l => .bind (h _) fun _ => .bind (keeps_queryInstalled h l) fun _ => .pure' _

/-! ### Tells -/

namespace Tells

theorem success : Tells env success := by
  intro st t r st' hn h
  rcases success_cases env st with ⟨e, hs⟩ | ⟨i, f, _, _, hs⟩
  · obtain ⟨_, rfl, rfl⟩ := (execution_ret hs).mp h
    exact ⟨hn, fun _ => rfl, nofun, fun _ _ => rfl⟩
  · obtain ⟨_, rfl, rfl⟩ := (execution_ret hs).mp h
    refine ⟨by simpa using hn, by simp, fun x h => ?_, nofun⟩
    cases h
    simp [St.show, hn]

theorem failure (m : Str) : Tells env (failure m) := by
  intro st t r st' hn h
  obtain ⟨_, rfl, rfl⟩ := (execution_ret rfl).mp h
  refine ⟨by simpa using hn, by simp, fun x h => ?_, nofun⟩
  cases h
  simp [St.show, hn]

theorem raise (e : Exn) : Tells env (Op.raise e) := by
  intro st t r st' hn h
  obtain ⟨_, rfl, rfl⟩ := execution_raise.mp h
  exact ⟨hn, fun _ => rfl, nofun, fun _ _ => rfl⟩

theorem bind {m : Op α} {g : α → Op OpResult} (hm : Hush env m) (hf : ∀ a, Tells env (g a)) : Tells env (m >>= g) := by
  intro st t r st' hn h
  rcases execution_bind.mp h with ⟨e, rfl, h0⟩ | ⟨t1, t2, a, st1, h1, h2, _⟩
  · obtain ⟨a1, a2, a3⟩ := hm _ _ _ _ h0
    exact ⟨a1.trans hn, a3, nofun, fun _ _ => a2⟩
  · obtain ⟨a1, a2, a3⟩ := hm _ _ _ _ h1
    obtain ⟨b1, b2, b3, b4⟩ := hf a _ _ _ _ (a1.trans hn) h2
    rw [a2] at b3 b4
    exact ⟨b1, fun h => (b2 h).trans (a3 h), b3, b4⟩

theorem ite {c : Prop} [Decidable c] {a b : Op OpResult} (ha : Tells env a) (hb : Tells env b) : Tells env (if c then a else b) := by
  split <;> assumption

theorem withDefaults {s : Settings} {body : Settings → Op OpResult} (h : ∀ a, Tells env (body a)) : Tells env (withDefaults s body) := by
  unfold Script.withDefaults
  refine .bind (Keeps.hush (.ofExcept _)) fun _ => .bind (.of_ret fun st => ⟨_, st, rfl, rfl, rfl, rfl⟩) fun _ => .bind (Keeps.hush .currentDefaults) fun _ =>
    .bind (Keeps.hush (keeps_resolveDefaults _)) fun _ => .bind (.of_ret fun st => ⟨_, _, rfl, rfl, rfl, rfl⟩) fun _ => ?_
  intro st t r st' hn he
  obtain ⟨st1, h1, rfl⟩ := execution_finally.mp he
  have h2 := h _ _ _ _ _ hn h1
  exact h2

theorem settle {b m : Op Unit} (hb : Hush env b) (hm : Keeps id m) : Tells env (settle b m) :=
  .bind (.unchanged _) fun _ => .ite .success (.bind hb fun _ => .bind (Keeps.hush (.unlessDry hm)) fun _ => .success)

theorem _root_.Verif.Ops.TellsR.returned {m : Op OpResult} (h : Tells env m) : TellsR env (returned m) := by
  intro st t r st' hn he
  rcases execution_bind.mp he with ⟨e, rfl, h0⟩ | ⟨t1, t2, a, st1, h1, h2, _⟩
  · obtain ⟨h1, h2, _, h4⟩ := h _ _ _ _ hn h0
    exact ⟨h1, h2, nofun, fun _ _ => h4 _ rfl⟩
  · obtain ⟨h3, h4, h5, _⟩ := h _ _ _ _ hn h1
    obtain ⟨_, rfl, rfl⟩ := (execution_ret rfl).mp h2
    refine ⟨h3, h4, fun x h => ?_, nofun⟩
    cases h
    exact ⟨_, rfl, h5 _ rfl⟩

end Tells

namespace TellsR

theorem raise (e : Exn) : TellsR env (Op.raise e) := by
  intro st t r st' hn h
  obtain ⟨_, rfl, rfl⟩ := execution_raise.mp h
  exact ⟨hn, fun _ => rfl, nofun, fun _ _ => rfl⟩

theorem bind {m : Op α} {g : α → Op (Option OpResult)} (hm : Hush env m) (hf : ∀ a, TellsR env (g a)) : TellsR env (m >>= g) := by
  intro st t r st' hn h
  rcases execution_bind.mp h with ⟨e, rfl, h0⟩ | ⟨t1, t2, a, st1, h1, h2, _⟩
  · obtain ⟨a1, a2, a3⟩ := hm _ _ _ _ h0
    exact ⟨a1.trans hn, a3, nofun, fun _ _ => a2⟩
  · obtain ⟨a1, a2, a3⟩ := hm _ _ _ _ h1
    obtain ⟨b1, b2, b3, b4⟩ := hf a _ _ _ _ (a1.trans hn) h2
    rw [a2] at b3 b4
    exact ⟨b1, fun h => (b2 h).trans (a3 h), b3, b4⟩

theorem ite {c : Prop} [Decidable c] {a b : Op (Option OpResult)} (ha : TellsR env a) (hb : TellsR env b) : TellsR env (if c then a else b) := by
  split <;> assumption

theorem ofExcept {x : Except Exn α} {g : α → Op (Option OpResult)} (hf : ∀ a, TellsR env (g a)) : TellsR env (Op.ofExcept x >>= g) :=
  .bind (Keeps.hush (.ofExcept _)) hf

end TellsR

theorem Says.operation {check : Bool} {f : Op (Option OpResult)} (h : TellsR env f) : Says env (operation check f) := by
  intro st t r st' he
  obtain ⟨r0, st0, h1, rfl, h3⟩ := execution_operation.mp he
  obtain ⟨a1, a2, a3, a4⟩ := h _ _ _ _ rfl h1
  rcases r0 with e | o
  · refine ⟨failed st0 (errorText e), st0.op.diffs, ?_, a2, ?_, ?_⟩
    · simpa [St.show, a1, afterwards] using a4 _ rfl
    · rintro y rfl; cases h3
    · rintro e' rfl
      cases h3
      refine ⟨rfl, fun m hm => ?_⟩
      subst hm
      rfl
  · obtain ⟨y, rfl, h4⟩ := a3 _ rfl
    refine ⟨y, st0.op.diffs, by simpa [afterwards] using h4, a2, ?_, ?_⟩
    · rintro z rfl
      dsimp only at h3
      split at h3
      · cases h3
      · cases h3; rfl
    · rintro e rfl
      dsimp only at h3
      split at h3
      · next hc =>
        cases h3
        refine ⟨by simp at hc; exact hc.2, fun m hm => ?_⟩
        cases hm
        rfl
      · cases h3

/-! ### The operations -/

theorem says_directory (path : Str) (present touch : Bool) (mode owner group : Option Str) (check : Bool) :
    Says env (directory path present touch mode owner group check) := by
  refine .operation (.ofExcept fun _ => .returned (.withDefaults fun attr => ?_))
  refine .bind (.finalState _) fun _ => .bind (Keeps.hush (.call _)) fun s => ?_
  cases s with
  | none => exact .bind (.initialState _) fun _ => .settle (Keeps.hush (.pure _)) (keeps_directoryActions _ _ _)
  | some s => exact .ite (.failure _) (.bind (.initialState _) fun _ => .settle (Keeps.hush (.pure _)) (keeps_directoryActions _ _ _))

theorem says_file (path : Str) (present touch : Bool) (mode owner group : Option Str) (check : Bool) :
    Says env (file path present touch mode owner group check) := by
  refine .operation (.ofExcept fun _ => .returned (.withDefaults fun attr => ?_))
  refine .bind (.finalState _) fun _ => .bind (Keeps.hush (.call _)) fun s => ?_
  cases s with
  | none => exact .bind (.initialState _) fun _ => .settle (Keeps.hush (.pure _)) (keeps_fileActions _ _ _)
  | some s => exact .ite (.failure _) (.bind (.initialState _) fun _ => .settle (Keeps.hush (.pure _)) (keeps_fileActions _ _ _))

theorem says_link (path target : Str) (present touch : Bool) (owner group : Option Str) (check : Bool) :
    Says env (link path target present touch owner group check) := by
  refine .operation (.ofExcept fun _ => .ite (.raise _) (.returned (.withDefaults fun attr => ?_)))
  refine .bind (.finalState _) fun _ => .bind (Keeps.hush (.call _)) fun s => ?_
  cases s with
  | none => exact .bind (.initialState _) fun _ => .settle (Keeps.hush (.pure _)) (keeps_linkActions _ _ _ _)
  | some s =>
    exact .ite (.failure _) (.bind (Keeps.hush (.run _ _ _ _ _ _ _ _)) fun _ => .bind (Keeps.hush (.ofExcept _)) fun _ =>
      .bind (.initialState _) fun _ => .settle (Keeps.hush (.pure _)) (keeps_linkActions _ _ _ _))

theorem tells_saveContent (sha512 : Bytes → Bytes) (content : Content) (dest : Str) (mode owner group : Option Str) :
    Tells env (saveContent sha512 content dest mode owner group) := by
  refine .bind (Keeps.hush (.ofExcept _)) fun c => .withDefaults fun attr => ?_
  refine .bind (.finalState _) fun _ => .bind (Keeps.hush (.call _)) fun s => ?_
  cases s with
  | none => exact .bind (.initialState _) fun _ => .settle (hush_saveDiff _ _) (keeps_saveActions _ _ _)
  | some s => exact .ite (.failure _) (.bind (.initialState _) fun _ => .settle (hush_saveDiff _ _) (keeps_saveActions _ _ _))

theorem says_uploadContent (sha512 : Bytes → Bytes) (content : Content) (dest : Str) (mode owner group : Option Str) (check : Bool) :
    Says env (uploadContent sha512 content dest mode owner group check) :=
  .operation (.ofExcept fun _ => .returned (tells_saveContent _ _ _ _ _ _))

theorem says_upload (sha512 : Bytes → Bytes) (src : Str) (read : Except Exn Bytes) (dest : Str) (mode owner group : Option Str) (check : Bool) :
    Says env (upload sha512 src read dest mode owner group check) :=
  .operation (.ofExcept fun _ => .ofExcept fun _ => .returned (tells_saveContent _ _ _ _ _ _))

theorem says_templateContent {V : Type} (sha512 : Bytes → Bytes) (templ : List (Str × V) → Rendered) (dest : Str) (vars : List (Str × V))
    (context : Option (List (Str × V))) (host : V) (mode owner group : Option Str) (check : Bool) :
    Says env (templateContent sha512 templ dest vars context host mode owner group check) :=
  .operation (.ofExcept fun _ => .ofExcept fun _ => .returned (tells_saveContent _ _ _ _ _ _))

theorem says_template {V : Type} (sha512 : Bytes → Bytes) (src : Str) (templ : Except Exn (List (Str × V) → Rendered)) (dest : Str)
    (vars : List (Str × V)) (context : Option (List (Str × V))) (host : V) (mode owner group : Option Str) (check : Bool) :
    Says env (template sha512 src templ dest vars context host mode owner group check) :=
  .operation (.ofExcept fun _ => .ofExcept fun _ => .ofExcept fun _ => .returned (tells_saveContent _ _ _ _ _ _))

theorem tells_lineSettle (path line : Str) (present : Bool) (regex : Option Regex) (ignoreWhitespace : Bool) (backup : Backup)
    (attr : Settings) (orig : Option Bytes) : Tells env (lineSettle path line present regex ignoreWhitespace backup attr orig) :=
  .bind (.initialState _) fun _ => .bind (.unchanged _) fun _ => .ite .success (.bind (Keeps.hush (.ofExcept _)) fun _ =>
    .bind (hush_lineDiff _ _ _) fun _ => .bind (Keeps.hush (.unlessDry (keeps_lineActions _ _ _ _ _))) fun _ => .success)

theorem says_line (path text : Str) (present : Bool) (regex : Option Regex) (ignoreWhitespace : Bool) (backup : Backup) (check : Bool) :
    Says env (line path text present regex ignoreWhitespace backup check) := by
  refine .operation (.ofExcept fun _ => .returned (.withDefaults fun attr => ?_))
  refine .bind (.finalState _) fun _ => .bind (Keeps.hush (.call _)) fun s => ?_
  cases s with
  | none => exact tells_lineSettle _ _ _ _ _ _ _ _
  | some s => exact .ite (.failure _) (.bind (Keeps.hush (.call _)) fun _ => tells_lineSettle _ _ _ _ _ _ _ _)

theorem says_user (a : UserArgs) (check : Bool) : Says env (user a check) :=
  .operation (.bind (Keeps.hush (keeps_queryUser _ _ _)) fun _ => .bind (.initialState _) fun _ => .bind (.finalState _) fun _ =>
    .returned (.settle (Keeps.hush (.pure _)) (keeps_userActions _ _)))

theorem says_group (name : Str) (present : Bool) (gid : Option Int) (system check : Bool) : Says env (group name present gid system check) :=
  .operation (.bind (Keeps.hush (keeps_queryGroup _ _)) fun _ => .bind (.initialState _) fun _ => .bind (.finalState _) fun _ =>
    .returned (.settle (Keeps.hush (.pure _)) (keeps_groupActions _ _ _ _)))

theorem says_packageWith (order : List Str → List Str) {m : Manager} (h : ∀ p, Keeps id (m.isInstalled p))
    (hi : ∀ p, Keeps id (m.install p)) (hu : ∀ p, Keeps id (m.uninstall p)) (packages : List Str)
    (present check : Bool) : Says env (packageWith order m packages present check) :=
  .operation (.returned (.bind (Keeps.hush (keeps_queryInstalled h _)) fun _ => .bind (.initialState _) fun _ => .bind (.finalState _) fun _ =>
    .settle (Keeps.hush (.pure _)) (keeps_ite (keeps_forEach hi _) (keeps_forEach hu _))))

theorem says_apt (order : List Str → List Str) (opts packages : List Str) (present check : Bool) :
    Says env (packageWith order (apt opts) packages present check) :=
  says_packageWith _ (fun _ => .bind (.run _ _ _ _ _ _ _ _) fun _ => .pure' _) (fun _ => .runCommand _) (fun _ => .runCommand _) _ _ _
theorem says_pacman (order : List Str → List Str) (opts packages : List Str) (present check : Bool) :
    Says env (packageWith order (pacman opts) packages present check) :=
  says_packageWith _ (fun _ => .bind (.run _ _ _ _ _ _ _ _) fun _ => .pure' _) (fun _ => .runCommand _) (fun _ => .runCommand _) _ _ _
theorem says_portage (order : List Str → List Str) (opts : List Str) (oneshot : Bool) (packages : List Str) (present check : Bool) :
    Says env (packageWith order (portage opts oneshot) packages present check) :=
  says_packageWith _ (fun _ => .bind (.run _ _ _ _ _ _ _ _) fun _ => .pure' _) (fun _ => .runCommand _) (fun _ => .runCommand _) _ _ _

theorem says_daemonReload (userMode check : Bool) : Says env (daemonReload userMode check) :=
  .operation (.bind (.initialState _) fun _ => .bind (.finalState _) fun _ => .bind (Keeps.hush (.unlessDry (.runCommand _))) fun _ => .returned .success)

theorem says_systemdService (service : Str) (state : Option Str) (enabled : Option Bool) (userMode check : Bool) :
    Says env (systemdService service state enabled userMode check) :=
  .operation (.ite (.raise _) (.bind (Keeps.hush (keeps_showProperty _ _)) fun _ => .bind (Keeps.hush (keeps_showProperty _ _)) fun _ =>
    .bind (.initialState _) fun _ => .bind (.finalState _) fun _ => .bind (.unchanged _) fun _ =>
    .returned (.ite .success (.bind (Keeps.hush (.unlessDry (keeps_serviceActions _ _ _ _))) fun _ => .success))))

theorem tells_repoSettle (a : RepoArgs) (ex : Bool) (c : Option Str) : Tells env (repoSettle a ex c) :=
  .ite (.bind (.finalState _) fun _ => .success) (.bind (Keeps.hush (.run _ _ _ _ _ _ _ _)) fun _ => .bind (Keeps.hush (.ofExcept _)) fun _ =>
    .bind (.finalState _) fun _ => .bind (.unchanged _) fun _ => .ite .success (.bind (Keeps.hush .dry) fun _ => .ite .success (.ite
      (.bind (Keeps.hush (.runCommand _)) fun _ => .bind (Keeps.hush (keeps_submodules _)) fun _ => .success)
      (.bind (Keeps.hush (.run _ _ _ _ _ _ _ _)) fun _ => .ite (.failure _)
        (.bind (Keeps.hush (.runCommand _)) fun _ => .bind (Keeps.hush (keeps_submodules _)) fun _ => .success)))))

theorem says_repo (a : RepoArgs) (check : Bool) : Says env (repo a check) := by
  refine .operation (.ofExcept fun _ => .bind (Keeps.hush (.call _)) fun s => ?_)
  cases s with
  | none => exact .bind (.initialState _) fun _ => .returned (tells_repoSettle _ _ _)
  | some s =>
    refine .ite (.bind (Keeps.hush (.call _)) fun g => ?_) (.returned (.failure _))
    cases g with
    | none => exact .returned (.failure _)
    | some g =>
      exact .ite (.returned (.failure _)) (.bind (Keeps.hush (.run _ _ _ _ _ _ _ _)) fun _ => .bind (.initialState _) fun _ =>
        .returned (tells_repoSettle _ _ _))

theorem says_newOpFail (error : Str) : Says env (newOpFail error) := .operation (.raise _)

/-- The operations that choose a backend print nothing while they look for one. -/
theorem says_found {γ : Type} {ms : List (Str × γ)} {g : Option γ → Op OpResult} (h : ∀ k m, (k, m) ∈ ms → Says env (g (some m)))
    (hn : Says env (g none)) {st st' : St} {t : Trace} {r : Except Exn OpResult} (he : Execution (findCommand ms >>= g) env st t r st') :
    ((∃ e, r = .error e ∧ Execution (Connection.run [p!"bash", p!"-c", findQuery (ms.map (·.1))]) env st t (.error e) st') ∧ st'.shown = st.shown) ∨
    ∃ x d, st'.shown = st.shown ++ [⟨x, d⟩] ∧ (env.diff = false → d = []) ∧
      (∀ y, r = .ok y → x = y) ∧ (∀ e, r = .error e → x.success = false ∧ (∀ m, e = .operationError m → m = x.failureMessage.getD p!"None")) := by
  rcases execution_bind.mp he with ⟨e, rfl, h0⟩ | ⟨t1, t2, a, st1, h1, h2, _⟩
  · refine .inl ⟨⟨e, rfl, ?_⟩, (keeps_findCommand (g := St.shown) _ _ _ _ _ _ h0)⟩
    rcases execution_bind.mp h0 with ⟨e', he', h1⟩ | ⟨t1, t2, a, st1, h1, h2, _⟩
    · cases he'
      exact h1
    · cases (execution_pure.mp h2).2.1
  · have hk := keeps_findCommand (g := St.shown) _ _ _ _ _ _ h1
    cases a with
    | none =>
      obtain ⟨x, d, h3⟩ := hn _ _ _ _ h2
      rw [hk] at h3
      exact .inr ⟨x, d, h3⟩
    | some m =>
      obtain ⟨k, hm⟩ := findCommand_mem h1
      obtain ⟨x, d, h3⟩ := h k m hm _ _ _ _ h2
      rw [hk] at h3
      exact .inr ⟨x, d, h3⟩

/-! ### upload_dir -/

/-- What the loops of `upload_dir` print: the summaries of the nested operations up to the first one that fails. -/
structure Relays (env : Env) (st st' : St) (ok : Bool) (l : List (Str × Dict × Dict)) (good bad : List Report) : Prop where
  shown : st'.shown = st.shown ++ (good ++ bad)
  diffs : env.diff = false → ∀ p ∈ good ++ bad, p.diffs = []
  succeeded : ∀ p ∈ good, p.result.success = true
  failed : ∀ p ∈ bad, p.result.success = false
  one : bad.length ≤ 1
  nested : st'.op.hasNested = true
  done : ok = true → bad = [] ∧ ∃ l', Nested (l ++ l') st' ∧ l'.map (·.2) = good.map fun p => (p.result.initial, p.result.final)

theorem Relays.nil {l : List (Str × Dict × Dict)} {st : St} {b : Bool} (hn : Nested l st) : Relays env st st b l [] [] :=
  ⟨by simp, by simp, by simp, by simp, by simp, hn.1, fun _ => ⟨rfl, [], by simpa using hn, rfl⟩⟩

theorem Relays.trans {l : List (Str × Dict × Dict)} {st st1 st' : St} {b : Bool} {g1 g2 b2 : List Report} {l' : List (Str × Dict × Dict)}
    (h1 : Relays env st st1 true l g1 [])
    (hl : l'.map (·.2) = g1.map fun p => (p.result.initial, p.result.final)) (h2 : Relays env st1 st' b (l ++ l') g2 b2) :
    Relays env st st' b l (g1 ++ g2) b2 := by
  refine ⟨by simp [h2.shown, h1.shown], fun hd p hp => ?_, fun p hp => ?_, h2.failed, h2.one, h2.nested, fun hb => ?_⟩
  · simp only [List.append_assoc, List.mem_append] at hp
    rcases hp with hp | hp
    · exact h1.diffs hd p (by simp [hp])
    · exact h2.diffs hd p (by simpa using hp)
  · rcases List.mem_append.mp hp with hp | hp
    · exact h1.succeeded p hp
    · exact h2.succeeded p hp
  · obtain ⟨h3, l2, h4, h5⟩ := h2.done hb
    exact ⟨h3, l' ++ l2, by simpa using h4, by simp [hl, h5]⟩

theorem hasNested_add {k : Str} {x : OpResult} {st st' : St} {t : Trace} {r : Except Exn Unit} (hn : st.op.hasNested = true)
    (h : Execution (addNestedResult k x) env st t r st') : st'.op.hasNested = true ∧ st'.shown = st.shown := by
  simp only [Execution, addNestedResult, hn, Bool.not_true, Bool.false_eq_true, if_false] at h
  split at h
  · obtain ⟨_, h⟩ := runs_ret.mp h; cases h; exact ⟨rfl, rfl⟩
  · obtain ⟨_, h⟩ := runs_ret.mp h; cases h; exact ⟨rfl, rfl⟩

/-- One nested operation, and then the rest. -/
theorem relays_step {f : Op (Option OpResult)} {k : Str} {rest : Op Unit} {l : List (Str × Dict × Dict)} {st st' : St} {t : Trace}
    {r : Except Exn Unit} (hn : Nested l st) (hs : Says env (operation true f))
    (ih : ∀ {l : List (Str × Dict × Dict)} {st : St} {t : Trace}, Nested l st → Execution rest env st t r st' →
      ∃ good bad, Relays env st st' r.toOption.isSome l good bad)
    (h : Execution (operation true f >>= fun x => addNestedResult k x >>= fun _ => rest) env st t r st') :
    ∃ good bad, Relays env st st' r.toOption.isSome l good bad := by
  rcases execution_bind.mp h with ⟨e, rfl, h0⟩ | ⟨t1, t2, x, st1, h1, h2, _⟩
  · obtain ⟨x, d, hs1, hs2, _, hs4⟩ := hs _ _ _ _ h0
    exact ⟨[], [⟨x, d⟩], by simpa using hs1, fun hd p hp => by simp at hp; subst hp; exact hs2 hd, by simp,
      fun p hp => by simp at hp; subst hp; exact (hs4 _ rfl).1, by simp, by rw [operation_kept h0]; exact hn.1, nofun⟩
  · obtain ⟨y, d, hs1, hs2, hs3, _⟩ := hs _ _ _ _ h1
    obtain rfl := hs3 _ rfl
    have hx := operation_success h1
    have hn1 : Nested l st1 := by
      unfold Nested
      rw [operation_kept h1]
      exact hn
    rcases execution_bind.mp h2 with ⟨e, rfl, h0⟩ | ⟨t3, t4, u, st2, h3, h4, _⟩
    · obtain ⟨h5, h6⟩ := hasNested_add hn1.1 h0
      exact ⟨[⟨y, d⟩], [], by simpa [h6] using hs1, fun hd p hp => by simp at hp; subst hp; exact hs2 hd,
        fun p hp => by simp at hp; subst hp; exact hx, by simp, by simp, h5, nofun⟩
    · obtain ⟨_, h6⟩ := hasNested_add hn1.1 h3
      obtain ⟨_, hn2⟩ := nested_add hn1 h3
      obtain ⟨good, bad, h7⟩ := ih hn2 h4
      refine ⟨[⟨y, d⟩] ++ good, bad, Relays.trans (l' := [(k, y.initial, y.final)]) (st1 := st2) ?_ rfl h7⟩
      exact ⟨by simpa [h6] using hs1, fun hd p hp => by simp at hp; subst hp; exact hs2 hd,
        fun p hp => by simp at hp; subst hp; exact hx, by simp, by simp, hn2.1, fun _ => ⟨rfl, _, hn2, rfl⟩⟩

theorem relays_uploadDirs {mode owner group : Option Str} : ∀ {ds : List Str} {l : List (Str × Dict × Dict)} {st st' : St} {t : Trace}
    {r : Except Exn Unit}, Nested l st → Execution (uploadDirs mode owner group ds) env st t r st' →
    ∃ good bad, Relays env st st' r.toOption.isSome l good bad := by
  intro ds
  induction ds with
  | nil =>
    intro l st st' t r hn h
    obtain ⟨_, _, rfl⟩ := (execution_ret rfl).mp h
    exact ⟨[], [], .nil hn⟩
  | cons d ds ih =>
    intro l st st' t r hn h
    exact relays_step hn (says_directory _ _ _ _ _ _ _) (fun hn h => ih hn h) h

theorem relays_uploadFiles {sha512 : Bytes → Bytes} {mode owner group : Option Str} : ∀ {fs : List (Tree × Str)} {l : List (Str × Dict × Dict)}
    {st st' : St} {t : Trace} {r : Except Exn Unit}, Nested l st → Execution (uploadFiles sha512 mode owner group fs) env st t r st' →
    ∃ good bad, Relays env st st' r.toOption.isSome l good bad := by
  intro fs
  induction fs with
  | nil =>
    intro l st st' t r hn h
    obtain ⟨_, _, rfl⟩ := (execution_ret rfl).mp h
    exact ⟨[], [], .nil hn⟩
  | cons d ds ih =>
    intro l st st' t r hn h
    obtain ⟨tr, df⟩ := d
    rw [uploadFiles] at h
    split at h
    · exact relays_step hn (says_upload _ _ _ _ _ _ _ _) (fun hn h => ih hn h) h
    · exact ih hn h

/-- What `upload_dir` prints. -/
theorem relays_uploadDir {sha512 : Bytes → Bytes} {src : Str} {tree : Tree} {dest : Str} {dirMode fileMode owner group : Option Str} {check : Bool}
    {st st' : St} {t : Trace} {r : Except Exn OpResult} (he : Execution (uploadDir sha512 src tree dest dirMode fileMode owner group check) env st t r st') :
    ∃ good bad, st'.shown = st.shown ++ (good ++ bad) ∧ (env.diff = false → ∀ p ∈ good ++ bad, p.diffs = []) ∧
      (∀ p ∈ good, p.result.success = true) ∧ (∀ p ∈ bad, p.result.success = false) ∧ bad.length ≤ 1 ∧
      ∀ x, r = .ok x → bad = [] ∧ x.success = true ∧ x.initial.map (·.2) = good.map (fun p => Val.dict p.result.initial) ∧
        x.final.map (·.2) = good.map (fun p => Val.dict p.result.final) := by
  obtain ⟨r0, st0, h, rfl, h3⟩ := execution_operation.mp he
  clear he
  -- what the function itself does
  suffices hmain : ∃ good bad, st0.shown = st.shown ++ (good ++ bad) ∧ (env.diff = false → ∀ p ∈ good ++ bad, p.diffs = []) ∧
      (∀ p ∈ good, p.result.success = true) ∧ (∀ p ∈ bad, p.result.success = false) ∧ bad.length ≤ 1 ∧ st0.op.hasNested = true ∧
      ∀ y, r0 = .ok y → bad = [] ∧ ∃ x, y = some x ∧ x.success = true ∧ x.initial.map (·.2) = good.map (fun p => Val.dict p.result.initial) ∧
        x.final.map (·.2) = good.map (fun p => Val.dict p.result.final) by
    obtain ⟨good, bad, h4, h5, h6, h7, h8, h9, h10⟩ := hmain
    refine ⟨good, bad, ?_, h5, h6, h7, h8, ?_⟩
    · rcases r0 with e | o
      · simpa [afterwards, St.show, h9] using h4
      · simpa [afterwards] using h4
    · rintro x rfl
      rcases r0 with e | o
      · cases h3
      · obtain ⟨h11, y, rfl, h12⟩ := h10 _ rfl
        dsimp only at h3
        split at h3
        · cases h3
        · cases h3
          exact ⟨h11, h12⟩
  clear h3
  rcases execution_bind.mp h with ⟨e, rfl, h0⟩ | ⟨t1, t2, _, st1, h1, h, _⟩
  · replace h0 := (execution_ret rfl).mp h0
    obtain ⟨_, h0, _⟩ := h0
    cases h0
  obtain ⟨_, _, rfl⟩ := (execution_ret rfl).mp h1
  rcases execution_bind.mp h with ⟨e, rfl, h0⟩ | ⟨t3, t4, _, st2, h2, h, _⟩
  · obtain ⟨_, _, rfl⟩ := execution_ofExcept.mp h0
    exact ⟨[], [], by simp, by simp, by simp, by simp, by simp, rfl, nofun⟩
  obtain ⟨_, _, rfl⟩ := execution_ofExcept.mp h2
  dsimp only at h
  split at h
  · obtain ⟨_, rfl, rfl⟩ := execution_raise.mp h
    exact ⟨[], [], by simp, by simp, by simp, by simp, by simp, rfl, nofun⟩
  rcases execution_bind.mp h with ⟨e, rfl, h0⟩ | ⟨t5, t6, _, st3, h5, h, _⟩
  · obtain ⟨good, bad, h6⟩ := relays_uploadDirs (l := []) ⟨rfl, rfl, rfl, by simp⟩ h0
    exact ⟨good, bad, h6.shown, h6.diffs, h6.succeeded, h6.failed, h6.one, h6.nested, nofun⟩
  obtain ⟨g1, b1, h6⟩ := relays_uploadDirs (l := []) ⟨rfl, rfl, rfl, by simp⟩ h5
  obtain ⟨rfl, l1, h7, h8⟩ := h6.done rfl
  rcases execution_bind.mp h with ⟨e, rfl, h0⟩ | ⟨t7, t8, _, st4, h9, h, _⟩
  · obtain ⟨g2, b2, h9⟩ := relays_uploadFiles h7 h0
    have h10 := Relays.trans h6 h8 h9
    exact ⟨_, _, h10.shown, h10.diffs, h10.succeeded, h10.failed, h10.one, h10.nested, nofun⟩
  obtain ⟨g2, b2, h10⟩ := relays_uploadFiles h7 h9
  have h11 := Relays.trans h6 h8 h10
  obtain ⟨rfl, l2, h12, h13⟩ := h11.done rfl
  refine ⟨g1 ++ g2, [], ?_⟩
  simp only [List.nil_append] at h12
  obtain ⟨hn, hi, hf, _⟩ := h12
  have hshow : ∀ x, St.show st4 x = st4 := fun x => by simp [St.show, hn]
  rcases execution_bind.mp h with ⟨e, rfl, h0⟩ | ⟨t9, t10, y, st5, h14, h15, _⟩
  · rcases success_cases env st4 with ⟨e, hs⟩ | ⟨i, f, _, _, hs⟩
    · obtain ⟨_, _, rfl⟩ := (execution_ret hs).mp h0
      exact ⟨h11.shown, h11.diffs, h11.succeeded, h11.failed, h11.one, hn, nofun⟩
    · obtain ⟨_, hx, _⟩ := (execution_ret hs).mp h0
      cases hx
  · obtain ⟨_, rfl, rfl⟩ := (execution_ret rfl).mp h15
    rcases success_cases env st4 with ⟨e, hs⟩ | ⟨i, f, hsi, hsf, hs⟩
    · obtain ⟨_, hx, _⟩ := (execution_ret hs).mp h14
      cases hx
    · obtain ⟨_, hx, rfl⟩ := (execution_ret hs).mp h14
      cases hx
      rw [hshow]
      refine ⟨h11.shown, h11.diffs, h11.succeeded, h11.failed, h11.one, hn, fun y hy => ⟨rfl, ?_⟩⟩
      cases hy
      rw [hsi, Option.getD_some] at hi
      rw [hsf, Option.getD_some] at hf
      refine ⟨_, rfl, rfl, ?_, ?_⟩
      · show i.map _ = _
        rw [hi, List.map_map]
        have := congrArg (List.map fun p : Dict × Dict => Val.dict p.1) h13
        simpa [Function.comp_def] using this
      · show f.map _ = _
        rw [hf, List.map_map]
        have := congrArg (List.map fun p : Dict × Dict => Val.dict p.2) h13
        simpa [Function.comp_def] using this

end Verif.Ops
