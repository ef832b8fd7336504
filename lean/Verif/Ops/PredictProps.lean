/-
A dry run predicts the real run (C30).
-/
import Verif.Ops.Triple

namespace Verif.Ops

open Script
open Client (Prog)
open Wire (Packet)

variable {α β : Type}

/-- The code does not look at `fora.args.dry`. -/
def DryFree (m : Op α) : Prop := ∀ (env : Env) st, m { env with dry := true } st = m { env with dry := false } st

/-- The requests of the dry run are a beginning of those of the real run, with the same good results. -/
def Predicts (good : α → Prop) (m : Op α) : Prop :=
  ∀ (env : Env) st t x st', Execution m { env with dry := false } st t (.ok x) st' → good x →
    ∃ t1 t2, t = t1 ++ t2 ∧ Execution m { env with dry := true } st t1 (.ok x) st'

theorem DryFree.bind {m : Op α} {f : α → Op β} (hm : DryFree m) (hf : ∀ a, DryFree (f a)) : DryFree (m >>= f) := by
  intro env st
  change (m _ st).bind _ = (m _ st).bind _
  rw [hm env st]
  congr 1
  funext ⟨r, st'⟩
  cases r with
  | ok a => exact hf a env st'
  | error e => rfl

theorem DryFree.rfl {m : Op α} (h : ∀ (env : Env) st, m { env with dry := true } st = m { env with dry := false } st := by intros; rfl) : DryFree m := h

theorem DryFree.ite {c : Prop} [Decidable c] {a b : Op α} (ha : DryFree a) (hb : DryFree b) : DryFree (if c then a else b) := by
  split <;> assumption

theorem DryFree.ofExcept (x : Except Exn α) : DryFree (Op.ofExcept x) := by cases x <;> exact .rfl

theorem DryFree.run (command : List Str) (input : Option Bytes) (capture check : Bool) (user group umask cwd : Option Str) :
    DryFree (Connection.run command input capture check user group umask cwd) := .bind .rfl fun _ => .rfl

theorem DryFree.tryCatch {m : Op α} {f : Exn → Op α} (hm : DryFree m) (hf : ∀ a, DryFree (f a)) : DryFree (Op.tryCatch m f) := by
  intro env st
  change (m _ st).bind _ = (m _ st).bind _
  rw [hm env st]
  congr 1
  funext ⟨r, st'⟩
  cases r with
  | ok a => rfl
  | error e => exact hf e env st'

theorem DryFree.mapOpt {f : Option Str → Op Str} (h : ∀ x, DryFree (f x)) (x : Option Str) : DryFree (mapOpt f x) := by
  cases x with
  | none => exact .rfl
  | some x => exact .bind (h _) fun _ => .rfl

theorem DryFree.checkCwd (c : Option Str) : DryFree (checkCwd c) := by
  rcases c with _ | _ | ⟨a, c⟩
  · exact .rfl
  · exact .rfl
  · refine .bind .rfl fun s => ?_
    cases s with
    | none => exact .rfl
    | some s => exact .ite .rfl .rfl

theorem DryFree.resolveDefaults (s : Settings) : DryFree (resolveDefaults s) :=
  .bind .rfl fun _ => .bind (.mapOpt (fun _ => .rfl) _) fun _ => .bind (.mapOpt (fun _ => .rfl) _) fun _ => .bind (.mapOpt (fun _ => .rfl) _) fun _ =>
    .bind (.mapOpt (fun _ => .rfl) _) fun _ => .bind (.ofExcept _) fun _ => .bind (.ofExcept _) fun _ => .bind (.ofExcept _) fun _ =>
    .bind (.checkCwd _) fun _ => .rfl

namespace Predicts

variable {good : α → Prop} {good' : β → Prop}

theorem of_dryFree {m : Op α} (h : DryFree m) : Predicts good m := by
  intro env st t x st' he _
  refine ⟨t, [], by simp, ?_⟩
  unfold Execution at he ⊢
  rw [h]
  exact he

theorem bind {m : Op α} {f : α → Op β} (hm : DryFree m) (hf : ∀ a, Predicts good' (f a)) : Predicts good' (m >>= f) := by
  intro env st t x st' he hx
  obtain ⟨t1, t2, a, st1, rfl, h1, h2⟩ := execution_ok_bind he
  obtain ⟨u1, u2, rfl, h3⟩ := hf a _ _ _ _ _ h2 hx
  refine ⟨t1 ++ u1, u2, by simp, ?_⟩
  refine execution_bind.mpr (.inr ⟨t1, u1, a, st1, ?_, h3, rfl⟩)
  unfold Execution at h1 ⊢
  rw [hm]
  exact h1

/-- Code that is the same if a good result came out of the first part, and that does not send requests. -/
theorem bind_ret {m : Op α} {f : α → Op β} (hm : Predicts good m) (hf : ∀ a (env : Env) st, ∃ x, f a { env with dry := false } st = .ret x ∧ f a { env with dry := true } st = .ret x)
    (hg : ∀ a env st x st', f a env st = .ret (.ok x, st') → good' x → good a) : Predicts good' (m >>= f) := by
  intro env st t x st' he hx
  obtain ⟨t1, t2, a, st1, rfl, h1, h2⟩ := execution_ok_bind he
  obtain ⟨y, hy, hy'⟩ := hf a env st1
  obtain ⟨rfl, hr⟩ := (execution_ret (r0 := y.1) (st0 := y.2) hy).mp h2
  obtain ⟨hr, hs⟩ := hr
  have hyx : y = (.ok x, st') := by rw [hr, hs]
  obtain ⟨u1, u2, rfl, h3⟩ := hm _ _ _ _ _ h1 (hg a _ _ _ _ (by rw [hy, hyx]) hx)
  refine ⟨u1, u2, by simp, ?_⟩
  refine execution_bind.mpr (.inr ⟨u1, [], a, st1, h3, ?_, by simp⟩)
  unfold Execution
  rw [hy', hyx]
  exact .ret _

theorem ite {c : Prop} [Decidable c] {a b : Op α} (ha : Predicts good a) (hb : Predicts good b) : Predicts good (if c then a else b) := by
  split <;> assumption

theorem unlessDry {m : Op Unit} {good : Unit → Prop} (h : Keeps (id : St → St) m) : Predicts good (unlessDry m) := by
  intro env st t x st' he _
  obtain ⟨t1, t2, a, st1, rfl, h1, h2⟩ := execution_ok_bind he
  replace h1 := (execution_ret (m := dry) (r0 := .ok false) (st0 := st) rfl).mp h1
  obtain ⟨rfl, ha, rfl⟩ := h1
  cases ha
  have := h _ _ _ _ _ h2
  simp only [id] at this
  subst this
  refine ⟨[], t2, rfl, ?_⟩
  exact .ret _

theorem success' (env : Env) (st : St) : ∃ x, success { env with dry := false } st = .ret x ∧ success { env with dry := true } st = .ret x := by
  rcases success_cases { env with dry := false } st with ⟨e, h⟩ | ⟨i, f, _, _, h⟩ <;> exact ⟨_, h, h⟩

theorem act {m : Op Unit} {good : OpResult → Prop} (h : Keeps (id : St → St) m) : Predicts good (do Ops.unlessDry m; success) :=
  bind_ret (good := fun _ => True) (unlessDry h) (fun _ => success') fun _ _ _ _ _ _ _ => trivial

theorem settle {b m : Op Unit} {good : OpResult → Prop} (hb : DryFree b) (hm : Keeps (id : St → St) m) : Predicts good (settle b m) :=
  bind .rfl fun _ => ite (of_dryFree .rfl) (bind hb fun _ => act hm)

theorem returned {m : Op OpResult} (h : Predicts (·.success = true) m) : Predicts (fun r => ∀ x, r = some x → x.success = true) (returned m) :=
  bind_ret h (fun _ _ _ => ⟨_, rfl, rfl⟩) fun a env st x st' he hx => by
    change Prog.ret _ = _ at he
    simp only [Prog.ret.injEq, Prod.mk.injEq, Except.ok.injEq] at he
    exact hx a he.1.symm

theorem withDefaults {s : Settings} {body : Settings → Op OpResult} {good : OpResult → Prop}
    (h : ∀ a, Predicts good (body a)) : Predicts good (withDefaults s body) := by
  intro env st t x st' he hx
  obtain ⟨t1, t2, c, st1, rfl, h1, h2⟩ := execution_ok_bind he
  obtain ⟨t3, t4, e, st2, rfl, h3, h4⟩ := execution_ok_bind h2
  replace h3 := (execution_ret (m := Op.getEnv) (r0 := .ok { env with dry := false }) (st0 := st1) rfl).mp h3
  obtain ⟨rfl, h3, rfl⟩ := h3
  cases h3
  obtain ⟨u1, u2, rfl, h5⟩ := bind (good' := good) (m := currentDefaults) .rfl (fun cur => bind (.resolveDefaults ((env.base.overlay cur).overlay c)) fun r =>
    bind (m := push r) .rfl fun _ => show Predicts good (Op.finally_ (body (env.base.overlay r)) fun st => { st with stack := st.stack.tail }) from by
      intro env' st t x st' he hx
      obtain ⟨st1, h1, rfl⟩ := execution_finally.mp he
      obtain ⟨u1, u2, rfl, h2⟩ := h _ _ _ _ _ _ h1 hx
      exact ⟨u1, u2, rfl, execution_finally.mpr ⟨st1, h2, rfl⟩⟩) env _ _ _ _ h4 hx
  refine ⟨t1 ++ u1, u2, by simp, ?_⟩
  refine execution_bind.mpr (.inr ⟨t1, u1, c, st2, ?_, ?_, rfl⟩)
  · have := DryFree.ofExcept (canonicalize s)
    unfold Execution at h1 ⊢
    rw [this]
    exact h1
  · exact execution_bind.mpr (.inr ⟨[], u1, { env with dry := true }, st2, .ret _, h5, rfl⟩)

theorem operation {check : Bool} {f : Op (Option OpResult)} (h : Predicts (fun r => ∀ x, r = some x → x.success = true) f) :
    Predicts (·.success = true) (operation check f) := by
  intro env st t x st' he hx
  obtain ⟨r, st1, h1, hst, h2⟩ := execution_operation.mp he
  cases r with
  | error e => simp at h2
  | ok r =>
    cases r with
    | none => simp at h2
    | some y =>
      have hy : y = x := by
        by_cases hc : (check && !y.success) = true
        · simp [hc] at h2
        · simp only [hc] at h2; simp at h2; exact h2.symm
      subst hy
      obtain ⟨u1, u2, rfl, h3⟩ := h _ _ _ _ _ h1 (fun z hz => by cases hz; exact hx)
      exact ⟨u1, u2, rfl, execution_operation.mpr ⟨_, _, h3, hst, h2⟩⟩

end Predicts

/-! ### The operations -/

abbrev Predicted (m : Op OpResult) : Prop := Predicts (·.success = true) m

theorem dryFree_downloadOr (path : Str) (d : Option Bytes) : DryFree (Connection.downloadOr path d) :=
  .tryCatch (.bind .rfl fun _ => .rfl) fun _ => .ite .rfl .rfl

theorem dryFree_saveDiff (dest : Str) (content : Bytes) : DryFree (saveDiff dest content) :=
  .bind .rfl fun _ => .ite (.bind (dryFree_downloadOr _ _) fun _ => .rfl) .rfl

theorem dryFree_lineDiff (path : Str) (orig : Option Bytes) (new : Bytes) : DryFree (lineDiff path orig new) :=
  .bind .rfl fun _ => .ite .rfl .rfl

theorem dryFree_queryInstalled {m : Manager} (h : ∀ p, DryFree (m.isInstalled p)) : ∀ l, DryFree (queryInstalled m l)
  | [] => .rfl
  | _ :: l => .bind (h _) fun _ => .bind (dryFree_queryInstalled h l) fun _ => .rfl

theorem predicted_directory (path : Str) (present touch : Bool) (mode owner group : Option Str) (check : Bool) :
    Predicted (directory path present touch mode owner group check) := by
  refine .operation (.bind (.ofExcept _) fun _ => .returned (.withDefaults fun attr => .bind .rfl fun _ => .bind .rfl fun s => ?_))
  cases s with
  | none => exact .bind .rfl fun _ => .settle .rfl (keeps_directoryActions _ _ _)
  | some s => exact .ite (.of_dryFree .rfl) (.bind .rfl fun _ => .settle .rfl (keeps_directoryActions _ _ _))

theorem predicted_file (path : Str) (present touch : Bool) (mode owner group : Option Str) (check : Bool) :
    Predicted (file path present touch mode owner group check) := by
  refine .operation (.bind (.ofExcept _) fun _ => .returned (.withDefaults fun attr => .bind .rfl fun _ => .bind .rfl fun s => ?_))
  cases s with
  | none => exact .bind .rfl fun _ => .settle .rfl (keeps_fileActions _ _ _)
  | some s => exact .ite (.of_dryFree .rfl) (.bind .rfl fun _ => .settle .rfl (keeps_fileActions _ _ _))

theorem predicted_link (path target : Str) (present touch : Bool) (owner group : Option Str) (check : Bool) :
    Predicted (link path target present touch owner group check) := by
  refine .operation (.bind (.ofExcept _) fun _ => .ite (.of_dryFree .rfl) (.returned (.withDefaults fun attr => .bind .rfl fun _ => .bind .rfl fun s => ?_)))
  cases s with
  | none => exact .bind .rfl fun _ => .settle .rfl (keeps_linkActions _ _ _ _)
  | some s =>
    exact .ite (.of_dryFree .rfl) (.bind (.run _ _ _ _ _ _ _ _) fun _ => .bind (.ofExcept _) fun _ => .bind .rfl fun _ => .settle .rfl (keeps_linkActions _ _ _ _))

theorem predicted_saveContent (sha512 : Bytes → Bytes) (content : Content) (dest : Str) (mode owner group : Option Str) :
    Predicted (saveContent sha512 content dest mode owner group) := by
  refine .bind (.ofExcept _) fun _ => .withDefaults fun attr => .bind .rfl fun _ => .bind .rfl fun s => ?_
  cases s with
  | none => exact .bind .rfl fun _ => .settle (dryFree_saveDiff _ _) (keeps_saveActions _ _ _)
  | some s => exact .ite (.of_dryFree .rfl) (.bind .rfl fun _ => .settle (dryFree_saveDiff _ _) (keeps_saveActions _ _ _))

theorem predicted_lineSettle (path line : Str) (present : Bool) (regex : Option Regex) (ignoreWhitespace : Bool) (backup : Backup)
    (attr : Settings) (orig : Option Bytes) : Predicted (lineSettle path line present regex ignoreWhitespace backup attr orig) :=
  .bind .rfl fun _ => .bind .rfl fun _ => .ite (.of_dryFree .rfl) (.bind (.ofExcept _) fun _ => .bind (dryFree_lineDiff _ _ _) fun _ =>
    .act (keeps_lineActions _ _ _ _ _))

theorem predicted_packageWith (order : List Str → List Str) {m : Manager} (h : ∀ p, DryFree (m.isInstalled p))
    (hi : ∀ p, Keeps (id : St → St) (m.install p)) (hu : ∀ p, Keeps (id : St → St) (m.uninstall p)) (packages : List Str) (present check : Bool) :
    Predicted (packageWith order m packages present check) :=
  .operation (.returned (.bind (dryFree_queryInstalled h _) fun _ => .bind .rfl fun _ => .bind .rfl fun _ =>
    .settle .rfl (keeps_ite (keeps_forEach hi _) (keeps_forEach hu _))))

theorem predicted_apt (order : List Str → List Str) (opts packages : List Str) (present check : Bool) :
    Predicted (packageWith order (apt opts) packages present check) :=
  predicted_packageWith _ (fun _ => .bind (.run _ _ _ _ _ _ _ _) fun _ => .rfl) (fun _ => .runCommand _) (fun _ => .runCommand _) _ _ _

theorem predicted_pacman (order : List Str → List Str) (opts packages : List Str) (present check : Bool) :
    Predicted (packageWith order (pacman opts) packages present check) :=
  predicted_packageWith _ (fun _ => .bind (.run _ _ _ _ _ _ _ _) fun _ => .rfl) (fun _ => .runCommand _) (fun _ => .runCommand _) _ _ _

theorem predicted_portage (order : List Str → List Str) (opts : List Str) (oneshot : Bool) (packages : List Str) (present check : Bool) :
    Predicted (packageWith order (portage opts oneshot) packages present check) :=
  predicted_packageWith _ (fun _ => .bind (.run _ _ _ _ _ _ _ _) fun _ => .rfl) (fun _ => .runCommand _) (fun _ => .runCommand _) _ _ _

theorem dryFree_find {γ : Type} (m : List (Str × γ)) : DryFree (findCommand m) := .bind (.run _ _ _ _ _ _ _ _) fun _ => .rfl

theorem Predicts.bind_exec {good : β → Prop} {m : Op α} {f : α → Op β} (hm : DryFree m)
    (hf : ∀ env st t a st', Execution m env st t (.ok a) st' → Predicts good (f a)) : Predicts good (m >>= f) := by
  intro env st t x st' he hx
  obtain ⟨t1, t2, a, st1, rfl, h1, h2⟩ := execution_ok_bind he
  obtain ⟨u1, u2, rfl, h3⟩ := hf _ _ _ _ _ h1 _ _ _ _ _ h2 hx
  refine ⟨t1 ++ u1, u2, by simp, ?_⟩
  refine execution_bind.mpr (.inr ⟨t1, u1, a, st1, ?_, h3, rfl⟩)
  unfold Execution at h1 ⊢
  rw [hm]
  exact h1

theorem predicted_package (order : List Str → List Str) (packages : List Str) (present check : Bool) :
    Predicted (package order packages present check) := by
  refine .bind_exec (dryFree_find _) fun env st t a st' h => ?_
  cases a with
  | none => exact .operation (.of_dryFree .rfl)
  | some m =>
    obtain ⟨k, hk⟩ := findCommand_mem h
    simp only [packageManagers, List.mem_cons, Prod.mk.injEq, List.not_mem_nil, or_false] at hk
    rcases hk with ⟨_, rfl⟩ | ⟨_, rfl⟩ | ⟨_, rfl⟩
    · exact predicted_apt _ _ _ _ _
    · exact predicted_pacman _ _ _ _ _
    · exact predicted_portage _ _ _ _ _ _

theorem predicted_systemdService (service : Str) (state : Option Str) (enabled : Option Bool) (userMode check : Bool) :
    Predicted (systemdService service state enabled userMode check) :=
  .operation (.ite (.of_dryFree .rfl) (.bind (.bind (.run _ _ _ _ _ _ _ _) fun _ => .rfl) fun _ => .bind (.bind (.run _ _ _ _ _ _ _ _) fun _ => .rfl) fun _ =>
    .bind .rfl fun _ => .bind .rfl fun _ => .bind .rfl fun _ => .returned (.ite (.of_dryFree .rfl) (.act (keeps_serviceActions _ _ _ _)))))

theorem predicted_service (name : Str) (state : Option Str) (enabled : Option Bool) (check : Bool) : Predicted (service name state enabled check) := by
  refine .bind_exec (dryFree_find _) fun env st t a st' h => ?_
  cases a with
  | none => exact .operation (.of_dryFree .rfl)
  | some m =>
    obtain ⟨k, hk⟩ := findCommand_mem h
    simp only [serviceManagers, List.mem_cons, Prod.mk.injEq, List.not_mem_nil, or_false] at hk
    obtain ⟨_, rfl⟩ := hk
    exact predicted_systemdService _ _ _ _ _

/-- Code that, if it ends with a good result, ends with that of `success` at its beginning. -/
def EndsWell (m : Op OpResult) : Prop :=
  ∀ env st t x st', Execution m env st t (.ok x) st' → x.success = true → success env st = .ret (.ok x, st')

theorem endsWell_success : EndsWell success := by
  intro env st t x st' he _
  obtain ⟨y, hy, _⟩ := Predicts.success' env st
  have : success env st = .ret y := hy
  obtain ⟨r, s⟩ := y
  obtain ⟨-, h1, h2⟩ := (execution_ret this).mp he
  subst h1; subst h2
  exact this

theorem endsWell_bind {m : Op α} {f : α → Op OpResult} (hm : Keeps (id : St → St) m) (hf : ∀ a, EndsWell (f a)) : EndsWell (m >>= f) := by
  intro env st t x st' he hx
  obtain ⟨t1, t2, a, st1, rfl, h1, h2⟩ := execution_ok_bind he
  have := hm _ _ _ _ _ h1
  simp only [id] at this
  subst this
  exact hf a _ _ _ _ _ h2 hx

theorem endsWell_ite {c : Prop} [Decidable c] {a b : Op OpResult} (ha : EndsWell a) (hb : EndsWell b) : EndsWell (if c then a else b) := by
  split <;> assumption

theorem endsWell_failure (m : Str) : EndsWell (failure m) := by
  intro env st t x st' he hx
  obtain ⟨-, h1, -⟩ := (execution_ret (m := failure m) rfl).mp he
  cases h1
  cases hx

theorem predicts_dry {m : Op OpResult} (h : EndsWell m) : Predicted (do let d ← dry; if d then success else m) := by
  intro env st t x st' he hx
  obtain ⟨t1, t2, a, st1, rfl, h1, h2⟩ := execution_ok_bind he
  replace h1 := (execution_ret (m := dry) (r0 := .ok false) (st0 := st) rfl).mp h1
  obtain ⟨rfl, ha, rfl⟩ := h1
  cases ha
  have hs := h _ _ _ _ _ h2 hx
  refine ⟨[], t2, rfl, execution_bind.mpr (.inr ⟨[], [], true, st1, .ret _, ?_, rfl⟩)⟩
  exact (execution_ret (m := success) (r0 := .ok x) (st0 := st') hs).mpr ⟨rfl, rfl, rfl⟩

theorem predicted_repoSettle (a : RepoArgs) (ex : Bool) (c : Option Str) : Predicted (repoSettle a ex c) :=
  .ite (.of_dryFree (.bind .rfl fun _ => .rfl)) (.bind (.run _ _ _ _ _ _ _ _) fun _ => .bind (.ofExcept _) fun _ => .bind .rfl fun _ => .bind .rfl fun _ =>
    .ite (.of_dryFree .rfl) (predicts_dry (endsWell_ite
      (endsWell_bind (.runCommand _) fun _ => endsWell_bind (keeps_submodules _) fun _ => endsWell_success)
      (endsWell_bind (.run _ _ _ _ _ _ _ _) fun _ => endsWell_ite (endsWell_failure _)
        (endsWell_bind (.runCommand _) fun _ => endsWell_bind (keeps_submodules _) fun _ => endsWell_success)))))

theorem predicted_repo (a : RepoArgs) (check : Bool) : Predicted (repo a check) := by
  refine .operation (.bind (.ofExcept _) fun _ => .bind .rfl fun s => ?_)
  cases s with
  | none => exact .bind .rfl fun _ => .returned (predicted_repoSettle _ _ _)
  | some s =>
    refine .ite (.bind .rfl fun g => ?_) (.returned (.of_dryFree .rfl))
    cases g with
    | none => exact .returned (.of_dryFree .rfl)
    | some g =>
      exact .ite (.returned (.of_dryFree .rfl)) (.bind (.run _ _ _ _ _ _ _ _) fun _ => .bind .rfl fun _ => .returned (predicted_repoSettle _ _ _))

/-- C30. Whatever the remote answers: if the real run of an operation succeeds, the dry run sends the same requests up to
some point, and if these get the same answers it succeeds with the same result (initial state, final state, changed flag) and
prints the same summaries and diffs.
Missing: `upload_dir`, whose later parts look at what its earlier parts have created (see `C30_upload_dir_partial`). -/
theorem C30_dry_run_predicts_partial (opts : List Str) (op : Op OpResult) (hop : Operation opts op)
    (hn : ∀ sha512 src tree dest dirMode fileMode owner group check, op ≠ uploadDir sha512 src tree dest dirMode fileMode owner group check)
    (env : Env) (st st' : St) (t : Trace) (x : OpResult) (h : Execution op { env with dry := false } st t (.ok x) st') (hx : x.success = true) :
    ∃ t1 t2, t = t1 ++ t2 ∧ Execution op { env with dry := true } st t1 (.ok x) st' := by
  have key : Predicted op := by
    cases hop with
    | directory => exact predicted_directory _ _ _ _ _ _ _
    | file => exact predicted_file _ _ _ _ _ _ _
    | link => exact predicted_link _ _ _ _ _ _ _
    | uploadContent => exact .operation (.bind (.ofExcept _) fun _ => .returned (predicted_saveContent _ _ _ _ _ _))
    | upload => exact .operation (.bind (.ofExcept _) fun _ => .bind (.ofExcept _) fun _ => .returned (predicted_saveContent _ _ _ _ _ _))
    | uploadDir => exact absurd rfl (hn _ _ _ _ _ _ _ _ _)
    | templateContent => exact .operation (.bind (.ofExcept _) fun _ => .bind (.ofExcept _) fun _ => .returned (predicted_saveContent _ _ _ _ _ _))
    | template =>
      exact .operation (.bind (.ofExcept _) fun _ => .bind (.ofExcept _) fun _ => .bind (.ofExcept _) fun _ => .returned (predicted_saveContent _ _ _ _ _ _))
    | line =>
      refine .operation (.bind (.ofExcept _) fun _ => .returned (.withDefaults fun attr => .bind .rfl fun _ => .bind .rfl fun s => ?_))
      cases s with
      | none => exact predicted_lineSettle _ _ _ _ _ _ _ _
      | some s => exact .ite (.of_dryFree .rfl) (.bind .rfl fun _ => predicted_lineSettle _ _ _ _ _ _ _ _)
    | user =>
      exact .operation (.bind (.tryCatch (.bind .rfl fun _ => .rfl) fun _ => .ite .rfl .rfl) fun _ => .bind .rfl fun _ => .bind .rfl fun _ =>
        .returned (.settle .rfl (keeps_userActions _ _)))
    | group =>
      exact .operation (.bind (.tryCatch (.bind .rfl fun _ => .rfl) fun _ => .ite .rfl .rfl) fun _ => .bind .rfl fun _ => .bind .rfl fun _ =>
        .returned (.settle .rfl (keeps_groupActions _ _ _ _)))
    | apt => exact predicted_apt _ _ _ _ _
    | pacman => exact predicted_pacman _ _ _ _ _
    | portage => exact predicted_portage _ _ _ _ _ _
    | package => exact predicted_package _ _ _ _
    | daemonReload =>
      exact .operation (.bind .rfl fun _ => .bind .rfl fun _ => .bind_ret (good := fun _ => True) (.unlessDry (.runCommand _)) (fun _ env st => by
        obtain ⟨⟨r | r, s⟩, h1, h2⟩ := Predicts.success' env st
        · exact ⟨(.error r, s), congrArg (Prog.bind · _) h1, congrArg (Prog.bind · _) h2⟩
        · exact ⟨(.ok (some r), s), congrArg (Prog.bind · _) h1, congrArg (Prog.bind · _) h2⟩) fun _ _ _ _ _ _ _ => trivial)
    | systemdService => exact predicted_systemdService _ _ _ _ _
    | service => exact predicted_service _ _ _ _
    | repo => exact predicted_repo _ _
  exact key _ _ _ _ _ h hx

/-- A group is created; the dry run stops after the query. -/
example : ∃ t x st', Execution (group p!"www" true (some 33) false true) { base := {} } { stack := [{}] } t (.ok x) st' ∧ t.length = 2
    ∧ x.success = true ∧ x.changed = true :=
  ⟨[(.queryGroup p!"www", .error (.valueError [])),
    (.processRun [p!"groupadd", p!"--gid", p!"33", p!"--", p!"www"] none true none none none none, .ok (.processCompleted (some []) (some []) 0))],
    _, _, .req _ _ _ _ _ (.req _ _ _ _ _ (.ret _)), rfl, rfl, rfl⟩

/-- The answers of a trace are those that a given remote gives. -/
inductive Answered {σ : Type} (remote : Packet → σ → Except Exn Packet × σ) : σ → Trace → Prop where
  | nil (w : σ) : Answered remote w []
  | cons (p : Packet) (w : σ) (t : Trace) : Answered remote (remote p w).2 t → Answered remote w ((p, (remote p w).1) :: t)

theorem answered_run {σ γ : Type} (remote : Packet → σ → Except Exn Packet × σ) (m : Prog γ) (w : σ) :
    ∃ t, Prog.Runs m t (m.run remote w).1 ∧ Answered remote w t := by
  induction m generalizing w with
  | ret a => exact ⟨[], .ret _, .nil _⟩
  | req p k ih =>
    obtain ⟨t, h1, h2⟩ := ih (remote p w).1 (remote p w).2
    exact ⟨_, .req _ _ _ _ _ h1, .cons _ _ _ h2⟩

theorem run_answered {σ γ : Type} {remote : Packet → σ → Except Exn Packet × σ} {m : Prog γ} {w : σ} {t : Trace} {a : γ}
    (h : Prog.Runs m t a) (ha : Answered remote w t) : (m.run remote w).1 = a := by
  induction h generalizing w with
  | ret a => rfl
  | req p k r t a _ ih =>
    cases ha with
    | cons _ _ _ h2 => exact ih h2

theorem answered_prefix {σ : Type} {remote : Packet → σ → Except Exn Packet × σ} {t1 t2 : Trace} {w : σ} (h : Answered remote w (t1 ++ t2)) :
    Answered remote w t1 := by
  induction t1 generalizing w with
  | nil => exact .nil _
  | cons e t1 ih =>
    cases h with
    | cons p _ _ h2 => exact .cons _ _ _ (ih h2)

/-- C30. The same for a remote that starts in the same state: the dry run gives the result that the real run would give. -/
theorem C30_same_result_partial {σ : Type} (remote : Packet → σ → Except Exn Packet × σ) (opts : List Str) (op : Op OpResult) (hop : Operation opts op)
    (hn : ∀ sha512 src tree dest dirMode fileMode owner group check, op ≠ uploadDir sha512 src tree dest dirMode fileMode owner group check)
    (env : Env) (st st' : St) (w w' : σ) (x : OpResult) (h : exec remote op { env with dry := false } st w = ((.ok x, st'), w'))
    (hx : x.success = true) : ∃ w2, exec remote op { env with dry := true } st w = ((.ok x, st'), w2) := by
  obtain ⟨t, h1, h2⟩ := answered_run remote (op { env with dry := false } st) w
  have h0 : ((op { env with dry := false } st).run remote w).1 = (.ok x, st') := congrArg Prod.fst h
  rw [h0] at h1
  obtain ⟨t1, t2, rfl, h3⟩ := C30_dry_run_predicts_partial opts op hop hn env st st' t x h1 hx
  exact ⟨_, Prod.ext (run_answered h3 (answered_prefix h2)) rfl⟩

end Verif.Ops
