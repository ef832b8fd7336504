/-
C61, C62, C73, C74: running scripts.
-/
import Verif.Run.Script

namespace Verif.Run

/-! ### Lemmas -/

theorem chdir_same {dir : Str} {ctx : Ctx} : (chdir dir ctx).2.stack = ctx.stack ∧ (chdir dir ctx).2.indent = ctx.indent ∧ (chdir dir ctx).2.dirs = ctx.dirs
    ∧ (chdir dir ctx).2.script = ctx.script := by
  unfold chdir
  split <;> exact ⟨rfl, rfl, rfl, rfl⟩

/-- Executing code keeps the stack and the indentation. -/
def Keeps (run : Code → Ctx → Option (Except Exc Unit × Ctx)) : Prop :=
  ∀ code ctx r ctx', run code ctx = some (r, ctx') → ctx'.stack = ctx.stack ∧ ctx'.indent = ctx.indent

theorem restore_same {cwd : Str} {script : Option ScriptW} {r : Except Exc Unit} {ctx : Ctx} :
    (restore cwd script r ctx).2.stack = ctx.stack ∧ (restore cwd script r ctx).2.indent = ctx.indent ∧ (restore cwd script r ctx).2.dirs = ctx.dirs := by
  unfold restore chdir
  by_cases h : ctx.dirs cwd = true
  · simp [h]
  · simp [h]

theorem enterScript_keeps {env : Env} {run : Code → Ctx → Option (Except Exc Unit × Ctx)} (hrun : Keeps run) {w : ScriptW} {params : Option Dict} {ctx ctx' : Ctx}
    {r : Except Exc Unit} (h : enterScript env run w params ctx = some (r, ctx')) : ctx'.stack = ctx.stack ∧ ctx'.indent = ctx.indent := by
  unfold enterScript at h
  split at h
  · by_cases hd : ctx.dirs (Ops.dirName w.file) = true
    · simp only [chdir, if_pos hd] at h
      obtain ⟨⟨r1, c1⟩, h1, h2⟩ := Option.map_eq_some_iff.mp h
      have h3 : c1.stack = ctx.stack ∧ c1.indent = ctx.indent := by
        unfold loadScript at h1
        split at h1
        · split at h1
          · cases h1; exact ⟨rfl, rfl⟩
          · have := hrun _ _ _ _ h1
            exact this
        · cases h1; exact ⟨rfl, rfl⟩
      have h4 := restore_same (cwd := ctx.cwd) (script := ctx.script) (r := r1) (ctx := c1)
      rw [h2] at h4
      exact ⟨h4.1.trans h3.1, h4.2.1.trans h3.2⟩
    · simp only [chdir, if_neg hd] at h
      cases h
      exact ⟨rfl, rfl⟩
  · cases h
    exact ⟨rfl, rfl⟩

theorem runScript_keeps {env : Env} {run : Code → Ctx → Option (Except Exc Unit × Ctx)} (hrun : Keeps run) {path : Str} {params : Option Dict} {name : Option Str}
    {ctx ctx' : Ctx} {r : Except Exc Unit} (h : runScript env run path params name ctx = some (r, ctx')) : ctx'.stack = ctx.stack ∧ ctx'.indent = ctx.indent := by
  unfold runScript at h
  obtain ⟨⟨r1, c1⟩, h1, h2⟩ := Option.map_eq_some_iff.mp h
  obtain ⟨h3, h4⟩ := enterScript_keeps hrun h1
  simp only at h3 h4
  unfold leaveScript at h2
  simp only [Prod.mk.injEq] at h2
  rw [← h2.2]
  simp only [h3, h4]
  exact ⟨by simp, by omega⟩

theorem exec_keeps (env : Env) : ∀ n, Keeps (exec env n)
  | 0 => fun _ _ _ _ h => by cases h
  | n + 1 => by
    have ih := exec_keeps env n
    intro code ctx r ctx' h
    cases code with
    | done => cases h; exact ⟨rfl, rfl⟩
    | throw e => cases h; exact ⟨rfl, rfl⟩
    | disk f k =>
      rw [exec] at h
      have := ih _ _ _ _ h
      exact this
    | chdir path k =>
      rw [exec] at h
      obtain ⟨h1, h2⟩ := ih _ _ _ _ h
      obtain ⟨h3, h4, _⟩ := chdir_same (dir := env.realpath ctx.cwd path) (ctx := ctx)
      exact ⟨h1.trans h3, h2.trans h4⟩
    | indent body k =>
      rw [exec] at h
      split at h
      · cases h
      · next r1 c1 h1 =>
        obtain ⟨h2, h3⟩ := ih _ _ _ _ h1
        obtain ⟨h4, h5⟩ := ih _ _ _ _ h
        simp only at h2 h3 h4 h5
        exact ⟨h4.trans h2, by omega⟩
    | script path recursive params name k =>
      rw [exec] at h
      split at h
      · exact ih _ _ _ _ h
      · split at h
        · cases h
        · next r1 c1 h1 =>
          obtain ⟨h2, h3⟩ := runScript_keeps ih h1
          obtain ⟨h4, h5⟩ := ih _ _ _ _ h
          exact ⟨h4.trans h2, h5.trans h3⟩

/-! ### C61 -/

/-- C61: however a script ends, whatever it does and whatever scripts it runs in turn, the stack of scripts and the indentation of
the log are as before. -/
theorem C61_stack_and_indentation (env : Env) (n : Nat) (path : Str) (params : Option Dict) (name : Option Str) (ctx ctx' : Ctx) (r : Except Exc Unit)
    (h : runScript env (exec env n) path params name ctx = some (r, ctx')) : ctx'.stack = ctx.stack ∧ ctx'.indent = ctx.indent :=
  runScript_keeps (exec_keeps env n) h

/-- C61: the active script and the working directory are as before, if that directory still exists. -/
theorem C61_script_and_directory_partial (env : Env) (n : Nat) (path : Str) (params : Option Dict) (name : Option Str) (ctx ctx' : Ctx) (r : Except Exc Unit)
    (h : runScript env (exec env n) path params name ctx = some (r, ctx')) (hdir : ctx'.dirs ctx.cwd = true) : ctx'.script = ctx.script ∧ ctx'.cwd = ctx.cwd := by
  unfold runScript at h
  obtain ⟨⟨r1, c1⟩, h1, h2⟩ := Option.map_eq_some_iff.mp h
  unfold leaveScript at h2
  simp only [Prod.mk.injEq] at h2
  rw [← h2.2] at hdir ⊢
  simp only at hdir ⊢
  unfold enterScript at h1
  split at h1
  · simp only [chdir] at h1
    by_cases hd : ctx.dirs (Ops.dirName (newWrapper env path name ctx).file) = true
    · simp only [if_pos hd] at h1
      obtain ⟨⟨r2, c2⟩, h3, h4⟩ := Option.map_eq_some_iff.mp h1
      have h5 := (restore_same (cwd := ctx.cwd) (script := ctx.script) (r := r2) (ctx := c2)).2.2
      rw [h4] at h5
      simp only at h5
      rw [h5] at hdir
      simp only [restore, chdir, if_pos hdir, Prod.mk.injEq] at h4
      rw [← h4.2]
      exact ⟨rfl, rfl⟩
    · simp only [if_neg hd] at h1
      cases h1
      exact ⟨rfl, rfl⟩
  · cases h1
    exact ⟨rfl, rfl⟩

/-! ### C73 -/

/-- C73: a script is run in the directory it is in, as the active script, on top of the stack, with the parameters it was given, and
not at all otherwise: what happens elsewhere does not matter. -/
theorem C73_runs_in_own_directory (env : Env) (run run' : Code → Ctx → Option (Except Exc Unit × Ctx)) (path : Str) (params : Option Dict) (name : Option Str) (ctx : Ctx)
    (hsame : ∀ code ctx1 w, env.scripts (env.realpath ctx.cwd path) = some code → w.file = env.realpath ctx.cwd path → (∀ s, name = some s → w.name = s) →
      ctx1.cwd = Ops.dirName (env.realpath ctx.cwd path) → ctx1.script = some w → ctx1.stack = ctx.stack ++ [w] → ctx1.indent = ctx.indent + 1 → ctx1.dirs = ctx.dirs →
      run (code (params.getD [])) ctx1 = run' (code (params.getD [])) ctx1) :
    runScript env run path params name ctx = runScript env run' path params name ctx := by
  unfold runScript
  dsimp only
  congr 1
  unfold enterScript
  dsimp only
  split
  · by_cases hd : ctx.dirs (Ops.dirName (newWrapper env path name ctx).file) = true
    · simp only [chdir, if_pos hd]
      congr 1
      unfold loadScript
      split
      · cases hs : env.scripts (newWrapper env path name ctx).file with
        | none => rfl
        | some code =>
          refine hsame code _ (newWrapper env path name ctx) hs rfl (fun s hs => ?_) rfl rfl rfl rfl rfl
          unfold newWrapper
          rw [hs]
          rfl
      · rfl
    · simp only [chdir, if_neg hd]
  · rfl

/-- C73: and it does run, with its outcome and all that it does to directories, if a host is active and the directories and the script
exist. -/
theorem C73_runs (env : Env) (n : Nat) (path : Str) (params : Option Dict) (name : Option Str) (ctx : Ctx) (code : Dict → Code)
    (hact : env.hostActive = true) (hcwd : ctx.dirs ctx.cwd = true) (hdir : ctx.dirs (Ops.dirName (env.realpath ctx.cwd path)) = true)
    (hs : env.scripts (env.realpath ctx.cwd path) = some code) :
    ∃ w, w.file = env.realpath ctx.cwd path ∧ w.name = name.getD (stem path) ∧
      match exec env n (code (params.getD [])) { ctx with script := some w, cwd := Ops.dirName w.file, stack := ctx.stack ++ [w], indent := ctx.indent + 1, next := ctx.next + 1 } with
      | none => runScript env (exec env n) path params name ctx = none
      | some (r, c) => ∃ r' ctx', runScript env (exec env n) path params name ctx = some (r', ctx') ∧ ctx'.dirs = c.dirs
        ∧ (c.dirs ctx.cwd = true → r' = attachStack (ctx.stack ++ [w]) r) := by
  refine ⟨newWrapper env path name ctx, rfl, rfl, ?_⟩
  have hd : ctx.dirs (Ops.dirName (newWrapper env path name ctx).file) = true := hdir
  have hs' : env.scripts (newWrapper env path name ctx).file = some code := hs
  unfold runScript enterScript loadScript
  simp only [hcwd, if_true, chdir, hd, hact, hs']
  cases he : exec env n (code (params.getD []))
      { ctx with script := some (newWrapper env path name ctx), cwd := Ops.dirName (newWrapper env path name ctx).file,
                 stack := ctx.stack ++ [newWrapper env path name ctx], indent := ctx.indent + 1, next := ctx.next + 1 } with
  | none => rfl
  | some x =>
    obtain ⟨r, c⟩ := x
    refine ⟨_, _, rfl, ?_, fun hc => ?_⟩
    · exact (restore_same (cwd := ctx.cwd) (script := ctx.script) (r := r) (ctx := c)).2.2
    · have h1 := (exec_keeps env n _ _ _ _ he).1
      simp only at h1
      simp only [leaveScript, restore, chdir, hc, if_true, h1]

/-- C73: otherwise nothing is run: everything remains as it was, and an exception is raised. It tells that a file is missing if the
directories or the script do not exist; if they do, it tells that there is no host. -/
theorem C73_not_run (env : Env) (run : Code → Ctx → Option (Except Exc Unit × Ctx)) (path : Str) (params : Option Dict) (name : Option Str) (ctx : Ctx)
    (h : env.hostActive = false ∨ ctx.dirs ctx.cwd = false ∨ ctx.dirs (Ops.dirName (env.realpath ctx.cwd path)) = false ∨ env.scripts (env.realpath ctx.cwd path) = none) :
    ∃ e ctx', runScript env run path params name ctx = some (.error e, ctx') ∧ ctx' = { ctx with next := ctx.next + 1 }
      ∧ (env.hostActive = true → e.kind = .osError (some (2 : Int)) p!"No such file or directory" [])
      ∧ (env.hostActive = false → ctx.dirs ctx.cwd = true → ctx.dirs (Ops.dirName (env.realpath ctx.cwd path)) = true → e.kind = .attributeError) := by
  have hkind : ∀ {s : List ScriptW} {e : Exc}, ∃ e', attachStack s (.error e) = .error e' ∧ e'.kind = e.kind := by
    intro s e
    refine ⟨_, rfl, ?_⟩
    split <;> rfl
  have hfile : (newWrapper env path name ctx).file = env.realpath ctx.cwd path := rfl
  unfold runScript enterScript loadScript
  cases hcwd : ctx.dirs ctx.cwd with
  | false =>
    obtain ⟨e', h1, h2⟩ := hkind (s := ctx.stack ++ [newWrapper env path name ctx]) (e := notFound)
    exact ⟨e', { ctx with next := ctx.next + 1 }, by simp only [hcwd, Bool.false_eq_true, if_false, Option.map_some, leaveScript, h1, List.dropLast_concat, Int.add_sub_cancel], rfl, fun _ => h2, fun _ hc => by cases hc⟩
  | true =>
    cases hdir : ctx.dirs (Ops.dirName (env.realpath ctx.cwd path)) with
    | false =>
      obtain ⟨e', h1, h2⟩ := hkind (s := ctx.stack ++ [newWrapper env path name ctx]) (e := notFound)
      exact ⟨e', { ctx with next := ctx.next + 1 }, by simp only [hcwd, if_true, chdir, hfile, hdir, Bool.false_eq_true, if_false, Option.map_some, leaveScript, h1, List.dropLast_concat, Int.add_sub_cancel], rfl, fun _ => h2, fun _ _ hc => by cases hc⟩
    | true =>
      cases hact : env.hostActive with
      | false =>
        obtain ⟨e', h1, h2⟩ := hkind (s := ctx.stack ++ [newWrapper env path name ctx]) (e := { kind := .attributeError })
        refine ⟨e', { ctx with next := ctx.next + 1 }, by simp only [hcwd, if_true, chdir, hfile, hdir, Bool.false_eq_true, if_false, Option.map_some, restore, leaveScript, h1, List.dropLast_concat, Int.add_sub_cancel], rfl, (by intro hc; cases hc), fun _ _ _ => h2⟩
      | true =>
        have hs : env.scripts (env.realpath ctx.cwd path) = none := by
          rcases h with h | h | h | h
          · rw [hact] at h; cases h
          · rw [hcwd] at h; cases h
          · rw [hdir] at h; cases h
          · exact h
        obtain ⟨e', h1, h2⟩ := hkind (s := ctx.stack ++ [newWrapper env path name ctx]) (e := notFound)
        exact ⟨e', { ctx with next := ctx.next + 1 }, by simp only [hcwd, if_true, chdir, hfile, hdir, hs, Option.map_some, restore, leaveScript, h1, List.dropLast_concat, Int.add_sub_cancel], rfl, fun _ => h2, (by intro hc; cases hc)⟩

/-! ### C74 -/

/-- C74: an exception that comes out of a script carries a stack of scripts, and if it had none before, it is the one with this script
on top. (An exception that is not an `Exception`, such as `KeyboardInterrupt`, does not.) -/
theorem C74_exception_has_stack (env : Env) (n : Nat) (path : Str) (params : Option Dict) (name : Option Str) (ctx ctx' : Ctx) (e : Exc)
    (h : runScript env (exec env n) path params name ctx = some (.error e, ctx')) (he : e.isException = true) : e.stack.isSome := by
  unfold runScript at h
  obtain ⟨⟨r1, c1⟩, h1, h2⟩ := Option.map_eq_some_iff.mp h
  unfold leaveScript at h2
  simp only [Prod.mk.injEq] at h2
  cases r1 with
  | ok u => cases h2.1
  | error e1 =>
    have h3 := h2.1
    simp only [attachStack, Except.error.injEq] at h3
    subst h3
    split
    · rfl
    · next hn =>
      rw [if_neg hn] at he
      rw [he] at hn
      cases hs : e1.stack with
      | some s => rfl
      | none => rw [hs] at hn; simp at hn

/-- C74: the stack is the one at the place where the exception came from: if the code of the script, whatever it does before, ends with an
exception that carries no stack yet, it is given the stack with this script on top; if it carries one already, because it came out of
another script, it stays. -/
theorem C74_innermost (env : Env) (n : Nat) (path : Str) (params : Option Dict) (name : Option Str) (ctx : Ctx) (code : Dict → Code)
    (hact : env.hostActive = true) (hcwd : ctx.dirs ctx.cwd = true) (hdir : ctx.dirs (Ops.dirName (env.realpath ctx.cwd path)) = true)
    (hs : env.scripts (env.realpath ctx.cwd path) = some code) :
    ∃ w, w.file = env.realpath ctx.cwd path ∧ w.name = name.getD (stem path) ∧ ∀ e c, e.isException = true → c.dirs ctx.cwd = true →
      exec env n (code (params.getD [])) { ctx with script := some w, cwd := Ops.dirName w.file, stack := ctx.stack ++ [w], indent := ctx.indent + 1, next := ctx.next + 1 }
        = some (.error e, c) →
      ∃ ctx', runScript env (exec env n) path params name ctx = some (.error { e with stack := some (e.stack.getD (ctx.stack ++ [w])) }, ctx') := by
  obtain ⟨w, h1, h1', h2⟩ := C73_runs env n path params name ctx code hact hcwd hdir hs
  refine ⟨w, h1, h1', fun e c he hc hx => ?_⟩
  rw [hx] at h2
  simp only at h2
  obtain ⟨r', ctx', h3, h4, h5⟩ := h2
  refine ⟨ctx', ?_⟩
  rw [h3, h5 hc]
  simp only [attachStack, he, Bool.true_and]
  obtain ⟨kind, isE, stk⟩ := e
  simp only at he
  subst he
  cases stk with
  | none => rfl
  | some s => rfl

/-- The code raises no exceptions with a stack of scripts of its own making: they carry none, or are exceptions that it was given (`known`)
by the scripts that it runs. -/
inductive RaisesOwn : (Exc → Prop) → Code → Prop where
  | done {known : Exc → Prop} : RaisesOwn known .done
  | throw {known : Exc → Prop} (e : Exc) : e.stack = none ∨ known e → RaisesOwn known (.throw e)
  | disk {known : Exc → Prop} (f : (Str → Bool) → (Str → Bool)) (k : Code) : RaisesOwn known k → RaisesOwn known (.disk f k)
  | chdir {known : Exc → Prop} (path : Str) (k : Except Exc Unit → Code) :
      (∀ r, RaisesOwn (fun e => known e ∨ r = .error e) (k r)) → RaisesOwn known (.chdir path k)
  | indent {known : Exc → Prop} (body : Code) (k : Except Exc Unit → Code) : RaisesOwn known body →
      (∀ r, RaisesOwn (fun e => known e ∨ r = .error e) (k r)) → RaisesOwn known (.indent body k)
  | script {known : Exc → Prop} (path : Str) (recursive : Bool) (params : Option Dict) (name : Option Str) (k : Except Exc Unit → Code) :
      (∀ r, RaisesOwn (fun e => known e ∨ r = .error e) (k r)) → RaisesOwn known (.script path recursive params name k)

/-- The stack that an exception carries, if any, begins with `stack`. -/
def Within (stack : List ScriptW) (e : Exc) : Prop := ∀ s, e.stack = some s → ∃ deeper, s = stack ++ deeper

theorem within_notFound {stack : List ScriptW} : Within stack notFound := by intro s h; cases h

theorem chdir_within {stack : List ScriptW} {dir : Str} {ctx : Ctx} {e : Exc} (h : (chdir dir ctx).1 = .error e) : Within stack e := by
  unfold chdir at h
  split at h
  · cases h
  · cases h; exact within_notFound

theorem checkCall_within {stack : List ScriptW} {env : Env} {ctx : Ctx} {path : Str} {recursive : Bool} {e : Exc}
    (h : checkCall env ctx path recursive = .error e) : Within stack e := by
  have hr : ∀ ws, checkRecursion env ctx path ws = .error e → Within stack e := by
    intro ws
    induction ws with
    | nil => intro h; cases h
    | cons w ws ih =>
      intro h
      unfold checkRecursion at h
      unfold samefile at h
      split at h
      · next hb =>
        simp only at hb
        split at hb
        · cases hb
        · cases hb; cases h; exact within_notFound
      · cases h; intro s hs; cases hs
      · exact ih h
  unfold checkCall at h
  split at h
  · split at h
    · cases h
    · exact hr _ h
  · cases h; intro s hs; cases hs

theorem runScript_within {env : Env} {run : Code → Ctx → Option (Except Exc Unit × Ctx)} (hk : Keeps run)
    (hrun : ∀ file code params ctx e c, env.scripts file = some code → run (code params) ctx = some (.error e, c) → Within ctx.stack e)
    {path : Str} {params : Option Dict} {name : Option Str} {ctx ctx' : Ctx} {e : Exc}
    (h : runScript env run path params name ctx = some (.error e, ctx')) : Within (ctx.stack ++ [newWrapper env path name ctx]) e := by
  unfold runScript at h
  obtain ⟨⟨r1, c1⟩, h1, h2⟩ := Option.map_eq_some_iff.mp h
  have hst := (enterScript_keeps hk h1).1
  simp only at hst
  have hin : ∀ e1, r1 = .error e1 → Within (ctx.stack ++ [newWrapper env path name ctx]) e1 := by
    intro e1 hr1
    subst hr1
    unfold enterScript at h1
    split at h1
    · split at h1
      · next e2 c2 hc =>
        cases h1
        exact chdir_within (congrArg Prod.fst hc)
      · next c2 hc =>
        have hs2 : c2.stack = ctx.stack ++ [newWrapper env path name ctx] := by
          have := (chdir_same (dir := Ops.dirName (newWrapper env path name ctx).file)
            (ctx := { ctx with indent := ctx.indent + 1, stack := ctx.stack ++ [newWrapper env path name ctx], next := ctx.next + 1 })).1
          rw [hc] at this
          exact this
        obtain ⟨⟨r3, c3⟩, h3, h4⟩ := Option.map_eq_some_iff.mp h1
        unfold restore at h4
        split at h4
        · next e4 c4 hc4 =>
          cases h4
          exact chdir_within (congrArg Prod.fst hc4)
        · cases h4
          unfold loadScript at h3
          split at h3
          · split at h3
            · cases h3; exact within_notFound
            · next code hcode =>
              have := hrun _ _ _ _ _ _ hcode h3
              rw [← hs2]
              exact this
          · cases h3; intro s hs; cases hs
    · cases h1; exact within_notFound
  unfold leaveScript at h2
  simp only [Prod.mk.injEq] at h2
  cases r1 with
  | ok u => cases h2.1
  | error e1 =>
    have h3 := h2.1
    simp only [attachStack, Except.error.injEq] at h3
    subst h3
    split
    · intro s hs
      cases hs
      exact ⟨[], by rw [hst]; simp⟩
    · exact hin e1 rfl

theorem exec_within {env : Env} (hscripts : ∀ file code params, env.scripts file = some code → RaisesOwn (fun _ => False) (code params)) (n : Nat) :
    ∀ (known : Exc → Prop) (code : Code) (ctx c : Ctx) (e : Exc), RaisesOwn known code → (∀ x, known x → Within ctx.stack x) →
      exec env n code ctx = some (.error e, c) → Within ctx.stack e := by
  induction n with
  | zero => intro known code ctx c e _ _ h; cases h
  | succ n ih =>
    intro known code ctx c e hcode hknown h
    cases hcode with
    | done => cases h
    | throw e' he =>
      cases h
      rcases he with he | he
      · intro s hs; rw [he] at hs; cases hs
      · exact hknown _ he
    | disk f k hk => exact ih known k { ctx with dirs := f ctx.dirs } c e hk hknown h
    | chdir path k hk =>
      have hst := (chdir_same (dir := env.realpath ctx.cwd path) (ctx := ctx)).1
      have := ih _ _ _ c e (hk (chdir (env.realpath ctx.cwd path) ctx).1) (fun x hx => by
        rw [hst]
        rcases hx with hx | hx
        · exact hknown x hx
        · exact chdir_within hx) h
      rw [hst] at this
      exact this
    | indent body k hb hk =>
      simp only [exec] at h
      cases hx : exec env n body { ctx with indent := ctx.indent + 1 } with
      | none => rw [hx] at h; cases h
      | some x =>
        obtain ⟨r, c1⟩ := x
        rw [hx] at h
        have hst := (exec_keeps env n _ _ _ _ hx).1
        simp only at hst
        have := ih _ _ _ c e (hk r) (fun x hx' => by
          simp only
          rw [hst]
          rcases hx' with hx' | hx'
          · exact hknown x hx'
          · subst hx'
            exact ih known body { ctx with indent := ctx.indent + 1 } c1 x hb hknown hx) h
        simp only at this
        rw [hst] at this
        exact this
    | script path recursive params name k hk =>
      simp only [exec] at h
      cases hc : checkCall env ctx path recursive with
      | error e1 =>
        rw [hc] at h
        exact ih _ _ _ c e (hk (.error e1)) (fun x hx => by
          rcases hx with hx | hx
          · exact hknown x hx
          · cases hx; exact checkCall_within hc) h
      | ok u =>
        rw [hc] at h
        simp only at h
        cases hx : runScript env (exec env n) path params name ctx with
        | none => rw [hx] at h; cases h
        | some x =>
          obtain ⟨r, c1⟩ := x
          rw [hx] at h
          have hst := (C61_stack_and_indentation env n path params name ctx c1 r hx).1
          have := ih _ _ _ c e (hk r) (fun x hx' => by
            rw [hst]
            rcases hx' with hx' | hx'
            · exact hknown x hx'
            · subst hx'
              have hw := runScript_within (exec_keeps env n) (fun file code params ctx e c hf hr =>
                ih _ _ _ _ _ (hscripts file code params hf) (fun _ hf => hf.elim) hr) hx
              intro s hs
              obtain ⟨d, hd⟩ := hw s hs
              exact ⟨newWrapper env path name ctx :: d, by rw [hd]; simp⟩) h
          rw [hst] at this
          exact this

/-- C74: the stack of scripts that an exception carries when it comes out of a script consists of the scripts that were running when it
was called, then this script, then perhaps scripts that it ran. (As long as no script raises an exception with a stack of its own
making.) -/
theorem C74_own_stack (env : Env) (n : Nat) (path : Str) (params : Option Dict) (name : Option Str) (ctx ctx' : Ctx) (e : Exc)
    (hscripts : ∀ file code params, env.scripts file = some code → RaisesOwn (fun _ => False) (code params))
    (h : runScript env (exec env n) path params name ctx = some (.error e, ctx')) (he : e.isException = true) :
    ∃ w deeper, w.file = env.realpath ctx.cwd path ∧ w.name = name.getD (stem path) ∧ e.stack = some (ctx.stack ++ w :: deeper) := by
  have h1 := C74_exception_has_stack env n path params name ctx ctx' e h he
  obtain ⟨s, hs⟩ := Option.isSome_iff_exists.mp h1
  obtain ⟨d, hd⟩ := runScript_within (exec_keeps env n) (fun file code params ctx e c hf hr =>
    exec_within hscripts n _ _ _ _ _ (hscripts file code params hf) (fun _ hf => hf.elim) hr) h s hs
  exact ⟨newWrapper env path name ctx, d, rfl, rfl, by rw [hs, hd]; simp⟩

/-! ### C62 -/

/-- C62: with `recursive=True` every script may be called. -/
theorem C62_recursive_allowed (env : Env) (ctx : Ctx) (path : Str) (hact : env.hostActive = true) : checkCall env ctx path true = .ok () := by
  simp [checkCall, hact]

/-- C62 does not hold: no call of a script is refused, whatever scripts are running, as long as the directories they are in exist. (The
file is compared to these directories.) -/
theorem C62_recursion_refuted (env : Env) (ctx : Ctx) (path : Str) (hact : env.hostActive = true) (hfile : (env.scripts (env.realpath ctx.cwd path)).isSome)
    (hdir : ctx.dirs (env.realpath ctx.cwd path) = false) (hstack : ∀ w ∈ ctx.stack, ctx.dirs (Ops.dirName w.file) = true) :
    checkCall env ctx path false = .ok () := by
  simp only [checkCall, hact, if_true, Bool.false_eq_true, if_false]
  have : ∀ ws : List ScriptW, (∀ w ∈ ws, ctx.dirs (Ops.dirName w.file) = true) → checkRecursion env ctx path ws = .ok () := by
    intro ws
    induction ws with
    | nil => intro _; rfl
    | cons w ws ih =>
      intro h
      have hw := h w (by simp)
      have hne : env.realpath ctx.cwd path ≠ w.definitionFile := by
        intro he
        unfold ScriptW.definitionFile at he
        rw [he, hw] at hdir
        cases hdir
      unfold checkRecursion
      simp only [samefile, hfile, Bool.true_or, Bool.true_and]
      have hd : ctx.dirs w.definitionFile = true := hw
      simp only [hd, Bool.or_true, if_true, hne, decide_false]
      exact ih fun w' hw' => h w' (by simp [hw'])
  exact this _ hstack

/-! ### Examples -/

namespace Example

/-- `/s/a.py` runs `b.py` and itself with a parameter; with a parameter it raises an exception. `/s/rm.py` removes the directory
`/tmp/x`. -/
def scripts : Str → Option (Dict → Code)
  | p => if p = p!"/s/a.py" then some fun params => match params with
      | [] => .script p!"b.py" false none none fun _ => .script p!"a.py" false (some [(p!"x", 1)]) none fun
        | .ok _ => .done
        | .error e => .throw e
      | _ => .throw { kind := .other 7 }
    else if p = p!"/s/b.py" then some fun _ => .indent (.chdir p!"/" fun _ => .throw { kind := .other 8 }) fun _ => .done
    else if p = p!"/s/rm.py" then some fun _ => .disk (fun dirs d => dirs d && d != p!"/tmp/x") .done
    else none

/-- Without symbolic links or `..`, absolute paths are canonical. -/
def env : Env where
  scripts := scripts
  realpath cwd p := Ops.pathJoin cwd p

def ctx : Ctx where
  cwd := p!"/tmp/x"
  dirs d := d = p!"/" || d = p!"/s" || d = p!"/tmp/x"

/-- What is of interest after a script was run: the exception and the names of the scripts on the stack that it carries, and the
context. -/
structure Outcome where
  exn : Option Exn
  carried : Option (List Str)
  script : Option Str
  cwd : Str
  indent : Int
  depth : Nat
  deriving DecidableEq

def outcome (r : Option (Except Exc Unit × Ctx)) : Option Outcome :=
  r.map fun r => match r.1 with
    | .ok _ => { exn := none, carried := none, script := r.2.script.map (·.file), cwd := r.2.cwd, indent := r.2.indent, depth := r.2.stack.length }
    | .error e => { exn := some e.kind, carried := e.stack.map fun s => s.map (·.name), script := r.2.script.map (·.file), cwd := r.2.cwd, indent := r.2.indent, depth := r.2.stack.length }

/-- A script that calls itself is run again, until it raises an exception, which carries the stack. -/
example : outcome (runScript env (exec env 10) p!"/s/a.py" none none ctx)
    = some ⟨some (.other 7), some [p!"a", p!"a"], none, p!"/tmp/x", 0, 0⟩ := by
  decide +kernel

end Example

open Example in
/-- C61 does not hold if the working directory is removed meanwhile: the script that has ended stays the active one, and its directory
the working directory. -/
theorem C61_script_and_directory_refuted :
    outcome (runScript env (exec env 10) p!"/s/rm.py" none none ctx)
      = some ⟨some notFound.kind, some [p!"rm"], some p!"/s/rm.py", p!"/s", 0, 0⟩ := by
  decide +kernel

open Example in
/-- The hypotheses of `C73_runs` and `C74_innermost` are met, with a parameter. -/
example : env.hostActive = true ∧ ctx.dirs ctx.cwd = true ∧ ctx.dirs (Ops.dirName (env.realpath ctx.cwd p!"/s/a.py")) = true
    ∧ ∃ code, env.scripts (env.realpath ctx.cwd p!"/s/a.py") = some code ∧ code [(p!"x", 1)] = .throw { kind := .other 7 } :=
  ⟨rfl, by decide, by decide, _, rfl, rfl⟩

open Example in
/-- Those of `C74_own_stack` are met: none of the scripts makes up a stack. -/
example : ∀ file code params, env.scripts file = some code → RaisesOwn (fun _ => False) (code params) := by
  intro file code params h
  simp only [env, scripts] at h
  split at h
  · cases h
    simp only
    split
    · refine .script _ _ _ _ _ fun r => .script _ _ _ _ _ fun r' => ?_
      cases r' with
      | ok u => exact .done
      | error e => exact .throw e (.inr (.inr rfl))
    · exact .throw _ (.inl rfl)
  · split at h
    · cases h
      exact .indent _ _ (.chdir _ _ fun _ => .throw _ (.inl rfl)) fun _ => .done
    · split at h
      · cases h
        exact .disk _ _ .done
      · cases h

open Example in
/-- Those of `C73_not_run` are met by a script that does not exist. -/
example : env.hostActive = true ∧ env.scripts (env.realpath ctx.cwd p!"/s/none.py") = none := ⟨rfl, by decide⟩

open Example in
/-- Those of `C62_recursion_refuted` are met while the script itself is running. -/
example : let c := { ctx with stack := [⟨0, p!"a", p!"/s/a.py"⟩], cwd := p!"/s" }
    (env.scripts (env.realpath c.cwd p!"a.py")).isSome ∧ c.dirs (env.realpath c.cwd p!"a.py") = false
    ∧ ∀ w ∈ c.stack, c.dirs (Ops.dirName w.file) = true := by
  decide

end Verif.Run
