/-
C30 for scripts of any operations that do not depend on each other.
-/
import Verif.Ops.PredictProps
import Verif.Ops.LookLemmas
import Verif.Ops.SiteExample
import Verif.Ops.ReportLemmas

namespace Verif.Ops

open Script Remote
open Client (Prog direct)
open Wire (Packet)

/-- The history of processes is all that differs. -/
theorem same_iff {w w' : World} : Same w w' ↔ ∃ l, w' = { w with started := l } :=
  ⟨fun h => ⟨_, h⟩, fun ⟨l, h⟩ => by subst h; rfl⟩

/-- A program that sends only requests which look, and gets the answers that the host would give at first, can be run there. -/
theorem run_looking {γ : Type} {sys : Sys} (hlook : Looking sys)
    (hhist : ∀ request, ReadOnly request → ∀ w l, (direct sys request { w with started := l }).1 = (direct sys request w).1) (w : World) {m : Prog γ} {t : Trace} {a : γ}
    (h : Prog.Runs m t a) : ∀ w1, Same w w1 → (∀ e ∈ t, ReadOnly e.1 ∧ e.2 = (direct sys e.1 w).1) →
    (m.run (direct sys) w1).1 = a ∧ Same w (m.run (direct sys) w1).2 := by
  induction h with
  | ret a => exact fun w1 hw _ => ⟨rfl, hw⟩
  | req p k r t a _ ih =>
    intro w1 hw hall
    obtain ⟨hr, ha⟩ := hall (p, r) (by simp)
    obtain ⟨l, rfl⟩ := same_iff.mp hw
    have hans : (direct sys p { w with started := l }).1 = r := (hhist p hr w l).trans ha.symm
    have hw2 : Same w (direct sys p { w with started := l }).2 := hw.trans (readOnly_same hlook p _ hr)
    have := ih (direct sys p { w with started := l }).2 hw2 fun e he => hall e (by simp [he])
    rw [← hans] at this
    exact this

/-- The requests that a program sends to a remote, up to its end, are those of the execution. -/
theorem recorded_of_runs {γ σ : Type} {remote : Packet → σ → Except Exn Packet × σ} {m : Prog γ} {w : σ} {t : Trace} {a : γ}
    (h : Prog.Runs m t a) (ha : Answered remote w t) : recorded remote m w = t := by
  induction h generalizing w with
  | ret a => rfl
  | req p k r t a _ ih =>
    cases ha with
    | cons _ _ _ h2 => simp only [recorded]; rw [ih h2]

/-- C30 for scripts of any operations (but `upload_dir`) that do not depend on each other: whatever a later operation looks at
is the same before the script is run and after the earlier operations have been carried out. Then, if the real run of the script comes
to its end and all operations succeed, its dry run on the host as it is at first reports the same results, prints the same summaries, and
changes nothing. (Without this assumption the statement is false, see `C30_scripts_refuted`; for scripts in which later operations do look
at what earlier ones have created, see `C30_calls_partial`.) Assumed of the host: programs that only look do not change it, and
what they find does not depend on the history of processes. -/
theorem C30_independent_scripts_partial (sys : Sys) (hlook : ∀ p w, LooksOnly p.argv → (sys.exec p w).2 = w)
    (hhist : ∀ request, ReadOnly request → ∀ w l, (direct sys request { w with started := l }).1 = (direct sys request w).1)
    (lost : Nat → Option Bool) (env : Env) (st : St) (w : World) (ops : List (Op OpResult))
    (hops : ∀ op ∈ ops, (∃ opts, Operation opts op)
      ∧ ∀ sha512 src tree dest dirMode fileMode owner group check, op ≠ uploadDir sha512 src tree dest dirMode fileMode owner group check)
    (hind : ∀ pre op post rs1 st1 s1, ops = pre ++ op :: post → exec (flaky sys lost) (deploy pre) { env with dry := false } st (w, 0) = ((.ok rs1, st1), s1) →
      ∀ request answer, (request, answer) ∈ recorded (flaky sys lost) (op { env with dry := true } st1) s1 → answer = (direct sys request w).1)
    (rs : List OpResult) (st' : St) (s : World × Nat)
    (h : exec (flaky sys lost) (deploy ops) { env with dry := false } st (w, 0) = ((.ok rs, st'), s)) (hok : ∀ r ∈ rs, r.success = true) :
    ∃ started, exec (direct sys) (deploy ops) { env with dry := true } st w = ((.ok rs, st'), { w with started }) := by
  suffices key : ∀ (post pre : List (Op OpResult)) st1 s1 rs1 w1 rs st' s, ops = pre ++ post →
      exec (flaky sys lost) (deploy pre) { env with dry := false } st (w, 0) = ((.ok rs1, st1), s1) → Same w w1 →
      exec (flaky sys lost) (deploy post) { env with dry := false } st1 s1 = ((.ok rs, st'), s) → (∀ r ∈ rs, r.success = true) →
      ∃ w2, Same w w2 ∧ exec (direct sys) (deploy post) { env with dry := true } st1 w1 = ((.ok rs, st'), w2) by
    obtain ⟨w2, h1, h2⟩ := key ops [] st (w, 0) [] w rs st' s rfl rfl (.refl _) h hok
    obtain ⟨l, rfl⟩ := same_iff.mp h1
    exact ⟨l, h2⟩
  intro post
  induction post with
  | nil =>
    intro pre st1 s1 rs1 w1 rs st' s _ _ hs he _
    rw [deploy] at he ⊢
    cases he
    exact ⟨w1, hs, rfl⟩
  | cons op post ih =>
    intro pre st1 s1 rs1 w1 rs st' s hsplit hpre hs he hok
    rw [deploy] at he ⊢
    obtain ⟨x, st2, s2, h1, h2⟩ := exec_bind_ok.mp he
    obtain ⟨xs, st3, s3, h3, h4⟩ := exec_bind_ok.mp h2
    cases h4
    obtain ⟨⟨opts, hop⟩, hn⟩ := hops op (by rw [hsplit]; simp)
    -- the dry run of this operation
    obtain ⟨t, hr1, hr2⟩ := answered_run (flaky sys lost) (op { env with dry := false } st1) s1
    have h0 : ((op { env with dry := false } st1).run (flaky sys lost) s1).1 = (.ok x, st2) := congrArg Prod.fst h1
    rw [h0] at hr1
    obtain ⟨t1, t2, rfl, hdry⟩ := C30_dry_run_predicts_partial opts op hop hn env st1 st2 t x hr1 (hok x (by simp))
    have hrec := recorded_of_runs (remote := flaky sys lost) hdry (answered_prefix hr2)
    obtain ⟨ha, hw⟩ := run_looking hlook hhist w hdry w1 hs fun e he => ⟨
      C29_dry_run_only_looks opts op hop { env with dry := true } rfl _ _ _ _ hdry e.1 e.2 he,
      hind pre op post rs1 st1 s1 hsplit hpre e.1 e.2 (by rw [hrec]; exact he)⟩
    -- the rest
    have hpre2 : exec (flaky sys lost) (deploy (pre ++ [op])) { env with dry := false } st (w, 0) = ((.ok (rs1 ++ [x]), st2), s2) := by
      clear h0 he h2 h3 hr1 hr2 hdry hrec ha hw hind ih hsplit
      generalize (w, 0) = s0 at hpre
      generalize st = st0 at hpre ⊢
      induction pre generalizing st0 s0 rs1 with
      | nil =>
        rw [deploy] at hpre
        cases hpre
        exact exec_bind_ok.mpr ⟨_, _, _, h1, rfl⟩
      | cons p pre ihp =>
        rw [deploy] at hpre
        obtain ⟨y, st4, s4, g1, g2⟩ := exec_bind_ok.mp hpre
        obtain ⟨ys, st5, s5, g3, g4⟩ := exec_bind_ok.mp g2
        cases g4
        rw [List.cons_append, deploy]
        exact exec_bind_ok.mpr ⟨_, _, _, g1, exec_bind_ok.mpr ⟨_, _, _, ihp _ _ _ g3, rfl⟩⟩
    obtain ⟨w2, hw2, h5⟩ := ih (pre ++ [op]) st2 s2 _ _ xs st' s (by rw [hsplit]; simp) hpre2 hw h3 fun r hr => hok r (by simp [hr])
    exact ⟨w2, hw2, exec_bind_ok.mpr ⟨x, st2, _, Prod.ext ha rfl, exec_bind_ok.mpr ⟨xs, st', w2, h5, rfl⟩⟩⟩

/-! ### A case that meets the hypotheses -/

/-- Whether two answers are the same. -/
def sameAnswer : Except Exn Packet → Except Exn Packet → Bool
  | .ok p, .ok q => p == q
  | .error e, .error f => e == f
  | _, _ => false

theorem of_sameAnswer {a b : Except Exn Packet} (h : sameAnswer a b = true) : a = b := by
  cases a <;> cases b <;> simp [sameAnswer] at h <;> rw [h]

/-- Runs the operations one after the other and compares what each of them would find with what is found at first. -/
def independent (sys : Sys) (lost : Nat → Option Bool) (env : Env) (w : World) : List (Op OpResult) → St → World × Nat → Bool
  | [], _, _ => true
  | op :: ops, st, s =>
    (recorded (flaky sys lost) (op { env with dry := true } st) s).all (fun e => sameAnswer e.2 (direct sys e.1 w).1)
    && match exec (flaky sys lost) op { env with dry := false } st s with
      | ((.ok _, st'), s') => independent sys lost env w ops st' s'
      | _ => true

theorem of_independent {sys : Sys} {lost : Nat → Option Bool} {env : Env} {w : World} : ∀ {ops : List (Op OpResult)} {st : St} {s : World × Nat},
    independent sys lost env w ops st s = true → ∀ pre op post rs1 st1 s1, ops = pre ++ op :: post →
      exec (flaky sys lost) (deploy pre) { env with dry := false } st s = ((.ok rs1, st1), s1) →
      ∀ request answer, (request, answer) ∈ recorded (flaky sys lost) (op { env with dry := true } st1) s1 → answer = (direct sys request w).1
  | [], _, _, _, pre, op, post, _, _, _, he, _ => by cases pre <;> cases he
  | o :: ops, st, s, h, pre, op, post, rs1, st1, s1, he, hx => by
    rw [independent, Bool.and_eq_true] at h
    cases pre with
    | nil =>
      cases he
      rw [deploy] at hx
      cases hx
      intro request answer hm
      exact of_sameAnswer (List.all_eq_true.mp h.1 _ hm)
    | cons p pre =>
      cases he
      rw [deploy] at hx
      obtain ⟨y, st4, s4, g1, g2⟩ := exec_bind_ok.mp hx
      obtain ⟨ys, st5, s5, g3, g4⟩ := exec_bind_ok.mp g2
      cases g4
      rw [g1] at h
      exact of_independent h.2 pre op post _ _ _ rfl g3

namespace Site

theorem exec_history {p : Proc} (h : LooksOnly p.argv) (w : World) (l : List Proc) : (sys.exec p { w with started := l }).1 = (sys.exec p w).1 := by
  generalize ha : p.argv = argv at h
  cases h with
  | readlink path =>
    show (core tools p _).1 = (core tools p w).1
    unfold core
    rw [ha]
    cases hp : parseTool [p!"readlink", p!"-n", path] with
    | none =>
      show (siteExec p _).1 = (siteExec p w).1
      unfold siteExec
      rw [ha]
      rfl
    | some t =>
      have ht : parseTool [p!"readlink", p!"-n", path] = if isOption path = false then some (.readlink path) else none := by simp [parseTool]
      rw [hp] at ht
      split at ht
      · cases ht
        show (runReadlink tools p _ path).1 = (runReadlink tools p w path).1
        unfold runReadlink
        cases lookup w.fs p.cwd path false with
        | error e => rfl
        | ok x => obtain ⟨_, n⟩ := x; simp only; cases n.kind <;> rfl
      · cases ht
  | unitProperty property unit =>
    rw [serviceCommand (by rw [ha]; rfl), serviceCommand (by rw [ha]; rfl)]
    unfold Example.unitExec
    rw [ha]
    simp only
    by_cases h1 : property = p!"ActiveState"
    · rw [if_pos h1, if_pos h1]; rfl
    · rw [if_neg h1, if_neg h1]
      by_cases h2 : property = p!"UnitFileState"
      · rw [if_pos h2, if_pos h2]; rfl
      · rw [if_neg h2, if_neg h2]
  | pacmanInstalled package =>
    rw [packageCommand (by rw [ha]; rfl), packageCommand (by rw [ha]; rfl)]
    unfold Example.pacmanExec
    rw [ha]
    simp
  | packageCommand =>
    rw [bashCommand (by rw [ha]; rfl), bashCommand (by rw [ha]; rfl)]
    unfold siteBash
    rw [ha]
    rfl
  | serviceCommand =>
    rw [bashCommand (by rw [ha]; rfl), bashCommand (by rw [ha]; rfl)]
    unfold siteBash
    rw [ha]
    rfl
  | gitCommit path =>
    rw [gitCommand (by rw [ha]; rfl), gitCommand (by rw [ha]; rfl)]
    unfold siteGit
    rw [ha]
    by_cases h1 : path = Example.app
    · subst h1
      rw [if_pos rfl, if_pos rfl, show cloneThere { w with started := l } = cloneThere w from rfl]
      cases cloneThere w Example.app <;> rfl
    · simp [h1]
  | gitUrl path =>
    rw [gitCommand (by rw [ha]; rfl), gitCommand (by rw [ha]; rfl)]
    unfold siteGit
    rw [ha]
    by_cases h1 : path = Example.app
    · subst h1
      rw [if_neg (by simp), if_pos rfl, if_neg (by simp), if_pos rfl, show cloneThere { w with started := l } = cloneThere w from rfl]
      cases cloneThere w Example.app <;> rfl
    · simp [h1]
  | gitUpstream url ref =>
    rw [gitCommand (by rw [ha]; rfl), gitCommand (by rw [ha]; rfl)]
    unfold siteGit
    rw [ha]
    by_cases h1 : url = Example.urlU ∧ ref = p!"HEAD"
    · obtain ⟨rfl, rfl⟩ := h1
      rfl
    · simp [h1]
  | _ =>
    show (core tools p _).1 = (core tools p w).1
    unfold core
    rw [ha]
    show (siteExec p _).1 = (siteExec p w).1
    unfold siteExec
    rw [ha]
    rfl

/-- What is found on the host of SiteExample.lean does not depend on the history of processes. -/
theorem history : ∀ request, ReadOnly request → ∀ w l, (direct sys request { w with started := l }).1 = (direct sys request w).1 := by
  rintro request (h | ⟨command, stdin, capture, user, group, umask, cwd, rfl, hc⟩) w l
  · have hs : SteadyLooks sys := fun _ _ _ _ => ⟨rfl, rfl, rfl⟩
    cases request with
    | stat path fo sha => exact (stat_same (v := { w with started := l }) (w := w) hs rfl rfl rfl fun _ => rfl).answer
    | download path => exact (download_same (v := { w with started := l }) (w := w) hs rfl).answer
    | checkAlive => rfl
    | getenv => rfl
    | resolveUser user =>
      refine direct_reply ?_
      simp only [handle, handleResolveUser]
      rw [show getpwnam { w with started := l } = getpwnam w from rfl, show getpwuid { w with started := l } = getpwuid w from rfl]
      cases getpwnam w (user.getD (Py.natStr 10 w.uid)) with
      | ok _ => rfl
      | error e =>
        cases e <;> try rfl
        simp only
        cases Py.parseInt 10 (user.getD (Py.natStr 10 w.uid)) with
        | none => rfl
        | some i => simp only; cases getpwuid w i <;> rfl
    | resolveGroup group =>
      refine direct_reply ?_
      simp only [handle, handleResolveGroup]
      rw [show getgrnam { w with started := l } = getgrnam w from rfl, show getgrgid { w with started := l } = getgrgid w from rfl]
      cases getgrnam w (group.getD (Py.natStr 10 w.gid)) with
      | ok _ => rfl
      | error e =>
        cases e <;> try rfl
        simp only
        cases Py.parseInt 10 (group.getD (Py.natStr 10 w.gid)) with
        | none => rfl
        | some i => simp only; cases getgrgid w i <;> rfl
    | queryUser user hash =>
      refine direct_reply ?_
      simp only [handle, handleQueryUser]
      rw [show getpwnam { w with started := l } = getpwnam w from rfl, show getpwuid { w with started := l } = getpwuid w from rfl]
      have he : ∀ pw, (userEntry pw hash { w with started := l }).1 = (userEntry pw hash w).1 := by
        intro pw
        unfold userEntry
        rw [show getspnam { w with started := l } = getspnam w from rfl, show getgrgid { w with started := l } = getgrgid w from rfl]
        generalize (if hash then Remote.optional (getspnam w) (some pw.name) else .ok none) = x
        cases x with
        | error e => cases e <;> rfl
        | ok h => simp only; cases getgrgid w pw.gid <;> rfl
      cases getpwnam w user with
      | ok pw => exact he pw
      | error e =>
        cases e <;> try rfl
        simp only
        cases Py.parseInt 10 user with
        | none => rfl
        | some i => simp only; cases getpwuid w i <;> first | rfl | exact he _
    | queryGroup group =>
      refine direct_reply ?_
      simp only [handle, handleQueryGroup]
      rw [show getgrnam { w with started := l } = getgrnam w from rfl, show getgrgid { w with started := l } = getgrgid w from rfl]
      cases getgrnam w (group) with
      | ok _ => rfl
      | error e =>
        cases e <;> try rfl
        simp only
        cases Py.parseInt 10 (group) with
        | none => rfl
        | some i => simp only; cases getgrgid w i <;> rfl
    | _ => cases h
  · refine direct_reply ?_
    show (handleRun sys command stdin capture user group umask cwd { w with started := l }).1 = (handleRun sys command stdin capture user group umask cwd w).1
    rw [Client.handleRun_eq, Client.handleRun_eq]
    have hp : Client.plan sys command stdin capture user group umask cwd { w with started := l } = Client.plan sys command stdin capture user group umask cwd w := rfl
    rw [hp]
    cases hq : Client.plan sys command stdin capture user group umask cwd w with
    | error r => rfl
    | ok proc =>
      simp only
      have hargv : proc.argv = command := (plan_argv hq).1
      have hx : ∀ w l, (sys.exec proc { w with started := l }).1 = (sys.exec proc w).1 := exec_history (by rw [hargv]; exact hc)
      have h1 := (hx w (proc :: l)).trans (hx w (proc :: w.started)).symm
      revert h1
      generalize sys.exec proc { w with started := proc :: l } = a
      generalize sys.exec proc { w with started := proc :: w.started } = b
      intro h1
      obtain ⟨a, _⟩ := a
      obtain ⟨b, _⟩ := b
      simp only at h1
      subst h1
      cases a with
      | failed e => rfl
      | done out err code => cases capture <;> rfl

/-- Calls of which none looks at what another one changes. -/
def apart : List (Op OpResult) :=
  [packageWith id (pacman []) [p!"nginx", p!"curl"] true true,
   Ops.group p!"web" true (some 1001) false true,
   line p!"/etc/hosts" p!"10.0.0.1 db" true none false .no true,
   link p!"/etc/link" p!"/srv" true false none none true,
   systemdService p!"nginx" (some p!"started") (some true) false true]

/-- The result has a value of its own. -/
def ownState : Except Exn OpResult → Bool
  | .ok x => x.final.any fun e => match e.2 with
    | .dict _ => false
    | _ => true
  | .error _ => false

theorem not_uploadDir {op : Op OpResult} (h : ownState (exec (direct sys) op Example.env Example.st world).1.1 = true) :
    ∀ sha512 src tree dest dirMode fileMode owner group check, op ≠ uploadDir sha512 src tree dest dirMode fileMode owner group check := by
  rintro sha512 src tree dest dirMode fileMode owner group check rfl
  have hr := runs_recorded (direct sys) (uploadDir sha512 src tree dest dirMode fileMode owner group check Example.env Example.st) world
  obtain ⟨good, _, _, _, _, _, _, hx⟩ := relays_uploadDir (st' := (exec (direct sys) (uploadDir sha512 src tree dest dirMode fileMode owner group check) Example.env Example.st world).1.2)
    (r := (exec (direct sys) (uploadDir sha512 src tree dest dirMode fileMode owner group check) Example.env Example.st world).1.1) hr
  cases hres : (exec (direct sys) (uploadDir sha512 src tree dest dirMode fileMode owner group check) Example.env Example.st world).1.1 with
  | error e => rw [hres] at h; cases h
  | ok x =>
    rw [hres] at h
    obtain ⟨e, he, hv⟩ := List.any_eq_true.mp h
    have : e.2 ∈ x.final.map (·.2) := List.mem_map_of_mem he
    rw [(hx x hres).2.2.2] at this
    obtain ⟨p, _, hp⟩ := List.mem_map.mp this
    rw [← hp] at hv
    cases hv

theorem apart_operations : ∀ op ∈ apart, (∃ opts, Operation opts op)
    ∧ ∀ sha512 src tree dest dirMode fileMode owner group check, op ≠ uploadDir sha512 src tree dest dirMode fileMode owner group check := by
  intro op hop
  simp only [apart, List.mem_cons, List.not_mem_nil, or_false] at hop
  rcases hop with rfl | rfl | rfl | rfl | rfl
  · exact ⟨⟨_, .pacman ..⟩, not_uploadDir (by decide +kernel)⟩
  · exact ⟨⟨_, .group ..⟩, not_uploadDir (by decide +kernel)⟩
  · exact ⟨⟨_, .line ..⟩, not_uploadDir (by decide +kernel)⟩
  · exact ⟨⟨_, .link ..⟩, not_uploadDir (by decide +kernel)⟩
  · exact ⟨⟨_, .systemdService ..⟩, not_uploadDir (by decide +kernel)⟩

/-- The script meets all hypotheses (see also `looking`, `history`, `apart_operations` and `of_independent`); the real run makes five
changes. -/
example : Example.changes (exec (flaky sys Example.always) (deploy apart) { Example.env with dry := false } Example.st (world, 0)).1.1
      = some [true, true, true, true, true]
    ∧ independent sys Example.always Example.env world apart Example.st (world, 0) = true := by
  decide +kernel

end Site

end Verif.Ops
