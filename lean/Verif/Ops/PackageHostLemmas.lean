/-
What package operations do to a host.
-/
import Verif.Ops.PackageLemmas

namespace Verif.Ops

open Script Remote
open Client (Prog direct lostConnection Completed)
open Wire (Packet)

section
variable {sys : Sys} {lost : Nat → Option Bool} {env : Env} {st st' : St} {w w' : World}
variable {m : Manager} {query install remove : Str → List Str} {yes : Option Bytes → Int → Prop}

theorem same_refl (w : World) : Same w w := rfl

theorem same_trans {w1 w2 w3 : World} (h1 : Same w1 w2) (h2 : Same w2 w3) : Same w1 w3 := by
  unfold Same at *
  rw [h2, h1]

theorem same_started (w : World) (s : List Proc) : Same w { w with started := s } := rfl

theorem same_packages (h : Same w w') : w'.packages = w.packages := by rw [h]

theorem isInstalled_post (Y : Queries m query install remove yes) (H : PackageHost sys query install remove yes) (p : Str) :
    Post sys lost (m.isInstalled p) env st w (fun i st' w' => st' = st ∧ Same w w' ∧ (i = true ↔ p ∈ w.packages)) (Same w) := by
  rw [Y.isInstalled]
  refine Post.bind (Post.run ?_ (same_refl w))
  intro pr out err code w' h1 h2
  obtain ⟨rfl, h3⟩ := H.ask _ _ _ _ _ _ p h1 h2
  refine ⟨same_started _ _, fun hc => Post.ret ⟨rfl, same_started _ _, ?_⟩⟩
  exact (Y.told_iff _ _ _ hc).trans h3

theorem queryInstalled_post (Y : Queries m query install remove yes) (H : PackageHost sys query install remove yes) : ∀ (ps : List Str) (w : World),
    Post sys lost (queryInstalled m ps) env st w (fun l st' w' => st' = st ∧ Same w w' ∧ ∀ p, p ∈ l ↔ p ∈ ps ∧ p ∈ w.packages) (Same w)
  | [], w => Post.pure ⟨rfl, same_refl w, by simp⟩
  | p :: ps, w => by
    unfold queryInstalled
    refine Post.bind ((isInstalled_post Y H p).mono ?_ fun _ h => h)
    rintro i st1 w1 ⟨hst, hw1, hi⟩
    rw [hst]
    refine Post.bind ((queryInstalled_post Y H ps w1).mono ?_ fun _ h => same_trans hw1 h)
    rintro l _ w2 ⟨rfl, hw2, hl⟩
    refine Post.ret ⟨rfl, same_trans hw1 hw2, fun q => ?_⟩
    rw [same_packages hw1] at hl
    cases hb : i with
    | true =>
      have hp := hi.mp hb
      simp only [if_true, List.mem_cons, hl]
      constructor
      · rintro (rfl | ⟨h1, h2⟩)
        · exact ⟨.inl rfl, hp⟩
        · exact ⟨.inr h1, h2⟩
      · rintro ⟨rfl | h1, h2⟩
        · exact .inl rfl
        · exact .inr ⟨h1, h2⟩
    | false =>
      have hp : p ∉ w.packages := fun h => by rw [hi.mpr h] at hb; cases hb
      simp only [Bool.false_eq_true, if_false, List.mem_cons, hl]
      constructor
      · rintro ⟨h1, h2⟩; exact ⟨.inr h1, h2⟩
      · rintro ⟨rfl | h1, h2⟩
        · exact absurd h2 hp
        · exact ⟨h1, h2⟩

theorem forEach_install {f : Str → Op Unit} (hf : ∀ p, f p = runCommand (install p)) (H : PackageHost sys query install remove yes) : ∀ (ps : List Str) (w : World),
    Post sys lost (forEach f ps) env st w (fun _ st' w' => st' = st ∧ (∀ p ∈ ps, p ∈ w'.packages) ∧ ∀ p ∈ w.packages, p ∈ w'.packages) (fun _ => True)
  | [], w => Post.pure ⟨rfl, by simp, fun _ h => h⟩
  | p :: ps, w => by
    unfold forEach
    rw [hf]
    refine Post.bind (Post.runAny ?_ trivial)
    intro pr out err code w1 h1 h2
    refine ⟨trivial, fun hc => ?_⟩
    subst hc
    obtain ⟨h3, h4⟩ := H.install _ _ _ _ _ p h1 h2
    refine (forEach_install hf H ps w1).mono ?_ fun _ h => h
    rintro _ _ w2 ⟨hst, h5, h6⟩
    refine ⟨hst, ?_, fun q hq => h6 q (h4 q hq)⟩
    intro q hq
    rcases List.mem_cons.mp hq with rfl | hq
    · exact h6 _ h3
    · exact h5 q hq

theorem forEach_remove {f : Str → Op Unit} (hf : ∀ p, f p = runCommand (remove p)) (H : PackageHost sys query install remove yes) : ∀ (ps : List Str) (w : World),
    Post sys lost (forEach f ps) env st w (fun _ st' w' => st' = st ∧ (∀ p ∈ ps, p ∉ w'.packages) ∧ ∀ p ∈ w'.packages, p ∈ w.packages) (fun _ => True)
  | [], w => Post.pure ⟨rfl, by simp, fun _ h => h⟩
  | p :: ps, w => by
    unfold forEach
    rw [hf]
    refine Post.bind (Post.runAny ?_ trivial)
    intro pr out err code w1 h1 h2
    refine ⟨trivial, fun hc => ?_⟩
    subst hc
    obtain ⟨h3, h4⟩ := H.remove _ _ _ _ _ p h1 h2
    refine (forEach_remove hf H ps w1).mono ?_ fun _ h => h
    rintro _ _ w2 ⟨hst, h5, h6⟩
    refine ⟨hst, ?_, fun q hq => h4 q (h6 q hq)⟩
    intro q hq
    rcases List.mem_cons.mp hq with rfl | hq
    · exact fun h => h3 (h6 _ h)
    · exact h5 q hq

/-- The requested packages are installed (absent). -/
def AllAs (present : Bool) (packages : List Str) (w : World) : Prop :=
  ∀ p ∈ packages, if present then p ∈ w.packages else p ∉ w.packages

theorem packageWith_post (Y : Queries m query install remove yes) (H : PackageHost sys query install remove yes) {order : List Str → List Str}
    (horder : ∀ l, (order l).Perm l) {packages : List Str} {present check : Bool} :
    Post sys lost (packageWith order m packages present check) env st w
      (fun r _ w' => r.success = true ∧ (env.dry = false → AllAs present packages w')) (fun _ => True) := by
  unfold packageWith
  refine Post.operation (Post.returned ?_)
  unfold genericPackage
  refine Post.bind ((queryInstalled_post Y H packages w).mono ?_ fun _ _ => trivial)
  rintro installed _ w1 ⟨rfl, hw1, hins⟩
  refine Post.bind (Post.initialState rfl rfl ?_)
  refine Post.bind (Post.finalState rfl rfl ?_)
  have hsub : ∀ p ∈ installed, p ∈ packages := fun p hp => ((hins p).mp hp).1
  have hall : todoOf packages installed present = [] → AllAs present packages w1 := by
    intro ht p hp
    have : p ∉ todoOf packages installed present := by rw [ht]; simp
    rw [mem_todoOf hsub] at this
    rw [same_packages hw1]
    cases present with
    | true =>
      simp only [if_true, hins] at this ⊢
      exact Classical.byContradiction fun hc => this ⟨hp, fun h => hc h.2⟩
    | false =>
      simp only [Bool.false_eq_true, if_false, hins] at this ⊢
      exact fun hc => this ⟨hp, hp, hc⟩
  refine Post.settle (i := installedState (sorted (distinct installed))) (f := installedState (if present then sorted packages else []))
    ⟨rfl, rfl, rfl, rfl⟩ ?_ (Post.pure ⟨⟨⟨rfl, rfl, rfl, rfl⟩, rfl⟩, rfl⟩) ?_ ?_
  · intro heq
    refine ⟨trivial, ?_⟩
    rintro res ⟨⟩ _
    exact ⟨rfl, fun _ => hall ((installed_eq hsub).1 heq)⟩
  · intro hd _ st' _
    refine ⟨trivial, ?_⟩
    rintro res ⟨⟩ _
    exact ⟨rfl, fun h => by rw [hd] at h; cases h⟩
  · intro hd _ st' _ _
    cases present with
    | true =>
      simp only [if_true]
      refine (forEach_install Y.installs H _ w1).mono ?_ fun _ h => h
      rintro _ _ w2 ⟨rfl, h1, h2⟩
      refine ⟨rfl, trivial, ?_⟩
      rintro res ⟨⟩ _
      refine ⟨rfl, fun _ p hp => ?_⟩
      simp only [if_true]
      by_cases hi : p ∈ installed
      · exact h2 p (by rw [same_packages hw1]; exact ((hins p).mp hi).2)
      · refine h1 p ((horder _).mem_iff.mpr ?_)
        simp [mem_distinct, hp, hi]
    | false =>
      simp only [Bool.false_eq_true, if_false]
      refine (forEach_remove Y.uninstalls H _ w1).mono ?_ fun _ h => h
      rintro _ _ w2 ⟨rfl, h1, h2⟩
      refine ⟨rfl, trivial, ?_⟩
      rintro res ⟨⟩ _
      refine ⟨rfl, fun _ p hp => ?_⟩
      simp only [Bool.false_eq_true, if_false]
      intro hp2
      have hp1 := h2 p hp2
      rw [same_packages hw1] at hp1
      refine h1 p ((horder _).mem_iff.mpr ?_) hp2
      rw [mem_distinct, hins]
      exact ⟨hp, hp1⟩

theorem packageWith_calm (Y : Queries m query install remove yes) (H : PackageHost sys query install remove yes) {order : List Str → List Str}
    (horder : ∀ l, (order l).Perm l) {packages : List Str} {present check : Bool} (hall : AllAs present packages w) (hn : present = true → packages.Nodup) :
    Post sys lost (packageWith order m packages present check) env st w
      (fun r _ w' => (r.success = true ∧ r.changed = false) ∧ Same w w') (Same w) := by
  unfold packageWith
  refine Post.operation (Post.returned ?_)
  unfold genericPackage
  refine Post.bind ((queryInstalled_post Y H packages w).mono ?_ fun _ h => h)
  rintro installed _ w1 ⟨rfl, hw1, hins⟩
  refine Post.bind (Post.initialState rfl rfl ?_)
  refine Post.bind (Post.finalState rfl rfl ?_)
  have hsub : ∀ p ∈ installed, p ∈ packages := fun p hp => ((hins p).mp hp).1
  have htodo : todoOf packages installed present = [] := by
    apply List.eq_nil_iff_forall_not_mem.mpr
    intro p hp
    rw [mem_todoOf hsub] at hp
    have ha := hall p hp.1
    cases present with
    | true => simp only [if_true, hins] at hp ha; exact hp.2 ⟨hp.1, ha⟩
    | false => simp only [Bool.false_eq_true, if_false, hins] at hp ha; exact ha hp.2.2
  have heq := (installed_eq hsub).2 hn htodo
  refine Post.settle (i := installedState (sorted (distinct installed))) (f := installedState (if present then sorted packages else []))
    ⟨rfl, rfl, rfl, rfl⟩ ?_ (Post.pure ⟨⟨⟨rfl, rfl, rfl, rfl⟩, rfl⟩, rfl⟩) ?_ ?_
  · intro _
    refine ⟨hw1, ?_⟩
    rintro res ⟨⟩ _
    exact ⟨⟨rfl, rfl⟩, hw1⟩
  · intro _ h; rw [heq] at h; cases h
  · intro _ h; rw [heq] at h; cases h

end
end Verif.Ops

namespace Verif.Ops

open Script Remote
open Client (Prog direct lostConnection Completed)
open Wire (Packet)

/-! ### Finding a command -/

section
variable {sys : Sys} {lost : Nat → Option Bool} {env : Env} {st st' : St} {w w' : World}

theorem run_shift {α : Type} (sys : Sys) (lost : Nat → Option Bool) : ∀ (p : Prog α) (w : World) (k : Nat),
    p.run (flaky sys lost) (w, k + 1) = ((p.run (flaky sys fun i => lost (i + 1)) (w, k)).1,
      ((p.run (flaky sys fun i => lost (i + 1)) (w, k)).2.1, (p.run (flaky sys fun i => lost (i + 1)) (w, k)).2.2 + 1))
  | .ret a, w, k => rfl
  | .req pk f, w, k => by
    unfold Prog.run
    unfold flaky
    dsimp only
    cases lost (k + 1) with
    | none => exact run_shift sys lost _ _ _
    | some b => cases b <;> exact run_shift sys lost _ _ _

theorem perform_assoc {α β γ : Type} (m : Op α) (f : α → Op β) (g : β → Op γ) :
    perform sys lost ((m >>= f) >>= g) env st w = perform sys lost (m >>= fun a => f a >>= g) env st w := by
  unfold perform
  have : exec (flaky sys lost) ((m >>= f) >>= g) env st (w, 0) = exec (flaky sys lost) (m >>= fun a => f a >>= g) env st (w, 0) := by
    rw [exec_bind, exec_bind, exec_bind]
    cases exec (flaky sys lost) m env st (w, 0) with
    | mk x s =>
      obtain ⟨r, st'⟩ := x
      cases r with
      | error e => rfl
      | ok a => simp only [exec_bind]
  rw [this]

/-- What remains after one request, as if it were done first. -/
theorem perform_tail {α : Type} (m : Op α) :
    ((exec (flaky sys lost) m env st (w, 1)).1.1, (exec (flaky sys lost) m env st (w, 1)).2.1)
      = perform sys (fun i => lost (i + 1)) m env st w := by
  unfold perform exec
  rw [run_shift sys lost (m env st) w 0]

/-- Running a command over a connection that does not break. -/
theorem run_cases {argv : List Str} {check : Bool} {user group umask cwd : Option Str} {r : Except Exn Completed} {w1 : World}
    (h0 : (Client.Connector.run argv none true check user group umask cwd).run (direct sys) w = (r, w1)) :
    (w1 = w ∧ ∃ e, r = .error e) ∨ ∃ p out err code, p.argv = argv ∧ sys.exec p { w with started := p :: w.started } = (.done out err code, w1)
      ∧ ((check = true ∧ code ≠ 0 ∧ ∃ e, r = .error e) ∨ ((check = true → code = 0) ∧ r = .ok { stdout := some out, stderr := some err, returncode := code })) := by
  rw [Client.run_eq] at h0
  split at h0
  · next r' hp =>
    cases h0
    refine .inl ⟨rfl, ?_⟩
    rcases Client.plan_error hp with ⟨f, m, rfl⟩ | ⟨m, rfl⟩ | ⟨e, rfl⟩
    · simp only [Client.refused, Client.unpackResponse]
      cases hga : Packet.getattr _ f <;> exact ⟨_, rfl⟩
    · exact ⟨_, rfl⟩
    · cases e with
      | osError n s m => cases n <;> exact ⟨_, rfl⟩
      | _ => exact ⟨_, rfl⟩
  · next proc hp =>
    obtain ⟨h1, _, _⟩ := plan_argv hp
    match hx : sys.exec proc { w with started := proc :: w.started } with
    | (.failed e, w1) =>
      rw [hx] at h0
      cases h0
      exact .inl ⟨rfl, _, rfl⟩
    | (.done out err code, w1) =>
      rw [hx] at h0
      simp only [Prod.mk.injEq] at h0
      obtain ⟨rfl, rfl⟩ := h0
      refine .inr ⟨proc, out, err, code, h1, hx, ?_⟩
      unfold Client.delivered
      by_cases hc : (check && code != 0) = true
      · simp only [hc]
        simp only [Bool.and_eq_true, bne_iff_ne, ne_eq] at hc
        exact .inl ⟨hc.1, hc.2, _, rfl⟩
      · simp only [hc]
        refine .inr ⟨fun hch => ?_, rfl⟩
        rw [hch] at hc
        simpa using hc

/-- Running one command and going on with its result: either nothing was changed and an exception is raised, or it is as if one
had started with what comes next. -/
theorem perform_run_then {α : Type} {argv : List Str} {next : Completed → Op α}
    (h : ∀ p out err code w', p.argv = argv → sys.exec p { w with started := p :: w.started } = (.done out err code, w') → Same w w') :
    ∃ w', Same w w' ∧ ((∃ e, perform sys lost (Connection.run argv) env st w = (.error e, w')
        ∧ perform sys lost (Connection.run argv >>= next) env st w = (.error e, w'))
      ∨ ∃ p out err, p.argv = argv ∧ sys.exec p { w with started := p :: w.started } = (.done out err 0, w')
        ∧ perform sys lost (Connection.run argv >>= next) env st w
          = perform sys (fun i => lost (i + 1)) (next { stdout := some out, stderr := some err, returncode := 0 }) env st w') := by
  have key : ∃ w', Same w w' ∧ ((∃ e st', exec (flaky sys lost) (Connection.run argv) env st (w, 0) = ((.error e, st'), (w', 1))
      ∨ exec (flaky sys lost) (Connection.run argv) env st (w, 0) = ((.error e, st'), (w', 0)))
      ∨ ∃ p out err, p.argv = argv ∧ sys.exec p { w with started := p :: w.started } = (.done out err 0, w')
        ∧ exec (flaky sys lost) (Connection.run argv) env st (w, 0) = ((.ok { stdout := some out, stderr := some err, returncode := 0 }, st), (w', 1))) := by
    cases hst : st.stack with
    | nil =>
      refine ⟨w, same_refl w, .inl ⟨.indexError, st, .inr ?_⟩⟩
      unfold Connection.run
      rw [exec_bind]
      have : exec (flaky sys lost) currentDefaults env st (w, 0) = ((.error .indexError, st), (w, 0)) := by
        unfold exec Script.currentDefaults
        simp only [hst]
        rfl
      rw [this]
    | cons c rest =>
      have h0 : exec (flaky sys lost) currentDefaults env st (w, 0) = ((.ok c, st), (w, 0)) := by
        unfold exec Script.currentDefaults
        simp only [hst]
        rfl
      have h1 := exec_bind (remote := flaky sys lost) currentDefaults (fun d : Settings => Op.call (Client.Connector.run argv none true true
        (pick d.asUser none) (pick d.asGroup none) (pick d.umask none) (pick d.cwd none))) env st (w, 0)
      rw [h0] at h1
      have h2 : exec (flaky sys lost) (Connection.run argv) env st (w, 0) = exec (flaky sys lost) (Op.call (Client.Connector.run argv none true true
        (pick c.asUser none) (pick c.asGroup none) (pick c.umask none) (pick c.cwd none))) env st (w, 0) := h1
      rw [h2, exec_call]
      obtain ⟨pk, f, hpk, hf⟩ := single_run argv none true true (pick c.asUser none) (pick c.asGroup none) (pick c.umask none) (pick c.cwd none)
      have hr : ∀ r w1, (Client.Connector.run argv none true true (pick c.asUser none) (pick c.asGroup none) (pick c.umask none)
        (pick c.cwd none)).run (direct sys) w = (r, w1) → _ := fun r w1 h0 => run_cases h0
      rw [hpk] at hr ⊢
      replace hr := hr _ _ rfl
      have hsame : Same w (direct sys pk w).2 := by
        rcases hr with ⟨hw, _⟩ | ⟨p, out, err, code, hp, hx, _⟩
        · have : (direct sys pk w).2 = w := hw
          rw [this]; exact same_refl w
        · exact h _ _ _ _ _ hp hx
      simp only [Prog.run, flaky]
      cases hl : lost 0 with
      | some b =>
        cases b with
        | false => exact ⟨w, same_refl w, .inl ⟨lostConnection, st, .inl (by simp only [hf])⟩⟩
        | true => exact ⟨_, hsame, .inl ⟨lostConnection, st, .inl (by simp only [hf])⟩⟩
      | none =>
        simp only [Prog.run] at hr
        refine ⟨_, hsame, ?_⟩
        rcases hr with ⟨_, e, he⟩ | ⟨p, out, err, code, hp, hx, ⟨_, _, e, he⟩ | ⟨hc, he⟩⟩
        · exact .inl ⟨e, st, .inl (by simp only [he])⟩
        · exact .inl ⟨e, st, .inl (by simp only [he])⟩
        · rw [hc trivial] at hx he
          exact .inr ⟨p, out, err, hp, hx, by simp only [he]⟩
  obtain ⟨w', hw', hk⟩ := key
  refine ⟨w', hw', ?_⟩
  rcases hk with ⟨e, st', hk | hk⟩ | ⟨p, out, err, hp, hx, hk⟩
  · refine .inl ⟨e, ?_⟩
    unfold perform
    rw [exec_bind, hk]
    exact ⟨rfl, rfl⟩
  · refine .inl ⟨e, ?_⟩
    unfold perform
    rw [exec_bind, hk]
    exact ⟨rfl, rfl⟩
  · refine .inr ⟨p, out, err, hp, hx, ?_⟩
    rw [← perform_tail]
    unfold perform
    rw [exec_bind, hk]

/-- Looking for a command and going on with what was found. -/
theorem find_then {α β : Type} (ms : List (Str × α)) (next : Option α → Op β) (x : Option α)
    (h : ∀ p out err code w', p.argv = [p!"bash", p!"-c", findQuery (ms.map (·.1))] →
      sys.exec p { w with started := p :: w.started } = (.done out err code, w') →
      Same w w' ∧ lookupKey ms (Py.strip (Py.decodeIgnore out)) = x) :
    ∃ w', Same w w' ∧ ((∃ e, perform sys lost (Connection.run [p!"bash", p!"-c", findQuery (ms.map (·.1))]) env st w = (.error e, w')
        ∧ perform sys lost (findCommand ms >>= next) env st w = (.error e, w'))
      ∨ perform sys lost (findCommand ms >>= next) env st w = perform sys (fun i => lost (i + 1)) (next x) env st w') := by
  have hassoc : perform sys lost (findCommand ms >>= next) env st w = _ := perform_assoc _ _ _
  rw [hassoc]
  obtain ⟨w', hw', hk⟩ := perform_run_then (sys := sys) (lost := lost) (env := env) (st := st) (w := w)
    (argv := [p!"bash", p!"-c", findQuery (ms.map (·.1))])
    (next := fun res => (Pure.pure (lookupKey ms (Py.strip (Py.decodeIgnore (res.stdout.getD [])))) : Op (Option α)) >>= next)
    (fun p out err code w' hp hx => (h p out err code w' hp hx).1)
  refine ⟨w', hw', ?_⟩
  rcases hk with hk | ⟨p, out, err, hp, hx, hk⟩
  · exact .inl hk
  · refine .inr (hk.trans ?_)
    have := (h p out err 0 w' hp hx).2
    rw [← this]
    rfl

end
end Verif.Ops
