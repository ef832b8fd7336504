/-
Dry runs of scripts that manage symbolic links. `link` runs `readlink` also in a dry run, so that the host after a dry run may have
a longer history of processes, but nothing else.
-/
import Verif.Ops.DeployLemmas
import Verif.Ops.ForesightSpec

namespace Verif.Ops

open Script Remote
open Client (Prog direct lostConnection plan)
open Wire (Packet)

/-- If the code ends well in a real run on `w`, a dry run on `v` ends in the same way, and only programs that look have been run. -/
def Foresees {α : Type} (good : α → Prop) (sys : Sys) (lost : Nat → Option Bool) (w v : World) (env : Env) (st : St) (m : Op α) : Prop :=
  ∀ k a st' s, exec (flaky sys lost) m { env with dry := false } st (w, k) = ((.ok a, st'), s) → good a →
    ∃ l, exec (direct sys) m { env with dry := true } st v = ((.ok a, st'), { v with started := l })

section
variable {α β : Type} {sys : Sys} {tools : Tools} {lost : Nat → Option Bool} {w v : World} {env : Env} {st : St} {good : α → Prop}

theorem Foretold.foresees {m : Op α} (h : Foretold good sys lost w v env st m) : Foresees good sys lost w v env st m :=
  fun k a st' s he hg => ⟨v.started, h k a st' s he hg⟩

theorem Foresees.bind {good : β → Prop} {m : Op α} {f : α → Op β} (hm : Echoes sys lost w v env st m)
    (hf : ∀ a st', (∃ k s, exec (flaky sys lost) m { env with dry := false } st (w, k) = ((.ok a, st'), s)) → Foresees good sys lost w v env st' (f a)) :
    Foresees good sys lost w v env st (m >>= f) := by
  intro k b st' s h hg
  obtain ⟨a, st1, s1, h1, h2⟩ := exec_bind_ok.mp h
  obtain ⟨hw, h3⟩ := hm _ _ _ _ h1
  obtain ⟨w1, k1⟩ := s1
  simp only at hw
  subst hw
  obtain ⟨l, h4⟩ := hf _ _ ⟨_, _, h1⟩ _ _ _ _ h2 hg
  exact ⟨l, exec_bind_ok.mpr ⟨_, _, _, h3, h4⟩⟩

theorem Foresees.ite {c : Prop} [Decidable c] {a b : Op α} (ha : Foresees good sys lost w v env st a) (hb : Foresees good sys lost w v env st b) :
    Foresees good sys lost w v env st (if c then a else b) := by
  split <;> assumption

theorem Foresees.finally {m : Op α} {f : St → St} (h : Foresees good sys lost w v env st m) : Foresees good sys lost w v env st (Op.finally_ m f) := by
  intro k a st' s he hg
  rw [exec_finally] at he ⊢
  simp only [Prod.mk.injEq] at he
  obtain ⟨⟨h1, h2⟩, h3⟩ := he
  obtain ⟨l, h4⟩ := h k a (exec (flaky sys lost) m { env with dry := false } st (w, k)).1.2 s
    (by rw [← h1, ← h3]) hg
  exact ⟨l, by rw [h4, ← h2]⟩

theorem resolveDefaults_same_cwd {q r : Settings} {k : Nat} {st' : St} {s : World × Nat}
    (h : exec (flaky sys lost) (resolveDefaults q) env st (w, k) = ((.ok r, st'), s)) :
    ∃ c rest, st.stack = c :: rest ∧ r.cwd = (c.overlay q).cwd := by
  unfold resolveDefaults at h
  obtain ⟨c, _, _, h1, h2⟩ := exec_bind_ok.mp h
  obtain ⟨rfl, rfl, rest, hs⟩ := currentDefaults_ok h1
  obtain ⟨_, _, _, _, h2⟩ := exec_bind_ok.mp h2
  obtain ⟨_, _, _, _, h2⟩ := exec_bind_ok.mp h2
  obtain ⟨_, _, _, _, h2⟩ := exec_bind_ok.mp h2
  obtain ⟨_, _, _, _, h2⟩ := exec_bind_ok.mp h2
  obtain ⟨_, _, _, _, h2⟩ := exec_bind_ok.mp h2
  obtain ⟨_, _, _, _, h2⟩ := exec_bind_ok.mp h2
  obtain ⟨_, _, _, _, h2⟩ := exec_bind_ok.mp h2
  obtain ⟨_, _, _, _, h2⟩ := exec_bind_ok.mp h2
  cases h2
  exact ⟨c, rest, hs, rfl⟩

theorem Foresees.withDefaults {q : Settings} {body : Settings → Op α} (ha : SameAccounts sys w v)
    (hc : ∀ q' c rest, canonicalize q = .ok q' → st.stack = c :: rest → CwdFine sys v ((env.base.overlay c).overlay q').cwd)
    (hbody : ∀ a st', (∃ q' c rest r rest', canonicalize q = .ok q' ∧ st.stack = c :: rest ∧ st'.stack = r :: rest'
      ∧ r.cwd = ((env.base.overlay c).overlay q').cwd) → Foresees good sys lost w v env st' (body a)) :
    Foresees good sys lost w v env st (withDefaults q body) := by
  unfold Script.withDefaults
  intro k b st' s h hg
  obtain ⟨q', st1, s1, h1, h2⟩ := exec_bind_ok.mp h
  obtain ⟨hq, rfl, rfl⟩ := exec_ofExcept_ok h1
  obtain ⟨e1, st2, s2, h3, h4⟩ := exec_bind_ok.mp h2
  cases h3
  obtain ⟨c, st3, s3, h5, h6⟩ := exec_bind_ok.mp h4
  have h5' := h5
  obtain ⟨rfl, rfl, rest, hs⟩ := currentDefaults_ok h5'
  obtain ⟨r, st4, s4, h7, h8⟩ := exec_bind_ok.mp h6
  obtain ⟨c', rest', hs', hcwd⟩ := resolveDefaults_same_cwd h7
  obtain ⟨hw4, h9⟩ := Echoes.resolveDefaults ha (fun c' rest' hs' => by
    rw [hs] at hs'; cases hs'
    rw [overlay_absorb]
    exact hc _ _ _ hq hs) _ _ _ _ h7
  obtain ⟨w4, k4⟩ := s4
  cases (show w4 = w from hw4)
  obtain ⟨u, st5, s5, h10, h11⟩ := exec_bind_ok.mp h8
  cases h10
  rw [hs] at hs'
  cases hs'
  rw [overlay_absorb] at hcwd
  obtain ⟨l, h12⟩ := (Foresees.finally (hbody _ _ ⟨q', c, rest, r, _, hq, hs, rfl, hcwd⟩)) _ _ _ _ h11 hg
  exact ⟨l, exec_bind_ok.mpr ⟨q', _, _, (by rw [exec_ofExcept, hq]), exec_bind_ok.mpr ⟨_, _, _, rfl, exec_bind_ok.mpr ⟨c, _, _, (by unfold exec Script.currentDefaults; rw [hs]; rfl),
    exec_bind_ok.mpr ⟨_, _, _, h9, exec_bind_ok.mpr ⟨_, _, _, rfl, h12⟩⟩⟩⟩⟩⟩

theorem Foresees.returned {m : Op OpResult} (h : Foresees (·.success = true) sys lost w v env st m) :
    Foresees (fun r => ∀ x, r = some x → x.success = true) sys lost w v env st (returned m) := by
  intro k a st' s he hg
  obtain ⟨r, st1, s1, h1, h2⟩ := exec_bind_ok.mp he
  cases h2
  obtain ⟨l, h3⟩ := h _ _ _ _ h1 (hg r rfl)
  exact ⟨l, exec_bind_ok.mpr ⟨_, _, _, h3, rfl⟩⟩

theorem Foresees.operation {check : Bool} {f : Op (Option OpResult)}
    (h : Foresees (fun r => ∀ x, r = some x → x.success = true) sys lost w v env { st with op := {} } f) :
    Foresees (·.success = true) sys lost w v env st (operation check f) := by
  intro k a st' s he hg
  rw [exec_operation] at he ⊢
  match hm : exec (flaky sys lost) f { env with dry := false } { st with op := {} } (w, k) with
  | ((.error e, st1), s1) => rw [hm] at he; cases he
  | ((.ok none, st1), s1) => rw [hm] at he; cases he
  | ((.ok (some r), st1), s1) =>
    rw [hm] at he
    simp only at he
    by_cases hc : (check && !r.success) = true
    · rw [if_pos hc] at he; cases he
    · rw [if_neg hc] at he
      cases he
      obtain ⟨l, h1⟩ := h _ _ _ _ hm (fun x hx => by cases hx; exact hg)
      refine ⟨l, ?_⟩
      rw [h1]
      simp only
      rw [if_neg hc]

/-! ### Running readlink -/

theorem guard_ok {path : Str} {call : Call} : guardCall sys w path call = .ok () ↔ hasNul path = false ∧ sys.fault w call = none := by
  unfold guardCall
  cases hasNul path with
  | true => simp
  | false =>
    cases sys.fault w call <;> simp

theorem chdir_ahead {d : Str} {a b l : Loc} (hch : ∀ w w' path, sys.fault w (.chdir path) = sys.fault w' (.chdir path)) (ha : isAbs d = true)
    (hl : ∃ l n, lookup v.fs v.cwd d false = .ok (l, n) ∧ n.kind = .dir) (h : osChdir sys w a d = .ok l) : ∃ l', osChdir sys v b d = .ok l' := by
  obtain ⟨l', n, hl, hk⟩ := hl
  unfold osChdir at h ⊢
  cases hg : guardCall sys w d (.chdir d) with
  | error e => rw [hg] at h; cases h
  | ok x =>
    obtain ⟨h1, h2⟩ := guard_ok.mp hg
    have hg' : guardCall sys v d (.chdir d) = .ok () := guard_ok.mpr ⟨h1, by rw [hch v w, h2]⟩
    have hl2 : lookup v.fs b d true = .ok (l', n) := by
      rw [lookup_abs ha b v.cwd]
      exact lookup_follow (fun t ht => by rw [hk] at ht; cases ht) hl
    refine ⟨l', ?_⟩
    simp only [hg', hl2, hk, if_true]

theorem startChild_ahead {cwd : Option Str} {umask : Int} {uid gid : Option Nat} {a b c : Nat} {d : Loc}
    (hrest : w = { v with fs := w.fs, started := w.started }) (hch : ∀ w w' path, sys.fault w (.chdir path) = sys.fault w' (.chdir path))
    (hcwd : WorksIn v cwd) (h : startChild sys w cwd umask uid gid = .ok (a, b, c, d)) : ∃ d', startChild sys v cwd umask uid gid = .ok (a, b, c, d') := by
  have huid : v.uid = w.uid := by rw [hrest]
  have hgid : v.gid = w.gid := by rw [hrest]
  have hmay : ∀ a b, maySetId v a b = maySetId w a b := by intro a b; unfold maySetId; rw [huid]
  unfold startChild at h ⊢
  simp only [hmay, huid, hgid]
  cases cwd with
  | none =>
    simp only [Remote.optional] at h ⊢
    split at h
    · cases h
    · next h1 =>
      rw [if_neg h1]
      split at h
      · cases h
      · next h2 =>
        rw [if_neg h2]
        split at h
        · cases h
        · next h3 =>
          rw [if_neg h3]
          simp only [Except.ok.injEq, Prod.mk.injEq] at h
          obtain ⟨rfl, rfl, rfl, rfl⟩ := h
          exact ⟨_, rfl⟩
  | some p =>
    obtain ⟨ha, hl⟩ := hcwd p rfl
    simp only [Remote.optional] at h ⊢
    cases h0 : osChdir sys w w.cwd p with
    | error e => rw [h0] at h; cases h
    | ok l0 =>
      obtain ⟨l0', h0'⟩ := chdir_ahead (b := v.cwd) hch ha hl h0
      rw [h0] at h
      rw [h0']
      simp only [Except.map] at h ⊢
      split at h
      · cases h
      · next h1 =>
        rw [if_neg h1]
        split at h
        · cases h
        · next h2 =>
          rw [if_neg h2]
          split at h
          · cases h
          · next h3 =>
            rw [if_neg h3]
            simp only [Option.getD_some] at h ⊢
            cases h4 : osChdir sys w l0 p with
            | error e => rw [h4] at h; cases h
            | ok l1 =>
              obtain ⟨l1', h4'⟩ := chdir_ahead (b := l0') hch ha hl h4
              rw [h4] at h
              rw [h4']
              simp only [Except.ok.injEq, Prod.mk.injEq] at h
              obtain ⟨rfl, rfl, rfl, rfl⟩ := h
              exact ⟨_, rfl⟩

/-- A command that could be started on one host can be started on the other. -/
theorem plan_ahead {command : List Str} {stdin : Option Bytes} {capture : Bool} {user group umask cwd : Option Str} {proc : Proc}
    (hrest : w = { v with fs := w.fs, started := w.started }) (hf : SteadyLooks sys) (hch : ∀ w w' path, sys.fault w (.chdir path) = sys.fault w' (.chdir path))
    (hcwd : WorksIn v cwd) (h : plan sys command stdin capture user group umask cwd w = .ok proc) :
    ∃ d, plan sys command stdin capture user group umask cwd v = .ok { proc with cwd := d } := by
  have hu : v.users = w.users := by rw [hrest]
  have hg : v.groups = w.groups := by rw [hrest]
  have hsupp : v.supp = w.supp := by rw [hrest]
  have hru : ∀ u, Remote.resolveUser v u = Remote.resolveUser w u := by
    intro u; unfold Remote.resolveUser getpwnam getpwuid; rw [hu]
  have hrg : ∀ u, Remote.resolveGroup v u = Remote.resolveGroup w u := by
    intro u; unfold Remote.resolveGroup getgrnam getgrgid; rw [hg]
  unfold plan at h ⊢
  rw [funext hru, funext hrg]
  cases h1 : Remote.optional resolveOct umask with
  | error e => rw [h1] at h; cases h
  | ok um =>
    rw [h1] at h
    simp only at h ⊢
    cases h2 : Remote.optional (Remote.resolveUser w) user with
    | error e => rw [h2] at h; cases h
    | ok ug =>
      rw [h2] at h
      simp only at h ⊢
      cases h3 : Remote.optional (Remote.resolveGroup w) group with
      | error e => rw [h3] at h; cases h
      | ok g =>
        rw [h3] at h
        simp only at h ⊢
        have hisdir : cwd.any (fun c => !osIsdir sys w c) = false → cwd.any (fun c => !osIsdir sys v c) = false := by
          cases cwd with
          | none => intro _; rfl
          | some d =>
            obtain ⟨ha, l, n, hl, hk⟩ := hcwd d rfl
            simp only [Option.any_some, Bool.not_eq_false']
            intro hd
            unfold osIsdir osStat at hd ⊢
            rw [(guard_same (v := v) hf d true).1]
            cases hgd : guardCall sys w d (.stat d true) with
            | error e => rw [hgd] at hd; cases hd
            | ok x =>
              simp only [lookup_follow (fun t ht => by rw [hk] at ht; cases ht) hl, hk]
              rfl
        split at h
        · cases h
        · next hd =>
          rw [if_neg (by rw [hisdir (by simpa using hd)]; simp)]
          cases command with
          | nil => cases h
          | cons arg0 args =>
            simp only at h ⊢
            split at h
            · cases h
            · next hn =>
              rw [if_neg hn]
              cases hsc : startChild sys w cwd (um.getD 0o077) (ug.map (·.1)) (pickGid g ug) with
              | error e => rw [hsc] at h; cases e <;> cases h
              | ok x =>
                obtain ⟨a, b, c, d⟩ := x
                obtain ⟨d', hsc'⟩ := startChild_ahead hrest hch hcwd hsc
                rw [hsc] at h
                rw [hsc']
                simp only [Except.ok.injEq] at h ⊢
                subst h
                exact ⟨d', by rw [hsupp]⟩

/-- What `readlink` answers on one host it answers on the other. -/
theorem readlink_ahead {path : Str} {r : Client.Completed} {k : Nat} {st' : St} {s : World × Nat} {c : Settings} {rest : List Settings} (hexec : sys.exec = core tools)
    (hrest : w = { v with fs := w.fs, started := w.started }) (hf : SteadyLooks sys) (hsl : SteadyLinks sys tools) (ha : isAbs path = true) (hlook : SameLook w v path false)
    (hs : st.stack = c :: rest) (hcwd : WorksIn v c.cwd)
    (he : exec (flaky sys lost) (Connection.run [p!"readlink", p!"-n", path]) { env with dry := false } st (w, k) = ((.ok r, st'), s)) :
    st' = st ∧ (∃ a, s.1 = { w with started := a })
      ∧ ∃ b, exec (direct sys) (Connection.run [p!"readlink", p!"-n", path]) { env with dry := true } st v = ((.ok r, st), { v with started := b }) := by
  unfold Connection.run at he ⊢
  obtain ⟨c', st1, s1, h1, h2⟩ := exec_bind_ok.mp he
  obtain ⟨rfl, rfl, rest', hs'⟩ := currentDefaults_ok h1
  rw [hs] at hs'
  cases hs'
  rw [exec_call] at h2
  simp only [Prod.mk.injEq] at h2
  obtain ⟨⟨h3, rfl⟩, h4⟩ := h2
  have hopt : isOption path = false := by
    cases path with
    | nil => cases ha
    | cons x r =>
      have hx : x = 47 := by simpa [isAbs] using ha
      subst hx
      rfl
  have hparse : parseTool [p!"readlink", p!"-n", path] = some (.readlink path) := by
    simp only [parseTool, hopt]; rfl
  -- over the connection that did not break
  have hw : (Client.Connector.run [p!"readlink", p!"-n", path] none true true (pick c.asUser none) (pick c.asGroup none) (pick c.umask none)
      (pick c.cwd none)).run (direct sys) w = (.ok r, s.1) := by
    simp only [Client.Connector.run, Prog.run] at h3 h4 ⊢
    unfold flaky at h3 h4
    cases hl : lost k with
    | none =>
      simp only [hl] at h3 h4
      rw [h3, ← h4]
    | some b => cases b <;> simp [hl] at h3
  rw [Client.run_eq] at hw
  cases hp : plan sys [p!"readlink", p!"-n", path] none true (pick c.asUser none) (pick c.asGroup none) (pick c.umask none) (pick c.cwd none) w with
  | error e =>
    exfalso
    rw [hp] at hw
    simp only [Prod.mk.injEq] at hw
    obtain ⟨ha, _⟩ := hw
    rcases Client.plan_error hp with ⟨f, m, rfl⟩ | ⟨m, rfl⟩ | ⟨e, rfl⟩
    · simp only [Client.refused, Client.unpackResponse] at ha
      cases hga : Packet.getattr _ f <;> rw [hga] at ha <;> cases ha
    · cases ha
    · cases e with
      | osError n s m => cases n <;> cases ha
      | _ => cases ha
  | ok proc =>
    obtain ⟨d, hp'⟩ := plan_ahead hrest hf hsl.chdir (cwd := pick c.cwd none) hcwd hp
    rw [hp] at hw
    obtain ⟨hargv, _⟩ := plan_argv hp
    simp only [hexec] at hw
    obtain ⟨m1, m2⟩ := hsl.readlink proc d { w with started := proc :: w.started } { v with started := { proc with cwd := d } :: v.started } (by rw [hargv]; rfl)
    have hlookw : lookup w.fs proc.cwd path false = lookup w.fs w.cwd path false := lookup_abs ha ..
    have hlookv : lookup v.fs d path false = lookup v.fs v.cwd path false := lookup_abs ha ..
    unfold core at hw
    cases hm : tools.missing proc { w with started := proc :: w.started } with
    | some e => rw [hm] at hw; cases hw
    | none =>
      rw [hm] at hw m1
      simp only [hargv, hparse, runTool, runReadlink, hlookw] at hw
      cases hlw : lookup w.fs w.cwd path false with
      | error e =>
        rw [hlw] at hw
        simp [broken, Client.delivered] at hw
      | ok x =>
        obtain ⟨l, n⟩ := x
        rw [hlw] at hw
        unfold SameLook at hlook
        rw [hlw] at hlook
        cases hlv : lookup v.fs v.cwd path false with
        | error e => rw [hlv] at hlook; cases hlook
        | ok y =>
          obtain ⟨l', n'⟩ := y
          rw [hlv] at hlook
          cases (show n' = n from by simpa [Except.map] using hlook)
          simp only at hw
          cases hk : n.kind with
          | link t =>
            rw [hk] at hw
            simp only at hw
            cases hfa : tools.fault proc { w with started := proc :: w.started } 0 with
            | some m => rw [hfa] at hw; simp [broken, Client.delivered] at hw
            | none =>
              rw [hfa] at hw m2
              simp only [Prod.mk.injEq] at hw
              obtain ⟨h5, h6⟩ := hw
              refine ⟨rfl, ⟨_, h6.symm⟩, { proc with cwd := d } :: v.started, exec_bind_ok.mpr ⟨c, st1, v, (by unfold exec currentDefaults; rw [hs]; rfl), ?_⟩⟩
              have hcore : core tools { proc with cwd := d } { v with started := { proc with cwd := d } :: v.started }
                  = (.done ((Py.encodeEscape t).getD []) [] 0, { v with started := { proc with cwd := d } :: v.started }) := by
                unfold core
                rw [m1]
                simp only
                rw [hargv, hparse]
                simp only [runTool, runReadlink, hlookv, hlv, hk]
                rw [← hargv, m2]
              rw [exec_call, Client.run_eq, hp', hexec]
              simp only [hcore, h5]
          | _ => rw [hk] at hw; simp [broken, Client.delivered] at hw

theorem link_foresees {path target : Str} {present touch : Bool} {owner group : Option Str} {check : Bool} (hexec : sys.exec = core tools)
    (hrest : w = { v with fs := w.fs, started := w.started }) (hf : SteadyLooks sys) (hsl : SteadyLinks sys tools) (hlook : SameLook w v path false) (ha : SameAccounts sys w v)
    (hc : ∀ c rest, st.stack = c :: rest → CwdFine sys v (env.base.overlay c).cwd) (hwk : ∀ c rest, st.stack = c :: rest → WorksIn v (env.base.overlay c).cwd)
    (hs : SameAnswer sys w v (.stat path false false)) :
    Foresees (·.success = true) sys lost w v env st (link path target present touch owner group check) := by
  refine .operation (.bind (.ofExcept _) fun _ st1 h1 => .ite (Echoes.raise _).foretold.foresees (.returned (.withDefaults ha ?_ fun attr st2 hst2 => ?_)))
  · obtain ⟨_, _, h1⟩ := h1
    obtain ⟨_, rfl, _⟩ := exec_ofExcept_ok h1
    intro q' c rest hq hst
    rw [(canonicalize_ok hq)]
    exact hc c rest hst
  · obtain ⟨_, _, h1⟩ := h1
    obtain ⟨habs, rfl, _⟩ := exec_ofExcept_ok h1
    have habs := checkAbsolutePath_ok habs
    obtain ⟨q', c, rest, r, rest', hq, hst, hst2, hcwd⟩ := hst2
    have hwr : WorksIn v r.cwd := by
      rw [hcwd, canonicalize_ok hq]
      exact hwk c rest hst
    refine .bind (.finalState _) fun _ st3 h3 => .bind (.stat hs) fun x st4 h4 => ?_
    have hst4 : st4.stack = r :: rest' := by
      obtain ⟨k3, s3, h3⟩ := h3
      obtain ⟨k4, s4, h4⟩ := h4
      have e3 : st3.stack = st2.stack := by
        unfold exec finalState at h3
        cases hn : st2.op.hasNested with
        | true => rw [hn] at h3; cases h3
        | false =>
          rw [hn] at h3
          cases hfi : st2.op.final with
          | none => rw [hfi] at h3; cases h3; rfl
          | some y => rw [hfi] at h3; cases h3
      have e4 : st4 = st3 := by
        unfold Connection.stat at h4
        rw [exec_call] at h4
        exact (congrArg (fun x => x.1.2) h4).symm
      rw [e4, e3, hst2]
    cases x with
    | none => exact Foretold.foresees (.bind (.initialState _) fun _ _ _ => .settle (fun _ => .pure _) (keeps_linkActions _ _ _ _))
    | some x =>
      refine .ite (Echoes.failure _).foretold.foresees ?_
      intro k a st' s he hg
      obtain ⟨res, st5, s5, h5, h6⟩ := exec_bind_ok.mp he
      obtain ⟨rfl, ⟨a1, hw1⟩, b1, hd1⟩ := readlink_ahead hexec hrest hf hsl habs hlook hst4 hwr h5
      obtain ⟨w5, k5⟩ := s5
      cases hw1
      have hgo : Foretold (·.success = true) sys lost { w with started := a1 } { v with started := b1 } env st5 (do
          let existing ← Op.ofExcept (decodeStrict (res.stdout.getD []))
          initialState (linkState true (some existing) (some x.owner) (some x.group) false)
          settle (Op.pure ()) (linkActions path target present attr)) :=
        .bind (.ofExcept _) fun _ _ _ => .bind (.initialState _) fun _ _ _ => .settle (fun _ => .pure _) (keeps_linkActions _ _ _ _)
      exact ⟨b1, exec_bind_ok.mpr ⟨_, _, _, hd1, hgo _ _ _ _ h6 hg⟩⟩

theorem link_cwd {path target : Str} {present touch check : Bool} {owner group : Option Str} {k : Nat} {s : World × Nat} {st' : St} {r : OpResult}
    (he : exec (flaky sys lost) (link path target present touch owner group check) { env with dry := false } st (w, k) = ((.ok r, st'), s)) :
    ∃ c rest, st.stack = c :: rest ∧ CwdFine sys w (env.base.overlay c).cwd := by
  obtain ⟨x, st1, hm⟩ := operation_inner he
  obtain ⟨_, st2, ⟨w2, k2⟩, h1, h2⟩ := exec_bind_ok.mp hm
  obtain ⟨_, rfl, hs2⟩ := exec_ofExcept_ok h1
  cases hs2
  split at h2
  · cases h2
  · obtain ⟨_, _, _, h3, _⟩ := exec_bind_ok.mp h2
    obtain ⟨c, rest, hs, q', hq, hf⟩ := withDefaults_cwd h3
    rw [canonicalize_ok hq] at hf
    exact ⟨c, rest, hs, hf⟩

/-! ### Scripts -/

variable {ts : List Task} {done : Task → Prop}

theorem has_target {names : List Str} {target : Str} (hnames : ∀ n ∈ names, FileName n)
    (hplain : ∀ p s, names = p ++ s → s ≠ [] → ∀ n target, w.fs p = some n → n.kind ≠ .link target) (hlink : HasLink target (w.fs names)) :
    HasTarget w (pathOf names) target ∨ NotToDirectory w (pathOf names) := by
  cases hres : resolve w.fs w.cwd (pathOf names) false with
  | error e =>
    refine .inr fun l n hlk => ?_
    unfold lookup at hlk
    rw [resolve_error_follow hres] at hlk
    cases hlk
  | ok l =>
    obtain ⟨rfl, _⟩ := denotes_plain hnames hplain hres
    cases hw : w.fs l with
    | none =>
      refine .inr fun l' n hlk => absurd hlk (lookup_missing ?_ _)
      unfold lookup
      rw [hres]
      simp only [hw]
    | some n =>
      obtain ⟨s, hk, he⟩ := hlink n hw
      exact .inl ⟨l, n, s, hres, hw, hk, he⟩

/-- One operation in the dry run beside the real one. -/
theorem task_foresees {t : Task} {st1 st' : St} {k : Nat} {s : World × Nat} {r : OpResult} (hts : Tasks sys v ts) (hm : PlainModes env st)
    (hf : SteadyLooks sys) (hr : Rooted v) (hc : ∀ c rest, st.stack = c :: rest → CwdFine sys v (env.base.overlay c).cwd)
    (hlk : t.wish.isLink = true → SteadyLinks sys tools ∧ ∀ c rest, st.stack = c :: rest → WorksIn v (env.base.overlay c).cwd)
    (h : Going sys tools env st ts v done w) (hfresh : w.fs t.names = v.fs t.names) (hst : st1.stack = st.stack) (ht : t ∈ ts)
    (he : exec (flaky sys lost) t.op { env with dry := false } st1 (w, k) = ((.ok r, st'), s)) :
    ∃ l, exec (direct sys) t.op { env with dry := true } st1 v = ((.ok r, st'), { v with started := l }) := by
  cases hil : t.wish.isLink with
  | false => exact ⟨v.started, task_ahead hts hm hf hr hc h hfresh hst ht hil he⟩
  | true =>
    obtain ⟨hsl, hwk⟩ := hlk hil
    have hacc := h.untouched.accounts
    have hplain := h.plain hts ht
    have hnames := hts.names t ht
    have hsame := sameAccounts_of (sys := sys) hacc.1.symm hacc.2.symm
    have hcw : ∀ c rest, st1.stack = c :: rest → CwdFine sys v (env.base.overlay c).cwd := fun c rest hs => hc c rest (hst ▸ hs)
    have hwk1 : ∀ c rest, st1.stack = c :: rest → WorksIn v (env.base.overlay c).cwd := fun c rest hs => hwk c rest (hst ▸ hs)
    have hproper := hts.proper t ht
    have hways : ∀ p s, t.names = p ++ s → s ≠ [] → v.fs p ≠ none → shape (w.fs p) = shape (v.fs p) := fun p s he hs => (h.ways t ht p s he hs).1
    have hleads : (∀ p s, t.names = p ++ s → s ≠ [] → shape (w.fs p) = .dir) → Leads v (pathOf t.names) t.names := fun hd =>
      leads_plain hr hnames fun p s he hs hv => (hways p s he hs hv).symm.trans (hd p s he hs)
    cases hproper with
    | link names target owner group htext =>
      have hlink : HasLink target (w.fs names) := h.fine _ ht target owner group rfl (hts.links _ ht target owner group rfl)
      have hgood : r.success = true := operation_checked he
      obtain ⟨⟨h1, _⟩, _⟩ := post_exec (link_post (env := { env with dry := false }) (st := st1) h.ordinary (plainModes_congr (env := env) hst hm) htext
        (direct_plain hnames hplain) (fun _ => has_target hnames hplain hlink)) he
      obtain ⟨_, l, _, hl, _⟩ := (h1 hgood rfl).1 rfl
      obtain ⟨rfl, hdirs⟩ := denotes_plain hnames hplain hl
      obtain ⟨hl1, _⟩ := (hleads hdirs).same hl hfresh
      exact link_foresees h.ordinary.exec h.untouched.rest hf hsl hl1 hsame hcw hwk1 (stat_same hf hacc.1.symm hacc.2.symm hl1 nofun) _ _ _ _ he hgood
    | noLink names target owner group htext =>
      have hgood : r.success = true := operation_checked he
      obtain ⟨⟨h1, _⟩, _⟩ := post_exec (link_post (present := false) (env := { env with dry := false }) (st := st1) h.ordinary (plainModes_congr (env := env) hst hm) htext
        (direct_plain hnames hplain) (fun h => nomatch h)) he
      have hl1 : SameLook w v (pathOf names) false := by
        rcases (h1 hgood rfl).2 rfl with ⟨hlk, _⟩ | ⟨l, n, _, hl, _⟩
        · exact missing_same (h.rooted hr) hnames hplain hways hfresh hlk
        · obtain ⟨rfl, hdirs⟩ := denotes_plain hnames hplain hl
          exact ((hleads hdirs).same hl hfresh).1
      exact link_foresees h.ordinary.exec h.untouched.rest hf hsl hl1 hsame hcw hwk1 (stat_same hf hacc.1.symm hacc.2.symm hl1 nofun) _ _ _ _ he hgood
    | _ => cases hil

theorem cwdFine_started {c : Option Str} {l : List Proc} (hf : SteadyLooks sys) (h : CwdFine sys v c) : CwdFine sys { v with started := l } c := by
  intro env' st'
  have h0 := h env' st'
  rcases c with _ | _ | ⟨a, c⟩
  · rfl
  · rfl
  · have hsa : SameAnswer sys v { v with started := l } (.stat (a :: c) false false) := stat_same (w := v) (v := { v with started := l }) hf rfl rfl rfl (fun h => nomatch h)
    unfold checkCwd at h0 ⊢
    obtain ⟨r, st1, w1, h1, h2⟩ := exec_bind_ok.mp h0
    unfold Connection.stat at h1 ⊢
    rw [exec_call] at h1
    simp only [Client.Connector.stat, Prog.run, Prod.mk.injEq] at h1
    obtain ⟨⟨h3, rfl⟩, _⟩ := h1
    refine exec_bind_ok.mpr ⟨r, st', { v with started := l }, ?_, ?_⟩
    · rw [exec_call]
      simp only [Client.Connector.stat, Prog.run, Prod.mk.injEq]
      rw [hsa.answer, direct_query _ rfl]
      exact ⟨⟨h3, trivial⟩, rfl⟩
    · cases r with
      | none => cases h2
      | some x =>
        simp only at h2 ⊢
        split at h2
        · cases h2
        · next hx => rw [if_neg hx]; rfl

/-- All of them. -/
theorem deploy_foresees (hts : Tasks sys v ts) (hm : PlainModes env st) (hf : SteadyLooks sys) (hr : Rooted v)
    (hc : ∀ c rest, st.stack = c :: rest → CwdFine sys v (env.base.overlay c).cwd)
    (hlk : (∃ t ∈ ts, t.wish.isLink = true) → SteadyLinks sys tools ∧ ∀ c rest, st.stack = c :: rest → WorksIn v (env.base.overlay c).cwd) :
    ∀ (todo : List Task) {done : Task → Prop} {st1 st' : St} {w : World} {k : Nat} {s : World × Nat} {rs : List OpResult} {l : List Proc}, st1.stack = st.stack →
      Going sys tools env st ts v done w → (∀ t ∈ todo, w.fs t.names = v.fs t.names) →
      (∀ t ∈ todo, t ∈ ts) → (todo.map (·.names)).Nodup → (∀ d, done d → d.names ∉ todo.map (·.names)) →
      exec (flaky sys lost) (deploy (todo.map (·.op))) { env with dry := false } st1 (w, k) = ((.ok rs, st'), s) →
      ∃ l', exec (direct sys) (deploy (todo.map (·.op))) { env with dry := true } st1 { v with started := l } = ((.ok rs, st'), { v with started := l' })
  | [], done, st1, st', w, k, s, rs, l, hst, hg, hfresh, hin, hnd, hnew, he => by
    rw [List.map_nil, deploy] at he ⊢
    cases he
    exact ⟨l, rfl⟩
  | t :: todo, done, st1, st', w, k, s, rs, l, hst, hg, hfresh, hin, hnd, hnew, he => by
    rw [List.map_cons, deploy] at he ⊢
    rw [List.map_cons, List.nodup_cons] at hnd
    have hnew' : ∀ d, done d → d.names ≠ t.names := fun d hd he => hnew d hd (by rw [he]; simp)
    obtain ⟨r, st2, s2, h1, h2⟩ := exec_bind_ok.mp he
    have hts' : Tasks sys { v with started := l } ts := ⟨hts.proper, hts.names, hts.distinct, hts.plain, hts.apart, hts.links, hts.rooted⟩
    have hg' : Going sys tools env st ts { v with started := l } done w :=
      ⟨hg.ordinary, hg.ways, ⟨hg.untouched.fs, hg.untouched.rest⟩, fun t ht m o g e => { hg.kept t ht m o g e with }, hg.fine, hg.rooted, hg.member, hg.granted, hg.tame⟩
    obtain ⟨l1, hd1⟩ := task_foresees hts' hm hf hr (fun c rest hs => cwdFine_started hf (hc c rest hs)) (fun hi => hlk ⟨t, hin t (by simp), hi⟩) hg' (hfresh t (by simp)) hst (hin t (by simp)) h1
    obtain ⟨⟨hst2, _, hstep⟩, hg2⟩ := post_exec (task_post (env := { env with dry := false }) (st := st) hts (show PlainModes { env with dry := false } st from hm) rfl
      (show Going sys tools { env with dry := false } st ts v done w from { hg with }) hst (hin t (by simp)) hnew') h1
    obtain ⟨rs', st3, s3, h3, h4⟩ := exec_bind_ok.mp h2
    cases h4
    obtain ⟨l2, hd2⟩ := deploy_foresees hts hm hf hr hc hlk todo (l := l1) hst2 (show Going sys tools env st ts v _ s2.1 from { hg2 with }) (fun t' ht' => by
      rw [hstep.untouched.fs _ (hts.disjoint (hin t' (by simp [ht'])) (hin t (by simp)) (fun h => hnd.1 (by rw [← h]; exact List.mem_map.mpr ⟨t', ht', rfl⟩)) (.inl rfl))]
      exact hfresh t' (by simp [ht'])) (fun t h => hin t (by simp [h])) hnd.2 (by
      rintro d (hd | rfl) hc
      · exact hnew d hd (by rw [List.map_cons]; exact List.mem_cons_of_mem _ hc)
      · exact hnd.1 hc) h3
    exact ⟨l2, exec_bind_ok.mpr ⟨_, _, _, hd1, exec_bind_ok.mpr ⟨_, _, _, hd2, rfl⟩⟩⟩

end
end Verif.Ops
