/-
Which commands `git.repo` runs, and when, whatever the host answers.
-/
import Verif.Ops.GitLemmas

namespace Verif.Ops

open Script Remote
open Client (Prog Completed)
open Wire (Packet)

/-- Every step of a trace is fine, given what came before. -/
def Steps (P : Trace → Packet × Except Exn Packet → Prop) : Trace → Trace → Prop
  | _, [] => True
  | pre, x :: r => P pre x ∧ Steps P (pre ++ [x]) r

theorem steps_append {P : Trace → Packet × Except Exn Packet → Prop} {pre t1 t2 : Trace} :
    Steps P pre (t1 ++ t2) ↔ Steps P pre t1 ∧ Steps P (pre ++ t1) t2 := by
  induction t1 generalizing pre with
  | nil => simp [Steps]
  | cons x t1 ih => simp [Steps, ih, and_assoc]

theorem steps_at {P : Trace → Packet × Except Exn Packet → Prop} {t1 t2 : Trace} {x : Packet × Except Exn Packet} (h : Steps P [] (t1 ++ x :: t2)) : P t1 x := by
  rw [steps_append] at h
  exact h.2.1

section
variable {env : Env} {st : St}

theorem Traces.steps {α β : Type} {m : Op α} {f : α → Op β} {P : Trace → Packet × Except Exn Packet → Prop} {R : Trace → Except Exn β → Prop} {pre : Trace}
    (h : Traces m env st fun t r st' => Steps P pre t ∧ (∀ e, r = .error e → R (pre ++ t) (.error e)) ∧
      ∀ a, r = .ok a → Traces (f a) env st' fun t' r' _ => Steps P (pre ++ t) t' ∧ R ((pre ++ t) ++ t') r') :
    Traces (m >>= f) env st fun t r _ => Steps P pre t ∧ R (pre ++ t) r := by
  refine Traces.bind (h.mono ?_)
  rintro t r st' ⟨h1, h2, h3⟩
  refine ⟨fun e he => ⟨h1, h2 e he⟩, fun a ha => (h3 a ha).mono ?_⟩
  rintro t' r' _ ⟨k1, k2⟩
  exact ⟨steps_append.mpr ⟨h1, k1⟩, by rw [← List.append_assoc]; exact k2⟩

theorem local_finalState (d : Dict) (env : Env) (st : St) : ∃ r st', finalState d env st = .ret (r, st') := by
  unfold finalState
  split
  · exact ⟨_, _, rfl⟩
  · split <;> exact ⟨_, _, rfl⟩

theorem local_initialState (d : Dict) (env : Env) (st : St) : ∃ r st', initialState d env st = .ret (r, st') := by
  unfold initialState
  split
  · exact ⟨_, _, rfl⟩
  · split <;> exact ⟨_, _, rfl⟩

theorem local_unchanged (b : Bool) (env : Env) (st : St) : ∃ r st', unchanged b env st = .ret (r, st') := by
  unfold unchanged
  split
  · split <;> exact ⟨_, _, rfl⟩
  · exact ⟨_, _, rfl⟩

theorem local_ofExcept {α : Type} (x : Except Exn α) (env : Env) (st : St) : ∃ r st', Op.ofExcept x env st = .ret (r, st') := by
  cases x <;> exact ⟨_, _, rfl⟩

theorem local_dry (env : Env) (st : St) : ∃ r st', Script.dry env st = .ret (r, st') := ⟨_, _, rfl⟩

theorem local_success (env : Env) (st : St) : ∃ r st', success env st = .ret (r, st') := by
  rcases success_cases env st with ⟨e, h⟩ | ⟨i, f, _, _, h⟩ <;> exact ⟨_, _, h⟩

theorem Traces.stat {path : Str} {fo sha : Bool} {Q : Trace → Except Exn (Option Client.StatResult) → St → Prop}
    (h0 : ∀ e, Q [(.stat path fo sha, .error e)] (if e.isValueError then .ok none else .error e) st)
    (h1 : ∀ a b c d e f g h, ∀ s, Q [(.stat path fo sha, .ok (.statResult a b c d e f g h))] (.ok (some s)) st)
    (h2 : ∀ pk e, Q [(.stat path fo sha, .ok pk)] (.error e) st) : Traces (Connection.stat path fo sha) env st Q := by
  intro t r st' he
  unfold Connection.stat at he
  obtain ⟨h3, rfl⟩ := execution_call.mp he
  unfold Client.Connector.stat at h3
  cases h3 with
  | req _ _ a t' _ h4 =>
    cases h4
    cases a with
    | error e => exact h0 e
    | ok pk => cases pk <;> first | exact h1 .. | exact h2 ..

end

theorem saidExists_run {t : Trace} {pk : Packet} {x : Except Exn Packet} {argv : List Str} {path : Str} (h : argvOf pk = some argv)
    (hs : SaidExists (t ++ [(pk, x)]) path) : SaidExists t path := by
  obtain ⟨a, b, c, d, e, f, g, h', i, j, hm⟩ := hs
  refine ⟨a, b, c, d, e, f, g, h', i, j, ?_⟩
  rcases List.mem_append.mp hm with hm | hm
  · exact hm
  · simp only [List.mem_singleton, Prod.mk.injEq] at hm
    rw [← hm.1] at h; cases h

theorem saidOrigin_mono {t t' : Trace} {path o : Str} (h : SaidOrigin t path o) : SaidOrigin (t ++ t') path o := by
  obtain ⟨a, b, c, d, e, f, g, i, hm, ho⟩ := h
  exact ⟨a, b, c, d, e, f, g, i, List.mem_append_left _ hm, ho⟩

/-- What is known before a command is run. -/
def RepoStep (a : RepoArgs) (dry : Bool) (pre : Trace) (x : Packet × Except Exn Packet) : Prop :=
  ∀ argv, argvOf x.1 = some argv →
    (OnlyAsks a argv ∨ (dry = false ∧ (SaidExists pre a.path → SaidOrigin pre a.path a.url)))
    ∧ (a.update = false → SaidExists pre a.path → argv = [p!"git", p!"-C", a.path, p!"rev-parse", p!"HEAD"])

def configCommand (a : RepoArgs) : List Str := [p!"git", p!"-C", a.path, p!"config", p!"--get", p!"remote.origin.url"]

theorem saidOrigin_run {t : Trace} {pk : Packet} {x : Except Exn Packet} {argv : List Str} {a : RepoArgs} {o : Str} (h : argvOf pk = some argv)
    (hs : SaidOrigin (t ++ [(pk, x)]) a.path o) : SaidOrigin t a.path o ∨ (argv = configCommand a ∧ ∃ c, completed true x = .ok c ∧ outputText c.stdout = o) := by
  obtain ⟨a', b, c, d, e, f, g, i, hm, ho⟩ := hs
  rcases List.mem_append.mp hm with hm | hm
  · exact .inl ⟨a', b, c, d, e, f, g, i, hm, ho⟩
  · simp only [List.mem_singleton, Prod.mk.injEq] at hm
    obtain ⟨rfl, rfl⟩ := hm
    cases h
    exact .inr ⟨rfl, _, rfl, ho⟩

theorem saidOrigin_of {t : Trace} {pk : Packet} {x : Except Exn Packet} {a : RepoArgs} {c : Completed} (h : argvOf pk = some (configCommand a))
    (hx : completed true x = .ok c) : SaidOrigin (t ++ [(pk, x)]) a.path (outputText c.stdout) := by
  cases pk with
  | processRun argv stdin capture user group umask cwd =>
    cases h
    match x, hx with
    | .ok (.processCompleted out err code), hx =>
      simp only [completed] at hx
      split at hx
      · cases hx
      · rename_i hc
        have hc : code = 0 := by simpa using hc
        subst hc
        cases hx
        exact ⟨_, _, _, _, _, _, _, _, List.mem_append_right _ (List.mem_singleton.mpr rfl), rfl⟩
  | _ => cases h

/-- What the answers about the origin mean for the result. -/
def RepoResult (a : RepoArgs) (t : Trace) (r : Except Exn OpResult) : Prop :=
  ∀ o, SaidOrigin t a.path o → o ≠ a.url → ∀ res, r = .ok res → res.success = false

section
variable {env : Env} {st : St} {a : RepoArgs}

/-- A command whose output is used. -/
theorem run_steps {α : Type} {argv : List Str} {pre : Trace} {f : Completed → Op α} {P : Trace → Packet × Except Exn Packet → Prop}
    {R : Trace → Except Exn α → Prop} (hP : ∀ x : Packet × Except Exn Packet, argvOf x.1 = some argv → P pre x)
    (hR : ∀ t e, R t (.error e))
    (h : ∀ pk x c, argvOf pk = some argv → completed true x = .ok c →
      Traces (f c) env st fun t r _ => Steps P (pre ++ [(pk, x)]) t ∧ R ((pre ++ [(pk, x)]) ++ t) r) :
    Traces (Connection.run argv >>= f) env st fun t r _ => Steps P pre t ∧ R (pre ++ t) r := by
  refine Traces.steps (Traces.asks (asks_run argv true) ?_ ?_)
  · intro e
    exact ⟨trivial, fun _ _ => hR _ _, fun _ h => (by cases h)⟩
  · intro pk x hpk
    exact ⟨⟨hP _ hpk, trivial⟩, fun _ _ => hR _ _, fun c hc => h pk x c hpk hc⟩

theorem runCommand_steps {α : Type} {argv : List Str} {pre : Trace} {f : Unit → Op α} {P : Trace → Packet × Except Exn Packet → Prop}
    {R : Trace → Except Exn α → Prop} (hP : ∀ x : Packet × Except Exn Packet, argvOf x.1 = some argv → P pre x)
    (hR : ∀ t e, R t (.error e))
    (h : ∀ pk x, argvOf pk = some argv →
      Traces (f ()) env st fun t r _ => Steps P (pre ++ [(pk, x)]) t ∧ R ((pre ++ [(pk, x)]) ++ t) r) :
    Traces (runCommand argv >>= f) env st fun t r _ => Steps P pre t ∧ R (pre ++ t) r := by
  refine Traces.steps (Traces.asks ((asks_run argv true).map fun _ => ()) ?_ ?_)
  · intro e
    exact ⟨trivial, fun _ _ => hR _ _, fun _ h => (by cases h)⟩
  · intro pk x hpk
    exact ⟨⟨hP _ hpk, trivial⟩, fun _ _ => hR _ _, fun c _ => h pk x hpk⟩

theorem local_steps {α β : Type} {m : Op β} {pre : Trace} {f : β → Op α} {P : Trace → Packet × Except Exn Packet → Prop} {R : Trace → Except Exn α → Prop}
    (hm : ∀ env st, ∃ r st', m env st = .ret (r, st')) (hR : ∀ t e, R t (.error e))
    (h : ∀ b st', m env st = .ret (.ok b, st') → Traces (f b) env st' fun t r _ => Steps P pre t ∧ R (pre ++ t) r) :
    Traces (m >>= f) env st fun t r _ => Steps P pre t ∧ R (pre ++ t) r := by
  refine Traces.steps (Traces.local_ hm ?_)
  intro r st' hr
  refine ⟨trivial, fun _ _ => hR _ _, fun b hb => ?_⟩
  subst hb
  rw [List.append_nil]
  exact h b st' hr

theorem success_steps {pre : Trace} {P : Trace → Packet × Except Exn Packet → Prop} {R : Trace → Except Exn OpResult → Prop} (hR : ∀ t e, R t (.error e))
    (h : ∀ res, R pre (.ok res)) : Traces success env st fun t r _ => Steps P pre t ∧ R (pre ++ t) r := by
  refine Traces.local_ local_success ?_
  intro r st' _
  rw [List.append_nil]
  refine ⟨trivial, ?_⟩
  cases r with
  | ok x => exact h x
  | error e => exact hR _ e

theorem result_error (t : Trace) (e : Exn) : RepoResult a t (.error e) := fun _ _ _ _ h => (by cases h)

/-- Nothing has been said about the origin, or only that it is the right one. -/
def RightOrigin (a : RepoArgs) (t : Trace) : Prop := ∀ o, SaidOrigin t a.path o → o = a.url

theorem result_right {t : Trace} (h : RightOrigin a t) (r : Except Exn OpResult) : RepoResult a t r := fun o ho hne => absurd (h o ho) hne

theorem right_run {t : Trace} {pk : Packet} {x : Except Exn Packet} {argv : List Str} (h : RightOrigin a t) (hp : argvOf pk = some argv)
    (hne : argv ≠ configCommand a) : RightOrigin a (t ++ [(pk, x)]) := by
  intro o ho
  rcases saidOrigin_run hp ho with h' | ⟨h', _⟩
  · exact h o h'
  · exact absurd h' hne

theorem pull_ne : pullCommand a ≠ configCommand a := by
  unfold pullCommand configCommand
  simp
theorem submodule_ne : submoduleCommand a ≠ configCommand a := by
  unfold submoduleCommand configCommand
  simp
theorem clone_ne : cloneCommand a ≠ configCommand a := by
  unfold cloneCommand configCommand
  simp
theorem revParse_ne : [p!"git", p!"-C", a.path, p!"rev-parse", p!"HEAD"] ≠ configCommand a := by
  unfold configCommand
  simp
theorem lsRemote_ne {ref : Str} : [p!"git", p!"ls-remote", p!"--exit-code", p!"--", a.url, ref] ≠ configCommand a := by
  unfold configCommand
  simp

theorem submodules_steps {pre : Trace} (hup : a.update = false → ¬ SaidExists pre a.path) (hd : env.dry = false)
    (ho : SaidExists pre a.path → SaidOrigin pre a.path a.url) (hr : RightOrigin a pre) :
    Traces (submodules a >>= fun _ => success) env st fun t r _ => Steps (RepoStep a env.dry) pre t ∧ RepoResult a (pre ++ t) r := by
  unfold submodules
  split
  · refine runCommand_steps (R := RepoResult a) (fun x hx argv h => ⟨.inr ⟨hd, ho⟩, fun h1 h2 => absurd h2 (hup h1)⟩) result_error ?_
    intro pk x hp
    exact success_steps result_error fun res => result_right (right_run hr hp submodule_ne) _
  · exact local_steps (R := RepoResult a) (fun env st => ⟨_, _, rfl⟩) result_error fun b st' _ => success_steps result_error fun res => result_right hr _

theorem repoSettle_steps {pre : Trace} {ex : Bool} {cur : Option Str} (hex : SaidExists pre a.path → ex = true) (hr : RightOrigin a pre) :
    Traces (repoSettle a ex cur) env st fun t r _ => Steps (RepoStep a env.dry) pre t ∧ RepoResult a (pre ++ t) r := by
  unfold repoSettle
  split
  · refine local_steps (R := RepoResult a) (local_finalState _) result_error ?_
    intro b st' _
    exact success_steps result_error fun res => result_right hr _
  · rename_i hup
    have hup : a.update = false → ¬ SaidExists pre a.path := by
      intro h1 h2
      rw [hex h2, h1] at hup
      exact hup rfl
    refine run_steps (R := RepoResult a) (fun x hx argv h => ⟨.inl (.inr (.inr ?_)), fun h1 h2 => absurd h2 (hup h1)⟩) result_error ?_
    · rw [h] at hx; exact ⟨_, Option.some.inj hx⟩
    · intro pk1 x1 c1 hp1 hc1
      have hr1 := right_run (x := x1) hr hp1 lsRemote_ne
      have hex1 : SaidExists (pre ++ [(pk1, x1)]) a.path → ex = true := fun h => hex (saidExists_run hp1 h)
      have hup1 : a.update = false → ¬ SaidExists (pre ++ [(pk1, x1)]) a.path := fun h1 h2 => hup h1 (saidExists_run hp1 h2)
      generalize pre ++ [(pk1, x1)] = pre1 at hr1 hex1 hup1
      refine local_steps (R := RepoResult a) (local_ofExcept _) result_error fun newest st1 _ => ?_
      refine local_steps (R := RepoResult a) (local_finalState _) result_error fun _ st2 _ => ?_
      refine local_steps (R := RepoResult a) (local_unchanged _) result_error fun u st3 _ => ?_
      split
      · exact success_steps result_error fun res => result_right hr1 _
      · refine local_steps (R := RepoResult a) local_dry result_error fun d st4 hd => ?_
        have hd : d = env.dry := by
          have : (.ret (.ok env.dry, st3) : Prog (Except Exn Bool × St)) = .ret (.ok d, st4) := hd
          cases this; rfl
        subst hd
        split
        · exact success_steps result_error fun res => result_right hr1 _
        · rename_i hdry
          replace hdry : env.dry = false := by simpa using hdry
          split
          · rename_i hnex
            have hnot : ¬ SaidExists pre1 a.path := fun h => by rw [hex1 h] at hnex; cases hnex
            refine runCommand_steps (R := RepoResult a) (fun x hx argv h => ⟨.inr ⟨hdry, fun h => absurd h hnot⟩, fun _ h2 => absurd h2 hnot⟩) result_error ?_
            intro pk2 x2 hp2
            have hnot2 : ¬ SaidExists (pre1 ++ [(pk2, x2)]) a.path := fun h => hnot (saidExists_run hp2 h)
            exact submodules_steps (fun _ => hnot2) hdry (fun h => absurd h hnot2) (right_run hr1 hp2 clone_ne)
          · refine run_steps (R := RepoResult a) (fun x hx argv h => ⟨.inl (.inr (.inl ?_)), fun h1 h2 => absurd h2 (hup1 h1)⟩) result_error ?_
            · rw [h] at hx; exact Option.some.inj hx
            · intro pk2 x2 c2 hp2 hc2
              have hup2 : a.update = false → ¬ SaidExists (pre1 ++ [(pk2, x2)]) a.path := fun h1 h2 => hup1 h1 (saidExists_run hp2 h2)
              have hsaid := saidOrigin_of (t := pre1) hp2 hc2
              split
              · refine Traces.local_ (fun env st => ⟨_, _, rfl⟩) ?_
                intro r st' hr
                refine ⟨trivial, ?_⟩
                intro o _ _ res hres
                subst hres
                have hr : (.ret (.ok _, _) : Prog (Except Exn OpResult × St)) = .ret (.ok res, st') := hr
                cases hr
                rfl
              · rename_i hurl
                replace hurl : outputText c2.stdout = a.url := by simpa using hurl
                rw [hurl] at hsaid
                have hr2 : RightOrigin a (pre1 ++ [(pk2, x2)]) := by
                  intro o ho
                  rcases saidOrigin_run hp2 ho with h' | ⟨_, c, h', ho⟩
                  · exact hr1 o h'
                  · rw [hc2] at h'
                    cases h'
                    rw [← ho]; exact hurl
                refine runCommand_steps (R := RepoResult a) (fun x hx argv h => ⟨.inr ⟨hdry, fun _ => hsaid⟩, fun h1 h2 => absurd h2 (hup2 h1)⟩) result_error ?_
                intro pk3 x3 hp3
                exact submodules_steps (fun h1 h2 => hup2 h1 (saidExists_run hp3 h2)) hdry (fun _ => saidOrigin_mono hsaid) (right_run hr2 hp3 pull_ne)

/-- What `R` says about a function of an operation. -/
def Inner (a : RepoArgs) (t : Trace) (r : Except Exn (Option OpResult)) : Prop :=
  ∀ o, SaidOrigin t a.path o → o ≠ a.url → ∀ res, r = .ok (some res) → res.success = false

theorem repo_steps {check : Bool} :
    Traces (repo a check) env st fun t r _ => Steps (RepoStep a env.dry) [] t ∧ RepoResult a t r := by
  have herr : ∀ t e, Inner a t (.error e) := fun _ _ _ _ _ _ h => (by cases h)
  have hfail : ∀ {msg : Str} {st : St} {pre : Trace},
      Traces (returned (failure msg)) env st fun t r _ => Steps (RepoStep a env.dry) pre t ∧ Inner a (pre ++ t) r := by
    intro msg st pre
    refine Traces.returned (Traces.local_ (fun env st => ⟨_, _, rfl⟩) ?_)
    intro r st' hr
    refine ⟨trivial, ?_⟩
    intro o _ _ res hres
    have hr : (.ret (.ok _, _) : Prog (Except Exn OpResult × St)) = .ret (r, st') := hr
    cases hr
    cases hres
    rfl
  have hsettle : ∀ {ex : Bool} {cur : Option Str} {st : St} {pre : Trace}, (SaidExists pre a.path → ex = true) → RightOrigin a pre →
      Traces (returned (repoSettle a ex cur)) env st fun t r _ => Steps (RepoStep a env.dry) pre t ∧ Inner a (pre ++ t) r := by
    intro ex cur st pre h1 h2
    refine Traces.returned ((repoSettle_steps h1 h2).mono ?_)
    rintro t r st' ⟨k1, k2⟩
    refine ⟨k1, ?_⟩
    intro o ho hne res hres
    refine k2 o ho hne res ?_
    cases r with
    | ok x => cases hres; rfl
    | error e => cases hres
  unfold repo
  refine Traces.operation (Traces.mono (Q := fun t r _ => Steps (RepoStep a env.dry) [] t ∧ Inner a ([] ++ t) r) ?_ ?_)
  · refine local_steps (R := Inner a) (local_ofExcept _) herr fun _ st1 _ => ?_
    have hstatStep : ∀ pre path fo sha x, Steps (RepoStep a env.dry) pre [(Packet.stat path fo sha, x)] := fun pre path fo sha x => ⟨fun argv h => (by cases h), trivial⟩
    have hstatRight : ∀ pre path fo sha x, RightOrigin a pre → RightOrigin a (pre ++ [(Packet.stat path fo sha, x)]) := by
      intro pre path fo sha x h o ho
      refine h o ?_
      obtain ⟨a', b, c, d, e, f, g, i, hm, ho⟩ := ho
      refine ⟨a', b, c, d, e, f, g, i, ?_, ho⟩
      rcases List.mem_append.mp hm with hm | hm
      · exact hm
      · simp at hm
    have hnil : RightOrigin a [] := by
      rintro o ⟨a', b, c, d, e, f, g, i, hm, ho⟩
      cases hm
    refine Traces.steps (R := Inner a) (Traces.stat ?_ ?_ ?_)
    · intro e
      refine ⟨hstatStep _ _ _ _ _, fun _ _ => herr _ _, fun s hs => ?_⟩
      split at hs
      · cases hs
        refine local_steps (R := Inner a) (local_initialState _) herr fun _ st2 _ => ?_
        refine hsettle ?_ (hstatRight _ _ _ _ _ hnil)
        rintro ⟨a', b, c, d, e, f, g, h', i, j, hm⟩
        simp at hm
      · cases hs
    · intro a1 b1 c1 d1 e1 f1 g1 h1 s
      refine ⟨hstatStep _ _ _ _ _, fun _ h => (by cases h), fun s' hs => ?_⟩
      cases hs
      have hr := hstatRight _ a.path false false (.ok (.statResult a1 b1 c1 d1 e1 f1 g1 h1)) hnil
      generalize ([] ++ [(Packet.stat a.path false false, Except.ok (Packet.statResult a1 b1 c1 d1 e1 f1 g1 h1))] : Trace) = pre at hr
      dsimp only
      split
      · refine Traces.steps (R := Inner a) (Traces.stat ?_ ?_ ?_)
        · intro e
          refine ⟨hstatStep _ _ _ _ _, fun _ _ => herr _ _, fun s hs => ?_⟩
          split at hs
          · cases hs
            exact hfail
          · cases hs
        · intro a2 b2 c2 d2 e2 f2 g2 h2 s2
          refine ⟨hstatStep _ _ _ _ _, fun _ h => (by cases h), fun s' hs => ?_⟩
          cases hs
          have hr2 := hstatRight pre (pathJoin a.path p!".git") false false (.ok (.statResult a2 b2 c2 d2 e2 f2 g2 h2)) hr
          generalize pre ++ [(Packet.stat (pathJoin a.path p!".git") false false, Except.ok (Packet.statResult a2 b2 c2 d2 e2 f2 g2 h2))] = pre2 at hr2
          dsimp only
          split
          · exact hfail
          · refine run_steps (R := Inner a) (fun x hx argv h => ?_) herr ?_
            · rw [h] at hx
              replace hx := Option.some.inj hx
              subst hx
              exact ⟨.inl (.inl rfl), fun _ _ => rfl⟩
            · intro pk x c hp hc
              refine local_steps (R := Inner a) (local_initialState _) herr fun _ st2 _ => ?_
              exact hsettle (fun _ => rfl) (right_run hr2 hp revParse_ne)
        · intro pk e
          exact ⟨hstatStep _ _ _ _ _, fun _ _ => herr _ _, fun _ h => (by cases h)⟩
      · exact hfail
    · intro pk e
      exact ⟨hstatStep _ _ _ _ _, fun _ _ => herr _ _, fun _ h => (by cases h)⟩
  · rintro t r st' ⟨h1, h2⟩ r' h3 h4 h5
    refine ⟨h1, ?_⟩
    intro o ho hne res hres
    rw [List.nil_append] at h2
    cases r with
    | error e => rw [h3 e rfl] at hres; cases hres
    | ok x =>
      cases x with
      | none => obtain ⟨e, he⟩ := h4 rfl; rw [he] at hres; cases hres
      | some x =>
        have := h2 o ho hne x rfl
        rcases h5 x rfl with ⟨h, _⟩ | ⟨_, _, e, he⟩
        · rw [h] at hres; cases hres; exact this
        · rw [he] at hres; cases hres

end
end Verif.Ops
