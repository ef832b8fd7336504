/-
What an interrupted `git.repo` leaves behind: lemmas.
-/
import Verif.Ops.GitResumeSpec
import Verif.Ops.GitLemmas

namespace Verif.Ops

open Script Remote

section
variable {sys : Sys} {lost : Nat → Option Bool} {env : Env} {st : St} {w : World} {a : RepoArgs}

/-- The commands of the operation. -/
def repoCommands (a : RepoArgs) : List (List Str) :=
  [[p!"git", p!"-C", a.path, p!"rev-parse", p!"HEAD"], [p!"git", p!"-C", a.path, p!"config", p!"--get", p!"remote.origin.url"],
   [p!"git", p!"ls-remote", p!"--exit-code", p!"--", a.url, (orStr a.branchOrTag (some p!"HEAD")).getD []], cloneCommand a, pullCommand a, submoduleCommand a]

/-- All of them keep `I`. -/
def RepoKept (sys : Sys) (a : RepoArgs) (I : World → Prop) : Prop :=
  ∀ argv ∈ repoCommands a, ∀ p w out err code w', p.argv = argv → sys.exec p { w with started := p :: w.started } = (.done out err code, w') → I w → I w'

/-- What holds in the end. -/
def SettledReady (a : RepoArgs) (dry : Bool) (I ready : World → Prop) (r : OpResult) (w : World) : Prop :=
  I w ∧ (r.success = true → r.changed = true → dry = false → a.updateSubmodules = true → ready w)

theorem submodules_ready {I ready : World → Prop} (hk : RepoKept sys a I) (hs : SubmoduleHost sys ready a.path) (hi : I w) :
    Post sys lost (submodules a) env st w (fun _ st' w' => st' = st ∧ I w' ∧ (a.updateSubmodules = true → ready w')) I := by
  unfold Ops.submodules
  split
  · refine Post.runAny (fun p out err code w' hp hx => ?_) hi
    have h := hk _ (by simp [repoCommands]) p w out err code w' hp hx hi
    refine ⟨h, fun hc => ⟨rfl, h, fun _ => ?_⟩⟩
    subst hc
    rw [submoduleCommand_eq] at hp
    exact hs _ _ p _ out err w' hp hx
  · rename_i hn
    exact Post.pure ⟨rfl, hi, fun h => absurd h hn⟩

theorem repoSettle_ready {I ready : World → Prop} (hk : RepoKept sys a I) (hs : SubmoduleHost sys ready a.path) (c : Option Clone) (hi : I w)
    (hini : st.op.initial = some (repoBefore c)) (hf : st.op.final = none) (hn : st.op.hasNested = false) :
    Post sys lost (repoSettle a c.isSome (c.map (·.commit))) env st w (fun r _ w' => SettledReady a env.dry I ready r w') I := by
  unfold repoSettle
  split
  · rename_i hup
    simp only [Bool.and_eq_true, Option.isSome_iff_exists] at hup
    obtain ⟨⟨c, rfl⟩, -⟩ := hup
    refine Post.bind (Post.finalState hn hf ?_)
    have hst : States { st with op := { st.op with final := some [(p!"initialized", .bool true), (p!"commit", .str c.commit)] } }
      (repoBefore (some c)) [(p!"initialized", .bool true), (p!"commit", .str c.commit)] := ⟨repoBefore_printable, hn, hini, rfl⟩
    refine Post.success hst ⟨hi, fun _ h => ?_⟩
    replace h : (!(repoBefore (some c)).eq [(p!"initialized", .bool true), (p!"commit", .str c.commit)]) = true := h
    rw [repoBefore_eq] at h
    simp at h
  · refine Post.bind (Post.run (fun p out err code w1 hp hx => ?_) hi)
    have hi1 := hk _ (by simp [repoCommands]) p w out err code w1 hp hx hi
    refine ⟨hi1, fun _ => ?_⟩
    refine Post.bind (Post.ofExcept (fun newest _ => ?_) hi1)
    refine Post.bind (Post.finalState hn hf ?_)
    have hst : States { st with op := { st.op with final := some [(p!"initialized", .bool true), (p!"commit", .str newest)] } }
      (repoBefore c) [(p!"initialized", .bool true), (p!"commit", .str newest)] := ⟨repoBefore_printable, hn, hini, rfl⟩
    refine Post.bind (Post.unchanged hst ?_)
    split
    · rename_i heq
      refine Post.success hst ⟨hi1, fun _ h => ?_⟩
      replace h : (!(repoBefore c).eq [(p!"initialized", .bool true), (p!"commit", .str newest)]) = true := h
      rw [heq] at h
      cases h
    · refine Post.bind (Post.dry ?_)
      split
      · rename_i hd
        refine Post.success hst ⟨hi1, fun _ _ h => ?_⟩
        rw [hd] at h
        cases h
      · split
        · refine Post.bind (Post.runAny (fun p out err code w2 hp hx => ?_) hi1)
          have hi2 := hk _ (by simp [repoCommands]) p w1 out err code w2 hp hx hi1
          refine ⟨hi2, fun _ => Post.bind ((submodules_ready hk hs hi2).mono ?_ fun _ h => h)⟩
          rintro _ _ w3 ⟨rfl, h1, h2⟩
          exact Post.success hst ⟨h1, fun _ _ _ => h2⟩
        · refine Post.bind (Post.run (fun p out err code w2 hp hx => ?_) hi1)
          have hi2 := hk _ (by simp [repoCommands]) p w1 out err code w2 hp hx hi1
          refine ⟨hi2, fun _ => ?_⟩
          split
          · refine Post.failure fun r h1 h2 => ⟨hi2, fun h => ?_⟩
            rw [h1] at h
            cases h
          · refine Post.bind (Post.runAny (fun p out err code w3 hp hx => ?_) hi2)
            have hi3 := hk _ (by simp [repoCommands]) p w2 out err code w3 hp hx hi2
            refine ⟨hi3, fun _ => Post.bind ((submodules_ready hk hs hi3).mono ?_ fun _ h => h)⟩
            rintro _ _ w4 ⟨rfl, h1, h2⟩
            exact Post.success hst ⟨h1, fun _ _ _ => h2⟩

theorem repo_ready {I ready : World → Prop} (hk : RepoKept sys a I) (hs : SubmoduleHost sys ready a.path) {check : Bool} (hi : I w) :
    Post sys lost (repo a check) env st w (fun r _ w' => SettledReady a env.dry I ready r w') I := by
  have hfail : ∀ {msg : Str} {st' : St} {w : World}, I w → Post sys lost (Ops.returned (Script.failure msg)) env st' w
      (fun r _ w' => I w' ∧ ∀ res, r = some res → (check = true → res.success = true) → SettledReady a env.dry I ready res w') I := by
    intro msg st' w hi
    refine Post.returned (Post.failure ?_)
    intro r h1 h2
    refine ⟨hi, ?_⟩
    rintro res ⟨⟩ hc
    exact ⟨hi, fun h => by rw [h1] at h; cases h⟩
  have hsettle : ∀ {st' : St} {w : World} (c : Option Clone), I w → st'.op.initial = some (repoBefore c) → st'.op.final = none → st'.op.hasNested = false →
      Post sys lost (Ops.returned (repoSettle a c.isSome (c.map (·.commit)))) env st' w
        (fun r _ w' => I w' ∧ ∀ res, r = some res → (check = true → res.success = true) → SettledReady a env.dry I ready res w') I := by
    intro st' w c hi h1 h2 h3
    refine Post.returned (Post.mono (repoSettle_ready hk hs c hi h1 h2 h3) ?_ fun _ h => h)
    intro r _ w' h
    refine ⟨h.1, ?_⟩
    rintro res ⟨⟩ -
    exact h
  unfold repo
  refine Post.operation ?_
  refine Post.bind (Post.ofExcept (fun _ _ => ?_) hi)
  refine Post.bind (Post.stat (fun s _ => ?_) hi)
  cases s with
  | none => exact Post.bind (Post.initialState rfl rfl (hsettle none hi rfl rfl rfl))
  | some s =>
    dsimp only
    split
    · refine Post.bind (Post.stat (fun g _ => ?_) hi)
      cases g with
      | none => exact hfail hi
      | some g =>
        dsimp only
        split
        · exact hfail hi
        · refine Post.bind (Post.run (fun p out err code w1 hp hx => ?_) hi)
          have hi1 := hk _ (by simp [repoCommands]) p w out err code w1 hp hx hi
          refine ⟨hi1, fun _ => ?_⟩
          exact Post.bind (Post.initialState rfl rfl (hsettle (some ⟨outputText (some out), [], none, false⟩) hi1 rfl rfl rfl))
    · exact hfail hi

/-- What is usable stays so. -/
theorem usable_kept {G : Repositories} {u : Upstream} (T : GitHost sys G a.path a.url) (F : GitFailures sys G a.path a.url)
    (hu : G.upstream a.url (requested a) = some u) (hub : u.branch = true) : RepoKept sys a (Usable G a) := by
  intro argv hargv p w out err code w' hp hx hi
  have same : G.clone w' a.path = G.clone w a.path → Usable G a w' := fun h c hc => hi c (by rw [← h]; exact hc)
  simp only [repoCommands, List.mem_cons, List.not_mem_nil, or_false] at hargv
  rcases hargv with rfl | rfl | rfl | rfl | rfl | rfl
  · obtain ⟨rfl, -⟩ := T.revParse p _ out err code w' hp hx
    exact same (T.history _ _)
  · obtain ⟨rfl, -⟩ := T.config p _ out err code w' hp hx
    exact same (T.history _ _)
  · obtain ⟨rfl, -⟩ := T.lsRemote _ p _ out err code w' hp hx
    exact same (T.history _ _)
  · rw [cloneCommand_eq] at hp
    by_cases hc : code = 0
    · subst hc
      obtain ⟨v, c', k1, k2, k3, k4, k5, k6, k7⟩ := T.freshClone _ _ p _ out err w' hp hx
      intro c hc
      rw [k2] at hc
      cases hc
      have : G.upstream a.url (requested a) = some v := k1
      rw [hu] at this
      cases this
      obtain ⟨b, hb, hb'⟩ := k6 hub
      exact ⟨k3, ⟨b, hb, by rw [hb', hu]⟩, k5⟩
    · exact same ((F.clone _ _ p _ out err code w' hp hx hc).trans (T.history _ _))
  · rw [pullCommand_eq] at hp
    by_cases hc : code = 0
    · subst hc
      obtain ⟨c0, c', b, v, k1, k2, k3, k4, k5, k6, k7⟩ := T.pull _ _ _ p _ out err w' hp hx
      rw [T.history] at k1
      obtain ⟨h1, ⟨b', h2, h2'⟩, h3⟩ := hi c0 k1
      intro c hc
      rw [k4] at hc
      cases hc
      exact ⟨k5.trans h1, ⟨b', k6.trans h2, h2'⟩, (k7 h3).2⟩
    · exact same ((F.pull _ _ _ p _ out err code w' hp hx hc).trans (T.history _ _))
  · rw [submoduleCommand_eq] at hp
    by_cases hc : code = 0
    · subst hc
      exact same ((T.submodules _ _ p _ out err w' hp hx).trans (T.history _ _))
    · exact same ((F.submodules _ _ p _ out err code w' hp hx hc).trans (T.history _ _))

end
end Verif.Ops
