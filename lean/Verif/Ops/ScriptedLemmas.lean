/-
Lemmas for C100.
-/
import Verif.Ops.ScriptedSpec
import Verif.Ops.ReportProps
import Verif.Ops.LookLemmas
import Verif.Ops.SiteLemmas

namespace Verif.Ops

open Script Remote
open Wire (Packet)

variable {α β : Type} {env : Env}

/-- If all summaries that are printed are those of operations without a change, nothing but looking was done. -/
def Fair (env : Env) (m : Op α) : Prop :=
  ∀ st t r st', Execution m env st t r st' → ∃ new, st'.shown = st.shown ++ new ∧ ((∀ p ∈ new, Report.Unchanged p) → ∀ e ∈ t, ReadOnly e.1)

namespace Fair

theorem quiet {m : Op α} (h : ∀ st t r st', Execution m env st t r st' → (∃ new, st'.shown = st.shown ++ new) ∧ ∀ e ∈ t, ReadOnly e.1) : Fair env m := by
  intro st t r st' he
  obtain ⟨⟨new, h1⟩, h2⟩ := h _ _ _ _ he
  exact ⟨new, h1, fun _ => h2⟩

theorem of_ret {m : Op α} (h : ∀ st, ∃ r st' new, m env st = .ret (r, st') ∧ st'.shown = st.shown ++ new) : Fair env m := by
  refine quiet fun st t r st' he => ?_
  obtain ⟨r0, st0, new, h1, h2⟩ := h st
  obtain ⟨rfl, rfl, rfl⟩ := (execution_ret h1).mp he
  exact ⟨⟨new, h2⟩, fun _ hm => absurd hm List.not_mem_nil⟩

theorem pure (a : α) : Fair env (Op.pure a) := of_ret fun st => ⟨_, st, [], rfl, by simp⟩

theorem bind {m : Op α} {f : α → Op β} (hm : Fair env m) (hf : ∀ a, Fair env (f a)) : Fair env (m >>= f) := by
  intro st t r st' he
  rcases execution_bind.mp he with ⟨e, rfl, h0⟩ | ⟨t1, t2, a, st1, h1, h2, rfl⟩
  · exact hm _ _ _ _ h0
  · obtain ⟨n1, e1, k1⟩ := hm _ _ _ _ h1
    obtain ⟨n2, e2, k2⟩ := hf a _ _ _ _ h2
    refine ⟨n1 ++ n2, by rw [e2, e1, List.append_assoc], fun h e he => ?_⟩
    rcases List.mem_append.mp he with he | he
    · exact k1 (fun p hp => h p (List.mem_append_left _ hp)) e he
    · exact k2 (fun p hp => h p (List.mem_append_right _ hp)) e he

theorem tryCatch {m : Op α} {f : Exn → Op α} (hm : Fair env m) (hf : ∀ a, Fair env (f a)) : Fair env (Op.tryCatch m f) := by
  intro st t r st' he
  rcases execution_tryCatch.mp he with ⟨a, rfl, h0⟩ | ⟨t1, t2, a, st1, h1, h2, rfl⟩
  · exact hm _ _ _ _ h0
  · obtain ⟨n1, e1, k1⟩ := hm _ _ _ _ h1
    obtain ⟨n2, e2, k2⟩ := hf a _ _ _ _ h2
    refine ⟨n1 ++ n2, by rw [e2, e1, List.append_assoc], fun h e he => ?_⟩
    rcases List.mem_append.mp he with he | he
    · exact k1 (fun p hp => h p (List.mem_append_left _ hp)) e he
    · exact k2 (fun p hp => h p (List.mem_append_right _ hp)) e he

theorem finally_ {m : Op α} {f : St → St} (hm : Fair env m) (hf : ∀ st, (f st).shown = st.shown) : Fair env (Op.finally_ m f) := by
  intro st t r st' he
  obtain ⟨st1, h1, rfl⟩ := execution_finally.mp he
  rw [hf]
  exact hm _ _ _ _ h1

theorem looking {m : Op α} (hk : Keeps St.shown m) (hs : Sends ReadOnly env m) : Fair env m :=
  quiet fun _ _ _ _ he => ⟨⟨[], by rw [hk _ _ _ _ _ he, List.append_nil]⟩, hs _ _ _ _ he⟩

theorem ofExcept (x : Except Exn α) : Fair env (Op.ofExcept x) := looking (.ofExcept _) (.ofExcept _)

theorem withDefaults {s : Settings} {body : Settings → Op α} (h : ∀ a, Fair env (body a)) : Fair env (withDefaults s body) := by
  unfold Script.withDefaults
  exact .bind (.ofExcept _) fun _ => .bind (.of_ret fun st => ⟨_, st, [], rfl, by simp⟩) fun _ => .bind (.looking .currentDefaults .currentDefaults) fun _ =>
    .bind (.looking (keeps_resolveDefaults _) (.resolveDefaults (fun _ h => .inl h) _)) fun _ => .bind (.of_ret fun st => ⟨_, _, [], rfl, by simp⟩) fun _ =>
      .finally_ (h _) fun _ => rfl

theorem shown_show (st : St) (r : OpResult) : ∃ new, (st.show r).shown = st.shown ++ new := by
  unfold St.show
  split
  · exact ⟨[], by simp⟩
  · exact ⟨_, rfl⟩

theorem success : Fair env success := .of_ret fun st => by
  rcases success_cases env st with ⟨e, h⟩ | ⟨i, f, _, _, h⟩
  · exact ⟨_, _, [], h, by simp⟩
  · obtain ⟨new, hn⟩ := shown_show st _
    exact ⟨_, _, new, h, hn⟩

theorem addNestedResult (k : Str) (r : OpResult) : Fair env (addNestedResult k r) := .of_ret fun st => by
  unfold Script.addNestedResult
  split
  · exact ⟨_, _, [], rfl, by simp⟩
  · dsimp only
    split
    · exact ⟨_, _, [], rfl, by simp⟩
    · exact ⟨_, _, [], rfl, by simp⟩

theorem operation {check : Bool} {f : Op (Option OpResult)} (h : Fair env f) : Fair env (operation check f) := by
  intro st t r st' he
  obtain ⟨t1, t2, ⟨r1, st1⟩, h1, h2, rfl⟩ := runs_bind.mp he
  obtain ⟨new, h3, h4⟩ := h _ _ _ _ h1
  have hx : ∃ more, st'.shown = st1.shown ++ more ∧ t2 = [] := by
    cases r1 with
    | error e =>
      obtain ⟨h5, h6⟩ := runs_ret.mp h2
      cases h6
      obtain ⟨more, hm⟩ := shown_show st1 (failed st1 (errorText e))
      exact ⟨more, hm, h5⟩
    | ok o =>
      cases o with
      | none =>
        obtain ⟨h5, h6⟩ := runs_ret.mp h2
        cases h6
        exact ⟨[], by simp, h5⟩
      | some x =>
        simp only at h2
        split at h2 <;>
        · obtain ⟨h5, h6⟩ := runs_ret.mp h2
          cases h6
          exact ⟨[], by simp, h5⟩
  obtain ⟨more, h5, rfl⟩ := hx
  refine ⟨new ++ more, by rw [h5, h3, List.append_assoc], fun hall e hm => ?_⟩
  rw [List.append_nil] at hm
  exact h4 (fun p hp => hall p (List.mem_append_left _ hp)) e hm

/-- An operation that prints one summary. -/
theorem says {op : Op OpResult} (hs : Says env op) (hh : Honest env op) : Fair env op := by
  intro st t r st' he
  obtain ⟨x, d, h1, _, h2, h3⟩ := hs _ _ _ _ he
  refine ⟨_, h1, fun hall e hm => ?_⟩
  obtain ⟨h4, h5⟩ := hall _ (List.mem_singleton.mpr rfl)
  cases r with
  | error e => simp [(h3 e rfl).1] at h4
  | ok y =>
    cases h2 y rfl
    exact hh _ _ _ _ he (.inl h5) e hm

theorem found {γ : Type} {ms : List (Str × γ)} {g : Option γ → Op OpResult} (hq : Sends ReadOnly env (findCommand ms)) (h : ∀ k m, (k, m) ∈ ms → Fair env (g (some m)))
    (hn : Fair env (g none)) : Fair env (findCommand ms >>= g) := by
  intro st t r st' he
  rcases execution_bind.mp he with ⟨e, rfl, h0⟩ | ⟨t1, t2, a, st1, h1, h2, rfl⟩
  · exact looking (keeps_findCommand _) hq _ _ _ _ h0
  · have hk := keeps_findCommand (g := St.shown) _ _ _ _ _ _ h1
    have hg : Fair env (g a) := by
      cases a with
      | none => exact hn
      | some m =>
        obtain ⟨k, hm⟩ := findCommand_mem h1
        exact h k m hm
    obtain ⟨new, h3, h4⟩ := hg _ _ _ _ h2
    refine ⟨new, by rw [h3, hk], fun hall e hm => ?_⟩
    rcases List.mem_append.mp hm with hm | hm
    · exact hq _ _ _ _ h1 e hm
    · exact h4 hall e hm

end Fair

theorem fair_directory (path : Str) (present touch : Bool) (mode owner group : Option Str) (check : Bool) :
    Fair env (directory path present touch mode owner group check) := .says (says_directory _ _ _ _ _ _ _) (honest_directory _ _ _ _ _ _ _)

theorem fair_uploadDirs (mode owner group : Option Str) : ∀ ds, Fair env (uploadDirs mode owner group ds)
  | [] => .pure _
  | _ :: ds => .bind (fair_directory _ _ _ _ _ _ _) fun _ => .bind (.addNestedResult _ _) fun _ => fair_uploadDirs mode owner group ds

theorem fair_uploadFiles (sha512 : Bytes → Bytes) (mode owner group : Option Str) : ∀ fs, Fair env (uploadFiles sha512 mode owner group fs)
  | [] => .pure _
  | (t, df) :: fs => by
    unfold uploadFiles
    split
    · exact .bind (.says (says_upload _ _ _ _ _ _ _ _) (honest_upload _ _ _ _ _ _ _ _)) fun _ => .bind (.addNestedResult _ _) fun _ =>
        fair_uploadFiles sha512 mode owner group fs
    · exact fair_uploadFiles sha512 mode owner group fs

theorem fair_uploadDir (sha512 : Bytes → Bytes) (src : Str) (tree : Tree) (dest : Str) (dirMode fileMode owner group : Option Str) (check : Bool) :
    Fair env (uploadDir sha512 src tree dest dirMode fileMode owner group check) := by
  refine .operation (.bind (.of_ret fun st => ⟨_, _, [], rfl, by simp⟩) fun _ => .bind (.ofExcept _) fun _ => ?_)
  split
  · exact .looking (.raise _) (.raise _)
  · exact .bind (fair_uploadDirs _ _ _ _) fun _ => .bind (fair_uploadFiles _ _ _ _ _) fun _ => .bind .success fun _ => .pure _

theorem fair_operation (opts : List Str) (op : Op OpResult) (hop : Operation opts op) : Fair env op := by
  cases hop with
  | directory => exact fair_directory _ _ _ _ _ _ _
  | file => exact .says (says_file _ _ _ _ _ _ _) (honest_file _ _ _ _ _ _ _)
  | link => exact .says (says_link _ _ _ _ _ _ _) (honest_link _ _ _ _ _ _ _)
  | uploadContent => exact .says (says_uploadContent _ _ _ _ _ _ _) (honest_uploadContent _ _ _ _ _ _ _)
  | upload => exact .says (says_upload _ _ _ _ _ _ _ _) (honest_upload _ _ _ _ _ _ _ _)
  | uploadDir => exact fair_uploadDir _ _ _ _ _ _ _ _ _
  | templateContent => exact .says (says_templateContent _ _ _ _ _ _ _ _ _ _) (honest_templateContent _ _ _ _ _ _ _ _ _ _)
  | template => exact .says (says_template _ _ _ _ _ _ _ _ _ _ _) (honest_template _ _ _ _ _ _ _ _ _ _ _)
  | line => exact .says (says_line _ _ _ _ _ _ _) (honest_line _ _ _ _ _ _ _)
  | user => exact .says (says_user _ _) (honest_user _ _)
  | group => exact .says (says_group _ _ _ _ _) (honest_group _ _ _ _ _)
  | apt => exact .says (says_apt _ _ _ _ _) (honest_apt _ _ _ _ _)
  | pacman => exact .says (says_pacman _ _ _ _ _) (honest_pacman _ _ _ _ _)
  | portage => exact .says (says_portage _ _ _ _ _ _) (honest_portage _ _ _ _ _ _)
  | package =>
    refine .found quiet_findPackage (fun k m hm => ?_) (.says (says_newOpFail _) (.operation (.raise _)))
    simp only [packageManagers, List.mem_cons, List.not_mem_nil, or_false, Prod.mk.injEq] at hm
    rcases hm with ⟨_, rfl⟩ | ⟨_, rfl⟩ | ⟨_, rfl⟩
    · exact .says (says_apt _ _ _ _ _) (honest_apt _ _ _ _ _)
    · exact .says (says_pacman _ _ _ _ _) (honest_pacman _ _ _ _ _)
    · exact .says (says_portage _ _ _ _ _ _) (honest_portage _ _ _ _ _ _)
  | daemonReload => exact .says (says_daemonReload _ _) (honest_daemonReload _ _)
  | systemdService => exact .says (says_systemdService _ _ _ _ _) (honest_systemdService _ _ _ _ _)
  | service =>
    refine .found quiet_findService (fun k m hm => ?_) (.says (says_newOpFail _) (.operation (.raise _)))
    simp only [serviceManagers, List.mem_cons, List.not_mem_nil, or_false, Prod.mk.injEq] at hm
    obtain ⟨_, rfl⟩ := hm
    exact .says (says_systemdService _ _ _ _ _) (honest_systemdService _ _ _ _ _)
  | repo => exact .says (says_repo _ _) (honest_repo _ _)

theorem execution_localScript {body : Op α} {st st' : St} {t : Trace} {r : Except Exn α} :
    Execution (localScript body) env st t r st' ↔
      ∃ st1, Execution (withDefaults {} fun _ => body) env { st with stack := [{}] } t r st1 ∧ st' = { st1 with stack := st.stack } := by
  show Client.Prog.Runs (Client.Prog.bind _ _) t (r, st') ↔ _
  rw [runs_bind]
  constructor
  · rintro ⟨t1, t2, ⟨r1, st1⟩, h1, h2, rfl⟩
    obtain ⟨rfl, h⟩ := runs_ret.mp h2
    cases h
    exact ⟨st1, by simpa [Execution] using h1, rfl⟩
  · rintro ⟨st1, h, rfl⟩
    exact ⟨t, [], _, h, .ret _, by simp⟩

/-! ### Scripts -/

theorem sends_scripted {m : Op α} (hm : Scripted m) (hd : env.dry = true) : Sends ReadOnly env m := by
  induction hm with
  | look m h => exact fun _ _ _ _ he e hm => (h _ _ _ _ _ he).1 e.1 e.2 hm
  | operation opts op hop => exact fun _ _ _ _ he e hm => C29_dry_run_only_looks opts op hop env hd _ _ _ _ he e.1 e.2 hm
  | andThen m next _ _ ih1 ih2 => exact .bind ih1 ih2
  | attempt m handler _ _ ih1 ih2 => exact .tryCatch ih1 ih2
  | defaults s body _ ih => exact .withDefaults (fun _ h => .inl h) ih
  | script body _ ih =>
    intro st t r st' he
    obtain ⟨st1, h1, _⟩ := execution_localScript.mp he
    exact Sends.withDefaults (P := ReadOnly) (fun _ h => .inl h) (fun _ => ih) _ _ _ _ h1

theorem fair_scripted {m : Op α} (hm : Scripted m) (env : Env) : Fair env m := by
  induction hm with
  | look m h => exact .quiet fun _ _ _ _ he => ⟨⟨[], by rw [(h _ _ _ _ _ he).2, List.append_nil]⟩, fun e hm => (h _ _ _ _ _ he).1 e.1 e.2 hm⟩
  | operation opts op hop => exact fair_operation opts op hop
  | andThen m next _ _ ih1 ih2 => exact .bind ih1 ih2
  | attempt m handler _ _ ih1 ih2 => exact .tryCatch ih1 ih2
  | defaults s body _ ih => exact .withDefaults ih
  | script body _ ih =>
    intro st t r st' he
    obtain ⟨st1, h1, rfl⟩ := execution_localScript.mp he
    obtain ⟨new, h2, h3⟩ := Fair.withDefaults (fun _ => ih) _ _ _ _ h1
    exact ⟨new, h2, h3⟩

theorem balanced_scripted {m : Op α} (hm : Scripted m) : Balanced m := by
  induction hm with
  | look m h => exact fun _ _ _ _ _ he => by rw [(h _ _ _ _ _ he).2]
  | operation opts op hop => exact balanced_operation opts op hop
  | andThen m next _ _ ih1 ih2 => exact .bind ih1 ih2
  | attempt m handler _ _ ih1 ih2 => exact .tryCatch ih1 ih2
  | defaults s body _ ih => exact .withDefaults ih
  | script body _ ih =>
    intro env st t r st' he
    obtain ⟨st1, h1, rfl⟩ := execution_localScript.mp he
    rfl

end Verif.Ops
