/-
What operations print: one summary each (C78), with truthful diffs (C79).
-/
import Verif.Ops.ReportSpec
import Verif.Ops.DiffLemmas
import Verif.Ops.ConvergeProps

namespace Verif.Ops

open Script Remote

/-! ### C78 -/

theorem one_summary {env : Env} {op : Op OpResult} (h : Says env op) {st st' : St} {t : Trace} {r : Except Exn OpResult} (he : Execution op env st t r st') :
    ∃ new, st'.shown = st.shown ++ new ∧ (new.length = 1 ∨ new = [] ∧ SearchFailed op env st st' t r)
      ∧ ∀ p ∈ new, Describes p.result r ∧ (env.diff = false → p.diffs = []) := by
  obtain ⟨x, d, h1, h2, h3, h4⟩ := h _ _ _ _ he
  refine ⟨_, h1, .inl rfl, ?_⟩
  intro p hp
  simp only [List.mem_singleton] at hp
  subst hp
  refine ⟨?_, h2⟩
  cases r with
  | ok y => exact h3 y rfl
  | error e => exact h4 e rfl

theorem one_summary_found {env : Env} {op : Op OpResult} {text : Str} (hg : Generic op text) {st st' : St} {t : Trace} {r : Except Exn OpResult}
    (h : ((∃ e, r = .error e ∧ Execution (Connection.run [p!"bash", p!"-c", text]) env st t (.error e) st') ∧ st'.shown = st.shown) ∨
      ∃ x d, st'.shown = st.shown ++ [⟨x, d⟩] ∧ (env.diff = false → d = []) ∧
        (∀ y, r = .ok y → x = y) ∧ (∀ e, r = .error e → x.success = false ∧ (∀ m, e = .operationError m → m = x.failureMessage.getD p!"None"))) :
    ∃ new, st'.shown = st.shown ++ new ∧ (new.length = 1 ∨ new = [] ∧ SearchFailed op env st st' t r)
      ∧ ∀ p ∈ new, Describes p.result r ∧ (env.diff = false → p.diffs = []) := by
  rcases h with ⟨⟨e, h0, h1⟩, h2⟩ | ⟨x, d, h1, h2, h3, h4⟩
  · exact ⟨[], by simp [h2], .inr ⟨rfl, text, e, hg, h0, h1⟩, by simp⟩
  · refine ⟨_, h1, .inl rfl, ?_⟩
    intro p hp
    simp only [List.mem_singleton] at hp
    subst hp
    refine ⟨?_, h2⟩
    cases r with
    | ok y => exact h3 y rfl
    | error e => exact h4 e rfl

/-- C78. Whatever the host answers, and however the operation ends, every operation that does not consist of others prints
exactly one summary, which describes how it ended: with the very result that is returned, or as a failure if an exception is
raised, with the message of the exception if it is the OperationError of a failed operation. Earlier output stays as it is.
Only `package` and `service` can end without a summary, with an exception, namely if looking for the package or service manager
of the host raised it. Diffs are printed only with --diff. -/
theorem C78_one_summary_partial (env : Env) (opts : List Str) (op : Op OpResult) (hop : Operation opts op) (hnot : ¬ Composite op) (st st' : St) (t : Trace)
    (r : Except Exn OpResult) (he : Execution op env st t r st') :
    ∃ new, st'.shown = st.shown ++ new ∧ (new.length = 1 ∨ new = [] ∧ SearchFailed op env st st' t r)
      ∧ ∀ p ∈ new, Describes p.result r ∧ (env.diff = false → p.diffs = []) := by
  cases hop with
  | directory => exact one_summary (says_directory _ _ _ _ _ _ _) he
  | file => exact one_summary (says_file _ _ _ _ _ _ _) he
  | link => exact one_summary (says_link _ _ _ _ _ _ _) he
  | uploadContent => exact one_summary (says_uploadContent _ _ _ _ _ _ _) he
  | upload => exact one_summary (says_upload _ _ _ _ _ _ _ _) he
  | uploadDir => exact absurd (.uploadDir _ _ _ _ _ _ _ _ _) hnot
  | templateContent => exact one_summary (says_templateContent _ _ _ _ _ _ _ _ _ _) he
  | template => exact one_summary (says_template _ _ _ _ _ _ _ _ _ _ _) he
  | line => exact one_summary (says_line _ _ _ _ _ _ _) he
  | user => exact one_summary (says_user _ _) he
  | group => exact one_summary (says_group _ _ _ _ _) he
  | apt => exact one_summary (says_apt _ _ _ _ _) he
  | pacman => exact one_summary (says_pacman _ _ _ _ _) he
  | portage => exact one_summary (says_portage _ _ _ _ _ _) he
  | package order packages present check =>
    refine one_summary_found (.package _ _ _ _) (says_found ?_ (says_newOpFail _) he)
    intro k m hm
    simp only [packageManagers, List.mem_cons, List.not_mem_nil, or_false, Prod.mk.injEq] at hm
    rcases hm with ⟨_, rfl⟩ | ⟨_, rfl⟩ | ⟨_, rfl⟩
    · exact says_apt _ _ _ _ _
    · exact says_pacman _ _ _ _ _
    · exact says_portage _ _ _ _ _ _
  | daemonReload => exact one_summary (says_daemonReload _ _) he
  | systemdService => exact one_summary (says_systemdService _ _ _ _ _) he
  | service s state enabled check =>
    refine one_summary_found (.service _ _ _ _) (says_found ?_ (says_newOpFail _) he)
    intro k m hm
    simp only [serviceManagers, List.mem_cons, List.not_mem_nil, or_false, Prod.mk.injEq] at hm
    obtain ⟨_, rfl⟩ := hm
    exact says_systemdService _ _ _ _ _
  | repo => exact one_summary (says_repo _ _) he

/-- C78, `upload_dir`: it prints the summaries of its parts, in order: successes, up to the first failure, which ends it. If it
succeeds, these are the summaries of all parts whose states make up its own result. -/
theorem C78_upload_dir_partial (env : Env) (sha512 : Bytes → Bytes) (src : Str) (tree : Tree) (dest : Str) (dirMode fileMode owner group : Option Str)
    (check : Bool) (st st' : St) (t : Trace) (r : Except Exn OpResult)
    (he : Execution (uploadDir sha512 src tree dest dirMode fileMode owner group check) env st t r st') :
    ∃ good bad, st'.shown = st.shown ++ (good ++ bad) ∧ (∀ p ∈ good, p.result.success = true) ∧ (∀ p ∈ bad, p.result.success = false) ∧ bad.length ≤ 1
      ∧ (env.diff = false → ∀ p ∈ good ++ bad, p.diffs = [])
      ∧ ∀ x, r = .ok x → bad = [] ∧ x.success = true ∧ x.initial.map (·.2) = good.map (fun p => Val.dict p.result.initial)
          ∧ x.final.map (·.2) = good.map (fun p => Val.dict p.result.final) := by
  obtain ⟨good, bad, h1, h2, h3, h4, h5, h6⟩ := relays_uploadDir he
  exact ⟨good, bad, h1, h3, h4, h5, h2, h6⟩

/-- The results among the printed summaries that are successes, and whether they report a change. -/
def Example.outcomes (l : List Report) : List (Bool × Bool) := l.map fun p => (p.result.success, p.result.changed)

/-- A summary of an upload that changes a file; of one that fails since the parent directory is missing; and those of `upload_dir`. -/
example : Example.outcomes (shownBy Example.sys Example.always (uploadContent Example.sys.sha512 (.bytes [65]) p!"/etc/motd" none none none true)
      Example.env Example.st Example.host) = [(true, true)]
    ∧ Example.outcomes (shownBy Example.sys Example.always (uploadContent Example.sys.sha512 (.bytes [65]) p!"/missing/motd" none none none true)
      Example.env Example.st Example.host) = [(false, false)] := by
  decide +kernel

/-- C78 is false of `upload_dir` itself: if its arguments are wrong, it fails, and nothing is printed. -/
theorem C78_upload_dir_arguments_refuted :
    let op := uploadDir Example.sys.sha512 p!"src" (.dir []) p!"relative" none none none none true
    (∃ e, (perform Example.sys Example.always op Example.env Example.st Example.host).1 = .error e)
    ∧ (shownBy Example.sys Example.always op Example.env Example.st Example.host).length = 0 := by
  exact ⟨⟨_, rfl⟩, by decide +kernel⟩

/-- C78 is false of `package` if the connection breaks while it looks for the package manager: it fails, and nothing is printed. -/
theorem C78_search_refuted :
    let op := package id [p!"vim"] true true
    (∃ e, (perform Example.sys (fun _ => some false) op Example.env Example.st Example.host).1 = .error e)
    ∧ (shownBy Example.sys (fun _ => some false) op Example.env Example.st Example.host).length = 0 := by
  exact ⟨⟨_, rfl⟩, by decide +kernel⟩

/-- On a host without any known package manager it prints the summary of a failure. -/
example : Example.outcomes (shownBy Example.sys Example.always (package id [p!"vim"] true true) Example.env Example.st Example.host) = [(false, false)] := by
  decide +kernel

/-! ### C79 -/

theorem shownBy_of {sys : Sys} {lost : Nat → Option Bool} {op : Op OpResult} {env : Env} {st : St} {w : World} {D : Diffs → Prop}
    (h : Post sys lost op env st w (fun r st' _ => ShownAs st D r st') (fun _ => True)) {r : OpResult} (hr : (perform sys lost op env st w).1 = .ok r) :
    ∃ d, shownBy sys lost op env st w = [⟨r, d⟩] ∧ (r.success = false ∨ r.changed = false → d = []) ∧ (r.success = true → r.changed = true → D d) := by
  have h0 := h 0
  unfold perform at hr
  unfold shownBy
  revert h0 hr
  generalize exec (flaky sys lost) op env st (w, 0) = x
  obtain ⟨⟨y, st'⟩, s⟩ := x
  intro hr h0
  simp only at hr
  subst hr
  obtain ⟨d, h1, h2, h3⟩ := h0
  refine ⟨d, ?_, h2, h3⟩
  simp only [h1, List.drop_left]

/-- C79, uploads and templates: if the operation returns, it prints one summary. It comes with a diff if and only if --diff is
given, the operation succeeded and reported a change, and the content changes; the diff is that from what the file contained
(or nothing, if there was none) to the content that is to be stored, which is also, whether this is a dry run or not, what a
real run on this host leaves there if it succeeds. -/
theorem C79_stored_diff (sys : Sys) (tools : Tools) (lost : Nat → Option Bool) (env : Env) (st : St) (w : World) (hord : Ordinary sys tools w)
    (hm : PlainModes env st) (op : Op OpResult) (path : Str) (source : Except Exn Bytes) (mode owner group : Option Str) (check : Bool)
    (hop : Stores sys.sha512 mode owner group check op path source)
    (hcoll : ∀ content other, source = .ok content → sys.sha512 other = sys.sha512 content → other = content) (r : OpResult)
    (hr : (perform sys lost op env st w).1 = .ok r) :
    ∃ d, shownBy sys lost op env st w = [⟨r, d⟩] ∧ (env.diff = false ∨ r.success = false ∨ r.changed = false → d = [])
      ∧ (env.diff = true → r.success = true → r.changed = true →
          ∃ old new, Holds w path old ∧ source = .ok new ∧ d = (if old = some new then [] else [(path, old, some new)])
            ∧ ∀ lost' r', (perform sys lost' op { env with dry := false } st w).1 = .ok r' → r'.success = true →
                FileAt (perform sys lost' op { env with dry := false } st w).2 path new) := by
  obtain ⟨d, h1, h2, h3⟩ := shownBy_of (shownAs_store hop hord.stat hord.sane) hr
  refine ⟨d, h1, ?_, ?_⟩
  · rintro (h | h)
    · cases hs : r.success with
      | false => exact h2 (.inl hs)
      | true =>
        cases hc : r.changed with
        | false => exact h2 (.inr hc)
        | true =>
          obtain ⟨bytes, _, old, _, h6⟩ := h3 hs hc
          rw [h] at h6
          exact h6
    · exact h2 h
  · intro hd hs hc
    obtain ⟨bytes, h4, old, h5, h6⟩ := h3 hs hc
    rw [hd, if_pos rfl] at h6
    refine ⟨old, bytes, h5, h4, h6, ?_⟩
    intro lost' r' hr' hs'
    obtain ⟨content, l, n, c, m, i, hsrc, hl, hk, _, hcc, _⟩ :=
      C38_store_converges_partial sys tools lost' { env with dry := false } st w hord hm rfl op path source mode owner group check hop r' hr' hs'
    rw [h4] at hsrc
    cases hsrc
    have := hcc (hcoll _ · h4)
    subst this
    exact ⟨l, n, hl, hk⟩

/-- C79, `line`: the same. -/
theorem C79_line_diff (sys : Sys) (tools : Tools) (lost : Nat → Option Bool) (env : Env) (st : St) (w : World) (hord : Ordinary sys tools w)
    (hm : PlainModes env st) (path line : Str) (present : Bool) (regex : Option Regex) (ws : Bool) (backup : Backup) (check : Bool)
    (hfree : BackupFree w path backup) (r : OpResult)
    (hr : (perform sys lost (Ops.line path line present regex ws backup check) env st w).1 = .ok r) :
    ∃ d, shownBy sys lost (Ops.line path line present regex ws backup check) env st w = [⟨r, d⟩]
      ∧ (env.diff = false ∨ r.success = false ∨ r.changed = false → d = [])
      ∧ (env.diff = true → r.success = true → r.changed = true →
          ∃ old new, Holds w path old ∧ d = (if old = some new then [] else [(path, old, some new)])
            ∧ ∀ lost' r', (perform sys lost' (Ops.line path line present regex ws backup check) { env with dry := false } st w).1 = .ok r' → r'.success = true →
                FileAt (perform sys lost' (Ops.line path line present regex ws backup check) { env with dry := false } st w).2 path new) := by
  obtain ⟨d, h1, h2, h3⟩ := shownBy_of (shownAs_line hord.stat hord.sane) hr
  refine ⟨d, h1, ?_, ?_⟩
  · rintro (h | h)
    · cases hs : r.success with
      | false => exact h2 (.inl hs)
      | true =>
        cases hc : r.changed with
        | false => exact h2 (.inr hc)
        | true =>
          obtain ⟨old, new, _, _, _, h6⟩ := h3 hs hc
          rw [h] at h6
          exact h6
    · exact h2 h
  · intro hd hs hc
    obtain ⟨old, new, h4, hne, h5, h6⟩ := h3 hs hc
    rw [hd, if_pos rfl] at h6
    refine ⟨old, new, h4, h6, ?_⟩
    intro lost' r' hr' hs'
    have ha := perform_abs hr'
    cases old with
    | none =>
      obtain ⟨⟨_, hg⟩, _⟩ := (post_ok (line_missing (line := line) (present := present) (regex := regex) (ws := ws) (backup := backup) (check := check)
        (env := { env with dry := false }) hord hm h4) hr').1
      rcases hg rfl with ⟨h, _⟩ | ⟨_, bytes, attr, l, i, m, hnew, he, _, _, _, hres, n, hn, hsn, hk, _, _⟩
      · exact absurd h.symm hne
      · rw [show (none : Option Bytes).getD [] = [] from rfl, hnew] at h5
        cases h5
        exact ⟨l, n, now_lookup hn, hk⟩
    | some old =>
      rcases line_result (env := { env with dry := false }) hord hm rfl hfree h4 hr' with ⟨hp, _⟩ | ⟨_, _, new', h7, h8⟩
      · exact absurd hp hne
      · rw [show (some old).getD [] = old from rfl, h7] at h5
        cases h5
        exact h8

/-- The diffs that are printed. -/
def Example.diffs (l : List Report) : List (Str × Option Bytes × Option Bytes) := l.flatMap (·.diffs)

/-- What is printed in a dry run with --diff. -/
def Example.preview (op : Op OpResult) : List Report := shownBy Example.sys Example.always op { Example.env with dry := true, diff := true } Example.st Example.host

/-- In a dry run with --diff: a new file, a file whose content changes, and one of which only the mode changes. -/
example : Example.diffs (Example.preview (uploadContent Example.sys.sha512 (.bytes [65]) p!"/tmp/x" none none none true)) = [(p!"/tmp/x", none, some [65])]
    ∧ Example.diffs (Example.preview (uploadContent Example.sys.sha512 (.bytes [65]) p!"/etc/motd" none none none true))
      = [(p!"/etc/motd", some [104, 105, 10], some [65])]
    ∧ Example.diffs (Example.preview (uploadContent Example.sys.sha512 (.bytes [104, 105, 10]) p!"/etc/motd" (some p!"777") none none true)) = []
    ∧ Example.outcomes (Example.preview (uploadContent Example.sys.sha512 (.bytes [104, 105, 10]) p!"/etc/motd" (some p!"777") none none true)) = [(true, true)]
    ∧ Example.diffs (Example.preview (Ops.line p!"/etc/motd" p!"a" true none true .no true))
      = [(p!"/etc/motd", some [104, 105, 10], some [104, 105, 10, 97, 10])] :=
  ⟨by decide +kernel, by decide +kernel, by decide +kernel, by decide +kernel, by decide +kernel⟩

/-- The hypotheses of C79 about the host and the checksum are met. -/
example : Ordinary Example.sys Example.tools Example.host ∧ PlainModes { Example.env with diff := true } Example.st
    ∧ (∀ other content : Bytes, Example.sys.sha512 other = Example.sys.sha512 content → other = content) :=
  ⟨Example.ordinary, Example.plainModes, fun _ _ h => h⟩

end Verif.Ops
