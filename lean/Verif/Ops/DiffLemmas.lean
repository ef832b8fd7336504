/-
The diffs that operations show: lemmas.
-/
import Verif.Ops.ReportLemmas
import Verif.Ops.LineProps
import Verif.Ops.ReportSpec
import Verif.Ops.Record

namespace Verif.Ops

open Script Remote
open Client (Prog direct lostConnection)
open Wire (Packet)

section
variable {sys : Sys} {lost : Nat → Option Bool} {env : Env} {st : St} {w : World} {path : Str} {content : Bytes}

/-! ### Reading -/

theorem download_read {c : Bytes} (h : osRead sys w path = .ok c) : (Client.Connector.download path).run (direct sys) w = (.ok c, w) := by
  simp only [Client.Connector.download, Prog.run, direct, handle, handleDownload, h]
  rfl

theorem lookup_missing (h : lookup w.fs w.cwd path false = .error ENOENT) : ∀ x, lookup w.fs w.cwd path true ≠ .ok x := by
  intro x hx
  rcases stat_none_cases h with ⟨e, hr⟩ | ⟨l, hr, hl⟩
  · have := resolve_error_follow hr
    unfold lookup at hx
    rw [this] at hx
    cases hx
  · obtain ⟨l', n⟩ := x
    obtain ⟨h1, h2⟩ := lookup_ok hx
    rw [resolve_follow (fun t ht => by rw [hl] at ht; cases ht) hr] at h1
    cases h1
    rw [hl] at h2
    cases h2

theorem download_missing (h : ∀ x, lookup w.fs w.cwd path true ≠ .ok x) {c : Bytes}
    (hd : (Client.Connector.download path).run (direct sys) w = (.ok c, w)) : False := by
  have hr : ∀ b, osRead sys w path ≠ .ok b := by
    intro b hb
    unfold osRead at hb
    split at hb
    · cases hb
    · split at hb
      · cases hb
      · next h' => exact h _ h'
  simp only [Client.Connector.download, Prog.run, direct, handle, handleDownload] at hd
  cases ho : osRead sys w path with
  | ok b => exact hr b ho
  | error e =>
    rw [ho] at hd
    by_cases he : isENOENT e = true
    · simp [he, Client.unpackResponse, Packet.getattr, Packet.kind, Packet.vals, Wire.schema, Wire.fieldText] at hd
    · cases e with
      | osError n s m => cases n <;> simp [he] at hd
      | _ => simp [he] at hd

/-- `stat` with a checksum has read the file. -/
theorem stat_read {s : Client.StatResult} (h : (Client.Connector.stat path false true).run (direct sys) w = (.ok (some s), w))
    (ht : s.type = p!"file") : ∃ c, osRead sys w path = .ok c := by
  simp only [Client.Connector.stat, Prog.run, direct, handle, handleStat] at h
  cases ho : osStat sys w path false with
  | error e =>
    rw [ho] at h
    by_cases he : isENOENT e = true
    · simp [he, Client.unpackResponse, Packet.getattr, Packet.kind, Packet.vals, Wire.schema, Wire.fieldText] at h
      split at h <;> simp_all
    · cases e with
      | osError n s m => cases n <;> simp [he, lostConnection, Exn.isValueError] at h
      | _ => simp [he, lostConnection, Exn.isValueError] at h
  | ok x =>
    rw [ho] at h
    simp only [Bool.true_and] at h
    by_cases hf : (ftype x.stMode == p!"file") = true
    · rw [if_pos hf] at h
      cases hr : osRead sys w path with
      | ok c => exact ⟨c, rfl⟩
      | error e =>
        rw [Remote.optional, hr] at h
        cases e with
        | osError n s m => cases n <;> simp [lostConnection, Exn.isValueError] at h
        | _ => simp [lostConnection, Exn.isValueError] at h
    · rw [if_neg hf] at h
      simp [Client.unpackResponse] at h
      rw [← h] at ht
      exact absurd (by simpa using ht) hf

/-- Downloading, where a ValueError counts as "no such file". -/
theorem Post.downloadOr_eq {old : Option Bytes} {Q : Option Bytes → St → World → Prop} {E : World → Prop}
    (hok : ∀ c, (Client.Connector.download path).run (direct sys) w = (.ok c, w) → old = some c)
    (herr : ∀ e, (Client.Connector.download path).run (direct sys) w = (.error e, w) → e.isValueError = true → old = none)
    (hQ : Q old st w) (hE : E w) : Post sys lost (Connection.downloadOr path) env st w Q E := by
  intro k
  unfold Connection.downloadOr Connection.orDefault
  rw [exec_tryCatch, exec_bind]
  simp only [Connection.download, exec_call]
  have hq : (direct sys (.download path) w).2 = w := direct_query _ rfl
  have hrun : (Client.Connector.download path).run (flaky sys lost) (w, k) = (((Client.Connector.download path).run (direct sys) w).1, (w, k + 1))
      ∨ (Client.Connector.download path).run (flaky sys lost) (w, k) = (.error lostConnection, (w, k + 1)) := by
    simp only [Client.Connector.download, Prog.run, flaky]
    match hl : lost k with
    | none => left; simp only [hq]
    | some true => right; simp only [hq]
    | some false => right; rfl
  have hsnd : ((Client.Connector.download path).run (direct sys) w).2 = w := by
    simp only [Client.Connector.download, Prog.run, hq]
  rcases hrun with hrun | hrun
  · rw [hrun]
    match hx : ((Client.Connector.download path).run (direct sys) w).1 with
    | .ok c =>
      have := hok c (Prod.ext hx hsnd)
      subst this
      exact hQ
    | .error e =>
      by_cases he : e.isValueError = true
      · have := herr e (Prod.ext hx hsnd) he
        subst this
        simp only [he, if_true]
        exact hQ
      · simp only [he, if_false]
        exact hE
  · rw [hrun]
    exact hE

/-! ### Showing -/

theorem Post.of_keeps {α : Type} {m : Op α} (h : Keeps id m) : Post sys lost m env st w (fun _ st' _ => st' = st) (fun _ => True) := by
  intro k
  have he := h env st (recorded (flaky sys lost) (m env st) (w, k)) (exec (flaky sys lost) m env st (w, k)).1.1 (exec (flaky sys lost) m env st (w, k)).1.2
    (runs_recorded (flaky sys lost) (m env st) (w, k))
  match hm : exec (flaky sys lost) m env st (w, k) with
  | ((.ok a, st'), s) => rw [hm] at he; exact he
  | ((.error e, st'), s) => trivial

abbrev Diffs := List (Str × Option Bytes × Option Bytes)

/-- The diff from the old to the new content, if there is a difference. -/
def change (path : Str) (old : Option Bytes) (new : Bytes) : Diffs := if old = some new then [] else [(path, old, some new)]

theorem Post.opDiff {i f : Dict} (hs : States st i f) (hd : st.op.diffs = []) {old : Option Bytes} {new : Bytes} :
    Post sys lost (opDiff path old (some new)) env st w
      (fun _ st' _ => States st' i f ∧ st'.shown = st.shown ∧ st'.op.diffs = change path old new) (fun _ => True) := by
  intro k
  simp only [exec, Script.opDiff, hs.nested, Bool.false_eq_true, if_false]
  by_cases h : old = some new
  · rw [if_pos h]
    exact ⟨hs, rfl, by rw [change, if_pos h]; exact hd⟩
  · rw [if_neg h]
    exact ⟨⟨hs.printable, rfl, hs.initial, hs.final⟩, rfl, by simp [change, if_neg h, hd]⟩

theorem Post.wanted {i f : Dict} (hs : States st i f) (hd : st.op.diffs = []) {old : Option Bytes} {new : Bytes} {m : Op Unit}
    (hm : Post sys lost m env st w (fun _ st' _ => States st' i f ∧ st'.shown = st.shown ∧ st'.op.diffs = change path old new) (fun _ => True)) :
    Post sys lost (do let d ← diffWanted; if d then m else Op.pure ()) env st w
      (fun _ st' _ => States st' i f ∧ st'.shown = st.shown ∧ st'.op.diffs = if env.diff then change path old new else []) (fun _ => True) := by
  refine Post.bind (m := diffWanted) ?_
  intro k
  simp only [exec, diffWanted, Prog.run]
  cases env.diff with
  | false => exact Post.pure ⟨hs, rfl, hd⟩
  | true => exact hm

/-- What is shown at the end of an operation. -/
def ShownAs (st : St) (D : Diffs → Prop) (r : OpResult) (st' : St) : Prop :=
  ∃ d, st'.shown = st.shown ++ [⟨r, d⟩] ∧ (r.success = false ∨ r.changed = false → d = []) ∧ (r.success = true → r.changed = true → D d)

theorem shownAs_success {i f : Dict} (hs : States st i f) {st0 : St} (h0 : st.shown = st0.shown) {D : Diffs → Prop} (hn : i.eq f = true → st.op.diffs = [])
    (hc : i.eq f = false → D st.op.diffs) : Post sys lost success env st w (fun r st' _ => ShownAs st0 D r st') (fun _ => True) := by
  refine Post.success hs ⟨st.op.diffs, ?_, ?_, ?_⟩
  · simp [St.show, hs.nested, h0]
  · rintro (h | h)
    · cases h
    · exact hn (by simpa using h)
  · intro _ h
    exact hc (by simpa using h)

theorem shownAs_settle {i f : Dict} (hs : States st i f) (hd : st.op.diffs = []) {between action : Op Unit} (hk : Keeps id action) {D : Diffs → Prop}
    (hb : i.eq f = false → Post sys lost between env st w (fun _ st' _ => States st' i f ∧ st'.shown = st.shown ∧ D st'.op.diffs) (fun _ => True)) :
    Post sys lost (settle between action) env st w (fun r st' _ => ShownAs st D r st') (fun _ => True) := by
  unfold Ops.settle
  refine Post.bind (m := unchanged) ?_
  intro k
  simp only [exec, unchanged, hs.initial, hs.final, Prog.run, Bool.not_false, if_true]
  cases h : i.eq f with
  | true => exact shownAs_success hs rfl (fun _ => hd) (fun h' => by rw [h] at h'; cases h')
  | false =>
    refine Post.bind ((hb h).mono ?_ fun _ _ => trivial)
    rintro _ st' w' ⟨hs', h1, h2⟩
    refine Post.bind ((Post.of_keeps (.unlessDry hk)).mono ?_ fun _ _ => trivial)
    rintro _ _ w'' rfl
    exact shownAs_success hs' h1 (fun h' => by rw [h] at h'; cases h') (fun _ => h2)

theorem shownAs_failure (hn : st.op.hasNested = false) (hd : st.op.diffs = []) {msg : Str} {D : Diffs → Prop} :
    Post sys lost (failure msg) env st w (fun r st' _ => ShownAs st D r st') (fun _ => True) := by
  refine Post.failure fun r h1 h2 => ⟨[], ?_, fun _ => rfl, fun h => by rw [h1] at h; cases h⟩
  simp [St.show, hn, hd]

/-- The diff of new content for a path. -/
def Truthful (env : Env) (w : World) (path : Str) (new : Bytes) (d : Diffs) : Prop :=
  ∃ old, Holds w path old ∧ d = if env.diff then change path old new else []

theorem shownAs_saveBody (hstat : HonestStat sys) (hw : w.Sane) {attr : Settings} (h1 : st.op.hasNested = false) (h2 : st.op.initial = none)
    (h3 : st.op.final = none) (hd : st.op.diffs = []) :
    Post sys lost (saveBody sys.sha512 content path attr) env st w (fun r st' _ => ShownAs st (Truthful env w path content) r st') (fun _ => True) := by
  unfold saveBody
  refine Post.bind (Post.finalState h1 h3 ?_)
  refine Post.bind (Post.stat ?_ trivial)
  intro s hs
  have key : ∀ (ex : Bool) (m o g : Option Str) (sum : Option Bytes) (old : Option Bytes), Holds w path old →
      (∀ c, (Client.Connector.download path).run (direct sys) w = (.ok c, w) → old = some c) →
      (∀ e, (Client.Connector.download path).run (direct sys) w = (.error e, w) → e.isValueError = true → old = none) →
      Post sys lost (do
        initialState (contentState ex m o g sum)
        settle (saveDiff path content) (saveActions attr content path)) env
        { st with op := { st.op with final := some (contentState true attr.fileMode attr.owner attr.group (some (sys.sha512 content))) } } w
        (fun r st' _ => ShownAs st (Truthful env w path content) r st') (fun _ => True) := by
    intro ex m o g sum old hold hok herr
    refine Post.bind (Post.initialState h1 h2 ?_)
    have hp : printable (contentState ex m o g sum) (contentState true attr.fileMode attr.owner attr.group (some (sys.sha512 content))) = true := rfl
    revert hp
    generalize contentState true attr.fileMode attr.owner attr.group (some (sys.sha512 content)) = f
    intro hp
    have hst : States { st with op := { st.op with final := some f, initial := some (contentState ex m o g sum) } }
        (contentState ex m o g sum) f := ⟨hp, h1, rfl, rfl⟩
    refine (shownAs_settle (i := contentState ex m o g sum) (f := f)
      (D := Truthful env w path content) hst hd (keeps_saveActions _ _ _) ?_).mono (fun _ _ _ h => h) (fun _ h => h)
    intro _
    refine Post.mono (Post.wanted (path := path) (old := old) (new := content) (i := contentState ex m o g sum)
      (f := f) hst hd
      (m := do let old ← Connection.downloadOr path; opDiff path old (some content)) ?_) ?_ fun _ h => h
    · refine Post.bind (Post.downloadOr_eq hok herr ?_ trivial)
      exact Post.opDiff hst hd
    · rintro _ st' w' ⟨h4, h5, h6⟩
      exact ⟨h4, h5, old, hold, h6⟩
  cases s with
  | none =>
    have hl := stat_none hstat hs
    refine key false none none none none none ?_ ?_ ?_
    · intro x hx; rw [hl] at hx; cases hx
    · intro c hc; exact (download_missing (lookup_missing hl) hc).elim
    · intro _ _ _; rfl
  | some s =>
    simp only
    split
    · exact shownAs_failure (st := { st with op := { st.op with
        final := some (contentState true attr.fileMode attr.owner attr.group (some (sys.sha512 content))) } })
        (D := Truthful env w path content) h1 hd
    · next hk =>
      have hk' : s.type = p!"file" := by simpa using hk
      obtain ⟨c, hc⟩ := stat_read hs hk'
      obtain ⟨l, n, hlk, rfl⟩ := stat_some hw hs
      obtain ⟨old, hk2⟩ := fileKind (n := n) (by simpa [Client.described] using hk')
      have hdl := download_read hc
      have hold := download_exact (lookup_follow (fun t ht => by rw [hk2] at ht; cases ht) hlk) hk2 hdl
      subst hold
      refine key true _ _ _ _ (some c) ⟨l, n, hlk, hk2⟩ ?_ ?_
      · intro c' h'; rw [hdl] at h'; simpa using h'
      · intro e h'; rw [hdl] at h'; cases h'

theorem shownAs_saveContent (hstat : HonestStat sys) (hw : w.Sane) {c : Content} {mode owner group : Option Str} (h1 : st.op.hasNested = false)
    (h2 : st.op.initial = none) (h3 : st.op.final = none) (hd : st.op.diffs = []) :
    Post sys lost (saveContent sys.sha512 c path mode owner group) env st w
      (fun r st' _ => ShownAs st (fun d => ∃ bytes, c.encode = .ok bytes ∧ Truthful env w path bytes d) r st') (fun _ => True) := by
  unfold saveContent
  refine Post.bind (Post.ofExcept ?_ trivial)
  intro bytes hb
  refine Post.withDefaults hw trivial ?_
  intro q' c' rest r hq hs hr
  refine (shownAs_saveBody (st := { st with stack := r :: st.stack }) hstat hw h1 h2 h3 hd).mono ?_ fun _ h => h
  rintro r st' w' ⟨d, h4, h5, h6⟩
  exact ⟨d, h4, h5, fun a b => ⟨bytes, hb, h6 a b⟩⟩

theorem shownAs_operation {check : Bool} {f : Op (Option OpResult)} {D : Diffs → Prop}
    (h : Post sys lost f env { st with op := {} } w (fun r st' _ => ∀ res, r = some res → ShownAs { st with op := {} } D res st') (fun _ => True)) :
    Post sys lost (operation check f) env st w (fun r st' _ => ShownAs st D r st') (fun _ => True) := by
  refine Post.operation (h.mono ?_ fun _ _ => trivial)
  intro r st' w' h
  exact ⟨trivial, fun res hr _ => h res hr⟩

theorem shownAs_returned {m : Op OpResult} {D : Diffs → Prop} (h : Post sys lost m env st w (fun r st' _ => ShownAs st D r st') (fun _ => True)) :
    Post sys lost (returned m) env st w (fun r st' _ => ∀ res, r = some res → ShownAs st D res st') (fun _ => True) :=
  Post.returned (h.mono (fun _ _ _ h => by rintro _ ⟨⟩; exact h) fun _ h => h)

theorem shownAs_store {mode owner group : Option Str} {check : Bool} {op : Op OpResult} {source : Except Exn Bytes}
    (hop : Stores sys.sha512 mode owner group check op path source) (hstat : HonestStat sys) (hw : w.Sane) :
    Post sys lost op env st w
      (fun r st' _ => ShownAs st (fun d => ∃ bytes, source = .ok bytes ∧ Truthful env w path bytes d) r st') (fun _ => True) := by
  have key : ∀ {bytes : Bytes} {path : Str}, source = .ok bytes →
      Post sys lost (returned (saveContent sys.sha512 (.bytes bytes) path mode owner group)) env { st with op := {} } w
        (fun r st' _ => ∀ res, r = some res → ShownAs { st with op := {} } (fun d => ∃ bytes, source = .ok bytes ∧ Truthful env w path bytes d) res st') (fun _ => True) := by
    intro bytes path hs
    refine shownAs_returned ((shownAs_saveContent hstat hw rfl rfl rfl rfl).mono ?_ fun _ h => h)
    rintro r st' w' ⟨d, h4, h5, h6⟩
    refine ⟨d, h4, h5, fun a b => ?_⟩
    obtain ⟨b', hb, ht⟩ := h6 a b
    cases hb
    exact ⟨bytes, hs, ht⟩
  cases hop with
  | content content dest =>
    refine shownAs_operation (Post.bind (Post.ofExcept (fun _ ha => ?_) trivial))
    exact shownAs_returned (shownAs_saveContent hstat hw rfl rfl rfl rfl)
  | file src _ dest =>
    refine shownAs_operation (Post.bind (Post.ofExcept (fun _ ha => ?_) trivial))
    refine Post.bind (Post.ofExcept (fun bytes hb => ?_) trivial)
    exact key hb
  | templateContent templ dest vars context host =>
    refine shownAs_operation (Post.bind (Post.ofExcept (fun _ ha => ?_) trivial))
    refine Post.bind (Post.ofExcept (fun bytes hb => ?_) trivial)
    exact key hb
  | template src templ dest vars context host =>
    refine shownAs_operation (Post.bind (Post.ofExcept (fun _ ha => ?_) trivial))
    refine Post.bind (Post.ofExcept ?_ trivial)
    rintro _ ⟨⟩
    refine Post.bind (Post.ofExcept (fun bytes hb => ?_) trivial)
    exact key hb

theorem shownAs_line (hstat : HonestStat sys) (hw : w.Sane) {line : Str} {present : Bool} {regex : Option Regex} {ws : Bool} {backup : Backup} {check : Bool} :
    Post sys lost (Ops.line path line present regex ws backup check) env st w
      (fun r st' _ => ShownAs st (fun d => ∃ old new, Holds w path old ∧ (old.any fun b => linePresent line regex ws (Py.decodeEscape b)) ≠ present ∧ lineContent line present regex ws (old.getD []) = some new
        ∧ d = if env.diff then change path old new else []) r st') (fun _ => True) := by
  refine shownAs_operation (Post.bind (Post.ofExcept (fun _ ha => ?_) trivial))
  refine shownAs_returned (Post.withDefaults hw trivial ?_)
  intro q' c' rest rr hq hs hr
  generalize hD : (fun d : Diffs => ∃ old new, Holds w path old ∧ (old.any fun b => linePresent line regex ws (Py.decodeEscape b)) ≠ present ∧ lineContent line present regex ws (old.getD []) = some new
        ∧ d = if env.diff then change path old new else []) = D
  suffices hmain : ∀ st1 : St, st1.op = {} → ∀ attr, Post sys lost (lineBody path line present regex ws backup attr) env st1 w
      (fun r st' _ => ShownAs st1 D r st') (fun _ => True) by
    refine (hmain { st with op := {}, stack := rr :: st.stack } rfl _).mono ?_ fun _ h => h
    rintro r st' w' ⟨d, h4, h5, h6⟩
    exact ⟨d, h4, h5, h6⟩
  intro st1 hst1 attr
  unfold lineBody
  refine Post.bind (Post.finalState (by rw [hst1]) (by rw [hst1]) ?_)
  refine Post.bind (Post.stat ?_ trivial)
  intro s hst
  have key : ∀ old, Holds w path old → Post sys lost (lineSettle path line present regex ws backup attr old) env
      { st1 with op := { st1.op with final := some [(p!"line_present", .bool present)] } } w (fun r st' _ => ShownAs st1 D r st') (fun _ => True) := by
    intro old hold
    unfold lineSettle
    rw [hst1]
    refine Post.bind (Post.initialState rfl rfl ?_)
    generalize hb : (old.any fun b => linePresent line regex ws (Py.decodeEscape b)) = b
    have hs : States { st1 with op := { ({} : OpState) with final := some [(p!"line_present", Val.bool present)], initial := some [(p!"line_present", Val.bool b)] } }
        [(p!"line_present", .bool b)] [(p!"line_present", .bool present)] := ⟨rfl, rfl, rfl, rfl⟩
    refine Post.bind (m := unchanged) ?_
    have heq : Dict.eq [(p!"line_present", Val.bool b)] [(p!"line_present", .bool present)] = (b == present) := by
      cases b <;> cases present <;> rfl
    intro k
    simp only [exec, unchanged, Prog.run, Bool.not_false, if_true]
    rw [heq]
    cases hbp : (b == present) with
    | true => exact shownAs_success (st0 := st1) (D := D) hs rfl (fun _ => rfl) (fun h' => by rw [heq, hbp] at h'; cases h')
    | false =>
      simp only [Bool.false_eq_true, if_false]
      refine Post.bind (Post.ofExcept ?_ trivial)
      intro new hnew
      have hnew' : lineContent line present regex ws (old.getD []) = some new := by
        have hd : (old.map Py.decodeEscape).getD [] = Py.decodeEscape (old.getD []) := by cases old <;> rfl
        rw [hd] at hnew
        unfold lineContent
        unfold encodeLines at hnew
        split at hnew
        · next b' hb' => cases hnew; exact hb'
        · cases hnew
      refine Post.bind ((Post.wanted (path := path) (old := old) (new := new) hs rfl (Post.opDiff hs rfl)).mono ?_ fun _ h => h)
      rintro _ st' w' ⟨hs', h1, h2⟩
      refine Post.bind ((Post.of_keeps (.unlessDry (keeps_lineActions _ _ _ _ _))).mono ?_ fun _ _ => trivial)
      rintro _ _ w'' rfl
      refine shownAs_success hs' h1 (fun h' => by rw [heq, hbp] at h'; cases h') (fun _ => ?_)
      rw [← hD]
      exact ⟨old, new, hold, by rw [hb]; intro h; rw [h] at hbp; simp at hbp, hnew', h2⟩
  cases s with
  | none =>
    have hl := stat_none hstat hst
    exact key none (fun x hx => by rw [hl] at hx; cases hx)
  | some s =>
    simp only
    split
    · exact shownAs_failure (st := { st1 with op := { st1.op with final := some [(p!"line_present", .bool present)] } }) (by rw [hst1]) (by rw [hst1])
    · next hk =>
      have hk' : s.type = p!"file" := by simpa using hk
      obtain ⟨l, n, hlk, rfl⟩ := stat_some hw hst
      obtain ⟨old, hk2⟩ := fileKind (n := n) (by simpa [Client.described] using hk')
      refine Post.bind (Post.download ?_ trivial)
      intro c hc
      obtain rfl := download_exact (lookup_follow (fun t ht => by rw [hk2] at ht; cases ht) hlk) hk2 hc
      exact key (some c) ⟨l, n, hlk, hk2⟩

end
end Verif.Ops
