/-
C97: several lines of one file.
-/
import Verif.Ops.LinesLemmas
import Verif.Ops.DeployProps

namespace Verif.Ops

open Script Remote

instance (c : LineCall) (o : Option Bytes) : Decidable (c.There o) := by unfold LineCall.There; infer_instance

theorem found_decide (c : LineCall) (o : Option Bytes) : c.found o = decide (c.There o) := by
  apply Bool.eq_iff_iff.mpr
  rw [LineCall.found_iff, decide_eq_true_eq]

/-- The lines that the calls add. -/
def addedLines (calls : List LineCall) (old : Option Bytes) : List Str := (calls.filter fun c => c.present && !decide (c.There old)).map (·.line)

theorem addedLines_eq (calls : List LineCall) (o : Option Bytes) : (calls.filter fun c => c.present && !c.found o).map (·.line) = addedLines calls o := by
  unfold addedLines
  congr 2
  funext c
  rw [found_decide]

theorem steps_isSome : ∀ (calls : List LineCall) (_ : ∀ c ∈ calls, c.Proper) (o : Option Bytes), (LineCall.steps calls o).isSome = (o.isSome || calls.any (·.present))
  | [], _, o => by simp [LineCall.steps]
  | c :: cs, hp, o => by
    rw [LineCall.steps_cons, steps_isSome cs (fun d hd => hp d (by simp [hd])), (LineCall.step_there (hp c (by simp)) o).1, List.any_cons, Bool.or_assoc]

theorem reports_eq {o : Option Bytes} : ∀ (calls : List LineCall) (rs rs' : List OpResult), rs.length = calls.length → rs'.length = calls.length →
    (∀ x ∈ calls.zip rs, x.1.Reports o x.2) → (∀ x ∈ calls.zip rs', x.1.Reports o x.2) →
    rs.map (fun r => (r.success, r.changed, r.initial, r.final)) = rs'.map (fun r => (r.success, r.changed, r.initial, r.final))
  | [], rs, rs', l1, l2, _, _ => by
    rw [List.length_eq_zero_iff.mp l1, List.length_eq_zero_iff.mp l2]
  | c :: cs, [], _, l1, _, _, _ => by simp at l1
  | c :: cs, _ :: _, [], _, l2, _, _ => by simp at l2
  | c :: cs, r :: rs, r' :: rs', l1, l2, h1, h2 => by
    rw [List.zip_cons_cons] at h1 h2
    have e1 : c.Reports o r := h1 (c, r) (by simp)
    have e2 : c.Reports o r' := h2 (c, r') (by simp)
    rw [List.map_cons, List.map_cons, reports_eq cs rs rs' (by simpa using l1) (by simpa using l2) (fun x hx => h1 x (by simp [hx])) (fun x hx => h2 x (by simp [hx]))]
    rw [e1.1, e1.2.1, e1.2.2.1, e1.2.2.2, e2.1, e2.2.1, e2.2.2.1, e2.2.2.2]

/-- C97. A script calls `line` several times for one file, to add lines or to remove them; the calls are about different lines.
However it ends, nothing else on the host is changed. If it comes to its end: exactly those lines are there that were asked for; the
lines that were there before are still there in their order, except those that were to be removed, and the missing ones come after
them in the order of the calls; the file has the mode, owner and group that it had; and there is a file if there was one or a line was
to be added. Empty lines are not changed either, but there may be one more if there was a time at which all lines had been removed (see
`C42_only_line_refuted`). -/
theorem C97_lines (sys : Sys) (tools : Tools) (lost : Nat → Option Bool) (env : Env) (st : St) (w : World) (hord : Ordinary sys tools w)
    (hm : PlainModes env st) (hdry : env.dry = false) (path : Str) (habs : isAbs path = true) (old : Option Bytes) (hold : Holds w path old)
    (calls : List LineCall) (hp : ∀ c ∈ calls, c.Proper) (hapart : Apart calls) (hsize : ModestLines calls old) :
    let script := deploy (calls.map (·.op path))
    Untouched (Denotes w path) w (perform sys lost script env st w).2
    ∧ ∀ rs, (perform sys lost script env st w).1 = .ok rs → ∃ new, Holds (perform sys lost script env st w).2 path new
      ∧ (∀ c ∈ calls, c.There new ↔ c.present = true)
      ∧ fullLines new = (fullLines old).filter (Stays calls) ++ addedLines calls old
      ∧ ((∀ c ∈ calls, c.present = true) ∨ (∃ x ∈ textLines (old.getD []), Stays calls x = true) →
          textLines (new.getD []) = (textLines (old.getD [])).filter (Stays calls) ++ addedLines calls old)
      ∧ (new ≠ none ↔ old ≠ none ∨ ∃ c ∈ calls, c.present = true)
      ∧ ∀ l n, lookup w.fs w.cwd path false = .ok (l, n) → ∃ n', lookup (perform sys lost script env st w).2.fs (perform sys lost script env st w).2.cwd path false = .ok (l, n')
          ∧ n'.perm = n.perm ∧ n'.uid = n.uid ∧ n'.gid = n.gid := by
  intro script
  have hpost := lines_post (lost := lost) (tools := tools) habs hm hdry calls rfl (.start hord hold) hp hapart hsize
  refine ⟨post_world hpost fun _ _ _ h => h.2.untouched, fun rs hrs => ?_⟩
  obtain ⟨_, hl⟩ := post_ok hpost hrs
  refine ⟨LineCall.steps calls old, hl.holds, fun c hc => ?_, ?_, fun hsome => ?_, ?_, hl.kept⟩
  · rw [← LineCall.found_iff, LineCall.steps_there calls hp hapart old c hc]
  · rw [LineCall.fullLines_steps calls hp hapart, addedLines_eq]
  · rw [LineCall.textLines_steps calls hp hapart old, addedLines_eq]
    refine hsome.imp id ?_
    rintro ⟨x, hx, hs⟩ hnil
    exact List.filter_eq_nil_iff.mp hnil x hx hs
  · have := steps_isSome calls hp old
    rw [← Option.isSome_iff_ne_none, ← Option.isSome_iff_ne_none, this]
    simp

/-- C97, again. If such a script has come to its end, running it again has no effect on the host, even if the connection breaks, and
every call reports that nothing was changed. -/
theorem C97_again (sys : Sys) (tools : Tools) (lost lost' : Nat → Option Bool) (env : Env) (st : St) (w : World) (hord : Ordinary sys tools w)
    (hm : PlainModes env st) (hdry : env.dry = false) (path : Str) (habs : isAbs path = true) (old : Option Bytes) (hold : Holds w path old)
    (calls : List LineCall) (hp : ∀ c ∈ calls, c.Proper) (hapart : Apart calls) (hsize : ModestLines calls old) (rs : List OpResult)
    (hrs : (perform sys lost (deploy (calls.map (·.op path))) env st w).1 = .ok rs) :
    let w1 := (perform sys lost (deploy (calls.map (·.op path))) env st w).2
    Untouched (fun _ => False) w1 (perform sys lost' (deploy (calls.map (·.op path))) env st w1).2
    ∧ ∀ rs', (perform sys lost' (deploy (calls.map (·.op path))) env st w1).1 = .ok rs' → ∀ r ∈ rs', r.success = true ∧ r.changed = false := by
  intro w1
  obtain ⟨_, hl⟩ := post_ok (lines_post (lost := lost) (tools := tools) habs hm hdry calls rfl (.start hord hold) hp hapart hsize) hrs
  have hcalm := lines_calm (lost := lost') hl.ordinary hm hl.holds calls (st1 := st) (w1 := w1) rfl rfl (LineCall.steps_there calls hp hapart old)
  exact ⟨untouched_same (post_world hcalm fun _ _ _ h => h.2), fun rs' h => (post_ok hcalm h).1⟩

/-- C97, order. In whatever order the calls are made, the file gets the same lines. -/
theorem C97_order (sys : Sys) (tools : Tools) (lost lost' : Nat → Option Bool) (env : Env) (st : St) (w : World) (hord : Ordinary sys tools w)
    (hm : PlainModes env st) (hdry : env.dry = false) (path : Str) (habs : isAbs path = true) (old : Option Bytes) (hold : Holds w path old)
    (calls calls' : List LineCall) (hperm : calls.Perm calls') (hp : ∀ c ∈ calls, c.Proper) (hapart : Apart calls) (hsize : ModestLines calls old)
    (rs rs' : List OpResult) (hrs : (perform sys lost (deploy (calls.map (·.op path))) env st w).1 = .ok rs)
    (hrs' : (perform sys lost' (deploy (calls'.map (·.op path))) env st w).1 = .ok rs') :
    ∃ new new', Holds (perform sys lost (deploy (calls.map (·.op path))) env st w).2 path new
      ∧ Holds (perform sys lost' (deploy (calls'.map (·.op path))) env st w).2 path new' ∧ (fullLines new).Perm (fullLines new') := by
  have hapart' : Apart calls' := (hperm.pairwise_iff fun h => Ne.symm h).mp hapart
  have hp' : ∀ c ∈ calls', c.Proper := fun c h => hp c (hperm.mem_iff.mpr h)
  have hsize' : ModestLines calls' old := by
    unfold ModestLines at hsize ⊢
    rwa [← (hperm.map fun c : LineCall => 4 * c.line.length + 2).sum_nat]
  obtain ⟨_, h⟩ := C97_lines sys tools lost env st w hord hm hdry path habs old hold calls hp hapart hsize
  obtain ⟨_, h'⟩ := C97_lines sys tools lost' env st w hord hm hdry path habs old hold calls' hp' hapart' hsize'
  obtain ⟨new, h1, _, h2, _⟩ := h rs hrs
  obtain ⟨new', h1', _, h2', _⟩ := h' rs' hrs'
  refine ⟨new, new', h1, h1', ?_⟩
  rw [h2, h2']
  have hst : Stays calls = Stays calls' := by
    funext x
    unfold Stays
    rw [Bool.eq_iff_iff, List.all_eq_true, List.all_eq_true]
    exact ⟨fun h c hc => h c (hperm.mem_iff.mpr hc), fun h c hc => h c (hperm.mem_iff.mp hc)⟩
  rw [hst]
  exact ((hperm.filter _).map _).append_left _

/-- C97, dry runs. Although the calls are all for one file, which a dry run does not change, a dry run reports for each of them what is
reported by a run. It has no effect on the host. -/
theorem C97_predicted (sys : Sys) (tools : Tools) (lost lost' : Nat → Option Bool) (env : Env) (st : St) (w : World) (hord : Ordinary sys tools w)
    (hm : PlainModes env st) (path : Str) (habs : isAbs path = true) (old : Option Bytes) (hold : Holds w path old)
    (calls : List LineCall) (hp : ∀ c ∈ calls, c.Proper) (hapart : Apart calls) (hsize : ModestLines calls old) :
    let script := deploy (calls.map (·.op path))
    Untouched (fun _ => False) w (perform sys lost' script { env with dry := true } st w).2
    ∧ ∀ rs rs', (perform sys lost script { env with dry := false } st w).1 = .ok rs → (perform sys lost' script { env with dry := true } st w).1 = .ok rs' →
      rs.map (fun r => (r.success, r.changed, r.initial, r.final)) = rs'.map (fun r => (r.success, r.changed, r.initial, r.final)) := by
  intro script
  have hreal := lines_post (lost := lost) (tools := tools) (env := { env with dry := false }) habs hm rfl calls rfl (.start hord hold) hp hapart hsize
  have hdry := lines_dry (lost := lost') (tools := tools) (env := { env with dry := true }) habs hm rfl hord hold calls (w1 := w) rfl rfl
    fun c hc => ⟨hp c hc, modest_steps hsize c hc⟩
  refine ⟨untouched_same (post_world hdry fun _ _ _ h => h.2), fun rs rs' hrs hrs' => ?_⟩
  obtain ⟨⟨l1, h1⟩, _⟩ := post_ok hreal hrs
  obtain ⟨⟨l2, h2⟩, _⟩ := post_ok hdry hrs'
  exact reports_eq calls rs rs' l1 l2 h1 h2

theorem steps_size : ∀ (calls : List LineCall) (o : Option Bytes),
    ((LineCall.steps calls o).getD []).length ≤ (o.getD []).length + (calls.map fun c => 4 * c.line.length + 2).sum
  | [], o => by simp [LineCall.steps]
  | c :: cs, o => by
    have h1 := LineCall.step_size (c := c) (o := o)
    have h2 := steps_size cs (c.step o)
    rw [LineCall.steps_cons, List.map_cons, List.sum_cons]
    omega

theorem modest_less {a b : List LineCall} {o : Option Bytes} (h : ModestLines (a ++ b) o) : ModestLines a o := by
  unfold ModestLines Modest at h ⊢
  rw [List.map_append, List.sum_append] at h
  omega

/-- C97, interruptions. If the script is interrupted, at whatever point, the file is as some of the calls have left it, and if the
script is then run again, the file becomes what it would have become without the interruption, byte for byte. Assumed: the file exists,
and once it has been opened writing to it does not fail (the connection may break, opening the file may fail, ...). -/
theorem C97_resumable_partial (sys : Sys) (tools : Tools) (lost lost1 lost2 : Nat → Option Bool) (env : Env) (st : St) (w : World) (hord : Ordinary sys tools w)
    (hwrite : ∀ w path, sys.fault w (.write path) = none) (hm : PlainModes env st) (hdry : env.dry = false) (path : Str) (habs : isAbs path = true) (old : Bytes)
    (hold : FileAt w path old) (calls : List LineCall) (hp : ∀ c ∈ calls, c.Proper) (hapart : Apart calls)
    (hsize : ModestLines (calls ++ calls) (some old)) (rs rs2 : List OpResult)
    (hrs : (perform sys lost (deploy (calls.map (·.op path))) env st w).1 = .ok rs)
    (hrs2 : (perform sys lost2 (deploy (calls.map (·.op path))) env st (perform sys lost1 (deploy (calls.map (·.op path))) env st w).2).1 = .ok rs2) :
    ∃ new, FileAt (perform sys lost (deploy (calls.map (·.op path))) env st w).2 path new
      ∧ FileAt (perform sys lost2 (deploy (calls.map (·.op path))) env st (perform sys lost1 (deploy (calls.map (·.op path))) env st w).2).2 path new := by
  have key : ∃ a b, calls = a ++ b ∧ Lines sys tools path w (perform sys lost1 (deploy (calls.map (·.op path))) env st w).2 (LineCall.steps a (some old)) :=
    post_world (lines_whole (lost := lost1) hwrite habs hm hdry calls rfl (.start hord (o := some old) hold) hp (modest_less hsize)) fun _ _ _ h =>
      ⟨calls, [], by simp, h⟩
  obtain ⟨a, b, hab, hl⟩ := key
  obtain ⟨_, h1⟩ := post_ok (lines_post (lost := lost) (tools := tools) habs hm hdry calls rfl (.start hord (o := some old) hold) hp hapart (modest_less hsize)) hrs
  have hsz : ModestLines calls (LineCall.steps a (some old)) := by
    have h3 := steps_size a (some old)
    unfold ModestLines Modest at hsize ⊢
    have h4 : (calls.map fun c => 4 * c.line.length + 2).sum = (a.map fun c => 4 * c.line.length + 2).sum + (b.map fun c => 4 * c.line.length + 2).sum := by
      rw [hab, List.map_append, List.sum_append]
    rw [List.map_append, List.sum_append] at hsize
    omega
  obtain ⟨_, h2⟩ := post_ok (lines_post (lost := lost2) (tools := tools) habs hm hdry calls rfl (.start hl.ordinary hl.holds) hp hapart hsz) hrs2
  have heq : LineCall.steps calls (LineCall.steps a (some old)) = LineCall.steps calls (some old) := by
    subst hab
    exact LineCall.steps_resumed hp hapart _
  have h1 := h1.holds
  have h2 := h2.holds
  rw [heq] at h2
  have hsome := steps_isSome calls hp (some old)
  obtain ⟨new, hnew⟩ := Option.isSome_iff_exists.mp hsome
  rw [hnew] at h1 h2
  exact ⟨new, h1, h2⟩

namespace Example

/-- The content of `/etc/motd`. -/
def motdOf (w : World) : Option Bytes :=
  match w.fs [p!"etc", p!"motd"] with
  | some n =>
    match n.kind with
    | .file c => some c
    | _ => none
  | none => none

/-- Two lines are asked for, of which one is there already, and one is to be removed. -/
def threeLines : List LineCall := [⟨p!"x y", true, true⟩, ⟨p!"hi", false, true⟩, ⟨p!"b", true, false⟩]

def threeScript : Op (List OpResult) := deploy (threeLines.map (·.op p!"/etc/motd"))

/-- `a`, nothing, `hi` between spaces, `b`. -/
def fourLines : Bytes := [97, 10, 10, 32, 104, 105, 32, 10, 98]

/-- The hypotheses of C97 are met. -/
example : (∀ c ∈ threeLines, c.Proper) ∧ Apart threeLines ∧ ModestLines (threeLines ++ threeLines) (some fourLines) ∧ isAbs p!"/etc/motd" = true
    ∧ FileAt (Example.motd fourLines) p!"/etc/motd" fourLines ∧ (∀ w path, Example.sys.fault w (.write path) = none)
    ∧ ∃ x ∈ textLines fourLines, Stays threeLines x = true := by
  refine ⟨?_, ?_, ?_, by decide, ?_, fun _ _ => rfl, ⟨p!"a", by decide +kernel, by decide +kernel⟩⟩
  · intro c hc
    simp only [threeLines, List.mem_cons, List.not_mem_nil, or_false] at hc
    rcases hc with rfl | rfl | rfl
    · exact ⟨⟨by unfold Text; decide, by decide⟩, by decide +kernel, by decide +kernel⟩
    · exact ⟨⟨by unfold Text; decide, by decide⟩, by decide +kernel, by decide +kernel⟩
    · exact ⟨⟨by unfold Text; decide, by decide⟩, by decide +kernel, by decide +kernel⟩
  · unfold Apart
    decide +kernel
  · unfold ModestLines Modest
    decide +kernel
  · exact ⟨[p!"etc", p!"motd"], _, rfl, rfl⟩

/-- The line is removed and the other one added; then there is nothing to do; a dry run reports the same as the run. If the connection
breaks after the first line was stored, running it again gives the same content. -/
example : let run := fun lost w => perform Example.sys lost threeScript Example.env Example.st w
    let dry := perform Example.sys Example.always threeScript { Example.env with dry := true } Example.st (Example.motd fourLines)
    let broken := run (fun k => if k = 7 then some true else none) (Example.motd fourLines)
    Example.changes (run Example.always (Example.motd fourLines)).1 = some [true, true, false]
    ∧ motdOf (run Example.always (Example.motd fourLines)).2 = some [97, 10, 10, 98, 10, 120, 32, 121, 10]
    ∧ Example.changes (run Example.always (run Example.always (Example.motd fourLines)).2).1 = some [false, false, false]
    ∧ Example.changes dry.1 = some [true, true, false] ∧ motdOf dry.2 = some fourLines
    ∧ Example.changes broken.1 = none ∧ motdOf broken.2 = some (fourLines ++ [10, 120, 32, 121, 10])
    ∧ motdOf (run Example.always broken.2).2 = some [97, 10, 10, 98, 10, 120, 32, 121, 10] := by
  decide +kernel

/-- In another order the file has the same lines. -/
example : motdOf (perform Example.sys Example.always (deploy (threeLines.reverse.map (·.op p!"/etc/motd"))) Example.env Example.st (Example.motd fourLines)).2
    = some [97, 10, 10, 98, 10, 120, 32, 121, 10] := by
  decide +kernel

/-- The disk is full. -/
def fullDisk : Sys := { Example.sys with fault := fun _ c => if c = .write p!"/etc/motd" then some { errno := 28, strerror := p!"No space left on device", msg := p!"[Errno 28] No space left on device" } else none }

end Example

/-- Why the calls have to be about different lines: a script that asks for a line and asks for it to be removed changes the file in
every run, without an end. -/
theorem C97_conflict_refuted :
    let script := deploy ([⟨p!"x", true, true⟩, ⟨p!"x", false, true⟩].map (LineCall.op p!"/etc/motd"))
    let run := fun w => perform Example.sys Example.always script Example.env Example.st w
    Example.changes (run (Example.motd [104, 105, 10])).1 = some [true, true]
    ∧ Example.changes (run (run (Example.motd [104, 105, 10])).2).1 = some [true, true]
    ∧ Example.motdOf (run (run (Example.motd [104, 105, 10])).2).2 = some [104, 105, 10] := by
  decide +kernel

/-- Why writing must not fail: if the disk is full when a line is to be added, the other lines are lost, and they are not brought back
when the script is run again after there is space. -/
theorem C97_full_disk_refuted :
    let script := deploy ([⟨p!"x", true, true⟩].map (LineCall.op p!"/etc/motd"))
    let failed := perform Example.fullDisk Example.always script Example.env Example.st (Example.motd [104, 105, 10])
    Example.changes failed.1 = none
    ∧ Example.motdOf failed.2 = some []
    ∧ Example.motdOf (perform Example.sys Example.always script Example.env Example.st failed.2).2 = some [120, 10]
    ∧ Example.motdOf (perform Example.sys Example.always script Example.env Example.st (Example.motd [104, 105, 10])).2 = some [104, 105, 10, 120, 10] := by
  decide +kernel

end Verif.Ops
