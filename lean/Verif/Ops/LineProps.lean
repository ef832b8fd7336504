/-
C41-C45: lines of a file.
-/
import Verif.Ops.LineLemmas
import Verif.Ops.RepeatProps
import Verif.Ops.FrameProps

namespace Verif.Ops

open Script Remote

section
variable {sys : Sys} {tools : Tools} {lost : Nat → Option Bool} {env : Env} {st : St} {w : World} {path line : Str} {ws : Bool}

theorem unixText_eq (ls : List Str) : unixText ls = Py.terminated ls := by
  induction ls with
  | nil => rfl
  | cons x xs ih =>
    unfold unixText at ih ⊢
    rw [List.flatMap_cons, ih, Py.terminated, List.append_assoc]
    rfl

theorem linePresent_iff {c : Bytes} : linePresent line none ws (Py.decodeEscape c) = true ↔ HasLine ws line c := by
  unfold linePresent HasLine SameLine textLines
  cases ws with
  | true =>
    simp only [if_true, List.contains_iff_mem, List.mem_map]
  | false =>
    simp only [Bool.false_eq_true, if_false, List.contains_iff_mem]
    exact ⟨fun h => ⟨line, h, rfl⟩, by rintro ⟨x, h, rfl⟩; exact h⟩

theorem encodable_text : ∀ {s : Str}, Text s → ∃ b, Py.encodeUtf8 s = some b
  | [], _ => ⟨[], rfl⟩
  | c :: cs, h => by
    obtain ⟨b, hb⟩ := encodable_text (s := cs) (fun d hd => h d (by simp [hd]))
    have hc : (Py.encodeChar c).isSome = true := by
      rw [Py.encodeChar_isSome]
      have := h c (by simp)
      simp only [Py.isSurrogate, Bool.and_eq_true, decide_eq_true_eq, Bool.not_eq_true', Bool.and_eq_false_iff, decide_eq_false_iff_not]
      omega
    obtain ⟨e, he⟩ := Option.isSome_iff_exists.mp hc
    exact ⟨e ++ b, by simp [Py.encodeUtf8, he, hb]⟩

theorem ProperLine.ok (h : ProperLine line) : Py.OneLine line ∧ Py.Stable line := by
  obtain ⟨b, hb⟩ := encodable_text h.text
  exact ⟨h.oneLine, Py.stable_text hb⟩

/-- What adding a proper line makes of a content. -/
theorem added {old : Bytes} (h : ProperLine line) (regex : Option Regex) :
    ∃ new, lineContent line true regex ws old = some new ∧ Py.decodeEscape new = unixText (textLines old ++ [line])
      ∧ textLines new = textLines old ++ [line] := by
  obtain ⟨new, h1, h2, h3⟩ := lineContent_spec (line := line) (present := true) (regex := regex) (ws := ws) (old := old) (fun _ => h.ok)
  rw [if_neg (by simp [newLines])] at h2 h3
  exact ⟨new, h1, h2.trans (unixText_eq _).symm, h3⟩

theorem HasLine.added {c : Bytes} (h : ∃ ls, textLines c = ls ++ [line]) : HasLine ws line c := by
  obtain ⟨ls, h⟩ := h
  refine ⟨line, by rw [h]; simp, ?_⟩
  unfold SameLine
  split <;> rfl

theorem fileAt_inj {c c' : Bytes} (h : FileAt w path c) (h' : FileAt w path c') : c = c' := by
  obtain ⟨l, n, h1, h2⟩ := h
  obtain ⟨l', n', h1', h2'⟩ := h'
  rw [h1] at h1'
  cases h1'
  rw [h2] at h2'
  cases h2'
  rfl

theorem perform_abs {present : Bool} {regex : Option Regex} {backup : Backup} {check : Bool} {r : OpResult}
    (hr : (perform sys lost (Ops.line path line present regex ws backup check) env st w).1 = .ok r) : isAbs path = true := by
  have h : Post sys lost (Ops.line path line present regex ws backup check) env st w (fun _ _ _ => isAbs path = true) (fun _ => True) := by
    refine Post.operation (Post.bind (Post.ofExcept (fun _ ha => ?_) trivial))
    intro k
    have := checkAbsolutePath_ok ha
    split
    · exact ⟨trivial, fun _ _ _ => this⟩
    · trivial
  exact post_ok (Q := fun _ _ => isAbs path = true) h hr

/-- What has become of an existing file. -/
theorem line_result {present : Bool} {regex : Option Regex} {backup : Backup} {check : Bool} {r : OpResult} {old : Bytes}
    (hord : Ordinary sys tools w) (hm : PlainModes env st) (hdry : env.dry = false) (hfree : BackupFree w path backup) (hold : FileAt w path old)
    (hr : (perform sys lost (Ops.line path line present regex ws backup check) env st w).1 = .ok r) :
    (linePresent line regex ws (Py.decodeEscape old) = present ∧ r.changed = false
        ∧ Same w (perform sys lost (Ops.line path line present regex ws backup check) env st w).2)
      ∨ linePresent line regex ws (Py.decodeEscape old) ≠ present ∧ r.changed = true ∧ ∃ new, lineContent line present regex ws old = some new
        ∧ FileAt (perform sys lost (Ops.line path line present regex ws backup check) env st w).2 path new := by
  obtain ⟨l, n, hlk, hk⟩ := hold
  have ha := perform_abs hr
  obtain ⟨hres0, hl⟩ := lookup_ok hlk
  have hres : ∀ cwd, resolve w.fs cwd path false = .ok l := fun cwd => (resolve_abs ha cwd w.cwd false).trans hres0
  obtain ⟨⟨⟨_, hc⟩, hg⟩, _⟩ := (post_ok (line_existing hord hm hfree hlk hk) hr).1
  rcases hg hdry with ⟨hp, hsame⟩ | ⟨hp, new, hnew, hdone⟩
  · refine .inl ⟨hp, ?_, hsame⟩
    cases hrc : r.changed with
    | false => rfl
    | true => exact absurd hp (hc.mp hrc)
  · obtain ⟨h4, n', h5, h6⟩ := hdone.now hres hl hk
    exact .inr ⟨hp, hc.mpr hp, new, hnew, l, n', lookup_of (h4 _) h5, h6⟩

/-- Removing lines. -/
theorem removed {old : Bytes} (regex : Option Regex) :
    ∃ new, lineContent line false regex ws old = some new
      ∧ Py.decodeEscape new = unixText (if newLines line false regex ws (textLines old) = [] then [[]] else newLines line false regex ws (textLines old))
      ∧ textLines new = if newLines line false regex ws (textLines old) = [] then [[]] else newLines line false regex ws (textLines old) := by
  obtain ⟨new, h1, h2, h3⟩ := lineContent_spec (line := line) (present := false) (regex := regex) (ws := ws) (old := old) (fun h => by cases h)
  exact ⟨new, h1, h2.trans (unixText_eq _).symm, h3⟩

/-- The end of the file as bytes and as text. -/
theorem closed_bytes {old : Bytes} : Py.encodeEscape (Py.closeLine (Py.decodeEscape old)) = some (if old = [] ∨ old.getLast? = some 10 then old else old ++ [10]) := by
  have hold := Py.encodeEscape_decodeEscape old
  have hlast : (Py.decodeEscape old).getLast? = some 10 ↔ old.getLast? = some 10 := by
    constructor
    · intro h
      obtain ⟨s, hs⟩ := List.getLast?_eq_some_iff.mp h
      rw [hs, Py.encodeEscape_append] at hold
      cases he : Py.encodeEscape s with
      | none => rw [he] at hold; cases hold
      | some b =>
        rw [he] at hold
        have hold : some (b ++ [10]) = some old := hold
        rw [← Option.some.inj hold]; simp
    · intro h
      obtain ⟨b, rfl⟩ := List.getLast?_eq_some_iff.mp h
      rw [Py.decode_line]
      simp [Py.decodeEscape, Py.decodeEscapeAux]
  have hnil : Py.decodeEscape old = [] ↔ old = [] := by
    constructor
    · intro h
      rw [h] at hold
      exact (Option.some.inj hold).symm
    · rintro rfl; rfl
  unfold Py.closeLine
  by_cases h : old = [] ∨ old.getLast? = some 10
  · rw [if_pos h, if_pos (by rw [hlast, hnil]; exact h), hold]
  · rw [if_neg h, if_neg (by rw [hlast, hnil]; exact h), Py.encodeEscape_append, hold]
    rfl

theorem linePresent_false {c : Bytes} (h : ¬ HasLine ws line c) : linePresent line none ws (Py.decodeEscape c) ≠ true :=
  fun hp => h (linePresent_iff.mp hp)

theorem added_exactly {old bytes : Bytes} (hb : Py.encodeUtf8 line = some bytes) (hunix : UnixFile old) :
    lineContent line true none ws old = some ((if old = [] ∨ old.getLast? = some 10 then old else old ++ [10]) ++ bytes ++ [10]) := by
  unfold lineContent
  rw [joinLines_eq, if_neg (by simp [newLines])]
  simp only [newLines, if_true]
  rw [Py.terminated_append, Py.terminated_splitlines hunix, Py.encodeEscape_append, closed_bytes]
  have : Py.encodeEscape (Py.terminated [line]) = some (bytes ++ [10]) := by
    rw [Py.terminated, Py.terminated, show line ++ [10] = line ++ ([10] : Str) from rfl, Py.encodeEscape_append, Py.encodeEscape_of_encode hb]
    rfl
  rw [this]
  simp

theorem removed_exactly {old new : Bytes} (hstrip : ws = true → Py.strip line = line) (hnew : lineContent line false none ws old = some new) :
    ∀ others, others = (textLines old).filter (fun x => ¬ SameLine ws x line) → Py.decodeEscape new = unixText (if others = [] then [[]] else others) := by
  obtain ⟨new', h3, h4, _⟩ := removed (line := line) (ws := ws) (old := old) none
  rw [h3] at hnew
  cases hnew
  rintro _ rfl
  have : newLines line false none ws (textLines old) = (textLines old).filter (fun x => ¬ SameLine ws x line) := by
    unfold newLines SameLine
    cases ws with
    | true =>
      simp only [Bool.false_eq_true, if_false, if_true]
      congr 1
      funext x
      rw [hstrip rfl]
      simp [bne, eq_comm, Bool.beq_eq_decide_eq]
    | false =>
      simp only [Bool.false_eq_true, if_false]
      congr 1
      funext x
      simp [bne, eq_comm, Bool.beq_eq_decide_eq]
  rw [h4, this]

end

/-! ### C41 -/

/-- C41. After `line(path, line)` has succeeded (not in a dry run), whatever was in the file, the path is a regular file that
contains the line. If it contained the line already, the file is as it was; otherwise its lines are those it had before,
followed by the new one. If there was no file, the line is the only one. Doing it again has no effect and reports no change.
Assumed: the line is a line, i.e. text without line breaks; if a backup is to be made, there is no directory or device at its
path. -/
theorem C41_line_added (sys : Sys) (tools : Tools) (lost : Nat → Option Bool) (env : Env) (st : St) (w : World) (hord : Ordinary sys tools w)
    (hm : PlainModes env st) (hdry : env.dry = false) (path line : Str) (ws : Bool) (backup : Backup) (check : Bool) (hline : ProperLine line)
    (hfree : BackupFree w path backup) (r : OpResult)
    (hr : (perform sys lost (Ops.line path line true none ws backup check) env st w).1 = .ok r) (hs : r.success = true) :
    let w' := (perform sys lost (Ops.line path line true none ws backup check) env st w).2
    ∃ new, FileAt w' path new ∧ HasLine ws line new
      ∧ (∀ old, FileAt w path old → (HasLine ws line old ∧ new = old) ∨ (¬ HasLine ws line old ∧ textLines new = textLines old ++ [line]))
      ∧ (NothingAt w path → textLines new = [line])
      ∧ (Modest new.length → NothingToDo sys (Ops.line path line true none ws backup check) env st w') := by
  intro w'
  have ha := perform_abs hr
  cases hlk : lookup w.fs w.cwd path false with
  | error e =>
    have hno : NothingAt w path := fun x hx => by rw [hlk] at hx; cases hx
    obtain ⟨⟨_, hg⟩, _⟩ := (post_ok (line_missing (line := line) (present := true) (regex := none) (ws := ws) (backup := backup) (check := check) hord hm hno) hr).1
    rcases hg hdry with ⟨h, _⟩ | ⟨_, bytes, attr, l, i, m, hnew, he, _, _, _, hres, n, hn, hsn, hk, _, _⟩
    · cases h
    · obtain ⟨new, h1, h2, h3⟩ := added (ws := ws) (old := []) hline none
      rw [h1] at hnew
      cases hnew
      have h3 : textLines bytes = [line] := h3
      have hl' : lookup w'.fs w'.cwd path false = .ok (l, n) := now_lookup hn
      refine ⟨bytes, ⟨l, n, hl', hk⟩, HasLine.added ⟨[], h3⟩, fun old hold => ?_, fun _ => h3, fun hmod => ?_⟩
      · obtain ⟨l', n', hx, _⟩ := hold
        exact absurd hx (hno _)
      · exact nothing_of_calm (fun lost => line_calm (hord.now hn (fun _ h => by cases h; exact hsn hmod)) hm hl' hk (linePresent_iff.mpr (HasLine.added ⟨[], h3⟩)))
  | ok x =>
    obtain ⟨l, n⟩ := x
    obtain ⟨hres0, hl⟩ := lookup_ok hlk
    have hres : ∀ cwd, resolve w.fs cwd path false = .ok l := fun cwd => (resolve_abs ha cwd w.cwd false).trans hres0
    have hyes : ¬ NothingAt w path := fun h => h _ hlk
    by_cases hk : ∃ old, n.kind = .file old
    · obtain ⟨old, hk⟩ := hk
      obtain ⟨⟨_, hg⟩, _⟩ := (post_ok (line_existing hord hm hfree hlk hk) hr).1
      have hold : ∀ old', FileAt w path old' → old' = old := fun old' h => fileAt_inj h ⟨l, n, hlk, hk⟩
      rcases hg hdry with ⟨hp, hsame⟩ | ⟨hp, new, hnew, hdone⟩
      · have hhas := linePresent_iff.mp hp
        have hl' : lookup w'.fs w'.cwd path false = .ok (l, n) := by
          rw [same_fs hsame, same_cwd hsame, hlk]
        refine ⟨old, ⟨l, n, hl', hk⟩, hhas, fun old' h => .inl ?_, fun h => absurd h hyes, fun _ => ?_⟩
        · rw [hold old' h]; exact ⟨hhas, rfl⟩
        · exact nothing_of_calm (fun lost => line_calm (hsame.ordinary hord) hm hl' hk (linePresent_iff.mpr hhas))
      · have hhas : ¬ HasLine ws line old := fun h => hp (linePresent_iff.mpr h)
        obtain ⟨new', h1, h2, h3⟩ := added (ws := ws) (old := old) hline none
        rw [h1] at hnew
        cases hnew
        obtain ⟨h4, n', h5, h6⟩ := hdone.now hres hl hk
        have hl' : lookup w'.fs w'.cwd path false = .ok (l, n') := lookup_of (h4 _) h5
        refine ⟨new, ⟨l, n', hl', h6⟩, HasLine.added ⟨_, h3⟩, fun old' h => .inr ?_, fun h => absurd h hyes, fun hmod => ?_⟩
        · rw [hold old' h]; exact ⟨hhas, h3⟩
        · exact nothing_of_calm (fun lost => line_calm (hdone.ordinary hord hl hmod) hm hl' h6 (linePresent_iff.mpr (HasLine.added ⟨_, h3⟩)))
    · obtain ⟨⟨h, _⟩, _⟩ := (post_ok (line_other (line := line) (present := true) (regex := none) (ws := ws) (backup := backup) (check := check) hord hm hlk (fun c h => hk ⟨c, h⟩)) hr).1
      rw [hs] at h
      cases h

/-- The line is added, and a second run changes nothing. -/
example : let op := Ops.line p!"/etc/motd" p!"there" true none true (.named p!"motd.old") true
    let x := perform Example.sys Example.always op Example.env Example.st Example.host
    ProperLine p!"there" ∧ BackupFree Example.host p!"/etc/motd" (.named p!"motd.old") ∧ Example.reports x.1 true true = true
    ∧ (x.2.fs [p!"etc", p!"motd"]).map (fun n => n.kind == .file [104, 105, 10, 116, 104, 101, 114, 101, 10]) = some true
    ∧ Example.reports (Example.again op Example.host) true false = true := by
  refine ⟨⟨by unfold Text; decide, by decide⟩, ?_, by decide +kernel, by decide +kernel, by decide +kernel⟩
  intro dst h l n hl
  cases h
  exact absurd hl (by
    have : lookup Example.host.fs Example.host.cwd p!"/etc/motd.old" true = .error ENOENT := by rfl
    intro h
    have h : lookup Example.host.fs Example.host.cwd p!"/etc/motd.old" true = .ok (l, n) := h
    rw [this] at h
    cases h)

/-- A text with a line break is not a line: it is added again and again. -/
theorem C41_line_break_refuted :
    let op := Ops.line p!"/etc/motd" p!"a\nb" true none true .no true
    Example.reports (Example.again op Example.host) true true = true := by
  decide +kernel

/-! ### C42 -/

/-- C42, adding: in a file in which newline characters are the only line breaks, all bytes stay in place, whether they are valid
UTF-8 or not: the new content is the old one, with a newline if the last one is missing, followed by the line and a newline. -/
theorem C42_added_exactly (sys : Sys) (tools : Tools) (lost : Nat → Option Bool) (env : Env) (st : St) (w : World) (hord : Ordinary sys tools w)
    (hm : PlainModes env st) (hdry : env.dry = false) (path line : Str) (ws : Bool) (backup : Backup) (check : Bool) (hline : ProperLine line)
    (hfree : BackupFree w path backup) (old : Bytes) (hold : FileAt w path old) (hunix : UnixFile old) (hnew : ¬ HasLine ws line old) (r : OpResult)
    (hr : (perform sys lost (Ops.line path line true none ws backup check) env st w).1 = .ok r) :
    ∃ bytes, Py.encodeUtf8 line = some bytes
      ∧ FileAt (perform sys lost (Ops.line path line true none ws backup check) env st w).2 path
          ((if old = [] ∨ old.getLast? = some 10 then old else old ++ [10]) ++ bytes ++ [10]) := by
  obtain ⟨bytes, hb⟩ := encodable_text hline.text
  refine ⟨bytes, hb, ?_⟩
  rcases line_result hord hm hdry hfree hold hr with ⟨hp, _⟩ | ⟨_, _, new, h1, h2⟩
  · exact absurd hp (linePresent_false hnew)
  · rw [added_exactly hb hunix] at h1
    cases h1
    exact h2

/-- C42, adding, any file: the lines that were there are the same code points, i.e. the same bytes; each is now ended by a newline
character. -/
theorem C42_added_lines_partial (sys : Sys) (tools : Tools) (lost : Nat → Option Bool) (env : Env) (st : St) (w : World) (hord : Ordinary sys tools w)
    (hm : PlainModes env st) (hdry : env.dry = false) (path line : Str) (ws : Bool) (backup : Backup) (check : Bool) (hline : ProperLine line)
    (hfree : BackupFree w path backup) (old : Bytes) (hold : FileAt w path old) (hnew : ¬ HasLine ws line old) (r : OpResult)
    (hr : (perform sys lost (Ops.line path line true none ws backup check) env st w).1 = .ok r) :
    ∃ new, FileAt (perform sys lost (Ops.line path line true none ws backup check) env st w).2 path new
      ∧ Py.decodeEscape new = unixText (textLines old ++ [line]) := by
  rcases line_result hord hm hdry hfree hold hr with ⟨hp, _⟩ | ⟨_, _, new, h1, h2⟩
  · exact absurd hp (linePresent_false hnew)
  · obtain ⟨new', h3, h4, _⟩ := added (ws := ws) (old := old) hline none
    rw [h3] at h1
    cases h1
    exact ⟨new, h2, h4⟩

/-- C42, removing, any file: if the line is in the file, what remains is exactly the other lines in their order, each ended by a
newline character; if there is no other line, one empty line remains. (`line` without surrounding whitespace if whitespace is
not to be counted, see C43.) -/
theorem C42_removed_lines_partial (sys : Sys) (tools : Tools) (lost : Nat → Option Bool) (env : Env) (st : St) (w : World) (hord : Ordinary sys tools w)
    (hm : PlainModes env st) (hdry : env.dry = false) (path line : Str) (ws : Bool) (backup : Backup) (check : Bool)
    (hstrip : ws = true → Py.strip line = line) (hfree : BackupFree w path backup) (old : Bytes) (hold : FileAt w path old) (hhas : HasLine ws line old) (r : OpResult)
    (hr : (perform sys lost (Ops.line path line false none ws backup check) env st w).1 = .ok r) :
    ∃ new, FileAt (perform sys lost (Ops.line path line false none ws backup check) env st w).2 path new
      ∧ ∀ others, others = (textLines old).filter (fun x => ¬ SameLine ws x line) → Py.decodeEscape new = unixText (if others = [] then [[]] else others) := by
  rcases line_result hord hm hdry hfree hold hr with ⟨hp, _⟩ | ⟨_, _, new, h1, h2⟩
  · rw [linePresent_iff.mpr hhas] at hp; cases hp
  · exact ⟨new, h2, removed_exactly hstrip h1⟩

/-- A host whose `/etc/motd` has the given content. -/
def Example.motd (content : Bytes) : World :=
  Example.host.set [p!"etc", p!"motd"] (some { kind := .file content, perm := 0o644, uid := 1000, gid := 100, mtime := 5, ctime := 6 })

/-- The content of `/etc/motd` afterwards. -/
def Example.motdAfter (op : Op OpResult) (w : World) : Option Bytes :=
  match (perform Example.sys Example.always op Example.env Example.st w).2.fs [p!"etc", p!"motd"] with
  | some n =>
    match n.kind with
    | .file c => some c
    | _ => none
  | none => none

/-- The bytes `ff` and `c3 28` are not UTF-8; they stay as they are. -/
example : UnixFile [0xff, 10, 0xc3, 0x28] ∧ ¬ HasLine true p!"x" [0xff, 10, 0xc3, 0x28]
    ∧ Example.motdAfter (Ops.line p!"/etc/motd" p!"x" true none true .no true) (Example.motd [0xff, 10, 0xc3, 0x28])
      = some [0xff, 10, 0xc3, 0x28, 10, 0x78, 10] := by
  refine ⟨by unfold UnixFile; decide +kernel, ?_, by decide +kernel⟩
  rw [← linePresent_iff]
  decide +kernel

/-- One of three lines is removed. -/
example : HasLine true p!"b" [97, 10, 32, 98, 10, 0xff] ∧ (true = true → Py.strip p!"b" = p!"b")
    ∧ Example.motdAfter (Ops.line p!"/etc/motd" p!"b" false none true .no true) (Example.motd [97, 10, 32, 98, 10, 0xff]) = some [97, 10, 0xff, 10] := by
  refine ⟨?_, fun _ => by decide +kernel, by decide +kernel⟩
  rw [← linePresent_iff]
  decide +kernel

/-- C42 is false for other line breaks: adding `c` to a file that contains `a` and `b` ended by carriage return and newline also
changes the ends of these lines. -/
theorem C42_terminators_refuted :
    Example.motdAfter (Ops.line p!"/etc/motd" p!"c" true none true .no true) (Example.motd [97, 13, 10, 98, 13, 10]) = some [97, 10, 98, 10, 99, 10] := by
  decide +kernel

/-- C42 is false for the last remaining line: removing the only line does not leave an empty file but an empty line. -/
theorem C42_only_line_refuted :
    Example.motdAfter (Ops.line p!"/etc/motd" p!"hi" false none true .no true) (Example.motd [104, 105, 10]) = some [10] := by
  decide +kernel

/-! ### C43 -/

/-- C43. After `line(path, line, present=False)` has succeeded (not in a dry run), the line is not in the file (which may be
missing), provided that the line is not blank and, if whitespace is not to be counted, is given without surrounding
whitespace. -/
theorem C43_line_removed_partial (sys : Sys) (tools : Tools) (lost : Nat → Option Bool) (env : Env) (st : St) (w : World) (hord : Ordinary sys tools w)
    (hm : PlainModes env st) (hdry : env.dry = false) (path line : Str) (ws : Bool) (backup : Backup) (check : Bool)
    (hstrip : ws = true → Py.strip line = line) (hblank : line ≠ []) (hfree : BackupFree w path backup) (r : OpResult)
    (hr : (perform sys lost (Ops.line path line false none ws backup check) env st w).1 = .ok r) (hs : r.success = true) :
    let w' := (perform sys lost (Ops.line path line false none ws backup check) env st w).2
    NothingAt w' path ∨ ∃ new, FileAt w' path new ∧ ¬ HasLine ws line new := by
  intro w'
  cases hlk : lookup w.fs w.cwd path false with
  | error e =>
    have hno : NothingAt w path := fun x hx => by rw [hlk] at hx; cases hx
    obtain ⟨⟨_, hg⟩, _⟩ := (post_ok (line_missing (line := line) (present := false) (regex := none) (ws := ws) (backup := backup) (check := check) hord hm hno) hr).1
    rcases hg hdry with ⟨_, h⟩ | ⟨h, _⟩
    · refine .inl fun x => ?_
      rw [same_fs h, same_cwd h]
      exact hno x
    · cases h
  | ok x =>
    obtain ⟨l, n⟩ := x
    by_cases hk : ∃ old, n.kind = .file old
    · obtain ⟨old, hk⟩ := hk
      have hold : FileAt w path old := ⟨l, n, hlk, hk⟩
      refine .inr ?_
      by_cases hhas : HasLine ws line old
      · obtain ⟨new, h1, h2⟩ := C42_removed_lines_partial sys tools lost env st w hord hm hdry path line ws backup check hstrip hfree old hold hhas r hr
        refine ⟨new, h1, ?_⟩
        have h2 := h2 _ rfl
        generalize hoth : (textLines old).filter (fun x => ¬ SameLine ws x line) = others at h2
        have hone : ∀ x ∈ (if others = [] then [[]] else others), Py.OneLine x := by
          intro x hx
          split at hx
          · simp only [List.mem_singleton] at hx
            subst hx
            intro c hc; cases hc
          · rw [← hoth] at hx
            exact Py.splitlines_oneLine (List.mem_filter.mp hx).1
        rintro ⟨x, hx, hsame⟩
        unfold textLines at hx
        rw [h2, unixText_eq, Py.splitlines_terminated hone] at hx
        split at hx
        · simp only [List.mem_singleton] at hx
          subst hx
          unfold SameLine at hsame
          split at hsame
          · next hw =>
            rw [hstrip hw] at hsame
            exact hblank hsame.symm
          · exact hblank hsame.symm
        · rw [← hoth] at hx
          have := (List.mem_filter.mp hx).2
          simp only [decide_eq_true_eq] at this
          exact this hsame
      · rcases line_result hord hm hdry hfree hold hr with ⟨_, _, hsame⟩ | ⟨hp, _⟩
        · refine ⟨old, ⟨l, n, ?_, hk⟩, hhas⟩
          rw [same_fs hsame, same_cwd hsame, hlk]
        · exact absurd (by simpa using linePresent_false hhas) hp
    · obtain ⟨⟨h, _⟩, _⟩ := (post_ok (line_other (line := line) (present := false) (regex := none) (ws := ws) (backup := backup) (check := check) hord hm hlk (fun c h => hk ⟨c, h⟩)) hr).1
      rw [hs] at h
      cases h

/-- C43 for regular expressions: no line that matches remains, except that one empty line remains if all lines match. -/
theorem C43_matches_removed_partial (sys : Sys) (tools : Tools) (lost : Nat → Option Bool) (env : Env) (st : St) (w : World) (hord : Ordinary sys tools w)
    (hm : PlainModes env st) (hdry : env.dry = false) (path line : Str) (regex : Regex) (ws : Bool) (backup : Backup) (check : Bool)
    (hfree : BackupFree w path backup) (old : Bytes) (hold : FileAt w path old) (hmatch : regex.search (Py.decodeEscape old) = true) (r : OpResult)
    (hr : (perform sys lost (Ops.line path line false (some regex) ws backup check) env st w).1 = .ok r) :
    ∃ new, FileAt (perform sys lost (Ops.line path line false (some regex) ws backup check) env st w).2 path new
      ∧ ∀ others, others = (textLines old).filter (fun x => !regex.searchLine x) → textLines new = if others = [] then [[]] else others := by
  rcases line_result hord hm hdry hfree hold hr with ⟨hp, _⟩ | ⟨_, _, new, h1, h2⟩
  · simp only [linePresent] at hp
    rw [hmatch] at hp; cases hp
  · obtain ⟨new', h3, _, h4⟩ := removed (line := line) (ws := ws) (old := old) (some regex)
    rw [h3] at h1
    cases h1
    refine ⟨new, h2, ?_⟩
    rintro _ rfl
    exact h4

/-- C43 is false for a line given with surrounding whitespace: `line(path="/etc/motd", line=" hi", present=False)` reports success
and a change, now and every time, and never removes the line `hi`, although it counts as the same line. -/
theorem C43_whitespace_refuted :
    let op := Ops.line p!"/etc/motd" p!" hi" false none true .no true
    Example.reports (perform Example.sys Example.always op Example.env Example.st (Example.motd [104, 105, 10])).1 true true = true
    ∧ Example.motdAfter op (Example.motd [104, 105, 10]) = some [104, 105, 10] ∧ HasLine true p!" hi" [104, 105, 10]
    ∧ Example.reports (Example.again op (Example.motd [104, 105, 10])) true true = true := by
  refine ⟨by decide +kernel, by decide +kernel, ?_, by decide +kernel⟩
  rw [← linePresent_iff]
  decide +kernel

/-- C43 is false for the empty line if there is no other: it remains. -/
theorem C43_empty_line_refuted :
    let op := Ops.line p!"/etc/motd" [] false none true .no true
    Example.reports (perform Example.sys Example.always op Example.env Example.st (Example.motd [10])).1 true true = true
    ∧ Example.motdAfter op (Example.motd [10]) = some [10] := by
  exact ⟨by decide +kernel, by decide +kernel⟩

/-! ### C44 -/

/-- C44. If a backup is wanted, and however the operation ends (also if the connection breaks, or the content is only written in
part): if the content of the file has changed, there is a complete copy of the old file at the path of the backup, with its
content, mode, owner, group and modification time. -/
theorem C44_backup_first (sys : Sys) (tools : Tools) (lost : Nat → Option Bool) (env : Env) (st : St) (w : World) (hord : Ordinary sys tools w)
    (hm : PlainModes env st) (path line : Str) (present : Bool) (regex : Option Regex) (ws : Bool) (backup : Backup) (check : Bool)
    (dst : Str) (hdst : backupPath path backup = some dst) (hfree : BackupFree w path backup) (l : Loc) (n : Node) (old : Bytes)
    (hold : lookup w.fs w.cwd path false = .ok (l, n)) (hk : n.kind = .file old) :
    let w' := (perform sys lost (Ops.line path line present regex ws backup check) env st w).2
    FileAt w' path old ∨ ∃ lb m, lookup w'.fs w'.cwd dst true = .ok (lb, m) ∧ m.kind = .file old ∧ m.perm = n.perm ∧ m.uid = n.uid ∧ m.gid = n.gid
      ∧ m.mtime = n.mtime := by
  intro w'
  have hleft : LineLeft path backup l n w w' := post_world (line_existing hord hm hfree hold hk) (fun _ _ _ h => h.1.2)
  obtain ⟨hres0, hl⟩ := lookup_ok hold
  have same : ∀ {w1}, Same w w1 → FileAt w1 path old := by
    intro w1 h
    exact ⟨l, n, by rw [same_fs h, same_cwd h, hold], hk⟩
  rcases hleft with h | ⟨w1, c, h, he⟩
  · refine .inl ?_
    unfold BackupLeft at h
    split at h
    · exact same h
    · rcases h with h | ⟨lb, m, h, _⟩
      · exact same h
      · refine ⟨l, n, lookup_of (h.res _) ?_, hk⟩
        rw [h.fs, setNode_ne _ _ (by rintro rfl; exact h.ne rfl), hl]
  · refine .inr ?_
    unfold BackedUp at h
    rw [hdst] at h
    obtain ⟨lb, m, hb, rfl, hd⟩ := h
    refine ⟨lb, { n with ctime := w.clock }, lookup_of ?_ ?_, hk, rfl, rfl, rfl, rfl⟩
    · rw [he]
      show resolve (setNode w1.fs l _) w1.cwd dst true = _
      rw [resolve_set_shape ?_, hd]
      rw [hb.fs, setNode_ne _ _ (by rintro rfl; exact hb.ne rfl), hl]
      simp [shape, hk]
    · rw [he]
      show setNode w1.fs l _ lb = _
      rw [setNode_ne _ _ hb.ne, hb.fs, setNode_same]

/-- The copy is made, and the file is changed afterwards. -/
example : let op := Ops.line p!"/etc/motd" p!"there" true none true (.named p!"motd.old") true
    let x := perform Example.sys Example.always op Example.env Example.st Example.host
    backupPath p!"/etc/motd" (.named p!"motd.old") = some p!"/etc/motd.old"
    ∧ (x.2.fs [p!"etc", p!"motd.old"]).map (fun n => (n.kind == .file [104, 105, 10], n.perm, n.uid, n.gid)) = some (true, 0o644, 1000, 100)
    ∧ Example.motdAfter op Example.host = some [104, 105, 10, 116, 104, 101, 114, 101, 10] := by
  exact ⟨by decide +kernel, by decide +kernel, by decide +kernel⟩

/-- C44 is false for the name: with `backup=True` the backup of `/etc/motd` is not `/etc/motd.<date>.bak` but `/etc/.<date>.bak`.
So all files of a directory share one backup per second. -/
theorem C44_name_refuted (now : Str) : backupPath p!"/etc/motd" (.dated now) = some (p!"/etc/." ++ now ++ p!".bak")
    ∧ backupPath p!"/etc/motd" (.dated now) = backupPath p!"/etc/passwd" (.dated now) := by
  constructor <;> rfl

/-! ### C45 -/

/-- C45. However the operation ends, an existing regular file is still a regular file with the same mode, owner and group. -/
theorem C45_metadata_kept (sys : Sys) (tools : Tools) (lost : Nat → Option Bool) (env : Env) (st : St) (w : World) (hord : Ordinary sys tools w)
    (hm : PlainModes env st) (path line : Str) (present : Bool) (regex : Option Regex) (ws : Bool) (backup : Backup) (check : Bool)
    (hfree : BackupFree w path backup) (l : Loc) (n : Node) (old : Bytes)
    (hold : lookup w.fs w.cwd path false = .ok (l, n)) (hk : n.kind = .file old) :
    let w' := (perform sys lost (Ops.line path line present regex ws backup check) env st w).2
    ∃ n', lookup w'.fs w'.cwd path false = .ok (l, n') ∧ (∃ c, n'.kind = .file c) ∧ n'.perm = n.perm ∧ n'.uid = n.uid ∧ n'.gid = n.gid := by
  intro w'
  by_cases ha : isAbs path = true
  · have hleft : LineLeft path backup l n w w' := post_world (line_existing hord hm hfree hold hk) (fun _ _ _ h => h.1.2)
    obtain ⟨hres0, hl⟩ := lookup_ok hold
    obtain ⟨n', h1, h2, h3, h4⟩ := hleft.node (fun cwd => (resolve_abs ha cwd w.cwd false).trans hres0) hl hk
    exact ⟨n', lookup_of (h1 _) h2, h3, h4⟩
  · have hsame : Same w w' := by
      refine post_world (Q := fun _ _ _ => False) (P := Same w) ?_ (fun _ _ _ h => h.elim)
      refine Post.operation (Post.bind (Post.ofExcept (fun _ h => ?_) rfl))
      exact absurd (checkAbsolutePath_ok h) ha
    exact ⟨n, by rw [same_fs hsame, same_cwd hsame, hold], ⟨old, hk⟩, rfl, rfl, rfl⟩

/-- C45, new files: a new file gets the owner and group in force. All mode bits except setuid and setgid are those of the file
mode in force, and no others are set. -/
theorem C45_new_file (sys : Sys) (tools : Tools) (lost : Nat → Option Bool) (env : Env) (st : St) (w : World) (hord : Ordinary sys tools w)
    (hm : PlainModes env st) (hdry : env.dry = false) (path line : Str) (regex : Option Regex) (ws : Bool) (backup : Backup) (check : Bool)
    (hno : NothingAt w path) (r : OpResult)
    (hr : (perform sys lost (Ops.line path line true regex ws backup check) env st w).1 = .ok r) :
    let want := inForce env st {}
    let w' := (perform sys lost (Ops.line path line true regex ws backup check) env st w).2
    ∃ l n c m i, lookup w'.fs w'.cwd path false = .ok (l, n) ∧ n.kind = .file c ∧ OwnedBy w want n
      ∧ want.fileMode = some m ∧ Py.parseInt 8 m = some (i : Nat) ∧ n.perm &&& 0o1777 = i % 0o10000 &&& 0o1777
      ∧ (i &&& 0o6000 = 0 → n.perm = i % 0o10000) := by
  intro want w'
  obtain ⟨⟨_, hg⟩, _⟩ := (post_ok (line_missing (line := line) (present := true) (regex := regex) (ws := ws) (backup := backup) (check := check) hord hm hno) hr).1
  rcases hg hdry with ⟨h, _⟩ | ⟨_, bytes, attr, l, i, m, hnew, he, hmm, hi, hi0, hres, n, hn, hsn, hk, hp, how⟩
  · cases h
  obtain ⟨i, rfl⟩ : ∃ k : Nat, i = (k : Int) := ⟨i.toNat, (Int.toNat_of_nonneg hi0).symm⟩
  have hmod : ((i : Int) % 4096).toNat = i % 0o10000 := by omega
  rw [hmod] at hp
  refine ⟨l, n, bytes, m, i, now_lookup hn, hk, he.owned how, hmm, hi, hp.low, fun h6 => ?_⟩
  refine hp.exact (Nat.mod_lt _ (by decide)) ?_
  apply Nat.eq_of_testBit_eq
  intro j
  have := congrArg (·.testBit j) h6
  rw [Nat.testBit_and, show (0o10000 : Nat) = 2 ^ 12 from rfl, Nat.testBit_mod_two_pow]
  simp only [Nat.testBit_and, Nat.zero_testBit] at this ⊢
  cases decide (j < 12)
  · simp
  · simpa using this

/-- A new file. -/
example : let op := Ops.line p!"/tmp/new" p!"x" true none true .no true
    let x := perform Example.sys Example.always op Example.env Example.st Example.host
    Example.reports x.1 true true = true
    ∧ (x.2.fs [p!"tmp", p!"new"]).map (fun n => (n.kind == .file [120, 10], n.perm, n.uid, n.gid)) = some (true, 0o600, 0, 0) := by
  exact ⟨by decide +kernel, by decide +kernel⟩

/-! ### C34 -/

/-- C34 for `line`. However it ends, nothing is changed except the file itself and the file at the path of the backup. -/
theorem C34_line_frame (sys : Sys) (tools : Tools) (lost : Nat → Option Bool) (env : Env) (st : St) (w : World) (hord : Ordinary sys tools w)
    (hm : PlainModes env st) (path line : Str) (present : Bool) (regex : Option Regex) (ws : Bool) (backup : Backup) (check : Bool)
    (hfree : BackupFree w path backup) :
    let w' := (perform sys lost (Ops.line path line present regex ws backup check) env st w).2
    Untouched (fun q => Denotes w path q ∨ ∃ dst, backupPath path backup = some dst ∧ resolve w'.fs w'.cwd dst true = .ok q) w w' := by
  intro w'
  cases hlk : lookup w.fs w.cwd path false with
  | error e =>
    have hno : NothingAt w path := fun x hx => by rw [hlk] at hx; cases hx
    have h : LineCreateLeft path w w' :=
      post_world (line_missing (line := line) (present := present) (regex := regex) (ws := ws) (backup := backup) (check := check) hord hm hno) (fun _ _ _ h => h.1.2)
    rcases h with h | ⟨l, size, hr, o, hn, _⟩
    · exact untouched_same h
    · exact untouched_now hn (.inl hr)
  | ok x =>
    obtain ⟨l, n⟩ := x
    obtain ⟨hres0, hl⟩ := lookup_ok hlk
    by_cases hk : ∃ old, n.kind = .file old
    · obtain ⟨old, hk⟩ := hk
      have h : LineLeft path backup l n w w' :=
        post_world (line_existing (line := line) (present := present) (regex := regex) (ws := ws) (backup := backup) (check := check) hord hm hfree hlk hk) (fun _ _ _ h => h.1.2)
      rcases h with h | ⟨w1, c, h, he⟩
      · unfold BackupLeft at h
        split at h
        · exact untouched_same h
        · next dst hdst =>
          rcases h with h | ⟨lb, m, h, hd⟩
          · exact untouched_same h
          · refine ⟨fun q hq => ?_, ?_⟩
            · rw [h.fs, setNode_ne _ _ (by rintro rfl; exact hq (.inr ⟨dst, hdst, hd _⟩))]
            · have := h.eq
              rw [this]; rfl
      · have hset : ∀ q, q ≠ l → w'.fs q = w1.fs q := fun q hq => by rw [he]; exact setNode_ne _ _ hq
        have hcwd : w'.cwd = w1.cwd := by rw [he]; rfl
        unfold BackedUp at h
        split at h
        · refine ⟨fun q hq => ?_, ?_⟩
          · rw [hset q (by rintro rfl; exact hq (.inl hres0)), same_fs h]
          · have h : w1 = { w with started := w1.started } := h
            rw [he, h]; rfl
        · next dst hdst =>
          obtain ⟨lb, m, h, _, hd⟩ := h
          refine ⟨fun q hq => ?_, ?_⟩
          · rw [hset q (by rintro rfl; exact hq (.inl hres0)), h.fs, setNode_ne _ _ ?_]
            rintro rfl
            refine hq (.inr ⟨dst, hdst, ?_⟩)
            rw [he]
            show resolve (setNode w1.fs l _) w1.cwd dst true = _
            rw [resolve_set_shape ?_, hd]
            rw [h.fs, setNode_ne _ _ (by rintro rfl; exact h.ne rfl), hl]
            simp [shape, hk]
          · have h := h.eq
            rw [he, h]; rfl
    · have h : Same w w' :=
        post_world (line_other (line := line) (present := present) (regex := regex) (ws := ws) (backup := backup) (check := check) hord hm hlk (fun c h => hk ⟨c, h⟩)) (fun _ _ _ h => h.1.2)
      exact untouched_same h

end Verif.Ops
