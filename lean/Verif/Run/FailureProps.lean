/-
C92: what went wrong is shown.
-/
import Verif.Run.FailureLemmas

namespace Verif.Failure

/-- C92: an exception that ends the program is reported as what it is. If it comes from a command that failed, then first, and only
once, the command, its exit code and all that it has printed are shown, no matter how many operations and scripts the exception
passes. Then the places follow from which the scripts were called, and the traceback. (What is missing: output that was not captured, see
`C92_uncaptured_refuted`.) -/
theorem C92_report_partial (cfg : Config) (ls : List Layer) (e : Err) (hc : Captured e.cause) (hi : e.cause ≠ .interrupt) (hs : e.stack = none) :
    ∃ block frames, unhandled cfg ls e = block ++ traceOut cfg.opts.debug (callers ls) ++ [.traceback e.cause frames]
      ∧ (∀ cmd code out err, e.cause = .process (91 :: cmd) code (some out) (some err) → e.printed = false → Guarded ls →
        Block cfg.terminal (91 :: cmd) code out err block)
      ∧ ((∀ cmd code out err, e.cause ≠ .process cmd code out err) ∨ e.printed = true → block = []) := by
  obtain ⟨h1, h2⟩ := through_err (cfg := cfg) ls hc hi
  rw [hs, Option.none_or] at h2
  refine ⟨(through cfg ls e).1, if cfg.opts.debug then (through cfg ls e).2.traceback
    else (lastDynamic cfg (through cfg ls e).2.traceback).getD (through cfg ls e).2.traceback, ?_, fun cmd code out err hp hn hg => ?_, fun h => ?_⟩
  · unfold unhandled
    simp only
    rw [excepthook_eq cfg _ _ h2, List.append_assoc, h1]
  · rw [(through_out ls hc hi).1 hg]
    have : firstOut cfg e = (printProcessError cfg (91 :: cmd) code (some out) (some err)).1 := by simp [firstOut, hp, hn]
    rw [this]
    exact (printProcessError_block cfg (isAnsi_of_ne (by decide) cmd) code out err).2
  · apply firstOut_nil_through ls hc hi
    unfold firstOut
    cases he : e.cause with
    | process a b c d =>
      rcases h with h | h
      · exact absurd he (h a b c d)
      · simp [h]
    | _ => rfl

/-- C92: the traceback of any other exception is complete with `--debug`. Otherwise it begins with the last module of the user,
and nothing is missing after it. -/
theorem C92_traceback (cfg : Config) (ls : List Layer) (e : Err) (ho : ∀ m, e.cause ≠ .operation m) (hp : ∀ a b c d, e.cause ≠ .process a b c d) :
    ∃ before frames, unhandled cfg ls e = before ++ [.traceback e.cause frames]
      ∧ (cfg.opts.debug = true → frames = framesOf ls ++ e.traceback)
      ∧ (cfg.opts.debug = false → FromLastUser cfg.dynamic (framesOf ls ++ e.traceback) frames) := by
  obtain ⟨h1, h2⟩ := through_frames (cfg := cfg) ls ho hp
  unfold unhandled excepthook
  simp only
  cases hd : cfg.opts.debug with
  | true =>
    refine ⟨(through cfg ls e).1, _, by rw [if_pos rfl, h2], fun _ => h1, by simp⟩
  | false =>
    rw [if_neg (by simp)]
    unfold printException
    refine ⟨(through cfg ls e).1 ++ _, _, by rw [List.append_assoc, h2], by simp, fun _ => ?_⟩
    rw [h1]
    exact shown_spec cfg _

/-- The exception is not one that an operation reports in its own way. -/
theorem through_site {cfg : Config} (hd : cfg.opts.debug = false) {site : Frame} (hu : OfUser cfg.dynamic site) : ∀ (ls : List Layer) {e : Err},
    Captured e.cause → e.cause ≠ .interrupt → (∀ l ∈ ls, ∀ c w, l ≠ .operation c w) → (∃ before, e.traceback = before ++ [site]) →
    ∃ before, (through cfg ls e).2.traceback = before ++ [site]
  | [], _, _, _, _, h => h
  | .call f :: ls, e, hc, hi, hl, ⟨b, hb⟩ =>
    through_site hd hu ls (e := { e with traceback := f :: e.traceback }) hc hi (fun l hm => hl l (List.mem_cons_of_mem _ hm)) ⟨f :: b, by simp [hb]⟩
  | .operation c w :: ls, e, hc, hi, hl, _ => absurd rfl (hl _ List.mem_cons_self c w)
  | .script c l :: ls, e, hc, hi, hl, ⟨b, hb⟩ => by
    obtain ⟨p, hr, _⟩ := leaveScript_captured cfg (stackOf (.script c l :: ls)) l hc hi
    rw [through, hr]
    exact through_site hd hu ls (e := { e with printed := p, stack := e.stack.or (some (stackOf (.script c l :: ls))), traceback := l ++ e.traceback }) hc hi
      (fun l hm => hl l (List.mem_cons_of_mem _ hm)) ⟨l ++ b, by simp [hb]⟩

/-- C92: if an operation that a script calls fails, or a command in it, then the traceback consists of the line of the script where the
operation is called, and nothing else. -/
theorem C92_site (cfg : Config) (site wrapper : Frame) (ls : List Layer) (e : Err) (hd : cfg.opts.debug = false) (hu : OfUser cfg.dynamic site)
    (hl : ∀ l ∈ ls, ∀ c w, l ≠ .operation c w) (hc : Captured e.cause) (he : (∃ m, e.cause = .operation m) ∨ ∃ cmd code out err, e.cause = .process cmd code out err) :
    ∃ before, unhandled cfg (.operation site wrapper :: .call site :: ls) e = before ++ [.traceback e.cause [site]] := by
  have hi : e.cause ≠ .interrupt := by
    rcases he with ⟨m, h⟩ | ⟨a, b, c, d, h⟩ <;> rw [h] <;> nofun
  have h1 : ∃ p, (leaveOperation cfg site wrapper e).2 = { e with printed := p, traceback := [wrapper, site] } := by
    obtain ⟨p, hr, _⟩ := report_captured cfg hc
    rcases he with ⟨m, h⟩ | ⟨a, b, c, d, h⟩
    · exact ⟨e.printed, by simp [leaveOperation, h, hd]⟩
    · exact ⟨p, by simp [leaveOperation, h, hr, hd]⟩
  obtain ⟨p, h1⟩ := h1
  obtain ⟨b, hb⟩ := through_site hd hu (.call site :: ls) (e := (leaveOperation cfg site wrapper e).2) (by rw [h1]; exact hc) (by rw [h1]; exact hi)
    (fun l hm => by
      rcases List.mem_cons.1 hm with rfl | hm
      · nofun
      · exact hl l hm) ⟨[wrapper], by rw [h1]; rfl⟩
  have h2 := (through_err (cfg := cfg) (.operation site wrapper :: .call site :: ls) hc hi).1
  have h3 : lastDynamic cfg (b ++ [site]) = some [site] := by
    clear hb
    induction b with
    | nil => simp [lastDynamic, (isDynamic_iff cfg site).2 hu]
    | cons x b ih => simp [lastDynamic, ih]
  unfold unhandled excepthook printException
  simp only [hd]
  rw [h2]
  have hb' : (through cfg (.operation site wrapper :: .call site :: ls) e).2.traceback = b ++ [site] := hb
  rw [hb', h3]
  simp only [Bool.false_eq_true, if_false, Option.getD_some]
  rw [← List.append_assoc]
  exact ⟨_, rfl⟩

/-! ### Examples -/

namespace Example

/-- Frames of fora, of a script and of a script that it calls. -/
def main : Frame := ⟨p!"/usr/lib/fora/main.py", 59, p!"main_run", some [p!"            run_script(args.script)\n"], none⟩
def outer : Frame := ⟨p!"/deploy.py", 3, p!"<module>", some [p!"local.script(\"tasks/web.py\")\n"], some p!"deploy__dynamic__1"⟩
def inner : Frame := ⟨p!"/tasks/web.py", 7, p!"<module>", some [p!"files.upload(\"a\", \"/b\")\n"], some p!"web__dynamic__2"⟩
def fora (n : Nat) : Frame := ⟨p!"/usr/lib/fora/loader.py", n, p!"run_script", none, none⟩
def wrapper : Frame := ⟨p!"/usr/lib/fora/operations/api.py", 261, p!"wrapper", none, none⟩
def helper : Frame := ⟨p!"/usr/lib/fora/connection.py", 112, p!"run", none, none⟩

def cfg : Config := { opts := { noColor := true }, terminal := 80, dynamic := [p!"deploy__dynamic__1", p!"web__dynamic__2"] }

/-- A command in an operation, in a script, in a script. -/
def layers : List Layer := [.call helper, .operation inner wrapper, .call inner, .script outer [fora 132], .call outer, .script main [fora 132], .call main]

def failed : Err := { cause := .process p!"['false']" 1 (some b!"out") (some [0xff]) }

example : (unhandled cfg layers failed).map (fun | .line c => (Run.visible c).takeWhile (· != 10) | .text s => s | .traceback _ fs => (fs.map (·.filename)).flatten)
    = [p!"──────── command ['false'] failed with code 1 ]─────────────────────────────────",
       p!"──────── stdout (special characters escaped) ───────────────────────────────────", p!"out",
       p!"──────── stderr (special characters escaped) ───────────────────────────────────", p!"\\xff",
       p!"──────── end ───────────────────────────────────────────────────────────────────",
       p!"Script stack (most recent call last):\n  File \"/deploy.py\", line 3, in <module>\n    local.script(\"tasks/web.py\")",
       p!"/tasks/web.py"] := by decide +kernel

/-- The hypotheses of the theorems are met. -/
example : Captured failed.cause ∧ failed.cause ≠ .interrupt ∧ failed.stack = none ∧ failed.printed = false ∧ Guarded layers :=
  ⟨⟨rfl, rfl⟩, by nofun, rfl, rfl, .operation inner wrapper, by simp [layers], by nofun⟩
example : OfUser cfg.dynamic inner := ⟨_, rfl, by decide⟩
/-- Another exception, in a function that the inner script calls. -/
example : (unhandled cfg (layers.drop 2) { cause := .exception p!"KeyError", traceback := [helper] }).getLast? = some (.traceback (.exception p!"KeyError") [inner, helper]) := by
  decide +kernel

end Example

/-- It is not true that special characters of the output are escaped, although the heading says so: an escape sequence of a command
reaches the terminal. -/
theorem C92_escaped_refuted : ∃ (cfg : Config) (ls : List Layer) (cmd : Str) (out err : Bytes), cfg.opts.noColor = true
    ∧ outputHeading cfg p!"stdout" ∈ unhandled cfg ls { cause := .process cmd 1 (some out) (some err) }
    ∧ .text [27, 91, 50, 74, 7] ∈ unhandled cfg ls { cause := .process cmd 1 (some out) (some err) } :=
  ⟨Example.cfg, Example.layers, p!"['x']", [27, 91, 50, 74, 7], [], rfl, by decide +kernel, by decide +kernel⟩

/-- It is not true that an exception is always reported as what it is: if the output of a command that fails was not captured, then
the report about it fails, the program ends with an `AttributeError` instead, and the script in which it happened is not mentioned. -/
theorem C92_uncaptured_refuted : ∃ (cfg : Config) (ls : List Layer) (e : Err), Guarded ls ∧ (callers ls).length = 2
    ∧ e.cause = .process p!"['false']" 1 none none
    ∧ ∃ frames, (unhandled cfg ls e).getLast? = some (.traceback (.exception p!"'NoneType' object has no attribute 'decode'") frames) ∧ Example.inner ∉ frames
      ∧ ∀ s, .text s ∉ unhandled cfg ls e :=
  ⟨Example.cfg, Example.layers.drop 2, { cause := .process p!"['false']" 1 none none, traceback := [Example.helper] },
    ⟨.script Example.outer [Example.fora 132], by simp [Example.layers], by nofun⟩, by decide, rfl, [Example.outer, Example.fora 132], by decide +kernel, by decide +kernel,
    by
      have h : (unhandled Example.cfg (Example.layers.drop 2) { cause := .process p!"['false']" 1 none none, traceback := [Example.helper] }).all (fun | .text _ => false | _ => true) = true := by
        decide +kernel
      intro s hs
      have := List.all_eq_true.1 h _ hs
      cases this⟩

end Verif.Failure
