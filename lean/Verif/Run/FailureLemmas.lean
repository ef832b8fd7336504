/-
Lemmas for C92.
-/
import Verif.Run.FailureSpec
import Verif.Inventory.TableProps

namespace Verif.Failure
open Run (Cell visible HexOf hexOf encodeUtf8_single col ansi useColor fullWidth isAnsi)
open Py

theorem verbatim_aux : ∀ (n : Nat) (b : Bytes), b.length ≤ n → Verbatim b (decodeBackslashAux n b)
  | 0, [], _ => .nil
  | 0, _ :: _, h => by simp at h
  | n + 1, [], _ => .nil
  | n + 1, b :: r, h => by
    unfold decodeBackslashAux
    split
    · next c r' hd =>
      have hl := decodeChar_length hd
      obtain ⟨e, he, hbr⟩ := encodeChar_decodeChar hd
      rw [hbr]
      simp only [List.length_cons] at hl h
      exact .char c e r' _ (encodeUtf8_single.mpr he) (verbatim_aux n r' (by omega))
    · next hd =>
      refine .byte b r _ _ ?_ (hexOf (u8_lt b)) (verbatim_aux n r (by simpa using h))
      intro c e r' he hbr
      rw [hbr, decodeChar_encodeChar (encodeUtf8_single.mp he)] at hd
      cases hd

theorem verbatim_decode (b : Bytes) : Verbatim b (decodeBackslash b) := verbatim_aux _ _ (Nat.le_refl _)

/-! ### The report about a command -/

theorem ruled (cfg : Config) (left : Cell) : Ruled cfg.terminal (visible left) (heading cfg left) := by
  obtain ⟨⟨n, h1⟩, h2⟩ := Run.C86_heading cfg.terminal left []
  exact ⟨_, n, rfl, by simpa [visible] using h1, by simpa [visible] using h2⟩

theorem visible_col (o : Run.Options) (code : Str) (c : Cell) : visible (col o code :: c) = visible c := by
  unfold col
  split
  · have : isAnsi (ansi code) = true := by simp [isAnsi, ansi, Py.startsWith]
    simp [visible, this]
  · rw [visible, List.filter_cons_of_pos (by decide)]; rfl

theorem visible_text {s : Str} (h : isAnsi s = false) (c : Cell) : visible (s :: c) = s ++ visible c := by simp [visible, h]

theorem isAnsi_of_ne {a : Nat} (h : a ≠ 27) (s : Str) : isAnsi (a :: s) = false := by
  have : (27 == a) = false := by simpa using Ne.symm h
  show ((27 == a) && [91].isPrefixOf s) = false
  rw [this]; rfl

/-- Both outputs were captured. -/
theorem printProcessError_block (cfg : Config) {cmd : Str} (hc : isAnsi cmd = false) (code : Int) (out err : Bytes) :
    (printProcessError cfg cmd code (some out) (some err)).2 = true
      ∧ Block cfg.terminal cmd code out err (printProcessError cfg cmd code (some out) (some err)).1 := by
  refine ⟨rfl, _, _, _, _, _, _, rfl, ?_, ?_, verbatim_decode out, ?_, verbatim_decode err, ?_⟩
  · have h := ruled cfg [p!"──────── ", col cfg.opts p!"1;31", p!"command", col cfg.opts p!"", p!" ", cmd, p!" ", col cfg.opts p!"1;31", p!"failed", col cfg.opts p!"", p!" ",
      p!"with code " ++ Py.intStr code ++ p!" ]"]
    rw [visible_text (by decide), visible_col, visible_text (by decide), visible_col, visible_text (by decide), visible_text hc, visible_text (by decide), visible_col,
      visible_text (by decide), visible_col, visible_text (by decide), visible_text (show isAnsi (p!"with code " ++ Py.intStr code ++ p!" ]") = false from isAnsi_of_ne (by decide) _)] at h
    have e : visible [] = [] := rfl
    rw [e] at h
    have : p!"──────── " ++ (p!"command" ++ (p!" " ++ (cmd ++ (p!" " ++ (p!"failed" ++ (p!" " ++ ((p!"with code " ++ Py.intStr code ++ p!" ]") ++ [])))))))
        = p!"──────── command " ++ cmd ++ p!" failed with code " ++ Py.intStr code ++ p!" ]" := by
      simp only [List.append_assoc, List.append_nil]
      rfl
    rw [this] at h
    exact h
  · have h := ruled cfg [p!"──────── ", col cfg.opts p!"1;33", p!"stdout", col cfg.opts p!"", col cfg.opts p!"90", p!" (special characters escaped) ", col cfg.opts p!""]
    rw [visible_text (by decide), visible_col, visible_text (by decide), visible_col, visible_col, visible_text (by decide), visible_col] at h
    exact h
  · have h := ruled cfg [p!"──────── ", col cfg.opts p!"1;33", p!"stderr", col cfg.opts p!"", col cfg.opts p!"90", p!" (special characters escaped) ", col cfg.opts p!""]
    rw [visible_text (by decide), visible_col, visible_text (by decide), visible_col, visible_col, visible_text (by decide), visible_col] at h
    exact h
  · have h := ruled cfg [p!"──────── ", col cfg.opts p!"1;33", p!"end", col cfg.opts p!"", col cfg.opts p!"90", p!" ", col cfg.opts p!""]
    rw [visible_text (by decide), visible_col, visible_text (by decide), visible_col, visible_col, visible_text (by decide), visible_col] at h
    exact h

/-! ### The way out -/

/-- What is printed at the first operation or script. -/
def firstOut (cfg : Config) (e : Err) : List Out :=
  match e.cause with
  | .process cmd code stdout stderr => if e.printed then [] else (printProcessError cfg cmd code stdout stderr).1
  | _ => []

theorem report_captured (cfg : Config) {e : Err} (h : Captured e.cause) :
    ∃ p, report cfg e = (firstOut cfg e, .ok { e with printed := p }) ∧ firstOut cfg { e with printed := p } = [] := by
  obtain ⟨cause, printed, stack, tb⟩ := e
  cases cause with
  | process cmd code stdout stderr =>
    obtain ⟨h1, h2⟩ := h
    cases printed with
    | true => exact ⟨true, rfl, rfl⟩
    | false =>
      cases stdout with
      | none => simp at h1
      | some out =>
        cases stderr with
        | none => simp at h2
        | some err => exact ⟨true, rfl, rfl⟩
  | operation m => exact ⟨printed, rfl, rfl⟩
  | exception m => exact ⟨printed, rfl, rfl⟩
  | interrupt => exact ⟨printed, rfl, rfl⟩

theorem leaveOperation_captured (cfg : Config) (c w : Frame) {e : Err} (h : Captured e.cause) :
    ∃ p tb, leaveOperation cfg c w e = (firstOut cfg e, { e with printed := p, traceback := tb }) ∧ firstOut cfg { e with printed := p, traceback := tb } = []
      ∧ ((∀ m, e.cause ≠ .operation m) → (∀ a b c d, e.cause ≠ .process a b c d) → tb = w :: e.traceback) := by
  obtain ⟨p, hr, hp⟩ := report_captured cfg h
  obtain ⟨cause, printed, stack, tb⟩ := e
  cases cause with
  | process cmd code stdout stderr =>
    refine ⟨p, if cfg.opts.debug then w :: tb else [w, c], ?_, hp, fun _ hx => absurd rfl (hx _ _ _ _)⟩
    simp [leaveOperation, hr]
  | operation m => exact ⟨printed, _, rfl, rfl, fun hx => absurd rfl (hx _)⟩
  | exception m => exact ⟨printed, _, rfl, rfl, fun _ _ => rfl⟩
  | interrupt => exact ⟨printed, _, rfl, rfl, fun _ _ => rfl⟩

theorem leaveScript_captured (cfg : Config) (stack loader : List Frame) {e : Err} (h : Captured e.cause) (hi : e.cause ≠ .interrupt) :
    ∃ p, leaveScript cfg stack loader e = (firstOut cfg e, { e with printed := p, stack := e.stack.or (some stack), traceback := loader ++ e.traceback })
      ∧ firstOut cfg { e with printed := p, stack := e.stack.or (some stack), traceback := loader ++ e.traceback } = [] := by
  obtain ⟨p, hr, hp⟩ := report_captured cfg h
  refine ⟨p, ?_, hp⟩
  obtain ⟨cause, printed, st, tb⟩ := e
  have : (if st.isNone then some stack else st) = st.or (some stack) := by cases st <;> rfl
  cases cause with
  | interrupt => exact absurd rfl hi
  | process a b c d => simp only [leaveScript, hr, this]
  | operation m => simp only [leaveScript, hr, this]
  | exception m => simp only [leaveScript, hr, this]

theorem stackOf_eq (ls : List Layer) : stackOf ls = callers ls := by
  unfold stackOf
  induction ls with
  | nil => rfl
  | cons l ls ih => cases l <;> simp [List.filterMap_cons, Layer.scriptCaller, callers, ih]

theorem firstOut_traceback (cfg : Config) (e : Err) (tb : List Frame) : firstOut cfg { e with traceback := tb } = firstOut cfg e := rfl

theorem firstOut_nil_through {cfg : Config} : ∀ (ls : List Layer) {e : Err}, Captured e.cause → e.cause ≠ .interrupt → firstOut cfg e = [] →
    (through cfg ls e).1 = []
  | [], _, _, _, _ => rfl
  | .call f :: ls, e, h, hi, hf => firstOut_nil_through ls (e := { e with traceback := f :: e.traceback }) h hi hf
  | .operation c w :: ls, e, h, hi, hf => by
    obtain ⟨p, tb, hr, hp, _⟩ := leaveOperation_captured cfg c w h
    rw [through, hr]
    simp only [hf, List.nil_append]
    exact firstOut_nil_through ls (e := { e with printed := p, traceback := tb }) h hi hp
  | .script c l :: ls, e, h, hi, hf => by
    obtain ⟨p, hr, hp⟩ := leaveScript_captured cfg (stackOf (.script c l :: ls)) l h hi
    rw [through, hr]
    simp only [hf, List.nil_append]
    exact firstOut_nil_through ls (e := { e with printed := p, stack := e.stack.or (some (stackOf (.script c l :: ls))), traceback := l ++ e.traceback }) h hi hp

/-- The output of a command is printed where the exception leaves the first operation or script, and not again. -/
theorem through_out {cfg : Config} : ∀ (ls : List Layer) {e : Err}, Captured e.cause → e.cause ≠ .interrupt →
    (Guarded ls → (through cfg ls e).1 = firstOut cfg e) ∧ (¬ Guarded ls → (through cfg ls e).1 = [])
  | [], _, _, _ => ⟨fun ⟨_, h, _⟩ => by simp at h, fun _ => rfl⟩
  | .call f :: ls, e, h, hi => by
    obtain ⟨h1, h2⟩ := through_out ls (cfg := cfg) (e := { e with traceback := f :: e.traceback }) h hi
    have hg : Guarded (.call f :: ls) ↔ Guarded ls := by
      constructor
      · rintro ⟨l, hl, hf⟩
        rcases List.mem_cons.1 hl with rfl | hl
        · exact absurd rfl (hf f)
        · exact ⟨l, hl, hf⟩
      · rintro ⟨l, hl, hf⟩
        exact ⟨l, List.mem_cons_of_mem _ hl, hf⟩
    exact ⟨fun hx => h1 (hg.1 hx), fun hx => h2 (fun hy => hx (hg.2 hy))⟩
  | .operation c w :: ls, e, h, hi => by
    obtain ⟨p, tb, hr, hp, _⟩ := leaveOperation_captured cfg c w h
    refine ⟨fun _ => ?_, fun hx => absurd ⟨_, List.mem_cons_self, by nofun⟩ hx⟩
    rw [through, hr]
    simp only [firstOut_nil_through ls (e := { e with printed := p, traceback := tb }) h hi hp, List.append_nil]
  | .script c l :: ls, e, h, hi => by
    obtain ⟨p, hr, hp⟩ := leaveScript_captured cfg (stackOf (.script c l :: ls)) l h hi
    refine ⟨fun _ => ?_, fun hx => absurd ⟨_, List.mem_cons_self, by nofun⟩ hx⟩
    rw [through, hr]
    simp only [firstOut_nil_through ls (e := { e with printed := p, stack := e.stack.or (some (stackOf (.script c l :: ls))), traceback := l ++ e.traceback }) h hi hp,
      List.append_nil]

/-- The exception remains what it is, and the stack of scripts is the one at the place where it was raised. -/
theorem through_err {cfg : Config} : ∀ (ls : List Layer) {e : Err}, Captured e.cause → e.cause ≠ .interrupt →
    (through cfg ls e).2.cause = e.cause ∧ (through cfg ls e).2.stack = e.stack.or (if callers ls = [] then none else some (callers ls))
  | [], e, _, _ => ⟨rfl, by simp [through, callers]⟩
  | .call f :: ls, e, h, hi => through_err ls (e := { e with traceback := f :: e.traceback }) h hi
  | .operation c w :: ls, e, h, hi => by
    obtain ⟨p, tb, hr, _, _⟩ := leaveOperation_captured cfg c w h
    rw [through, hr]
    exact through_err ls (e := { e with printed := p, traceback := tb }) h hi
  | .script c l :: ls, e, h, hi => by
    obtain ⟨p, hr, _⟩ := leaveScript_captured cfg (stackOf (.script c l :: ls)) l h hi
    rw [through, hr]
    obtain ⟨h1, h2⟩ := through_err ls (cfg := cfg) (e := { e with printed := p, stack := e.stack.or (some (stackOf (.script c l :: ls))), traceback := l ++ e.traceback }) h hi
    refine ⟨h1, ?_⟩
    simp only at h2 ⊢
    rw [h2, stackOf_eq]
    cases e.stack <;> simp [callers]

/-! ### What is printed at the end -/

theorem join_snoc_lines (ls : List Str) (h : Str) : (h ++ p!"\n" ++ (ls.map (· ++ p!"\n")).flatten).dropLast = Py.join p!"\n" (h :: ls) := by
  induction ls generalizing h with
  | nil => simp [Py.join]
  | cons l ls ih =>
    have := ih l
    rw [Py.join]
    rw [← this]
    simp only [List.map_cons, List.flatten_cons]
    rw [List.append_assoc h, List.append_assoc h, List.append_assoc, List.dropLast_append_of_ne_nil (by simp), List.dropLast_append_of_ne_nil (by simp)]

theorem formatFrame_lines (f : Frame) : formatFrame f = ((frameLines f).map (· ++ p!"\n")).flatten := by
  unfold formatFrame frameLines
  simp only [List.map_cons, List.flatten_cons, List.map_map, Function.comp_def]

theorem scriptTrace_eq (stack : List Frame) : scriptTrace stack = traceText stack := by
  unfold scriptTrace traceText
  rw [← join_snoc_lines]
  congr 1
  have : ((stack.drop 1).map formatFrame).flatten = (((stack.drop 1).flatMap frameLines).map (· ++ p!"\n")).flatten := by
    induction stack.drop 1 with
    | nil => rfl
    | cons f fs ih => simp only [List.map_cons, List.flatten_cons, List.flatMap_cons, List.map_append, List.flatten_append, ih, formatFrame_lines]
  rw [this]
  rfl

theorem isDynamic_iff (cfg : Config) (f : Frame) : isDynamic cfg f = true ↔ OfUser cfg.dynamic f := by
  unfold isDynamic OfUser
  cases f.name with
  | none => simp
  | some n => simp

theorem lastDynamic_spec (cfg : Config) : ∀ fs : List Frame,
    (∃ before f after, fs = before ++ f :: after ∧ lastDynamic cfg fs = some (f :: after) ∧ OfUser cfg.dynamic f ∧ ∀ x ∈ after, ¬ OfUser cfg.dynamic x)
    ∨ (lastDynamic cfg fs = none ∧ ∀ x ∈ fs, ¬ OfUser cfg.dynamic x)
  | [] => Or.inr ⟨rfl, by simp⟩
  | g :: fs => by
    rcases lastDynamic_spec cfg fs with ⟨b, f, a, h1, h2, h3, h4⟩ | ⟨h1, h2⟩
    · exact Or.inl ⟨g :: b, f, a, by simp [h1], by simp [lastDynamic, h2], h3, h4⟩
    · by_cases hg : OfUser cfg.dynamic g
      · exact Or.inl ⟨[], g, fs, rfl, by simp [lastDynamic, h1, (isDynamic_iff cfg g).2 hg], hg, h2⟩
      · refine Or.inr ⟨?_, fun x hx => ?_⟩
        · have : isDynamic cfg g = false := by
            cases hd : isDynamic cfg g with
            | false => rfl
            | true => exact absurd ((isDynamic_iff cfg g).1 hd) hg
          simp [lastDynamic, h1, this]
        · rcases List.mem_cons.1 hx with rfl | hx
          · exact hg
          · exact h2 x hx

theorem shown_spec (cfg : Config) (fs : List Frame) : FromLastUser cfg.dynamic fs ((lastDynamic cfg fs).getD fs) := by
  rcases lastDynamic_spec cfg fs with ⟨b, f, a, h1, h2, h3, h4⟩ | ⟨h1, h2⟩
  · exact Or.inl ⟨b, f, a, h1, by rw [h2]; rfl, h3, h4⟩
  · exact Or.inr ⟨by rw [h1]; rfl, h2⟩

/-- The last part of what is printed. -/
theorem excepthook_eq (cfg : Config) (e : Err) (cs : List Frame) (hs : e.stack = if cs = [] then none else some cs) :
    excepthook cfg e = traceOut cfg.opts.debug cs ++ [.traceback e.cause (if cfg.opts.debug then e.traceback else (lastDynamic cfg e.traceback).getD e.traceback)] := by
  unfold excepthook traceOut
  cases hd : cfg.opts.debug with
  | true => simp
  | false =>
    unfold printException
    rw [hs]
    match cs with
    | [] => simp
    | [c] => simp
    | c :: d :: cs => simp [scriptTrace_eq]

/-- The traceback of an exception that is none of a command or of an operation. -/
theorem through_frames {cfg : Config} : ∀ (ls : List Layer) {e : Err}, (∀ m, e.cause ≠ .operation m) → (∀ a b c d, e.cause ≠ .process a b c d) →
    (through cfg ls e).2.traceback = framesOf ls ++ e.traceback ∧ (through cfg ls e).2.cause = e.cause
  | [], e, _, _ => ⟨rfl, rfl⟩
  | .call f :: ls, e, h1, h2 => by
    obtain ⟨a, b⟩ := through_frames ls (cfg := cfg) (e := { e with traceback := f :: e.traceback }) h1 h2
    exact ⟨by rw [through, a]; simp [framesOf], b⟩
  | .operation c w :: ls, e, h1, h2 => by
    have hc : Captured e.cause := by
      cases h : e.cause with
      | process a b c d => exact absurd h (h2 a b c d)
      | _ => trivial
    obtain ⟨p, tb, hr, _, ht⟩ := leaveOperation_captured cfg c w hc
    have ht := ht h1 h2
    subst ht
    obtain ⟨a, b⟩ := through_frames ls (cfg := cfg) (e := { e with printed := p, traceback := w :: e.traceback }) h1 h2
    rw [through, hr]
    exact ⟨by simp only [a]; simp [framesOf], b⟩
  | .script c l :: ls, e, h1, h2 => by
    have : ∃ r, leaveScript cfg (stackOf (.script c l :: ls)) l e = r ∧ r.2.traceback = l ++ e.traceback ∧ r.2.cause = e.cause := by
      refine ⟨_, rfl, ?_⟩
      cases h : e.cause with
      | process a b c d => exact absurd h (h2 a b c d)
      | operation m => exact absurd h (h1 m)
      | exception m => simp [leaveScript, report, h]
      | interrupt => simp [leaveScript, h]
    obtain ⟨r, hr, ht, hc⟩ := this
    obtain ⟨a, b⟩ := through_frames ls (cfg := cfg) (e := r.2) (by rw [hc]; exact h1) (by rw [hc]; exact h2)
    rw [through, hr]
    exact ⟨by simp only [a, ht]; simp [framesOf], by simp only [b, hc]⟩

end Verif.Failure
