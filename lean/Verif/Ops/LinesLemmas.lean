/-
Lemmas about several calls of `line` for one file.
-/
import Verif.Ops.LinesSpec
import Verif.Ops.LineProps
import Verif.Ops.ResultLemmas
import Verif.Ops.DeployLemmas
import Verif.Ops.DryProps

namespace Verif.Ops

open Script Remote

/-! ### Sizes -/

/-- The number of bytes of a character. -/
def width (c : Nat) : Nat := ((Py.encodeEscapeChar c).getD []).length

def size (s : Str) : Nat := (s.map width).sum

theorem size_append (a b : Str) : size (a ++ b) = size a + size b := by simp [size]

theorem size_cons (c : Nat) (s : Str) : size (c :: s) = width c + size s := by simp [size]

theorem size_reverse (s : Str) : size s.reverse = size s := by
  induction s with
  | nil => rfl
  | cons c s ih => rw [List.reverse_cons, size_append, ih, size_cons, size_cons]; simp [size]; omega

theorem encode_size : ∀ {s : Str} {b : Bytes}, Py.encodeEscape s = some b → b.length = size s
  | [], b, h => by cases h; rfl
  | c :: s, b, h => by
    unfold Py.encodeEscape at h
    cases hc : Py.encodeEscapeChar c with
    | none => rw [hc] at h; cases h
    | some e =>
      rw [hc] at h
      obtain ⟨b', h1, rfl⟩ := Option.map_eq_some_iff.mp h
      rw [size_cons, List.length_append, encode_size h1]
      unfold width
      rw [hc]
      rfl

theorem width_le (c : Nat) : width c ≤ 4 := by
  unfold width Py.encodeEscapeChar
  split
  · simp
  · unfold Py.encodeChar
    repeat' split
    all_goals simp

theorem size_le (s : Str) : size s ≤ 4 * s.length := by
  induction s with
  | nil => simp [size]
  | cons c s ih =>
    have := width_le c
    rw [size_cons, List.length_cons]
    omega

theorem width_break {c : Nat} (h : Py.isLineBreak c = true) : 1 ≤ width c := by
  unfold Py.isLineBreak at h
  have : c = 10 ∨ c = 11 ∨ c = 12 ∨ c = 13 ∨ c = 28 ∨ c = 29 ∨ c = 30 ∨ c = 133 ∨ c = 8232 ∨ c = 8233 := by
    simpa [or_assoc] using h
  rcases this with rfl | rfl | rfl | rfl | rfl | rfl | rfl | rfl | rfl | rfl <;> decide

theorem size_terminated_cons (x : Str) (xs : List Str) : size (Py.terminated (x :: xs)) = size x + 1 + size (Py.terminated xs) := by
  rw [Py.terminated, size_append, size_cons]
  have : width 10 = 1 := by decide
  omega

theorem size_splitlinesAux : ∀ (n : Nat) (s acc : Str), s.length ≤ n → size (Py.terminated (Py.splitlinesAux s acc)) ≤ size acc + size s + 1 := by
  intro n
  induction n with
  | zero =>
    intro s acc h
    have : s = [] := List.length_eq_zero_iff.mp (by omega)
    subst this
    unfold Py.splitlinesAux
    split
    · simp [Py.terminated, size]
    · rw [size_terminated_cons, size_reverse]; simp [Py.terminated, size]
  | succ n ih =>
    intro s acc h
    cases s with
    | nil => exact ih [] acc (by simp)
    | cons c cs =>
      rw [List.length_cons] at h
      unfold Py.splitlinesAux
      split
      · next hb =>
        have hw := width_break hb
        split
        · next cs' =>
          have := ih cs' [] (by rw [List.length_cons] at h; omega)
          rw [size_terminated_cons, size_reverse, size_cons, size_cons]
          have h0 : size [] = 0 := rfl
          omega
        · have := ih cs [] (by omega)
          rw [size_terminated_cons, size_reverse, size_cons]
          have h0 : size [] = 0 := rfl
          omega
      · have := ih cs (c :: acc) (by omega)
        rw [size_cons] at this
        rw [size_cons]
        omega

theorem size_filter (p : Str → Bool) (ls : List Str) : size (Py.terminated (ls.filter p)) ≤ size (Py.terminated ls) := by
  induction ls with
  | nil => simp
  | cons x xs ih =>
    rw [List.filter_cons]
    split
    · rw [size_terminated_cons, size_terminated_cons]; omega
    · rw [size_terminated_cons]; omega

theorem lineContent_size {line : Str} {present ws : Bool} {old new : Bytes} (h : lineContent line present none ws old = some new) :
    new.length ≤ old.length + (4 * line.length + 2) := by
  have h1 := encode_size h
  have h2 := encode_size (Py.encodeEscape_decodeEscape old)
  have h3 := size_splitlinesAux _ (Py.decodeEscape old) [] (Nat.le_refl _)
  have h4 : size [] = 0 := rfl
  change size (Py.terminated (Py.splitlines (Py.decodeEscape old))) ≤ _ at h3
  have h5 := size_le line
  rw [joinLines_eq] at h1
  rw [h1]
  split
  · rw [size_terminated_cons]
    have h6 : size (Py.terminated []) = 0 := rfl
    omega
  · unfold newLines
    split
    · rw [Py.terminated_append, size_append, size_terminated_cons]
      have h6 : size (Py.terminated []) = 0 := rfl
      omega
    · simp only
      split
      · have := size_filter (fun l => line != Py.strip l) (Py.splitlines (Py.decodeEscape old)); omega
      · have := size_filter (fun l => line != l) (Py.splitlines (Py.decodeEscape old)); omega

/-! ### What the calls make of the content -/

namespace LineCall

/-- Whether the operation finds the line. -/
def found (c : LineCall) (o : Option Bytes) : Bool := o.any fun b => linePresent c.line none c.ignoreWhitespace (Py.decodeEscape b)

/-- What the operation makes of the content. -/
def step (c : LineCall) (o : Option Bytes) : Option Bytes :=
  if c.found o = c.present then o else lineContent c.line c.present none c.ignoreWhitespace (o.getD [])

def steps (calls : List LineCall) (o : Option Bytes) : Option Bytes := calls.foldl (fun o c => c.step o) o

theorem found_iff {c : LineCall} {o : Option Bytes} : c.found o = true ↔ c.There o := by
  unfold found There
  cases o with
  | none => simp [textLines, Py.decodeEscape, Py.decodeEscapeAux, Py.splitlines, Py.splitlinesAux]
  | some b =>
    simp only [Option.any_some, Option.getD_some]
    exact linePresent_iff

theorem About.strip {c : LineCall} {x : Str} (h : c.About x) : Py.strip x = Py.strip c.line := by
  unfold About SameLine at h
  split at h
  · exact h
  · rw [h]

theorem about_line (c : LineCall) : c.About c.line := by
  unfold About SameLine
  split <;> rfl

theorem removes_eq {c : LineCall} (hp : c.Proper) (hpr : c.present = false) (ls : List Str) :
    newLines c.line false none c.ignoreWhitespace ls = ls.filter fun x => ¬ c.About x := by
  unfold newLines About SameLine
  simp only [Bool.false_eq_true, if_false]
  split
  · next hw =>
    have hst := hp.stripped hpr hw
    congr 1
    funext x
    rw [hst]
    by_cases h : c.line = Py.strip x
    · rw [← h]; simp
    · have : ¬ Py.strip x = c.line := fun h' => h h'.symm
      simp [this, h]
  · next hw =>
    congr 1
    funext x
    by_cases h : c.line = x
    · subst h; simp
    · have : ¬ x = c.line := fun h' => h h'.symm
      simp [this, h]

/-- The lines after a call that changes something. -/
theorem step_lines {c : LineCall} (hp : c.Proper) {o : Option Bytes} (h : c.found o ≠ c.present) :
    ∃ new, c.step o = some new ∧ textLines new = (if c.present then textLines (o.getD []) ++ [c.line]
      else if (textLines (o.getD [])).filter (fun x => ¬ c.About x) = [] then [[]] else (textLines (o.getD [])).filter fun x => ¬ c.About x) := by
  unfold step
  rw [if_neg h]
  cases hpr : c.present with
  | true =>
    obtain ⟨new, h1, _, h3⟩ := added (ws := c.ignoreWhitespace) (old := o.getD []) hp.line none
    exact ⟨new, h1, h3⟩
  | false =>
    obtain ⟨new, h1, _, h3⟩ := removed (line := c.line) (ws := c.ignoreWhitespace) (old := o.getD []) none
    refine ⟨new, h1, ?_⟩
    rw [h3, removes_eq hp hpr]
    rfl

theorem not_about_empty {c : LineCall} (hp : c.Proper) : ¬ c.About [] := by
  intro h
  apply hp.blank
  rw [← h.strip]
  rfl

theorem step_there {c : LineCall} (hp : c.Proper) (o : Option Bytes) : (c.step o).isSome = (o.isSome || c.present) ∧ c.found (c.step o) = c.present := by
  by_cases h : c.found o = c.present
  · have hs : c.step o = o := by unfold step; rw [if_pos h]
    rw [hs]
    refine ⟨?_, h⟩
    cases o with
    | none =>
      have : c.present = false := h.symm
      rw [this]; rfl
    | some b => rfl
  · obtain ⟨new, h1, h2⟩ := step_lines hp h
    rw [h1]
    constructor
    · cases hpr : c.present with
      | true => simp
      | false =>
        rw [hpr] at h
        cases o with
        | none => exact absurd rfl h
        | some b => rfl
    · cases hpr : c.present with
      | true =>
        rw [hpr] at h2
        exact found_iff.mpr ⟨c.line, by show c.line ∈ textLines new; rw [h2]; simp, c.about_line⟩
      | false =>
        rw [hpr] at h2
        cases hf : c.found (some new) with
        | false => rfl
        | true =>
          obtain ⟨x, hx, ha⟩ := found_iff.mp hf
          change x ∈ textLines new at hx
          rw [h2] at hx
          simp only [Bool.false_eq_true, if_false] at hx
          split at hx
          · simp only [List.mem_singleton] at hx
            subst hx
            exact absurd ha (not_about_empty hp)
          · have := (List.mem_filter.mp hx).2
            simp only [decide_not, Bool.not_eq_true', decide_eq_false_iff_not] at this
            exact absurd ha this

/-- Calls for other lines do not matter. -/
theorem step_other {c d : LineCall} (hp : c.Proper) (hd : d.Proper) (hne : Py.strip c.line ≠ Py.strip d.line) (o : Option Bytes) : d.found (c.step o) = d.found o := by
  by_cases h : c.found o = c.present
  · have hs : c.step o = o := by unfold step; rw [if_pos h]
    rw [hs]
  · obtain ⟨new, h1, h2⟩ := step_lines hp h
    rw [h1]
    apply Bool.eq_iff_iff.mpr
    rw [found_iff, found_iff]
    unfold There
    simp only [Option.getD_some]
    rw [h2]
    split
    · constructor
      · rintro ⟨x, hx, ha⟩
        rcases List.mem_append.mp hx with hx | hx
        · exact ⟨x, hx, ha⟩
        · simp only [List.mem_singleton] at hx
          subst hx
          exact absurd ha.strip hne
      · rintro ⟨x, hx, ha⟩
        exact ⟨x, List.mem_append_left _ hx, ha⟩
    · have key : ∀ x, d.About x → ¬ c.About x := fun x hx hc => hne (hc.strip.symm.trans hx.strip)
      constructor
      · rintro ⟨x, hx, ha⟩
        split at hx
        · simp only [List.mem_singleton] at hx
          subst hx
          exact absurd ha (not_about_empty hd)
        · exact ⟨x, (List.mem_filter.mp hx).1, ha⟩
      · rintro ⟨x, hx, ha⟩
        have hm : x ∈ (textLines (o.getD [])).filter fun x => ¬ c.About x := List.mem_filter.mpr ⟨hx, by simpa using key x ha⟩
        rw [if_neg (by intro he; rw [he] at hm; cases hm)]
        exact ⟨x, hm, ha⟩

theorem steps_cons (c : LineCall) (cs : List LineCall) (o : Option Bytes) : steps (c :: cs) o = steps cs (c.step o) := rfl

theorem steps_other {d : LineCall} (hd : d.Proper) : ∀ (calls : List LineCall) (_ : ∀ c ∈ calls, c.Proper) (_ : ∀ c ∈ calls, Py.strip c.line ≠ Py.strip d.line)
    (o : Option Bytes), d.found (steps calls o) = d.found o
  | [], _, _, _ => rfl
  | c :: cs, hp, hne, o => by
    rw [steps_cons, steps_other hd cs (fun x h => hp x (by simp [h])) (fun x h => hne x (by simp [h])), step_other (hp c (by simp)) hd (hne c (by simp))]

theorem steps_there : ∀ (calls : List LineCall) (_ : ∀ c ∈ calls, c.Proper) (_ : Apart calls) (o : Option Bytes), ∀ c ∈ calls, c.found (steps calls o) = c.present
  | [], _, _, _, _, h => by cases h
  | d :: cs, hp, ha, o, c, hc => by
    unfold Apart at ha
    rw [List.pairwise_cons] at ha
    rw [steps_cons]
    rcases List.mem_cons.mp hc with rfl | hc
    · rw [steps_other (hp c (by simp)) cs (fun x h => hp x (by simp [h])) (fun x h => (ha.1 x h).symm)]
      exact (step_there (hp c (by simp)) o).2
    · exact steps_there cs (fun x h => hp x (by simp [h])) ha.2 _ c hc

theorem fullLines_step {c : LineCall} (hp : c.Proper) (o : Option Bytes) :
    fullLines (c.step o) = (fullLines o).filter (fun x => c.present || !decide (c.About x)) ++ (if c.present && !c.found o then [c.line] else []) := by
  have hne : c.line ≠ [] := by
    intro h
    apply hp.blank
    rw [h]
    rfl
  by_cases h : c.found o = c.present
  · have hs : c.step o = o := by unfold step; rw [if_pos h]
    rw [hs, h]
    have : (c.present && !c.present) = false := by cases c.present <;> rfl
    rw [this]
    simp only [Bool.false_eq_true, if_false, List.append_nil]
    symm
    apply List.filter_eq_self.mpr
    intro x hx
    cases hpr : c.present with
    | true => rfl
    | false =>
      rw [hpr] at h
      simp only [Bool.false_or, Bool.not_eq_true', decide_eq_false_iff_not]
      intro ha
      have hx' := (List.mem_filter.mp hx).1
      have := found_iff.mpr ⟨x, hx', ha⟩
      rw [h] at this
      cases this
  · obtain ⟨new, h1, h2⟩ := step_lines hp h
    unfold fullLines
    rw [h1, Option.getD_some, h2]
    cases hpr : c.present with
    | true =>
      rw [hpr] at h
      have hf : c.found o = false := by simpa using h
      simp [hf, hne, List.filter_append]
    | false =>
      simp only [Bool.false_eq_true, if_false, Bool.false_or, Bool.false_and, List.append_nil]
      split
      · next he =>
        rw [List.filter_filter]
        have : ∀ x ∈ textLines (o.getD []), ¬ (fun x => (!decide (c.About x) && decide (x ≠ []))) x = true := by
          intro x hx hc
          have hm : x ∈ (textLines (o.getD [])).filter fun x => ¬ c.About x := by
            refine List.mem_filter.mpr ⟨hx, ?_⟩
            simp only [Bool.and_eq_true] at hc
            simpa using hc.1
          rw [he] at hm
          cases hm
        rw [List.filter_eq_nil_iff.mpr this]
        rfl
      · rw [List.filter_filter, List.filter_filter]
        congr 1
        funext x
        rw [Bool.and_comm]
        simp

theorem fullLines_steps : ∀ (calls : List LineCall) (_ : ∀ c ∈ calls, c.Proper) (_ : Apart calls) (o : Option Bytes),
    fullLines (steps calls o) = (fullLines o).filter (Stays calls) ++ (calls.filter fun c => c.present && !c.found o).map (·.line)
  | [], _, _, o => by
    have : (fullLines o).filter (Stays []) = fullLines o := List.filter_eq_self.mpr fun _ _ => rfl
    rw [this]
    simp [steps]
  | c :: cs, hp, ha, o => by
    unfold Apart at ha
    rw [List.pairwise_cons] at ha
    have hpc := hp c (by simp)
    have hcs : ∀ x ∈ cs, x.Proper := fun x h => hp x (by simp [h])
    rw [steps_cons, fullLines_steps cs hcs ha.2, fullLines_step hpc, List.filter_append, List.filter_filter]
    have h1 : (cs.filter fun d => d.present && !d.found (c.step o)) = cs.filter fun d => d.present && !d.found o :=
      List.filter_congr fun d hd => by rw [step_other hpc (hcs d hd) (ha.1 d hd)]
    have h2 : (fullLines o).filter (fun x => Stays cs x && (c.present || !decide (c.About x))) = (fullLines o).filter (Stays (c :: cs)) :=
      List.filter_congr fun x _ => by unfold Stays; rw [List.all_cons, Bool.and_comm]
    rw [h1, h2, List.append_assoc]
    congr 1
    rw [List.filter_cons]
    split
    · next hc =>
      have : Stays cs c.line = true := by
        unfold Stays
        rw [List.all_eq_true]
        intro d hd
        have : ¬ d.About c.line := fun h => ha.1 d hd h.strip
        simp [this]
      simp [this]
    · rfl

theorem step_size {c : LineCall} {o : Option Bytes} : ((c.step o).getD []).length ≤ (o.getD []).length + (4 * c.line.length + 2) := by
  unfold step
  split
  · omega
  · cases h : lineContent c.line c.present none c.ignoreWhitespace (o.getD []) with
    | none => simp
    | some new => exact lineContent_size h

theorem found_steps {d : LineCall} {calls : List LineCall} (hp : ∀ c ∈ d :: calls, c.Proper) (ha : Apart (calls ++ [d])) (o : Option Bytes) :
    d.found (steps calls o) = d.found o := by
  unfold Apart at ha
  rw [List.pairwise_append] at ha
  exact steps_other (hp d (by simp)) calls (fun x h => hp x (by simp [h])) (fun x h => ha.2.2 x h d (by simp)) o

theorem steps_settled : ∀ (calls : List LineCall) (o : Option Bytes), (∀ c ∈ calls, c.found o = c.present) → steps calls o = o
  | [], _, _ => rfl
  | c :: cs, o, h => by
    have : c.step o = o := by unfold step; rw [if_pos (h c (by simp))]
    rw [steps_cons, this]
    exact steps_settled cs o fun d hd => h d (by simp [hd])

theorem steps_append (a b : List LineCall) (o : Option Bytes) : steps (a ++ b) o = steps b (steps a o) := by
  unfold steps
  rw [List.foldl_append]

/-- Doing it all after having done the first part of it. -/
theorem steps_resumed {a b : List LineCall} (hp : ∀ c ∈ a ++ b, c.Proper) (ha : Apart (a ++ b)) (o : Option Bytes) : steps (a ++ b) (steps a o) = steps (a ++ b) o := by
  rw [steps_append, steps_append, steps_settled a (steps a o)]
  refine steps_there a (fun c h => hp c (List.mem_append_left _ h)) ?_ o
  exact ha.sublist (List.sublist_append_left a b)

theorem stays_cons (c : LineCall) (cs : List LineCall) (x : Str) : Stays (c :: cs) x = (Stays cs x && (c.present || !decide (c.About x))) := by
  unfold Stays
  rw [List.all_cons, Bool.and_comm]

/-- All lines, unless there is a time when none is left. -/
theorem textLines_steps : ∀ (calls : List LineCall) (_ : ∀ c ∈ calls, c.Proper) (_ : Apart calls) (o : Option Bytes),
    ((∀ c ∈ calls, c.present = true) ∨ (textLines (o.getD [])).filter (Stays calls) ≠ []) →
    textLines ((steps calls o).getD []) = (textLines (o.getD [])).filter (Stays calls) ++ (calls.filter fun c => c.present && !c.found o).map (·.line)
  | [], _, _, o, _ => by
    have : (textLines (o.getD [])).filter (Stays []) = textLines (o.getD []) := List.filter_eq_self.mpr fun _ _ => rfl
    rw [this]
    simp [steps]
  | c :: cs, hp, ha, o, hsome => by
    unfold Apart at ha
    rw [List.pairwise_cons] at ha
    have hpc := hp c (by simp)
    have hcs : ∀ x ∈ cs, x.Proper := fun x h => hp x (by simp [h])
    have one : textLines ((c.step o).getD []) = (textLines (o.getD [])).filter (fun x => c.present || !decide (c.About x)) ++ (if c.present && !c.found o then [c.line] else []) := by
      by_cases h : c.found o = c.present
      · have hs : c.step o = o := by unfold step; rw [if_pos h]
        rw [hs, h]
        have : (c.present && !c.present) = false := by cases c.present <;> rfl
        rw [this]
        simp only [Bool.false_eq_true, if_false, List.append_nil]
        symm
        apply List.filter_eq_self.mpr
        intro x hx
        cases hpr : c.present with
        | true => rfl
        | false =>
          rw [hpr] at h
          simp only [Bool.false_or, Bool.not_eq_true', decide_eq_false_iff_not]
          intro ha
          have := found_iff.mpr ⟨x, hx, ha⟩
          rw [h] at this
          cases this
      · obtain ⟨new, h1, h2⟩ := step_lines hpc h
        rw [h1, Option.getD_some, h2]
        cases hpr : c.present with
        | true =>
          rw [hpr] at h
          have hf : c.found o = false := by simpa using h
          have : (textLines (o.getD [])).filter (fun x => true || !decide (c.About x)) = textLines (o.getD []) := List.filter_eq_self.mpr fun _ _ => rfl
          rw [this]
          simp [hf]
        | false =>
          simp only [Bool.false_eq_true, if_false, Bool.false_or, Bool.false_and, List.append_nil]
          have he : ((textLines (o.getD [])).filter fun x => ¬ c.About x) = (textLines (o.getD [])).filter fun x => !decide (c.About x) := by
            congr 1
            funext x
            simp
          rw [he]
          apply if_neg
          intro hnil
          rcases hsome with hall | hne
          · have := hall c (by simp)
            rw [hpr] at this
            cases this
          · apply hne
            rw [List.filter_eq_nil_iff] at hnil ⊢
            intro x hx hc
            rw [stays_cons, hpr, Bool.false_or, Bool.and_eq_true] at hc
            exact hnil x hx hc.2
    have hline : Stays cs c.line = true := by
      unfold Stays
      rw [List.all_eq_true]
      intro d hd
      have : ¬ d.About c.line := fun h => ha.1 d hd h.strip
      simp [this]
    have h1 : (cs.filter fun d => d.present && !d.found (c.step o)) = cs.filter fun d => d.present && !d.found o :=
      List.filter_congr fun d hd => by rw [step_other hpc (hcs d hd) (ha.1 d hd)]
    have h2 : (textLines (o.getD [])).filter (fun x => Stays cs x && (c.present || !decide (c.About x))) = (textLines (o.getD [])).filter (Stays (c :: cs)) :=
      List.filter_congr fun x _ => (stays_cons c cs x).symm
    rw [steps_cons, textLines_steps cs hcs ha.2 (c.step o) ?_]
    · rw [one, List.filter_append, List.filter_filter, h1, h2, List.append_assoc]
      congr 1
      rw [List.filter_cons]
      split
      · simp [hline]
      · rfl
    · rcases hsome with hall | hne
      · exact .inl fun d hd => hall d (by simp [hd])
      · refine .inr fun hnil => hne ?_
        rw [one, List.filter_append, List.filter_filter, List.append_eq_nil_iff] at hnil
        rw [← h2]
        exact hnil.1

end LineCall

/-! ### On a host -/

section
variable {sys : Sys} {tools : Tools} {lost : Nat → Option Bool} {env : Env} {st : St} {w0 w w' : World} {path : Str} {o : Option Bytes}

theorem balanced_line (path line : Str) (present : Bool) (regex : Option Regex) (ws : Bool) (backup : Backup) (check : Bool) :
    Balanced (Ops.line path line present regex ws backup check) := by
  refine .operation (.bind (.ofExcept _) fun _ => balanced_returned (.withDefaults fun attr => ?_))
  refine .bind (balanced_finalState _) fun _ => .bind (.call _) fun s => ?_
  cases s with
  | none => exact balanced_lineSettle _ _ _ _ _ _ _ _
  | some s =>
    simp only
    split
    · exact balanced_failure _
    · exact .bind (.call _) fun _ => balanced_lineSettle _ _ _ _ _ _ _ _

/-- What is the same as at the beginning, while the file has this content. -/
structure Lines (sys : Sys) (tools : Tools) (path : Str) (w0 w : World) (o : Option Bytes) : Prop where
  ordinary : Ordinary sys tools w
  holds : Holds w path o
  untouched : Untouched (Denotes w0 path) w0 w
  denotes : ∀ l, Denotes w path l → Denotes w0 path l
  kept : ∀ l n, lookup w0.fs w0.cwd path false = .ok (l, n) → ∃ n', lookup w.fs w.cwd path false = .ok (l, n') ∧ n'.perm = n.perm ∧ n'.uid = n.uid ∧ n'.gid = n.gid

theorem Lines.start (hord : Ordinary sys tools w) (h : Holds w path o) : Lines sys tools path w w o :=
  ⟨hord, h, ⟨fun _ _ => rfl, rfl⟩, fun _ h => h, fun _ n h => ⟨n, h, rfl, rfl, rfl⟩⟩

theorem Holds.same (h : Holds w path o) (hs : Same w w') : Holds w' path o := by
  cases o with
  | none => exact fun x => by rw [same_fs hs, same_cwd hs]; exact h x
  | some c =>
    obtain ⟨l, n, h1, h2⟩ := h
    exact ⟨l, n, by rw [same_fs hs, same_cwd hs]; exact h1, h2⟩

theorem Untouched.trans_same {p : Loc → Prop} (h : Untouched p w0 w) (hs : Same w w') : Untouched p w0 w' := by
  refine ⟨fun q hq => by rw [same_fs hs]; exact h.fs q hq, ?_⟩
  rw [hs]
  rw [h.rest]

theorem Lines.same (h : Lines sys tools path w0 w o) (hs : Same w w') : Lines sys tools path w0 w' o := by
  refine ⟨hs.ordinary h.ordinary, h.holds.same hs, h.untouched.trans_same hs, fun l hl => h.denotes l ?_, fun l n hl => ?_⟩
  · unfold Denotes at hl ⊢
    rw [same_fs hs, same_cwd hs] at hl
    exact hl
  · rw [same_fs hs, same_cwd hs]
    exact h.kept l n hl

/-- Only the file was changed. -/
theorem Lines.elsewhere (h : Lines sys tools path w0 w o) {l : Loc} (hl : Denotes w path l) (hfs : ∀ q, q ≠ l → w'.fs q = w.fs q)
    (hr : w' = { w with fs := w'.fs, started := w'.started }) : Untouched (Denotes w0 path) w0 w' := by
  refine ⟨fun q hq => ?_, ?_⟩
  · rw [hfs q (by rintro rfl; exact hq (h.denotes _ hl))]
    exact h.untouched.fs q hq
  · rw [hr, h.untouched.rest]

theorem Lines.now (h : Lines sys tools path w0 w o) {l : Loc} {n : Option Node} (hn : Now path l w n w') (hl : Denotes w path l) : Untouched (Denotes w0 path) w0 w' := by
  refine h.elsewhere hl (fun q hq => ?_) ?_
  · rw [hn.fs, setNode_ne _ _ hq]
  · rw [hn.eq]; rfl

theorem Lines.done {old : Bytes} (h : Lines sys tools path w0 w (some old)) {l : Loc} {n : Node} {new : Bytes} (hres : ∀ cwd, resolve w.fs cwd path false = .ok l)
    (hlk : lookup w.fs w.cwd path false = .ok (l, n)) (hk : n.kind = .file old) (hsize : Modest new.length)
    (hdone : LineDone path .no l n new w w') : Lines sys tools path w0 w' (some new) := by
  obtain ⟨hres0, hl⟩ := lookup_ok hlk
  have hord := hdone.ordinary h.ordinary hl hsize
  obtain ⟨h4, n', h5, h6⟩ := hdone.now hres hl hk
  have hl' : lookup w'.fs w'.cwd path false = .ok (l, n') := lookup_of (h4 _) h5
  obtain ⟨w1, hb, rfl⟩ := hdone
  have hb : Same w w1 := hb
  have hn' : n' = { n with kind := .file new, mtime := w1.clock, ctime := w1.clock } := by
    have := setNode_same w1.fs l (some { n with kind := .file new, mtime := w1.clock, ctime := w1.clock })
    exact (Option.some.inj (this.symm.trans h5)).symm
  refine ⟨hord, ⟨l, n', hl', h6⟩, ?_, fun q hq => ?_, fun q x hx => ?_⟩
  · refine (h.same hb).elsewhere (l := l) ?_ (fun q hq => setNode_ne _ _ hq) rfl
    unfold Denotes
    rw [same_fs hb]
    exact hres _
  · unfold Denotes at hq
    rw [h4] at hq
    cases hq
    exact h.denotes _ hres0
  · obtain ⟨n2, h7, h8⟩ := h.kept q x hx
    rw [hlk] at h7
    cases h7
    refine ⟨n', hl', ?_⟩
    rw [hn']
    exact h8

/-- What a call reports: whether there was something to do, and whether the line was there. -/
def LineCall.Reports (c : LineCall) (o : Option Bytes) (r : OpResult) : Prop :=
  r.success = true ∧ r.changed = (c.found o != c.present) ∧ r.initial = [(p!"line_present", .bool (c.found o))] ∧ r.final = [(p!"line_present", .bool c.present)]

theorem found_there {c : LineCall} (h : Holds w path o) {b : Bool} (hb : b = true ↔ LineThere w path c.line none c.ignoreWhitespace) : b = c.found o := by
  apply Bool.eq_iff_iff.mpr
  rw [hb]
  cases o with
  | none =>
    constructor
    · rintro ⟨x, ⟨l, n, hl, _⟩, _⟩
      exact absurd hl (h _)
    · intro h; cases h
  | some x => exact (lineThere_iff h).symm

theorem line_step (ha : isAbs path = true) (h : Lines sys tools path w0 w o) (hm : PlainModes env st) {c : LineCall} (hp : c.Proper)
    (hsize : Modest ((c.step o).getD []).length) :
    Post sys lost (c.op path) env st w
      (fun r st' w' => (c.Reports o r ∧ (env.dry = false → Lines sys tools path w0 w' (c.step o))) ∧ st'.stack = st.stack)
      (Untouched (Denotes w0 path) w0) := by
  refine Post.withStack ?_ (balanced_line _ _ _ _ _ _ _)
  have hrep := reported_line (lost := lost) (env := env) (st := st) (path := path) (line := c.line) (present := c.present) (regex := none) (ws := c.ignoreWhitespace)
    (backup := .no) (check := true) h.ordinary.stat h.ordinary.sane
  have close : ∀ {r : OpResult}, r.success = true → (r.changed = true ↔ c.found o ≠ c.present) →
      Reported (fun i f => (∃ b : Bool, (b = true ↔ LineThere w path c.line none c.ignoreWhitespace) ∧ i = [(p!"line_present", .bool b)])
        ∧ f = [(p!"line_present", .bool c.present)]) r → c.Reports o r := by
    intro r hs hc hr
    obtain ⟨⟨b, hb, hi⟩, hf⟩ := hr hs
    refine ⟨hs, ?_, by rw [hi, found_there h.holds hb], hf⟩
    apply Bool.eq_iff_iff.mpr
    rw [hc]
    simp
  cases o with
  | none =>
    have hno : NothingAt w path := h.holds
    have hpost := line_missing (lost := lost) (line := c.line) (present := c.present) (regex := none) (ws := c.ignoreWhitespace) (backup := .no) (check := true) h.ordinary hm hno
    refine (hpost.and hrep).mono ?_ ?_
    · rintro r _ w' ⟨⟨⟨⟨⟨hs, hc⟩, hg⟩, _⟩, _⟩, hr⟩
      have hf : c.found none = false := rfl
      refine ⟨close hs (by rw [hc, hf]; cases c.present <;> simp) hr, fun hd => ?_⟩
      rcases hg hd with ⟨hpr, hsame⟩ | ⟨hpr, bytes, attr, l, i, m, hnew, _, _, _, _, hres, n, hn, hsn, hk, _, _⟩
      · have : c.step none = none := by unfold LineCall.step; rw [if_pos (by rw [hpr]; rfl)]
        rw [this]
        exact h.same hsame
      · have hst : c.step none = some bytes := by
          unfold LineCall.step
          rw [if_neg (by rw [hpr, hf]; decide)]
          exact hnew
        rw [hst] at hsize ⊢
        have hl := now_lookup hn
        refine ⟨h.ordinary.now hn fun _ h => by cases h; exact hsn hsize, ⟨l, n, hl, hk⟩, h.now hn hres, fun q hq => ?_, fun q x hx => ?_⟩
        · have := (lookup_ok hl).1
          unfold Denotes at hq
          rw [this] at hq
          cases hq
          exact h.denotes _ hres
        · obtain ⟨n', h1, _⟩ := h.kept q x hx
          exact absurd h1 (hno _)
    · rintro w' ⟨h1 | ⟨l, size, hres, o, hn, _⟩, _⟩
      · exact h.untouched.trans_same h1
      · exact h.now hn hres
  | some old =>
    obtain ⟨l, n, hlk, hk⟩ := h.holds
    obtain ⟨hres0, hl⟩ := lookup_ok hlk
    have hres : ∀ cwd, resolve w.fs cwd path false = .ok l := fun cwd => (resolve_abs ha cwd w.cwd false).trans hres0
    have hfree : BackupFree w path .no := by intro dst hd; cases hd
    have hpost := line_existing (lost := lost) (line := c.line) (present := c.present) (regex := none) (ws := c.ignoreWhitespace) (backup := .no) (check := true) h.ordinary hm hfree hlk hk
    refine (hpost.and hrep).mono ?_ ?_
    · rintro r _ w' ⟨⟨⟨⟨⟨hs, hc⟩, hg⟩, _⟩, _⟩, hr⟩
      refine ⟨close hs hc hr, fun hd => ?_⟩
      rcases hg hd with ⟨hpr, hsame⟩ | ⟨hpr, new, hnew, hdone⟩
      · have : c.step (some old) = some old := by unfold LineCall.step; exact if_pos hpr
        rw [this]
        exact h.same hsame
      · have hst : c.step (some old) = some new := by
          unfold LineCall.step
          exact (if_neg hpr).trans hnew
        rw [hst] at hsize ⊢
        exact h.done hres hlk hk hsize hdone
    · rintro w' ⟨h1 | ⟨w1, c, hb, rfl⟩, _⟩
      · exact h.untouched.trans_same h1
      · have hb : Same w w1 := hb
        refine (h.same hb).elsewhere (l := l) ?_ (fun q hq => setNode_ne _ _ hq) rfl
        unfold Denotes
        rw [same_fs hb]
        exact hres _

/-- There is no file, and none is wanted. -/
theorem line_calm_missing {line : Str} {regex : Option Regex} {ws : Bool} {backup : Backup} {check : Bool}
    (hord : Ordinary sys tools w) (hm : PlainModes env st) (hlk : NothingAt w path) :
    Post sys lost (Ops.line path line false regex ws backup check) env st w
      (fun r _ w' => (Settled w r w' ∧ Same w w') ∧ (check = true → r.success = true)) (Same w) := by
  have hbase : Same w w := rfl
  refine managed hord.sane hm hbase ?_
  intro attr st' ha h1 h2 h3 he hmo
  unfold lineBody
  refine Post.bind (Post.finalState h1 h3 ?_)
  refine Post.bind (Post.stat ?_ hbase)
  intro s hstat
  cases s with
  | some s =>
    obtain ⟨l', n', hlk', rfl⟩ := stat_some hord.sane hstat
    exact absurd hlk' (hlk _)
  | none =>
    simp only
    refine (lineSettle_post (path := path) (Q := fun r w' => Settled w r w' ∧ Same w w') ?_ ?_ ?_ hbase ?_ ?_ ?_)
    · exact h1
    · exact h2
    · rfl
    · exact fun r hr1 hr2 hr3 _ => ⟨⟨⟨⟨hr1, hr2⟩, hr3⟩, rfl⟩, rfl⟩
    · exact fun r _ _ _ hne => absurd rfl hne
    · exact fun _ hne => absurd rfl hne

theorem lineCall_calm (hord : Ordinary sys tools w) (hm : PlainModes env st) (h : Holds w path o) {c : LineCall} (hc : c.found o = c.present) :
    Post sys lost (c.op path) env st w (fun r st' w' => ((r.success = true ∧ r.changed = false) ∧ Same w w') ∧ st'.stack = st.stack) (Same w) := by
  refine Post.withStack ?_ (balanced_line _ _ _ _ _ _ _)
  have fin : Post sys lost (c.op path) env st w (fun r _ w' => (Settled w r w' ∧ Same w w') ∧ (true = true → r.success = true)) (Same w) := by
    cases o with
    | none =>
      have hc : c.present = false := hc.symm
      unfold LineCall.op
      rw [hc]
      exact line_calm_missing hord hm h
    | some old =>
      obtain ⟨l, n, hlk, hk⟩ := h
      exact line_calm hord hm hlk hk hc
  refine fin.mono ?_ fun _ h => h
  rintro r _ w' ⟨⟨hset, hs⟩, _⟩
  exact ⟨hset.1.1, hs⟩

theorem lines_calm (hord : Ordinary sys tools w) (hm : PlainModes env st) (h : Holds w path o) : ∀ (calls : List LineCall) {st1 : St} {w1 : World}, st1.stack = st.stack → Same w w1 →
    (∀ c ∈ calls, c.found o = c.present) →
    Post sys lost (deploy (calls.map (·.op path))) env st1 w1 (fun rs _ w' => (∀ r ∈ rs, r.success = true ∧ r.changed = false) ∧ Same w w') (Same w)
  | [], st1, w1, _, hs, _ => by
    rw [List.map_nil, deploy]
    exact Post.pure ⟨by simp, hs⟩
  | c :: cs, st1, w1, hst, hs, hall => by
    rw [List.map_cons, deploy]
    refine Post.bind ((lineCall_calm (hs.ordinary hord) (plainModes_congr hst hm) (h.same hs) (hall c (by simp))).mono ?_ fun w' h => ?_)
    · rintro r st2 w2 ⟨⟨hr, hs2⟩, hst2⟩
      refine Post.bind ((lines_calm hord hm h cs (hst2.trans hst) (by rw [hs2, hs]; rfl) fun d hd => hall d (by simp [hd])).mono ?_ fun _ h => h)
      rintro rs st3 w3 ⟨hrs, hs3⟩
      refine Post.pure ⟨?_, hs3⟩
      intro x hx
      rcases List.mem_cons.mp hx with rfl | hx
      · exact hr
      · exact hrs x hx
    · rw [h, hs]; rfl

/-- All calls, one after the other. -/
theorem lines_post (ha : isAbs path = true) (hm : PlainModes env st) (hdry : env.dry = false) : ∀ (calls : List LineCall) {st1 : St} {w : World} {o : Option Bytes},
    st1.stack = st.stack → Lines sys tools path w0 w o → (∀ c ∈ calls, c.Proper) → Apart calls → ModestLines calls o →
    Post sys lost (deploy (calls.map (·.op path))) env st1 w
      (fun rs _ w' => (rs.length = calls.length ∧ ∀ x ∈ calls.zip rs, x.1.Reports o x.2) ∧ Lines sys tools path w0 w' (LineCall.steps calls o))
      (Untouched (Denotes w0 path) w0)
  | [], st1, w, o, _, h, _, _, _ => by
    rw [List.map_nil, deploy]
    exact Post.pure ⟨⟨rfl, by simp⟩, h⟩
  | c :: cs, st1, w, o, hst, h, hp, hap, hsz => by
    rw [List.map_cons, deploy]
    unfold Apart at hap
    rw [List.pairwise_cons] at hap
    have hg := LineCall.step_size (c := c) (o := o)
    unfold ModestLines at hsz
    rw [List.map_cons, List.sum_cons] at hsz
    have hsz1 : Modest ((c.step o).getD []).length := by unfold Modest at hsz ⊢; omega
    have hsz2 : ModestLines cs (c.step o) := by unfold ModestLines; unfold Modest at hsz ⊢; omega
    refine Post.bind ((line_step ha h (plainModes_congr hst hm) (hp c (by simp)) hsz1).mono ?_ fun _ h => h)
    rintro r st2 w2 ⟨⟨hr, hw2⟩, hst2⟩
    refine Post.bind ((lines_post ha hm hdry cs (hst2.trans hst) (hw2 hdry) (fun d hd => hp d (by simp [hd])) hap.2 hsz2).mono ?_ fun _ h => h)
    rintro rs st3 w3 ⟨⟨hlen, hrs⟩, hw3⟩
    refine Post.pure ⟨⟨by simp [hlen], ?_⟩, hw3⟩
    rw [List.zip_cons_cons]
    intro x hx
    rcases List.mem_cons.mp hx with rfl | hx
    · exact hr
    · have := hrs x hx
      have hm1 : x.1 ∈ cs := (List.of_mem_zip hx).1
      unfold LineCall.Reports at this ⊢
      rw [LineCall.step_other (hp c (by simp)) (hp _ (by simp [hm1])) (hap.1 _ hm1)] at this
      exact this

/-- A dry run only looks. -/
theorem line_dry {line : Str} {present : Bool} {regex : Option Regex} {ws : Bool} {backup : Backup} {check : Bool}
    (hord : Ordinary sys tools w) (hm : PlainModes env st) (hdry : env.dry = true) (h : Holds w path o) :
    Post sys lost (Ops.line path line present regex ws backup check) env st w
      (fun r _ w' => (Same w w' ∧ Same w w') ∧ (check = true → r.success = true)) (Same w) := by
  have hbase : Same w w := rfl
  refine managed hord.sane hm hbase ?_
  intro attr st' ha h1 h2 h3 he hmo
  have fin : ∀ {f : Dict} {orig : Option Bytes}, f = [(p!"line_present", .bool present)] →
      Post sys lost (lineSettle path line present regex ws backup attr orig) env { st' with op := { st'.op with final := some f } } w
        (fun _ _ w' => Same w w' ∧ Same w w') (Same w) := by
    intro f orig hf
    subst hf
    refine (lineSettle_post (path := path) (Q := fun _ w' => Same w w' ∧ Same w w') ?_ ?_ ?_ hbase ?_ ?_ ?_)
    · exact h1
    · exact h2
    · rfl
    · exact fun r _ _ _ _ => ⟨rfl, rfl⟩
    · exact fun r _ _ _ _ => ⟨rfl, rfl⟩
    · exact fun hd => by rw [hdry] at hd; cases hd
  unfold lineBody
  refine Post.bind (Post.finalState h1 h3 ?_)
  refine Post.bind (Post.stat ?_ hbase)
  intro s hstat
  cases s with
  | none => exact fin rfl
  | some s =>
    simp only
    split
    · exact Post.failure fun _ _ _ => ⟨rfl, rfl⟩
    · exact Post.bind (Post.download (fun _ _ => fin rfl) hbase)

theorem lines_dry (ha : isAbs path = true) (hm : PlainModes env st) (hdry : env.dry = true) (hord : Ordinary sys tools w) (h : Holds w path o) :
    ∀ (calls : List LineCall) {st1 : St} {w1 : World}, st1.stack = st.stack → Same w w1 → (∀ c ∈ calls, c.Proper ∧ Modest ((c.step o).getD []).length) →
    Post sys lost (deploy (calls.map (·.op path))) env st1 w1
      (fun rs _ w' => (rs.length = calls.length ∧ ∀ x ∈ calls.zip rs, x.1.Reports o x.2) ∧ Same w w') (Same w)
  | [], st1, w1, _, hs, _ => by
    rw [List.map_nil, deploy]
    exact Post.pure ⟨⟨rfl, by simp⟩, hs⟩
  | c :: cs, st1, w1, hst, hs, hall => by
    rw [List.map_cons, deploy]
    have hl := Lines.start (hs.ordinary hord) (h.same hs)
    have h1 := line_step (lost := lost) ha hl (plainModes_congr hst hm) (hall c (by simp)).1 (hall c (by simp)).2
    have h2 := line_dry (lost := lost) (line := c.line) (present := c.present) (regex := none) (ws := c.ignoreWhitespace) (backup := .no) (check := true)
      (hs.ordinary hord) (plainModes_congr hst hm) hdry (h.same hs)
    refine Post.bind ((Post.and h1 h2).mono ?_ fun w' h => ?_)
    · rintro r st2 w2 ⟨⟨⟨hr, _⟩, hst2⟩, ⟨⟨hs2, _⟩, _⟩⟩
      refine Post.bind ((lines_dry ha hm hdry hord h cs (hst2.trans hst) (by rw [hs2, hs]; rfl) fun d hd => hall d (by simp [hd])).mono ?_ fun _ h => h)
      rintro rs st3 w3 ⟨⟨hlen, hrs⟩, hs3⟩
      refine Post.pure ⟨⟨by simp [hlen], ?_⟩, hs3⟩
      rw [List.zip_cons_cons]
      intro x hx
      rcases List.mem_cons.mp hx with rfl | hx
      · exact hr
      · exact hrs x hx
    · rw [h.2, hs]; rfl

theorem modest_steps {calls : List LineCall} (h : ModestLines calls o) : ∀ c ∈ calls, Modest ((c.step o).getD []).length := by
  intro c hc
  have h1 := LineCall.step_size (c := c) (o := o)
  have h2 : 4 * c.line.length + 2 ≤ (calls.map fun c => 4 * c.line.length + 2).sum := by
    clear h h1
    induction calls with
    | nil => cases hc
    | cons d ds ih =>
      rw [List.map_cons, List.sum_cons]
      rcases List.mem_cons.mp hc with rfl | hc
      · omega
      · have := ih hc; omega
  unfold ModestLines Modest at h
  unfold Modest
  omega

/-! ### If writing does not fail -/

/-- Once a file has been opened, writing to it works. -/
theorem upload_whole (hwrite : ∀ w path, sys.fault w (.write path) = none) {content old : Bytes} {l : Loc} {n : Node} (hres : ∀ cwd, resolve w.fs cwd path false = .ok l)
    (hl : w.fs l = some n) (hk : n.kind = .file old)
    {r : Except Exn Unit} (h : (Client.Connector.upload path content none none none).run (Client.direct sys) w = (r, w')) :
    w' = w ∨ w' = w.set l (some { n with kind := .file content, mtime := w.clock, ctime := w.clock }) := by
  have hfo : resolve w.fs w.cwd path true = .ok l := by
    refine resolve_follow ?_ (hres w.cwd)
    intro t ht
    rw [hl] at ht
    rw [shape_link.mp ht] at hk
    cases hk
  have hworld : w' = (handleUpload sys path content none none none w).2 := by
    have := congrArg Prod.snd h
    simp only [Client.Connector.upload, Client.Prog.run] at this
    rw [← this, Client.direct_world]
    rfl
  have hdo : handleUpload sys path content none none none w = doUpload sys path content none none none w := rfl
  rw [hdo] at hworld
  match hx : osWrite sys w path content with
  | (x, w1) =>
    have hd2 : (doUpload sys path content none none none w).2 = w1 := by
      unfold doUpload
      rw [hx]
      cases x <;> rfl
    rw [hd2] at hworld
    subst hworld
    unfold osWrite at hx
    split at hx
    · cases hx; exact .inl rfl
    · rw [hfo] at hx
      simp only [hl, hk, hwrite] at hx
      cases hx
      exact .inr rfl

theorem lineActions_whole (hwrite : ∀ w path, sys.fault w (.write path) = none) {l : Loc} {n : Node} {old new : Bytes}
    (hres : ∀ cwd, resolve w.fs cwd path false = .ok l) (hl : w.fs l = some n) (hk : n.kind = .file old) {attr : Settings} :
    Post sys lost (lineActions path .no attr (some old) new) env st w (fun _ st' w' => st' = st ∧ (w' = w ∨ LineDone path .no l n new w w'))
      (fun w' => w' = w ∨ LineDone path .no l n new w w') := by
  unfold lineActions
  refine Post.bind (Post.pure ?_)
  have done : ∀ {w'}, w' = w ∨ w' = w.set l (some { n with kind := .file new, mtime := w.clock, ctime := w.clock }) → w' = w ∨ LineDone path .no l n new w w' := by
    rintro w' (h | h)
    · exact .inl h
    · exact .inr ⟨w, (rfl : Same w w), h⟩
  refine Post.call (single_upload ..) ?_ ?_ (.inl rfl)
  · intro _ w' h
    exact ⟨⟨rfl, done (upload_whole hwrite hres hl hk h)⟩, done (upload_whole hwrite hres hl hk h)⟩
  · intro e w' h
    exact done (upload_whole hwrite hres hl hk h)

/-- What a call leaves behind, however it ends. -/
theorem line_whole (hwrite : ∀ w path, sys.fault w (.write path) = none) {line : Str} {present : Bool} {regex : Option Regex} {ws : Bool} {check : Bool} {l : Loc} {n : Node} {old : Bytes}
    (hord : Ordinary sys tools w) (hm : PlainModes env st) (hdry : env.dry = false)
    (hlk : lookup w.fs w.cwd path false = .ok (l, n)) (hk : n.kind = .file old) :
    Post sys lost (Ops.line path line present regex ws .no check) env st w (fun _ _ _ => True)
      (fun w' => w' = w ∨ linePresent line regex ws (Py.decodeEscape old) ≠ present ∧ ∃ new, lineContent line present regex ws old = some new ∧ LineDone path .no l n new w w') := by
  generalize hE : (fun w' => w' = w ∨ linePresent line regex ws (Py.decodeEscape old) ≠ present
    ∧ ∃ new, lineContent line present regex ws old = some new ∧ LineDone path .no l n new w w') = E
  have hbase : E w := by rw [← hE]; exact .inl rfl
  refine (managed (Q := fun _ _ => True) hord.sane hm hbase ?_).mono (fun _ _ _ _ => trivial) fun _ h => h
  intro attr st' ha h1 h2 h3 he hmo
  obtain ⟨hr, hl⟩ := lookup_ok hlk
  have hres : ∀ cwd, resolve w.fs cwd path false = .ok l := fun cwd => (resolve_abs ha cwd w.cwd false).trans hr
  unfold lineBody
  refine Post.bind (Post.finalState h1 h3 ?_)
  refine Post.bind (Post.stat ?_ hbase)
  intro s hstat
  cases s with
  | none =>
    have := stat_none hord.stat hstat
    rw [hlk] at this
    cases this
  | some s =>
    obtain ⟨l', n', hlk', rfl⟩ := stat_some hord.sane hstat
    rw [hlk] at hlk'
    cases hlk'
    simp only
    rw [if_neg (by simp [Client.described, hk, Client.typeName])]
    refine Post.bind (Post.download ?_ hbase)
    intro c hc
    have hfo : lookup w.fs w.cwd path true = .ok (l, n) := lookup_follow (fun t ht => by rw [hk] at ht; cases ht) hlk
    obtain rfl := download_exact hfo hk hc
    refine (lineSettle_post (path := path) (Q := fun _ w' => True ∧ E w') ?_ ?_ ?_ hbase ?_ ?_ ?_)
    · exact h1
    · exact h2
    · rfl
    · exact fun r _ _ _ _ => ⟨trivial, hbase⟩
    · exact fun r _ _ _ _ => ⟨trivial, hbase⟩
    · intro hd hp new hnew st2 _
      have hE' : ∀ w', (w' = w ∨ LineDone path .no l n new w w') → E w' := by
        intro w' h
        rw [← hE]
        exact h.imp id fun h => ⟨hp, new, hnew, h⟩
      refine (lineActions_whole hwrite hres hl hk).mono ?_ hE'
      rintro _ st3 w' ⟨rfl, hdone⟩
      exact ⟨rfl, fun r _ _ => ⟨trivial, hE' w' hdone⟩⟩

/-- However a call ends, the file is as it was before it or as it should be after it. -/
theorem call_whole (hwrite : ∀ w path, sys.fault w (.write path) = none) (ha : isAbs path = true) {old : Bytes} (h : Lines sys tools path w0 w (some old)) (hm : PlainModes env st)
    (hdry : env.dry = false) {c : LineCall} (hp : c.Proper) (hsize : Modest ((c.step (some old)).getD []).length) :
    Post sys lost (c.op path) env st w
      (fun _ st' w' => Lines sys tools path w0 w' (c.step (some old)) ∧ st'.stack = st.stack)
      (fun w' => Lines sys tools path w0 w' (some old) ∨ Lines sys tools path w0 w' (c.step (some old))) := by
  obtain ⟨l, n, hlk, hk⟩ := h.holds
  obtain ⟨hres0, hl⟩ := lookup_ok hlk
  have hres : ∀ cwd, resolve w.fs cwd path false = .ok l := fun cwd => (resolve_abs ha cwd w.cwd false).trans hres0
  refine ((line_step (lost := lost) ha h hm hp hsize).and (line_whole (lost := lost) hwrite (line := c.line) (present := c.present) (regex := none)
    (ws := c.ignoreWhitespace) (check := true) h.ordinary hm hdry hlk hk)).mono ?_ ?_
  · rintro r st' w' ⟨⟨⟨_, h1⟩, h2⟩, _⟩
    exact ⟨h1 hdry, h2⟩
  · rintro w' ⟨_, rfl | ⟨hpr, new, hnew, hdone⟩⟩
    · exact .inl h
    · have hst : c.step (some old) = some new := by
        unfold LineCall.step
        exact (if_neg hpr).trans hnew
      rw [hst] at hsize ⊢
      exact .inr (h.done hres hlk hk hsize hdone)

theorem lines_whole (hwrite : ∀ w path, sys.fault w (.write path) = none) (ha : isAbs path = true) (hm : PlainModes env st) (hdry : env.dry = false) :
    ∀ (calls : List LineCall) {st1 : St} {w : World} {old : Bytes},
    st1.stack = st.stack → Lines sys tools path w0 w (some old) → (∀ c ∈ calls, c.Proper) → ModestLines calls (some old) →
    Post sys lost (deploy (calls.map (·.op path))) env st1 w
      (fun _ _ w' => Lines sys tools path w0 w' (LineCall.steps calls (some old)))
      (fun w' => ∃ a b, calls = a ++ b ∧ Lines sys tools path w0 w' (LineCall.steps a (some old)))
  | [], st1, w, o, _, h, _, _ => by
    rw [List.map_nil, deploy]
    exact Post.pure h
  | c :: cs, st1, w, old, hst, h, hp, hsz => by
    rw [List.map_cons, deploy]
    have hg := LineCall.step_size (c := c) (o := some old)
    unfold ModestLines at hsz
    rw [List.map_cons, List.sum_cons] at hsz
    have hsz1 : Modest ((c.step (some old)).getD []).length := by unfold Modest at hsz ⊢; omega
    have hsz2 : ModestLines cs (c.step (some old)) := by unfold ModestLines; unfold Modest at hsz ⊢; omega
    obtain ⟨new, hnew⟩ : ∃ new, c.step (some old) = some new := by
      have := (LineCall.step_there (hp c (by simp)) (some old)).1
      exact Option.isSome_iff_exists.mp this
    refine Post.bind ((call_whole hwrite ha h (plainModes_congr hst hm) hdry (hp c (by simp)) hsz1).mono ?_ fun w' h => ?_)
    · rintro r st2 w2 ⟨hw2, hst2⟩
      rw [hnew] at hw2 hsz2
      refine Post.bind ((lines_whole hwrite ha hm hdry cs (hst2.trans hst) hw2 (fun d hd => hp d (by simp [hd])) hsz2).mono ?_ fun w' h => ?_)
      · rintro rs st3 w3 hw3
        refine Post.pure ?_
        rw [LineCall.steps_cons, hnew]
        exact hw3
      · obtain ⟨a, b, he, h⟩ := h
        refine ⟨c :: a, b, by rw [he]; rfl, ?_⟩
        rw [LineCall.steps_cons, hnew]
        exact h
    · rcases h with h | h
      · exact ⟨[], c :: cs, rfl, h⟩
      · exact ⟨[c], cs, rfl, h⟩

end

end Verif.Ops
