/-
Removing what was made.
-/
import Verif.Ops.LineProps
import Verif.Ops.RepeatLemmas
import Verif.Ops.FrameProps

namespace Verif.Ops

open Script Remote

variable {sys : Sys} {tools : Tools} {env : Env} {st : St} {w w1 w2 : World} {path target : Str} {l : Loc} {mode owner group : Option Str}

/-- The file system, users, groups and everything else are the same. -/
abbrev AsBefore (w w' : World) : Prop := Untouched (fun _ => False) w w'

theorem asBefore_of_same (h : Same w w1) : AsBefore w w1 := untouched_same h

/-- Something was made, if anything, at a place where nothing was, and is gone now. -/
theorem gone_undone (hl : w.fs l = none) (hleft : Left sys tools path l w w1) (hg : Gone path w1 w2) : AsBefore w w2 := by
  obtain ⟨o, s, he⟩ := hleft.elsewhere
  rcases hg with ⟨h1, h2⟩ | ⟨l', n, s', h1, _, h2⟩
  · have hnone := lookup_none_of h1 hleft.res
    have : w1.fs = w.fs := by
      funext q
      by_cases hq : q = l
      · rw [hq, hnone, hl]
      · rw [he]; exact setNode_ne _ _ hq
    refine ⟨fun q _ => by rw [same_fs h2, this], ?_⟩
    rw [h2, he]; rfl
  · obtain rfl := resolved_eq hleft.res h1
    refine ⟨fun q _ => ?_, by rw [h2, he]; rfl⟩
    rw [h2]
    show setNode w1.fs l none q = w.fs q
    by_cases hq : q = l
    · rw [hq, setNode, if_pos rfl, hl]
    · rw [setNode_ne _ _ hq, he]; exact setNode_ne _ _ hq

/-- The same for a directory, with everything in it. -/
theorem tree_undone (hl : ∀ q, under l q = true → w.fs q = none) (hleft : Left sys tools path l w w1) (hg : TreeGone path w1 w2) : AsBefore w w2 := by
  obtain ⟨o, s, he⟩ := hleft.elsewhere
  rcases hg with ⟨h1, h2⟩ | ⟨l', n, s', h1, _, h2⟩
  · exact gone_undone (hl l (under_self l)) hleft (.inl ⟨h1, h2⟩)
  · obtain rfl := resolved_eq hleft.res h1
    refine ⟨fun q _ => ?_, by rw [h2, he]; rfl⟩
    rw [h2]
    show removeTree w1.fs l q = w.fs q
    unfold removeTree
    by_cases hq : l.isPrefixOf q = true
    · rw [if_pos hq, hl q hq]
    · rw [if_neg hq, he]
      exact setNode_ne _ _ (by rintro rfl; exact hq (under_self _))

/-- If the path leads nowhere, nothing was made, and nothing is there to be removed. -/
theorem gone_nowhere {e : Int} (hr : resolve w.fs w.cwd path false = .error e) (h1 : Same w w1) (hg : Gone path w1 w2) : AsBefore w w2 := by
  rcases hg with ⟨_, h2⟩ | ⟨l, n, s, h2, _, _⟩
  · refine ⟨fun q _ => by rw [same_fs h2, same_fs h1], by rw [h2, h1]⟩
  · rw [same_fs h1, same_cwd h1, hr] at h2; cases h2

theorem tree_nowhere {e : Int} (hr : resolve w.fs w.cwd path false = .error e) (h1 : Same w w1) (hg : TreeGone path w1 w2) : AsBefore w w2 := by
  rcases hg with ⟨h, h2⟩ | ⟨l, n, s, h2, _, _⟩
  · exact gone_nowhere hr h1 (.inl ⟨h, h2⟩)
  · rw [same_fs h1, same_cwd h1, hr] at h2; cases h2

theorem nothing_there (h : NothingAt w path) (hr : resolve w.fs w.cwd path false = .ok l) : w.fs l = none := by
  cases hl : w.fs l with
  | none => rfl
  | some n => exact absurd (lookup_of hr hl) (h _)

/-- What attempts to make a file, a directory or a link leave. -/
theorem file_made (hord : Ordinary sys tools w) (h : FileRest path true w w1) :
    Ordinary sys tools w1 ∧ ((∃ e, resolve w.fs w.cwd path false = .error e ∧ Same w w1) ∨ ∃ l, resolve w.fs w.cwd path false = .ok l ∧ Left sys tools path l w w1) := by
  cases hr : resolve w.fs w.cwd path false with
  | ok l =>
    have := (file_left hord hr h).1
    exact ⟨this.ordinary, .inr ⟨l, rfl, this⟩⟩
  | error e =>
    rcases h with h | ⟨_, l, h, _⟩ | ⟨h, _⟩
    · exact ⟨h.ordinary hord, .inl ⟨e, rfl, h⟩⟩
    · rw [hr] at h; cases h
    · cases h

theorem store_made {source : Except Exn Bytes} (hord : Ordinary sys tools w) (hsize : ∀ c, source = .ok c → Modest c.length) (h : StoreRest source path w w1) :
    Ordinary sys tools w1 ∧ ((∃ e, resolve w.fs w.cwd path false = .error e ∧ Same w w1) ∨ ∃ l, resolve w.fs w.cwd path false = .ok l ∧ Left sys tools path l w w1) := by
  cases hr : resolve w.fs w.cwd path false with
  | ok l =>
    have := store_left hord hsize hr h
    exact ⟨this.ordinary, .inr ⟨l, rfl, this⟩⟩
  | error e =>
    rcases h with h | ⟨b, hb, h | ⟨l, h, _⟩⟩
    · exact ⟨h.ordinary hord, .inl ⟨e, rfl, h⟩⟩
    · exact ⟨h.ordinary hord, .inl ⟨e, rfl, h⟩⟩
    · rw [hr] at h; cases h

theorem directory_made (hord : Ordinary sys tools w) (h : DirectoryLeft env st path true mode owner group w w1) :
    Ordinary sys tools w1 ∧ ((∃ e, resolve w.fs w.cwd path false = .error e ∧ Same w w1) ∨ ∃ l, resolve w.fs w.cwd path false = .ok l ∧ Left sys tools path l w w1) := by
  cases hr : resolve w.fs w.cwd path false with
  | ok l =>
    have : Left sys tools path l w w1 := by
      rcases h with h | ⟨_, attr, t, l', hmo, hat, hres, o, hn, hd, _⟩ | ⟨h, _⟩
      · exact .of_same hord hr h
      · obtain rfl := resolved_eq hr hres
        exact .of_now hord hn fun n h => (hd n h).sane
      · cases h
    exact ⟨this.ordinary, .inr ⟨l, rfl, this⟩⟩
  | error e =>
    rcases h with h | ⟨_, _, _, l, _, _, h, _⟩ | ⟨h, _⟩
    · exact ⟨h.ordinary hord, .inl ⟨e, rfl, h⟩⟩
    · rw [hr] at h; cases h
    · cases h

theorem link_made (hord : Ordinary sys tools w) (hpl : Plain target) (hdir : Direct w path) (h : LinkRest path target true w w1) :
    Ordinary sys tools w1 ∧ Direct w1 path
      ∧ ((∃ e, resolve w.fs w.cwd path false = .error e ∧ Same w w1) ∨ ∃ l, resolve w.fs w.cwd path false = .ok l ∧ Left sys tools path l w w1) := by
  cases hr : resolve w.fs w.cwd path false with
  | ok l =>
    have : Left sys tools path l w w1 := by
      rcases h with h | ⟨_, l', hres, o, hn, hd⟩ | ⟨h, _⟩
      · exact .of_same hord hr h
      · obtain rfl := resolved_eq hr hres
        exact .of_now hord hn fun n h => (hd n h).sane hpl.2
      · cases h
    exact ⟨this.ordinary, this.elsewhere.direct hr hdir, .inr ⟨l, rfl, this⟩⟩
  | error e =>
    rcases h with h | ⟨_, l, h, _⟩ | ⟨h, _⟩
    · refine ⟨h.ordinary hord, ?_, .inl ⟨e, rfl, h⟩⟩
      intro l fs hl hfs
      rw [same_fs h, same_cwd h, hr] at hl
      cases hl
    · rw [hr] at h; cases h
    · cases h

/-! ### Lines -/

variable {line : Str} {ws : Bool}

/-- What is kept when a line is taken out. -/
theorem kept_lines (hstrip : ws = true → Py.strip line = line) (ls : List Str) :
    newLines line false none ws ls = ls.filter (fun x => ¬ SameLine ws x line) := by
  unfold newLines SameLine
  cases ws with
  | true =>
    simp only [Bool.false_eq_true, if_false, if_true]
    congr 1
    funext x
    rw [hstrip rfl]
    simp [bne, eq_comm, Bool.beq_eq_decide_eq]
  | false =>
    simp only [Bool.false_eq_true, if_false]
    congr 1
    funext x
    simp [bne, eq_comm, Bool.beq_eq_decide_eq]

/-- Taking a line out of the content to which it was added. -/
theorem removed_added {old new new' : Bytes} (hnew : ¬ HasLine ws line old) (hstrip : ws = true → Py.strip line = line) (hold : textLines old ≠ [])
    (h : textLines new = textLines old ++ [line]) (h' : lineContent line false none ws new = some new') :
    textLines new' = textLines old ∧ (UnixFile old → old.getLast? = some 10 → new' = old) := by
  have hothers : newLines line false none ws (textLines new) = textLines old := by
    rw [kept_lines hstrip, h, List.filter_append]
    have h1 : (textLines old).filter (fun x => ¬ SameLine ws x line) = textLines old :=
      List.filter_eq_self.mpr fun x hx => by simpa using fun hs => hnew ⟨x, hx, hs⟩
    have h2 : [line].filter (fun x => ¬ SameLine ws x line) = [] := by
      have : SameLine ws line line := by unfold SameLine; split <;> rfl
      simp [this]
    rw [h1, h2, List.append_nil]
  obtain ⟨new'', h1, h2, h3⟩ := removed (line := line) (ws := ws) (old := new) none
  rw [h1] at h'
  cases h'
  rw [hothers, if_neg hold] at h2 h3
  refine ⟨h3, fun hunix hlast => ?_⟩
  have hc := closed_bytes (old := old)
  rw [if_pos (.inr hlast), ← Py.terminated_splitlines hunix, ← unixText_eq] at hc
  have h4 := Py.encodeEscape_decodeEscape new'
  rw [h2] at h4
  rw [show unixText (textLines old) = unixText (Py.splitlines (Py.decodeEscape old)) from rfl, hc] at h4
  exact (Option.some.inj h4).symm

end Verif.Ops
