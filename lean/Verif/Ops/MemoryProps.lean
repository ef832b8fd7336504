/-
C102: operations have no memory.
-/
import Verif.Ops.MemoryLemmas
import Verif.Ops.ScriptedProps

namespace Verif.Ops

open Script Remote
open Wire (Packet)

variable {α β : Type}

/-- C102, whatever the host answers: a script (in particular a single operation) that is called at two moments with the same settings in
force makes the same requests as long as it gets the same answers, ends with the same result or exception, and prints the same summaries. It
does not matter what was printed before, what was done before, or in how many blocks of defaults and scripts the call is. -/
theorem C102_no_memory (m : Op α) (hm : PureScript m) (env : Env) (st1 st2 : St) (hsame : SameSettings st1 st2) (t : Trace) (r : Except Exn α) (st1' : St)
    (h : Execution m env st1 t r st1') :
    ∃ st2', Execution m env st2 t r st2' ∧ SameSettings st1' st2'
      ∧ ∃ printed, st1'.shown = st1.shown ++ printed ∧ st2'.shown = st2.shown ++ printed := by
  obtain ⟨⟨r', st2'⟩, h1, h2, h3, h4, h5, h6⟩ := (framed_moments (framed_script hm) hsame).runs h
  cases (show r = r' from h2)
  obtain ⟨s, hs, hs'⟩ := hsame.stack
  exact ⟨st2', h1, ⟨⟨s, by rw [h3]; exact hs, by rw [h4]; exact hs'⟩, h5⟩, h6⟩

/-- C102, on any host: what comes after a part of a script does what it would do as the whole script, on the host as the first part left it: the same
result or exception, the same host afterwards, the same summaries (after those of the first part). -/
theorem C102_as_if_first {σ : Type} (remote : Packet → σ → Except Exn Packet × σ) (first : Op α) (next : α → Op β) (hf : PureScript first)
    (hn : ∀ a, PureScript (next a)) (env : Env) (st : St) (hs : st.stack ≠ []) (w : σ) (a : α) (sta : St) (wa : σ)
    (hfirst : exec remote first env st w = ((.ok a, sta), wa)) :
    let alone := exec remote (next a) env st wa
    ∃ before after, sta.shown = st.shown ++ before ∧ alone.1.2.shown = st.shown ++ after
      ∧ exec remote (first >>= next) env st w = ((alone.1.1, { st with shown := st.shown ++ before ++ after }), alone.2) := by
  dsimp only
  rw [exec_bind_of_ok hfirst]
  obtain ⟨t, hrun⟩ : ∃ t, Execution first env st t (.ok a) sta := by
    have := runs_recorded remote (first env st) w
    unfold exec at hfirst
    rw [hfirst] at this
    exact ⟨_, this⟩
  have hone : SameSettings st st := by
    refine ⟨?_, rfl⟩
    cases h : st.stack with
    | nil => exact absurd h hs
    | cons s l => exact ⟨s, rfl, rfl⟩
  obtain ⟨⟨_, _⟩, _, _, hk, _, _, before, hb, _⟩ := (framed_moments (framed_script hf) hone).runs hrun
  have hop := keeps_script hf _ _ _ _ _ hrun
  have hsame : SameSettings sta st := by
    obtain ⟨s, h, h'⟩ := hone.stack
    exact ⟨⟨s, by rw [hk]; exact h, h'⟩, hop⟩
  obtain ⟨⟨h1, h2, h3, h4, after, h5, h6⟩, h7⟩ := (framed_moments (framed_script (hn a)) hsame (env := env)).run remote wa
  have hop' := keeps_script (hn a) _ _ _ _ _ (runs_recorded remote (next a env st) wa)
  refine ⟨before, after, hb, h6, ?_⟩
  unfold exec
  refine Prod.ext (Prod.ext h1 ?_) h7
  show _ = ({ st with shown := st.shown ++ before ++ after } : St)
  have e1 : ((next a env sta).run remote wa).1.2.stack = st.stack := h2.trans hk
  have e2 : ((next a env sta).run remote wa).1.2.op = st.op := h4.trans hop'
  have e3 : ((next a env sta).run remote wa).1.2.shown = st.shown ++ before ++ after := by rw [h5, hb]
  cases hx : ((next a env sta).run remote wa).1.2 with
  | mk a b c => rw [hx] at e1 e2 e3; cases e1; cases e2; cases e3; rfl

/-- C102, on any host: a part of a script that left the host as it was could have been left out. -/
theorem C102_left_out {σ : Type} (remote : Packet → σ → Except Exn Packet × σ) (first : Op α) (next : Op β) (hf : PureScript first)
    (hn : PureScript next) (env : Env) (st : St) (hs : st.stack ≠ []) (w : σ) (a : α) (sta : St)
    (hfirst : exec remote first env st w = ((.ok a, sta), w)) :
    (exec remote (first >>= fun _ => next) env st w).1.1 = (exec remote next env st w).1.1
      ∧ (exec remote (first >>= fun _ => next) env st w).2 = (exec remote next env st w).2 := by
  obtain ⟨_, _, _, _, h⟩ := C102_as_if_first remote first (fun _ => next) hf (fun _ => hn) env st hs w a sta w hfirst
  rw [h]
  exact ⟨rfl, rfl⟩

/-! ### An example -/

namespace Example

theorem oblivious_pure {α : Type} (a : α) : Oblivious (Op.pure a) := fun _ _ _ _ _ => ⟨.ret (.ok a), rfl, rfl⟩

theorem oblivious_stat (path : Str) : Oblivious (Connection.stat path) := fun _ _ _ _ _ => ⟨_, rfl, rfl⟩

theorem pure_directory (path : Str) (present touch : Bool) (mode owner group : Option Str) (check : Bool) :
    PureScript (directory path present touch mode owner group check) := .operation [] _ (.directory path present touch mode owner group check)

theorem pure_makeFirst (s : Option Client.StatResult) : PureScript (makeFirst s) := by
  unfold makeFirst
  split
  · exact .defaults _ _ fun _ => .andThen _ _ (pure_directory _ _ _ _ _ _ _) fun r => .look _ (oblivious_pure _)
  · exact .look _ (oblivious_pure _)

theorem pure_branching : PureScript branching := by
  refine .andThen _ _ (.look _ (oblivious_stat _)) fun s => .andThen _ _ (pure_makeFirst s) fun changed => .andThen _ _ ?_ fun _ => ?_
  · exact .attempt _ _ (pure_directory _ _ _ _ _ _ _) fun _ => pure_directory _ _ _ _ _ _ _
  · cases changed with
    | true => exact .script _ (.andThen _ _ (pure_directory _ _ _ _ _ _ _) fun _ => .look _ (oblivious_pure _))
    | false => exact .look _ (oblivious_pure _)

/-- A script of its own for the directory that must be there first. -/
def prepare : Op OpResult := directory p!"/tmp" true false (some p!"1777") none none true

end Example

/-- The hypotheses of the theorems are met: `branching` is such a script; `prepare` changes nothing on the example host and can be left out; and after a first run of
`branching` a second one in the same script does what it does alone on the host as it is then. -/
example : PureScript Example.branching ∧ PureScript Example.prepare ∧ Example.st.stack ≠ []
    ∧ ((exec (Client.direct Example.sys) Example.prepare Example.env Example.st Example.host).1.1.toOption.map (·.changed)) = some false
    ∧ Example.outcomes (exec (Client.direct Example.sys) (Example.branching >>= fun _ => Example.branching) Example.env Example.st Example.host).1.2.shown
      = [(true, true), (false, false), (true, false), (true, true)] ++ [(false, false), (true, false)] :=
  ⟨Example.pure_branching, Example.pure_directory _ _ _ _ _ _ _, by decide, by decide +kernel, by decide +kernel⟩

end Verif.Ops
