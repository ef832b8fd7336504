/-
C29 and C31 on a host: dry runs and unchanged results leave it exactly as it was.
-/
import Verif.Ops.LookLemmas
import Verif.Ops.Example

namespace Verif.Ops

open Script Remote

/-- C29 on a host whose programs that only look do not change it: after a dry run of any operation, with whatever result and
wherever the connection broke, the host is exactly as before. (Only the history of started processes is longer.) -/
theorem C29_dry_run_changes_nothing (sys : Sys) (hlook : ∀ p w, LooksOnly p.argv → (sys.exec p w).2 = w) (lost : Nat → Option Bool) (opts : List Str)
    (op : Op OpResult) (hop : Operation opts op) (env : Env) (hd : env.dry = true) (st : St) (w : World) :
    let w' := (perform sys lost op env st w).2
    w' = { w with started := w'.started } :=
  perform_same (readOnly_same hlook) fun _ _ _ h _ e he => C29_dry_run_only_looks opts op hop env hd _ _ _ _ h e.1 e.2 he

/-- C31 on such a host: if an operation reports that nothing was changed, the host is exactly as before. -/
theorem C31_unchanged_changes_nothing (sys : Sys) (hlook : ∀ p w, LooksOnly p.argv → (sys.exec p w).2 = w) (lost : Nat → Option Bool) (opts : List Str)
    (op : Op OpResult) (hop : Operation opts op) (env : Env) (st : St) (w : World) (r : OpResult) (hr : (perform sys lost op env st w).1 = .ok r)
    (hc : r.changed = false) :
    let w' := (perform sys lost op env st w).2
    w' = { w with started := w'.started } :=
  perform_same (readOnly_same hlook) fun _ _ _ h hr' e he => by
    rw [hr] at hr'
    subst hr'
    exact C31_unchanged_only_looks opts op hop env _ _ _ _ h hc e.1 e.2 he

/-- The hypothesis on the programs is met by the standard tools. -/
theorem Example.looking : ∀ p w, LooksOnly p.argv → (Example.sys.exec p w).2 = w := by
  intro p w h
  show (core Example.tools p w).2 = w
  have : ∀ argv, LooksOnly argv → parseTool argv = none ∨ ∃ path, parseTool argv = some (.readlink path) := by
    intro argv h
    cases h with
    | readlink path =>
      cases hp : parseTool [p!"readlink", p!"-n", path] with
      | none => exact .inl rfl
      | some t =>
        refine .inr ⟨path, ?_⟩
        have : parseTool [p!"readlink", p!"-n", path] = if isOption path = false then some (.readlink path) else none := by
          simp [parseTool]
        rw [hp] at this
        split at this
        · exact this
        · cases this
    | _ => exact .inl rfl
  unfold core
  rcases this _ h with h | ⟨path, h⟩
  · rw [h]; rfl
  · rw [h]
    show (runReadlink _ p w path).2 = w
    unfold runReadlink
    split
    · rfl
    · split
      · split <;> rfl
      · rfl

/-- Without a dry run the same operation does change the host; in a dry run it reports the same change. -/
example :
    let op := directory p!"/tmp/d" true false none none none true
    (perform Example.sys Example.always op Example.env Example.st Example.host).2.fs [p!"tmp", p!"d"] ≠ Example.host.fs [p!"tmp", p!"d"]
      ∧ ∃ r, (perform Example.sys Example.always op { Example.env with dry := true } Example.st Example.host).1 = .ok r ∧ r.changed = true := by
  refine ⟨by decide +kernel, _, rfl, by decide +kernel⟩

end Verif.Ops
