/-
C100: scripts of the user with whatever control flow, as far as they act on the host through operations.
-/
import Verif.Ops.Spec

namespace Verif.Ops

open Script

/-- `local.script(...)`, /repo/src/fora/operations/local.py:10-54 and /repo/src/fora/loader.py:112-135: the code of another script is
executed. It has a stack of defaults of its own, with fresh ones; afterwards the calling script goes on with its own stack, however
this ended. (What is needed to find the script and to enter its directory is the subject of Run/Script.lean.) -/
def localScript {α : Type} (body : Op α) : Op α := fun env st =>
  (withDefaults {} (fun _ => body) env { st with stack := [{}] }).bind fun (r, st') => .ret (r, { st' with stack := st.stack })

/-- Code of the user that looks at whatever it likes, on the host and elsewhere, but neither changes anything on the host nor prints
summaries of operations: computations, looking at results, parameters, variables and options of the command line; raising exceptions;
the queries of the connection (`stat`, `download`, `query_user`, …); commands for looking. -/
def OnlyLooks {α : Type} (m : Op α) : Prop :=
  ∀ env st t r st', Execution m env st t r st' → (∀ request answer, (request, answer) ∈ t → ReadOnly request) ∧ st' = st

/-- The code of a script: it calls operations, in whatever order and on whatever conditions, goes on depending on their results,
handles exceptions, sets defaults for some of its parts, and calls other scripts. (Code that does not come to an end is not
modelled.) -/
inductive Scripted : {α : Type} → Op α → Prop where
  | look {α : Type} (m : Op α) (h : OnlyLooks m) : Scripted m
  | operation (opts : List Str) (op : Op OpResult) (h : Operation opts op) : Scripted op
  /-- one statement after the other; what is done next depends on the outcome -/
  | andThen {α β : Type} (m : Op α) (next : α → Op β) : Scripted m → (∀ a, Scripted (next a)) → Scripted (m >>= next)
  /-- `try: m except … as e: handler(e)` -/
  | attempt {α : Type} (m : Op α) (handler : Exn → Op α) : Scripted m → (∀ e, Scripted (handler e)) → Scripted (Op.tryCatch m handler)
  /-- `with defaults(...) as attr: body(attr)` -/
  | defaults {α : Type} (s : Settings) (body : Settings → Op α) : (∀ a, Scripted (body a)) → Scripted (withDefaults s body)
  /-- `local.script(...)` -/
  | script {α : Type} (body : Op α) : Scripted body → Scripted (localScript body)

/-- The summary of an operation that has succeeded without a change. -/
def Report.Unchanged (p : Report) : Prop := p.result.success = true ∧ p.result.changed = false

end Verif.Ops
