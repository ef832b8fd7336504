/-
C102: operations have no memory.
-/
import Verif.Ops.ScriptedSpec

namespace Verif.Ops

open Script Remote
open Client (Prog)

/-- Two moments in scripts at which the same settings are in force: the innermost defaults are the same. What was printed before, which
other defaults are around, and which script this is, may be different. -/
structure SameSettings (st st' : St) : Prop where
  stack : ∃ s, st.stack.head? = some s ∧ st'.stack.head? = some s
  op : st.op = st'.op

/-- Code of the user that looks at nothing but the host, the settings in force and the options of the command line, and that prints no
summaries of operations: at different moments it makes the same requests and, if the answers are the same, comes to the same conclusions. -/
def Oblivious {α : Type} (m : Op α) : Prop :=
  ∀ env st st', st.stack.head? = st'.stack.head? → st.op = st'.op →
    ∃ code : Prog (Except Exn α), m env st = code.bind (fun r => .ret (r, st)) ∧ m env st' = code.bind fun r => .ret (r, st')

/-- The code of a script as in `Scripted`, whose own code is oblivious. -/
inductive PureScript : {α : Type} → Op α → Prop where
  | look {α : Type} (m : Op α) (h : Oblivious m) : PureScript m
  | operation (opts : List Str) (op : Op OpResult) (h : Operation opts op) : PureScript op
  | andThen {α β : Type} (m : Op α) (next : α → Op β) : PureScript m → (∀ a, PureScript (next a)) → PureScript (m >>= next)
  | attempt {α : Type} (m : Op α) (handler : Exn → Op α) : PureScript m → (∀ e, PureScript (handler e)) → PureScript (Op.tryCatch m handler)
  | defaults {α : Type} (s : Settings) (body : Settings → Op α) : (∀ a, PureScript (body a)) → PureScript (withDefaults s body)
  | script {α : Type} (body : Op α) : PureScript body → PureScript (localScript body)

end Verif.Ops
