/-
Options for what is displayed do not change what scripts with any control flow do (C84).
-/
import Verif.Ops.DisplayProps
import Verif.Ops.ScriptedSpec

namespace Verif.Ops

open Script Remote
open Client (Prog direct)
open Wire (Packet)

/-- Code of the user that does not look at the options for what is displayed, nor at the diffs that were printed: with other ones it asks the
host the same questions and comes to the same conclusion. -/
def Incurious {α : Type} (m : Op α) : Prop :=
  ∀ env env' st st', env.base = env'.base → env.dry = env'.dry → SameButDiffs st st' →
    ∃ code : Prog (Except Exn α), m env st = code.bind (fun r => .ret (r, st)) ∧ m env' st' = code.bind fun r => .ret (r, st')

/-- The code of a script as in `Scripted`, whose own code is incurious. -/
inductive PlainScript : {α : Type} → Op α → Prop where
  | look {α : Type} (m : Op α) (h : Incurious m) : PlainScript m
  | operation (opts : List Str) (op : Op OpResult) (h : Operation opts op) : PlainScript op
  | andThen {α β : Type} (m : Op α) (next : α → Op β) : PlainScript m → (∀ a, PlainScript (next a)) → PlainScript (m >>= next)
  | attempt {α : Type} (m : Op α) (handler : Exn → Op α) : PlainScript m → (∀ e, PlainScript (handler e)) → PlainScript (Op.tryCatch m handler)
  | defaults {α : Type} (s : Settings) (body : Settings → Op α) : (∀ a, PlainScript (body a)) → PlainScript (withDefaults s body)
  | script {α : Type} (body : Op α) : PlainScript body → PlainScript (localScript body)

section
variable {sys : Sys} {α β : Type}

/-- Two ends of a run that differ in what was displayed only. -/
structure AlikeEnds (x y : (Except Exn α × St) × World) : Prop where
  result : x.1.1 = y.1.1
  state : SameButDiffs x.1.2 y.1.2
  host : x.2 = y.2

/-- On this host the code does the same whatever is displayed. -/
def Unswayed (sys : Sys) (m : Op α) : Prop :=
  ∀ e e', Display e e' → ∀ s s', SameButDiffs s s' → ∀ w, AlikeEnds (exec (direct sys) m e s w) (exec (direct sys) m e' s' w)

theorem Unswayed.of_blind (hm : MissingIsMissing sys) {m : Op α} {K : α → Trace → OpState → Prop} (h : Blind (fun _ _ => True) m K) : Unswayed sys m := by
  intro e e' hd s s' hs w
  obtain ⟨h1, h2, h3⟩ := rel_host (w := w) hm (h e e' hd s s' hs [] trivial) fun t0 p a ht => by simp at ht
  exact ⟨h1, h2, h3⟩

theorem Unswayed.bind {m : Op α} {f : α → Op β} (h : Unswayed sys m) (hf : ∀ a, Unswayed sys (f a)) : Unswayed sys (m >>= f) := by
  intro e e' hd s s' hs w
  obtain ⟨h1, h2, h3⟩ := h e e' hd s s' hs w
  rw [exec_bind, exec_bind]
  generalize exec (direct sys) m e s w = x at h1 h2 h3
  generalize exec (direct sys) m e' s' w = y at h1 h2 h3
  obtain ⟨⟨r, t⟩, v⟩ := x
  obtain ⟨⟨r', t'⟩, v'⟩ := y
  dsimp only at h1 h2 h3
  subst h1 h3
  cases r with
  | ok a => exact hf a e e' hd _ _ h2 _
  | error x => exact ⟨rfl, h2, rfl⟩

theorem Unswayed.tryCatch {m : Op α} {f : Exn → Op α} (h : Unswayed sys m) (hf : ∀ a, Unswayed sys (f a)) : Unswayed sys (Op.tryCatch m f) := by
  intro e e' hd s s' hs w
  obtain ⟨h1, h2, h3⟩ := h e e' hd s s' hs w
  rw [exec_tryCatch, exec_tryCatch]
  generalize exec (direct sys) m e s w = x at h1 h2 h3
  generalize exec (direct sys) m e' s' w = y at h1 h2 h3
  obtain ⟨⟨r, t⟩, v⟩ := x
  obtain ⟨⟨r', t'⟩, v'⟩ := y
  dsimp only at h1 h2 h3
  subst h1 h3
  cases r with
  | ok a => exact ⟨rfl, h2, rfl⟩
  | error x => exact hf x e e' hd _ _ h2 _

theorem Unswayed.finally_ {m : Op α} (h : Unswayed sys m) : Unswayed sys (Op.finally_ m fun st => { st with stack := st.stack.tail }) := by
  intro e e' hd s s' hs w
  obtain ⟨h1, h2, h3⟩ := h e e' hd s s' hs w
  rw [exec_finally, exec_finally]
  exact ⟨h1, ⟨by simp [h2.stack], h2.nested, h2.initial, h2.final, h2.shown⟩, h3⟩

theorem Unswayed.withDefaults (hm : MissingIsMissing sys) {s : Settings} {body : Settings → Op α} (h : ∀ a, Unswayed sys (body a)) : Unswayed sys (withDefaults s body) := by
  have hk : Stable fun _ _ => True := fun _ _ _ h => h
  refine .bind (.of_blind hm (.ofExcept _)) fun c => ?_
  intro e e' hd s s' hs w
  have := Unswayed.bind (.of_blind (sys := sys) hm .currentDefaults) (fun cur => .bind (.of_blind hm (.resolveDefaults hk ((e.base.overlay cur).overlay c))) fun r =>
    .bind (.of_blind hm (.push r)) fun _ => .finally_ (h (e.base.overlay r))) e e' hd s s' hs w
  show AlikeEnds (Prog.run (direct sys) (Op.bind Op.getEnv _ e s) w) (Prog.run (direct sys) (Op.bind Op.getEnv _ e' s') w)
  simp only [Op.bind, Op.getEnv, Prog.bind, ← hd.base]
  exact this

theorem Unswayed.localScript (hm : MissingIsMissing sys) {body : Op α} (h : Unswayed sys body) : Unswayed sys (localScript body) := by
  intro e e' hd s s' hs w
  have hb := Unswayed.withDefaults (s := {}) hm (fun _ => h) e e' hd { s with stack := [{}] } { s' with stack := [{}] } ⟨rfl, hs.nested, hs.initial, hs.final, hs.shown⟩ w
  show AlikeEnds (Prog.run (direct sys) (Prog.bind _ _) w) (Prog.run (direct sys) (Prog.bind _ _) w)
  rw [run_bind, run_bind]
  obtain ⟨h1, h2, h3⟩ := hb
  exact ⟨h1, ⟨hs.stack, h2.nested, h2.initial, h2.final, h2.shown⟩, h3⟩

theorem Unswayed.incurious {m : Op α} (h : Incurious m) : Unswayed sys m := by
  intro e e' hd s s' hs w
  obtain ⟨code, h1, h2⟩ := h e e' s s' hd.base hd.dry hs
  unfold exec
  rw [h1, h2, run_bind, run_bind]
  exact ⟨rfl, hs, rfl⟩

theorem unswayed_script (hm : MissingIsMissing sys) {m : Op α} (h : PlainScript m) : Unswayed sys m := by
  induction h with
  | look m h => exact .incurious h
  | operation opts op h => exact .of_blind hm (blind_operation (fun _ => True) h)
  | andThen m next _ _ ih1 ih2 => exact .bind ih1 ih2
  | attempt m handler _ _ ih1 ih2 => exact .tryCatch ih1 ih2
  | defaults s body _ ih => exact .withDefaults hm ih
  | script body _ ih => exact .localScript hm ih

end

/-- C84, scripts with any control flow. Whatever is to be displayed, a script that does not itself look at these options does the same to the host, has the same outcome
and prints the same summaries apart from the diffs, in dry runs as in real ones. It may call operations in whatever order, depending on their results and on what it finds
on the host, catch exceptions, set defaults and call other scripts. -/
theorem C84_scripts_host (sys : Sys) (hm : MissingIsMissing sys) {α : Type} (m : Op α) (hs : PlainScript m)
    (env : Env) (diff diff' changes changes' : Bool) (st : St) (w : World) :
    let with1 := exec (direct sys) m { env with diff := diff, changes := changes } st w
    let with2 := exec (direct sys) m { env with diff := diff', changes := changes' } st w
    with1.1.1 = with2.1.1 ∧ SameButDiffs with1.1.2 with2.1.2 ∧ with1.2 = with2.2 := by
  have key : ∀ d c, _ := fun d c => unswayed_script hm hs { env with diff := d, changes := c } { env with diff := false, changes := true } ⟨rfl, rfl, rfl⟩ st st ⟨rfl, rfl, rfl, rfl, rfl⟩ w
  obtain ⟨h1, h2, h3⟩ := key diff changes
  obtain ⟨g1, g2, g3⟩ := key diff' changes'
  exact ⟨h1.trans g1.symm, ⟨h2.stack.trans g2.stack.symm, h2.nested.trans g2.nested.symm, h2.initial.trans g2.initial.symm,
    h2.final.trans g2.final.symm, h2.shown.trans g2.shown.symm⟩, h3.trans g3.symm⟩

namespace Example

/-- A script that replaces `/etc/motd`; if that was a change, it makes a directory; whether there is one called `/nowhere` is looked up; a relative path that is refused is ignored. -/
def careful : Op Bool := do
  let r ← replace
  let s ← Connection.stat p!"/nowhere" false false
  let _ ← Op.tryCatch (directory p!"www" true false none none none true) fun _ => replace
  if r.changed then
    let _ ← directory p!"/tmp/www" true false none none none true
  return s.isSome

theorem careful_plain : PlainScript careful := by
  have hr : PlainScript replace := .operation _ _ (.uploadContent _ _ _ _ _ _ _)
  refine .andThen _ _ hr fun r => .andThen _ _ (.look _ ?_) fun s => .andThen _ _ (.attempt _ _ (.operation _ _ (.directory _ _ _ _ _ _ _)) fun _ => hr) fun _ => ?_
  · intro env env' st st' _ _ _
    exact ⟨_, rfl, rfl⟩
  · have hp : PlainScript (pure s.isSome : Op Bool) := .look _ fun env env' st st' _ _ _ => ⟨.ret (.ok s.isSome), rfl, rfl⟩
    dsimp only
    split
    · exact .andThen _ _ (.operation _ _ (.directory _ _ _ _ _ _ _)) fun _ => hp
    · exact hp

example : (exec (direct sys) careful { env with diff := true } st host).1.2.shown.map (·.diffs.length) = [1, 0, 0, 0]
    ∧ (exec (direct sys) careful { env with changes := false } st host).1.2.shown.map (·.diffs.length) = [0, 0, 0, 0]
    ∧ ((exec (direct sys) careful { env with diff := true } st host).2.fs [p!"tmp", p!"www"]).isSome = true :=
  ⟨by decide +kernel, by decide +kernel, by decide +kernel⟩

end Example

end Verif.Ops
