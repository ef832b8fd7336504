/-
A program logic for operations on a host: what holds afterwards if they end normally, and what holds if they raise, over a
connection that may break at any request.
-/
import Verif.Ops.HostSpec
import Verif.Script.DefaultsLemmas
import Verif.Ops.Lemmas

namespace Verif.Ops

open Script Remote
open Client (Prog direct lostConnection)
open Wire (Packet)

section
variable {sys : Sys} {lost : Nat → Option Bool} {env : Env} {st : St} {w : World}

def Post {α : Type} (sys : Sys) (lost : Nat → Option Bool) (m : Op α) (env : Env) (st : St) (w : World) (Q : α → St → World → Prop)
    (E : World → Prop) : Prop :=
  ∀ k, match exec (flaky sys lost) m env st (w, k) with
    | ((.ok a, st'), s) => Q a st' s.1
    | ((.error _, _), s) => E s.1

theorem Post.pure {α : Type} {a : α} {Q : α → St → World → Prop} {E : World → Prop} (h : Q a st w) :
    Post sys lost (Op.pure a) env st w Q E := fun _ => h

theorem Post.ret {α : Type} {a : α} {Q : α → St → World → Prop} {E : World → Prop} (h : Q a st w) :
    Post sys lost (Pure.pure a : Op α) env st w Q E := fun _ => h

theorem Post.raise {α : Type} {e : Exn} {Q : α → St → World → Prop} {E : World → Prop} (h : E w) :
    Post sys lost (Op.raise e : Op α) env st w Q E := fun _ => h

theorem Post.bind {α β : Type} {m : Op α} {f : α → Op β} {Q : β → St → World → Prop} {E : World → Prop}
    (h : Post sys lost m env st w (fun a st' w' => Post sys lost (f a) env st' w' Q E) E) :
    Post sys lost (m >>= f) env st w Q E := by
  intro k
  have hk := h k
  rw [exec_bind]
  match hm : exec (flaky sys lost) m env st (w, k) with
  | ((.ok a, st'), (w', k')) =>
    rw [hm] at hk
    exact hk k'
  | ((.error e, st'), (w', k')) =>
    rw [hm] at hk
    exact hk

theorem Post.mono {α : Type} {m : Op α} {Q Q' : α → St → World → Prop} {E E' : World → Prop} (h : Post sys lost m env st w Q E)
    (hQ : ∀ a st' w', Q a st' w' → Q' a st' w') (hE : ∀ w', E w' → E' w') : Post sys lost m env st w Q' E' := by
  intro k
  have hk := h k
  match hm : exec (flaky sys lost) m env st (w, k) with
  | ((.ok a, st'), (w', k')) => rw [hm] at hk; exact hQ _ _ _ hk
  | ((.error e, st'), (w', k')) => rw [hm] at hk; exact hE _ hk

theorem Post.ofExcept {α : Type} {x : Except Exn α} {Q : α → St → World → Prop} {E : World → Prop}
    (hQ : ∀ a, x = .ok a → Q a st w) (hE : E w) : Post sys lost (Op.ofExcept x) env st w Q E := by
  intro k
  rw [exec_ofExcept]
  cases x with
  | ok a => exact hQ a rfl
  | error e => exact hE

/-- A call that sends one request and passes a lost connection on. -/
def Single {α : Type} (p : Prog (Except Exn α)) : Prop :=
  ∃ (pk : Packet) (f : Except Exn Packet → Except Exn α),
    p = .req pk (fun r => .ret (f r)) ∧ f (.error lostConnection) = .error lostConnection

theorem Post.call {α : Type} {p : Prog (Except Exn α)} (hp : Single p) {Q : α → St → World → Prop} {E : World → Prop}
    (hok : ∀ a w', p.run (direct sys) w = (.ok a, w') → Q a st w' ∧ E w')
    (herr : ∀ e w', p.run (direct sys) w = (.error e, w') → E w') (hE : E w) :
    Post sys lost (Op.call p) env st w Q E := by
  obtain ⟨pk, f, rfl, hf⟩ := hp
  intro k
  rw [exec_call]
  simp only [Prog.run, flaky] at hok herr ⊢
  have hE' : E (direct sys pk w).2 := by
    match hx : f (direct sys pk w).1 with
    | .ok a => exact (hok a _ (by rw [hx])).2
    | .error e => exact herr e _ (by rw [hx])
  match hl : lost k with
  | none =>
    simp only
    match hx : f (direct sys pk w).1 with
    | .ok a => exact (hok a _ (by rw [hx])).1
    | .error e => exact hE'
  | some false => simp only [hf]; exact hE
  | some true => simp only [hf]; exact hE'

/-- A call that only looks. -/
theorem Post.query {α : Type} {p : Prog (Except Exn α)} (hp : Single p) {Q : α → St → World → Prop} {E : World → Prop}
    (hw : (p.run (direct sys) w).2 = w) (hok : ∀ a, p.run (direct sys) w = (.ok a, w) → Q a st w) (hE : E w) :
    Post sys lost (Op.call p) env st w Q E := by
  refine Post.call hp ?_ ?_ hE
  · intro a w' h
    have : w' = w := by rw [h] at hw; exact hw
    subst this
    exact ⟨hok a h, hE⟩
  · intro e w' h
    have : w' = w := by rw [h] at hw; exact hw
    subst this
    exact hE

theorem Post.finally {α : Type} {m : Op α} {f : St → St} {Q : α → St → World → Prop} {E : World → Prop}
    (h : Post sys lost m env st w (fun a st' w' => Q a (f st') w') E) : Post sys lost (Op.finally_ m f) env st w Q E := by
  intro k
  have hk := h k
  rw [exec_finally]
  match hm : exec (flaky sys lost) m env st (w, k) with
  | ((.ok a, st'), (w', k')) => rw [hm] at hk; exact hk
  | ((.error e, st'), (w', k')) => rw [hm] at hk; exact hk

theorem Post.tryCatch {α : Type} {m : Op α} {f : Exn → Op α} {Q : α → St → World → Prop} {E : World → Prop}
    (h : Post sys lost m env st w Q E) (hf : ∀ e st' w', E w' → Post sys lost (f e) env st' w' Q E) :
    Post sys lost (Op.tryCatch m f) env st w Q E := by
  intro k
  have hk := h k
  rw [exec_tryCatch]
  match hm : exec (flaky sys lost) m env st (w, k) with
  | ((.ok a, st'), (w', k')) => rw [hm] at hk; exact hk
  | ((.error e, st'), (w', k')) => rw [hm] at hk; exact hf e st' w' hk k'

theorem Post.returned {m : Op OpResult} {Q : Option OpResult → St → World → Prop} {E : World → Prop}
    (h : Post sys lost m env st w (fun r => Q (some r)) E) : Post sys lost (returned m) env st w Q E :=
  Post.bind (h.mono (fun _ _ _ h => Post.ret h) (fun _ h => h))

theorem Post.operation {check : Bool} {f : Op (Option OpResult)} {Q : OpResult → St → World → Prop} {E : World → Prop}
    (h : Post sys lost f env { st with op := {} } w
      (fun r st' w' => E w' ∧ ∀ res, r = some res → (check = true → res.success = true) → Q res { st' with op := st.op } w') E) :
    Post sys lost (operation check f) env st w Q E := by
  intro k
  have hk := h k
  have : exec (flaky sys lost) (Script.operation check f) env st (w, k)
    = match exec (flaky sys lost) f env { st with op := {} } (w, k) with
      | ((.error e, st'), s) => ((.error e, { st'.show (failed st' (errorText e)) with op := st.op }), s)
      | ((.ok none, st'), s) => ((.error (.operationError p!"The operation failed to return a status."), { st' with op := st.op }), s)
      | ((.ok (some r), st'), s) =>
        if check && !r.success then ((.error (failureError r), { st' with op := st.op }), s) else ((.ok r, { st' with op := st.op }), s) := by
    show Prog.run _ (Prog.bind (f env { st with op := {} }) _) _ = _
    rw [run_bind]
    simp only [exec]
    match Prog.run (flaky sys lost) (f env { st with op := {} }) (w, k) with
    | ((.error e, st'), s) => rfl
    | ((.ok none, st'), s) => rfl
    | ((.ok (some r), st'), s) =>
      simp only
      split <;> rfl
  rw [this]
  match hm : exec (flaky sys lost) f env { st with op := {} } (w, k) with
  | ((.error e, st'), (w', k')) => rw [hm] at hk; exact hk
  | ((.ok none, st'), (w', k')) => rw [hm] at hk; exact hk.1
  | ((.ok (some r), st'), (w', k')) =>
    rw [hm] at hk
    simp only
    by_cases hc : (check && !r.success) = true
    · rw [if_pos hc]; exact hk.1
    · rw [if_neg hc]
      refine hk.2 r rfl ?_
      intro h1
      simpa [h1] using hc

theorem Post.perform {α : Type} {m : Op α} {Q : α → St → World → Prop} {E : World → Prop} (h : Post sys lost m env st w Q E) :
    (∀ a, (perform sys lost m env st w).1 = .ok a → ∃ st', Q a st' (perform sys lost m env st w).2)
      ∧ (∀ e, (perform sys lost m env st w).1 = .error e → E (perform sys lost m env st w).2) := by
  have hk := h 0
  unfold Ops.perform
  match hm : exec (flaky sys lost) m env st (w, 0) with
  | ((.ok a, st'), (w', k')) =>
    rw [hm] at hk
    refine ⟨?_, ?_⟩
    · intro b hb; cases hb; exact ⟨_, hk⟩
    · intro e he; cases he
  | ((.error e, st'), (w', k')) =>
    rw [hm] at hk
    refine ⟨?_, ?_⟩
    · intro b hb; cases hb
    · intro e he; exact hk

/-! ### Calls of the connection -/

theorem single_stat (path : Str) (a b : Bool) : Single (Client.Connector.stat path a b) := ⟨_, _, rfl, rfl⟩
theorem single_run (c : List Str) (i : Option Bytes) (a b : Bool) (u g m d : Option Str) :
    Single (Client.Connector.run c i a b u g m d) := ⟨_, _, rfl, rfl⟩
theorem single_resolveUser (u : Option Str) : Single (Client.Connector.resolveUser u) := ⟨_, _, rfl, rfl⟩
theorem single_resolveGroup (u : Option Str) : Single (Client.Connector.resolveGroup u) := ⟨_, _, rfl, rfl⟩
theorem single_upload (f : Str) (c : Bytes) (m o g : Option Str) : Single (Client.Connector.upload f c m o g) := ⟨_, _, rfl, rfl⟩
theorem single_download (f : Str) : Single (Client.Connector.download f) := ⟨_, _, rfl, rfl⟩

theorem direct_query (p : Packet) (h : Client.isQuery p = true) : (direct sys p w).2 = w := by
  rw [Client.direct_world, Client.C15_query_changes_nothing sys w p h]

theorem Post.resolveUser (hw : w.Sane) {x : Option Str} {Q : Option Str → St → World → Prop} {E : World → Prop}
    (hQ : ∀ y, UserValue w x y → Q y st w) (hE : E w) : Post sys lost (mapOpt Connection.resolveUser x) env st w Q E := by
  cases x with
  | none => exact Post.pure (hQ none rfl)
  | some u =>
    refine Post.bind (Post.query (single_resolveUser _) (direct_query _ rfl) ?_ hE)
    intro y h
    exact Post.ret (hQ (some y) (by obtain ⟨_, e, he, rfl⟩ := resolveUser_ok hw h; exact ⟨e, he, rfl⟩))

theorem Post.resolveGroup (hw : w.Sane) {x : Option Str} {Q : Option Str → St → World → Prop} {E : World → Prop}
    (hQ : ∀ y, GroupValue w x y → Q y st w) (hE : E w) : Post sys lost (mapOpt Connection.resolveGroup x) env st w Q E := by
  cases x with
  | none => exact Post.pure (hQ none rfl)
  | some u =>
    refine Post.bind (Post.query (single_resolveGroup _) (direct_query _ rfl) ?_ hE)
    intro y h
    exact Post.ret (hQ (some y) (by obtain ⟨_, e, he, rfl⟩ := resolveGroup_ok hw h; exact ⟨e, he, rfl⟩))

theorem Post.stat {path : Str} {fo sha : Bool} {Q : Option Client.StatResult → St → World → Prop} {E : World → Prop}
    (hQ : ∀ s, (Client.Connector.stat path fo sha).run (direct sys) w = (.ok s, w) → Q s st w) (hE : E w) :
    Post sys lost (Connection.stat path fo sha) env st w Q E :=
  Post.query (single_stat _ _ _) (direct_query _ rfl) hQ hE

theorem Post.download {path : Str} {Q : Bytes → St → World → Prop} {E : World → Prop}
    (hQ : ∀ c, (Client.Connector.download path).run (direct sys) w = (.ok c, w) → Q c st w) (hE : E w) :
    Post sys lost (Connection.download path) env st w Q E :=
  Post.query (single_download _) (direct_query _ rfl) hQ hE

theorem Post.downloadOr {path : Str} {Q : Option Bytes → St → World → Prop} {E : World → Prop}
    (hQ : ∀ c, Q c st w) (hE : E w) : Post sys lost (Connection.downloadOr path) env st w Q E := by
  intro k
  have h1 : Post sys lost (do let c ← Connection.download path; return some c : Op (Option Bytes)) env st w
      (fun c st' w' => st' = st ∧ w' = w) (fun w' => w' = w) :=
    Post.bind (Post.download (fun c _ => Post.ret ⟨rfl, rfl⟩) rfl)
  have hst : (exec (flaky sys lost) (do let c ← Connection.download path; return some c : Op (Option Bytes)) env st (w, k)).1.2 = st := by
    rw [exec_bind]
    simp only [Connection.download, exec_call]
    split
    · next h => simp only [Prod.mk.injEq] at h; exact h.1.2.symm
    · next h => simp only [Prod.mk.injEq] at h; exact h.1.2.symm
  have hk := h1 k
  unfold Connection.downloadOr Connection.orDefault
  rw [exec_tryCatch]
  match hm : exec (flaky sys lost) (do let c ← Connection.download path; return some c : Op (Option Bytes)) env st (w, k) with
  | ((.ok a, st'), (w', k')) =>
    rw [hm] at hk
    obtain ⟨rfl, rfl⟩ := hk
    exact hQ _
  | ((.error e, st'), (w', k')) =>
    rw [hm] at hk hst
    simp only at hst hk ⊢
    subst hst
    subst hk
    by_cases he : e.isValueError = true
    · rw [if_pos he]; exact hQ _
    · rw [if_neg he]; exact hE

theorem Post.checkCwd {c : Option Str} {Q : Unit → St → World → Prop} {E : World → Prop} (hQ : Q () st w) (hE : E w) :
    Post sys lost (checkCwd c) env st w Q E := by
  unfold Script.checkCwd
  split
  · exact Post.pure hQ
  · exact Post.pure hQ
  · refine Post.bind (Post.stat ?_ hE)
    intro s _
    split
    · exact Post.raise hE
    · split
      · exact Post.raise hE
      · exact Post.pure hQ

theorem Post.currentDefaults {Q : Settings → St → World → Prop} {E : World → Prop}
    (hQ : ∀ c rest, st.stack = c :: rest → Q c st w) (hE : E w) : Post sys lost currentDefaults env st w Q E := by
  intro k
  simp only [exec, Script.currentDefaults]
  cases hs : st.stack with
  | nil => exact hE
  | cons c rest => exact hQ c rest hs

theorem Post.resolveDefaults (hw : w.Sane) {s : Settings} {Q : Settings → St → World → Prop} {E : World → Prop}
    (hQ : ∀ c rest r, st.stack = c :: rest → Resolved w (c.overlay s) r → Q r st w) (hE : E w) :
    Post sys lost (resolveDefaults s) env st w Q E := by
  unfold Script.resolveDefaults
  refine Post.bind (Post.currentDefaults ?_ hE)
  intro c rest hs
  refine Post.bind (Post.resolveUser hw ?_ hE)
  intro y1 h1
  refine Post.bind (Post.resolveGroup hw ?_ hE)
  intro y2 h2
  refine Post.bind (Post.resolveUser hw ?_ hE)
  intro y3 h3
  refine Post.bind (Post.resolveGroup hw ?_ hE)
  intro y4 h4
  refine Post.bind (Post.ofExcept ?_ hE)
  intro _ m1
  refine Post.bind (Post.ofExcept ?_ hE)
  intro _ m2
  refine Post.bind (Post.ofExcept ?_ hE)
  intro _ m3
  refine Post.bind (Post.checkCwd ?_ hE)
  refine Post.ret (hQ c rest _ hs ?_)
  exact ⟨h1, h2, h3, h4, rfl, rfl, rfl, rfl, checkMask_ok m1, checkMask_ok m2, checkMask_ok m3⟩

/-- Entering a block of defaults either fails and changes nothing, or the block runs with the resolved settings. -/
theorem Post.withDefaults (hw : w.Sane) {α : Type} {q : Settings} {body : Settings → Op α} {Q : α → St → World → Prop} {E : World → Prop}
    (hE : E w)
    (hbody : ∀ q' c rest r, canonicalize q = .ok q' → st.stack = c :: rest → Resolved w ((env.base.overlay c).overlay q') r →
      Post sys lost (body (env.base.overlay r)) env { st with stack := r :: st.stack } w
        (fun a st' w' => Q a { st' with stack := st'.stack.tail } w') E) :
    Post sys lost (withDefaults q body) env st w Q E := by
  unfold Script.withDefaults
  refine Post.bind (Post.ofExcept ?_ hE)
  intro q' hq
  refine Post.bind (m := Op.getEnv) ?_
  intro k
  simp only [exec, Op.getEnv, Prog.run]
  refine Post.bind (Post.currentDefaults ?_ hE)
  intro c rest hs
  refine Post.bind (Post.resolveDefaults hw ?_ hE)
  intro c' rest' r hs' hr
  rw [hs] at hs'
  cases hs'
  rw [overlay_absorb] at hr
  refine Post.bind (m := push r) ?_
  intro k
  simp only [exec, push, Prog.run]
  exact Post.finally (hbody q' c rest r hq hs hr)

/-! ### The operation object -/

/-- Both states are set. -/
structure States (st : St) (i f : Dict) : Prop where
  printable : printable i f = true
  nested : st.op.hasNested = false
  initial : st.op.initial = some i
  final : st.op.final = some f

theorem Post.finalState {d : Dict} {Q : Unit → St → World → Prop} {E : World → Prop} (hn : st.op.hasNested = false)
    (hf : st.op.final = none) (hQ : Q () { st with op := { st.op with final := some d } } w) :
    Post sys lost (finalState d) env st w Q E := by
  intro k
  have : exec (flaky sys lost) (Script.finalState d) env st (w, k) = ((.ok (), { st with op := { st.op with final := some d } }), (w, k)) := by
    simp only [exec, Script.finalState, hf]
    rw [if_neg (by simp [hn])]
    rfl
  rw [this]
  exact hQ

theorem Post.initialState {d : Dict} {Q : Unit → St → World → Prop} {E : World → Prop} (hn : st.op.hasNested = false)
    (hf : st.op.initial = none) (hQ : Q () { st with op := { st.op with initial := some d } } w) :
    Post sys lost (initialState d) env st w Q E := by
  intro k
  have : exec (flaky sys lost) (Script.initialState d) env st (w, k) = ((.ok (), { st with op := { st.op with initial := some d } }), (w, k)) := by
    simp only [exec, Script.initialState, hf]
    rw [if_neg (by simp [hn])]
    rfl
  rw [this]
  exact hQ

section
variable {i f : Dict} (hs : States st i f)
include hs

theorem Post.changed {key : Str} {a b : Val} (ha : i.get key = some a) (hb : f.get key = some b)
    {Q : Bool → St → World → Prop} {E : World → Prop} (hQ : Q (!a.eq b) st w) : Post sys lost (changed key) env st w Q E := by
  intro k
  simp only [exec, Script.changed, hs.nested, hs.initial, hs.final, ha, hb, Bool.false_eq_true, if_false, Prog.run]
  exact hQ

theorem Post.whenChanged {key : Str} {a b : Val} (ha : i.get key = some a) (hb : f.get key = some b) {action : Op Unit}
    {Q : Unit → St → World → Prop} {E : World → Prop} (h1 : a.eq b = false → Post sys lost action env st w Q E)
    (h2 : a.eq b = true → Q () st w) : Post sys lost (whenChanged key action) env st w Q E := by
  refine Post.bind (Post.changed hs ha hb ?_)
  cases h : a.eq b with
  | false => exact h1 h
  | true => exact Post.pure (h2 h)

theorem Post.changedEither {ka kb : Str} {a b c d : Val} (ha : i.get ka = some a) (hb : f.get ka = some b) (hc : i.get kb = some c)
    (hd : f.get kb = some d) {Q : Bool → St → World → Prop} {E : World → Prop} (hQ : Q (!(a.eq b && c.eq d)) st w) :
    Post sys lost (changedEither ka kb) env st w Q E := by
  refine Post.bind (Post.changed hs ha hb ?_)
  cases h : a.eq b with
  | false => rw [h] at hQ; exact Post.pure hQ
  | true => rw [h] at hQ; exact Post.changed hs hc hd hQ

theorem Post.whenEither {ka kb : Str} {a b c d : Val} (ha : i.get ka = some a) (hb : f.get ka = some b) (hc : i.get kb = some c)
    (hd : f.get kb = some d) {action : Op Unit} {Q : Unit → St → World → Prop} {E : World → Prop}
    (h1 : (a.eq b && c.eq d) = false → Post sys lost action env st w Q E)
    (h2 : (a.eq b && c.eq d) = true → Q () st w) : Post sys lost (whenEither ka kb action) env st w Q E := by
  refine Post.bind (Post.changedEither hs ha hb hc hd ?_)
  cases h : (a.eq b && c.eq d) with
  | false => exact h1 h
  | true => exact Post.pure (h2 h)

theorem Post.success {Q : OpResult → St → World → Prop} {E : World → Prop}
    (hQ : Q { success := true, changed := !i.eq f, initial := i, final := f } (st.show { success := true, changed := !i.eq f, initial := i, final := f }) w) :
    Post sys lost success env st w Q E := by
  intro k
  simp only [exec, Script.success, hs.initial, hs.final, hs.printable, Bool.not_true, Bool.and_false, Bool.false_eq_true, if_false, Prog.run]
  exact hQ

/-- The end of an operation: nothing to do, only looking (dry run), or acting. -/
theorem Post.settle {between action : Op Unit} {Q : OpResult → St → World → Prop} {E : World → Prop}
    (hsame : i.eq f = true → Q { success := true, changed := false, initial := i, final := f } (st.show { success := true, changed := false, initial := i, final := f }) w)
    (hbetween : Post sys lost between env st w (fun _ st' w' => (States st' i f ∧ st'.stack = st.stack) ∧ w' = w) E)
    (hdry : env.dry = true → i.eq f = false → ∀ st', st'.stack = st.stack → Q { success := true, changed := true, initial := i, final := f } st' w)
    (hact : env.dry = false → i.eq f = false → ∀ st', States st' i f → st'.stack = st.stack →
      Post sys lost action env st' w (fun _ st'' w' => st'' = st' ∧
        Q { success := true, changed := true, initial := i, final := f } (st''.show { success := true, changed := true, initial := i, final := f }) w') E) :
    Post sys lost (settle between action) env st w Q E := by
  unfold Ops.settle
  refine Post.bind (m := unchanged) ?_
  intro k
  simp only [exec, unchanged, hs.initial, hs.final, Prog.run, Bool.not_false, if_true]
  cases h : i.eq f with
  | true =>
    refine Post.success hs ?_
    rw [h]; exact hsame h
  | false =>
    refine Post.bind (hbetween.mono ?_ fun _ h => h)
    rintro _ st' w' ⟨⟨hs', hst'⟩, rfl⟩
    refine Post.bind (m := unlessDry action) ?_
    unfold unlessDry
    refine Post.bind (m := dry) ?_
    intro k
    simp only [exec, dry, Prog.run]
    cases hd : env.dry with
    | true =>
      refine Post.pure ?_
      refine Post.success hs' ?_
      rw [h]; exact hdry hd h _ ((St.show_stack _ _).trans hst')
    | false =>
      refine (hact hd h st' hs' hst').mono ?_ fun _ h => h
      rintro _ st'' w'' ⟨rfl, hq⟩
      refine Post.success hs' ?_
      rw [h]; exact hq

end

theorem Post.failure {msg : Str} {Q : OpResult → St → World → Prop} {E : World → Prop}
    (hQ : ∀ r : OpResult, r.success = false → r.changed = false → Q r (st.show r) w) : Post sys lost (failure msg) env st w Q E := by
  intro k
  exact hQ _ rfl rfl

theorem Post.saveDiff {i f : Dict} (hs : States st i f) {dest : Str} {content : Bytes} {E : World → Prop} (hE : E w) :
    Post sys lost (saveDiff dest content) env st w (fun _ st' w' => (States st' i f ∧ st'.stack = st.stack) ∧ w' = w) E := by
  unfold Ops.saveDiff
  refine Post.bind (m := diffWanted) ?_
  intro k
  simp only [exec, diffWanted, Prog.run]
  cases env.diff with
  | false => exact Post.pure ⟨⟨hs, rfl⟩, rfl⟩
  | true =>
    refine Post.bind (Post.downloadOr ?_ hE)
    intro c k
    simp only [exec, opDiff, hs.nested, Bool.false_eq_true, if_false]
    split
    · rename_i h
      split at h
      · cases h; exact ⟨⟨hs, rfl⟩, rfl⟩
      · cases h; exact ⟨⟨⟨hs.printable, rfl, hs.initial, hs.final⟩, rfl⟩, rfl⟩
    · rename_i h
      split at h <;> cases h

end
end Verif.Ops
