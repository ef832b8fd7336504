/-
A relation between two runs that differ in the options for what is displayed.
-/
import Verif.Ops.DisplaySpec
import Verif.Ops.EchoLemmas
import Verif.Ops.DiffLemmas
import Verif.Ops.DeploySpec

namespace Verif.Ops

open Script Remote
open Client (Prog lostConnection)
open Wire (Packet)

variable {α β : Type}

/-! ### Trees -/

abbrev Leaf (α : Type) := Except Exn α × St

/-- The answer to `stat` with a checksum is that there is nothing or that there is a file. -/
def Promising (a : Except Exn Packet) : Prop :=
  ∃ s, (Client.Connector.stat [] false true).run (fun _ (_ : Unit) => (a, ())) () = (.ok s, ()) ∧ ∀ x, s = some x → x.type = p!"file"

/-- The left tree is the right one, but it may download files that it has just looked at, and die if that fails. -/
inductive Rel (L : Trace → Leaf α → Leaf α → Prop) : Trace → Prog (Leaf α) → Prog (Leaf α) → Prop where
  | ret {t : Trace} {a b : Leaf α} : L t a b → Rel L t (.ret a) (.ret b)
  | req {t : Trace} {p : Packet} {k k' : Except Exn Packet → Prog (Leaf α)} :
      (∀ r, Rel L (t ++ [(p, r)]) (k r) (k' r)) → Rel L t (.req p k) (.req p k')
  | look {t t0 : Trace} {path : Str} {a : Except Exn Packet} {k : Except Exn Packet → Prog (Leaf α)} {q : Prog (Leaf α)} :
      t = t0 ++ [(.stat path false true, a)] → Promising a → (∀ r, Obtained r → Rel L (t ++ [(.download path, r)]) (k r) q) →
      (∀ r, ¬ Obtained r → ∃ e s, k r = .ret (.error e, s)) → Rel L t (.req (.download path) k) q

theorem Rel.bind {L : Trace → Leaf α → Leaf α → Prop} {L' : Trace → Leaf β → Leaf β → Prop} {t : Trace} {m m' : Prog (Leaf α)} {f f' : Leaf α → Prog (Leaf β)}
    (h : Rel L t m m') (hf : ∀ t a b, L t a b → Rel L' t (f a) (f' b)) (he : ∀ e s, ∃ e' s', f (.error e, s) = .ret (.error e', s')) :
    Rel L' t (m.bind f) (m'.bind f') := by
  induction h with
  | ret h => exact hf _ _ _ h
  | req _ ih => exact .req ih
  | look ht hp _ hd ih =>
    refine .look ht hp ih fun r hr => ?_
    obtain ⟨e, s, h⟩ := hd r hr
    obtain ⟨e', s', h'⟩ := he e s
    exact ⟨e', s', by rw [h]; exact h'⟩

/-! ### Programs -/

/-- Options for what is displayed may differ; the right run shows no diffs. -/
structure Display (e e' : Env) : Prop where
  base : e.base = e'.base
  dry : e.dry = e'.dry
  diff : e'.diff = false

/-- Equal results; after a success, what is known holds. -/
def Ends (K : α → Trace → OpState → Prop) (t : Trace) (a b : Leaf α) : Prop :=
  a.1 = b.1 ∧ SameButDiffs a.2 b.2 ∧ ∀ x, a.1 = .ok x → K x t a.2.op

/-- The program does the same whatever is displayed, if `K` is known of the operation at its beginning. -/
def Blind (K : Trace → OpState → Prop) (m : Op α) (K' : α → Trace → OpState → Prop) : Prop :=
  ∀ e e', Display e e' → ∀ s s', SameButDiffs s s' → ∀ t, K t s.op → Rel (Ends K') t (m e s) (m e' s')

/-- Knowledge that does not concern the requests that have been made. -/
def Stable (K : Trace → OpState → Prop) : Prop := ∀ t x o, K t o → K (t ++ [x]) o

namespace Blind

variable {K : Trace → OpState → Prop} {K' : α → Trace → OpState → Prop} {K'' : β → Trace → OpState → Prop}

theorem pure (a : α) (h : ∀ t o, K t o → K' a t o) : Blind K (Op.pure a) K' :=
  fun _ _ _ _ _ hs _ hk => .ret ⟨rfl, hs, fun _ hx => by cases hx; exact h _ _ hk⟩

theorem raise (e : Exn) : Blind K (Op.raise e : Op α) K' :=
  fun _ _ _ _ _ hs _ _ => .ret ⟨rfl, hs, fun _ hx => by cases hx⟩

theorem ofExcept (x : Except Exn α) : Blind K (Op.ofExcept x) (fun _ => K) := by
  cases x with
  | ok a => exact .pure a fun _ _ h => h
  | error e => exact .raise e

theorem mono {m : Op α} {L : Trace → OpState → Prop} {L' : α → Trace → OpState → Prop} (h : Blind K m K') (h1 : ∀ t o, L t o → K t o)
    (h2 : ∀ a t o, K' a t o → L' a t o) : Blind L m L' := by
  intro e e' hd s s' hs t hk
  have := h e e' hd s s' hs t (h1 _ _ hk)
  generalize m e s = p at this
  generalize m e' s' = q at this
  clear hk hs
  induction this with
  | ret h => exact .ret ⟨h.1, h.2.1, fun x hx => h2 _ _ _ (h.2.2 x hx)⟩
  | req _ ih => exact .req ih
  | look ht hp _ hd ih => exact .look ht hp ih hd

theorem bind {m : Op α} {f : α → Op β} (hm : Blind K m K') (hf : ∀ a, Blind (K' a) (f a) K'') : Blind K (m >>= f) K'' := by
  intro e e' hd s s' hs t hk
  refine (hm e e' hd s s' hs t hk).bind (fun t a b h => ?_) fun x st => ⟨x, st, rfl⟩
  obtain ⟨a, sa⟩ := a
  obtain ⟨b, sb⟩ := b
  obtain ⟨h1, h2, h3⟩ := h
  cases (show a = b from h1)
  cases a with
  | ok a => exact hf a e e' hd _ _ h2 t (h3 a rfl)
  | error x => exact .ret ⟨rfl, h2, fun _ hx => by cases hx⟩

theorem ite {c : Prop} [Decidable c] {a b : Op α} (ha : Blind K a K') (hb : Blind K b K') : Blind K (if c then a else b) K' := by
  split <;> assumption

theorem call {p : Prog (Except Exn α)} (hk : Stable K) : Blind K (Op.call p) (fun _ => K) := by
  intro e e' _ s s' hs t h
  show Rel _ t (p.bind _) (p.bind _)
  induction p generalizing t with
  | ret a => exact .ret ⟨rfl, hs, fun _ _ => h⟩
  | req p k ih => exact .req fun r => ih r (t ++ [(p, r)]) (hk _ _ _ h)

theorem dry : Blind K Script.dry (fun _ => K) := by
  intro e e' hd s s' hs t h
  refine .ret ⟨?_, hs, fun _ _ => h⟩
  simp only [hd.dry]

theorem currentDefaults : Blind K Script.currentDefaults (fun _ => K) := by
  intro e e' hd s s' hs t h
  unfold Script.currentDefaults
  rw [hs.stack]
  cases s'.stack with
  | nil => exact .ret ⟨rfl, hs, fun _ hx => by cases hx⟩
  | cons => exact .ret ⟨rfl, hs, fun _ _ => h⟩

theorem run (hk : Stable K) (command : List Str) (input : Option Bytes) (capture check : Bool) (user group umask cwd : Option Str) :
    Blind K (Connection.run command input capture check user group umask cwd) (fun _ => K) :=
  .bind .currentDefaults fun _ => .call hk

theorem runCommand (hk : Stable K) (command : List Str) : Blind K (runCommand command) (fun _ => K) :=
  .bind (.run hk _ _ _ _ _ _ _ _) fun _ => .pure _ fun _ _ h => h

theorem orDefault {p : Prog (Except Exn α)} (d : Option α) (hk : Stable K) :
    Blind K (Connection.orDefault (do let c ← Op.call p; return some c) d) (fun _ => K) := by
  intro e e' _ s s' hs t h
  show Rel _ t (Prog.bind (Prog.bind (Prog.bind p _) _) _) (Prog.bind (Prog.bind (Prog.bind p _) _) _)
  induction p generalizing t with
  | ret a =>
    cases a with
    | ok a => exact .ret ⟨rfl, hs, fun _ _ => h⟩
    | error x =>
      show Rel _ t ((if x.isValueError = true then Op.pure d else Op.raise x : Op (Option α)) _ _)
        ((if x.isValueError = true then Op.pure d else Op.raise x : Op (Option α)) _ _)
      split
      · exact .ret ⟨rfl, hs, fun _ _ => h⟩
      · exact .ret ⟨rfl, hs, fun _ _ => h⟩
  | req p k ih => exact .req fun r => ih r (t ++ [(p, r)]) (hk _ _ _ h)

theorem changed (key : Str) : Blind K (Script.changed key) (fun _ => K) := by
  intro e e' _ s s' hs t h
  unfold Script.changed
  rw [hs.nested, hs.initial, hs.final]
  split
  · exact .ret ⟨rfl, hs, fun _ _ => h⟩
  · split
    · split
      · exact .ret ⟨rfl, hs, fun _ _ => h⟩
      · exact .ret ⟨rfl, hs, fun _ _ => h⟩
    · exact .ret ⟨rfl, hs, fun _ _ => h⟩

theorem unchanged (b : Bool) : Blind K (Script.unchanged b) (fun _ => K) := by
  intro e e' _ s s' hs t h
  unfold Script.unchanged
  rw [hs.initial, hs.final]
  split
  · split
    · exact .ret ⟨rfl, hs, fun _ _ => h⟩
    · exact .ret ⟨rfl, hs, fun _ _ => h⟩
  · exact .ret ⟨rfl, hs, fun _ _ => h⟩

theorem whenChanged {m : Op Unit} (key : Str) (h : Blind K m (fun _ => K)) : Blind K (whenChanged key m) (fun _ => K) :=
  .bind (.changed _) fun _ => .ite h (.pure _ fun _ _ h => h)

theorem changedEither (a b : Str) : Blind K (changedEither a b) (fun _ => K) :=
  .bind (.changed _) fun _ => .ite (.pure _ fun _ _ h => h) (.changed _)

theorem whenEither {m : Op Unit} (a b : Str) (h : Blind K m (fun _ => K)) : Blind K (whenEither a b m) (fun _ => K) :=
  .bind (.changedEither _ _) fun _ => .ite h (.pure _ fun _ _ h => h)

theorem unlessDry {m : Op Unit} (h : Blind K m (fun _ => K)) : Blind K (unlessDry m) (fun _ => K) :=
  .bind .dry fun _ => .ite (.pure _ fun _ _ h => h) h

/-! The operation object -/

theorem initialState {d : Dict} {f : Option Dict} : Blind (fun _ o => o.initial = none ∧ o.final = f ∧ o.hasNested = false) (initialState d)
    (fun _ _ o => o.initial = some d ∧ o.final = f ∧ o.hasNested = false) := by
  intro e e' _ s s' hs t ⟨h1, h2, h3⟩
  unfold Script.initialState
  rw [← hs.nested, ← hs.initial, h1, h3]
  exact .ret ⟨rfl, ⟨hs.stack, h3 ▸ hs.nested, rfl, hs.final, hs.shown⟩, fun _ _ => ⟨rfl, h2, h3⟩⟩

theorem finalState {d : Dict} {i : Option Dict} : Blind (fun _ o => o.initial = i ∧ o.final = none ∧ o.hasNested = false) (finalState d)
    (fun _ _ o => o.initial = i ∧ o.final = some d ∧ o.hasNested = false) := by
  intro e e' _ s s' hs t ⟨h1, h2, h3⟩
  unfold Script.finalState
  rw [← hs.nested, ← hs.final, h2, h3]
  exact .ret ⟨rfl, ⟨hs.stack, h3 ▸ hs.nested, hs.initial, rfl, hs.shown⟩, fun _ _ => ⟨h1, rfl, h3⟩⟩

theorem setNested : Blind K (setNested true) (fun _ _ o => o.hasNested = true) := by
  intro e e' _ s s' hs t _
  exact .ret ⟨rfl, ⟨hs.stack, rfl, hs.initial, hs.final, hs.shown⟩, fun _ _ => rfl⟩

theorem addNestedResult {key : Str} {r : OpResult} : Blind (fun _ o => o.hasNested = true) (addNestedResult key r) (fun _ _ o => o.hasNested = true) := by
  intro e e' _ s s' hs t h
  unfold Script.addNestedResult
  rw [← hs.nested, ← hs.initial, ← hs.final, h]
  simp only [Bool.not_true, Bool.false_eq_true, if_false]
  split
  · exact .ret ⟨rfl, ⟨hs.stack, hs.nested, rfl, rfl, hs.shown⟩, fun _ hx => by cases hx⟩
  · exact .ret ⟨rfl, ⟨hs.stack, hs.nested, rfl, rfl, hs.shown⟩, fun _ _ => h⟩

theorem same_show {s s' : St} (hs : SameButDiffs s s') (r : OpResult) : SameButDiffs (s.show r) (s'.show r) := by
  unfold St.show
  rw [hs.nested]
  split
  · exact hs
  · exact ⟨hs.stack, hs.nested, hs.initial, hs.final, by simp [hs.shown]⟩

/-- Printing the states does not fail. -/
def Fine (_ : Trace) (o : OpState) : Prop := o.hasNested = true ∨ ∀ i f, o.initial = some i → o.final = some f → printable i f = true

theorem stable_fine : Stable Fine := fun _ _ _ h => h

theorem success (h : ∀ t o, K t o → Fine t o) : Blind K success (fun _ _ _ => True) := by
  intro e e' _ s s' hs t hk
  replace h := h _ _ hk
  unfold Script.success
  rw [← hs.nested, ← hs.initial, ← hs.final]
  cases hi : s.op.initial with
  | none => exact .ret ⟨rfl, hs, fun _ _ => trivial⟩
  | some i =>
    cases hf : s.op.final with
    | none => exact .ret ⟨rfl, hs, fun _ _ => trivial⟩
    | some f =>
      have hp : (!s.op.hasNested && !printable i f) = false := by
        rcases h with h | h
        · simp [h]
        · simp [h i f hi hf]
      simp only [Bool.and_assoc, hp, Bool.and_false, Bool.false_eq_true, if_false]
      exact .ret ⟨rfl, same_show hs _, fun _ _ => trivial⟩

theorem same_failed {s s' : St} (hs : SameButDiffs s s') (m : Option Str) : failed s m = failed s' m := by
  unfold failed
  rw [hs.initial, hs.final]

theorem failure (msg : Str) : Blind K (failure msg) (fun _ _ _ => True) := by
  intro e e' _ s s' hs t hk
  refine .ret ⟨?_, ?_, fun _ _ => trivial⟩
  · simp only [same_failed hs]
  · rw [same_failed hs]; exact same_show hs _

theorem returned {m : Op OpResult} (h : Blind K m (fun _ _ _ => True)) : Blind K (returned m) (fun _ _ _ => True) :=
  .bind h fun _ => .pure _ fun _ _ _ => trivial

theorem settle {b m : Op Unit} (h : ∀ t o, K t o → Fine t o) (hb : Blind K b (fun _ => Fine)) (hm : Blind Fine m (fun _ => Fine)) :
    Blind K (settle b m) (fun _ _ _ => True) :=
  .bind (.unchanged _) fun _ => .ite (.success h) (.bind hb fun _ => .bind (.unlessDry hm) fun _ => .success fun _ _ h => h)

theorem settle' {m : Op Unit} (h : ∀ t o, K t o → Fine t o) (hm : Blind Fine m (fun _ => Fine)) :
    Blind K (Ops.settle (Op.pure ()) m) (fun _ _ _ => True) := .settle h (.pure _ h) hm

/-! Defaults -/

theorem mapOpt {f : Option Str → Op Str} (h : ∀ x, Blind K (f x) fun _ => K) (x : Option Str) : Blind K (mapOpt f x) fun _ => K := by
  cases x with
  | none => exact .pure _ fun _ _ h => h
  | some x => exact .bind (h _) fun _ => .pure _ fun _ _ h => h

theorem checkCwd (hk : Stable K) (c : Option Str) : Blind K (checkCwd c) fun _ => K := by
  rcases c with _ | _ | ⟨a, c⟩
  · exact .pure _ fun _ _ h => h
  · exact .pure _ fun _ _ h => h
  · refine .bind (.call hk) fun s => ?_
    cases s with
    | none => exact .raise _
    | some s => exact .ite (.raise _) (.pure _ fun _ _ h => h)

theorem resolveDefaults (hk : Stable K) (s : Settings) : Blind K (resolveDefaults s) fun _ => K :=
  .bind .currentDefaults fun _ => .bind (.mapOpt (fun _ => .call hk) _) fun _ => .bind (.mapOpt (fun _ => .call hk) _) fun _ =>
    .bind (.mapOpt (fun _ => .call hk) _) fun _ => .bind (.mapOpt (fun _ => .call hk) _) fun _ => .bind (.ofExcept _) fun _ =>
    .bind (.ofExcept _) fun _ => .bind (.ofExcept _) fun _ => .bind (.checkCwd hk _) fun _ => .pure _ fun _ _ h => h

theorem push (s : Settings) : Blind K (push s) fun _ => K :=
  fun _ _ _ _ _ hs _ hk => .ret ⟨rfl, ⟨by simp [hs.stack], hs.nested, hs.initial, hs.final, hs.shown⟩, fun _ _ => hk⟩

theorem finally_ {m : Op α} (h : Blind K m K') : Blind K (Op.finally_ m fun st => { st with stack := st.stack.tail }) K' := by
  intro e e' hd s s' hs t hk
  refine (h e e' hd s s' hs t hk).bind (fun t a b h => ?_) fun x st => ⟨x, _, rfl⟩
  obtain ⟨h1, h2, h3⟩ := h
  exact .ret ⟨h1, ⟨by simp [h2.stack], h2.nested, h2.initial, h2.final, h2.shown⟩, h3⟩

theorem withDefaults {s : Settings} {body : Settings → Op α} (hk : Stable K) (h : ∀ a, Blind K (body a) K') : Blind K (withDefaults s body) K' := by
  refine .bind (.ofExcept _) fun c => ?_
  intro e e' hd s s' hs t hk'
  have := Blind.bind (K := K) (K'' := K') .currentDefaults (fun cur => .bind (.resolveDefaults hk ((e.base.overlay cur).overlay c)) fun r =>
    .bind (.push r) fun _ => .finally_ (h (e.base.overlay r))) e e' hd s s' hs t hk'
  show Rel (Ends K') t (Op.bind Op.getEnv _ e s) (Op.bind Op.getEnv _ e' s')
  simp only [Op.bind, Op.getEnv, Prog.bind, ← hd.base]
  exact this

/-- What is known of a new operation object. -/
def New (_ : Trace) (o : OpState) : Prop := o.initial = none ∧ o.final = none ∧ o.hasNested = false

theorem stable_new : Stable New := fun _ _ _ h => h

theorem operation {check : Bool} {f : Op (Option OpResult)} {P : OpState → Prop} (h : Blind New f (fun _ _ _ => True)) :
    Blind (fun _ => P) (operation check f) (fun _ _ => P) := by
  intro e e' hd s s' hs t hP
  refine (h e e' hd { s with op := {} } { s' with op := {} } ⟨hs.stack, rfl, rfl, rfl, hs.shown⟩ t ⟨rfl, rfl, rfl⟩).bind
    (fun t a b h => ?_) fun x st => ⟨x, _, rfl⟩
  obtain ⟨a, sa⟩ := a
  obtain ⟨b, sb⟩ := b
  obtain ⟨h1, h2, h3⟩ := h
  cases (show a = b from h1)
  have back : ∀ {u u' : St}, SameButDiffs u u' → SameButDiffs { u with op := s.op } { u' with op := s'.op } :=
    fun h => ⟨h.stack, hs.nested, hs.initial, hs.final, h.shown⟩
  match a with
  | .error x =>
    refine .ret ⟨rfl, ?_, fun _ hx => by cases hx⟩
    dsimp only
    rw [same_failed h2]
    exact back (same_show h2 _)
  | .ok none => exact .ret ⟨rfl, back h2, fun _ hx => by cases hx⟩
  | .ok (some r) =>
    dsimp only
    split
    · exact .ret ⟨rfl, back h2, fun _ hx => by cases hx⟩
    · exact .ret ⟨rfl, back h2, fun _ _ => hP⟩

end Blind

/-! ### Operations -/

theorem blind_directoryActions {K : Trace → OpState → Prop} (hk : Stable K) (path : Str) (present : Bool) (attr : Settings) :
    Blind K (directoryActions path present attr) fun _ => K :=
  .ite (.bind (.whenChanged _ (.runCommand hk _)) fun _ => .bind (.whenChanged _ (.runCommand hk _)) fun _ => .bind (.whenEither _ _ (.runCommand hk _)) fun _ =>
    .bind (.changed _) fun _ => .ite (.pure _ fun _ _ h => h) (.whenChanged _ (.runCommand hk _))) (.whenChanged _ (.runCommand hk _))

theorem blind_fileActions {K : Trace → OpState → Prop} (hk : Stable K) (path : Str) (present : Bool) (attr : Settings) :
    Blind K (fileActions path present attr) fun _ => K :=
  .ite (.bind (.whenEither _ _ (.runCommand hk _)) fun _ => .bind (.whenChanged _ (.runCommand hk _)) fun _ => .whenEither _ _ (.runCommand hk _))
    (.whenChanged _ (.runCommand hk _))

theorem blind_linkActions {K : Trace → OpState → Prop} (hk : Stable K) (path target : Str) (present : Bool) (attr : Settings) :
    Blind K (linkActions path target present attr) fun _ => K :=
  .ite (.bind (.whenChanged _ (.runCommand hk _)) fun _ => .bind (.whenEither _ _ (.runCommand hk _)) fun _ =>
    .bind (.changed _) fun _ => .ite (.pure _ fun _ _ h => h) (.whenChanged _ (.runCommand hk _))) (.whenChanged _ (.runCommand hk _))

theorem blind_saveActions {K : Trace → OpState → Prop} (hk : Stable K) (attr : Settings) (content : Bytes) (dest : Str) :
    Blind K (saveActions attr content dest) fun _ => K :=
  .bind (.changedEither _ _) fun _ => .ite (.call hk) (.bind (.whenChanged _ (.runCommand hk _)) fun _ => .whenEither _ _ (.runCommand hk _))

/-- Both states are known and can be printed. -/
def Known (i f : Dict) (_ : Trace) (o : OpState) : Prop := o.initial = some i ∧ o.final = some f ∧ o.hasNested = false

theorem stable_known (i f : Dict) : Stable (Known i f) := fun _ _ _ h => h

theorem known_fine {i f : Dict} (hp : printable i f = true) (t : Trace) (o : OpState) (h : Known i f t o) : Blind.Fine t o :=
  .inr fun i' f' hi hf => by
    rw [h.1] at hi; rw [h.2.1] at hf
    cases hi; cases hf
    exact hp

/-- Only the final state is known. -/
def Aimed (f : Dict) (_ : Trace) (o : OpState) : Prop := o.initial = none ∧ o.final = some f ∧ o.hasNested = false

theorem stable_aimed (f : Dict) : Stable (Aimed f) := fun _ _ _ h => h

open Blind (New Fine stable_fine stable_new)

theorem blind_final (d : Dict) : Blind New (finalState d) fun _ => Aimed d := .finalState
theorem blind_initial (i f : Dict) : Blind (Aimed f) (initialState i) fun _ => Known i f := .initialState

theorem blind_directory (P : OpState → Prop) (path : Str) (present touch : Bool) (mode owner group : Option Str) (check : Bool) :
    Blind (fun _ => P) (directory path present touch mode owner group check) fun _ _ => P := by
  refine .operation (.bind (.ofExcept _) fun _ => .returned (.withDefaults stable_new fun attr => .bind (blind_final _) fun _ => .bind (.call (stable_aimed _)) fun s => ?_))
  have hp : ∀ ex m o g, printable (pathState ex m o g false) (if present = true then pathState true attr.dirMode attr.owner attr.group touch else pathState false none none none false) = true := by
    intros; cases present <;> rfl
  cases s with
  | none => exact .bind (blind_initial _ _) fun _ => .settle' (known_fine (hp ..)) (blind_directoryActions stable_fine _ _ _)
  | some s => exact .ite (.failure _) (.bind (blind_initial _ _) fun _ => .settle' (known_fine (hp ..)) (blind_directoryActions stable_fine _ _ _))

theorem blind_file (P : OpState → Prop) (path : Str) (present touch : Bool) (mode owner group : Option Str) (check : Bool) :
    Blind (fun _ => P) (file path present touch mode owner group check) fun _ _ => P := by
  refine .operation (.bind (.ofExcept _) fun _ => .returned (.withDefaults stable_new fun attr => .bind (blind_final _) fun _ => .bind (.call (stable_aimed _)) fun s => ?_))
  have hp : ∀ ex m o g, printable (pathState ex m o g false) (if present = true then pathState true attr.fileMode attr.owner attr.group touch else pathState false none none none false) = true := by
    intros; cases present <;> rfl
  cases s with
  | none => exact .bind (blind_initial _ _) fun _ => .settle' (known_fine (hp ..)) (blind_fileActions stable_fine _ _ _)
  | some s => exact .ite (.failure _) (.bind (blind_initial _ _) fun _ => .settle' (known_fine (hp ..)) (blind_fileActions stable_fine _ _ _))

theorem blind_link (P : OpState → Prop) (path target : Str) (present touch : Bool) (owner group : Option Str) (check : Bool) :
    Blind (fun _ => P) (link path target present touch owner group check) fun _ _ => P := by
  refine .operation (.bind (.ofExcept _) fun _ => .ite (.raise _) (.returned (.withDefaults stable_new fun attr => .bind (blind_final _) fun _ => .bind (.call (stable_aimed _)) fun s => ?_)))
  have hp : ∀ ex m o g, printable (linkState ex m o g false) (if present = true then linkState true (some target) attr.owner attr.group touch else linkState false none none none false) = true := by
    intros; cases present <;> rfl
  cases s with
  | none => exact .bind (blind_initial _ _) fun _ => .settle' (known_fine (hp ..)) (blind_linkActions stable_fine _ _ _ _)
  | some s =>
    exact .ite (.failure _) (.bind (.run (stable_aimed _) _ _ _ _ _ _ _ _) fun _ => .bind (.ofExcept _) fun _ => .bind (blind_initial _ _) fun _ =>
      .settle' (known_fine (hp ..)) (blind_linkActions stable_fine _ _ _ _))

/-- What is known after `stat` in `save_content`. -/
def Looked (dest : Str) (K : Trace → OpState → Prop) (t : Trace) (o : OpState) : Prop :=
  K t o ∧ o.hasNested = false ∧ ∃ t0 a, t = t0 ++ [(.stat dest false true, a)] ∧ Promising a

theorem not_obtained {r : Except Exn Packet} (h : ¬ Obtained r) : ∃ e, downloaded r = .error e := by
  match r with
  | .error e =>
    by_cases he : e.isValueError = true
    · exact absurd (.missing e he) h
    · exact ⟨e, by simp [downloaded, he]⟩
  | .ok q =>
    cases q <;> first | exact ⟨_, rfl⟩ | exact absurd (.content _) h

theorem obtained_ok {r : Except Exn Packet} (h : Obtained r) : ∃ old, downloaded r = .ok old := by
  cases h with
  | content c => exact ⟨_, rfl⟩
  | missing e he => exact ⟨none, by simp [downloaded, he]⟩

theorem blind_saveDiff {K : Trace → OpState → Prop} (hk : Stable K) (hd : ∀ t o d, K t o → K t { o with diffs := d }) (dest : Str) (content : Bytes) :
    Blind (Looked dest K) (saveDiff dest content) fun _ => K := by
  intro e e' hde s s' hs t ⟨hK, hn, t0, a, ht, ha⟩
  have hr : ∀ e s, saveDiff dest content e s
    = (if e.diff then (do let old ← Connection.downloadOr dest; opDiff dest old (some content)) else Op.pure () : Op Unit) e s := fun _ _ => rfl
  rw [hr e, hr e', hde.diff]
  cases e.diff with
  | false => exact .ret ⟨rfl, hs, fun _ _ => hK⟩
  | true =>
    simp only [if_true]
    rw [downloadOr_eq]
    refine .look (k := fun r => _) ht ha (fun r hr => ?_) fun r hr => ?_
    · obtain ⟨old, ho⟩ := obtained_ok hr
      show Rel _ _ (Prog.bind (.ret (downloaded r, s)) _) _
      rw [ho]
      show Rel _ _ (opDiff dest old (some content) e s) _
      unfold opDiff
      rw [hn]
      simp only [Bool.false_eq_true, if_false]
      split
      · exact .ret ⟨rfl, hs, fun _ _ => hk _ _ _ hK⟩
      · exact .ret ⟨rfl, ⟨hs.stack, hs.nested, hs.initial, hs.final, hs.shown⟩, fun _ _ => hd _ _ _ (hk _ _ _ hK)⟩
    · obtain ⟨x, hx⟩ := not_obtained hr
      refine ⟨x, s, ?_⟩
      show Prog.bind (.ret (downloaded r, s)) _ = _
      rw [hx]
      rfl

/-- What `stat` makes of an answer. -/
def statOf (a : Except Exn Packet) : Except Exn (Option Client.StatResult) := ((Client.Connector.stat [] false true).run (fun _ (_ : Unit) => (a, ())) ()).1

theorem blind_stat {K : Trace → OpState → Prop} (hk : Stable K) (path : Str) :
    Blind K (Connection.stat path false true) fun s t o => K t o ∧ ∃ t0 a, t = t0 ++ [(.stat path false true, a)] ∧ statOf a = .ok s := by
  intro e e' _ s s' hs t h
  exact .req fun r => .ret ⟨rfl, hs, fun _ hx => ⟨hk _ _ _ h, t, r, rfl, hx⟩⟩

theorem blind_saveContent (sha512 : Bytes → Bytes) (content : Content) (dest : Str) (mode owner group : Option Str) :
    Blind New (saveContent sha512 content dest mode owner group) fun _ _ _ => True := by
  refine .bind (.ofExcept _) fun c => .withDefaults stable_new fun attr => .bind (blind_final _) fun _ => .bind (blind_stat (stable_aimed _) _) fun s => ?_
  have hp : ∀ ex m o g sum, printable (contentState ex m o g sum) (contentState true attr.fileMode attr.owner attr.group (some (sha512 c))) = true := by
    intros; rfl
  have key : ∀ ex m o g sum, (∀ x, s = some x → x.type = p!"file") → Blind (fun t o => Aimed (contentState true attr.fileMode attr.owner attr.group (some (sha512 c))) t o
        ∧ ∃ t0 a, t = t0 ++ [(.stat dest false true, a)] ∧ statOf a = .ok s) (do
      initialState (contentState ex m o g sum)
      settle (saveDiff dest c) (saveActions attr c dest)) fun _ _ _ => True := by
    intro ex m o g sum hty
    refine .bind (K' := fun _ => Looked dest (Known (contentState ex m o g sum) (contentState true attr.fileMode attr.owner attr.group (some (sha512 c))))) ?_ fun _ =>
      .settle (fun t o h => known_fine (hp ..) t o h.1)
        ((blind_saveDiff (stable_known _ _) (fun _ _ _ h => h) _ _).mono (fun _ _ h => h) fun _ t o h => known_fine (hp ..) t o h)
        (blind_saveActions stable_fine _ _ _)
    intro e e' hd st st' hs t ⟨h1, t0, a, ht, ha⟩
    have := blind_initial (contentState ex m o g sum) _ e e' hd st st' hs t h1
    unfold initialState at this ⊢
    rw [← hs.nested, ← hs.initial, h1.1, h1.2.2] at this ⊢
    cases this with
    | ret h =>
      refine .ret ⟨h.1, h.2.1, fun x hx => ⟨h.2.2 x hx, (h.2.2 x hx).2.2, t0, a, ht, s, ?_, hty⟩⟩
      rw [← ha]; rfl
  cases s with
  | none => exact key _ _ _ _ _ nofun
  | some s =>
    show Blind _ (if s.type ≠ p!"file" then failure _ else _) _
    by_cases h : s.type = p!"file"
    · rw [if_neg (by simp [h])]
      exact key _ _ _ _ _ fun x hx => by cases hx; exact h
    · rw [if_pos h]
      exact .failure _

theorem blind_lineDiff {K : Trace → OpState → Prop} (hn : ∀ t o, K t o → o.hasNested = false) (hd : ∀ t o d, K t o → K t { o with diffs := d }) (path : Str) (orig : Option Bytes) (new : Bytes) :
    Blind K (lineDiff path orig new) fun _ => K := by
  intro e e' hde s s' hs t hK
  have hr : ∀ e s, lineDiff path orig new e s = (if e.diff then opDiff path orig (some new) else Op.pure () : Op Unit) e s := fun _ _ => rfl
  rw [hr e, hr e', hde.diff]
  cases e.diff with
  | false => exact .ret ⟨rfl, hs, fun _ _ => hK⟩
  | true =>
    simp only [if_true]
    unfold opDiff
    rw [hn _ _ hK]
    simp only [Bool.false_eq_true, if_false]
    split
    · exact .ret ⟨rfl, hs, fun _ _ => hK⟩
    · exact .ret ⟨rfl, ⟨hs.stack, hs.nested, hs.initial, hs.final, hs.shown⟩, fun _ _ => hd _ _ _ hK⟩

theorem blind_lineActions {K : Trace → OpState → Prop} (hk : Stable K) (path : Str) (backup : Backup) (attr : Settings) (orig : Option Bytes) (new : Bytes) :
    Blind K (lineActions path backup attr orig new) fun _ => K := by
  cases orig with
  | none => exact .call hk
  | some b =>
    refine .bind (K' := fun _ => K) ?_ fun _ => .call hk
    unfold lineBackup
    split
    · exact .runCommand hk _
    · exact .pure _ fun _ _ h => h

theorem blind_lineSettle (path line : Str) (present : Bool) (regex : Option Regex) (ignoreWhitespace : Bool) (backup : Backup)
    (attr : Settings) (orig : Option Bytes) :
    Blind (Aimed [(p!"line_present", .bool present)]) (lineSettle path line present regex ignoreWhitespace backup attr orig) fun _ _ _ => True :=
  .bind (blind_initial _ _) fun _ => .bind (.unchanged _) fun _ => .ite (.success (known_fine rfl)) (.bind (.ofExcept _) fun _ =>
    .bind (blind_lineDiff (fun _ _ h => h.2.2) (fun _ _ _ h => h) _ _ _) fun _ =>
      .bind (.unlessDry (blind_lineActions (stable_known _ _) _ _ _ _ _)) fun _ => .success (known_fine rfl))

theorem blind_queryInstalled {K : Trace → OpState → Prop} {m : Manager} (h : ∀ p, Blind K (m.isInstalled p) fun _ => K) : ∀ l, Blind K (queryInstalled m l) fun _ => K
  | [] => .pure _ fun _ _ h => h
  | _ :: l => .bind (h _) fun _ => .bind (blind_queryInstalled h l) fun _ => .pure _ fun _ _ h => h

theorem blind_forEach {K : Trace → OpState → Prop} {f : Str → Op Unit} (h : ∀ p, Blind K (f p) fun _ => K) : ∀ l, Blind K (forEach f l) fun _ => K
  | [] => .pure _ fun _ _ h => h
  | _ :: l => .bind (h _) fun _ => blind_forEach h l

/-- Only the initial state is known. -/
def Found (i : Dict) (_ : Trace) (o : OpState) : Prop := o.initial = some i ∧ o.final = none ∧ o.hasNested = false

theorem stable_found (i : Dict) : Stable (Found i) := fun _ _ _ h => h

theorem blind_found (i : Dict) : Blind New (initialState i) fun _ => Found i := .initialState
theorem blind_aim (i f : Dict) : Blind (Found i) (finalState f) fun _ => Known i f := .finalState

/-- What operations need to know of a package manager. -/
structure BlindManager (m : Manager) : Prop where
  isInstalled : ∀ (K : Trace → OpState → Prop), Stable K → ∀ p, Blind K (m.isInstalled p) fun _ => K
  install : ∀ (K : Trace → OpState → Prop), Stable K → ∀ p, Blind K (m.install p) fun _ => K
  uninstall : ∀ (K : Trace → OpState → Prop), Stable K → ∀ p, Blind K (m.uninstall p) fun _ => K

theorem blind_packageWith (P : OpState → Prop) (order : List Str → List Str) {m : Manager} (h : BlindManager m) (packages : List Str) (present check : Bool) :
    Blind (fun _ => P) (packageWith order m packages present check) fun _ _ => P :=
  .operation (.returned (.bind (blind_queryInstalled (h.isInstalled _ stable_new) _) fun _ => .bind (blind_found _) fun _ => .bind (blind_aim _ _) fun _ =>
    .settle' (known_fine rfl) (.ite (blind_forEach (h.install _ stable_fine) _) (blind_forEach (h.uninstall _ stable_fine) _))))

theorem blind_apt (opts : List Str) : BlindManager (apt opts) :=
  ⟨fun _ hk _ => .bind (.run hk _ _ _ _ _ _ _ _) fun _ => .pure _ fun _ _ h => h, fun _ hk _ => .runCommand hk _, fun _ hk _ => .runCommand hk _⟩

theorem blind_pacman (opts : List Str) : BlindManager (pacman opts) :=
  ⟨fun _ hk _ => .bind (.run hk _ _ _ _ _ _ _ _) fun _ => .pure _ fun _ _ h => h, fun _ hk _ => .runCommand hk _, fun _ hk _ => .runCommand hk _⟩

theorem blind_portage (opts : List Str) (oneshot : Bool) : BlindManager (portage opts oneshot) :=
  ⟨fun _ hk _ => .bind (.run hk _ _ _ _ _ _ _ _) fun _ => .pure _ fun _ _ h => h, fun _ hk _ => .runCommand hk _, fun _ hk _ => .runCommand hk _⟩

theorem blind_find {K : Trace → OpState → Prop} (hk : Stable K) {γ : Type} (m : List (Str × γ)) : Blind K (findCommand m) fun r t o => K t o ∧ ∀ x, r = some x → ∃ k, (k, x) ∈ m :=
  .bind (.run hk _ _ _ _ _ _ _ _) fun r => .pure _ fun _ _ h => ⟨h, fun x hx => by
    unfold lookupKey at hx
    cases hf : m.find? (fun y => y.1 == Py.strip (Py.decodeIgnore (r.stdout.getD []))) with
    | none => rw [hf] at hx; cases hx
    | some y => rw [hf] at hx; cases hx; exact ⟨y.1, List.mem_of_find?_eq_some hf⟩⟩

/-- Knowledge that does not concern the state can be used. -/
theorem Blind.given {K : Trace → OpState → Prop} {p : Prop} {m : Op α} {K' : α → Trace → OpState → Prop} (h : p → Blind K m K') : Blind (fun t o => K t o ∧ p) m K' :=
  fun e e' hd s s' hs t hk => h hk.2 e e' hd s s' hs t hk.1

theorem blind_package (P : OpState → Prop) (order : List Str → List Str) (packages : List Str) (present check : Bool) :
    Blind (fun _ => P) (package order packages present check) fun _ _ => P := by
  refine .bind (blind_find (fun _ _ _ h => h) _) fun m => .given fun hm => ?_
  cases m with
  | none => exact .operation (.raise _)
  | some m =>
    obtain ⟨k, hk⟩ := hm m rfl
    simp only [packageManagers, List.mem_cons, Prod.mk.injEq, List.not_mem_nil, or_false] at hk
    rcases hk with ⟨_, rfl⟩ | ⟨_, rfl⟩ | ⟨_, rfl⟩
    · exact blind_packageWith _ _ (blind_apt _) _ _ _
    · exact blind_packageWith _ _ (blind_pacman _) _ _ _
    · exact blind_packageWith _ _ (blind_portage _ _) _ _ _

theorem blind_serviceActions {K : Trace → OpState → Prop} (hk : Stable K) (service : Str) (state : Option Str) (enabled : Option Bool) (userMode : Bool) :
    Blind K (serviceActions service state enabled userMode) fun _ => K := by
  refine .bind (.whenChanged _ ?_) fun _ => .whenChanged _ ?_
  · split
    · exact .pure _ fun _ _ h => h
    · split
      · exact .raise _
      · exact .runCommand hk _
  · split
    · exact .pure _ fun _ _ h => h
    · exact .runCommand hk _

theorem blind_systemdService (P : OpState → Prop) (service : Str) (state : Option Str) (enabled : Option Bool) (userMode check : Bool) :
    Blind (fun _ => P) (systemdService service state enabled userMode check) fun _ _ => P := by
  have hs : ∀ p, Blind New (showProperty p service) fun _ => New := fun p => .bind (.run stable_new _ _ _ _ _ _ _ _) fun _ => .pure _ fun _ _ h => h
  exact .operation (.ite (.raise _) (.bind (hs _) fun _ => .bind (hs _) fun _ => .bind (blind_found _) fun _ => .bind (blind_aim _ _) fun _ => .bind (.unchanged _) fun _ =>
    .returned (.ite (.success (known_fine rfl)) (.bind (.unlessDry (blind_serviceActions (stable_known _ _) _ _ _ _)) fun _ => .success (known_fine rfl)))))

theorem blind_service (P : OpState → Prop) (name : Str) (state : Option Str) (enabled : Option Bool) (check : Bool) :
    Blind (fun _ => P) (service name state enabled check) fun _ _ => P := by
  refine .bind (blind_find (fun _ _ _ h => h) _) fun m => .given fun hm => ?_
  cases m with
  | none => exact .operation (.raise _)
  | some m =>
    obtain ⟨k, hk⟩ := hm m rfl
    simp only [serviceManagers, List.mem_cons, Prod.mk.injEq, List.not_mem_nil, or_false] at hk
    obtain ⟨_, rfl⟩ := hk
    exact blind_systemdService _ _ _ _ _ _

theorem blind_submodules {K : Trace → OpState → Prop} (hk : Stable K) (a : RepoArgs) : Blind K (submodules a) fun _ => K :=
  .ite (.runCommand hk _) (.pure _ fun _ _ h => h)

theorem blind_repoSettle (a : RepoArgs) (ex : Bool) (c : Option Str) (b : Bool) (v : Val) :
    Blind (Found [(p!"initialized", .bool b), (p!"commit", v)]) (repoSettle a ex c) fun _ _ _ => True :=
  .ite (.bind (blind_aim _ _) fun _ => .success (known_fine rfl)) (.bind (.run (stable_found _) _ _ _ _ _ _ _ _) fun _ => .bind (.ofExcept _) fun _ =>
    .bind (blind_aim _ _) fun _ => .bind (.unchanged _) fun _ => .ite (.success (known_fine rfl)) (.bind .dry fun _ => .ite (.success (known_fine rfl)) (.ite
      (.bind (.runCommand (stable_known _ _) _) fun _ => .bind (blind_submodules (stable_known _ _) _) fun _ => .success (known_fine rfl))
      (.bind (.run (stable_known _ _) _ _ _ _ _ _ _ _) fun _ => .ite (.failure _)
        (.bind (.runCommand (stable_known _ _) _) fun _ => .bind (blind_submodules (stable_known _ _) _) fun _ => .success (known_fine rfl))))))

theorem blind_repo (P : OpState → Prop) (a : RepoArgs) (check : Bool) : Blind (fun _ => P) (repo a check) fun _ _ => P := by
  refine .operation (.bind (.ofExcept _) fun _ => .bind (.call stable_new) fun s => ?_)
  cases s with
  | none => exact .bind (blind_found _) fun _ => .returned (blind_repoSettle _ _ _ _ _)
  | some s =>
    refine .ite (.bind (.call stable_new) fun g => ?_) (.returned (.failure _))
    cases g with
    | none => exact .returned (.failure _)
    | some g => exact .ite (.returned (.failure _)) (.bind (.run stable_new _ _ _ _ _ _ _ _) fun _ => .bind (blind_found _) fun _ => .returned (blind_repoSettle _ _ _ _ _))

theorem blind_usermodIf {K : Trace → OpState → Prop} (hk : Stable K) (key option : Str) (v : Option Str) (user : Str) : Blind K (usermodIf key option v user) fun _ => K := by
  refine .whenChanged _ ?_
  split
  · exact .pure _ fun _ _ h => h
  · exact .runCommand hk _

theorem blind_userActions {K : Trace → OpState → Prop} (hk : Stable K) (a : UserArgs) (t : UserTarget) : Blind K (userActions a t) fun _ => K :=
  .bind (.changed _) fun _ => .ite (.ite (.runCommand hk _) (.runCommand hk _)) (.ite
    (.bind (blind_usermodIf hk _ _ _ _) fun _ => .bind (blind_usermodIf hk _ _ _ _) fun _ => .bind (blind_usermodIf hk _ _ _ _) fun _ =>
      .bind (blind_usermodIf hk _ _ _ _) fun _ => .bind (blind_usermodIf hk _ _ _ _) fun _ => .bind (blind_usermodIf hk _ _ _ _) fun _ => blind_usermodIf hk _ _ _ _)
    (.pure _ fun _ _ h => h))

theorem blind_groupActions {K : Trace → OpState → Prop} (hk : Stable K) (name : Str) (present : Bool) (target : Option Int) (system : Bool) :
    Blind K (groupActions name present target system) fun _ => K := by
  refine .bind (.changed _) fun _ => .ite (.ite (.runCommand hk _) (.runCommand hk _)) (.ite (.whenChanged _ ?_) (.pure _ fun _ _ h => h))
  split
  · exact .pure _ fun _ _ h => h
  · exact .runCommand hk _

theorem printable_wanted (a : UserArgs) (cur : Option Client.UserEntry) (t : UserTarget) : printable (currentUser cur) (wantedUser a t) = true := by
  unfold wantedUser
  split <;> cases cur <;> rfl

theorem blind_uploadDirs (mode owner group : Option Str) : ∀ l, Blind (fun _ o => o.hasNested = true) (uploadDirs mode owner group l) fun _ _ o => o.hasNested = true
  | [] => .pure _ fun _ _ h => h
  | _ :: l => .bind (blind_directory (fun o => o.hasNested = true) _ _ _ _ _ _ _) fun _ => .bind .addNestedResult fun _ => blind_uploadDirs mode owner group l

theorem blind_upload (P : OpState → Prop) (sha512 : Bytes → Bytes) (src : Str) (read : Except Exn Bytes) (dest : Str) (mode owner group : Option Str) (check : Bool) :
    Blind (fun _ => P) (upload sha512 src read dest mode owner group check) fun _ _ => P :=
  .operation (.bind (.ofExcept _) fun _ => .bind (.ofExcept _) fun _ => .returned (blind_saveContent _ _ _ _ _ _))

theorem blind_uploadFiles (sha512 : Bytes → Bytes) (mode owner group : Option Str) :
    ∀ l, Blind (fun _ o => o.hasNested = true) (uploadFiles sha512 mode owner group l) fun _ _ o => o.hasNested = true
  | [] => .pure _ fun _ _ h => h
  | (t, df) :: l => by
    unfold uploadFiles
    split
    · exact .bind (blind_upload (fun o => o.hasNested = true) _ _ _ _ _ _ _ _) fun _ => .bind .addNestedResult fun _ => blind_uploadFiles sha512 mode owner group l
    · exact blind_uploadFiles sha512 mode owner group l

theorem blind_operation (P : OpState → Prop) {opts : List Str} {op : Op OpResult} (hop : Operation opts op) : Blind (fun _ => P) op fun _ _ => P := by
  cases hop with
  | directory => exact blind_directory _ _ _ _ _ _ _ _
  | file => exact blind_file _ _ _ _ _ _ _ _
  | link => exact blind_link _ _ _ _ _ _ _ _
  | uploadContent => exact .operation (.bind (.ofExcept _) fun _ => .returned (blind_saveContent _ _ _ _ _ _))
  | upload => exact blind_upload _ _ _ _ _ _ _ _ _
  | uploadDir =>
    exact .operation (.bind .setNested fun _ => .bind (.ofExcept _) fun _ => .ite (.raise _) (.bind (blind_uploadDirs _ _ _ _) fun _ =>
      .bind (blind_uploadFiles _ _ _ _ _) fun _ => .returned (.success fun _ _ h => .inl h)))
  | templateContent => exact .operation (.bind (.ofExcept _) fun _ => .bind (.ofExcept _) fun _ => .returned (blind_saveContent _ _ _ _ _ _))
  | template =>
    exact .operation (.bind (.ofExcept _) fun _ => .bind (.ofExcept _) fun _ => .bind (.ofExcept _) fun _ => .returned (blind_saveContent _ _ _ _ _ _))
  | line =>
    refine .operation (.bind (.ofExcept _) fun _ => .returned (.withDefaults stable_new fun attr => .bind (blind_final _) fun _ => .bind (.call (stable_aimed _)) fun s => ?_))
    cases s with
    | none => exact blind_lineSettle _ _ _ _ _ _ _ _
    | some s => exact .ite (.failure _) (.bind (.call (stable_aimed _)) fun _ => blind_lineSettle _ _ _ _ _ _ _ _)
  | user =>
    exact .operation (.bind (.orDefault _ stable_new) fun _ => .bind (blind_found _) fun _ => .bind (blind_aim _ _) fun _ =>
      .returned (.settle' (known_fine (printable_wanted _ _ _)) (blind_userActions stable_fine _ _)))
  | group =>
    refine .operation (.bind (.orDefault _ stable_new) fun _ => .bind (blind_found _) fun _ => .bind (blind_aim _ _) fun _ =>
      .returned (.settle' (known_fine ?_) (blind_groupActions stable_fine _ _ _ _)))
    split <;> rfl
  | apt => exact blind_packageWith _ _ (blind_apt _) _ _ _
  | pacman => exact blind_packageWith _ _ (blind_pacman _) _ _ _
  | portage => exact blind_packageWith _ _ (blind_portage _ _) _ _ _
  | package => exact blind_package _ _ _ _ _
  | daemonReload =>
    exact .operation (.bind (blind_found _) fun _ => .bind (blind_aim _ _) fun _ => .bind (.unlessDry (.runCommand (stable_known _ _) _)) fun _ => .returned (.success (known_fine rfl)))
  | systemdService => exact blind_systemdService _ _ _ _ _ _
  | service => exact blind_service _ _ _ _ _
  | repo => exact blind_repo _ _ _

/-- Scripts. -/
theorem blind_deploy (P : OpState → Prop) : ∀ ops, (∀ op ∈ ops, ∃ opts, Operation opts op) → Blind (fun _ => P) (deploy ops) fun _ _ => P
  | [], _ => .pure _ fun _ _ h => h
  | op :: ops, h => by
    obtain ⟨opts, ho⟩ := h op (by simp)
    exact .bind (blind_operation P ho) fun _ => .bind (blind_deploy P ops fun o hm => h o (by simp [hm])) fun _ => .pure _ fun _ _ h => h

/-! ### Runs -/

theorem exists_run {γ : Type} (m : Prog γ) : ∃ t a, Prog.Runs m t a := by
  induction m with
  | ret a => exact ⟨[], a, .ret a⟩
  | req p k ih =>
    obtain ⟨t, a, h⟩ := ih (.error .indexError)
    exact ⟨_, a, .req p k _ t a h⟩

theorem rel_runs {K : α → Trace → OpState → Prop} {t0 t : Trace} {m m' : Prog (Leaf α)} {a : Leaf α} (h : Rel (Ends K) t0 m m') (hr : Prog.Runs m t a) :
    (∃ t' b, WithoutDownloads t t' ∧ Prog.Runs m' t' b ∧ a.1 = b.1 ∧ SameButDiffs a.2 b.2)
    ∨ ∃ t1 t1' t2 b path x e, t = t1 ++ [(.download path, x)] ∧ ¬ Obtained x ∧ a.1 = .error e ∧ WithoutDownloads t1 t1' ∧ Prog.Runs m' (t1' ++ t2) b := by
  induction h generalizing t with
  | ret h =>
    cases hr
    exact .inl ⟨[], _, .nil, .ret _, h.1, h.2.1⟩
  | @req _ p _ _ _ ih =>
    cases hr with
    | req _ k r t a hr =>
      rcases ih r hr with ⟨t', b, h1, h2, h3⟩ | ⟨t1, t1', t2, b, path, x, e, h1, h2, h3, h4, h5⟩
      · exact .inl ⟨_, b, .keep _ h1, .req _ _ _ _ _ h2, h3⟩
      · exact .inr ⟨(p, r) :: t1, (p, r) :: t1', t2, b, path, x, e, by rw [h1]; rfl, h2, h3, .keep _ h4, .req _ _ _ _ _ h5⟩
  | look _ _ _ hd ih =>
    cases hr with
    | req p k r t a hr =>
      by_cases ho : Obtained r
      · rcases ih r ho hr with ⟨t', b, h1, h2, h3⟩ | ⟨t1, t1', t2, b, path, x, e, h1, h2, h3, h4, h5⟩
        · exact .inl ⟨_, b, .drop _ _ ho h1, h2, h3⟩
        · exact .inr ⟨_ :: t1, t1', t2, b, path, x, e, by rw [h1]; rfl, h2, h3, .drop _ _ ho h4, h5⟩
      · obtain ⟨e, s, he⟩ := hd r ho
        rw [he] at hr
        cases hr
        obtain ⟨t2, b, hb⟩ := exists_run (by assumption)
        exact .inr ⟨[], [], t2, b, _, r, e, rfl, ho, rfl, .nil, hb⟩

/-- A file that `stat` has found can be read. -/
theorem obtained_host {sys : Sys} (hm : MissingIsMissing sys) {w : World} {path : Str} (h : Promising (Client.direct sys (.stat path false true) w).1) :
    Obtained (Client.direct sys (.download path) w).1 := by
  obtain ⟨s, h1, h2⟩ := h
  have hst : (Client.Connector.stat path false true).run (Client.direct sys) w = (.ok s, w) := by
    have : (Client.Connector.stat path false true).run (Client.direct sys) w
        = (((Client.Connector.stat [] false true).run (fun _ (_ : Unit) => ((Client.direct sys (.stat path false true) w).1, ())) ()).1,
          (Client.direct sys (.stat path false true) w).2) := rfl
    rw [this, h1, direct_query _ rfl]
  have hread : ∀ e, osRead sys w path = .error e → isENOENT e = true := by
    intro e he
    cases s with
    | some x =>
      obtain ⟨c, hc⟩ := stat_read hst (h2 x rfl)
      rw [hc] at he
      cases he
    | none =>
      simp only [Client.Connector.stat, Prog.run, Client.direct, handle, handleStat] at hst
      cases ho : osStat sys w path false with
      | error e' =>
        rw [ho] at hst
        by_cases he' : isENOENT e' = true
        · exact hm w path e' e ho he' he
        · cases e' with
          | osError n s m => cases n <;> simp [he', lostConnection, Exn.isValueError] at hst
          | _ => simp [he', lostConnection, Exn.isValueError] at hst
      | ok x =>
        rw [ho] at hst
        simp only [Bool.true_and] at hst
        by_cases hf : (ftype x.stMode == p!"file") = true
        · rw [if_pos hf, Remote.optional, he] at hst
          cases e with
          | osError n s m => cases n <;> simp [lostConnection, Exn.isValueError] at hst
          | _ => simp [lostConnection, Exn.isValueError] at hst
        · rw [if_neg hf] at hst
          simp [Client.unpackResponse] at hst
  simp only [Client.direct, handle, handleDownload]
  cases hr : osRead sys w path with
  | ok c => exact .content c
  | error e =>
    simp only [hread e hr, if_true]
    exact .missing _ rfl

theorem rel_host {sys : Sys} (hm : MissingIsMissing sys) {K : α → Trace → OpState → Prop} {t : Trace} {m m' : Prog (Leaf α)} {w : World} (h : Rel (Ends K) t m m')
    (hl : ∀ t0 path a, t = t0 ++ [(.stat path false true, a)] → a = (Client.direct sys (.stat path false true) w).1) :
    (m.run (Client.direct sys) w).1.1 = (m'.run (Client.direct sys) w).1.1 ∧ SameButDiffs (m.run (Client.direct sys) w).1.2 (m'.run (Client.direct sys) w).1.2
    ∧ (m.run (Client.direct sys) w).2 = (m'.run (Client.direct sys) w).2 := by
  induction h generalizing w with
  | ret h => exact ⟨h.1, h.2.1, rfl⟩
  | @req t p k k' _ ih =>
    refine ih (Client.direct sys p w).1 (w := (Client.direct sys p w).2) fun t0 path a ht => ?_
    obtain ⟨-, hx⟩ := List.append_inj' ht rfl
    cases hx
    rw [direct_query _ rfl]
  | @look t t0 path a k q ht hp _ hd ih =>
    have ho := obtained_host (w := w) hm (hl _ _ _ ht ▸ hp)
    have := ih _ ho (w := w) fun t0 p a ht => by
      obtain ⟨-, hx⟩ := List.append_inj' ht rfl
      cases hx
    simp only [Prog.run]
    rw [direct_query (.download path) rfl]
    exact this

end Verif.Ops
