/-
Lemmas for C102.
-/
import Verif.Ops.MemorySpec
import Verif.Ops.DisplayLemmas
import Verif.Ops.ScriptedLemmas

namespace Verif.Ops

open Script Remote
open Client (Prog)
open Wire (Packet)

variable {α β γ δ : Type}

/-- Two programs that make the same requests, whatever the answers are. -/
inductive Par (L : α → β → Prop) : Prog α → Prog β → Prop where
  | ret {a : α} {b : β} (h : L a b) : Par L (.ret a) (.ret b)
  | req {p : Packet} {k : Except Exn Packet → Prog α} {k' : Except Exn Packet → Prog β} (h : ∀ r, Par L (k r) (k' r)) : Par L (.req p k) (.req p k')

theorem Par.bind {L : α → β → Prop} {L' : γ → δ → Prop} {m : Prog α} {m' : Prog β} {f : α → Prog γ} {f' : β → Prog δ} (h : Par L m m')
    (hf : ∀ a b, L a b → Par L' (f a) (f' b)) : Par L' (m.bind f) (m'.bind f') := by
  induction h with
  | ret h => exact hf _ _ h
  | req _ ih => exact .req ih

theorem Par.mono {L L' : α → β → Prop} {m : Prog α} {m' : Prog β} (h : Par L m m') (hl : ∀ a b, L a b → L' a b) : Par L' m m' := by
  induction h with
  | ret h => exact .ret (hl _ _ h)
  | req _ ih => exact .req ih

theorem Par.same {L : α → α → Prop} (h : ∀ a, L a a) (m : Prog α) : Par L m m := by
  induction m with
  | ret a => exact .ret (h a)
  | req p k ih => exact .req ih

theorem Par.runs {L : α → β → Prop} {m : Prog α} {m' : Prog β} (h : Par L m m') {t : Trace} {a : α} (hr : Prog.Runs m t a) : ∃ b, Prog.Runs m' t b ∧ L a b := by
  induction h generalizing t with
  | ret h => cases hr; exact ⟨_, .ret _, h⟩
  | req _ ih =>
    cases hr with
    | req _ k r t a hr =>
      obtain ⟨b, h1, h2⟩ := ih r hr
      exact ⟨b, .req _ _ _ _ _ h1, h2⟩

theorem Par.run {σ : Type} {L : α → β → Prop} {m : Prog α} {m' : Prog β} (h : Par L m m') (serve : Packet → σ → Except Exn Packet × σ) (s : σ) :
    L (m.run serve s).1 (m'.run serve s).1 ∧ (m.run serve s).2 = (m'.run serve s).2 := by
  induction h generalizing s with
  | ret h => exact ⟨h, rfl⟩
  | req _ ih => exact ih _ _

/-- Two states with the same settings in force (`top`), on top of different ones and after different things have been printed. -/
structure Frame (b b' : List Report) (u u' top : List Settings) (s s' : St) : Prop where
  stack : s.stack = top ++ u
  stack' : s'.stack = top ++ u'
  op : s.op = s'.op
  shown : ∃ new, s.shown = b ++ new ∧ s'.shown = b' ++ new

/-- What the code does depends on the settings in force only. -/
def Framed (m : Op α) : Prop :=
  ∀ e b b' u u' top, top ≠ [] → ∀ s s', Frame b b' u u' top s s' → Par (fun x y => x.1 = y.1 ∧ Frame b b' u u' top x.2 y.2) (m e s) (m e s')

namespace Framed

theorem pure (a : α) : Framed (Op.pure a) := fun _ _ _ _ _ _ _ _ _ h => .ret ⟨rfl, h⟩

theorem raise (e : Exn) : Framed (Op.raise e : Op α) := fun _ _ _ _ _ _ _ _ _ h => .ret ⟨rfl, h⟩

theorem ofExcept (x : Except Exn α) : Framed (Op.ofExcept x) := by
  cases x with
  | ok a => exact .pure a
  | error e => exact .raise e

theorem bind {m : Op α} {f : α → Op β} (hm : Framed m) (hf : ∀ a, Framed (f a)) : Framed (m >>= f) := by
  intro e b b' u u' top ht s s' h
  refine (hm e b b' u u' top ht s s' h).bind fun x y hxy => ?_
  obtain ⟨x, sx⟩ := x
  obtain ⟨y, sy⟩ := y
  obtain ⟨h1, h2⟩ := hxy
  cases (show x = y from h1)
  cases x with
  | ok a => exact hf a e b b' u u' top ht _ _ h2
  | error x => exact .ret ⟨rfl, h2⟩

theorem tryCatch {m : Op α} {f : Exn → Op α} (hm : Framed m) (hf : ∀ a, Framed (f a)) : Framed (Op.tryCatch m f) := by
  intro e b b' u u' top ht s s' h
  refine (hm e b b' u u' top ht s s' h).bind fun x y hxy => ?_
  obtain ⟨x, sx⟩ := x
  obtain ⟨y, sy⟩ := y
  obtain ⟨h1, h2⟩ := hxy
  cases (show x = y from h1)
  cases x with
  | error a => exact hf a e b b' u u' top ht _ _ h2
  | ok x => exact .ret ⟨rfl, h2⟩

theorem ite {c : Prop} [Decidable c] {a b : Op α} (ha : Framed a) (hb : Framed b) : Framed (if c then a else b) := by
  split <;> assumption

theorem call {p : Prog (Except Exn α)} : Framed (Op.call p) := by
  intro e b b' u u' top ht s s' h
  exact (Par.same (L := fun x y => x = y) (fun _ => rfl) p).bind fun x y hxy => .ret ⟨hxy, h⟩

theorem dry : Framed Script.dry := fun _ _ _ _ _ _ _ _ _ h => .ret ⟨rfl, h⟩

theorem diffWanted : Framed Script.diffWanted := fun _ _ _ _ _ _ _ _ _ h => .ret ⟨rfl, h⟩

theorem getEnv : Framed Op.getEnv := fun _ _ _ _ _ _ _ _ _ h => .ret ⟨rfl, h⟩

theorem currentDefaults : Framed Script.currentDefaults := by
  intro e b b' u u' top ht s s' h
  unfold Script.currentDefaults
  rw [h.stack, h.stack']
  cases top with
  | nil => exact absurd rfl ht
  | cons x top => exact .ret ⟨rfl, h⟩

theorem run (command : List Str) (input : Option Bytes) (capture check : Bool) (user group umask cwd : Option Str) :
    Framed (Connection.run command input capture check user group umask cwd) := .bind .currentDefaults fun _ => .call

theorem runCommand (command : List Str) : Framed (runCommand command) := .bind (.run _ _ _ _ _ _ _ _) fun _ => .pure _

theorem orDefault {m : Op (Option α)} (d : Option α) (h : Framed m) : Framed (Connection.orDefault m d) := .tryCatch h fun _ => .ite (.pure _) (.raise _)

theorem changed (key : Str) : Framed (Script.changed key) := by
  intro e b b' u u' top ht s s' h
  unfold Script.changed
  rw [h.op]
  split
  · exact .ret ⟨rfl, h⟩
  · split
    · split
      · exact .ret ⟨rfl, h⟩
      · exact .ret ⟨rfl, h⟩
    · exact .ret ⟨rfl, h⟩

theorem unchanged (n : Bool) : Framed (Script.unchanged n) := by
  intro e b b' u u' top ht s s' h
  unfold Script.unchanged
  rw [h.op]
  split
  · split
    · exact .ret ⟨rfl, h⟩
    · exact .ret ⟨rfl, h⟩
  · exact .ret ⟨rfl, h⟩

theorem whenChanged {m : Op Unit} (key : Str) (h : Framed m) : Framed (whenChanged key m) := .bind (.changed _) fun _ => .ite h (.pure _)

theorem changedEither (a b : Str) : Framed (changedEither a b) := .bind (.changed _) fun _ => .ite (.pure _) (.changed _)

theorem whenEither {m : Op Unit} (a b : Str) (h : Framed m) : Framed (whenEither a b m) := .bind (.changedEither _ _) fun _ => .ite h (.pure _)

theorem unlessDry {m : Op Unit} (h : Framed m) : Framed (unlessDry m) := .bind .dry fun _ => .ite (.pure _) h

/-! The operation object -/

theorem initialState (d : Dict) : Framed (initialState d) := by
  intro e b b' u u' top ht s s' h
  unfold Script.initialState
  rw [h.op]
  split
  · exact .ret ⟨rfl, h⟩
  · split
    · exact .ret ⟨rfl, h⟩
    · exact .ret ⟨rfl, ⟨h.stack, h.stack', rfl, h.shown⟩⟩

theorem finalState (d : Dict) : Framed (finalState d) := by
  intro e b b' u u' top ht s s' h
  unfold Script.finalState
  rw [h.op]
  split
  · exact .ret ⟨rfl, h⟩
  · split
    · exact .ret ⟨rfl, h⟩
    · exact .ret ⟨rfl, ⟨h.stack, h.stack', rfl, h.shown⟩⟩

theorem setNested (n : Bool) : Framed (setNested n) :=
  fun _ _ _ _ _ _ _ _ _ h => .ret ⟨rfl, ⟨h.stack, h.stack', by simp [h.op], h.shown⟩⟩

theorem addNestedResult (key : Str) (r : OpResult) : Framed (addNestedResult key r) := by
  intro e b b' u u' top ht s s' h
  unfold Script.addNestedResult
  rw [h.op]
  split
  · exact .ret ⟨rfl, h⟩
  · dsimp only
    split
    · exact .ret ⟨rfl, ⟨h.stack, h.stack', rfl, h.shown⟩⟩
    · exact .ret ⟨rfl, ⟨h.stack, h.stack', rfl, h.shown⟩⟩

theorem opDiff (file : Str) (old new : Option Bytes) : Framed (opDiff file old new) := by
  intro e b b' u u' top ht s s' h
  unfold Script.opDiff
  rw [h.op]
  split
  · exact .ret ⟨rfl, h⟩
  · split
    · exact .ret ⟨rfl, h⟩
    · exact .ret ⟨rfl, ⟨h.stack, h.stack', rfl, h.shown⟩⟩

theorem frame_show {b b' : List Report} {u u' top : List Settings} {s s' : St} (h : Frame b b' u u' top s s') (r : OpResult) : Frame b b' u u' top (s.show r) (s'.show r) := by
  unfold St.show
  rw [h.op]
  split
  · exact h
  · obtain ⟨new, h1, h2⟩ := h.shown
    exact ⟨h.stack, h.stack', rfl, new ++ [_], by rw [h1, List.append_assoc], by rw [h2, List.append_assoc]⟩

theorem frame_failed {b b' : List Report} {u u' top : List Settings} {s s' : St} (h : Frame b b' u u' top s s') (m : Option Str) : failed s m = failed s' m := by
  unfold failed
  rw [h.op]

theorem success : Framed success := by
  intro e b b' u u' top ht s s' h
  unfold Script.success
  rw [h.op]
  split
  · dsimp only
    split
    · exact .ret ⟨rfl, h⟩
    · exact .ret ⟨rfl, frame_show h _⟩
  · exact .ret ⟨rfl, h⟩

theorem failure (msg : Str) : Framed (failure msg) := by
  intro e b b' u u' top ht s s' h
  unfold Script.failure
  rw [frame_failed h]
  exact .ret ⟨rfl, frame_show h _⟩

theorem returned {m : Op OpResult} (h : Framed m) : Framed (returned m) := .bind h fun _ => .pure _

theorem settle {m m' : Op Unit} (h : Framed m) (h' : Framed m') : Framed (settle m m') :=
  .bind (.unchanged _) fun _ => .ite .success (.bind h fun _ => .bind (.unlessDry h') fun _ => .success)

/-! Defaults -/

theorem mapOpt {f : Option Str → Op Str} (h : ∀ x, Framed (f x)) (x : Option Str) : Framed (mapOpt f x) := by
  cases x with
  | none => exact .pure _
  | some x => exact .bind (h _) fun _ => .pure _

theorem checkCwd (c : Option Str) : Framed (checkCwd c) := by
  rcases c with _ | _ | ⟨a, c⟩
  · exact .pure _
  · exact .pure _
  · refine .bind .call fun s => ?_
    cases s with
    | none => exact .raise _
    | some s => exact .ite (.raise _) (.pure _)

theorem resolveDefaults (s : Settings) : Framed (resolveDefaults s) :=
  .bind .currentDefaults fun _ => .bind (.mapOpt (fun _ => .call) _) fun _ => .bind (.mapOpt (fun _ => .call) _) fun _ =>
    .bind (.mapOpt (fun _ => .call) _) fun _ => .bind (.mapOpt (fun _ => .call) _) fun _ => .bind (.ofExcept _) fun _ =>
    .bind (.ofExcept _) fun _ => .bind (.ofExcept _) fun _ => .bind (.checkCwd _) fun _ => .pure _

/-- A block with defaults of its own. -/
theorem pushed {m : Op α} (s : Settings) (h : Framed m) :
    Framed (do push s; Op.finally_ m fun st => { st with stack := st.stack.tail }) := by
  intro e b b' u u' top ht st st' hs
  show Par _ ((m e { st with stack := s :: st.stack }).bind _) ((m e { st' with stack := s :: st'.stack }).bind _)
  refine Par.bind (h e b b' u u' (s :: top) (List.cons_ne_nil _ _) { st with stack := s :: st.stack } { st' with stack := s :: st'.stack }
    ⟨by rw [hs.stack]; rfl, by rw [hs.stack']; rfl, hs.op, hs.shown⟩) fun x y hxy => ?_
  obtain ⟨h1, h2⟩ := hxy
  exact .ret ⟨h1, ⟨by show x.2.stack.tail = _; rw [h2.stack]; rfl, by show y.2.stack.tail = _; rw [h2.stack']; rfl, h2.op, h2.shown⟩⟩

theorem withDefaults {s : Settings} {body : Settings → Op α} (h : ∀ a, Framed (body a)) : Framed (withDefaults s body) :=
  .bind (.ofExcept _) fun _ => .bind .getEnv fun _ => .bind .currentDefaults fun _ => .bind (.resolveDefaults _) fun _ => .pushed _ (h _)

theorem operation {check : Bool} {f : Op (Option OpResult)} (h : Framed f) : Framed (operation check f) := by
  intro e b b' u u' top ht s s' hs
  refine (h e b b' u u' top ht { s with op := {} } { s' with op := {} } ⟨hs.stack, hs.stack', rfl, hs.shown⟩).bind fun x y hxy => ?_
  obtain ⟨x, sx⟩ := x
  obtain ⟨y, sy⟩ := y
  obtain ⟨h1, h2⟩ := hxy
  cases (show x = y from h1)
  have back : ∀ {v v' : St}, Frame b b' u u' top v v' → Frame b b' u u' top { v with op := s.op } { v' with op := s'.op } := fun h => ⟨h.stack, h.stack', hs.op, h.shown⟩
  match x with
  | .error x =>
    refine .ret ⟨rfl, ?_⟩
    dsimp only
    rw [frame_failed h2]
    exact back (frame_show h2 _)
  | .ok none => exact .ret ⟨rfl, back h2⟩
  | .ok (some r) =>
    dsimp only
    split
    · exact .ret ⟨rfl, back h2⟩
    · exact .ret ⟨rfl, back h2⟩

end Framed

/-! ### Operations -/

theorem framed_directoryActions (path : Str) (present : Bool) (attr : Settings) : Framed (directoryActions path present attr) :=
  .ite (.bind (.whenChanged _ (.runCommand _)) fun _ => .bind (.whenChanged _ (.runCommand _)) fun _ => .bind (.whenEither _ _ (.runCommand _)) fun _ =>
    .bind (.changed _) fun _ => .ite (.pure _) (.whenChanged _ (.runCommand _))) (.whenChanged _ (.runCommand _))

theorem framed_fileActions (path : Str) (present : Bool) (attr : Settings) : Framed (fileActions path present attr) :=
  .ite (.bind (.whenEither _ _ (.runCommand _)) fun _ => .bind (.whenChanged _ (.runCommand _)) fun _ => .whenEither _ _ (.runCommand _))
    (.whenChanged _ (.runCommand _))

theorem framed_linkActions (path target : Str) (present : Bool) (attr : Settings) : Framed (linkActions path target present attr) :=
  .ite (.bind (.whenChanged _ (.runCommand _)) fun _ => .bind (.whenEither _ _ (.runCommand _)) fun _ =>
    .bind (.changed _) fun _ => .ite (.pure _) (.whenChanged _ (.runCommand _))) (.whenChanged _ (.runCommand _))

theorem framed_saveActions (attr : Settings) (content : Bytes) (dest : Str) : Framed (saveActions attr content dest) :=
  .bind (.changedEither _ _) fun _ => .ite .call (.bind (.whenChanged _ (.runCommand _)) fun _ => .whenEither _ _ (.runCommand _))

theorem framed_directory (path : Str) (present touch : Bool) (mode owner group : Option Str) (check : Bool) :
    Framed (directory path present touch mode owner group check) := by
  refine .operation (.bind (.ofExcept _) fun _ => .returned (.withDefaults fun attr => .bind (.finalState _) fun _ => .bind .call fun s => ?_))
  cases s with
  | none => exact .bind (.initialState _) fun _ => .settle (.pure _) (framed_directoryActions _ _ _)
  | some s => exact .ite (.failure _) (.bind (.initialState _) fun _ => .settle (.pure _) (framed_directoryActions _ _ _))

theorem framed_file (path : Str) (present touch : Bool) (mode owner group : Option Str) (check : Bool) :
    Framed (file path present touch mode owner group check) := by
  refine .operation (.bind (.ofExcept _) fun _ => .returned (.withDefaults fun attr => .bind (.finalState _) fun _ => .bind .call fun s => ?_))
  cases s with
  | none => exact .bind (.initialState _) fun _ => .settle (.pure _) (framed_fileActions _ _ _)
  | some s => exact .ite (.failure _) (.bind (.initialState _) fun _ => .settle (.pure _) (framed_fileActions _ _ _))

theorem framed_link (path target : Str) (present touch : Bool) (owner group : Option Str) (check : Bool) :
    Framed (link path target present touch owner group check) := by
  refine .operation (.bind (.ofExcept _) fun _ => .ite (.raise _) (.returned (.withDefaults fun attr => .bind (.finalState _) fun _ => .bind .call fun s => ?_)))
  cases s with
  | none => exact .bind (.initialState _) fun _ => .settle (.pure _) (framed_linkActions _ _ _ _)
  | some s =>
    exact .ite (.failure _) (.bind (.run _ _ _ _ _ _ _ _) fun _ => .bind (.ofExcept _) fun _ => .bind (.initialState _) fun _ =>
      .settle (.pure _) (framed_linkActions _ _ _ _))

theorem framed_downloadOr (file : Str) : Framed (Connection.downloadOr file) := .orDefault _ (.bind .call fun _ => .pure _)

theorem framed_saveDiff (dest : Str) (content : Bytes) : Framed (saveDiff dest content) :=
  .bind .diffWanted fun _ => .ite (.bind (framed_downloadOr _) fun _ => .opDiff _ _ _) (.pure _)

theorem framed_saveContent (sha512 : Bytes → Bytes) (content : Content) (dest : Str) (mode owner group : Option Str) :
    Framed (saveContent sha512 content dest mode owner group) := by
  refine .bind (.ofExcept _) fun c => .withDefaults fun attr => .bind (.finalState _) fun _ => .bind .call fun s => ?_
  cases s with
  | none => exact .bind (.initialState _) fun _ => .settle (framed_saveDiff _ _) (framed_saveActions _ _ _)
  | some s => exact .ite (.failure _) (.bind (.initialState _) fun _ => .settle (framed_saveDiff _ _) (framed_saveActions _ _ _))

theorem framed_lineDiff (path : Str) (orig : Option Bytes) (new : Bytes) : Framed (lineDiff path orig new) :=
  .bind .diffWanted fun _ => .ite (.opDiff _ _ _) (.pure _)

theorem framed_lineActions (path : Str) (backup : Backup) (attr : Settings) (orig : Option Bytes) (new : Bytes) : Framed (lineActions path backup attr orig new) := by
  cases orig with
  | none => exact .call
  | some b =>
    refine .bind ?_ fun _ => .call
    unfold lineBackup
    split
    · exact .runCommand _
    · exact .pure _

theorem framed_lineSettle (path line : Str) (present : Bool) (regex : Option Regex) (ignoreWhitespace : Bool) (backup : Backup)
    (attr : Settings) (orig : Option Bytes) : Framed (lineSettle path line present regex ignoreWhitespace backup attr orig) :=
  .bind (.initialState _) fun _ => .bind (.unchanged _) fun _ => .ite .success (.bind (.ofExcept _) fun _ =>
    .bind (framed_lineDiff _ _ _) fun _ => .bind (.unlessDry (framed_lineActions _ _ _ _ _)) fun _ => .success)

theorem framed_queryInstalled {m : Manager} (h : ∀ p, Framed (m.isInstalled p)) : ∀ l, Framed (queryInstalled m l)
  | [] => .pure _
  | _ :: l => .bind (h _) fun _ => .bind (framed_queryInstalled h l) fun _ => .pure _

theorem framed_forEach {f : Str → Op Unit} (h : ∀ p, Framed (f p)) : ∀ l, Framed (forEach f l)
  | [] => .pure _
  | _ :: l => .bind (h _) fun _ => framed_forEach h l

/-- What operations need to know of a package manager. -/
structure FramedManager (m : Manager) : Prop where
  isInstalled : ∀ p, Framed (m.isInstalled p)
  install : ∀ p, Framed (m.install p)
  uninstall : ∀ p, Framed (m.uninstall p)

theorem framed_packageWith (order : List Str → List Str) {m : Manager} (h : FramedManager m) (packages : List Str) (present check : Bool) :
    Framed (packageWith order m packages present check) :=
  .operation (.returned (.bind (framed_queryInstalled h.isInstalled _) fun _ => .bind (.initialState _) fun _ => .bind (.finalState _) fun _ =>
    .settle (.pure _) (.ite (framed_forEach h.install _) (framed_forEach h.uninstall _))))

theorem framed_apt (opts : List Str) : FramedManager (apt opts) :=
  ⟨fun _ => .bind (.run _ _ _ _ _ _ _ _) fun _ => .pure _, fun _ => .runCommand _, fun _ => .runCommand _⟩

theorem framed_pacman (opts : List Str) : FramedManager (pacman opts) :=
  ⟨fun _ => .bind (.run _ _ _ _ _ _ _ _) fun _ => .pure _, fun _ => .runCommand _, fun _ => .runCommand _⟩

theorem framed_portage (opts : List Str) (oneshot : Bool) : FramedManager (portage opts oneshot) :=
  ⟨fun _ => .bind (.run _ _ _ _ _ _ _ _) fun _ => .pure _, fun _ => .runCommand _, fun _ => .runCommand _⟩

/-- One of the commands is found, or none. -/
theorem framed_find {m : List (Str × γ)} {g : Option γ → Op α} (h : ∀ k x, (k, x) ∈ m → Framed (g (some x))) (hn : Framed (g none)) : Framed (findCommand m >>= g) := by
  intro e b b' u u' top ht s s' hs
  refine Par.bind (L := fun x y => x.1 = y.1 ∧ Frame b b' u u' top x.2 y.2 ∧ ∀ a, x.1 = .ok a → Framed (g a)) ?_ fun x y hxy => ?_
  · refine (Framed.run [p!"bash", p!"-c", findQuery (m.map (·.1))] none true true none none none none e b b' u u' top ht s s' hs).bind fun x y hxy => ?_
    obtain ⟨x, sx⟩ := x
    obtain ⟨y, sy⟩ := y
    obtain ⟨h1, h2⟩ := hxy
    cases (show x = y from h1)
    cases x with
    | error x => exact .ret ⟨rfl, h2, nofun⟩
    | ok r =>
      refine .ret ⟨rfl, h2, fun a ha => ?_⟩
      cases (show _ = _ from Except.ok.inj ha)
      unfold lookupKey
      cases hf : m.find? (fun y => y.1 == Py.strip (Py.decodeIgnore (r.stdout.getD []))) with
      | none => exact hn
      | some y => exact h y.1 y.2 (List.mem_of_find?_eq_some hf)
  · obtain ⟨x, sx⟩ := x
    obtain ⟨y, sy⟩ := y
    obtain ⟨h1, h2, h3⟩ := hxy
    cases (show x = y from h1)
    cases x with
    | ok a => exact h3 a rfl e b b' u u' top ht _ _ h2
    | error x => exact .ret ⟨rfl, h2⟩

theorem framed_package (order : List Str → List Str) (packages : List Str) (present check : Bool) : Framed (package order packages present check) := by
  refine framed_find (fun k x hk => ?_) (.operation (.raise _))
  simp only [packageManagers, List.mem_cons, Prod.mk.injEq, List.not_mem_nil, or_false] at hk
  rcases hk with ⟨_, rfl⟩ | ⟨_, rfl⟩ | ⟨_, rfl⟩
  · exact framed_packageWith _ (framed_apt _) _ _ _
  · exact framed_packageWith _ (framed_pacman _) _ _ _
  · exact framed_packageWith _ (framed_portage _ _) _ _ _

theorem framed_serviceActions (service : Str) (state : Option Str) (enabled : Option Bool) (userMode : Bool) :
    Framed (serviceActions service state enabled userMode) := by
  refine .bind (.whenChanged _ ?_) fun _ => .whenChanged _ ?_
  · split
    · exact .pure _
    · split
      · exact .raise _
      · exact .runCommand _
  · split
    · exact .pure _
    · exact .runCommand _

theorem framed_systemdService (service : Str) (state : Option Str) (enabled : Option Bool) (userMode check : Bool) :
    Framed (systemdService service state enabled userMode check) := by
  have hs : ∀ p, Framed (showProperty p service) := fun p => .bind (.run _ _ _ _ _ _ _ _) fun _ => .pure _
  exact .operation (.ite (.raise _) (.bind (hs _) fun _ => .bind (hs _) fun _ => .bind (.initialState _) fun _ => .bind (.finalState _) fun _ => .bind (.unchanged _) fun _ =>
    .returned (.ite .success (.bind (.unlessDry (framed_serviceActions _ _ _ _)) fun _ => .success))))

theorem framed_service (name : Str) (state : Option Str) (enabled : Option Bool) (check : Bool) : Framed (service name state enabled check) := by
  refine framed_find (fun k x hk => ?_) (.operation (.raise _))
  simp only [serviceManagers, List.mem_cons, Prod.mk.injEq, List.not_mem_nil, or_false] at hk
  obtain ⟨_, rfl⟩ := hk
  exact framed_systemdService _ _ _ _ _

theorem framed_submodules (a : RepoArgs) : Framed (submodules a) := .ite (.runCommand _) (.pure _)

theorem framed_repoSettle (a : RepoArgs) (ex : Bool) (c : Option Str) : Framed (repoSettle a ex c) :=
  .ite (.bind (.finalState _) fun _ => .success) (.bind (.run _ _ _ _ _ _ _ _) fun _ => .bind (.ofExcept _) fun _ =>
    .bind (.finalState _) fun _ => .bind (.unchanged _) fun _ => .ite .success (.bind .dry fun _ => .ite .success (.ite
      (.bind (.runCommand _) fun _ => .bind (framed_submodules _) fun _ => .success)
      (.bind (.run _ _ _ _ _ _ _ _) fun _ => .ite (.failure _)
        (.bind (.runCommand _) fun _ => .bind (framed_submodules _) fun _ => .success)))))

theorem framed_repo (a : RepoArgs) (check : Bool) : Framed (repo a check) := by
  refine .operation (.bind (.ofExcept _) fun _ => .bind .call fun s => ?_)
  cases s with
  | none => exact .bind (.initialState _) fun _ => .returned (framed_repoSettle _ _ _)
  | some s =>
    refine .ite (.bind .call fun g => ?_) (.returned (.failure _))
    cases g with
    | none => exact .returned (.failure _)
    | some g => exact .ite (.returned (.failure _)) (.bind (.run _ _ _ _ _ _ _ _) fun _ => .bind (.initialState _) fun _ => .returned (framed_repoSettle _ _ _))

theorem framed_usermodIf (key option : Str) (v : Option Str) (user : Str) : Framed (usermodIf key option v user) := by
  refine .whenChanged _ ?_
  split
  · exact .pure _
  · exact .runCommand _

theorem framed_userActions (a : UserArgs) (t : UserTarget) : Framed (userActions a t) :=
  .bind (.changed _) fun _ => .ite (.ite (.runCommand _) (.runCommand _)) (.ite
    (.bind (framed_usermodIf _ _ _ _) fun _ => .bind (framed_usermodIf _ _ _ _) fun _ => .bind (framed_usermodIf _ _ _ _) fun _ =>
      .bind (framed_usermodIf _ _ _ _) fun _ => .bind (framed_usermodIf _ _ _ _) fun _ => .bind (framed_usermodIf _ _ _ _) fun _ => framed_usermodIf _ _ _ _)
    (.pure _))

theorem framed_groupActions (name : Str) (present : Bool) (target : Option Int) (system : Bool) : Framed (groupActions name present target system) := by
  refine .bind (.changed _) fun _ => .ite (.ite (.runCommand _) (.runCommand _)) (.ite (.whenChanged _ ?_) (.pure _))
  split
  · exact .pure _
  · exact .runCommand _

theorem framed_uploadDirs (mode owner group : Option Str) : ∀ l, Framed (uploadDirs mode owner group l)
  | [] => .pure _
  | _ :: l => .bind (framed_directory _ _ _ _ _ _ _) fun _ => .bind (.addNestedResult _ _) fun _ => framed_uploadDirs mode owner group l

theorem framed_upload (sha512 : Bytes → Bytes) (src : Str) (read : Except Exn Bytes) (dest : Str) (mode owner group : Option Str) (check : Bool) :
    Framed (upload sha512 src read dest mode owner group check) :=
  .operation (.bind (.ofExcept _) fun _ => .bind (.ofExcept _) fun _ => .returned (framed_saveContent _ _ _ _ _ _))

theorem framed_uploadFiles (sha512 : Bytes → Bytes) (mode owner group : Option Str) : ∀ l, Framed (uploadFiles sha512 mode owner group l)
  | [] => .pure _
  | (t, df) :: l => by
    unfold uploadFiles
    split
    · exact .bind (framed_upload _ _ _ _ _ _ _ _) fun _ => .bind (.addNestedResult _ _) fun _ => framed_uploadFiles sha512 mode owner group l
    · exact framed_uploadFiles sha512 mode owner group l

theorem framed_operation {opts : List Str} {op : Op OpResult} (hop : Operation opts op) : Framed op := by
  cases hop with
  | directory => exact framed_directory _ _ _ _ _ _ _
  | file => exact framed_file _ _ _ _ _ _ _
  | link => exact framed_link _ _ _ _ _ _ _
  | uploadContent => exact .operation (.bind (.ofExcept _) fun _ => .returned (framed_saveContent _ _ _ _ _ _))
  | upload => exact framed_upload _ _ _ _ _ _ _ _
  | uploadDir =>
    exact .operation (.bind (.setNested _) fun _ => .bind (.ofExcept _) fun _ => .ite (.raise _) (.bind (framed_uploadDirs _ _ _ _) fun _ =>
      .bind (framed_uploadFiles _ _ _ _ _) fun _ => .returned .success))
  | templateContent => exact .operation (.bind (.ofExcept _) fun _ => .bind (.ofExcept _) fun _ => .returned (framed_saveContent _ _ _ _ _ _))
  | template =>
    exact .operation (.bind (.ofExcept _) fun _ => .bind (.ofExcept _) fun _ => .bind (.ofExcept _) fun _ => .returned (framed_saveContent _ _ _ _ _ _))
  | line =>
    refine .operation (.bind (.ofExcept _) fun _ => .returned (.withDefaults fun attr => .bind (.finalState _) fun _ => .bind .call fun s => ?_))
    cases s with
    | none => exact framed_lineSettle _ _ _ _ _ _ _ _
    | some s => exact .ite (.failure _) (.bind .call fun _ => framed_lineSettle _ _ _ _ _ _ _ _)
  | user =>
    exact .operation (.bind (.orDefault _ (.bind .call fun _ => .pure _)) fun _ => .bind (.initialState _) fun _ => .bind (.finalState _) fun _ =>
      .returned (.settle (.pure _) (framed_userActions _ _)))
  | group =>
    exact .operation (.bind (.orDefault _ (.bind .call fun _ => .pure _)) fun _ => .bind (.initialState _) fun _ => .bind (.finalState _) fun _ =>
      .returned (.settle (.pure _) (framed_groupActions _ _ _ _)))
  | apt => exact framed_packageWith _ (framed_apt _) _ _ _
  | pacman => exact framed_packageWith _ (framed_pacman _) _ _ _
  | portage => exact framed_packageWith _ (framed_portage _ _) _ _ _
  | package => exact framed_package _ _ _ _
  | daemonReload =>
    exact .operation (.bind (.initialState _) fun _ => .bind (.finalState _) fun _ => .bind (.unlessDry (.runCommand _)) fun _ => .returned .success)
  | systemdService => exact framed_systemdService _ _ _ _ _
  | service => exact framed_service _ _ _ _
  | repo => exact framed_repo _ _

/-! ### Scripts -/

theorem framed_oblivious {m : Op α} (h : Oblivious m) : Framed m := by
  intro e b b' u u' top ht s s' hs
  obtain ⟨code, h1, h2⟩ := h e s s' (by
    cases top with
    | nil => exact absurd rfl ht
    | cons x top => rw [hs.stack, hs.stack']; rfl) hs.op
  rw [h1, h2]
  exact (Par.same (L := fun x y => x = y) (fun _ => rfl) code).bind fun x y hxy => .ret ⟨hxy, hs⟩

theorem framed_localScript {body : Op α} (h : Framed body) : Framed (localScript body) := by
  intro e b b' u u' top ht s s' hs
  refine (Framed.withDefaults (fun _ => h) e b b' [] [] [{}] (List.cons_ne_nil _ _) { s with stack := [{}] } { s' with stack := [{}] }
    ⟨rfl, rfl, hs.op, hs.shown⟩).bind fun x y hxy => ?_
  obtain ⟨x, sx⟩ := x
  obtain ⟨y, sy⟩ := y
  exact .ret ⟨hxy.1, hs.stack, hs.stack', hxy.2.op, hxy.2.shown⟩

theorem framed_script {m : Op α} (h : PureScript m) : Framed m := by
  induction h with
  | look m h => exact framed_oblivious h
  | operation opts op h => exact framed_operation h
  | andThen m next _ _ h h' => exact .bind h h'
  | attempt m handler _ _ h h' => exact .tryCatch h h'
  | defaults s body _ h => exact .withDefaults h
  | script body _ h => exact framed_localScript h

/-- At two moments with the same settings. -/
theorem framed_moments {m : Op α} (h : Framed m) {env : Env} {st st' : St} (hs : SameSettings st st') :
    Par (fun x y => x.1 = y.1 ∧ x.2.stack = st.stack ∧ y.2.stack = st'.stack ∧ x.2.op = y.2.op
      ∧ ∃ new, x.2.shown = st.shown ++ new ∧ y.2.shown = st'.shown ++ new) (m env st) (m env st') := by
  obtain ⟨s, h1, h2⟩ := hs.stack
  have h1' : st.stack = [s] ++ st.stack.tail := by
    cases hst : st.stack with
    | nil => rw [hst] at h1; cases h1
    | cons a l => rw [hst] at h1; cases h1; rfl
  have h2' : st'.stack = [s] ++ st'.stack.tail := by
    cases hst : st'.stack with
    | nil => rw [hst] at h2; cases h2
    | cons a l => rw [hst] at h2; cases h2; rfl
  have hp := h env st.shown st'.shown st.stack.tail st'.stack.tail [s] (List.cons_ne_nil _ _) st st' ⟨h1', h2', hs.op, [], by simp, by simp⟩
  exact hp.mono fun x y hxy => ⟨hxy.1, by rw [hxy.2.stack, ← h1'], by rw [hxy.2.stack', ← h2'], hxy.2.op, hxy.2.shown⟩

/-- The operation in progress is not touched by other operations. -/
theorem keeps_op {opts : List Str} {op : Op OpResult} (hop : Operation opts op) : Keeps (·.op) op := by
  have hd : ∀ {check : Bool} {f : Op (Option OpResult)}, Keeps (·.op) (operation check f) := fun {_ _} _ _ _ _ _ h => operation_kept h
  cases hop with
  | package =>
    refine .bind (keeps_findCommand _) fun m => ?_
    cases m with
    | none => exact hd
    | some m => exact hd
  | service =>
    intro env st t r st' h
    rcases execution_bind.mp h with ⟨e, _, h⟩ | ⟨t1, t2, a, st1, h1, h2, _⟩
    · exact keeps_findCommand _ _ _ _ _ _ h
    · refine Eq.trans ?_ (keeps_findCommand (g := (·.op)) _ _ _ _ _ _ h1)
      cases a with
      | none => exact operation_kept h2
      | some m =>
        obtain ⟨k, hm⟩ := findCommand_mem h1
        simp only [serviceManagers, List.mem_cons, Prod.mk.injEq, List.not_mem_nil, or_false] at hm
        obtain ⟨_, rfl⟩ := hm
        exact operation_kept h2
  | _ => exact hd

theorem Keeps.withDefaults {s : Settings} {body : Settings → Op α} (h : ∀ a, Keeps (·.op) (body a)) : Keeps (·.op) (withDefaults s body) := by
  refine .bind (.ofExcept _) fun _ => .bind (.of_ret fun _ _ => ⟨_, _, rfl, rfl⟩) fun _ => .bind .currentDefaults fun _ => .bind (keeps_resolveDefaults _) fun _ =>
    .bind (.of_ret fun _ _ => ⟨_, _, rfl, rfl⟩) fun _ => ?_
  intro env st t r st' he
  obtain ⟨st1, h1, rfl⟩ := execution_finally.mp he
  have := h _ _ _ _ _ _ h1
  exact this

theorem keeps_script {m : Op α} (h : PureScript m) : Keeps (·.op) m := by
  induction h with
  | look m h =>
    intro env st t r st' he
    obtain ⟨code, h1, -⟩ := h env st st rfl rfl
    unfold Execution at he
    rw [h1] at he
    obtain ⟨t1, t2, x, _, h2, _⟩ := runs_bind.mp he
    cases h2
    rfl
  | operation opts op h => exact keeps_op h
  | andThen m next _ _ h h' => exact .bind h h'
  | attempt m handler _ _ h h' => exact .tryCatch h h'
  | defaults s body _ h => exact .withDefaults h
  | script body _ h =>
    intro env st t r st' he
    obtain ⟨st1, h1, rfl⟩ := execution_localScript.mp he
    have := Keeps.withDefaults (fun _ => h) _ _ _ _ _ h1
    exact this

end Verif.Ops
