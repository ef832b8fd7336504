/-
Programs that differ in what they write only.
-/
import Verif.Ops.SecrecySpec
import Verif.Ops.ReportLemmas

namespace Verif.Ops

open Script
open Client (Prog)
open Wire (Packet)

variable {α β : Type}

/-- The same program, but for the content of files that are written. -/
inductive Masks : Prog α → Prog α → Prop where
  | ret (a : α) : Masks (.ret a) (.ret a)
  | req {p p' : Packet} {k k' : Except Exn Packet → Prog α} : SameRequest p p' → (∀ r, Masks (k r) (k' r)) → Masks (.req p k) (.req p' k')

theorem Masks.refl : ∀ m : Prog α, Masks m m
  | .ret a => .ret a
  | .req p k => .req (.same p) fun r => Masks.refl (k r)

theorem Masks.bind {m m' : Prog α} {f f' : α → Prog β} (h : Masks m m') (hf : ∀ a, Masks (f a) (f' a)) : Masks (m.bind f) (m'.bind f') := by
  induction h with
  | ret a => exact hf a
  | req hp _ ih => exact .req hp ih

theorem Masks.runs {m m' : Prog α} (h : Masks m m') {t : Trace} {a : α} (hr : Prog.Runs m t a) : ∃ t', Prog.Runs m' t' a ∧ SameButContents t t' := by
  induction h generalizing t with
  | ret b =>
    obtain ⟨rfl, rfl⟩ := runs_ret.mp hr
    exact ⟨[], .ret _, .nil⟩
  | req hp _ ih =>
    cases hr with
    | req _ _ r t _ hr =>
      obtain ⟨t', h1, h2⟩ := ih r hr
      exact ⟨_, .req _ _ _ _ _ h1, .cons _ hp h2⟩

/-- The same for code in scripts. -/
def Veils (env : Env) (m m' : Op α) : Prop := ∀ st, Masks (m env st) (m' env st)

variable {env : Env}

theorem Veils.refl (m : Op α) : Veils env m m := fun _ => .refl _

theorem Veils.bind {m m' : Op α} {f f' : α → Op β} (h : Veils env m m') (hf : ∀ a, Veils env (f a) (f' a)) : Veils env (m >>= f) (m' >>= f') := by
  intro st
  refine (h st).bind ?_
  rintro ⟨r, st'⟩
  cases r with
  | ok a => exact hf a st'
  | error e => exact .ret _

theorem Veils.after {m : Op α} {f f' : α → Op β} (hf : ∀ a, Veils env (f a) (f' a)) : Veils env (m >>= f) (m >>= f') := .bind (.refl m) hf

theorem Veils.known {x x' : Except Exn α} {a a' : α} (hx : x = .ok a) (hx' : x' = .ok a') {f f' : α → Op β} (h : Veils env (f a) (f' a')) :
    Veils env (Op.ofExcept x >>= f) (Op.ofExcept x' >>= f') := by
  subst hx hx'
  exact h

theorem Veils.ite {c : Prop} [Decidable c] {a b a' b' : Op α} (ha : Veils env a a') (hb : Veils env b b') :
    Veils env (if c then a else b) (if c then a' else b') := by
  split <;> assumption

theorem Veils.withDefaults {s : Settings} {body body' : Settings → Op α} (h : ∀ a, Veils env (body a) (body' a)) :
    Veils env (withDefaults s body) (withDefaults s body') := by
  unfold Script.withDefaults
  exact .after fun _ => .after fun _ => .after fun _ => .after fun _ => .after fun _ st => (h _ st).bind fun _ => .refl _

theorem Veils.operation {check : Bool} {f f' : Op (Option OpResult)} (h : Veils env f f') : Veils env (operation check f) (operation check f') :=
  fun _ => (h _).bind fun _ => .refl _

theorem Veils.returned {m m' : Op OpResult} (h : Veils env m m') : Veils env (returned m) (returned m') := .bind h fun _ => .refl _

theorem Veils.settle {b b' a a' : Op Unit} (hb : Veils env b b') (ha : Veils env a a') : Veils env (settle b a) (settle b' a') :=
  .after fun _ => .ite (.refl _) (.bind hb fun _ => .bind (.after fun _ => .ite (.refl _) ha) fun _ => .refl _)

theorem veils_saveDiff (hd : env.diff = false) (dest : Str) (c c' : Bytes) : Veils env (saveDiff dest c) (saveDiff dest c') := by
  intro st
  have : ∀ c, saveDiff dest c env st = .ret (.ok (), st) := by
    intro c
    show (if env.diff = true then _ else Op.pure () : Op Unit) env st = _
    rw [hd]
    rfl
  rw [this, this]
  exact .ret _

theorem veils_saveActions (attr : Settings) (dest : Str) (c c' : Bytes) : Veils env (saveActions attr c dest) (saveActions attr c' dest) :=
  .after fun _ => .ite (fun _ => .req (.upload _ _ _ _ _ _) fun _ => .refl _) (.refl _)

theorem veils_saveBody (hd : env.diff = false) {sha512 sha512' : Bytes → Bytes} {c c' : Bytes} (h : sha512 c = sha512' c') (dest : Str) (attr : Settings) :
    Veils env (saveBody sha512 c dest attr) (saveBody sha512' c' dest attr) := by
  unfold saveBody
  rw [h]
  refine .after fun _ => .after fun s => ?_
  cases s with
  | none => exact .after fun _ => .settle (veils_saveDiff hd _ _ _) (veils_saveActions _ _ _ _)
  | some s => exact .ite (.refl _) (.after fun _ => .settle (veils_saveDiff hd _ _ _) (veils_saveActions _ _ _ _))

theorem veils_saveContent (hd : env.diff = false) {sha512 sha512' : Bytes → Bytes} {content content' : Content} {c c' : Bytes}
    (hc : content.encode = .ok c) (hc' : content'.encode = .ok c') (h : sha512 c = sha512' c') (dest : Str) (mode owner group : Option Str) :
    Veils env (saveContent sha512 content dest mode owner group) (saveContent sha512' content' dest mode owner group) :=
  .known hc hc' (.withDefaults fun _ => veils_saveBody hd h _ _)

theorem veils_upload (hd : env.diff = false) {sha512 sha512' : Bytes → Bytes} {c c' : Bytes} (h : sha512 c = sha512' c') (src dest : Str)
    (mode owner group : Option Str) (check : Bool) :
    Veils env (upload sha512 src (.ok c) dest mode owner group check) (upload sha512' src (.ok c') dest mode owner group check) :=
  .operation (.after fun _ => .known rfl rfl (.returned (veils_saveContent hd rfl rfl h _ _ _ _)))

theorem veils_upload_error (sha512 sha512' : Bytes → Bytes) (e : Exn) (src dest : Str) (mode owner group : Option Str) (check : Bool) :
    Veils env (upload sha512 src (.error e) dest mode owner group check) (upload sha512' src (.error e) dest mode owner group check) :=
  .operation (.after fun _ => .refl (Op.raise e))

/-! ### upload_dir -/

/-- Pairs of files with the same checksum. -/
inductive SameFiles (sha512 sha512' : Bytes → Bytes) : List (Tree × Str) → List (Tree × Str) → Prop where
  | nil : SameFiles sha512 sha512' [] []
  | cons {t t' : Tree} (dest : Str) {r r' : List (Tree × Str)} : SameTree sha512 sha512' t t' → SameFiles sha512 sha512' r r' →
      SameFiles sha512 sha512' ((t, dest) :: r) ((t', dest) :: r')

variable {sha512 sha512' : Bytes → Bytes}

theorem SameFiles.append {a a' b b' : List (Tree × Str)} (h : SameFiles sha512 sha512' a a') (h' : SameFiles sha512 sha512' b b') :
    SameFiles sha512 sha512' (a ++ b) (a' ++ b') := by
  induction h with
  | nil => exact h'
  | cons d h _ ih => exact .cons d h ih

theorem SameTree.isDir {t t' : Tree} (h : SameTree sha512 sha512' t t') : t.isDir = t'.isDir := by cases h <;> rfl

theorem veils_uploadFiles (hd : env.diff = false) {l l' : List (Tree × Str)} (h : SameFiles sha512 sha512' l l') (mode owner group : Option Str) :
    Veils env (uploadFiles sha512 mode owner group l) (uploadFiles sha512' mode owner group l') := by
  induction h with
  | nil => exact .refl _
  | cons d h _ ih =>
    cases h with
    | file c c' hc => exact .bind (veils_upload hd hc _ _ _ _ _ _) fun _ => .after fun _ => ih
    | unreadable e => exact .bind (veils_upload_error _ _ _ _ _ _ _ _ _) fun _ => .after fun _ => ih
    | fileLink c c' hc => exact .bind (veils_upload hd hc _ _ _ _ _ _) fun _ => .after fun _ => ih
    | unreadableLink e => exact .bind (veils_upload_error _ _ _ _ _ _ _ _ _) fun _ => .after fun _ => ih
    | dir => exact ih
    | dirLink => exact ih
    | special => exact ih

/-- What is made of one item of the walk. -/
structure SameItem (sha512 sha512' : Bytes → Bytes) (i i' : WalkItem) : Prop where
  rel : i.rel = i'.rel
  subdirs : i.subdirs = i'.subdirs
  subfiles : ∀ g : Str → Str, SameFiles sha512 sha512' (i.subfiles.map fun f => (f.2, g f.1)) (i'.subfiles.map fun f => (f.2, g f.1))

inductive SameItems (sha512 sha512' : Bytes → Bytes) : List WalkItem → List WalkItem → Prop where
  | nil : SameItems sha512 sha512' [] []
  | cons {i i' : WalkItem} {r r' : List WalkItem} : SameItem sha512 sha512' i i' → SameItems sha512 sha512' r r' → SameItems sha512 sha512' (i :: r) (i' :: r')

theorem SameItems.append {a a' b b' : List WalkItem} (h : SameItems sha512 sha512' a a') (h' : SameItems sha512 sha512' b b') :
    SameItems sha512 sha512' (a ++ b) (a' ++ b') := by
  induction h with
  | nil => exact h'
  | cons h _ ih => exact .cons h ih

theorem sameItem (rel : List Str) : ∀ {l l' : List (Str × Tree)}, SameEntries sha512 sha512' l l' → SameItem sha512 sha512' (walkItem rel l) (walkItem rel l')
  | _, _, .nil => ⟨rfl, rfl, fun _ => .nil⟩
  | _, _, .cons name t t' r r' h hr => by
    obtain ⟨_, h2, h3⟩ := sameItem rel hr
    simp only [walkItem] at h2 h3 ⊢
    refine ⟨rfl, ?_, fun g => ?_⟩
    · simp only [List.filter_cons, ← h.isDir]
      split
      · simp only [List.map_cons, h2]
      · exact h2
    · simp only [List.filter_cons, ← h.isDir]
      split
      · exact .cons _ h (h3 g)
      · exact h3 g

mutual
theorem sameWalk (rel : List Str) : ∀ {t t' : Tree}, SameTree sha512 sha512' t t' → SameItems sha512 sha512' (walkTree rel t) (walkTree rel t')
  | _, _, .dir _ _ h => by
    simp only [walkTree]
    exact .cons (sameItem rel h) (sameWalkEntries rel h)
  | _, _, .file .. => .nil
  | _, _, .unreadable .. => .nil
  | _, _, .fileLink .. => .nil
  | _, _, .unreadableLink .. => .nil
  | _, _, .dirLink => .nil
  | _, _, .special => .nil
theorem sameWalkEntries (rel : List Str) : ∀ {l l' : List (Str × Tree)}, SameEntries sha512 sha512' l l' →
    SameItems sha512 sha512' (walkEntries rel l) (walkEntries rel l')
  | _, _, .nil => .nil
  | _, _, .cons name t t' r r' h hr => by
    simp only [walkEntries]
    exact (sameWalk _ h).append (sameWalkEntries rel hr)
end

theorem sameDirs {l l' : List WalkItem} (h : SameItems sha512 sha512' l l') (dest : Str) : destDirs dest l = destDirs dest l' := by
  unfold destDirs
  congr 1
  induction h with
  | nil => rfl
  | cons h _ ih => rw [List.flatMap_cons, List.flatMap_cons, ih, h.rel, h.subdirs]

theorem sameFiles {l l' : List WalkItem} (h : SameItems sha512 sha512' l l') (dest : Str) :
    SameFiles sha512 sha512' (destFiles dest l) (destFiles dest l') := by
  unfold destFiles
  induction h with
  | nil => exact .nil
  | cons h _ ih =>
    rw [List.flatMap_cons, List.flatMap_cons]
    refine .append ?_ ih
    rw [← h.rel]
    exact h.subfiles _

theorem veils_uploadDir (hd : env.diff = false) {tree tree' : Tree} (h : SameTree sha512 sha512' tree tree') (src dest : Str)
    (dirMode fileMode owner group : Option Str) (check : Bool) :
    Veils env (uploadDir sha512 src tree dest dirMode fileMode owner group check) (uploadDir sha512' src tree' dest dirMode fileMode owner group check) := by
  refine .operation (.after fun _ => .after fun _ => ?_)
  rw [← h.isDir]
  refine .ite (.refl _) ?_
  dsimp only
  rw [← sameDirs (sameWalk [] h)]
  exact .after fun _ => .bind (veils_uploadFiles hd (sameFiles (sameWalk [] h) _) _ _ _) fun _ => .refl _

/-! ### All operations -/

theorem rendered {V : Type} {templ : List (Str × V) → Rendered} {what : Str} {vars : List (Str × V)} {context : Option (List (Str × V))} {host : V}
    {text : Str} {bytes : Bytes} (h1 : templ (templateVars vars context host) = .text text) (h2 : Py.encodeUtf8 text = some bytes) :
    renderTemplate templ what vars context host = .ok bytes := by
  unfold renderTemplate
  rw [h1]
  simp only [Content.encode, h2]

theorem veils_op (hd : env.diff = false) {op op' : Op OpResult} (h : SameButContent op op') : Veils env op op' := by
  cases h with
  | same => exact .refl _
  | uploadContent _ _ _ _ _ _ _ _ _ _ _ h1 h2 h3 => exact .operation (.after fun _ => .returned (veils_saveContent hd h1 h2 h3 _ _ _ _))
  | upload _ _ _ _ _ _ _ _ _ _ h => exact veils_upload hd h _ _ _ _ _ _
  | uploadDir _ _ _ _ _ _ _ _ _ _ _ h => exact veils_uploadDir hd h _ _ _ _ _ _ _
  | templateContent _ _ _ _ _ _ _ _ _ _ _ _ _ _ _ _ _ _ _ h1 h2 h3 h4 h5 =>
    exact .operation (.after fun _ => .known (rendered h1 h2) (rendered h3 h4) (.returned (veils_saveContent hd rfl rfl h5 _ _ _ _)))
  | template _ _ _ _ _ _ _ _ _ _ _ _ _ _ _ _ _ _ _ _ h1 h2 h3 h4 h5 =>
    exact .operation (.after fun _ => .known rfl rfl (.known (rendered h1 h2) (rendered h3 h4) (.returned (veils_saveContent hd rfl rfl h5 _ _ _ _))))

theorem veils_deploy (hd : env.diff = false) {ops ops' : List (Op OpResult)} (h : SameScript ops ops') : Veils env (deploy ops) (deploy ops') := by
  induction h with
  | nil => exact .refl _
  | cons h _ ih => exact .bind (veils_op hd h) fun _ => .bind ih fun _ => .refl _

/-! ### What is shown has a given form -/

/-- The states that are known and the summaries that have been added have the form. -/
structure Formed (Q : Dict → Prop) (old : List Report) (st : St) : Prop where
  initial : ∀ i, st.op.initial = some i → Q i
  final : ∀ f, st.op.final = some f → Q f
  shown : ∃ new, st.shown = old ++ new ∧ ∀ p ∈ new, Q p.result.initial ∧ Q p.result.final

/-- All that is shown has the form. -/
def Forms (Q : Dict → Prop) (m : Op α) : Prop := ∀ old env st t r st', Execution m env st t r st' → Formed Q old st → Formed Q old st'

variable {Q : Dict → Prop}

theorem Forms.keeps {m : Op α} (h : Keeps id m) : Forms Q m := by
  intro old env st t r st' he hf
  have := h _ _ _ _ _ he
  simp only [id_eq] at this
  subst this
  exact hf

theorem Forms.bind {m : Op α} {f : α → Op β} (hm : Forms Q m) (hf : ∀ a, Forms Q (f a)) : Forms Q (m >>= f) := by
  intro old env st t r st' h h0
  rcases execution_bind.mp h with ⟨e, _, h⟩ | ⟨t1, t2, a, st1, h1, h2, _⟩
  · exact hm _ _ _ _ _ _ h h0
  · exact hf a _ _ _ _ _ _ h2 (hm _ _ _ _ _ _ h1 h0)

theorem Forms.ite {c : Prop} [Decidable c] {a b : Op α} (ha : Forms Q a) (hb : Forms Q b) : Forms Q (if c then a else b) := by
  split <;> assumption

theorem Formed.show {old : List Report} {st : St} (h : Formed Q old st) {r : OpResult} (hi : Q r.initial) (hf : Q r.final) : Formed Q old (st.show r) := by
  unfold St.show
  split
  · exact h
  · obtain ⟨new, h1, h2⟩ := h.shown
    refine ⟨h.initial, h.final, new ++ [⟨r, st.op.diffs⟩], by simp [h1], fun p hp => ?_⟩
    rcases List.mem_append.mp hp with hp | hp
    · exact h2 p hp
    · cases List.mem_singleton.mp hp
      exact ⟨hi, hf⟩

theorem Forms.initialState {d : Dict} (hd : Q d) : Forms Q (initialState d) := by
  intro old env st t r st' he h
  unfold Execution Script.initialState at he
  split at he
  · obtain ⟨_, h1⟩ := runs_ret.mp he; cases h1; exact h
  · split at he
    · obtain ⟨_, h1⟩ := runs_ret.mp he; cases h1; exact h
    · obtain ⟨_, h1⟩ := runs_ret.mp he
      cases h1
      exact ⟨fun i hi => by cases hi; exact hd, h.final, h.shown⟩

theorem Forms.finalState {d : Dict} (hd : Q d) : Forms Q (finalState d) := by
  intro old env st t r st' he h
  unfold Execution Script.finalState at he
  split at he
  · obtain ⟨_, h1⟩ := runs_ret.mp he; cases h1; exact h
  · split at he
    · obtain ⟨_, h1⟩ := runs_ret.mp he; cases h1; exact h
    · obtain ⟨_, h1⟩ := runs_ret.mp he
      cases h1
      exact ⟨h.initial, fun i hi => by cases hi; exact hd, h.shown⟩

theorem Forms.unchanged (b : Bool) : Forms Q (unchanged b) := by
  intro old env st t r st' he h
  unfold Execution Script.unchanged at he
  split at he
  · split at he
    · obtain ⟨_, h1⟩ := runs_ret.mp he; cases h1; exact h
    · obtain ⟨_, h1⟩ := runs_ret.mp he; cases h1; exact h
  · obtain ⟨_, h1⟩ := runs_ret.mp he; cases h1; exact h

theorem Forms.opDiff (f : Str) (a b : Option Bytes) : Forms Q (opDiff f a b) := by
  intro old env st t r st' he h
  unfold Execution Script.opDiff at he
  split at he
  · obtain ⟨_, h1⟩ := runs_ret.mp he; cases h1; exact h
  · split at he
    · obtain ⟨_, h1⟩ := runs_ret.mp he; cases h1; exact h
    · obtain ⟨_, h1⟩ := runs_ret.mp he; cases h1; exact ⟨h.initial, h.final, h.shown⟩

theorem Forms.success : Forms Q success := by
  intro old env st t r st' he h
  rcases success_cases env st with ⟨e, hs⟩ | ⟨i, f, hi, hf, hs⟩
  · obtain ⟨_, rfl, rfl⟩ := (execution_ret hs).mp he
    exact h
  · obtain ⟨_, rfl, rfl⟩ := (execution_ret hs).mp he
    exact h.show (h.initial _ hi) (h.final _ hf)

theorem Formed.failed {old : List Report} {st : St} (h : Formed Q old st) (h0 : Q []) (m : Option Str) : Formed Q old (st.show (failed st m)) := by
  refine h.show ?_ ?_
  · show Q (st.op.initial.getD [])
    cases hi : st.op.initial with
    | none => exact h0
    | some i => exact h.initial i hi
  · show Q (st.op.final.getD [])
    cases hi : st.op.final with
    | none => exact h0
    | some i => exact h.final i hi

theorem Forms.failure (h0 : Q []) (m : Str) : Forms Q (failure m) := by
  intro old env st t r st' he h
  obtain ⟨_, rfl, rfl⟩ := (execution_ret rfl).mp he
  exact h.failed h0 _

theorem Forms.withDefaults {s : Settings} {body : Settings → Op α} (h : ∀ a, Forms Q (body a)) : Forms Q (withDefaults s body) := by
  unfold Script.withDefaults
  refine .bind (.keeps (.ofExcept _)) fun _ => .bind (.keeps (.of_ret fun _ st => ⟨_, st, rfl, rfl⟩)) fun _ => .bind (.keeps .currentDefaults) fun _ =>
    .bind (.keeps (keeps_resolveDefaults _)) fun _ => .bind ?_ fun _ => ?_
  · intro old env st t r st' he hf
    obtain ⟨_, _, rfl⟩ := (execution_ret rfl).mp he
    exact ⟨hf.initial, hf.final, hf.shown⟩
  · intro old env st t r st' he hf
    obtain ⟨st1, h1, rfl⟩ := execution_finally.mp he
    have h2 := h _ _ _ _ _ _ _ h1 hf
    exact ⟨h2.initial, h2.final, h2.shown⟩

theorem Forms.line (h0 : Q []) (h1 : ∀ b, Q [(p!"line_present", .bool b)]) (path text : Str) (present : Bool) (regex : Option Regex) (ws : Bool) (backup : Backup) :
    Forms Q (do
      Op.ofExcept (checkAbsolutePath path p!"path")
      returned (Script.withDefaults {} (lineBody path text present regex ws backup))) := by
  refine .bind (.keeps (.ofExcept _)) fun _ => .bind (.withDefaults fun attr => ?_) fun _ => .keeps (.pure' _)
  have hs : ∀ orig, Forms Q (lineSettle path text present regex ws backup attr orig) := fun orig =>
    .bind (.initialState (h1 _)) fun _ => .bind (.unchanged _) fun _ => .ite .success (.bind (.keeps (.ofExcept _)) fun _ =>
      .bind (.bind (.keeps .diffWanted) fun _ => .ite (.opDiff _ _ _) (.keeps (.pure _))) fun _ =>
      .bind (.keeps (.unlessDry (keeps_lineActions _ _ _ _ _))) fun _ => .success)
  refine .bind (.finalState (h1 _)) fun _ => .bind (.keeps (.call _)) fun s => ?_
  cases s with
  | none => exact hs _
  | some s => exact .ite (.failure h0 _) (.bind (.keeps (.call _)) fun _ => hs _)

end Verif.Ops
