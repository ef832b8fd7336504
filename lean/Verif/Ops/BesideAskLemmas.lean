/-
The requests of scripts about files.
-/
import Verif.Ops.BesideCallLemmas

namespace Verif.Ops

open Script Remote
open Client (Prog direct)
open Wire (Packet)

section
variable {ts : List Task} {env : Env} {st0 : St} {α β : Type}

/-- The defaults of the script, at any moment. -/
structure Tidy (env : Env) (st0 : St) (s : Settings) : Prop where
  plain : PlainSettings s
  cwd : ∀ d, s.cwd = some d → WorkDir env st0 d

abbrev AskOp (ts : List Task) (env : Env) (st0 : St) (m : Op α) (Q : α → Prop) : Prop := Triple PlainNames (Tidy env st0) (Asking ts env st0) env m Q

theorem ask_currentDefaults : AskOp ts env st0 currentDefaults (Tidy env st0) := by
  intro st t r st' hj he _
  unfold Script.currentDefaults at he
  rcases hs : st.stack with _ | ⟨s0, rest⟩
  · simp only [Execution, hs] at he
    replace he := runs_ret.mp he
    obtain ⟨rfl, he⟩ := he
    simp only [Prod.mk.injEq] at he
    obtain ⟨rfl, rfl⟩ := he
    exact ⟨by simp, hj, fun x hx => by cases hx⟩
  · simp only [Execution, hs] at he
    replace he := runs_ret.mp he
    obtain ⟨rfl, he⟩ := he
    simp only [Prod.mk.injEq] at he
    obtain ⟨rfl, rfl⟩ := he
    refine ⟨by simp, hj, fun x hx => ?_⟩
    cases hx
    exact hj _ (by rw [hs]; simp)

theorem ask_run {t : Task} (ht : t ∈ ts) {tree : Bool} (htree : tree = true → t.wish = .absent .dir) {command : List Str} (hc : Command t.names tree command) :
    AskOp ts env st0 (runCommand command) fun _ => True := by
  refine .bind (Q := fun _ => True) (.bind ask_currentDefaults fun s hs => .one (.run t ht tree htree _ hc _ _ _ _ _ _ ?_) fun _ _ _ _ => trivial) fun _ _ => .pure' trivial
  intro d hd
  exact hs.cwd d (by cases h : s.cwd <;> simp_all [pick])

theorem ask_changed (k : Str) : AskOp ts env st0 (changed k) fun _ => True := .of_sends (.changed _) (Keeps.changed _)
theorem ask_changedEither (a b : Str) : AskOp ts env st0 (changedEither a b) fun _ => True := .of_sends (.changedEither _ _) (Keeps.changedEither _ _)

theorem ask_whenChanged {k : Str} {m : Op Unit} (h : AskOp ts env st0 m fun _ => True) : AskOp ts env st0 (whenChanged k m) fun _ => True :=
  .bind (ask_changed _) fun _ _ => .ite (fun _ => h) fun _ => .pure trivial

theorem ask_whenEither {a b : Str} {m : Op Unit} (h : AskOp ts env st0 m fun _ => True) : AskOp ts env st0 (whenEither a b m) fun _ => True :=
  .bind (ask_changedEither _ _) fun _ _ => .ite (fun _ => h) fun _ => .pure trivial

theorem ask_success : AskOp ts env st0 success fun _ => True := .of_sends .success balanced_success

theorem ask_settle {b m : Op Unit} (hb : AskOp ts env st0 b fun _ => True) (hm : AskOp ts env st0 m fun _ => True) : AskOp ts env st0 (settle b m) fun _ => True :=
  .seq (.unchanged _) (balanced_unchanged _) fun _ => .ite (fun _ => ask_success) fun _ => .bind hb fun _ _ =>
    .bind (Q := fun _ => True) (.seq .dry (.of_ret fun _ _ => ⟨_, _, rfl, rfl⟩) fun _ => .ite (fun _ => .pure trivial) fun _ => hm) fun _ _ => ask_success

theorem ask_mapUser (x : Option Str) : AskOp ts env st0 (mapOpt Connection.resolveUser x) fun v => ∀ y, v = some y → y.head? ≠ some 45 := by
  cases x with
  | none => exact .pure (by simp)
  | some x =>
    refine .bind (Q := fun v => v.head? ≠ some 45) (.one (.user _) fun r x hr hx => ?_) fun v hv => .pure' fun y hy => by cases hy; exact hv
    split at hx
    · cases hx
    · cases hx; exact hr _ _ (.inl rfl) rfl
    · cases hx

theorem ask_mapGroup (x : Option Str) : AskOp ts env st0 (mapOpt Connection.resolveGroup x) fun v => ∀ y, v = some y → y.head? ≠ some 45 := by
  cases x with
  | none => exact .pure (by simp)
  | some x =>
    refine .bind (Q := fun v => v.head? ≠ some 45) (.one (.group _) fun r x hr hx => ?_) fun v hv => .pure' fun y hy => by cases hy; exact hv
    split at hx
    · cases hx
    · cases hx; exact hr _ _ (.inr rfl) rfl
    · cases hx

theorem ask_checkCwd {c : Option Str} (h : ∀ d, c = some d → WorkDir env st0 d) : AskOp ts env st0 (checkCwd c) fun _ => True := by
  unfold checkCwd
  split
  · exact .pure trivial
  · exact .pure trivial
  · refine .bind (Q := fun _ => True) (.one (.cwd _ _ _ (h _ rfl)) fun _ _ _ _ => trivial) fun s _ => ?_
    cases s with
    | none => exact .raise _
    | some s => exact .ite (fun _ => .raise _) fun _ => .pure trivial

theorem pick_some {a b : Option Str} {d : Str} (h : pick a b = some d) : b = some d ∨ b = none ∧ a = some d := by
  cases b with
  | none => exact .inr ⟨rfl, h⟩
  | some x => exact .inl h

theorem ask_resolveDefaults {s : Settings} (h1 : ∀ x, s.fileMode = some x → x.head? ≠ some 45) (h2 : ∀ x, s.dirMode = some x → x.head? ≠ some 45)
    (h3 : ∀ d, s.cwd = some d → WorkDir env st0 d) : AskOp ts env st0 (resolveDefaults s) (Tidy env st0) := by
  unfold Script.resolveDefaults
  refine .bind ask_currentDefaults fun cur hcur => ?_
  have hcwd : ∀ d, (cur.overlay s).cwd = some d → WorkDir env st0 d := by
    intro d hd
    rcases pick_some (a := cur.cwd) (b := s.cwd) hd with h | ⟨_, h⟩
    · exact h3 d h
    · exact hcur.cwd d h
  refine .bind (ask_mapUser _) fun _ _ => .bind (ask_mapGroup _) fun _ _ => .bind (ask_mapUser _) fun owner ho => .bind (ask_mapGroup _) fun group hg => ?_
  refine .seq (.ofExcept _) (.ofExcept _) fun _ => .seq (.ofExcept _) (.ofExcept _) fun _ => .seq (.ofExcept _) (.ofExcept _) fun _ =>
    .bind (ask_checkCwd hcwd) fun _ _ => .pure' ⟨?_, hcwd⟩
  rintro x (h | h | h | h)
  · exact ho x h
  · exact hg x h
  · exact pick_plain (fun x hx => hcur.plain x (.inr (.inr (.inl hx)))) h1 x h
  · exact pick_plain (fun x hx => hcur.plain x (.inr (.inr (.inr hx)))) h2 x h

theorem canonicalize_cwd {s c : Settings} (h : canonicalize s = .ok c) : c.cwd = s.cwd := by
  unfold canonicalize at h
  split at h
  · cases h
  · split at h
    · cases h
    · split at h
      · cases h
      · cases h; rfl

theorem Tidy.overlay {a b : Settings} (ha : Tidy env st0 a) (hb : Tidy env st0 b) : Tidy env st0 (a.overlay b) := by
  refine ⟨overlay_plain ha.plain hb.plain, fun d hd => ?_⟩
  rcases pick_some (a := a.cwd) (b := b.cwd) hd with h | ⟨_, h⟩
  · exact hb.cwd d h
  · exact ha.cwd d h

theorem ask_withDefaults (hbase : Tidy env st0 env.base) {s : Settings} (hs : s.cwd = none) {body : Settings → Op α} {Q : α → Prop}
    (h : ∀ a, Tidy env st0 a → AskOp ts env st0 (body a) Q) : AskOp ts env st0 (withDefaults s body) Q := by
  refine .withDefaults (fun c cur hc hcur => ?_) fun a ha => h _ (hbase.overlay ha)
  have h1 := canonicalize_plain hc
  have h2 := hbase.overlay hcur
  refine ask_resolveDefaults (pick_plain (fun x hx => h2.plain x (.inr (.inr (.inl hx)))) h1.1) (pick_plain (fun x hx => h2.plain x (.inr (.inr (.inr hx)))) h1.2) fun d hd => ?_
  rcases pick_some (a := (env.base.overlay cur).cwd) (b := c.cwd) hd with h | ⟨_, h⟩
  · rw [canonicalize_cwd hc, hs] at h; cases h
  · exact h2.cwd d h

theorem ask_chmod {t : Task} (ht : t ∈ ts) {attr : Settings} {mode : Option Str} (h : Tidy env st0 attr) (hm : mode = attr.fileMode ∨ mode = attr.dirMode) :
    AskOp ts env st0 (runCommand (chmodCommand mode (pathOf t.names))) fun _ => True := by
  refine ask_run ht (tree := false) nofun (.chmod _ (text_plain fun y hy => ?_))
  rcases hm with rfl | rfl
  · exact h.plain y (.inr (.inr (.inl hy)))
  · exact h.plain y (.inr (.inr (.inr hy)))

theorem ask_chown {t : Task} (ht : t ∈ ts) {attr : Settings} (h : Tidy env st0 attr) :
    AskOp ts env st0 (runCommand (chownCommand attr (pathOf t.names))) fun _ => True :=
  ask_run ht (tree := false) nofun (.chown _ (ownerGroup_plain h.plain))

theorem ask_stat {t : Task} (ht : t ∈ ts) (fo sha : Bool) : AskOp ts env st0 (Connection.stat (pathOf t.names) fo sha) fun _ => True :=
  .one (.stat t ht _ _) fun _ _ _ _ => trivial

theorem ask_directoryActions {t : Task} (ht : t ∈ ts) {present : Bool} (hp : present = false → t.wish = .absent .dir) {attr : Settings} (h : Tidy env st0 attr) :
    AskOp ts env st0 (directoryActions (pathOf t.names) present attr) fun _ => True := by
  cases present with
  | true =>
    exact .bind (ask_whenChanged (ask_run ht (tree := false) nofun .mkdir)) fun _ _ => .bind (ask_whenChanged (ask_chmod ht h (.inr rfl))) fun _ _ =>
      .bind (ask_whenEither (ask_chown ht h)) fun _ _ => .bind (ask_changed _) fun _ _ => .ite (fun _ => .pure trivial) fun _ =>
        ask_whenChanged (ask_run ht (tree := false) nofun .touch)
  | false => exact ask_whenChanged (ask_run ht (tree := true) (fun _ => hp rfl) (.rmTree rfl))

theorem ask_fileActions {t : Task} (ht : t ∈ ts) {present : Bool} {attr : Settings} (h : Tidy env st0 attr) :
    AskOp ts env st0 (fileActions (pathOf t.names) present attr) fun _ => True := by
  cases present with
  | true =>
    exact .bind (ask_whenEither (ask_run ht (tree := false) nofun .touch)) fun _ _ => .bind (ask_whenChanged (ask_chmod ht h (.inl rfl))) fun _ _ =>
      ask_whenEither (ask_chown ht h)
  | false => exact ask_whenChanged (ask_run ht (tree := false) nofun .rm)

theorem ask_saveActions {t : Task} (ht : t ∈ ts) {content : Bytes} {attr : Settings} (h : Tidy env st0 attr) :
    AskOp ts env st0 (saveActions attr content (pathOf t.names)) fun _ => True :=
  .bind (ask_changedEither _ _) fun _ _ => .ite (fun _ => .one (.upload t ht _ _ _ _) fun _ _ _ _ => trivial) fun _ =>
    .bind (ask_whenChanged (ask_chmod ht h (.inl rfl))) fun _ _ => ask_whenEither (ask_chown ht h)

theorem ask_saveDiff {t : Task} (ht : t ∈ ts) {content : Bytes} : AskOp ts env st0 (saveDiff (pathOf t.names) content) fun _ => True := by
  refine .seq .diffWanted (.of_ret fun _ _ => ⟨_, _, rfl, rfl⟩) fun _ => .ite (fun _ => ?_) fun _ => .pure trivial
  rw [downloadOr_eq]
  exact .bind (Q := fun _ => True) (.one (.download t ht) fun _ _ _ _ => trivial) fun _ _ => .of_sends (.opDiff _ _ _) (balanced_opDiff _ _ _)

theorem ask_operation {check : Bool} {f : Op (Option OpResult)} (h : AskOp ts env st0 f fun _ => True) : AskOp ts env st0 (operation check f) fun _ => True :=
  .operation (h.weaken fun _ _ _ _ _ => trivial)

theorem ask_returned {m : Op OpResult} (h : AskOp ts env st0 m fun _ => True) : AskOp ts env st0 (returned m) fun _ => True := .returned h

theorem ask_directory (hbase : Tidy env st0 env.base) {t : Task} (ht : t ∈ ts) {present : Bool} (hp : present = false → t.wish = .absent .dir) (touch : Bool)
    (mode owner group : Option Str) (check : Bool) : AskOp ts env st0 (directory (pathOf t.names) present touch mode owner group check) fun _ => True := by
  refine ask_operation (.seq (.ofExcept _) (.ofExcept _) fun _ => ask_returned (ask_withDefaults hbase rfl fun attr ha => ?_))
  refine .seq (.finalState _) (balanced_finalState _) fun _ => .bind (ask_stat ht _ _) fun s _ => ?_
  have hs : AskOp ts env st0 (settle (Op.pure ()) (directoryActions (pathOf t.names) present attr)) fun _ => True :=
    ask_settle (.pure trivial) (ask_directoryActions ht hp ha)
  cases s with
  | none => exact .seq (.initialState _) (balanced_initialState _) fun _ => hs
  | some s => exact .ite (fun _ => .of_sends (.failure _) (balanced_failure _)) fun _ => .seq (.initialState _) (balanced_initialState _) fun _ => hs

theorem ask_file (hbase : Tidy env st0 env.base) {t : Task} (ht : t ∈ ts) (present touch : Bool)
    (mode owner group : Option Str) (check : Bool) : AskOp ts env st0 (file (pathOf t.names) present touch mode owner group check) fun _ => True := by
  refine ask_operation (.seq (.ofExcept _) (.ofExcept _) fun _ => ask_returned (ask_withDefaults hbase rfl fun attr ha => ?_))
  refine .seq (.finalState _) (balanced_finalState _) fun _ => .bind (ask_stat ht _ _) fun s _ => ?_
  have hs : AskOp ts env st0 (settle (Op.pure ()) (fileActions (pathOf t.names) present attr)) fun _ => True :=
    ask_settle (.pure trivial) (ask_fileActions ht ha)
  cases s with
  | none => exact .seq (.initialState _) (balanced_initialState _) fun _ => hs
  | some s => exact .ite (fun _ => .of_sends (.failure _) (balanced_failure _)) fun _ => .seq (.initialState _) (balanced_initialState _) fun _ => hs

theorem ask_saveContent (hbase : Tidy env st0 env.base) {t : Task} (ht : t ∈ ts) (sha512 : Bytes → Bytes) (content : Content) (mode owner group : Option Str) :
    AskOp ts env st0 (saveContent sha512 content (pathOf t.names) mode owner group) fun _ => True := by
  refine .seq (.ofExcept _) (.ofExcept _) fun c => ask_withDefaults hbase rfl fun attr ha => ?_
  refine .seq (.finalState _) (balanced_finalState _) fun _ => .bind (ask_stat ht _ _) fun s _ => ?_
  have hs : AskOp ts env st0 (settle (saveDiff (pathOf t.names) c) (saveActions attr c (pathOf t.names))) fun _ => True :=
    ask_settle (ask_saveDiff ht) (ask_saveActions ht ha)
  cases s with
  | none => exact .seq (.initialState _) (balanced_initialState _) fun _ => hs
  | some s => exact .ite (fun _ => .of_sends (.failure _) (balanced_failure _)) fun _ => .seq (.initialState _) (balanced_initialState _) fun _ => hs

theorem ask_stores (hbase : Tidy env st0 env.base) {t : Task} (ht : t ∈ ts) {sha512 : Bytes → Bytes} {mode owner group : Option Str} {check : Bool} {op : Op OpResult}
    {path : Str} {source : Except Exn Bytes} (h : Stores sha512 mode owner group check op path source) (hp : path = pathOf t.names) :
    AskOp ts env st0 op fun _ => True := by
  cases h with
  | content c dest =>
    subst hp
    exact ask_operation (.seq (.ofExcept _) (.ofExcept _) fun _ => ask_returned (ask_saveContent hbase ht _ _ _ _ _))
  | file src read dest =>
    refine ask_operation (.seq (.ofExcept _) (.ofExcept _) fun _ => .seq (.ofExcept _) (.ofExcept _) fun _ => ask_returned ?_)
    rw [hp]
    exact ask_saveContent hbase ht _ _ _ _ _
  | templateContent templ dest vars context host =>
    subst hp
    exact ask_operation (.seq (.ofExcept _) (.ofExcept _) fun _ => .seq (.ofExcept _) (.ofExcept _) fun _ => ask_returned (ask_saveContent hbase ht _ _ _ _ _))
  | template src templ dest vars context host =>
    refine ask_operation (.seq (.ofExcept _) (.ofExcept _) fun _ => .seq (.ofExcept _) (.ofExcept _) fun _ => .seq (.ofExcept _) (.ofExcept _) fun _ => ask_returned ?_)
    rw [hp]
    exact ask_saveContent hbase ht _ _ _ _ _

theorem ask_task (hbase : Tidy env st0 env.base) {t : Task} (ht : t ∈ ts) {sha512 : Bytes → Bytes} (h : t.Proper sha512) (hl : t.wish.isLink = false) :
    AskOp ts env st0 t.op fun _ => True := by
  cases h with
  | directory names mode owner group => exact ask_directory hbase ht (fun h => Bool.noConfusion h) _ _ _ _ _
  | store h _ => exact ask_stores hbase ht h rfl
  | file names mode owner group => exact ask_file hbase ht _ _ _ _ _ _
  | link => cases hl
  | noDirectory names mode owner group => exact ask_directory hbase ht (fun _ => rfl) _ _ _ _ _
  | noFile names mode owner group => exact ask_file hbase ht _ _ _ _ _ _
  | noLink => cases hl

theorem ask_deploy (hbase : Tidy env st0 env.base) {sha512 : Bytes → Bytes} (h : ∀ t ∈ ts, t.Proper sha512) (hl : ∀ t ∈ ts, t.wish.isLink = false) :
    ∀ todo : List Task, (∀ t ∈ todo, t ∈ ts) → AskOp ts env st0 (deploy (todo.map (·.op))) fun _ => True := by
  intro todo
  induction todo with
  | nil => exact fun _ => .pure trivial
  | cons t todo ih =>
    intro hin
    rw [List.map_cons, deploy]
    have ht := hin t (by simp)
    exact .bind (ask_task hbase ht (h t ht) (hl t ht)) fun _ _ => .bind (ih fun t ht => hin t (by simp [ht])) fun _ _ => .pure trivial

/-! #### The answers of hosts -/

theorem find_mem {β : Type} {l : List β} {p : β → Bool} {e : β} (h : l.find? p = some e) : e ∈ l := List.mem_of_find?_eq_some h

theorem unpackResponse_ok {p q r : Packet} (h : Client.unpackResponse p q = .ok r) : q = r := by
  unfold Client.unpackResponse at h
  split at h
  · cases h
  · split at h <;> cases h
  · cases h; rfl

theorem direct_ok {sys : Sys} {p q : Packet} {w : World} (h : (direct sys p w).1 = .ok q) : ∃ raw, (handle sys p w).1 = .answer raw q := by
  unfold direct at h
  split at h
  · rename_i raw q' w' hh
    exact ⟨raw, by rw [hh, unpackResponse_ok h]⟩
  · cases h
  · cases h
  · cases h

theorem user_plain {sys : Sys} {w : World} (hp : PlainAccounts w) {u : Option Str} {value : Str} (h : (direct sys (.resolveUser u) w).1 = .ok (.resolveResult value)) :
    value.head? ≠ some 45 := by
  have key : ∃ e ∈ w.users, e.name = value := by
    obtain ⟨raw, hh⟩ := direct_ok h
    simp only [handle, handleResolveUser, getpwnam, getpwuid] at hh
    split at hh
    · rename_i pw hpw
      split at hpw
      · cases hpw
      · split at hpw
        · rename_i e he; cases hpw; cases hh; exact ⟨_, find_mem he, rfl⟩
        · cases hpw
    · split at hh
      · cases hh
      · split at hh
        · rename_i e he
          split at he
          · rename_i e' he'; cases he; cases hh; exact ⟨_, find_mem he', rfl⟩
          · cases he
        · cases hh
    · cases hh
  obtain ⟨e, he, rfl⟩ := key
  exact (hp.userNames e he).2.2.2.1

theorem group_plain {sys : Sys} {w : World} (hp : PlainAccounts w) {u : Option Str} {value : Str} (h : (direct sys (.resolveGroup u) w).1 = .ok (.resolveResult value)) :
    value.head? ≠ some 45 := by
  have key : ∃ e ∈ w.groups, e.name = value := by
    obtain ⟨raw, hh⟩ := direct_ok h
    simp only [handle, handleResolveGroup, getgrnam, getgrgid] at hh
    split at hh
    · rename_i pw hpw
      split at hpw
      · cases hpw
      · split at hpw
        · rename_i e he; cases hpw; cases hh; exact ⟨_, find_mem he, rfl⟩
        · cases hpw
    · split at hh
      · cases hh
      · split at hh
        · rename_i e he
          split at he
          · rename_i e' he'; cases he; cases hh; exact ⟨_, find_mem he', rfl⟩
          · cases he
        · cases hh
    · cases hh
  obtain ⟨e, he, rfl⟩ := key
  exact (hp.groupNames e he).2.2.2.1

/-- The hosts that come about while both scripts are run. -/
def Amid (ts ts' : List Task) (w0 w : World) : Prop := Within (fun q => Zone ts q ∨ Zone ts' q) w0 w

theorem Within.mono {C D : Loc → Prop} {w w' : World} (h : Within C w w') (hd : ∀ q, C q → D q) : Within D w w' :=
  ⟨⟨fun q hq => h.untouched.fs q fun hc => hq (hd q hc), h.untouched.rest⟩, h.links⟩

theorem Amid.accounts {ts' : List Task} {w0 w : World} (h : Amid ts ts' w0 w) (hp : PlainAccounts w0) : PlainAccounts w := by
  obtain ⟨h1, h2, h3, h4⟩ := hp
  have hu := h.untouched.users
  have hg := h.untouched.groups
  exact ⟨by rw [hu]; exact h1, by rw [hg]; exact h2, by rw [hu]; exact h3, by rw [hg]; exact h4⟩

theorem asksOnly_deploy {sys : Sys} {I : World → Prop} (hi : ∀ w, I w → PlainAccounts w) (hd : PlainDefaults env st0) (h : ∀ t ∈ ts, t.Proper sys.sha512)
    (hl : ∀ t ∈ ts, t.wish.isLink = false) : AsksOnly sys I (Asking ts env st0) (deploy (ts.map (·.op))) env st0 := by
  intro t r st' he hp request answer hm
  have hbase : Tidy env st0 env.base := ⟨hd _ (.inl rfl), fun d h => .inl h⟩
  refine (ask_deploy hbase h hl ts (fun _ h => h) st0 t r st' (fun s hs => ⟨hd s (.inr hs), fun d h => .inr ⟨s, hs, h⟩⟩) he ?_).1 _ hm
  rintro ⟨p, a⟩ hm' name value hn ha
  rcases hp p a hm' with hlost | ⟨w, hw, hans⟩
  · rw [hlost] at ha; cases ha
  · dsimp only at ha hn
    rw [hans] at ha
    rcases hn with rfl | rfl
    · exact user_plain (hi w hw) ha
    · exact group_plain (hi w hw) ha

/-! #### Exchanging requests -/

theorem zones_disjoint {ts' : List Task} (h : KeepApart ts ts') {q : Loc} (h1 : Zone ts q) (h2 : Zone ts' q) : False := by
  obtain ⟨t, ht, hc⟩ := h1
  obtain ⟨t', ht', hc'⟩ := h2
  have hp : t.names <+: q := by
    rcases hc with rfl | ⟨_, s, rfl⟩
    · exact List.prefix_refl _
    · exact List.prefix_append _ _
  have hp' : t'.names <+: q := by
    rcases hc' with rfl | ⟨_, s, rfl⟩
    · exact List.prefix_refl _
    · exact List.prefix_append _ _
  rcases List.prefix_or_prefix_of_prefix hp hp' with hx | hx
  · exact (h t ht t' ht').1 hx
  · exact (h t ht t' ht').2 hx

theorem way_free {ts' : List Task} (h : KeepApart ts ts') {t : Task} (ht : t ∈ ts) : ∀ p s, t.names = p ++ s → ¬ Zone ts' p := by
  rintro p s hs ⟨t', ht', hc'⟩
  refine (h t ht t' ht').2 (.trans ?_ ⟨s, hs.symm⟩)
  rcases hc' with rfl | ⟨_, s, rfl⟩
  · exact List.prefix_refl _
  · exact List.prefix_append _ _

theorem KeepApart.symm {ts' : List Task} (h : KeepApart ts ts') : KeepApart ts' ts := fun t ht t' ht' => ⟨(h t' ht' t ht).2, (h t' ht' t ht).1⟩

theorem alone_direct {sys : Sys} {tools : Tools} {Z : Loc → Prop} {w w' : World} (hexec : sys.exec = core tools) (hv : Unmoved sys tools (Paths ts env st0) Z) (hu : Untouched Z w w')
    (hts : ∀ t ∈ ts, Clear w Z t.names) (hd : ∀ d, WorkDir env st0 d → ∃ names, d = pathOf names ∧ Clear w Z names) {a : Packet} (ha : Asking ts env st0 a) :
    Alone Z (Zone ts) w (direct sys a w) (direct sys a w') := by
  obtain ⟨⟨h1, h2⟩, h3⟩ := alone_handle hexec hv hu hts hd ha
  exact ⟨⟨direct_reply h1, by rw [Client.direct_world, Client.direct_world]; exact h2⟩, by rw [Client.direct_world]; exact h3⟩

/-- What is needed of one script, with regard to the places of the other. -/
structure Minds (sys : Sys) (tools : Tools) (Z : Loc → Prop) (w : World) (ts : List Task) (env : Env) (st0 : St) : Prop where
  exec : sys.exec = core tools
  unmoved : Unmoved sys tools (Paths ts env st0) Z
  clear : ∀ t ∈ ts, Clear w Z t.names
  dirs : ∀ d, WorkDir env st0 d → ∃ names, d = pathOf names ∧ Clear w Z names

theorem Minds.within {sys : Sys} {tools : Tools} {Z C : Loc → Prop} {w w' : World} (h : Minds sys tools Z w ts env st0) (hw : Within C w w') : Minds sys tools Z w' ts env st0 :=
  ⟨h.exec, h.unmoved, fun t ht => (h.clear t ht).within hw, fun d hd => (h.dirs d hd).imp fun _ h => ⟨h.1, h.2.within hw⟩⟩

theorem Minds.alone {sys : Sys} {tools : Tools} {Z : Loc → Prop} {w w' : World} (h : Minds sys tools Z w ts env st0) (hu : Untouched Z w w') {a : Packet} (ha : Asking ts env st0 a) :
    Alone Z (Zone ts) w (direct sys a w) (direct sys a w') := alone_direct h.exec h.unmoved hu h.clear h.dirs ha

theorem Minds.effect {sys : Sys} {tools : Tools} {Z : Loc → Prop} {w : World} (h : Minds sys tools Z w ts env st0) {a : Packet} (ha : Asking ts env st0 a) :
    Within (Zone ts) w (direct sys a w).2 := (h.alone (w' := w) ⟨fun _ _ => rfl, rfl⟩ ha).within

theorem sameHost_of {w a ab b ba : World} (h1 : a = { w with fs := a.fs, started := a.started }) (h2 : ab = { a with fs := ab.fs, started := ab.started })
    (h3 : b = { w with fs := b.fs, started := b.started }) (h4 : ba = { b with fs := ba.fs, started := ba.started }) (h : ab.fs = ba.fs) : SameHost ba ab := by
  refine ⟨ab.started, ?_⟩
  rw [h2, h, h1, h4, h3]

theorem exchangeable_files {sys : Sys} {tools : Tools} {ts' : List Task} {env' : Env} {st1 : St} {w0 : World} (hk : KeepApart ts ts')
    (h : Minds sys tools (Zone ts') w0 ts env st0) (h' : Minds sys tools (Zone ts) w0 ts' env' st1) :
    Exchangeable sys (Amid ts ts' w0) (Asking ts env st0) (Asking ts' env' st1) := by
  refine ⟨fun a w ha hi => hi.trans (((h.within hi).effect ha).mono fun _ => .inl), fun b w hb hi => hi.trans (((h'.within hi).effect hb).mono fun _ => .inr),
    fun w _ hi => hi.trans .history, fun a b w ha hb hi => ?_, fun a b w ha hb hi => ?_⟩
  · exact ⟨((h.within hi).alone ((h'.within hi).effect hb).untouched ha).both.answer, ((h'.within hi).alone ((h.within hi).effect ha).untouched hb).both.answer⟩
  · have m := h.within hi
    have m' := h'.within hi
    have ea := m.effect ha
    have eb := m'.effect hb
    have ba := (m.alone eb.untouched ha).both.world
    have ab := (m'.alone ea.untouched hb).both.world
    have eab := ((m.within eb).effect ha).untouched
    have eba := ((m'.within ea).effect hb).untouched
    have hfs : (direct sys b (direct sys a w).2).2.fs = (direct sys a (direct sys b w).2).2.fs := by
      funext q
      by_cases hq : Zone ts' q
      · have hq' : ¬ Zone ts q := fun hx => zones_disjoint hk hx hq
        rw [ab.fs q hq', eab.fs q hq']
      · rw [ba.fs q hq, eba.fs q hq]
    exact sameHost_of ea.untouched.rest eba.rest eb.untouched.rest eab.rest hfs

end
end Verif.Ops
