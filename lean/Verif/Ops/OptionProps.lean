/-
Arguments are never taken for options (C70).
-/
import Verif.Ops.Triple

namespace Verif.Ops

open Script
open Client (isQuery)
open Wire (Packet)

variable {extra : List Str}

theorem noStray_end (r : List Str) : NoStrayOption extra (p!"--" :: r) := by
  unfold NoStrayOption
  rw [if_pos rfl]
  trivial

theorem noStray_operand {a : Str} {r : List Str} (h : a.head? ≠ some 45) (hr : NoStrayOption extra r) : NoStrayOption extra (a :: r) := by
  have h1 : a ≠ p!"--" := by rintro rfl; exact h rfl
  have h2 : a ∉ valueOptions := by
    intro hm
    simp only [valueOptions, List.mem_cons, List.not_mem_nil, or_false] at hm
    rcases hm with rfl | rfl | rfl | rfl | rfl | rfl | rfl | rfl | rfl | rfl | rfl | rfl | rfl | rfl <;> exact h rfl
  unfold NoStrayOption
  rw [if_neg h1]
  by_cases he : a ∈ extra
  · rw [if_pos he]; exact hr
  · rw [if_neg he, if_neg h2]
    exact ⟨.inl h, hr⟩

theorem noStray_flag {a : Str} {r : List Str} (h : a ∈ flagOptions) (hv : a ∉ valueOptions := by decide) (hr : NoStrayOption extra r) :
    NoStrayOption extra (a :: r) := by
  unfold NoStrayOption
  by_cases h1 : a = p!"--"
  · rw [if_pos h1]; trivial
  rw [if_neg h1]
  by_cases he : a ∈ extra
  · rw [if_pos he]; exact hr
  · rw [if_neg he, if_neg hv]
    exact ⟨.inr h, hr⟩

/-- The value of an option; in case the option is one of the given ones, what follows is parsed like them. -/
theorem noStray_value {a v : Str} {r : List Str} (h : a ∈ valueOptions) (he : a ∉ extra) (hr : NoStrayOption extra r) :
    NoStrayOption extra (a :: v :: r) := by
  unfold NoStrayOption
  by_cases h1 : a = p!"--"
  · rw [if_pos h1]; trivial
  · rw [if_neg h1, if_neg he, if_pos h]
    exact hr

theorem noStray_extra {a : Str} {r : List Str} (h : a ∈ extra) (hr : NoStrayOption extra r) : NoStrayOption extra (a :: r) := by
  unfold NoStrayOption
  by_cases h1 : a = p!"--"
  · rw [if_pos h1]; trivial
  · rw [if_neg h1, if_pos h]
    exact hr

theorem noStray_extras {l r : List Str} (h : ∀ a ∈ l, a ∈ extra) (hr : NoStrayOption extra r) : NoStrayOption extra (l ++ r) := by
  induction l with
  | nil => exact hr
  | cons a l ih => exact noStray_extra (h a (by simp)) (ih fun a ha => h a (by simp [ha]))

/-- Commands of this request. -/
def Clean (extra : List Str) (p : Packet) : Prop :=
  ∀ command stdin capture user group umask cwd, p = .processRun command stdin capture user group umask cwd → NoStrayOption extra command

theorem clean_query (p : Packet) (h : isQuery p = true) : Clean extra p := by
  intro _ _ _ _ _ _ _ hp
  subst hp
  cases h

/-- Neither the answers of the remote to name lookups ... -/
def PlainNames (e : Packet × Except Exn Packet) : Prop :=
  ∀ name value, (e.1 = .resolveUser name ∨ e.1 = .resolveGroup name) → e.2 = .ok (.resolveResult value) → value.head? ≠ some 45

/-- ... nor the surrounding defaults start with a dash. -/
def PlainSettings (s : Settings) : Prop :=
  ∀ x, (s.owner = some x ∨ s.group = some x ∨ s.fileMode = some x ∨ s.dirMode = some x) → x.head? ≠ some 45

theorem octStr_plain (i : Int) : (Client.octStr i).head? ≠ some 45 := by
  have key : ∀ n, (Py.natStr 8 n).head? ≠ some 45 := by
    intro n h
    cases hs : Py.natStr 8 n with
    | nil => rw [hs] at h; cases h
    | cons c r =>
      rw [hs] at h
      simp only [List.head?_cons, Option.some.injEq] at h
      have := Py.natStr_chars (b := 8) (by omega) (by omega) n c (by rw [hs]; simp)
      omega
  cases i with
  | ofNat n => exact key n
  | negSucc n => simp [Client.octStr]

variable {env : Env}

abbrev CleanOp {α : Type} (extra : List Str) (env : Env) (m : Op α) (Q : α → Prop) : Prop := Triple PlainNames PlainSettings (Clean extra) env m Q

theorem clean_resolveUser (u : Option Str) : CleanOp extra env (Connection.resolveUser u) fun v => v.head? ≠ some 45 := by
  refine .one (clean_query _ rfl) fun r x hr hx => ?_
  split at hx
  · cases hx
  · cases hx; exact hr _ _ (.inl rfl) rfl
  · cases hx

theorem clean_resolveGroup (u : Option Str) : CleanOp extra env (Connection.resolveGroup u) fun v => v.head? ≠ some 45 := by
  refine .one (clean_query _ rfl) fun r x hr hx => ?_
  split at hx
  · cases hx
  · cases hx; exact hr _ _ (.inr rfl) rfl
  · cases hx

theorem clean_mapOpt {f : Option Str → Op Str} (h : ∀ x, CleanOp extra env (f x) fun v => v.head? ≠ some 45) (x : Option Str) :
    CleanOp extra env (mapOpt f x) fun v => ∀ y, v = some y → y.head? ≠ some 45 := by
  cases x with
  | none => exact .pure (by simp)
  | some x => exact .bind (h _) fun v hv => .pure' fun y hy => by cases hy; exact hv

theorem clean_currentDefaults : CleanOp extra env currentDefaults PlainSettings := by
  intro st t r st' hj he _
  unfold Script.currentDefaults at he
  rcases hs : st.stack with _ | ⟨s0, rest⟩
  · simp only [Execution, hs] at he
    replace he := runs_ret.mp he
    obtain ⟨rfl, he⟩ := he
    simp only [Prod.mk.injEq] at he
    obtain ⟨rfl, rfl⟩ := he
    exact ⟨by simp, hj, fun x hx => by cases hx⟩
  · simp only [Execution, hs] at he
    replace he := runs_ret.mp he
    obtain ⟨rfl, he⟩ := he
    simp only [Prod.mk.injEq] at he
    obtain ⟨rfl, rfl⟩ := he
    refine ⟨by simp, hj, fun x hx => ?_⟩
    cases hx
    exact hj _ (by rw [hs]; simp)

theorem pick_plain {a b : Option Str} (ha : ∀ x, a = some x → x.head? ≠ some 45) (hb : ∀ x, b = some x → x.head? ≠ some 45) :
    ∀ x, pick a b = some x → x.head? ≠ some 45 := by
  intro x hx
  cases b with
  | none => exact ha x hx
  | some y => exact hb x hx

/-- Only the modes of the request need to be plain. -/
theorem clean_resolveDefaults {s : Settings} (h1 : ∀ x, s.fileMode = some x → x.head? ≠ some 45) (h2 : ∀ x, s.dirMode = some x → x.head? ≠ some 45) :
    CleanOp extra env (resolveDefaults s) PlainSettings := by
  unfold Script.resolveDefaults
  refine .bind clean_currentDefaults fun cur hcur => ?_
  refine .seq (.mapOpt clean_query (.resolveUser clean_query) _) (.mapOpt (fun _ => .call _) _) fun _ => ?_
  refine .seq (.mapOpt clean_query (.resolveGroup clean_query) _) (.mapOpt (fun _ => .call _) _) fun _ => ?_
  refine .bind (clean_mapOpt clean_resolveUser _) fun owner ho => .bind (clean_mapOpt clean_resolveGroup _) fun group hg => ?_
  refine .seq (.ofExcept _) (.ofExcept _) fun _ => .seq (.ofExcept _) (.ofExcept _) fun _ => .seq (.ofExcept _) (.ofExcept _) fun _ =>
    .seq (.checkCwd clean_query _) (.checkCwd _) fun _ => .pure' ?_
  rintro x (h | h | h | h)
  · exact ho x h
  · exact hg x h
  · exact pick_plain (fun x hx => hcur x (.inr (.inr (.inl hx)))) h1 x h
  · exact pick_plain (fun x hx => hcur x (.inr (.inr (.inr hx)))) h2 x h

theorem canonicalizeMode_plain {m c : Option Str} (h : canonicalizeMode m = .ok c) : ∀ x, c = some x → x.head? ≠ some 45 := by
  intro x hx
  subst hx
  cases m with
  | none => cases h
  | some m =>
    simp only [canonicalizeMode] at h
    split at h
    · cases h
    · cases h; exact octStr_plain _

theorem canonicalize_plain {s c : Settings} (h : canonicalize s = .ok c) :
    (∀ x, c.fileMode = some x → x.head? ≠ some 45) ∧ ∀ x, c.dirMode = some x → x.head? ≠ some 45 := by
  unfold canonicalize at h
  split at h
  · cases h
  · next h1 =>
    split at h
    · cases h
    · next h2 =>
      split at h
      · cases h
      · cases h; exact ⟨canonicalizeMode_plain h1, canonicalizeMode_plain h2⟩

theorem overlay_plain {a b : Settings} (ha : PlainSettings a) (hb : PlainSettings b) : PlainSettings (a.overlay b) := by
  rintro x (h | h | h | h)
  · exact pick_plain (fun x hx => ha x (.inl hx)) (fun x hx => hb x (.inl hx)) x h
  · exact pick_plain (fun x hx => ha x (.inr (.inl hx))) (fun x hx => hb x (.inr (.inl hx))) x h
  · exact pick_plain (fun x hx => ha x (.inr (.inr (.inl hx)))) (fun x hx => hb x (.inr (.inr (.inl hx)))) x h
  · exact pick_plain (fun x hx => ha x (.inr (.inr (.inr hx)))) (fun x hx => hb x (.inr (.inr (.inr hx)))) x h

theorem clean_withDefaults {α : Type} (hbase : PlainSettings env.base) {s : Settings} {body : Settings → Op α} {Q : α → Prop}
    (h : ∀ a, PlainSettings a → CleanOp extra env (body a) Q) : CleanOp extra env (withDefaults s body) Q := by
  refine .withDefaults (fun c cur hc hcur => ?_) fun a ha => h _ (overlay_plain hbase ha)
  have h1 := canonicalize_plain hc
  have h2 := overlay_plain hbase hcur
  exact clean_resolveDefaults (pick_plain (fun x hx => h2 x (.inr (.inr (.inl hx)))) h1.1) (pick_plain (fun x hx => h2 x (.inr (.inr (.inr hx)))) h1.2)

/-- Anything that only sends clean requests and keeps the stack. -/
theorem clean_of {α : Type} {m : Op α} (hs : Sends (Clean extra) env m) (hb : Balanced m) : CleanOp extra env m fun _ => True := .of_sends hs hb

theorem sends_run {command : List Str} {input : Option Bytes} {capture check : Bool} {user group umask cwd : Option Str}
    (h : NoStrayOption extra command) : Sends (Clean extra) env (Connection.run command input capture check user group umask cwd) :=
  .run fun _ _ _ _ _ _ _ _ _ _ _ hp => by cases hp; exact h

theorem sends_command {command : List Str} (h : NoStrayOption extra command) : Sends (Clean extra) env (runCommand command) :=
  .bind (sends_run h) fun _ => .pure' _

theorem sends_upload (file : Str) (content : Bytes) (mode owner group : Option Str) :
    Sends (Clean extra) env (Connection.upload file content mode owner group) :=
  .one fun _ _ _ _ _ _ _ hp => by cases hp

theorem sends_ite {α : Type} {P : Packet → Prop} {c : Prop} [Decidable c] {a b : Op α} (ha : Sends P env a) (hb : Sends P env b) :
    Sends P env (if c then a else b) := by
  split <;> assumption

theorem text_plain {x : Option Str} (h : ∀ y, x = some y → y.head? ≠ some 45) : (text x).head? ≠ some 45 := by
  cases x with
  | none => decide
  | some y => exact h y rfl

theorem chmod_clean {attr : Settings} {path : Str} {mode : Option Str} (h : PlainSettings attr) (hm : mode = attr.fileMode ∨ mode = attr.dirMode) :
    NoStrayOption extra (chmodCommand mode path) := by
  refine noStray_operand (by decide) (noStray_operand (text_plain fun y hy => ?_) (noStray_end _))
  rcases hm with rfl | rfl
  · exact h y (.inr (.inr (.inl hy)))
  · exact h y (.inr (.inr (.inr hy)))

theorem ownerGroup_plain {attr : Settings} (h : PlainSettings attr) : (text attr.owner ++ p!":" ++ text attr.group).head? ≠ some 45 := by
  have h1 : (text attr.owner).head? ≠ some 45 := text_plain fun y hy => h y (.inl hy)
  cases hs : text attr.owner with
  | nil => simp
  | cons c r =>
    rw [hs] at h1
    simpa using h1

theorem chown_clean {attr : Settings} {path : Str} (h : PlainSettings attr) : NoStrayOption extra (chownCommand attr path) :=
  noStray_operand (by decide) (noStray_operand (ownerGroup_plain h) (noStray_end _))

theorem chownLink_clean {attr : Settings} {path : Str} (h : PlainSettings attr) : NoStrayOption extra (chownLinkCommand attr path) :=
  noStray_operand (by decide) (noStray_flag (by decide) (by decide) (noStray_operand (ownerGroup_plain h) (noStray_end _)))

theorem sends_directoryActions {path : Str} {present : Bool} {attr : Settings} (h : PlainSettings attr) :
    Sends (Clean extra) env (directoryActions path present attr) :=
  sends_ite (.bind (.whenChanged (sends_command (noStray_operand (by decide) (noStray_end _)))) fun _ =>
    .bind (.whenChanged (sends_command (chmod_clean h (.inr rfl)))) fun _ => .bind (.whenEither (sends_command (chown_clean h))) fun _ =>
    .bind (.changed _) fun _ => sends_ite (.pure _) (.whenChanged (sends_command (noStray_operand (by decide) (noStray_end _)))))
    (.whenChanged (sends_command (noStray_operand (by decide) (noStray_flag (by decide) (by decide) (noStray_end _)))))

theorem sends_fileActions {path : Str} {present : Bool} {attr : Settings} (h : PlainSettings attr) :
    Sends (Clean extra) env (fileActions path present attr) :=
  sends_ite (.bind (.whenEither (sends_command (noStray_operand (by decide) (noStray_end _)))) fun _ =>
    .bind (.whenChanged (sends_command (chmod_clean h (.inl rfl)))) fun _ => .whenEither (sends_command (chown_clean h)))
    (.whenChanged (sends_command (noStray_operand (by decide) (noStray_end _))))

theorem sends_linkActions {path target : Str} {present : Bool} {attr : Settings} (h : PlainSettings attr) :
    Sends (Clean extra) env (linkActions path target present attr) :=
  sends_ite (.bind (.whenChanged (sends_command (noStray_operand (by decide) (noStray_flag (by decide) (by decide) (noStray_end _))))) fun _ =>
    .bind (.whenEither (sends_command (chownLink_clean h))) fun _ =>
    .bind (.changed _) fun _ => sends_ite (.pure _) (.whenChanged (sends_command (noStray_operand (by decide) (noStray_flag (by decide) (by decide) (noStray_end _))))))
    (.whenChanged (sends_command (noStray_operand (by decide) (noStray_end _))))

theorem sends_saveActions {attr : Settings} {content : Bytes} {dest : Str} (h : PlainSettings attr) :
    Sends (Clean extra) env (saveActions attr content dest) :=
  .bind (.changedEither _ _) fun _ => sends_ite (sends_upload _ _ _ _ _)
    (.bind (.whenChanged (sends_command (chmod_clean h (.inl rfl)))) fun _ => .whenEither (sends_command (chown_clean h)))

theorem sends_saveDiff {dest : Str} {content : Bytes} : Sends (Clean extra) env (saveDiff dest content) :=
  .bind .diffWanted fun _ => sends_ite (.bind (.downloadOr clean_query _ _) fun _ => .opDiff _ _ _) (.pure _)

theorem sends_lineActions {path : Str} {backup : Backup} {attr : Settings} {orig : Option Bytes} {new : Bytes} :
    Sends (Clean extra) env (lineActions path backup attr orig new) := by
  cases orig with
  | none => exact sends_upload _ _ _ _ _
  | some o =>
    refine .bind ?_ fun _ => sends_upload _ _ _ _ _
    unfold lineBackup
    split
    · exact sends_command (noStray_operand (by decide) (noStray_flag (by decide) (by decide) (noStray_end _)))
    · exact .pure _

theorem clean_operation {check : Bool} {f : Op (Option OpResult)} {Q : Option OpResult → Prop} (h : CleanOp extra env f Q) :
    CleanOp extra env (operation check f) fun _ => True := .operation (h.weaken fun _ _ _ _ _ => trivial)

theorem clean_returned {m : Op OpResult} (h : CleanOp extra env m fun _ => True) : CleanOp extra env (returned m) fun _ => True := .returned h

theorem balanced_saveDiff (dest : Str) (content : Bytes) : Balanced (saveDiff dest content) :=
  .bind (Keeps.diffWanted (f := St.stack)) fun _ => keeps_ite (g := St.stack) (Keeps.bind (keeps_downloadOr _ _) fun _ => balanced_opDiff _ _ _) (Keeps.pure _)

theorem balanced_lineDiff (path : Str) (orig : Option Bytes) (new : Bytes) : Balanced (lineDiff path orig new) :=
  .bind (Keeps.diffWanted (f := St.stack)) fun _ => keeps_ite (g := St.stack) (balanced_opDiff _ _ _) (Keeps.pure _)

theorem clean_directory (hbase : PlainSettings env.base) (path : Str) (present touch : Bool) (mode owner group : Option Str) (check : Bool) :
    CleanOp extra env (directory path present touch mode owner group check) fun _ => True := by
  refine clean_operation (.seq (.ofExcept _) (.ofExcept _) fun _ => clean_returned (clean_withDefaults hbase fun attr ha => ?_))
  refine .seq (.finalState _) (balanced_finalState _) fun _ => .seq (.stat clean_query _ _ _) (.call _) fun s => ?_
  have hs : CleanOp extra env (settle (Op.pure ()) (directoryActions path present attr)) fun _ => True :=
    .of_sends (.settle (.pure _) fun _ => sends_directoryActions ha) (balanced_settle (.pure _) (keeps_directoryActions _ _ _))
  cases s with
  | none => exact .seq (.initialState _) (balanced_initialState _) fun _ => hs
  | some s => exact .ite (fun _ => .of_sends (.failure _) (balanced_failure _)) fun _ => .seq (.initialState _) (balanced_initialState _) fun _ => hs

theorem clean_saveContent (hbase : PlainSettings env.base) (sha512 : Bytes → Bytes) (content : Content) (dest : Str) (mode owner group : Option Str) :
    CleanOp extra env (saveContent sha512 content dest mode owner group) fun _ => True := by
  refine .seq (.ofExcept _) (.ofExcept _) fun c => clean_withDefaults hbase fun attr ha => ?_
  refine .seq (.finalState _) (balanced_finalState _) fun _ => .seq (.stat clean_query _ _ _) (.call _) fun s => ?_
  have hs : CleanOp extra env (settle (saveDiff dest c) (saveActions attr c dest)) fun _ => True :=
    .of_sends (.settle sends_saveDiff fun _ => sends_saveActions ha) (balanced_settle (balanced_saveDiff _ _) (keeps_saveActions _ _ _))
  cases s with
  | none => exact .seq (.initialState _) (balanced_initialState _) fun _ => hs
  | some s => exact .ite (fun _ => .of_sends (.failure _) (balanced_failure _)) fun _ => .seq (.initialState _) (balanced_initialState _) fun _ => hs

theorem clean_upload (hbase : PlainSettings env.base) (sha512 : Bytes → Bytes) (src : Str) (read : Except Exn Bytes) (dest : Str)
    (mode owner group : Option Str) (check : Bool) : CleanOp extra env (upload sha512 src read dest mode owner group check) fun _ => True :=
  clean_operation (.seq (.ofExcept _) (.ofExcept _) fun _ => .seq (.ofExcept _) (.ofExcept _) fun _ => clean_returned (clean_saveContent hbase _ _ _ _ _ _))

theorem balanced_lineSettle (path line : Str) (present : Bool) (regex : Option Regex) (ignoreWhitespace : Bool) (backup : Backup)
    (attr : Settings) (orig : Option Bytes) : Balanced (lineSettle path line present regex ignoreWhitespace backup attr orig) :=
  .bind (balanced_initialState _) fun _ => .bind (balanced_unchanged _) fun _ => keeps_ite (g := St.stack) balanced_success
    (Keeps.bind (.ofExcept _) fun _ => Keeps.bind (balanced_lineDiff _ _ _) fun _ => Keeps.bind (.unlessDry (keeps_lineActions _ _ _ _ _)) fun _ => balanced_success)

theorem sends_lineSettle (path line : Str) (present : Bool) (regex : Option Regex) (ignoreWhitespace : Bool) (backup : Backup)
    (attr : Settings) (orig : Option Bytes) : Sends (Clean extra) env (lineSettle path line present regex ignoreWhitespace backup attr orig) :=
  .bind (.initialState _) fun _ => .bind (.unchanged _) fun _ => sends_ite .success
    (.bind (.ofExcept _) fun _ => .bind (.bind .diffWanted fun _ => sends_ite (.opDiff _ _ _) (.pure _)) fun _ =>
      .bind (.unlessDry fun _ => sends_lineActions) fun _ => .success)

theorem optArg_clean {option : Str} {v : Option Str} {r : List Str} (ho : option ∈ valueOptions) (hr : NoStrayOption [] r) :
    NoStrayOption [] (optArg option v ++ r) := by
  cases v with
  | none => exact hr
  | some v => exact noStray_value ho (by simp) hr

theorem useradd_clean (a : UserArgs) (t : UserTarget) : NoStrayOption [] (useraddCommand a t) := by
  unfold useraddCommand
  simp only [List.append_assoc]
  refine noStray_operand (by decide) ?_
  have key : ∀ {l r : List Str}, (∀ r, NoStrayOption [] r → NoStrayOption [] (l ++ r)) → NoStrayOption [] r → NoStrayOption [] (l ++ r) :=
    fun h hr => h _ hr
  refine key (l := if a.system then _ else _) (fun r hr => ?_) (optArg_clean (by decide) (key (fun r hr => ?_) (key (l := if _ then _ else _) (fun r hr => ?_) (optArg_clean (by decide) ?_))))
  · split
    · exact noStray_flag (by decide) (by decide) hr
    · exact hr
  · split
    · exact noStray_flag (by decide) (by decide) hr
    · exact noStray_flag (by decide) (by decide) (noStray_value (by decide) (by simp) hr)
  · split
    · exact noStray_value (by decide) (by simp) hr
    · exact hr
  · refine noStray_flag (by decide) (by decide) (noStray_value (by decide) (by simp) (noStray_value (by decide) (by simp) ?_))
    split
    · exact noStray_end _
    · exact noStray_end _
    · exact noStray_value (by decide) (by simp) (noStray_end _)

theorem sends_usermodIf {key option : Str} {value : Option Str} {user : Str} (h : option ∈ valueOptions) :
    Sends (Clean []) env (usermodIf key option value user) :=
  .whenChanged (by
    split
    · exact .pure _
    · exact sends_command (noStray_operand (by decide) (noStray_value h (by simp) (noStray_end _))))

theorem sends_userActions (a : UserArgs) (t : UserTarget) : Sends (Clean []) env (userActions a t) :=
  .bind (.changed _) fun _ => sends_ite (sends_ite (sends_command (useradd_clean _ _)) (sends_command (noStray_operand (by decide) (noStray_end _))))
    (sends_ite (.bind (sends_usermodIf (by decide)) fun _ => .bind (sends_usermodIf (by decide)) fun _ => .bind (sends_usermodIf (by decide)) fun _ =>
      .bind (sends_usermodIf (by decide)) fun _ => .bind (sends_usermodIf (by decide)) fun _ => .bind (sends_usermodIf (by decide)) fun _ =>
      sends_usermodIf (by decide)) (.pure _))

theorem groupadd_clean (g : Str) (gid : Option Int) (system : Bool) : NoStrayOption [] (groupaddCommand g gid system) := by
  unfold groupaddCommand
  simp only [List.append_assoc]
  refine noStray_operand (by decide) ?_
  cases system with
  | true => exact noStray_flag (by decide) (by decide) (optArg_clean (by decide) (noStray_end _))
  | false => exact optArg_clean (by decide) (noStray_end _)

theorem sends_groupActions (g : Str) (present : Bool) (target : Option Int) (system : Bool) : Sends (Clean []) env (groupActions g present target system) :=
  .bind (.changed _) fun _ => sends_ite (sends_ite (sends_command (groupadd_clean _ _ _)) (sends_command (noStray_operand (by decide) (noStray_end _))))
    (sends_ite (.whenChanged (by
      split
      · exact .pure _
      · exact sends_command (noStray_operand (by decide) (noStray_value (by decide) (by simp) (noStray_end _))))) (.pure _))

theorem sends_forEach {P : Packet → Prop} {f : Str → Op Unit} (h : ∀ p, Sends P env (f p)) : ∀ l, Sends P env (forEach f l)
  | [] => .pure _
  | _ :: l => .bind (h _) fun _ => sends_forEach h l

theorem sends_queryInstalled {P : Packet → Prop} {m : Manager} (h : ∀ p, Sends P env (m.isInstalled p)) : ∀ l, Sends P env (queryInstalled m l)
  | [] => .pure _
  | _ :: l => .bind (h _) fun _ => .bind (sends_queryInstalled h l) fun _ => .pure' _

theorem sends_packageWith (order : List Str → List Str) {m : Manager} (h : ∀ p, Sends (Clean extra) env (m.isInstalled p))
    (hi : ∀ p, Sends (Clean extra) env (m.install p)) (hu : ∀ p, Sends (Clean extra) env (m.uninstall p)) (packages : List Str) (present check : Bool) :
    Sends (Clean extra) env (packageWith order m packages present check) :=
  .operation (.returned (.bind (sends_queryInstalled h _) fun _ => .bind (.initialState _) fun _ => .bind (.finalState _) fun _ =>
    .settle (.pure _) fun _ => sends_ite (sends_forEach hi _) (sends_forEach hu _)))

theorem sends_apt (order : List Str → List Str) (opts packages : List Str) (present check : Bool) :
    Sends (Clean opts) env (packageWith order (apt opts) packages present check) := by
  refine sends_packageWith _ (fun p => .bind (sends_run ?_) fun _ => .pure' _) (fun p => sends_command ?_) (fun p => sends_command ?_) _ _ _
  · exact noStray_operand (by decide) (noStray_flag (by decide) (by decide) (noStray_flag (by decide) (by decide) (noStray_end _)))
  · exact noStray_operand (by decide) (noStray_operand (by decide) (noStray_extras (fun _ h => h) (noStray_end _)))
  · exact noStray_operand (by decide) (noStray_operand (by decide) (noStray_extras (fun _ h => h) (noStray_end _)))

/-- `--color always`, whether or not `--color` is also among the given options. -/
theorem noStray_color {r : List Str} (hr : NoStrayOption extra r) : NoStrayOption extra (p!"--color" :: p!"always" :: r) := by
  by_cases h : p!"--color" ∈ extra
  · exact noStray_extra h (noStray_operand (by decide) hr)
  · exact noStray_value (by decide) h hr

theorem sends_pacman (order : List Str → List Str) (opts packages : List Str) (present check : Bool) :
    Sends (Clean opts) env (packageWith order (pacman opts) packages present check) := by
  refine sends_packageWith _ (fun p => .bind (sends_run ?_) fun _ => .pure' _) (fun p => sends_command ?_) (fun p => sends_command ?_) _ _ _
  · exact noStray_operand (by decide) (noStray_flag (by decide) (by decide) (noStray_end _))
  · exact noStray_operand (by decide) (noStray_color (noStray_flag (by decide) (by decide) (noStray_flag (by decide) (by decide)
      (noStray_extras (fun _ h => h) (noStray_end _)))))
  · exact noStray_operand (by decide) (noStray_color (noStray_flag (by decide) (by decide) (noStray_flag (by decide) (by decide)
      (noStray_extras (fun _ h => h) (noStray_end _)))))

theorem sends_portage (order : List Str → List Str) (opts : List Str) (oneshot : Bool) (packages : List Str) (present check : Bool) :
    Sends (Clean opts) env (packageWith order (portage opts oneshot) packages present check) := by
  refine sends_packageWith _ (fun p => .bind (sends_run ?_) fun _ => .pure' _) (fun p => sends_command ?_) (fun p => sends_command ?_) _ _ _
  · exact noStray_operand (by decide) (noStray_flag (by decide) (by decide) (noStray_end _))
  · refine noStray_operand (by decide) (noStray_flag (by decide) (by decide) (noStray_flag (by decide) (by decide) ?_))
    cases oneshot with
    | true => exact noStray_flag (by decide) (by decide) (noStray_extras (fun _ h => h) (noStray_end _))
    | false => exact noStray_extras (fun _ h => h) (noStray_end _)
  · exact noStray_operand (by decide) (noStray_flag (by decide) (by decide) (noStray_flag (by decide) (by decide) (noStray_flag (by decide) (by decide)
      (noStray_extras (fun _ h => h) (noStray_end _)))))

theorem sends_find {α : Type} (m : List (Str × α)) : Sends (Clean []) env (findCommand m) :=
  .bind (sends_run (noStray_operand (by decide) (noStray_value (by decide) (by simp) trivial))) fun _ => .pure' _

theorem sends_package (order : List Str → List Str) (packages : List Str) (present check : Bool) :
    Sends (Clean []) env (package order packages present check) := by
  refine .bind_exec (sends_find _) fun st t a st' h => ?_
  cases a with
  | none => exact .operation (.raise _)
  | some m =>
    obtain ⟨k, hk⟩ := findCommand_mem h
    simp only [packageManagers, List.mem_cons, Prod.mk.injEq, List.not_mem_nil, or_false] at hk
    rcases hk with ⟨_, rfl⟩ | ⟨_, rfl⟩ | ⟨_, rfl⟩
    · exact sends_apt _ _ _ _ _
    · exact sends_pacman _ _ _ _ _
    · exact sends_portage _ _ _ _ _ _

theorem sends_serviceActions (service : Str) (state : Option Str) (enabled : Option Bool) (userMode : Bool) :
    Sends (Clean []) env (serviceActions service state enabled userMode) := by
  have base : ∀ (a : Str), a.head? ≠ some 45 → NoStrayOption [] ((if userMode then [p!"systemctl", p!"--user"] else [p!"systemctl"]) ++ [a, p!"--", service]) := by
    intro a ha
    cases userMode with
    | true => exact noStray_operand (by decide) (noStray_flag (by decide) (by decide) (noStray_operand ha (noStray_end _)))
    | false => exact noStray_operand (by decide) (noStray_operand ha (noStray_end _))
  refine .bind (.whenChanged ?_) fun _ => .whenChanged ?_
  · split
    · exact .pure _
    · next s =>
      split
      · exact .raise _
      · next a ha =>
        refine sends_command (base a ?_)
        unfold stateAction at ha
        split at ha
        · cases ha; decide
        · split at ha
          · cases ha; decide
          · split at ha
            · cases ha; decide
            · split at ha
              · cases ha; decide
              · cases ha
  · split
    · exact .pure _
    · refine sends_command (base _ ?_)
      split <;> decide

theorem sends_showProperty (a b : Str) : Sends (Clean []) env (showProperty a b) :=
  .bind (sends_run (noStray_operand (by decide) (noStray_operand (by decide) (noStray_flag (by decide) (by decide) (noStray_value (by decide) (by simp) (noStray_end _))))))
    fun _ => .pure' _

theorem sends_systemdService (service : Str) (state : Option Str) (enabled : Option Bool) (userMode check : Bool) :
    Sends (Clean []) env (systemdService service state enabled userMode check) :=
  .operation (sends_ite (.raise _) (.bind (sends_showProperty _ _) fun _ => .bind (sends_showProperty _ _) fun _ =>
    .bind (.initialState _) fun _ => .bind (.finalState _) fun _ => .bind (.unchanged _) fun _ =>
    .returned (sends_ite .success (.bind (.unlessDry fun _ => sends_serviceActions _ _ _ _) fun _ => .success))))

theorem sends_service (name : Str) (state : Option Str) (enabled : Option Bool) (check : Bool) : Sends (Clean []) env (service name state enabled check) := by
  refine .bind_exec (sends_find _) fun st t a st' h => ?_
  cases a with
  | none => exact .operation (.raise _)
  | some m =>
    obtain ⟨k, hk⟩ := findCommand_mem h
    simp only [serviceManagers, List.mem_cons, Prod.mk.injEq, List.not_mem_nil, or_false] at hk
    obtain ⟨_, rfl⟩ := hk
    exact sends_systemdService _ _ _ _ _

theorem submodule_clean (a : RepoArgs) : NoStrayOption [] (submoduleCommand a) := by
  unfold submoduleCommand
  simp only [List.append_assoc]
  refine noStray_operand (by decide) (noStray_value (by decide) (by simp) (noStray_operand (by decide) (noStray_operand (by decide) (noStray_flag (by decide) (by decide) ?_))))
  have hr : NoStrayOption [] (if a.recursiveSubmodules then [p!"--recursive"] else []) := by
    split
    · exact noStray_flag (by decide) (by decide) trivial
    · trivial
  split
  · exact optArg_clean (by decide) hr
  · exact hr

theorem pull_clean (a : RepoArgs) : NoStrayOption [] (pullCommand a) := by
  unfold pullCommand
  simp only [List.append_assoc]
  refine noStray_operand (by decide) (noStray_value (by decide) (by simp) (noStray_operand (by decide) (optArg_clean (by decide) ?_)))
  have hr : NoStrayOption [] (if a.ffOnly then [p!"--ff-only"] else []) := by
    split
    · exact noStray_flag (by decide) (by decide) trivial
    · trivial
  cases a.rebase with
  | true => exact noStray_flag (by decide) (by decide) hr
  | false => exact hr

theorem clone_clean (a : RepoArgs) : NoStrayOption [] (cloneCommand a) := by
  unfold cloneCommand
  simp only [List.append_assoc]
  exact noStray_operand (by decide) (noStray_operand (by decide) (optArg_clean (by decide) (optArg_clean (by decide) (noStray_end _))))

theorem sends_submodules (a : RepoArgs) : Sends (Clean []) env (submodules a) := sends_ite (sends_command (submodule_clean a)) (.pure _)

theorem sends_repoSettle (a : RepoArgs) (ex : Bool) (c : Option Str) : Sends (Clean []) env (repoSettle a ex c) :=
  sends_ite (.bind (.finalState _) fun _ => .success) (.bind (sends_run (noStray_operand (by decide) (noStray_operand (by decide) (noStray_flag (by decide) (by decide) (noStray_end _)))))
    fun _ => .bind (.ofExcept _) fun _ => .bind (.finalState _) fun _ => .bind (.unchanged _) fun _ => sends_ite .success (.bind .dry fun _ => sends_ite .success
      (sends_ite (.bind (sends_command (clone_clean a)) fun _ => .bind (sends_submodules a) fun _ => .success)
        (.bind (sends_run (noStray_operand (by decide) (noStray_value (by decide) (by simp) (noStray_operand (by decide) (noStray_flag (by decide) (by decide) (noStray_operand (by decide) trivial))))))
          fun _ => sends_ite (.failure _) (.bind (sends_command (pull_clean a)) fun _ => .bind (sends_submodules a) fun _ => .success)))))

theorem sends_repo (a : RepoArgs) (check : Bool) : Sends (Clean []) env (repo a check) := by
  refine .operation (.bind (.ofExcept _) fun _ => .bind (.stat clean_query _ _ _) fun s => ?_)
  cases s with
  | none => exact .bind (.initialState _) fun _ => .returned (sends_repoSettle _ _ _)
  | some s =>
    refine sends_ite (.bind (.stat clean_query _ _ _) fun g => ?_) (.returned (.failure _))
    cases g with
    | none => exact .returned (.failure _)
    | some g =>
      exact sends_ite (.returned (.failure _)) (.bind (sends_run (noStray_operand (by decide) (noStray_value (by decide) (by simp) (noStray_operand (by decide) (noStray_operand (by decide) trivial)))))
        fun _ => .bind (.initialState _) fun _ => .returned (sends_repoSettle _ _ _))

/-- C70. No argument of an operation (a path, mode, owner, target, name, package, url, ...) is ever taken for an option by
the commands that are run. (Given that neither the names that the remote reports for users and groups nor the default modes,
owners and groups of the host and of the script start with a dash. Paths are only passed without a preceding `--` after it
was checked that they start with a slash.) -/
theorem C70_arguments_are_not_options (opts : List Str) (op : Op OpResult) (hop : Operation opts op) (env : Env) (st st' : St) (t : Trace)
    (r : Except Exn OpResult) (hbase : PlainSettings env.base) (hstack : ∀ s ∈ st.stack, PlainSettings s)
    (h : Execution op env st t r st') (ht : ∀ e ∈ t, PlainNames e) :
    ∀ command stdin capture user group umask cwd answer, (Packet.processRun command stdin capture user group umask cwd, answer) ∈ t →
      NoStrayOption opts command := by
  have key : CleanOp opts env op (fun _ => True) ∨ Sends (Clean opts) env op := by
    cases hop with
    | directory => exact .inl (clean_directory hbase _ _ _ _ _ _ _)
    | file =>
      refine .inl (clean_operation (.seq (.ofExcept _) (.ofExcept _) fun _ => clean_returned (clean_withDefaults hbase fun attr ha => ?_)))
      refine .seq (.finalState _) (balanced_finalState _) fun _ => .seq (.stat clean_query _ _ _) (.call _) fun s => ?_
      have hs : ∀ path present, CleanOp [] env (settle (Op.pure ()) (fileActions path present attr)) fun _ => True := fun _ _ =>
        .of_sends (.settle (.pure _) fun _ => sends_fileActions ha) (balanced_settle (.pure _) (keeps_fileActions _ _ _))
      cases s with
      | none => exact .seq (.initialState _) (balanced_initialState _) fun _ => hs _ _
      | some s => exact .ite (fun _ => .of_sends (.failure _) (balanced_failure _)) fun _ => .seq (.initialState _) (balanced_initialState _) fun _ => hs _ _
    | link path target present touch =>
      have hpath : checkAbsolutePath path p!"path" = .ok () → path.head? ≠ some 45 := by
        intro hc hp
        cases path with
        | nil => cases hp
        | cons c rest =>
          simp only [List.head?_cons, Option.some.injEq] at hp
          subst hp
          cases hc
      refine .inl (clean_operation (.bind (Q := fun _ => checkAbsolutePath path p!"path" = .ok ()) (.ofExcept fun a h => h) fun _ hc =>
        .ite (fun _ => .raise _) fun _ => clean_returned (clean_withDefaults hbase fun attr ha => ?_)))
      refine .seq (.finalState _) (balanced_finalState _) fun _ => .seq (.stat clean_query _ _ _) (.call _) fun s => ?_
      have hs : CleanOp [] env (settle (Op.pure ()) (linkActions path target present attr)) fun _ => True :=
        .of_sends (.settle (.pure _) fun _ => sends_linkActions ha) (balanced_settle (.pure _) (keeps_linkActions _ _ _ _))
      cases s with
      | none => exact .seq (.initialState _) (balanced_initialState _) fun _ => hs
      | some s =>
        exact .ite (fun _ => .of_sends (.failure _) (balanced_failure _)) fun _ =>
          .seq (sends_run (noStray_operand (by decide) (noStray_flag (by decide) (by decide) (noStray_operand (hpath hc) trivial)))) (balanced_run _ _ _ _ _ _ _ _) fun _ =>
          .seq (.ofExcept _) (.ofExcept _) fun _ => .seq (.initialState _) (balanced_initialState _) fun _ => hs
    | uploadContent => exact .inl (clean_operation (.seq (.ofExcept _) (.ofExcept _) fun _ => clean_returned (clean_saveContent hbase _ _ _ _ _ _)))
    | upload => exact .inl (clean_upload hbase _ _ _ _ _ _ _ _)
    | uploadDir sha512 src tree dest dirMode fileMode owner group =>
      have hdirs : ∀ l, CleanOp [] env (uploadDirs dirMode owner group l) fun _ => True := by
        intro l
        induction l with
        | nil => exact .pure trivial
        | cons d ds ih => exact .bind (clean_directory hbase _ _ _ _ _ _ _) fun _ _ => .seq (.addNestedResult _ _) (balanced_addNestedResult _ _) fun _ => ih
      have hfiles : ∀ l, CleanOp [] env (uploadFiles sha512 fileMode owner group l) fun _ => True := by
        intro l
        induction l with
        | nil => exact .pure trivial
        | cons d ds ih =>
          obtain ⟨t, df⟩ := d
          rw [uploadFiles]
          split
          · exact .bind (clean_upload hbase _ _ _ _ _ _ _ _) fun _ _ => .seq (.addNestedResult _ _) (balanced_addNestedResult _ _) fun _ => ih
          · exact ih
      refine .inl (clean_operation (Q := fun _ => True) (.seq (.setNested _) (.of_ret fun _ _ => ⟨_, _, rfl, rfl⟩) fun _ => .seq (.ofExcept _) (.ofExcept _) fun _ => ?_))
      dsimp only
      exact .ite (fun _ => .raise _) fun _ => .bind (hdirs _) fun _ _ => .bind (hfiles _) fun _ _ =>
        clean_returned (.of_sends .success balanced_success)
    | templateContent =>
      exact .inl (clean_operation (.seq (.ofExcept _) (.ofExcept _) fun _ => .seq (.ofExcept _) (.ofExcept _) fun _ => clean_returned (clean_saveContent hbase _ _ _ _ _ _)))
    | template =>
      exact .inl (clean_operation (.seq (.ofExcept _) (.ofExcept _) fun _ => .seq (.ofExcept _) (.ofExcept _) fun _ => .seq (.ofExcept _) (.ofExcept _) fun _ =>
        clean_returned (clean_saveContent hbase _ _ _ _ _ _)))
    | line =>
      refine .inl (clean_operation (.seq (.ofExcept _) (.ofExcept _) fun _ => clean_returned (clean_withDefaults hbase fun attr ha => ?_)))
      refine .seq (.finalState _) (balanced_finalState _) fun _ => .seq (.stat clean_query _ _ _) (.call _) fun s => ?_
      cases s with
      | none => exact .of_sends (sends_lineSettle _ _ _ _ _ _ _ _) (balanced_lineSettle _ _ _ _ _ _ _ _)
      | some s =>
        exact .ite (fun _ => .of_sends (.failure _) (balanced_failure _)) fun _ => .seq (.download clean_query _) (.call _) fun _ =>
          .of_sends (sends_lineSettle _ _ _ _ _ _ _ _) (balanced_lineSettle _ _ _ _ _ _ _ _)
    | user =>
      exact .inr (.operation (.bind (.queryUser clean_query _ _ _) fun _ => .bind (.initialState _) fun _ => .bind (.finalState _) fun _ =>
        .returned (.settle (.pure _) fun _ => sends_userActions _ _)))
    | group =>
      exact .inr (.operation (.bind (.queryGroup clean_query _ _) fun _ => .bind (.initialState _) fun _ => .bind (.finalState _) fun _ =>
        .returned (.settle (.pure _) fun _ => sends_groupActions _ _ _ _)))
    | apt => exact .inr (sends_apt _ _ _ _ _)
    | pacman => exact .inr (sends_pacman _ _ _ _ _)
    | portage => exact .inr (sends_portage _ _ _ _ _ _)
    | package => exact .inr (sends_package _ _ _ _)
    | daemonReload userMode =>
      refine .inr (.operation (.bind (.initialState _) fun _ => .bind (.finalState _) fun _ => .bind (.unlessDry fun _ => sends_command ?_) fun _ => .returned .success))
      cases userMode with
      | true => exact noStray_operand (by decide) (noStray_flag (by decide) (by decide) (noStray_operand (by decide) trivial))
      | false => exact noStray_operand (by decide) (noStray_operand (by decide) trivial)
    | systemdService => exact .inr (sends_systemdService _ _ _ _ _)
    | service => exact .inr (sends_service _ _ _ _)
    | repo => exact .inr (sends_repo _ _)
  intro command stdin capture user group umask cwd answer hm
  rcases key with key | key
  · exact (key _ _ _ _ hstack h ht).1 _ hm _ _ _ _ _ _ _ rfl
  · exact key _ _ _ _ h _ hm _ _ _ _ _ _ _ rfl

/-- A package whose name looks like an option is passed as an operand. -/
example : ∃ t r st', Execution (packageWith id (pacman []) [p!"--root=/"] true true) { base := {} } { stack := [{}] } t r st' ∧ t.length = 2
    ∧ (∀ e ∈ t, PlainNames e) :=
  ⟨[(.processRun [p!"pacman", p!"-Ql", p!"--", p!"--root=/"] none true none none none none, .ok (.processCompleted (some []) (some []) 1)),
    (.processRun [p!"pacman", p!"--color", p!"always", p!"--noconfirm", p!"-S", p!"--", p!"--root=/"] none true none none none none,
      .ok (.processCompleted (some []) (some []) 0))], _, _, .req _ _ _ _ _ (.req _ _ _ _ _ (.ret _)), rfl, by
    intro e he name value hn
    simp only [List.mem_cons, List.not_mem_nil, or_false] at he
    rcases he with rfl | rfl <;> simp at hn⟩

/-- Without `--` the name would be a stray option. -/
example : ¬ NoStrayOption [] [p!"pacman", p!"-S", p!"--root=/"] := by
  unfold NoStrayOption
  rw [if_neg (by decide), if_neg (by decide), if_neg (by decide)]
  rintro ⟨_, h⟩
  unfold NoStrayOption at h
  rw [if_neg (by decide), if_neg (by decide), if_neg (by decide)] at h
  obtain ⟨_, h⟩ := h
  unfold NoStrayOption at h
  rw [if_neg (by decide), if_neg (by decide), if_neg (by decide)] at h
  exact absurd h.1 (by decide)

end Verif.Ops
