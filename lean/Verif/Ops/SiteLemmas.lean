/-
Lemmas for scripts that set up a whole site.
-/
import Verif.Ops.SiteSpec
import Verif.Ops.CallsProps
import Verif.Ops.AuthorityProps
import Verif.Ops.UserProps
import Verif.Ops.PackageProps
import Verif.Ops.ServiceProps
import Verif.Ops.AccountProps
import Verif.Ops.BalancedLemmas
import Verif.Ops.GitProps

namespace Verif.Ops

open Script Remote
open Client (Prog direct lostConnection isQuery)
open Wire (Packet)

section
variable {sys : Sys} {lost : Nat → Option Bool} {env : Env} {st : St} {w0 w w' : World}
variable {tools : Tools} {U : UnitStates} {items : List Item}

/-! ### Invariants of what a program may request -/

theorem run_keeps {α : Type} {P : Packet → Prop} {I : World → Prop} (hP : ∀ p w, P p → I w → I (direct sys p w).2) :
    ∀ (m : Prog α) (s : World × Nat), (∀ e ∈ recorded (flaky sys lost) m s, P e.1) → I s.1 → I (m.run (flaky sys lost) s).2.1
  | .ret _, s, _, hi => hi
  | .req p k, s, h, hi => by
    have h0 : P p := h (p, (flaky sys lost p s).1) (by simp [recorded])
    have h1 : I (flaky sys lost p s).2.1 := by
      unfold flaky
      split
      · exact hP p s.1 h0 hi
      · exact hi
      · exact hP p s.1 h0 hi
    refine run_keeps hP (k (flaky sys lost p s).1) (flaky sys lost p s).2 (fun e he => h e ?_) h1
    simp only [recorded, List.mem_cons]
    exact .inr he

/-- What holds of the host and is kept by all that may be requested still holds afterwards. -/
theorem Post.frame {α : Type} {P : Packet → Prop} {I : World → Prop} (hP : ∀ p w, P p → I w → I (direct sys p w).2) {m : Op α}
    (hs : Sends P env m) (hi : I w) : Post sys lost m env st w (fun _ _ w' => I w') I := by
  intro k
  have h := run_keeps (lost := lost) hP (m env st) (w, k) (hs _ _ _ _ (runs_recorded (flaky sys lost) (m env st) (w, k))) hi
  match hm : exec (flaky sys lost) m env st (w, k) with
  | ((.ok a, st'), (w', k')) => unfold exec at hm; rw [hm] at h; exact h
  | ((.error e, st'), (w', k')) => unfold exec at hm; rw [hm] at h; exact h

/-- Commands that keep `I` if they are run. -/
theorem allowed_keeps {A : Act → Prop} {I : World → Prop} (hl : ∀ p w, LooksOnly p.argv → (sys.exec p w).2 = w) (hsame : ∀ w w', Same w w' → I w → I w')
    (hw : ∀ file content, ¬ A (.write file content))
    (hc : ∀ argv, A (.command argv) → ∀ p w out err code w', p.argv = argv → sys.exec p w = (.done out err code, w') → I w → I w') :
    ∀ p w, Allowed A p → I w → I (direct sys p w).2 := by
  intro p w h hi
  rcases h with h | ⟨a, ha, hr⟩
  · exact hsame _ _ (readOnly_same hl p w h) hi
  · cases a with
    | write file content => exact absurd ha (hw _ _)
    | command argv =>
      obtain ⟨user, group, umask, cwd, rfl⟩ := hr
      rw [Client.direct_world]
      show I (handleRun sys argv none true user group umask cwd w).2
      rw [Client.handleRun_eq]
      cases hp : Client.plan sys argv none true user group umask cwd w with
      | error r => exact hi
      | ok proc =>
        have hargv : proc.argv = argv := (plan_argv hp).1
        simp only
        match he : sys.exec proc { w with started := proc :: w.started } with
        | (.failed e, w') => exact hi
        | (.done out err code, w') => exact hc argv ha proc _ out err code w' hargv he (hsame _ _ rfl hi)

/-! ### What the calls request -/

/-- The commands that a call may run, as acts. -/
def Item.Acts (i : Item) : Act → Prop
  | .command argv => i.Runs argv
  | .write .. => False

theorem sends_group (name : Str) (present : Bool) (gid : Option Int) (system : Bool) :
    Sends (Allowed (Item.group name present gid system).Acts) env (group name present gid system true) := by
  intro st0 t r st' h e he
  cases present with
  | true =>
    rcases C76_only_what_was_asked _ _ (.group name gid system true) env st0 st' t r h e he with h1 | ⟨a, h1, h2⟩
    · exact .inl h1
    · refine .inr ⟨a, ?_, h2⟩
      cases h1 with
      | groupadd options => exact .groupadd ..
      | groupmod x => exact .groupmod ..
  | false =>
    rcases C76_only_what_was_asked _ _ (.removeGroup name gid system true) env st0 st' t r h e he with h1 | ⟨a, h1, h2⟩
    · exact .inl h1
    · refine .inr ⟨a, ?_, h2⟩
      cases h1
      exact .groupdel ..

theorem sends_user (a : UserArgs) : Sends (Allowed (Item.user a).Acts) env (user a true) := by
  intro st0 t r st' h e he
  cases hp : a.present with
  | true =>
    rcases C76_only_what_was_asked _ _ (.user a true hp) env st0 st' t r h e he with h1 | ⟨b, h1, h2⟩
    · exact .inl h1
    · refine .inr ⟨b, ?_, h2⟩
      cases h1 with
      | useradd options => exact .useradd _ _ hp
      | usermod x y => exact .usermod _ _ _ hp
  | false =>
    rcases C76_only_what_was_asked _ _ (.removeUser a true hp) env st0 st' t r h e he with h1 | ⟨b, h1, h2⟩
    · exact .inl h1
    · refine .inr ⟨b, ?_, h2⟩
      cases h1
      exact .userdel _ hp

theorem backend_quiet {m : Manager} {query install remove : Str → List Str} {yes : Option Bytes → Int → Prop} (hb : Backend m query install remove yes) (p : Str) :
    Quiet env (m.isInstalled p) := by
  cases hb with
  | pacman opts => exact quiet_pacman _ _
  | portage opts oneshot => exact quiet_portage _ _ _
  | apt opts => exact quiet_apt _ _

theorem sends_packages {m : Manager} {query install remove : Str → List Str} {yes : Option Bytes → Int → Prop} (hb : Backend m query install remove yes)
    (found : Bool) {order : List Str → List Str} (ho : ∀ l, (order l).Perm l) (names : List Str) (present : Bool) :
    Sends (Allowed (Item.packages found m order names present).Acts) env (packageWith order m names present true) := by
  obtain ⟨Y⟩ := hb.queries
  refine may_packageWith (fun l p hp => (ho l).mem_iff.mp hp) (backend_quiet hb) ?_ ?_
  · rintro rfl p hp
    rw [Y.installs]
    exact may_run (.install hb found order names p hp)
  · rintro rfl p hp
    rw [Y.uninstalls]
    exact may_run (.remove hb found order names p hp)

theorem sends_unit (found : Bool) {unit : Str} {state : Option Str} (hs : state = none ∨ state = some p!"started" ∨ state = some p!"stopped") (enabled : Option Bool) :
    Sends (Allowed (Item.service found unit state enabled).Acts) env (systemdService unit state enabled false true) := by
  refine (may_systemd unit state enabled false true).mono ?_
  rintro p (h | ⟨a, h1, h2⟩)
  · exact .inl h
  · refine .inr ⟨a, ?_, h2⟩
    cases h1 with
    | start h => subst h; exact .start ..
    | stop h => subst h; exact .stop ..
    | enable h => subst h; exact .enable ..
    | disable h => subst h; exact .disable ..
    | restart h => rcases hs with rfl | rfl | rfl <;> exact absurd h (by decide)
    | reload h => rcases hs with rfl | rfl | rfl <;> exact absurd h (by decide)

theorem sends_checkout (G : Repositories) (a : RepoArgs) : Sends (Allowed (Item.repo G a).Acts) env (repo a true) := by
  refine may_checkout a true ?_ ?_ ?_
  · rw [cloneCommand_eq]; exact .clone G a
  · rw [pullCommand_eq]; exact .pull G a
  · rw [submoduleCommand_eq]; exact .submodules G a

/-! ### Looking for a command -/

theorem find_post {γ : Type} {ms : List (Str × γ)} {x : γ} {st1 : St}
    (h : ∀ p out err code w', p.argv = [p!"bash", p!"-c", findQuery (ms.map (·.1))] →
      sys.exec p { w with started := p :: w.started } = (.done out err code, w') →
      Same w w' ∧ lookupKey ms (Py.strip (Py.decodeIgnore out)) = some x)
    {next : Option γ → Op OpResult} {Q : OpResult → St → World → Prop} {E : World → Prop} (hE : ∀ w', Same w w' → E w')
    (hnext : ∀ w', Same w w' → Post sys lost (next (some x)) env st1 w' Q E) : Post sys lost (findCommand ms >>= next) env st1 w Q E := by
  refine Post.bind ?_
  unfold findCommand
  refine Post.bind (Post.run (fun p out err code w' hp hx => ?_) (hE _ (same_refl w)))
  obtain ⟨h1, h2⟩ := h p out err code w' hp hx
  refine ⟨hE _ h1, fun _ => Post.pure ?_⟩
  rw [show ((some out).getD [] : Bytes) = out from rfl, h2]
  exact hnext w' h1

theorem package_found {m : Manager} (hf : FindsManager sys m) {order : List Str → List Str} {names : List Str} {present : Bool} {st1 : St}
    {Q : OpResult → St → World → Prop} {E : World → Prop} (hE : ∀ w', Same w w' → E w')
    (hnext : ∀ w', Same w w' → Post sys lost (packageWith order m names present true) env st1 w' Q E) :
    Post sys lost (package order names present true) env st1 w Q E := by
  obtain ⟨ex, hb, before, name, after, hl, hx⟩ := hf
  refine find_post (x := m) (fun p out err code w' hp he => ?_) hE hnext
  obtain ⟨rfl, rfl⟩ := hb p _ out err code w' hp he
  refine ⟨same_started _ _, ?_⟩
  obtain ⟨h1, h2⟩ := hx { w with started := p :: w.started }
  generalize ex { w with started := p :: w.started } = f at h1 h2
  match before, hl with
  | [], hl =>
    cases hl
    simp only [packageProbe, Shell.probe, Shell.run, h1]
    rfl
  | [b], hl =>
    cases hl
    have h3 := h2 _ (List.mem_cons_self ..)
    simp only [packageProbe, Shell.probe, Shell.run, h1, h3]
    rfl
  | [b, c], hl =>
    cases hl
    have h3 := h2 _ (List.mem_cons_self ..)
    have h4 := h2 _ (List.mem_cons_of_mem _ (List.mem_cons_self ..))
    simp only [packageProbe, Shell.probe, Shell.run, h1, h3, h4]
    rfl
  | b :: c :: d :: before, hl =>
    have := congrArg List.length hl
    simp [packageManagers] at this

theorem service_found (hf : FindsSystemd sys) {unit : Str} {state : Option Str} {enabled : Option Bool} {st1 : St}
    {Q : OpResult → St → World → Prop} {E : World → Prop} (hE : ∀ w', Same w w' → E w')
    (hnext : ∀ w', Same w w' → Post sys lost (systemdService unit state enabled false true) env st1 w' Q E) :
    Post sys lost (Ops.service unit state enabled true) env st1 w Q E := by
  obtain ⟨ex, hb, hx⟩ := hf
  refine find_post (x := fun service state enabled check => systemdService service state enabled false check) (fun p out err code w' hp he => ?_) hE hnext
  obtain ⟨rfl, rfl⟩ := hb p _ out err code w' hp he
  refine ⟨same_started _ _, ?_⟩
  simp only [serviceProbe, Shell.probe, Shell.run, hx]
  rfl

/-! ### The host between two calls -/

theorem shape_dir {o : Option Node} : shape o = .dir ↔ ∃ n, o = some n ∧ n.kind = .dir := by
  cases o with
  | none => simp [shape]
  | some n =>
    obtain ⟨k, _, _, _⟩ := n
    cases k <;> simp [shape]

theorem open_way {t : Task} : t.Open w ↔ t.Way w := by
  unfold Task.Open Task.Way
  simp only [shape_dir]

theorem tame_octal {ts : List Task} (hcm : CanonicalModes env st) (hbits : NoSetIdsAsked env st w ts) (hoct : OctalDirModes env st ts) : TameTasks env st ts w := by
  intro t ht mode owner group hwish
  have hb := hbits t ht
  have ho := hoct t ht (by rw [hwish]; rfl)
  rw [hwish] at hb ho
  obtain ⟨b1, b2, b3⟩ := hb
  refine ⟨fun t ht => ?_, b2, ?_⟩
  · cases hmm : (inForce env st { dirMode := mode, owner, group }).dirMode with
    | none => rw [hmm] at ht; cases ht
    | some m =>
      obtain ⟨i, hi⟩ := ho m hmm
      obtain ⟨c1, c2⟩ := b1 m i hmm hi
      rw [mode_again (fun hg => ?_) hmm hi] at ht
      · cases ht
        rw [octalValue_natStr]
        exact ⟨natStr_short c1, c2⟩
      · subst hg
        exact inForce_dir hcm hmm
  · rintro ⟨e1, p, e2, ek, e3⟩
    exact e3 (b3 e1 p e2 ek)

theorem bits_tame {ts : List Task} (hbits : NoSetIdsAsked env st w ts) (ht : TameTasks env st ts w') : NoSetIdsAsked env st w' ts := by
  intro t hmem
  have hb := hbits t hmem
  have h := ht t hmem
  cases hw : t.wish with
  | dir mode owner group =>
    rw [hw] at hb h
    obtain ⟨_, h1, h2⟩ := h mode owner group rfl
    refine ⟨hb.1, h1, fun h3 p h4 h5 => ?_⟩
    rcases Nat.eq_zero_or_pos (p.perm &&& 0o2000) with h6 | h6
    · exact h6
    · exact absurd ⟨h3, p, h4, h5, by omega⟩ h2
  | file source mode owner group => rw [hw] at hb; exact hb
  | plain mode owner group => rw [hw] at hb; exact hb
  | link => trivial
  | absent => trivial

theorem Tasks.same {ts : List Task} (h : Tasks sys w ts) (hs : Same w w') : Tasks sys w' ts :=
  ⟨h.proper, h.names, h.distinct, (by rw [same_fs hs]; exact h.plain), h.apart, (by rw [same_fs hs]; exact h.links), fun ha => (h.rooted ha).same hs⟩

theorem bits_same {ts : List Task} (h : NoSetIdsAsked env st w ts) (hs : Same w w') : NoSetIdsAsked env st w' ts := by
  unfold NoSetIdsAsked
  rw [same_fs hs]
  exact h

theorem Orderly.same (h : Orderly sys tools env st U items w) (hp : ∀ i ∈ items, i.Proper sys U) (hs : Same w w') : Orderly sys tools env st U items w' := by
  refine ⟨hs.ordinary h.ordinary, h.aliases.same hs, ?_, ?_, fun found unit state enabled hi => ?_, fun G a hi => ?_, h.tasks.same hs, bits_same h.bits hs⟩
  · rw [hs]; exact ⟨h.groups.names, h.groups.gids, h.groups.plain⟩
  · rw [hs]; exact h.users
  · rw [(same_states (hp _ hi).2.1 hs false).1]
    exact h.services found unit state enabled hi
  · unfold Usable
    rw [same_clone (hp _ hi).2.1 hs]
    exact h.repos G a hi

theorem granted_congr {x : Wish} {l : Loc} (hu : w'.users = w.users) (hg : w'.groups = w.groups) (h : x.Granted sys env st w w' l) : x.Granted sys env st w' w' l := by
  have ho : ∀ {s n}, OwnedBy w s n → OwnedBy w' s n := fun h => h.congr hu hg
  cases x with
  | dir mode owner group =>
    obtain ⟨n, h1, h2, h3, h4⟩ := h
    exact ⟨n, h1, h2, ho h3, h4⟩
  | file source mode owner group =>
    obtain ⟨bytes, n, h1, h2, h3, h4, h5⟩ := h
    exact ⟨bytes, n, h1, h2, h3, ho h4, h5⟩
  | plain mode owner group =>
    obtain ⟨c, n, h1, h2, ⟨h3, h4, h5⟩, _⟩ := h
    refine ⟨c, n, h1, h2, ⟨h3, ho h4, h5⟩, fun m h => ?_, fun h => ?_⟩
    · rw [h1] at h; cases h; exact h2
    · rw [h1] at h; cases h
  | link target owner group =>
    obtain ⟨n, t, h1, h2, h3, h4⟩ := h
    exact ⟨n, t, h1, h2, h3, ho h4⟩
  | absent what => exact h

theorem granted_same {x : Wish} {l : Loc} (hs : Same w w') (h : x.Granted sys env st w w l) : x.Granted sys env st w' w' l :=
  granted_congr (same_users hs) (same_groups hs) (by unfold Wish.Granted at *; rw [same_fs hs]; exact h)

theorem Done.same {i : Item} (hp : i.Proper sys U) (hs : Same w w') (h : i.Done sys env st U w) : i.Done sys env st U w' := by
  cases i with
  | files c =>
    refine fun t ht => ⟨granted_same hs (h t ht).1, ?_⟩
    unfold Task.Open; rw [same_fs hs]; exact (h t ht).2
  | group name present gid system => unfold Item.Done at *; rw [hs]; exact h
  | user a => unfold Item.Done at *; rw [hs]; exact h
  | packages found m order names present => unfold Item.Done at *; rw [hs]; exact h
  | service found unit state enabled =>
    simp only [Item.Done] at *
    rw [(same_states hp.2.1 hs false).1, (same_states hp.2.1 hs false).2]
    exact h
  | repo G a =>
    simp only [Item.Done] at *
    rw [same_clone hp.2.1 hs]
    exact h

theorem Going.orderly {done : Task → Prop} (h : Going sys tools env st (siteTasks sys.sha512 items) w done w') (hcm : CanonicalModes env st)
    (hoct : OctalDirModes env st (siteTasks sys.sha512 items)) (hc : Compatible sys tools env st U items) (ho : Orderly sys tools env st U items w) :
    Orderly sys tools env st U items w' := by
  have hacc := h.untouched.accounts
  refine ⟨h.ordinary, ⟨?_, ?_⟩, ⟨?_, ?_, ?_⟩, ?_, fun found unit state enabled hi => ?_, fun G a hi => ?_, h.tasks ho.tasks, bits_tame ho.bits (h.tame (tame_octal hcm ho.bits hoct))⟩
  · rw [hacc.1]; exact ho.aliases.users
  · rw [hacc.2]; exact ho.aliases.groups
  · rw [hacc.2]; exact ho.groups.names
  · rw [hacc.2]; exact ho.groups.gids
  · rw [hacc.2]; exact ho.groups.plain
  · rw [h.untouched.rest]; exact ho.users
  · rw [hc.running found unit state enabled hi w w' h.untouched]
    exact ho.services found unit state enabled hi
  · unfold Usable
    rw [hc.clones G a hi w w' h.untouched]
    exact ho.repos G a hi

/-! ### Calls that do not manage files -/

/-- Something about the host that neither looking, nor managing files, nor the commands of the calls change. -/
structure Lasts (sys : Sys) (tools : Tools) (env : Env) (st : St) (U : UnitStates) (items : List Item) (J : World → Prop) : Prop where
  untouched : ∀ P w w', Untouched P w w' → J w → J w'
  commands : ∀ i ∈ items, ∀ p w out err code w', i.Runs p.argv → sys.exec p w = (.done out err code, w') →
    Orderly sys tools env st U items w → J w → J w'

theorem lasts_true : Lasts sys tools env st U items (fun _ => True) := ⟨fun _ _ _ _ _ => trivial, fun _ _ _ _ _ _ _ _ _ _ _ _ => trivial⟩

theorem Lasts.same {J : World → Prop} (h : Lasts sys tools env st U items J) (hs : Same w w') (hj : J w) : J w' :=
  h.untouched (fun _ => False) w w' ⟨fun q _ => by rw [hs], by rw [hs]⟩ hj

/-- What holds while a call is carried out that runs commands: the host stays orderly, and nothing is undone. -/
theorem commands_frame {pre post : List Item} {i : Item} {m : Op OpResult} {J : World → Prop} (hp : ∀ i ∈ items, i.Proper sys U) (hc : Compatible sys tools env st U items)
    (hJ : Lasts sys tools env st U items J) (hi : items = pre ++ i :: post)
    (hsends : Sends (Allowed i.Acts) env m) {st1 : St} (ho : Orderly sys tools env st U items w) (hj : J w) (hd : ∀ j ∈ pre, j.Done sys env st U w) :
    Post sys lost m env st1 w (fun _ _ w' => (Orderly sys tools env st U items w' ∧ J w') ∧ ∀ j ∈ pre, j.Done sys env st U w')
      (fun w' => (Orderly sys tools env st U items w' ∧ J w') ∧ ∀ j ∈ pre, j.Done sys env st U w') := by
  have hmem : i ∈ items := by rw [hi]; simp
  refine Post.frame (I := fun w' => (Orderly sys tools env st U items w' ∧ J w') ∧ ∀ j ∈ pre, j.Done sys env st U w') (allowed_keeps hc.looking ?_ (fun _ _ h => h) ?_) hsends ⟨⟨ho, hj⟩, hd⟩
  · rintro w1 w2 hs ⟨h1, h2⟩
    exact ⟨⟨h1.1.same hp hs, hJ.same hs h1.2⟩, fun j hj => Done.same (hp j (by rw [hi]; exact List.mem_append_left _ hj)) hs (h2 j hj)⟩
  · rintro argv ha p w1 out err code w2 rfl he ⟨h1, h2⟩
    exact ⟨⟨hc.orderly i hmem p w1 out err code w2 ha he h1.1, hJ.commands i hmem p w1 out err code w2 ha he h1.1 h1.2⟩,
      fun j hj => hc.kept pre i post hi j hj p w1 out err code w2 ha he h1.1 (h2 j hj)⟩

theorem stackless {α : Type} {m : Op α} {Q : α → World → Prop} {E : World → Prop} {st1 : St} (h : Post sys lost m env st1 w (fun a _ w' => Q a w') E) (hb : Balanced m)
    (hst : st1.stack = st.stack) : Post sys lost m env st1 w (fun a st' w' => st'.stack = st.stack ∧ Q a w') E :=
  (h.withStack hb).mono (fun _ _ _ h => ⟨h.2.trans hst, h.1⟩) fun _ h => h

theorem runs_reached {state : Option Str} {enabled : Option Bool} {a a' : ActiveState} {b b' : FileState} (hrel : a ≠ .reloading)
    (h : (if stateDiffers state (seenState a) then RunsAs state a a' else a' = a)
      ∧ (if enabledDiffers enabled (decide (b = .enabled)) then EnabledAs enabled b b' else b' = b)) : RunsAs state a a' ∧ EnabledAs enabled b b' := by
  obtain ⟨h3, h4⟩ := h
  constructor
  · split at h3
    · exact h3
    · rename_i hd
      rw [h3]
      cases state with
      | none => exact ⟨fun _ => rfl, (by intro h; cases h), (by intro h; cases h), (by intro h; cases h), (by intro h; cases h)⟩
      | some s =>
        have hd : s = seenState a := by simpa [stateDiffers] using hd
        subst hd
        refine ⟨(by intro h; cases h), fun h => ?_, fun h => ?_, fun h => ?_, fun h => ?_⟩ <;> revert h hrel <;> cases a <;> decide
  · split at h4
    · exact h4
    · rename_i hd
      rw [h4]
      cases enabled with
      | none => exact ⟨fun _ => rfl, (by intro h; cases h), (by intro h; cases h)⟩
      | some e =>
        have hd : e = decide (b = .enabled) := by simpa [enabledDiffers] using hd
        refine ⟨(by intro h; cases h), fun h => ?_, fun h => ?_⟩
        · cases h; simpa using hd.symm
        · cases h; simpa using hd.symm

/-- What one call achieves. -/
theorem item_post {pre post : List Item} {i : Item} {J : World → Prop} (hm : PlainModes env st) (hcm : CanonicalModes env st) (hdry : env.dry = false)
    (hoct : OctalDirModes env st (siteTasks sys.sha512 items)) (hp : ∀ i ∈ items, i.Proper sys U) (hc : Compatible sys tools env st U items)
    (hJ : Lasts sys tools env st U items J) (hi : items = pre ++ i :: post) {st1 : St} (hst : st1.stack = st.stack) (ho : Orderly sys tools env st U items w) (hj : J w) (hd : ∀ j ∈ pre, j.Done sys env st U w) :
    Post sys lost (i.op sys.sha512) env st1 w
      (fun _ st' w' => st'.stack = st.stack ∧ (Orderly sys tools env st U items w' ∧ J w') ∧ ∀ j ∈ pre ++ [i], j.Done sys env st U w')
      (fun w' => Orderly sys tools env st U items w' ∧ J w') := by
  have hmem : i ∈ items := by rw [hi]; simp
  have hpi := hp i hmem
  have step : ∀ {m : Op OpResult} {Q : OpResult → World → Prop} {w1 : World}, Same w w1 → Sends (Allowed i.Acts) env m →
      (∃ E, Post sys lost m env st1 w1 (fun r _ w' => Q r w') E) →
      (∀ r w', Q r w' → Orderly sys tools env st U items w' → i.Done sys env st U w') →
      Post sys lost m env st1 w1 (fun _ _ w' => (Orderly sys tools env st U items w' ∧ J w') ∧ ∀ j ∈ pre ++ [i], j.Done sys env st U w')
        (fun w' => Orderly sys tools env st U items w' ∧ J w') := by
    rintro m Q w1 hs1 hs ⟨E, hq⟩ hdone
    have hd1 : ∀ j ∈ pre, j.Done sys env st U w1 := fun j hj => Done.same (hp j (by rw [hi]; exact List.mem_append_left _ hj)) hs1 (hd j hj)
    refine ((commands_frame (lost := lost) (st1 := st1) hp hc hJ hi hs (ho.same hp hs1) (hJ.same hs1 hj) hd1).and hq).mono ?_ fun _ h => h.1.1
    rintro r _ w2 ⟨⟨h1, h2⟩, h3⟩
    refine ⟨h1, fun j hj => ?_⟩
    rcases List.mem_append.mp hj with hj | hj
    · exact h2 j hj
    · rw [List.mem_singleton.mp hj]; exact hdone r w2 h3 h1.1
  have keep : ∀ w', Same w w' → Orderly sys tools env st U items w' ∧ J w' := fun w' h => ⟨ho.same hp h, hJ.same h hj⟩
  cases i with
  | files c =>
    have hsub : ∀ t ∈ c.tasks sys.sha512, t ∈ siteTasks sys.sha512 items := fun t ht => List.mem_flatMap.mpr ⟨_, hmem, ht⟩
    have hsplit : siteTasks sys.sha512 items = siteTasks sys.sha512 pre ++ (c.tasks sys.sha512 ++ siteTasks sys.sha512 post) := by
      rw [hi]; simp [siteTasks, Item.tasks]
    have hdist := ho.tasks.distinct
    rw [hsplit, List.map_append, List.map_append] at hdist
    obtain ⟨_, hd2, hd3⟩ := List.nodup_append.mp hdist
    obtain ⟨hd4, _, _⟩ := List.nodup_append.mp hd2
    have hperm := order_perm (sha512 := sys.sha512) hpi hd4
    have hpre : ∀ d, d ∈ siteTasks sys.sha512 pre → ∃ c', .files c' ∈ pre ∧ d ∈ c'.tasks sys.sha512 := by
      intro d hd'
      obtain ⟨j, hj, hdj⟩ := List.mem_flatMap.mp hd'
      cases j with
      | files c' => exact ⟨c', hj, hdj⟩
      | _ => cases hdj
    have hstart : Going sys tools env st (siteTasks sys.sha512 items) w (fun d => d ∈ siteTasks sys.sha512 pre) w :=
      { Going.start (ts := siteTasks sys.sha512 items) (env := env) (st := st) ho.ordinary with
        member := fun d hd' => by rw [hsplit]; exact List.mem_append_left _ hd'
        granted := fun d hd' => by
          obtain ⟨c', h1, h2⟩ := hpre d hd'
          obtain ⟨h3, h4⟩ := hd _ h1 d h2
          exact ⟨h3, open_way.mp h4⟩ }
    have hpost := carries_post (lost := lost) ho.tasks hm hdry (call_carries hpi) hst hstart (fun t ht => hsub t (hperm.mem_iff.mp ht))
      ((hperm.map _).nodup_iff.mpr hd4) (fun d hd' hin => by
        obtain ⟨t, ht, he⟩ := List.mem_map.mp hin
        refine hd3 _ (List.mem_map.mpr ⟨d, hd', rfl⟩) _ (List.mem_append_left _ (List.mem_map.mpr ⟨t, hperm.mem_iff.mp ht, rfl⟩)) he.symm)
    refine hpost.mono ?_ fun w2 h => ⟨h.orderly hcm hoct hc ho, hJ.untouched _ _ _ h.untouched hj⟩
    rintro r st2 w2 ⟨⟨hst2, hu⟩, hg⟩
    have ho2 := hg.orderly hcm hoct hc ho
    have hacc := hg.untouched.accounts
    refine ⟨hst2, ⟨ho2, hJ.untouched _ _ _ hg.untouched hj⟩, fun j hj => ?_⟩
    rcases List.mem_append.mp hj with hj | hj
    · have hdj := hd j hj
      cases j with
      | files c' =>
        intro t ht
        obtain ⟨h1, h2⟩ := hg.granted t (.inl (List.mem_flatMap.mpr ⟨_, hj, ht⟩))
        exact ⟨granted_congr hacc.1 hacc.2 h1, open_way.mpr h2⟩
      | group name present gid system => simp only [Item.Done, groupNamed] at *; rw [hacc.2]; exact hdj
      | user a =>
        have h1 : userNamed w2 a.user = userNamed w a.user := by rw [hg.untouched.rest]; rfl
        have h2 : accountOf w2 a.user = accountOf w a.user := by rw [hg.untouched.rest]; rfl
        simp only [Item.Done] at *
        rw [h1, h2]; exact hdj
      | packages found m order names present =>
        have h1 : w2.packages = w.packages := by rw [hg.untouched.rest]
        simp only [Item.Done] at *
        rw [h1]; exact hdj
      | repo G a =>
        have hin : Item.repo G a ∈ items := by rw [hi]; exact List.mem_append_left _ hj
        simp only [Item.Done] at *
        rw [hc.clones G a hin w w2 hg.untouched]; exact hdj
      | service found unit state enabled =>
        have hin : Item.service found unit state enabled ∈ items := by rw [hi]; exact List.mem_append_left _ hj
        have h1 := hc.running found unit state enabled hin w w2 hg.untouched
        have h2 := hc.enabled pre c post hi found unit state enabled hj w w2 ⟨fun q hq => hu.fs q fun ⟨t, ht, hcov⟩ => hq ⟨t, hperm.mem_iff.mp ht, hcov⟩, hu.rest⟩
        simp only [Item.Done] at *
        rw [h1, h2]; exact hdj
    · rw [List.mem_singleton.mp hj]
      intro t ht
      obtain ⟨h1, h2⟩ := hg.granted t (.inr (hperm.mem_iff.mpr ht))
      exact ⟨granted_congr hacc.1 hacc.2 h1, open_way.mpr h2⟩
  | group name present gid system =>
    refine stackless (step (same_refl w) (sends_group _ _ _ _) ⟨_, (group_post hpi.2 hpi.1).mono (fun r _ w' h => h.2 hdry) fun _ h => h⟩ ?_) (balanced_group _ _ _ _ _) hst
    intro r w' h _
    simp only [Item.Done]
    split at h
    · rename_i hpr
      obtain ⟨e, h1, h2, _⟩ := h
      rw [if_pos hpr]
      exact ⟨e, h1, h2⟩
    · rename_i hpr
      rw [if_neg hpr]
      exact h
  | user a =>
    obtain ⟨hstale, hcomplete⟩ := ho.users a hmem
    refine stackless (step (same_refl w) (sends_user a) ⟨_, (user_post hpi.2.2 hpi.1 ho.groups hstale ?_).mono (fun r _ w' h => h.2 hdry) fun _ h => h⟩ ?_) (balanced_user _ _) hst
    · intro _ h
      cases hu : userNamed w a.user with
      | none => rfl
      | some e => exact absurd h (hcomplete (by rw [hu]; simp))
    · intro r w' h _
      simp only [Item.Done]
      split at h
      · rename_i hpr
        rw [if_pos hpr]
        obtain ⟨u, hs, hreach⟩ := h
        obtain ⟨gid, gs, hacc, hgs⟩ := hs.account
        refine ⟨_, hacc, Reached.fits (cur := accountOf w a.user) ?_ ?_ hpi.2.1⟩
        · exact ⟨hreach.uid, hreach.group, hreach.ownGroup, fun x => (hgs x).trans (hreach.groups x), hreach.gecos, hreach.home, hreach.shell, hreach.hash⟩
        · obtain ⟨_, _, _, _, _, _, h4⟩ := accountOf_iff.mp hacc
          rw [h4]; exact memberOf_nodup hs.unique _
      · rename_i hpr
        rw [if_neg hpr]
        exact h
  | packages found m order names present =>
    obtain ⟨⟨query, install, remove, yes, hb, H⟩, horder, hn, hf⟩ := hpi
    obtain ⟨Y⟩ := hb.queries
    have key := fun (w1 : World) (hs1 : Same w w1) => step (m := packageWith order m names present true) hs1 (sends_packages hb found horder _ _)
      ⟨_, (packageWith_post Y H horder).mono (fun r _ w' h => h.2 hdry) fun _ h => h⟩ (fun r w' h _ p hpn => by
        have := h p hpn
        cases present <;> simpa using this)
    cases found with
    | false => exact stackless (key w (same_refl w)) (backend_balanced hb _ _ _ _) hst
    | true => exact stackless (package_found (hf rfl) keep key) (balanced_operation _ _ (.package _ _ _ _)) hst
  | service found unit state enabled =>
    obtain ⟨hs, T, hf⟩ := hpi
    have hk : KnownState state := by
      intro s h
      rcases hs with h' | h' | h' <;> rw [h'] at h <;> cases h
      · exact .inl rfl
      · exact .inr (.inr (.inr rfl))
    have key := fun (w1 : World) (hs1 : Same w w1) => step (m := systemdService unit state enabled false true) hs1 (sends_unit found hs _)
      ⟨_, (service_post T (knownState hk)).mono (fun r _ w' h => h.2.2.2 hdry) fun _ h => h⟩ (fun r w' h ho' => by
        have hrel := (ho.same hp hs1).services found unit state enabled hmem
        have hrel' := ho'.services found unit state enabled hmem
        obtain ⟨h1, h2⟩ := runs_reached hrel h
        refine ⟨fun hst => ?_, h1.2.2.2.2, h2.2.1, h2.2.2⟩
        have := h1.2.1 hst
        revert this hrel'
        generalize U.active false w' unit = a
        cases a <;> decide)
    cases found with
    | false => exact stackless (key w (same_refl w)) (balanced_systemdService _ _ _ _ _) hst
    | true => exact stackless (service_found (hf rfl) keep key) (balanced_operation [] _ (.service _ _ _ _)) hst
  | repo G a =>
    obtain ⟨hbt, T, u, hu, hbr⟩ := hpi
    have href : refOf a = requested a := by unfold refOf; rw [if_neg hbt]
    refine stackless (step (same_refl w) (sends_checkout G a) ⟨_, (repo_post T ho.ordinary.stat).mono (fun r _ w' h => h) fun _ h => h⟩ ?_) (balanced_repo _ _) hst
    rintro r w' ⟨hok, hout, _⟩ _
    unfold RepoOutcome at hout
    rw [href, hu] at hout
    have husable := ho.repos G a hmem
    rcases hout with ⟨h1, _⟩ | ⟨_, h1, ⟨c, hc1⟩, _, h2⟩ | ⟨c, v, _, _, hc1, hv, hco, _, h2⟩ | ⟨_, _, h1, _⟩ | ⟨v, c, _, _, _, hv, _, hc1, hc2⟩
      | ⟨v, c, c', b, x, _, _, _, hc1, hc2, hv, _, _, hb1, hb2, hc3, hc4, _, hc5⟩
    · rw [hok rfl] at h1; cases h1
    · exact ⟨c, (by rw [same_clone T h2]; exact hc1), fun h => by rw [h1] at h; cases h⟩
    · cases hv
      exact ⟨c, (by rw [same_clone T h2]; exact hc1), fun _ => ⟨(husable c hc1).1, u, hu, hco.trans (T.branches _ _ hu hbr)⟩⟩
    · rw [hdry] at h1; cases h1
    · cases hv
      obtain ⟨h1, h2, _⟩ := hc2 hbt
      exact ⟨c, hc1, fun _ => ⟨h1, u, hu, h2⟩⟩
    · cases hv
      obtain ⟨_, ⟨b', h1, h2⟩, h3⟩ := husable c hc1
      rw [hb1] at h1
      cases h1
      rw [hb2, hu] at h2
      cases h2
      exact ⟨c', hc3, fun _ => ⟨hc4.trans hc2, u, hu, (hc5 h3).1⟩⟩

/-- What the calls that remain achieve. -/
theorem items_post (hm : PlainModes env st) (hcm : CanonicalModes env st) (hdry : env.dry = false)
    (hoct : OctalDirModes env st (siteTasks sys.sha512 items)) (hp : ∀ i ∈ items, i.Proper sys U) (hc : Compatible sys tools env st U items)
    {J : World → Prop} (hJ : Lasts sys tools env st U items J) :
    ∀ (todo pre : List Item) {st1 : St} {w : World}, items = pre ++ todo → st1.stack = st.stack → Orderly sys tools env st U items w → J w →
      (∀ j ∈ pre, j.Done sys env st U w) →
      Post sys lost (deploy (todo.map (Item.op sys.sha512))) env st1 w
        (fun _ _ w' => (Orderly sys tools env st U items w' ∧ J w') ∧ ∀ j ∈ items, j.Done sys env st U w') (fun w' => Orderly sys tools env st U items w' ∧ J w') := by
  intro todo
  induction todo with
  | nil =>
    intro pre st1 w hi _ ho hj hd
    rw [List.append_nil] at hi
    subst hi
    exact Post.pure ⟨⟨ho, hj⟩, hd⟩
  | cons i todo ih =>
    intro pre st1 w hi hst ho hj hd
    rw [List.map_cons, deploy]
    refine Post.bind ((item_post (lost := lost) hm hcm hdry hoct hp hc hJ hi hst ho hj hd).mono ?_ fun _ h => h)
    rintro r st2 w2 ⟨hst2, ⟨ho2, hj2⟩, hd2⟩
    refine Post.bind ((ih (pre ++ [i]) (by rw [hi]; simp) hst2 ho2 hj2 hd2).mono ?_ fun _ h => h)
    rintro rs st3 w3 h
    exact Post.pure h

/-! ### Running a script again -/

theorem Tasks.single {ts : List Task} (h : Tasks sys w ts) {t : Task} (ht : t ∈ ts) : Tasks sys w [t] := by
  have hmem : ∀ {d}, d ∈ [t] → d ∈ ts := fun hd => by rw [List.mem_singleton.mp hd]; exact ht
  exact ⟨fun d hd => h.proper d (hmem hd), fun d hd => h.names d (hmem hd), by simp, fun d hd => h.plain d (hmem hd),
    fun d hd e he => h.apart d (hmem hd) e (hmem he), fun d hd => h.links d (hmem hd), fun ⟨d, hd, ha⟩ => h.rooted ⟨d, hmem hd, ha⟩⟩

theorem done_ready {c : Call} (hcm : CanonicalModes env st) (hi : .files c ∈ items) (ho : Orderly sys tools env st U items w)
    (hd : (Item.files c).Done sys env st U w) {t : Task} (ht : t ∈ c.tasks sys.sha512) : t.wish.Ready sys env st w (pathOf t.names) := by
  have hmem : t ∈ siteTasks sys.sha512 items := List.mem_flatMap.mpr ⟨_, hi, ht⟩
  refine granted_ready (tools := tools) (ts := [t]) (w0 := w) (ho.tasks.single hmem) hcm (fun d hd' => ?_)
    { Going.start (ts := [t]) (env := env) (st := st) ho.ordinary with
      member := fun _ h => h
      granted := fun d hd' => by
        rw [List.mem_singleton.mp hd']
        exact ⟨(hd t ht).1, open_way.mp (hd t ht).2⟩ } (by simp)
  rw [List.mem_singleton.mp hd']
  exact ho.bits t hmem

/-- If the host is as the call asks for, nothing is done. -/
theorem item_calm {i : Item} (hm : PlainModes env st) (hcm : CanonicalModes env st) (hp : ∀ i ∈ items, i.Proper sys U)
    (hown : AllOwned env st (siteTasks sys.sha512 items)) (hmem : i ∈ items) {st1 : St} {w1 : World} (hst : st1.stack = st.stack)
    (ho : Orderly sys tools env st U items w) (hd : i.Done sys env st U w) (hs : Same w w1) :
    Post sys lost (i.op sys.sha512) env st1 w1
      (fun r st' w' => st'.stack = st.stack ∧ (r.success = true ∧ (i.Full → r.changed = false)) ∧ Same w w') (Same w) := by
  have hpi := hp i hmem
  have hp0 := hpi
  have hd1 := Done.same hpi hs hd
  have ho1 := ho.same hp hs
  have step : ∀ {m : Op OpResult} {E : World → Prop} {Q : OpResult → World → Prop} {w1 : World}, Same w w1 → Post sys lost m env st1 w1 (fun r _ w' => Q r w') E →
      (∀ w', E w' → Same w1 w') → (∀ r w', Q r w' → (r.success = true ∧ (i.Full → r.changed = false)) ∧ Same w1 w') →
      Post sys lost m env st1 w1 (fun r _ w' => (r.success = true ∧ (i.Full → r.changed = false)) ∧ Same w w') (Same w) := by
    intro m E Q w1 hs h hE hQ
    exact h.mono (fun r _ w' hq => ⟨(hQ r w' hq).1, same_trans hs (hQ r w' hq).2⟩) fun w' he => same_trans hs (hE w' he)
  cases i with
  | files c =>
    refine (call_calm ho.ordinary hm hcm ho.aliases hst hs hpi fun t ht => ?_).mono ?_ fun _ h => h
    · have hts : t ∈ siteTasks sys.sha512 items := List.mem_flatMap.mpr ⟨_, hmem, ht⟩
      exact ⟨ho.tasks.proper t hts, hown t hts, done_ready hcm hmem ho hd ht⟩
    · rintro r st2 w2 ⟨⟨h1, h2, h3⟩, h4⟩
      exact ⟨h1, ⟨h2, fun _ => h3⟩, h4⟩
  | group name present gid system =>
    exact stackless (step hs (group_calm hpi.1 hd1) (fun _ h => h) fun r w' h => ⟨⟨h.1.1, fun _ => h.1.2⟩, h.2⟩) (balanced_group _ _ _ _ _) hst
  | user a =>
    exact stackless (step hs (user_calm hpi.1.user.2.2 (fun _ => ho1.groups) hd1) (fun _ h => h) fun r w' h => ⟨⟨h.1.1, fun _ => h.1.2⟩, h.2⟩) (balanced_user _ _) hst
  | packages found m order names present =>
    obtain ⟨⟨query, install, remove, yes, hb, H⟩, horder, hn, hf⟩ := hpi
    obtain ⟨Y⟩ := hb.queries
    have key := fun (w2 : World) (hs2 : Same w1 w2) => step (same_trans hs hs2) (packageWith_calm (env := env) (st := st1) (lost := lost) (check := true) Y H horder (fun p hpn => by
      have := Done.same hp0 hs2 hd1 p hpn
      cases present <;> simpa using this) hn) (fun _ h => h) fun r w' h => ⟨⟨h.1.1, fun _ => h.1.2⟩, h.2⟩
    cases found with
    | false => exact stackless (key w1 (same_refl w1)) (backend_balanced hb _ _ _ _) hst
    | true => exact stackless (package_found (hf rfl) (fun w' h => same_trans hs h) key) (balanced_operation _ _ (.package _ _ _ _)) hst
  | service found unit state enabled =>
    obtain ⟨hss, T, hf⟩ := hpi
    have hk : KnownState state := by
      intro s h
      rcases hss with h' | h' | h' <;> rw [h'] at h <;> cases h
      · exact .inl rfl
      · exact .inr (.inr (.inr rfl))
    have key : ∀ w2, Same w1 w2 → Post sys lost (systemdService unit state enabled false true) env st1 w2
        (fun r _ w' => (r.success = true ∧ ((Item.service found unit state enabled).Full → r.changed = false)) ∧ Same w w') (Same w) := by
      intro w2 hs2
      obtain ⟨d1, d2, d3, d4⟩ := Done.same hp0 hs2 hd1
      have hseen : state = none ∨ state = some (seenState (U.active false w2 unit)) := by
        rcases hss with h | h | h
        · exact .inl h
        · right; rw [h]; rcases d1 h with ha | ha <;> rw [ha] <;> rfl
        · right; rw [h]; have ha := d2 h; revert ha; generalize U.active false w2 unit = a; cases a <;> decide
      have hon : enabled = none ∨ enabled = some (decide (U.file false w2 unit = .enabled)) := by
        cases enabled with
        | none => exact .inl rfl
        | some e => cases e with
          | true => right; simp [d3 rfl]
          | false => right; simp [d4 rfl]
      have h1 : stateDiffers state (seenState (U.active false w2 unit)) = false := by
        rcases hseen with h | h <;> rw [h] <;> simp [stateDiffers]
      have h2 : enabledDiffers enabled (decide (U.file false w2 unit = .enabled)) = false := by
        rcases hon with h | h <;> rw [h] <;> simp [enabledDiffers]
      refine step (same_trans hs hs2) (service_post T (knownState hk)) (fun _ h => h.2 h1 h2) ?_
      rintro r w' ⟨⟨k1, k2⟩, _, k3, _⟩
      refine ⟨⟨k1, fun hf => ?_⟩, k3 h1 h2⟩
      rw [k2]
      rcases hseen with h | h
      · exact absurd h hf.1
      · rcases hon with h' | h'
        · exact absurd h' hf.2
        · simp [← h, ← h']
    cases found with
    | false => exact stackless (key w1 (same_refl w1)) (balanced_systemdService _ _ _ _ _) hst
    | true => exact stackless (service_found (hf rfl) (fun w' h => same_trans hs h) key) (balanced_operation [] _ (.service _ _ _ _)) hst
  | repo G a =>
    obtain ⟨hbt, T, u, hu, hbr⟩ := hpi
    have href : refOf a = requested a := by unfold refOf; rw [if_neg hbt]
    obtain ⟨c, hc, hup⟩ := hd1
    have hcommit : a.update = true → c.commit = u.object := by
      intro h
      obtain ⟨_, v, hv, hcv⟩ := hup h
      rw [hu] at hv
      cases hv
      exact hcv.trans (T.branches _ _ hu hbr).symm
    have hcalm : ∀ {w'}, RepoCalm G a (refOf a) env.dry w1 w' → Same w1 w' := by
      intro w' h
      obtain ⟨_, h2⟩ := h
      obtain ⟨_, h3, h4⟩ := h2 c hc
      cases hupd : a.update with
      | false => exact h3 hupd
      | true => exact h4 u (by rw [href]; exact hu) (hcommit hupd)
    refine stackless (step hs (repo_post T ho1.ordinary.stat) (fun _ h => hcalm h) ?_) (balanced_repo _ _) hst
    rintro r w' ⟨hok, hout, hcalm'⟩
    refine ⟨⟨hok rfl, fun _ => ?_⟩, hcalm hcalm'⟩
    unfold RepoOutcome at hout
    rw [href, hu] at hout
    rcases hout with ⟨_, h, _⟩ | ⟨_, _, _, h, _⟩ | ⟨_, _, _, _, _, _, _, h, _⟩ | ⟨v, _, _, hv, h, _⟩ | ⟨_, _, _, _, h, _⟩ | ⟨v, c', _, _, _, _, _, hu', hc', _, hv, h, _⟩
    · exact h
    · exact h
    · exact h
    · cases hv
      obtain ⟨h1, h2⟩ := h c hc
      exact absurd (hcommit h1) h2
    · rw [hc] at h; cases h
    · rw [hc] at hc'
      cases hc'
      cases hv
      exact absurd (hcommit hu') h

theorem items_calm (hm : PlainModes env st) (hcm : CanonicalModes env st) (hp : ∀ i ∈ items, i.Proper sys U)
    (hown : AllOwned env st (siteTasks sys.sha512 items)) (ho : Orderly sys tools env st U items w) (hd : ∀ i ∈ items, i.Done sys env st U w) :
    ∀ (todo : List Item) {st1 : St} {w1 : World}, (∀ i ∈ todo, i ∈ items) → st1.stack = st.stack → Same w w1 →
      Post sys lost (deploy (todo.map (Item.op sys.sha512))) env st1 w1
        (fun rs _ w' => (∀ (n : Nat) r i, rs[n]? = some r → todo[n]? = some i → r.success = true ∧ (i.Full → r.changed = false)) ∧ Same w w') (Same w) := by
  intro todo
  induction todo with
  | nil => intro st1 w1 _ _ hs; exact Post.pure ⟨(by simp), hs⟩
  | cons i todo ih =>
    intro st1 w1 hsub hst hs
    rw [List.map_cons, deploy]
    have hmem := hsub i (by simp)
    refine Post.bind ((item_calm (lost := lost) hm hcm hp hown hmem hst ho (hd i hmem) hs).mono ?_ fun _ h => h)
    rintro r st2 w2 ⟨hst2, hr, hs2⟩
    refine Post.bind ((ih (fun j hj => hsub j (by simp [hj])) hst2 hs2).mono ?_ fun _ h => h)
    rintro rs st3 w3 ⟨hrs, hs3⟩
    refine Post.pure ⟨?_, hs3⟩
    intro n x j hx hj
    cases n with
    | zero => simp at hx hj; subst hx; subst hj; exact hr
    | succ n => exact hrs n x j (by simpa using hx) (by simpa using hj)

theorem item_success {i : Item} (hmem : i ∈ items) (hts : Tasks sys w0 (siteTasks sys.sha512 items)) :
    Post sys lost (i.op sys.sha512) env st w (fun r _ _ => r.success = true) (fun _ => True) := by
  cases i with
  | files c => exact checked_success (call_operation fun t ht => hts.proper t (List.mem_flatMap.mpr ⟨_, hmem, ht⟩)) _ _
  | packages found m order names present =>
    cases found with
    | false => exact checked_success ⟨_, rfl⟩ _ _
    | true =>
      refine Post.bind ((Post.trivial _).mono (fun x _ _ _ => ?_) fun _ h => h)
      cases x with
      | none => exact checked_success ⟨_, rfl⟩ _ _
      | some m => exact checked_success ⟨_, rfl⟩ _ _
  | service found unit state enabled =>
    cases found with
    | false => exact checked_success ⟨_, rfl⟩ _ _
    | true =>
      refine Post.bind (((Post.trivial _).and_execution (R := fun x _ => ∀ f, x = some f → ∃ k, (k, f) ∈ serviceManagers) fun t x st' hx f hf => ?_).mono (fun x _ _ h => ?_) fun _ h => h)
      · subst hf
        exact findCommand_mem hx
      · cases x with
        | none => exact checked_success ⟨_, rfl⟩ _ _
        | some f =>
          obtain ⟨k, hk⟩ := h.2 f rfl
          cases List.mem_singleton.mp hk
          exact checked_success ⟨_, rfl⟩ _ _
  | _ => exact checked_success ⟨_, rfl⟩ _ _

end
end Verif.Ops
