/-
Requests about different files can be exchanged: calls and requests.
-/
import Verif.Ops.BesideLemmas

namespace Verif.Ops

open Script Remote
open Client (Prog direct)
open Wire (Packet)

section
variable {sys : Sys} {tools : Tools} {Z C : Loc → Prop} {w w' : World} {names : List Str} {P : Str → Prop}

/-! #### Calls -/

theorem Clear.within (h : Clear w Z names) {w1 : World} (hw : Within C w w1) : Clear w1 Z names :=
  ⟨h.proper, fun p s hs n t hf hk => h.plain p s hs n t (hw.links p n t hf hk) hk, h.way⟩

theorem guard_here (hv : Unmoved sys tools P Z) (hu : Untouched Z w w') {path : Str} (hp : P path) {c : Remote.Call} (hc : callPath c = path) :
    guardCall sys w' path c = guardCall sys w path c := by
  unfold guardCall
  rw [hv.call w w' hu c (hc ▸ hp)]

theorem stat_here (hv : Unmoved sys tools P Z) (hu : Untouched Z w w') (h : Clear w Z names) (hp : P (pathOf names)) (fo : Bool) :
    osStat sys w' (pathOf names) fo = osStat sys w (pathOf names) fo := by
  unfold osStat
  rw [guard_here hv hu hp rfl, (lookup_here hu h w.cwd w'.cwd fo).1]

theorem isdir_here (hv : Unmoved sys tools P Z) (hu : Untouched Z w w') (h : Clear w Z names) (hp : P (pathOf names)) :
    osIsdir sys w' (pathOf names) = osIsdir sys w (pathOf names) := by
  unfold osIsdir
  rw [stat_here hv hu h hp]

theorem read_here (hv : Unmoved sys tools P Z) (hu : Untouched Z w w') (h : Clear w Z names) (hp : P (pathOf names)) :
    osRead sys w' (pathOf names) = osRead sys w (pathOf names) := by
  unfold osRead
  rw [guard_here hv hu hp rfl, (lookup_here hu h w.cwd w'.cwd true).1, hv.call w w' hu (.read (pathOf names)) hp]

theorem chdir_here (hv : Unmoved sys tools P Z) (hu : Untouched Z w w') (h : Clear w Z names) (hp : P (pathOf names)) (c : Loc) :
    osChdir sys w' c (pathOf names) = osChdir sys w c (pathOf names) := by
  unfold osChdir
  rw [guard_here hv hu hp rfl, (lookup_here hu h c c true).1]

theorem alone_write (hv : Unmoved sys tools P Z) (hu : Untouched Z w w') (h : Clear w Z names) (hp : P (pathOf names)) (hc : C names) (content : Bytes) :
    Alone Z C w (osWrite sys w (pathOf names) content) (osWrite sys w' (pathOf names) content) := by
  obtain ⟨h1, h2⟩ := resolve_here hu h w.cwd w'.cwd true
  unfold osWrite
  rw [guard_here hv hu hp rfl, h1, hv.call w w' hu (.write (pathOf names)) hp, hv.written w w' hu _ hp, hu.clock, hu.uid, hu.gid]
  cases guardCall sys w (pathOf names) (.openWrite (pathOf names)) with
  | error e => exact .same hu _
  | ok _ =>
    simp only
    cases hr : resolve w.fs w.cwd (pathOf names) true with
    | error e => exact .same hu _
    | ok l =>
      cases h2 l hr
      simp only
      rw [h.last hu, h.gid hu]
      cases hf : w.fs names with
      | none =>
        simp only
        cases sys.fault w (.write (pathOf names)) <;> exact .set hu _ hc (fun n t hn => by cases hn; exact nofun)
      | some n =>
        simp only
        cases n.kind <;> simp only
        case dir => exact .same hu _
        case file => cases sys.fault w (.write (pathOf names)) <;> exact .set hu _ hc (fun n t hn => by cases hn; exact nofun)
        all_goals cases sys.fault w (.write (pathOf names)) <;> exact .same hu _

theorem alone_osChmod (hv : Unmoved sys tools P Z) (hu : Untouched Z w w') (h : Clear w Z names) (hp : P (pathOf names)) (hc : C names) (m : Int) :
    Alone Z C w (osChmod sys w (pathOf names) m) (osChmod sys w' (pathOf names) m) := by
  obtain ⟨h1, h2⟩ := lookup_here hu h w.cwd w'.cwd true
  unfold osChmod
  rw [guard_here hv hu hp rfl, h1, hu.clock]
  cases fitsCInt m with
  | false => exact .same hu _
  | true =>
    cases guardCall sys w (pathOf names) (.chmod (pathOf names)) with
    | error e => exact .same hu _
    | ok _ =>
      simp only
      cases hr : lookup w.fs w.cwd (pathOf names) true with
      | error e => exact .same hu _
      | ok x =>
        obtain ⟨l, n⟩ := x
        obtain ⟨rfl, hf⟩ := h2 _ hr
        exact .set hu _ hc (fun m t hm => by cases hm; exact h.plain.at hf t)

theorem alone_osChown (hv : Unmoved sys tools P Z) (hu : Untouched Z w w') (h : Clear w Z names) (hp : P (pathOf names)) (hc : C names) (u g : Nat) :
    Alone Z C w (osChown sys w (pathOf names) u g) (osChown sys w' (pathOf names) u g) := by
  obtain ⟨h1, h2⟩ := lookup_here hu h w.cwd w'.cwd true
  unfold osChown
  rw [guard_here hv hu hp rfl, h1, hu.clock]
  cases guardCall sys w (pathOf names) (.chown (pathOf names)) with
  | error e => exact .same hu _
  | ok _ =>
    simp only
    cases hr : lookup w.fs w.cwd (pathOf names) true with
    | error e => exact .same hu _
    | ok x =>
      obtain ⟨l, n⟩ := x
      obtain ⟨rfl, hf⟩ := h2 _ hr
      exact .set hu _ hc (fun m t hm => by cases hm; exact h.plain.at hf t)

theorem Alone.after {α : Type} {w1 : World} {x y : α × World} (h1 : Within C w w1) (h : Alone Z C w1 x y) : Alone Z C w x y := ⟨h.both, h1.trans h.within⟩

theorem alone_upload (hv : Unmoved sys tools P Z) (hu : Untouched Z w w') (h : Clear w Z names) (hp : P (pathOf names)) (hc : C names)
    (c : Bytes) (m : Option Int) (u g : Option Nat) : Alone Z C w (doUpload sys (pathOf names) c m u g w) (doUpload sys (pathOf names) c m u g w') := by
  have fin : ∀ v v' : World, Untouched Z v v' → Clear v Z names → Alone Z C v
      (match (if (u.isSome || g.isSome) = true then osChown sys v (pathOf names) (u.getD 0) (g.getD 0) else (.ok (), v)) with
        | (.error e, w3) => (Reply.raise e, w3)
        | (.ok _, w3) => (Reply.answer [] .ok, w3))
      (match (if (u.isSome || g.isSome) = true then osChown sys v' (pathOf names) (u.getD 0) (g.getD 0) else (.ok (), v')) with
        | (.error e, w3) => (Reply.raise e, w3)
        | (.ok _, w3) => (Reply.answer [] .ok, w3)) := by
    intro v v' hu h
    by_cases hi : (u.isSome || g.isSome) = true
    · rw [if_pos hi, if_pos hi]
      obtain ⟨⟨h1, h2⟩, h3⟩ := alone_osChown hv hu h hp hc (u.getD 0) (g.getD 0)
      generalize osChown sys v (pathOf names) (u.getD 0) (g.getD 0) = a at h1 h2 h3
      obtain ⟨a1, a2⟩ := a
      generalize osChown sys v' (pathOf names) (u.getD 0) (g.getD 0) = b at h1 h2 h3
      obtain ⟨b1, b2⟩ := b
      dsimp only at h1 h2 h3
      subst h1
      cases b1 <;> exact ⟨⟨rfl, h2⟩, h3⟩
    · rw [if_neg hi, if_neg hi]
      exact .same hu _
  unfold doUpload
  obtain ⟨⟨h1, h2⟩, h3⟩ := alone_write hv hu h hp hc c
  generalize osWrite sys w (pathOf names) c = a at h1 h2 h3
  obtain ⟨a1, a2⟩ := a
  generalize osWrite sys w' (pathOf names) c = b at h1 h2 h3
  obtain ⟨b1, b2⟩ := b
  dsimp only at h1 h2 h3
  subst h1
  cases b1 with
  | error e => exact ⟨⟨rfl, h2⟩, h3⟩
  | ok _ =>
    simp only
    cases m with
    | none => exact .after h3 (fin _ _ h2 (h.within h3))
    | some m =>
      simp only
      obtain ⟨⟨g1, g2⟩, g3⟩ := alone_osChmod hv h2 (h.within h3) hp hc m
      generalize osChmod sys a2 (pathOf names) m = a at g1 g2 g3
      obtain ⟨a3, a4⟩ := a
      generalize osChmod sys b2 (pathOf names) m = b at g1 g2 g3
      obtain ⟨b3, b4⟩ := b
      dsimp only at g1 g2 g3
      subst g1
      cases b3 with
      | error e => exact ⟨⟨rfl, g2⟩, h3.trans g3⟩
      | ok _ => exact .after (h3.trans g3) (fin _ _ g2 (h.within (h3.trans g3)))

/-! #### Requests -/

/-- The working directory of a request, if there is one, is a clear path. -/
def CwdClear (w : World) (Z : Loc → Prop) (P : Str → Prop) (cwd : Option Str) : Prop := ∀ d, cwd = some d → ∃ names, d = pathOf names ∧ Clear w Z names ∧ P d

theorem plan_here (hv : Unmoved sys tools P Z) (hu : Untouched Z w w') {cwd : Option Str} (hd : CwdClear w Z P cwd) (command : List Str) (stdin : Option Bytes)
    (capture : Bool) (user group umask : Option Str) :
    Client.plan sys command stdin capture user group umask cwd w' = Client.plan sys command stdin capture user group umask cwd w := by
  have hru : Remote.resolveUser w' = Remote.resolveUser w := by
    funext u; unfold Remote.resolveUser getpwnam getpwuid; rw [hu.users]
  have hrg : Remote.resolveGroup w' = Remote.resolveGroup w := by
    funext u; unfold Remote.resolveGroup getgrnam getgrgid; rw [hu.groups]
  have h1 : cwd.any (fun c => !osIsdir sys w' c) = cwd.any (fun c => !osIsdir sys w c) := by
    cases cwd with
    | none => rfl
    | some d =>
      obtain ⟨n, rfl, hcl, hp⟩ := hd d rfl
      simp only [Option.any]
      rw [isdir_here hv hu hcl hp]
  have h2 : ∀ um u g, startChild sys w' cwd um u g = startChild sys w cwd um u g := by
    intro um u g
    unfold startChild maySetId
    rw [hu.uid, hu.gid, hu.cwd]
    cases cwd with
    | none => rfl
    | some d =>
      obtain ⟨n, rfl, hcl, hp⟩ := hd d rfl
      simp only [Remote.optional, chdir_here hv hu hcl hp]
  unfold Client.plan
  simp only [hru, hrg, h1, h2, hu.supp]

/-- The commands that a task consists of. -/
inductive Command (names : List Str) (tree : Bool) : List Str → Prop where
  | mkdir : Command names tree [p!"mkdir", p!"--", pathOf names]
  | touch : Command names tree [p!"touch", p!"--", pathOf names]
  | rm : Command names tree [p!"rm", p!"--", pathOf names]
  | chmod (m : Str) (h : m.head? ≠ some 45) : Command names tree [p!"chmod", m, p!"--", pathOf names]
  | chown (s : Str) (h : s.head? ≠ some 45) : Command names tree [p!"chown", s, p!"--", pathOf names]
  | rmTree (h : tree = true) : Command names tree [p!"rm", p!"-rf", p!"--", pathOf names]

theorem alone_core (hv : Unmoved sys tools P Z) (hu : Untouched Z w w') (h : Clear w Z names) (hp : P (pathOf names)) (hc : C names) {tree : Bool}
    (ht : tree = true → ∀ s, C (names ++ s)) (p : Proc) (hcmd : Command names tree p.argv) : Alone Z C w (core tools p w) (core tools p w') := by
  have hl : p.argv.getLast? = some (pathOf names) := by
    generalize p.argv = argv at hcmd
    cases hcmd <;> rfl
  have hm : SameMind tools p w w' := ⟨hv.fault w w' hu p _ hl hp, hv.says w w' hu p _ hl hp, hv.kept w w' hu p _ hl hp, hv.ownerSpec w w' hu⟩
  unfold core
  rw [hv.missing w w' hu p _ hl hp]
  cases tools.missing p w with
  | some e => exact .same hu _
  | none =>
    simp only
    have hno : ∀ m : Str, m.head? ≠ some 45 → isOption m = false := by
      intro m hm
      unfold isOption
      simpa using hm
    generalize p.argv = argv at hcmd
    cases hcmd with
    | mkdir => exact alone_mkdir hm hu h hc
    | touch => exact alone_touch hm hu h hc
    | rm => exact alone_rm hm hu h hc
    | chmod m hm' =>
      have e : parseTool [p!"chmod", m, p!"--", pathOf names] = some (.chmod m (pathOf names)) := by
        simp [parseTool, hno m hm']
      rw [e]
      exact alone_chmod hm hu h hc
    | chown m hm' =>
      have e : parseTool [p!"chown", m, p!"--", pathOf names] = some (.chown m (pathOf names) true) := by
        simp [parseTool, hno m hm']
      rw [e]
      exact alone_chown hm hu h hc
    | rmTree htr =>
      have e : parseTool [p!"rm", p!"-rf", p!"--", pathOf names] = some (.rmTree (pathOf names)) := by
        simp [parseTool]
      rw [e]
      exact alone_rmTree hm hu h (ht htr)

/-- The requests of a script with these tasks. -/
inductive Asking (ts : List Task) (env : Env) (st : St) : Packet → Prop where
  | user (u : Option Str) : Asking ts env st (.resolveUser u)
  | group (u : Option Str) : Asking ts env st (.resolveGroup u)
  | cwd (d : Str) (fo sha : Bool) (h : WorkDir env st d) : Asking ts env st (.stat d fo sha)
  | stat (t : Task) (ht : t ∈ ts) (fo sha : Bool) : Asking ts env st (.stat (pathOf t.names) fo sha)
  | download (t : Task) (ht : t ∈ ts) : Asking ts env st (.download (pathOf t.names))
  | upload (t : Task) (ht : t ∈ ts) (content : Bytes) (mode owner group : Option Str) : Asking ts env st (.upload (pathOf t.names) content mode owner group)
  | run (t : Task) (ht : t ∈ ts) (tree : Bool) (htree : tree = true → t.wish = .absent .dir) (command : List Str) (hc : Command t.names tree command)
      (stdin : Option Bytes) (capture : Bool) (user group umask cwd : Option Str) (hd : ∀ d, cwd = some d → WorkDir env st d) :
      Asking ts env st (.processRun command stdin capture user group umask cwd)

theorem alone_stat (hv : Unmoved sys tools P Z) (hu : Untouched Z w w') (h : Clear w Z names) (hp : P (pathOf names)) (fo sha : Bool) :
    Alone Z C w (handle sys (.stat (pathOf names) fo sha) w) (handle sys (.stat (pathOf names) fo sha) w') := by
  have hn : ∀ x, ownerName w' x = ownerName w x := fun x => by unfold ownerName getpwuid; rw [hu.users]
  have hg : ∀ x, groupName w' x = groupName w x := fun x => by unfold groupName getgrgid; rw [hu.groups]
  simp only [handle, handleStat]
  rw [stat_here hv hu h hp]
  cases osStat sys w (pathOf names) fo with
  | error e => simp only; cases isENOENT e <;> exact .same hu _
  | ok s =>
    simp only
    have hr : Remote.optional (osRead sys w') (some (pathOf names)) = Remote.optional (osRead sys w) (some (pathOf names)) := by
      simp only [Remote.optional, read_here hv hu h hp]
    rw [hr, hn, hg]
    cases (if (sha && ftype s.stMode == p!"file") = true then Remote.optional (osRead sys w) (some (pathOf names)) else .ok none) <;> exact .same hu _

/-- What a script requests gets the same answer on hosts that differ in the places of the other one, and changes nothing but its own places. -/
theorem alone_handle {ts : List Task} {env : Env} {st : St} (hexec : sys.exec = core tools) (hv : Unmoved sys tools (Paths ts env st) Z) (hu : Untouched Z w w')
    (hts : ∀ t ∈ ts, Clear w Z t.names) (hd : ∀ d, WorkDir env st d → ∃ names, d = pathOf names ∧ Clear w Z names) {a : Packet} (ha : Asking ts env st a) :
    Alone Z (Zone ts) w (handle sys a w) (handle sys a w') := by
  cases ha with
  | user u =>
    have h1 : getpwnam w' = getpwnam w := by funext x; unfold getpwnam; rw [hu.users]
    have h2 : getpwuid w' = getpwuid w := by funext x; unfold getpwuid; rw [hu.users]
    simp only [handle, handleResolveUser]
    rw [h1, h2, hu.uid]
    cases getpwnam w (u.getD (Py.natStr 10 w.uid)) with
    | ok _ => exact .same hu _
    | error e =>
      cases e <;> try exact .same hu _
      simp only
      cases Py.parseInt 10 (u.getD (Py.natStr 10 w.uid)) with
      | none => exact .same hu _
      | some i => simp only; cases getpwuid w i <;> exact .same hu _
  | group u =>
    have h1 : getgrnam w' = getgrnam w := by funext x; unfold getgrnam; rw [hu.groups]
    have h2 : getgrgid w' = getgrgid w := by funext x; unfold getgrgid; rw [hu.groups]
    simp only [handle, handleResolveGroup]
    rw [h1, h2, hu.gid]
    cases getgrnam w (u.getD (Py.natStr 10 w.gid)) with
    | ok _ => exact .same hu _
    | error e =>
      cases e <;> try exact .same hu _
      simp only
      cases Py.parseInt 10 (u.getD (Py.natStr 10 w.gid)) with
      | none => exact .same hu _
      | some i => simp only; cases getgrgid w i <;> exact .same hu _
  | cwd d fo sha h =>
    obtain ⟨n, rfl, hc⟩ := hd d h
    exact alone_stat hv hu hc (.inr h) fo sha
  | stat t ht fo sha => exact alone_stat hv hu (hts t ht) (.inl ⟨t, ht, rfl⟩) fo sha
  | download t ht =>
    simp only [handle, handleDownload]
    rw [read_here hv hu (hts t ht) (.inl ⟨t, ht, rfl⟩)]
    cases osRead sys w (pathOf t.names) with
    | error e => simp only; cases isENOENT e <;> exact .same hu _
    | ok c => exact .same hu _
  | upload t ht content mode owner group =>
    have hru : Remote.resolveUser w' = Remote.resolveUser w := by
      funext u; unfold Remote.resolveUser getpwnam getpwuid; rw [hu.users]
    have hrg : Remote.resolveGroup w' = Remote.resolveGroup w := by
      funext u; unfold Remote.resolveGroup getgrnam getgrgid; rw [hu.groups]
    simp only [handle, handleUpload]
    rw [hru, hrg]
    cases Remote.optional resolveOct mode with
    | error e => exact .same hu _
    | ok m =>
      simp only
      cases Remote.optional (Remote.resolveUser w) owner with
      | error e => exact .same hu _
      | ok u =>
        simp only
        cases Remote.optional (Remote.resolveGroup w) group with
        | error e => exact .same hu _
        | ok g => exact alone_upload (C := Zone ts) hv hu (hts t ht) (.inl ⟨t, ht, rfl⟩) ⟨t, ht, .inl rfl⟩ content m (u.map (·.1)) (pickGid g u)
  | run t ht tree htree command hc stdin capture user group umask cwd hd' =>
    show Alone Z (Zone ts) w (handleRun sys command stdin capture user group umask cwd w) (handleRun sys command stdin capture user group umask cwd w')
    rw [Client.handleRun_eq, Client.handleRun_eq, plan_here hv hu (fun d he => by
      obtain ⟨n, h1, h2⟩ := hd d (hd' d he)
      exact ⟨n, h1, h2, .inr (hd' d he)⟩)]
    cases hpl : Client.plan sys command stdin capture user group umask cwd w with
    | error r => exact .same hu _
    | ok proc =>
      simp only
      have hargv : proc.argv = command := (plan_argv hpl).1
      have hu2 : Untouched Z { w with started := proc :: w.started } { w' with started := proc :: w'.started } :=
        ⟨hu.fs, by show _ = _; conv => lhs; rw [hu.rest]⟩
      have hcl : Clear { w with started := proc :: w.started } Z t.names := (hts t ht).within (C := Z) .history
      obtain ⟨⟨h1, h2⟩, h3⟩ := alone_core hv hu2 hcl (.inl ⟨t, ht, rfl⟩) (C := Zone ts) ⟨t, ht, .inl rfl⟩ (tree := tree)
        (fun h s => ⟨t, ht, .inr ⟨htree h, s, rfl⟩⟩) proc (hargv ▸ hc)
      rw [hexec]
      generalize core tools proc { w with started := proc :: w.started } = x at h1 h2 h3
      generalize core tools proc { w' with started := proc :: w'.started } = y at h1 h2
      obtain ⟨x1, x2⟩ := x
      obtain ⟨y1, y2⟩ := y
      dsimp only at h1 h2 h3
      subst h1
      cases y1 with
      | failed e => exact .same hu _
      | done o e c => cases capture <;> exact ⟨⟨rfl, h2⟩, Within.history.trans h3⟩

end
end Verif.Ops
