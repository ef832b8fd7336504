/-
Property theorems about files: upload, download, stat (C11-C15).
-/
import Verif.Client.Lemmas
import Verif.Remote.Example
import Verif.Wire.Props

namespace Verif.Client

open Wire (Packet Kind encoding)
open Remote

/-- If the path leads to something that exists, that is a regular file. -/
def RegularOrNew (w : World) (file : Str) : Prop :=
  ∀ l n, lookup w.fs w.cwd file true = .ok (l, n) → ∃ c, n.kind = .file c

/-! ### C11 -/

/-- What is at the place the path leads to after a successful upload. -/
theorem upload_node {sys : Sys} {w w' : World} {file : Str} {content : Bytes} {mode owner group : Option Str}
    (ht : RegularOrNew w file) (h : (Connector.upload file content mode owner group).run (direct sys) w = (.ok (), w')) :
    ∃ l mo ug g, resolve w.fs w.cwd file true = .ok l
      ∧ Remote.optional resolveOct mode = .ok mo ∧ Remote.optional (Remote.resolveUser w) owner = .ok ug
      ∧ Remote.optional (Remote.resolveGroup w) group = .ok g
      ∧ w' = w.set l (some (chownNode w (ug.map (·.1)) (pickGid g ug) (chmodNode w mo (writtenNode w l content))))
      ∧ lookup w'.fs w'.cwd file true
        = .ok (l, chownNode w (ug.map (·.1)) (pickGid g ug) (chmodNode w mo (writtenNode w l content))) := by
  obtain ⟨mo, ug, g, raw, q, h1, h2, h3, h4⟩ := upload_ok h
  obtain ⟨l, hl, hw, hk⟩ := doUpload_ok ht h4
  exact ⟨l, mo, ug, g, hl, h1, h2, h3, hw, hk⟩

theorem final_kind (w : World) (l : Loc) (content : Bytes) (mo : Option Int) (u g : Option Nat) :
    (chownNode w u g (chmodNode w mo (writtenNode w l content))).kind = .file content := by
  have : (chmodNode w mo (writtenNode w l content)).kind = .file content := by
    unfold chmodNode; split <;> exact writtenNode_kind _ _ _
  unfold chownNode
  split <;> exact this

/-- C11. After a successful upload the path leads to a regular file with exactly the uploaded content, and that is what
`download` returns, for every host, path, content, mode, owner and group (unless reading fails). The path may lead through
symbolic links. -/
theorem C11_download_after_upload (sys : Sys) (w w' : World) (file : Str) (content : Bytes) (mode owner group : Option Str)
    (ht : RegularOrNew w file)
    (h : (Connector.upload file content mode owner group).run (direct sys) w = (.ok (), w'))
    (hopen : sys.fault w' (.openRead file) = none) (hread : sys.fault w' (.read file) = none) :
    (Connector.download file).run (direct sys) w' = (.ok content, w') := by
  obtain ⟨l, mo, ug, g, _, _, _, _, _, hk⟩ := upload_node ht h
  have hnn : hasNul file = false := by
    cases hn : hasNul file with
    | false => rfl
    | true =>
      obtain ⟨_, _, _, _, _, _, _, _, h4⟩ := upload_ok h
      simp [doUpload, osWrite, guardCall, hn] at h4
  simp only [Connector.download, Prog.run, direct, handle, handleDownload, osRead, guardCall, hnn, hopen, hk,
    final_kind, hread, Bool.false_eq_true, if_false]
  rfl

/-- What `stat` reports about an object. -/
def described (sys : Sys) (w : World) (sha : Bool) (n : Node) : StatResult :=
  { type := typeName n.kind, mode := Py.natStr 8 n.perm, owner := ownerName w n.uid, group := groupName w n.gid,
    size := (n.size : Nat), mtime := n.mtime, ctime := n.ctime,
    sha512sum := match n.kind with
      | .file c => if sha then some (sys.sha512 c) else none
      | _ => none }

theorem ftype_eq {n : Node} (hp : n.perm < 4096) : ftype n.stMode = typeName n.kind ∧ n.stMode % 4096 = n.perm := by
  have h : n.stMode / 4096 = n.kind.fmt := by unfold Node.stMode; omega
  refine ⟨?_, by unfold Node.stMode; omega⟩
  unfold ftype
  rw [h]
  cases n.kind <;> rfl

theorem stat_run {sys : Sys} {w : World} {path : Str} {fo : Bool} (sha : Bool) {l : Loc} {n : Node} (hn : hasNul path = false)
    (hp : n.perm < 4096) (hl : lookup w.fs w.cwd path fo = .ok (l, n)) (hf : sys.fault w (.stat path fo) = none)
    (hopen : sys.fault w (.openRead path) = none) (hread : sys.fault w (.read path) = none) :
    (Connector.stat path fo sha).run (direct sys) w = (.ok (some (described sys w sha n)), w) := by
  obtain ⟨h1, h2⟩ := ftype_eq hp
  have key : (if sha && typeName n.kind == p!"file" then Remote.optional (osRead sys w) (some path) else .ok none)
      = .ok (match n.kind with
        | .file c => if sha then some c else none
        | _ => none) := by
    cases sha with
    | false => cases n.kind <;> rfl
    | true =>
      cases hk : n.kind with
      | file c =>
        have hl' : lookup w.fs w.cwd path true = .ok (l, n) := by
          cases fo with
          | true => exact hl
          | false => exact lookup_follow (fun t ht => by rw [hk] at ht; cases ht) hl
        simp only [typeName, Bool.true_and]
        rw [if_pos (by decide)]
        simp only [Remote.optional, osRead, guardCall, hn, hopen, hl', hk, hread, Bool.false_eq_true, if_false]
        rfl
      | _ => rfl
  simp only [Connector.stat, Prog.run, direct, handle, handleStat, osStat, guardCall, hn, hf, hl, Bool.false_eq_true, if_false, h1, h2, key,
    unpackResponse, described]
  cases n.kind <;> cases sha <;> rfl

theorem final_perm {w : World} (hw : w.Sane) (l : Loc) (content : Bytes) (mo : Option Int) (u g : Option Nat) :
    (chownNode w u g (chmodNode w mo (writtenNode w l content))).perm < 4096 := by
  have h1 : (writtenNode w l content).perm < 4096 := by
    unfold writtenNode
    split
    · rename_i n hn; exact (hw.node l n hn).perm
    · show (0o600 : Nat) < 4096
      decide
  have h2 : (chmodNode w mo (writtenNode w l content)).perm < 4096 := by
    unfold chmodNode
    split
    · exact h1
    · simp only; omega
  unfold chownNode
  split
  · unfold chownPerm
    have hle : ∀ a b : Nat, a &&& b ≤ a := fun a b => Nat.and_le_left
    simp only
    split
    · exact h2
    · split
      · exact Nat.lt_of_le_of_lt (hle _ _) h2
      · exact Nat.lt_of_le_of_lt (hle _ _) h2
  · exact h2

theorem upload_noNul {sys : Sys} {w w' : World} {file : Str} {content : Bytes} {mode owner group : Option Str}
    (h : (Connector.upload file content mode owner group).run (direct sys) w = (.ok (), w')) : hasNul file = false := by
  cases hn : hasNul file with
  | false => rfl
  | true =>
    obtain ⟨_, _, _, _, _, _, _, _, h4⟩ := upload_ok h
    simp [doUpload, osWrite, guardCall, hn] at h4

/-- C11. After a successful upload `stat` reports a regular file of the size of the content and, if asked for, its checksum. -/
theorem C11_stat_after_upload (sys : Sys) (w w' : World) (hw : w.Sane) (file : Str) (content : Bytes) (mode owner group : Option Str)
    (ht : RegularOrNew w file)
    (h : (Connector.upload file content mode owner group).run (direct sys) w = (.ok (), w'))
    (hstat : sys.fault w' (.stat file true) = none)
    (hopen : sys.fault w' (.openRead file) = none) (hread : sys.fault w' (.read file) = none) :
    ∃ r, (Connector.stat file true true).run (direct sys) w' = (.ok (some r), w')
      ∧ r.type = p!"file" ∧ r.size = content.length ∧ r.sha512sum = some (sys.sha512 content) := by
  obtain ⟨l, mo, ug, g, _, _, _, _, _, hk⟩ := upload_node ht h
  have hkind := final_kind w l content mo (ug.map (·.1)) (pickGid g ug)
  have hperm := final_perm hw l content mo (ug.map (·.1)) (pickGid g ug)
  refine ⟨_, stat_run true (upload_noNul h) hperm hk hstat hopen hread, ?_, ?_, ?_⟩
  · simp only [described, hkind, typeName]
  · simp only [described, Node.size, hkind]
  · simp only [described, hkind, if_true]

/-- C11. Whether it succeeds or fails, and however it fails, an upload changes at most the object its path leads to:
nothing else in the file system, no account, no process. -/
theorem C11_nothing_else_changed (sys : Sys) (w : World) (file : Str) (content : Bytes) (mode owner group : Option Str) :
    let w' := ((Connector.upload file content mode owner group).run (direct sys) w).2
    w' = w ∨ ∃ l, resolve w.fs w.cwd file true = .ok l ∧ (∀ q, q ≠ l → w'.fs q = w.fs q) ∧ w' = { w with fs := w'.fs } := by
  intro w'
  have hw' : w' = (handle sys (.upload file content mode owner group) w).2 := by
    rw [← direct_world]; rfl
  rcases direct_upload sys w file content mode owner group with ⟨m, h, _⟩ | ⟨mo, ug, g, _, _, _, h⟩
  · left
    rw [hw', ← direct_world, h]
  · rw [hw', h]
    rcases doUpload_frame sys w file content mo (ug.map (·.1)) (pickGid g ug) with h | ⟨l, hl, o, ho⟩
    · exact .inl h
    · refine .inr ⟨l, hl, ?_, ?_⟩
      · intro q hq
        rw [ho]
        exact setNode_ne _ _ hq
      · rw [ho]; rfl

/-- A case that meets the hypotheses: overwriting a file through a symbolic link, and creating one in a setgid directory. -/
example : RegularOrNew Example.world p!"/link/motd" ∧ RegularOrNew Example.world p!"/home/x" := by
  constructor
  · intro l n h
    have : lookup Example.world.fs Example.world.cwd p!"/link/motd" true
      = .ok ([p!"etc", p!"motd"], { kind := .file [104, 105, 10], perm := 0o644, uid := 1000, gid := 100, mtime := 5, ctime := 6 }) := rfl
    rw [this] at h; cases h; exact ⟨_, rfl⟩
  · intro l n h
    have : lookup Example.world.fs Example.world.cwd p!"/home/x" true = .error ENOENT := rfl
    rw [this] at h; cases h
example : ((Connector.upload p!"/link/motd" [1, 2] (some p!"640") (some p!"alice") none).run (direct Example.sys) Example.world).1 = .ok () := rfl
example : ((Connector.upload p!"/home/x" [1, 2]).run (direct Example.sys) Example.world).1 = .ok () := rfl

/-! ### C12 -/

/-- The arguments that `upload` must refuse: a mode that is not octal, or an owner or group that does not exist. -/
def BadUpload (w : World) (mode owner group : Option Str) : Prop :=
  (∃ m ∈ mode, Py.parseInt 8 m = none)
  ∨ (∃ o ∈ owner, ¬ NoNul o ∨ ∀ e, ¬ DenotesUser w o e)
  ∨ (∃ g ∈ group, ¬ NoNul g ∨ ∀ e, ¬ DenotesGroup w g e)

/-- C12. An upload that ends with a ValueError has changed nothing: in particular an existing file was not truncated. -/
theorem C12_rejected_changes_nothing (sys : Sys) (w w' : World) (file : Str) (content : Bytes) (mode owner group : Option Str) (m : Str)
    (h : (Connector.upload file content mode owner group).run (direct sys) w = (.error (.valueError m), w')) : w' = w := by
  rw [upload_run_error] at h
  rcases direct_upload sys w file content mode owner group with ⟨msg, hd, _⟩ | ⟨mo, ug, g, _, _, _, hh⟩
  · rw [hd] at h; cases h; rfl
  · exact absurd h (doUpload_no_valueError hh m w')

/-- C12. Exactly the bad arguments are refused, before anything is changed. -/
theorem C12_refused_iff (sys : Sys) (w : World) (hw : w.Sane) (file : Str) (content : Bytes) (mode owner group : Option Str) :
    (∃ m, (Connector.upload file content mode owner group).run (direct sys) w = (.error (.valueError m), w))
      ↔ BadUpload w mode owner group := by
  have hmode : (∃ e, Remote.optional resolveOct mode = .error e) ↔ ∃ m ∈ mode, Py.parseInt 8 m = none := by
    cases mode with
    | none => simp [Remote.optional]
    | some m => cases hp : Py.parseInt 8 m <;> simp [Remote.optional, resolveOct, hp]
  have howner : (∃ e, Remote.optional (Remote.resolveUser w) owner = .error e) ↔ ∃ o ∈ owner, ¬ NoNul o ∨ ∀ e, ¬ DenotesUser w o e := by
    cases owner with
    | none => simp [Remote.optional]
    | some o =>
      constructor
      · rintro ⟨e, he⟩
        refine ⟨o, rfl, ?_⟩
        by_cases hn : NoNul o
        · right
          intro x hx
          have := (resolveUser_eq hw o).1 x hx hn
          simp [Remote.optional, this] at he
        · exact .inl hn
      · rintro ⟨o', ho, h⟩
        cases ho
        rcases h with h | h
        · have := hasNul_iff.mpr h
          exact ⟨nulError, by simp [Remote.optional, Remote.resolveUser, getpwnam, this, nulError]⟩
        · obtain ⟨m, hm⟩ := (resolveUser_eq hw o).2.2 h
          exact ⟨.valueError m, by simp [Remote.optional, hm]⟩
  have hgroup : (∃ e, Remote.optional (Remote.resolveGroup w) group = .error e) ↔ ∃ g ∈ group, ¬ NoNul g ∨ ∀ e, ¬ DenotesGroup w g e := by
    cases group with
    | none => simp [Remote.optional]
    | some o =>
      constructor
      · rintro ⟨e, he⟩
        refine ⟨o, rfl, ?_⟩
        by_cases hn : NoNul o
        · right
          intro x hx
          have := (resolveGroup_eq hw o).1 x hx hn
          simp [Remote.optional, this] at he
        · exact .inl hn
      · rintro ⟨o', ho, h⟩
        cases ho
        rcases h with h | h
        · have := hasNul_iff.mpr h
          exact ⟨nulError, by simp [Remote.optional, Remote.resolveGroup, getgrnam, this, nulError]⟩
        · obtain ⟨m, hm⟩ := (resolveGroup_eq hw o).2.2 h
          exact ⟨.valueError m, by simp [Remote.optional, hm]⟩
  unfold BadUpload
  rw [← hmode, ← howner, ← hgroup]
  rcases direct_upload sys w file content mode owner group with ⟨m, hd, hb⟩ | ⟨mo, ug, g, h1, h2, h3, hh⟩
  · exact ⟨fun _ => hb, fun _ => ⟨m, upload_run_error.mpr hd⟩⟩
  · constructor
    · rintro ⟨m, h⟩
      exact absurd (upload_run_error.mp h) (doUpload_no_valueError hh m w)
    · rintro (⟨e, he⟩ | ⟨e, he⟩ | ⟨e, he⟩)
      · rw [h1] at he; cases he
      · rw [h2] at he; cases he
      · rw [h3] at he; cases he

example : BadUpload Example.world (some p!"rwx") none none ∧ BadUpload Example.world none (some p!"bob") none :=
  ⟨.inl ⟨_, rfl, rfl⟩, .inr (.inl ⟨_, rfl, .inr fun e h => by cases findUser_iff.mpr h⟩)⟩
example : ∃ m, (Connector.upload p!"/etc/motd" [] (some p!"644") (some p!"alice") (some p!"wheel")).run (direct Example.sys) Example.world
    = (.error (.valueError m), Example.world) := ⟨_, rfl⟩

/-! ### C13 -/

/-- Where the path leads, and what is there. -/
def At (w : World) (file : Str) (n : Node) : Prop := ∃ l, lookup w.fs w.cwd file true = .ok (l, n)

/-- The full statement of C13: after a successful upload the file has the requested mode, owner and group; the group
defaults to the primary group of the owner if an owner is given; what is neither requested nor implied is as before. -/
def C13_Statement : Prop :=
  ∀ (sys : Sys) (w w' : World) (file : Str) (content : Bytes) (mode owner group : Option Str) (old new : Node),
    sys.Sane → w.Sane → RegularOrNew w file → At w file old →
    (Connector.upload file content mode owner group).run (direct sys) w = (.ok (), w') → At w' file new →
    (match mode with
      | some m => Py.parseInt 8 m = some (new.perm : Int)
      | none => new.perm = old.perm)
    ∧ (match owner with
      | some o => ∃ e, DenotesUser w o e ∧ new.uid = e.uid
      | none => new.uid = old.uid)
    ∧ (match group, owner with
      | some g, _ => ∃ e, DenotesGroup w g e ∧ new.gid = e.gid
      | none, some o => ∃ e, DenotesUser w o e ∧ new.gid = e.gid
      | none, none => new.gid = old.gid)

theorem motd_regular : RegularOrNew Example.world p!"/etc/motd" := by
  intro l n h
  have : lookup Example.world.fs Example.world.cwd p!"/etc/motd" true
    = .ok ([p!"etc", p!"motd"], { kind := .file [104, 105, 10], perm := 0o644, uid := 1000, gid := 100, mtime := 5, ctime := 6 }) := rfl
  rw [this] at h; cases h; exact ⟨_, rfl⟩

/-- C13 is false of the code, 1: giving only a group makes root the owner. -/
theorem C13_group_only_refuted : ¬ C13_Statement := by
  intro h
  have := (h Example.sys Example.world _ p!"/etc/motd" [1] none none (some p!"root")
    { kind := .file [104, 105, 10], perm := 0o644, uid := 1000, gid := 100, mtime := 5, ctime := 6 }
    { kind := .file [1], perm := 0o644, uid := 0, gid := 0, mtime := 2000, ctime := 2000 }
    Example.sys_sane Example.world_sane motd_regular ⟨_, rfl⟩ rfl ⟨_, rfl⟩).2.1
  cases this

/-- C13 is false of the code, 2: with an owner, the setuid bit of the mode is lost. -/
theorem C13_setuid_refuted : ¬ C13_Statement := by
  intro h
  have := (h Example.sys Example.world _ p!"/etc/motd" [1] (some p!"4755") (some p!"alice") none
    { kind := .file [104, 105, 10], perm := 0o644, uid := 1000, gid := 100, mtime := 5, ctime := 6 }
    { kind := .file [1], perm := 0o755, uid := 1000, gid := 100, mtime := 2000, ctime := 2000 }
    Example.sys_sane Example.world_sane motd_regular ⟨_, rfl⟩ rfl ⟨_, rfl⟩).1
  have h2 : Py.parseInt 8 p!"4755" = some 2541 := rfl
  simp only [h2] at this
  cases this

/-- C13 on every host: giving only a group always makes the user with uid 0 the owner. -/
theorem C13_group_only_owner_root_refuted (sys : Sys) (w w' : World) (file : Str) (content : Bytes) (mode : Option Str) (g : Str)
    (ht : RegularOrNew w file)
    (h : (Connector.upload file content mode none (some g)).run (direct sys) w = (.ok (), w')) :
    ∃ new, At w' file new ∧ new.uid = 0 := by
  obtain ⟨l, mo, ug, gi, _, _, h2, h3, _, hk⟩ := upload_node ht h
  refine ⟨_, ⟨l, hk⟩, ?_⟩
  cases h2
  cases gi with
  | none =>
    simp only [Remote.optional] at h3
    split at h3 <;> cases h3
  | some gi => rfl

/-- C13, mode. If a mode without setuid and setgid bits is given, or neither owner nor group, the file has exactly that mode.
Missing: setuid and setgid bits together with an owner or group. -/
theorem C13_mode_partial (sys : Sys) (w w' : World) (file : Str) (content : Bytes) (m : Str) (owner group : Option Str) (i : Nat)
    (ht : RegularOrNew w file) (hm : Py.parseInt 8 m = some (i : Int)) (hi : i < 4096) (hb : i < 0o2000 ∨ (owner = none ∧ group = none))
    (h : (Connector.upload file content (some m) owner group).run (direct sys) w = (.ok (), w')) :
    ∃ new, At w' file new ∧ new.perm = i := by
  obtain ⟨l, mo, ug, g, _, h1, h2, h3, _, hk⟩ := upload_node ht h
  refine ⟨_, ⟨l, hk⟩, ?_⟩
  simp only [Remote.optional, resolveOct, hm] at h1
  cases h1
  have hp : (chmodNode w (some (i : Int)) (writtenNode w l content)).perm = i := by
    simp only [chmodNode]
    omega
  have hkind : (chmodNode w (some (i : Int)) (writtenNode w l content)).kind = .file content := by
    simp only [chmodNode, writtenNode_kind]
  unfold chownNode
  split
  · simp only [chownPerm, hkind, hp]
    rcases hb with hb | ⟨rfl, rfl⟩
    · have e1 : i &&& 0o1777 = i := and_low 10 hb
      have e2 : i &&& 0o3777 = i := and_low 11 (by omega)
      simp [e1, e2]
    · cases h2; cases h3
      rename_i hc
      cases hc
  · exact hp

/-- C13, owner and group. If an owner is given, it is the owner, and the group is the given one or the owner's primary group. -/
theorem C13_owner_partial (sys : Sys) (w w' : World) (hw : w.Sane) (file : Str) (content : Bytes) (mode group : Option Str) (o : Str)
    (ht : RegularOrNew w file)
    (h : (Connector.upload file content mode (some o) group).run (direct sys) w = (.ok (), w')) :
    ∃ new e, At w' file new ∧ DenotesUser w o e ∧ new.uid = e.uid
      ∧ (match group with
        | some g => ∃ ge, DenotesGroup w g ge ∧ new.gid = ge.gid
        | none => new.gid = e.gid) := by
  obtain ⟨l, mo, ug, g, _, h1, h2, h3, _, hk⟩ := upload_node ht h
  simp only [Remote.optional] at h2
  cases hr : Remote.resolveUser w o with
  | error e => rw [hr] at h2; cases h2
  | ok x =>
    rw [hr] at h2; cases h2
    obtain ⟨e, he, hu, hg⟩ := (resolveUser_eq hw o).2.1 x.1 x.2 hr
    refine ⟨_, e, ⟨l, hk⟩, he, ?_, ?_⟩
    · simp [chownNode, hu]
    · cases group with
      | none => cases h3; simp [chownNode, pickGid, hg]
      | some gn =>
        simp only [Remote.optional] at h3
        cases hr : Remote.resolveGroup w gn with
        | error e => rw [hr] at h3; cases h3
        | ok y =>
          rw [hr] at h3; cases h3
          obtain ⟨ge, hge, hy⟩ := (resolveGroup_eq hw gn).2.1 y hr
          exact ⟨ge, hge, by simp [chownNode, pickGid, hy]⟩

/-- C13, nothing given. An existing file keeps mode, owner and group (so the documented default mode 600 does not apply to
it); a new file has mode 600, the dispatcher's user, and its group unless the directory is setgid. -/
theorem C13_defaults_partial (sys : Sys) (w w' : World) (file : Str) (content : Bytes) (ht : RegularOrNew w file)
    (h : (Connector.upload file content none none none).run (direct sys) w = (.ok (), w')) :
    ∃ new, At w' file new ∧ ((∃ old, At w file old ∧ new.perm = old.perm ∧ new.uid = old.uid ∧ new.gid = old.gid)
      ∨ ((∃ l, resolve w.fs w.cwd file true = .ok l ∧ w.fs l = none ∧ new.gid = inheritGid w.fs l w.gid)
        ∧ new.perm = 0o600 ∧ new.uid = w.uid)) := by
  obtain ⟨l, mo, ug, g, hl, h1, h2, h3, _, hk⟩ := upload_node ht h
  cases h1; cases h2; cases h3
  refine ⟨_, ⟨l, hk⟩, ?_⟩
  simp only [chownNode, chmodNode, pickGid, Option.map_none, Option.isSome_none, Bool.or_self, Bool.false_eq_true, if_false]
  cases hf : w.fs l with
  | some old =>
    refine .inl ⟨old, ⟨l, lookup_of hl hf⟩, ?_⟩
    simp only [writtenNode, hf, and_self]
  | none =>
    refine .inr ⟨⟨l, hl, hf, ?_⟩, ?_⟩ <;> simp only [writtenNode, hf, and_self]

example : (Py.parseInt 8 p!"0640" = some (416 : Nat)) ∧ (416 : Nat) < 0o2000 := ⟨rfl, by decide⟩
example : ((Connector.upload p!"/etc/motd" [1] (some p!"0640") (some p!"1000") none).run (direct Example.sys) Example.world).1 = .ok () := rfl
example : ((Connector.upload p!"/home/new" [1]).run (direct Example.sys) Example.world).1 = .ok () := rfl

/-! ### C14 -/

/-- C14. `stat` returns None exactly if the system says that there is no such file (for paths without NUL; faults of the
system other than ENOENT do not matter). -/
theorem C14_none_iff (sys : Sys) (w : World) (path : Str) (fo sha : Bool) (hn : NoNul path) :
    ((Connector.stat path fo sha).run (direct sys) w).1 = .ok none ↔
      (∃ e, sys.fault w (.stat path fo) = some e ∧ e.errno = ENOENT)
      ∨ (sys.fault w (.stat path fo) = none ∧ lookup w.fs w.cwd path fo = .error ENOENT) := by
  have hn := noNul_hasNul hn
  simp only [Connector.stat, Prog.run, direct, handle, handleStat, osStat, guardCall, hn, Bool.false_eq_true, if_false]
  cases hf : sys.fault w (.stat path fo) with
  | some e =>
    simp only [OSErr.exn, isENOENT]
    by_cases he : e.errno = ENOENT
    · simp [he, unpackResponse, Packet.getattr, Packet.kind, Packet.vals, Wire.schema, Wire.fieldText, Exn.isValueError]
    · simp [he, Exn.isValueError]
  | none =>
    cases hl : lookup w.fs w.cwd path fo with
    | error n =>
      simp only [OSErr.exn, osErr, isENOENT]
      by_cases he : n = ENOENT
      · simp [he, unpackResponse, Packet.getattr, Packet.kind, Packet.vals, Wire.schema, Wire.fieldText, Exn.isValueError]
      · simp [he, Exn.isValueError]
    | ok x =>
      obtain ⟨l, n⟩ := x
      simp only [reduceCtorEq, false_and, exists_false, and_false, or_self, iff_false]
      generalize (if (sha && ftype n.stMode == p!"file") = true then Remote.optional (osRead sys w) (some path) else .ok none) = x
      cases x with
      | error e =>
        cases e with
        | osError n s m => cases n <;> simp [lostConnection, Exn.isValueError]
        | _ => simp [lostConnection, Exn.isValueError]
      | ok sum => simp [unpackResponse]

/-- C14. If the path leads to an object and reading it does not fail, `stat` returns what that object is: its one type, its
permission bits as octal digits, the names of its owner and group (or numbers if there are none), size, times, and the
checksum exactly if it was asked for and the object is a regular file. -/
theorem C14_describes (sys : Sys) (w : World) (hw : w.Sane) (path : Str) (fo sha : Bool) (l : Loc) (n : Node) (hn : NoNul path)
    (hl : lookup w.fs w.cwd path fo = .ok (l, n)) (hf : sys.fault w (.stat path fo) = none)
    (hopen : sys.fault w (.openRead path) = none) (hread : sys.fault w (.read path) = none) :
    ∃ r, (Connector.stat path fo sha).run (direct sys) w = (.ok (some r), w)
      ∧ r.type = typeName n.kind
      ∧ r.mode = Py.natStr 8 n.perm
      ∧ ShowsUser w n.uid r.owner ∧ ShowsGroup w n.gid r.group
      ∧ r.size = n.size ∧ r.mtime = n.mtime ∧ r.ctime = n.ctime
      ∧ (∀ s, r.sha512sum = some s ↔ sha = true ∧ ∃ c, n.kind = .file c ∧ s = sys.sha512 c) := by
  have hp := (hw.node l n (lookup_ok hl).2).perm
  refine ⟨_, stat_run sha (noNul_hasNul hn) hp hl hf hopen hread, rfl, rfl, ?_, ?_, rfl, rfl, rfl, ?_⟩
  · simp only [described, ownerName, ShowsUser]
    have := getpwuid_eq hw (n.uid : Int)
    rw [this]
    simp only
    cases hfu : w.users.find? (·.uid == n.uid) with
    | none => right; simp
    | some e => left; exact ⟨e, rfl, rfl⟩
  · simp only [described, groupName, ShowsGroup]
    have := getgrgid_eq hw (n.gid : Int)
    rw [this]
    simp only
    cases hfu : w.groups.find? (·.gid == n.gid) with
    | none => right; simp
    | some e => left; exact ⟨e, rfl, rfl⟩
  · intro s
    simp only [described]
    cases hk : n.kind <;> cases sha <;> simp [eq_comm]

/-- C14. The mode is reported canonically: two objects show the same digits exactly if their permission bits are the same. -/
theorem C14_mode_canonical (a b : Node) : Py.natStr 8 a.perm = Py.natStr 8 b.perm ↔ a.perm = b.perm :=
  ⟨Py.natStr_injective (.inl rfl), fun h => by rw [h]⟩

/-- C14. Every other error of path resolution is raised. -/
theorem C14_other_errors_raised (sys : Sys) (w : World) (path : Str) (fo sha : Bool) (errno : Int) (hn : NoNul path)
    (hf : sys.fault w (.stat path fo) = none) (hl : lookup w.fs w.cwd path fo = .error errno) (he : errno ≠ ENOENT) :
    ∃ s m, (Connector.stat path fo sha).run (direct sys) w = (.error (.remoteOSError errno s m), w) := by
  have hn := noNul_hasNul hn
  refine ⟨strerror errno, (osErr errno path).msg, ?_⟩
  simp [Connector.stat, Prog.run, direct, handle, handleStat, osStat, guardCall, hn, hf, hl, OSErr.exn, osErr, isENOENT, he, Exn.isValueError]

example : lookup Example.world.fs Example.world.cwd p!"/etc/motd/x" false = .error ENOTDIR ∧ ENOTDIR ≠ ENOENT := ⟨rfl, by decide⟩
example : ((Connector.stat p!"/dangling" true).run (direct Example.sys) Example.world).1 = .ok none := rfl
example : ∃ r, ((Connector.stat p!"/dangling").run (direct Example.sys) Example.world).1 = .ok (some r) ∧ r.type = p!"link" := ⟨_, rfl, rfl⟩
example : ∃ l n, lookup Example.world.fs Example.world.cwd p!"/link/motd" true = .ok (l, n) ∧ n.perm = 0o644 := ⟨_, _, rfl, rfl⟩

/-- A host with one file whose name is not valid UTF-8 (a lone surrogate stands for the byte 0xff). -/
def oddWorld : World :=
  { Example.world with fs := fun l =>
      if l = [] then some (Example.dirNode 0o755)
      else if l = [[0xDCFF]] then some { Example.dirNode 0o644 with kind := .file [1] }
      else none }

/-- C14 is false at the API for paths that cannot be encoded: `stat` says that the file does not exist although it does. -/
theorem C14_unencodable_refuted : (∃ l n, lookup oddWorld.fs oddWorld.cwd [47, 0xDCFF] false = .ok (l, n))
    ∧ ((Connector.stat [47, 0xDCFF]).run (tunnel Example.sys) (idle oddWorld)).1 = .ok none :=
  ⟨⟨_, _, rfl⟩, rfl⟩

/-! ### C15 -/

/-- C15. A query leaves the remote exactly as it was, whatever its arguments and the state and errors of the remote. -/
theorem C15_query_changes_nothing (sys : Sys) (w : World) (p : Packet) (h : isQuery p = true) : (handle sys p w).2 = w := by
  cases p with
  | stat path fo sha =>
    simp only [handle, handleStat]
    repeat' split
    all_goals rfl
  | resolveUser u =>
    simp only [handle, handleResolveUser]
    repeat' split
    all_goals rfl
  | resolveGroup u =>
    simp only [handle, handleResolveGroup]
    repeat' split
    all_goals rfl
  | download f =>
    simp only [handle, handleDownload]
    repeat' split
    all_goals rfl
  | queryUser u b =>
    simp only [handle, handleQueryUser, userEntry]
    repeat' split
    all_goals rfl
  | queryGroup g =>
    simp only [handle, handleQueryGroup]
    repeat' split
    all_goals rfl
  | getenv k => rfl
  | checkAlive => rfl
  | _ => cases h

/-- C15, through the tunnel: also if the arguments cannot be encoded or crash the dispatcher. (`Small`: no string has 2^64
bytes or more.) -/
theorem C15_query_through_tunnel (sys : Sys) (w : World) (p : Packet) (h : isQuery p = true) (hsm : p.Small) :
    (tunnel sys p (idle w)).2.world = w := by
  cases hp : (Wire.writePacket p).2 with
  | some e =>
    unfold tunnel
    cases hw : Wire.writePacket p with
    | mk b o =>
      rw [hw] at hp
      simp only at hp
      subst hp
      rfl
  | none =>
    have hs : p.Sendable := ⟨(Wire.C05_send_iff_fits p hsm).mp hp, hsm⟩
    have hr : p.kind.isRequest = true := by cases p <;> first | rfl | cases h
    rw [tunnel_step hr hs]
    have := C15_query_changes_nothing sys w p h
    have hd : (dispatch sys p w).2 = (handle sys p w).2 := by
      unfold dispatch
      cases handle sys p w with
      | mk r w' =>
        cases r with
        | answer raw q => rfl
        | close => rfl
        | raise e =>
          cases e with
          | osError n s m => cases n <;> rfl
          | _ => rfl
    simp only [hd, this]

/-- C15, for the API functions. -/
theorem C15_api (sys : Sys) (w : World) (s : Str) (o : Option Str) (a b : Bool) :
    ((Connector.stat s a b).run (direct sys) w).2 = w
    ∧ ((Connector.resolveUser o).run (direct sys) w).2 = w
    ∧ ((Connector.resolveGroup o).run (direct sys) w).2 = w
    ∧ ((Connector.download s).run (direct sys) w).2 = w
    ∧ ((Connector.queryUser s a).run (direct sys) w).2 = w
    ∧ ((Connector.queryGroup s).run (direct sys) w).2 = w
    ∧ ((Connector.getenv s).run (direct sys) w).2 = w := by
  have h : ∀ p, isQuery p = true → (direct sys p w).2 = w := fun p hp => by
    rw [direct_world]; exact C15_query_changes_nothing sys w p hp
  exact ⟨h _ rfl, h _ rfl, h _ rfl, h _ rfl, h _ rfl, h _ rfl, h _ rfl⟩

/-- Queries are not the only requests: an upload does change the remote. -/
example : ((Connector.upload p!"/etc/new" [1]).run (direct Example.sys) Example.world).2.fs [p!"etc", p!"new"] ≠ none := by
  decide

end Verif.Client
