/-
C81: the result of an operation tells the truth about what was there before, and about what was asked for.
-/
import Verif.Ops.ResultLemmas
import Verif.Ops.AccountProps
import Verif.Ops.UserProps
import Verif.Ops.ServiceProps
import Verif.Ops.PackageProps
import Verif.Ops.GitProps

namespace Verif.Ops

open Script Remote

section
variable (sys : Sys) (tools : Tools) (lost : Nat → Option Bool) (env : Env) (st : St) (w : World) (r : OpResult)

/-- C81. `directory`. The initial state that is reported describes what is at the path; the final state describes the directory that is
asked for, with the settings in force. -/
theorem C81_directory (hh : HonestStat sys) (hw : w.Sane) (path : Str) (present touch : Bool) (mode owner group : Option Str) (check : Bool)
    (hr : (perform sys lost (directory path present touch mode owner group check) env st w).1 = .ok r) (hs : r.success = true) :
    PathBefore w path p!"dir" r.initial
    ∧ (present = true → PathAfter w (inForce env st { dirMode := mode, owner, group }).dirMode (inForce env st { dirMode := mode, owner, group }).owner
        (inForce env st { dirMode := mode, owner, group }).group touch r.final)
    ∧ (present = false → r.final = nothingThere) := by
  obtain ⟨h1, h2⟩ := reported_perform (reported_directory hh hw) hr hs
  cases present with
  | true => exact ⟨h1, fun _ => h2, nofun⟩
  | false => exact ⟨h1, nofun, fun _ => h2⟩

/-- C81. `file`. -/
theorem C81_file (hh : HonestStat sys) (hw : w.Sane) (path : Str) (present touch : Bool) (mode owner group : Option Str) (check : Bool)
    (hr : (perform sys lost (file path present touch mode owner group check) env st w).1 = .ok r) (hs : r.success = true) :
    PathBefore w path p!"file" r.initial
    ∧ (present = true → PathAfter w (inForce env st { fileMode := mode, owner, group }).fileMode (inForce env st { fileMode := mode, owner, group }).owner
        (inForce env st { fileMode := mode, owner, group }).group touch r.final)
    ∧ (present = false → r.final = nothingThere) := by
  obtain ⟨h1, h2⟩ := reported_perform (reported_file hh hw) hr hs
  cases present with
  | true => exact ⟨h1, fun _ => h2, nofun⟩
  | false => exact ⟨h1, nofun, fun _ => h2⟩

/-- C81. `link`. -/
theorem C81_link (hord : Ordinary sys tools w) (path target : Str) (present touch : Bool) (owner group : Option Str) (check : Bool)
    (hr : (perform sys lost (link path target present touch owner group check) env st w).1 = .ok r) (hs : r.success = true) :
    LinkBefore w path r.initial
    ∧ (present = true → LinkAfter w target (inForce env st { owner, group }).owner (inForce env st { owner, group }).group touch r.final)
    ∧ (present = false → r.final = noLink) := by
  obtain ⟨h1, h2⟩ := reported_perform (reported_link hord.exec hord.stat hord.sane) hr hs
  cases present with
  | true => exact ⟨h1, fun _ => h2, nofun⟩
  | false => exact ⟨h1, nofun, fun _ => h2⟩

/-- C81. Uploads and templates. -/
theorem C81_content (hh : HonestStat sys) (hw : w.Sane) (op : Op OpResult) (path : Str) (source : Except Exn Bytes) (mode owner group : Option Str) (check : Bool)
    (hop : Stores sys.sha512 mode owner group check op path source) (hr : (perform sys lost op env st w).1 = .ok r) (hs : r.success = true) :
    ContentBefore sys w path r.initial
    ∧ ∃ content, source = .ok content
      ∧ ContentAfter sys w content (inForce env st { fileMode := mode, owner, group }).fileMode (inForce env st { fileMode := mode, owner, group }).owner
          (inForce env st { fileMode := mode, owner, group }).group r.final :=
  reported_perform (reported_store hh hw hop) hr hs

/-- C81. `line`. -/
theorem C81_line (hh : HonestStat sys) (hw : w.Sane) (path line : Str) (present : Bool) (regex : Option Regex) (ws : Bool) (backup : Backup) (check : Bool)
    (hr : (perform sys lost (Ops.line path line present regex ws backup check) env st w).1 = .ok r) (hs : r.success = true) :
    (∃ there : Bool, (there = true ↔ LineThere w path line regex ws) ∧ r.initial = [(p!"line_present", .bool there)])
    ∧ r.final = [(p!"line_present", .bool present)] :=
  reported_perform (reported_line hh hw) hr hs

/-- C81. `user`. -/
theorem C81_user (a : UserArgs) (hname : Py.parseInt 10 a.user = none) (ha : NoFalsyArgs a) (check : Bool)
    (hr : (perform sys lost (user a check) env st w).1 = .ok r) (hs : r.success = true) :
    UserBefore w a.user r.initial ∧ (a.present = true → UserAfter w a r.final) ∧ (a.present = false → r.final = noAccount) := by
  obtain ⟨h1, h2⟩ := reported_perform (reported_user hname) hr hs
  rw [h1, h2]
  refine ⟨userBefore _, fun h => userAfter h ha, fun h => ?_⟩
  unfold wantedUser
  rw [h]
  rfl

/-- C81. `group`. -/
theorem C81_group (name : Str) (hname : Py.parseInt 10 name = none) (present : Bool) (gid : Option Int) (hgid : gid ≠ some 0) (system check : Bool)
    (hr : (perform sys lost (group name present gid system check) env st w).1 = .ok r) (hs : r.success = true) :
    (groupNamed w name = none ∧ r.initial = [(p!"exists", .bool false), (p!"gid", .null)]
      ∨ ∃ e, groupNamed w name = some e ∧ r.initial = [(p!"exists", .bool true), (p!"gid", .int e.gid)])
    ∧ (present = true → r.final = [(p!"exists", .bool true), (p!"gid", .optInt (orElse gid ((groupNamed w name).map fun e => (e.gid : Int))))])
    ∧ (present = false → r.final = [(p!"exists", .bool false), (p!"gid", .null)]) := by
  obtain ⟨h1, h2⟩ := reported_perform (reported_group hname) hr hs
  rw [h1, h2]
  refine ⟨?_, fun h => ?_, fun h => ?_⟩
  · cases h : groupNamed w name with
    | none => exact .inl ⟨rfl, rfl⟩
    | some e => exact .inr ⟨e, rfl, rfl⟩
  · rw [if_pos h, orInt_truthy hgid]; rfl
  · rw [h]; rfl

/-- C81. Packages: which of them were installed, and which are to be. -/
theorem C81_packages (order : List Str → List Str) (m : Manager) (query install remove : Str → List Str) (yes : Option Bytes → Int → Prop)
    (hm : Backend m query install remove yes) (hhost : PackageHost sys query install remove yes) (packages : List Str) (present check : Bool)
    (hr : (perform sys lost (packageWith order m packages present check) env st w).1 = .ok r) (hs : r.success = true) :
    (∃ l, InOrder l ∧ l.Nodup ∧ (∀ p, p ∈ l ↔ p ∈ packages ∧ p ∈ w.packages) ∧ r.initial = [(p!"installed", .list l)])
    ∧ (present = true → ∃ l, InOrder l ∧ l.Perm packages ∧ r.final = [(p!"installed", .list l)])
    ∧ (present = false → r.final = [(p!"installed", .list [])]) := by
  obtain ⟨h1, h2⟩ := reported_perform (reported_package hm hhost) hr hs
  cases present with
  | true => exact ⟨h1, fun _ => h2, nofun⟩
  | false => exact ⟨h1, nofun, fun _ => h2⟩

/-- C81. Services, unless the unit belongs to the user or is reloading. -/
theorem C81_service_partial (U : UnitStates) (unit : Str) (T : Systemd sys U unit) (state : Option Str) (enabled : Option Bool) (check : Bool)
    (hre : U.active false w unit ≠ .reloading)
    (hr : (perform sys lost (systemdService unit state enabled false check) env st w).1 = .ok r) (hs : r.success = true) :
    r.initial = [(p!"state", .str (if (U.active false w unit).Up then p!"started" else p!"stopped")), (p!"enabled", .bool (decide (U.file false w unit = .enabled)))]
    ∧ r.final = [(p!"state", .optStr state), (p!"enabled", .optBool enabled)] := by
  obtain ⟨h1, h2⟩ := reported_perform (reported_service T) hr hs
  refine ⟨?_, h2⟩
  rw [h1]
  have : seenState (U.active false w unit) = if (U.active false w unit).Up then p!"started" else p!"stopped" := by
    cases h : U.active false w unit <;> first | rfl | exact absurd h hre
  rw [this]
  rfl

/-- C81. `daemon_reload`. -/
theorem C81_reload (userMode check : Bool) (hr : (perform sys lost (daemonReload userMode check) env st w).1 = .ok r) (hs : r.success = true) :
    r.initial = [(p!"reloaded", .bool false)] ∧ r.final = [(p!"reloaded", .bool true)] :=
  reported_perform reported_reload hr hs

/-- C81. `git.repo`: the commit that is checked out, and the one that the url has for the branch or tag that is asked for (or, without
`update`, the one that is checked out already). -/
theorem C81_repo (G : Repositories) (a : RepoArgs) (T : GitHost sys G a.path a.url) (hh : HonestStat sys) (hb : a.branchOrTag ≠ some []) (check : Bool)
    (hr : (perform sys lost (repo a check) env st w).1 = .ok r) (hs : r.success = true) :
    (G.clone w a.path = none ∧ r.initial = [(p!"initialized", .bool false), (p!"commit", .null)]
      ∨ ∃ c, G.clone w a.path = some c ∧ r.initial = [(p!"initialized", .bool true), (p!"commit", .str c.commit)])
    ∧ (∀ c, G.clone w a.path = some c → a.update = false → r.final = [(p!"initialized", .bool true), (p!"commit", .str c.commit)])
    ∧ (G.clone w a.path = none ∨ a.update = true →
        ∃ u, G.upstream a.url (requested a) = some u ∧ r.final = [(p!"initialized", .bool true), (p!"commit", .str u.object)]) := by
  obtain ⟨h1, h2⟩ := reported_perform (reported_repo T hh) hr hs
  have href : refOf a = requested a := by unfold refOf; rw [if_neg hb]
  rw [href] at h2
  refine ⟨?_, fun c hc hu => ?_, fun h => ?_⟩
  · rw [h1]
    cases h : G.clone w a.path with
    | none => exact .inl ⟨rfl, rfl⟩
    | some c => exact .inr ⟨c, rfl, rfl⟩
  · rcases h2 with ⟨x, hx, _, h3⟩ | ⟨h | h, _⟩
    · rw [hc] at hx; cases hx; exact h3
    · rw [hc] at h; cases h
    · rw [hu] at h; cases h
  · rcases h2 with ⟨x, hx, hu, _⟩ | ⟨_, h3⟩
    · rcases h with h | h
      · rw [hx] at h; cases h
      · rw [hu] at h; cases h
    · exact h3

end

namespace Example

/-- Does the operation succeed, and are these the two states that it reports? -/
def tells (sys : Sys) (op : Op OpResult) (w : World) (initial final : Dict) : Bool :=
  match (perform sys always op env st w).1 with
  | .ok r => r.success && r.initial.eq initial && r.final.eq final
  | .error _ => false

/-- A path without, and one with something of the right type. -/
example : tells sys (directory p!"/srv" true false none (some p!"1000") none true) host
      [(p!"exists", .bool false), (p!"mode", .null), (p!"owner", .null), (p!"group", .null), (p!"touched", .bool false)]
      [(p!"exists", .bool true), (p!"mode", .str p!"700"), (p!"owner", .str p!"alice"), (p!"group", .str p!"root"), (p!"touched", .bool false)] = true
    ∧ tells sys (file p!"/etc/motd" true true (some p!"777") none none true) host
      [(p!"exists", .bool true), (p!"mode", .str p!"644"), (p!"owner", .str p!"alice"), (p!"group", .str p!"users"), (p!"touched", .bool false)]
      [(p!"exists", .bool true), (p!"mode", .str p!"777"), (p!"owner", .str p!"root"), (p!"group", .str p!"root"), (p!"touched", .bool true)] = true
    ∧ tells sys (file p!"/etc/motd" false false none none none true) host
      [(p!"exists", .bool true), (p!"mode", .str p!"644"), (p!"owner", .str p!"alice"), (p!"group", .str p!"users"), (p!"touched", .bool false)]
      nothingThere = true := by decide +kernel

example : tells sys (link p!"/tmp/l" p!"/etc/motd" true false none none true) host noLink
      [(p!"exists", .bool true), (p!"target", .str p!"/etc/motd"), (p!"owner", .str p!"root"), (p!"group", .str p!"root"), (p!"touched", .bool false)] = true := by
  decide +kernel

example : tells sys (uploadContent sys.sha512 (.bytes [65]) p!"/etc/motd" none none none true) host
      [(p!"exists", .bool true), (p!"mode", .str p!"644"), (p!"owner", .str p!"alice"), (p!"group", .str p!"users"), (p!"sha512", .bytes [104, 105, 10])]
      [(p!"exists", .bool true), (p!"mode", .str p!"600"), (p!"owner", .str p!"root"), (p!"group", .str p!"root"), (p!"sha512", .bytes [65])] = true
    ∧ tells sys (Ops.line p!"/etc/motd" p!"a" true none true .no true) host [(p!"line_present", .bool false)] [(p!"line_present", .bool true)] = true
    ∧ tells sys (Ops.line p!"/etc/motd" p!"hi" true none true .no true) host [(p!"line_present", .bool true)] [(p!"line_present", .bool true)] = true := by
  decide +kernel

example : tells pacmanSys (packageWith id (pacman []) [p!"vim", p!"git"] true true) packageWorld [(p!"installed", .list [p!"git"])]
    [(p!"installed", .list [p!"git", p!"vim"])] = true := by decide +kernel

example : tells unitSys (systemdService p!"cups" (some p!"stopped") (some true) false true) unitHost [(p!"state", .str p!"started"), (p!"enabled", .bool true)]
    [(p!"state", .str p!"stopped"), (p!"enabled", .bool true)] = true := by decide +kernel

example : tells gitSys (repo (request urlU none) true) (cloned oldClone) [(p!"initialized", .bool true), (p!"commit", .str p!"c1")]
    [(p!"initialized", .bool true), (p!"commit", .str p!"c2")] = true := by decide +kernel

example : tells groupSys (group p!"wheel" true (some 7) false true) host [(p!"exists", .bool false), (p!"gid", .null)] [(p!"exists", .bool true), (p!"gid", .int 7)] = true := by
  decide +kernel

example : tells userSys (user bob true) fullHost noAccount
    [(p!"exists", .bool true), (p!"uid", .int 1001), (p!"group", .null), (p!"groups", .list [p!"root", p!"users"]), (p!"comment", .str p!"B"),
     (p!"home", .str p!"/dev/null"), (p!"shell", .str p!"/sbin/nologin"), (p!"password_hash", .str p!"$6$y")] = true
    ∧ Py.parseInt 10 bob.user = none ∧ NoFalsyArgs bob := by
  refine ⟨by decide +kernel, by decide, ?_⟩
  unfold NoFalsyArgs
  decide

end Example

/-- C81 is false of `systemd.service` for the units of a user: the states that are reported are those of the unit of the system with that
name. Here the unit of the user is neither running nor enabled. -/
theorem C81_user_mode_refuted :
    let w := { Example.unitHost with units := ⟨p!"system sync", true, true⟩ :: Example.unitHost.units }
    Example.tells Example.unitSys (systemdService p!"sync" (some p!"started") (some true) true true) w
        [(p!"state", .str p!"started"), (p!"enabled", .bool true)] [(p!"state", .str p!"started"), (p!"enabled", .bool true)] = true
    ∧ Example.units.active true w p!"sync" = .inactive ∧ Example.units.file true w p!"sync" ≠ .enabled := by decide +kernel

/-- C81 is false of a unit that is reloading: it is reported as stopped. -/
theorem C81_reloading_refuted (sys : Sys) (lost : Nat → Option Bool) (env : Env) (st : St) (w : World) (r : OpResult) (U : UnitStates) (unit : Str)
    (T : Systemd sys U unit) (state : Option Str) (enabled : Option Bool) (check : Bool) (hre : U.active false w unit = .reloading)
    (hr : (perform sys lost (systemdService unit state enabled false check) env st w).1 = .ok r) (hs : r.success = true) :
    r.initial = [(p!"state", .str p!"stopped"), (p!"enabled", .bool (decide (U.file false w unit = .enabled)))] := by
  rw [(reported_perform (reported_service T) hr hs).1, hre]
  rfl

end Verif.Ops
