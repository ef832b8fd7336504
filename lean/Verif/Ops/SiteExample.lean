/-
A host with tools for groups, users, packages and services, and a script that sets up a site there. Used to show that the hypotheses
of C94 are met by a non-trivial case.
-/
import Verif.Ops.SiteLemmas
import Verif.Ops.UserExample
import Verif.Ops.GitExample
import Verif.Ops.DryProps

namespace Verif.Ops.Site

open Script Remote

instance (s : Str) : Decidable (Text s) := by unfold Text; infer_instance
instance (n : Nat) : Decidable (Modest n) := by unfold Modest; infer_instance
instance (s : Str) : Decidable (Plain s) := by unfold Plain; infer_instance
instance (s : Str) : Decidable (NoNul s) := by unfold NoNul; infer_instance
instance (n : Nat) : Decidable (IdOk n) := by unfold IdOk; infer_instance
instance (s : Str) : Decidable (PlainName s) := by unfold PlainName; infer_instance

def niceName (x : Str) : Prop := x ≠ [] ∧ 58 ∉ x ∧ (∃ c ∈ x, ¬ (48 ≤ c ∧ c ≤ 57)) ∧ x.head? ≠ some 45 ∧ x.head? ≠ some 43

instance (s : Str) : Decidable (niceName s) := by unfold niceName; infer_instance

/-- What the tools for accounts take care of. -/
structure Tidy (w : World) : Prop where
  users : ∀ e ∈ w.users, Plain e.name ∧ Plain e.gecos ∧ Plain e.home ∧ Plain e.shell ∧ IdOk e.uid ∧ IdOk e.gid ∧ NoNul e.name
  groups : ∀ e ∈ w.groups, Plain e.name ∧ (∀ m ∈ e.members, Plain m) ∧ Modest e.members.length ∧ IdOk e.gid ∧ NoNul e.name
  ngroups : Modest w.groups.length
  shadow : ∀ e ∈ w.shadow, Plain e.2
  userUnique : (w.users.map (·.name)).Nodup ∧ (w.users.map (·.uid)).Nodup
  groupUnique : (w.groups.map (·.name)).Nodup ∧ (w.groups.map (·.gid)).Nodup
  userNames : ∀ e ∈ w.users, niceName e.name
  groupNames : ∀ e ∈ w.groups, niceName e.name ∧ PlainName e.name
  complete : ((userNamed w p!"www").isNone = true → memberOf w p!"www" = []) ∧ ((userNamed w p!"www").isNone = false → (accountOf w p!"www").isSome = true)

instance (w : World) : Decidable (Tidy w) :=
  decidable_of_iff
    ((∀ e ∈ w.users, Plain e.name ∧ Plain e.gecos ∧ Plain e.home ∧ Plain e.shell ∧ IdOk e.uid ∧ IdOk e.gid ∧ NoNul e.name)
      ∧ (∀ e ∈ w.groups, Plain e.name ∧ (∀ m ∈ e.members, Plain m) ∧ Modest e.members.length ∧ IdOk e.gid ∧ NoNul e.name)
      ∧ Modest w.groups.length ∧ (∀ e ∈ w.shadow, Plain e.2)
      ∧ ((w.users.map (·.name)).Nodup ∧ (w.users.map (·.uid)).Nodup) ∧ ((w.groups.map (·.name)).Nodup ∧ (w.groups.map (·.gid)).Nodup)
      ∧ (∀ e ∈ w.users, niceName e.name) ∧ (∀ e ∈ w.groups, niceName e.name ∧ PlainName e.name)
      ∧ (((userNamed w p!"www").isNone = true → memberOf w p!"www" = []) ∧ ((userNamed w p!"www").isNone = false → (accountOf w p!"www").isSome = true)))
    ⟨fun ⟨h1, h2, h3, h4, h5, h6, h7, h8, h9⟩ => ⟨h1, h2, h3, h4, h5, h6, h7, h8, h9⟩, fun ⟨h1, h2, h3, h4, h5, h6, h7, h8, h9⟩ => ⟨h1, h2, h3, h4, h5, h6, h7, h8, h9⟩⟩

/-- The databases of accounts as another host has them. -/
def withAccounts (w w' : World) : World := { w with users := w'.users, groups := w'.groups, shadow := w'.shadow }

/-- The tools for accounts refuse to do what would leave the databases in disorder. -/
def guarded (w : World) (r : ExecRes × World) : ExecRes × World :=
  if Tidy (withAccounts w r.2) then (r.1, withAccounts w r.2) else (.done [] [] 1, w)

/-! ### git -/

def dirThere (w : World) (l : Loc) : Bool := (w.fs l).any fun n => decide (n.kind = .dir)

/-- The clone at `/app`: the file `.git/HEAD` has as many bytes as there are states before the current one. -/
def cloneThere (w : World) (path : Str) : Option Clone :=
  if path = Example.app ∧ dirThere w [] = true ∧ dirThere w [p!"app"] = true ∧ dirThere w [p!"app", p!".git"] = true then
    match w.fs [p!"app", p!".git", p!"HEAD"] with
    | some n => match n.kind with
      | .file content => Example.clones[content.length]?
      | _ => none
    | none => none
  else none

def repositories : Repositories where
  clone := cloneThere
  upstream := Example.upstreamOf

/-- Where the clone is, with the file `.git/HEAD`. -/
def checkedOut (w : World) (k : Nat) : World :=
  ((w.set [p!"app"] (some (Remote.Example.dirNode 0o755))).set [p!"app", p!".git"] (some (Remote.Example.dirNode 0o755))).set
    [p!"app", p!".git", p!"HEAD"] (some { Remote.Example.dirNode 0o644 with kind := .file (List.replicate k 0) })

/-- Leaves a clone of the current state, unless there is something in the way. -/
def checkOut (w : World) : ExecRes × World :=
  if dirThere w [] = true ∧ dirThere w [p!"app", p!".git", p!"HEAD"] = false then (.done [] [] 0, checkedOut w 1) else (.done [] [] 128, w)

/-- git, for the url and the place of the example. -/
def siteGit (p : Proc) (w : World) : ExecRes × World :=
  if p.argv = [p!"git", p!"-C", Example.app, p!"rev-parse", p!"HEAD"] then
    match cloneThere w Example.app with
    | none => (.done [] [] 128, w)
    | some c => (.done (ascii c.commit ++ b!"\n") [] 0, w)
  else if p.argv = [p!"git", p!"-C", Example.app, p!"config", p!"--get", p!"remote.origin.url"] then
    match cloneThere w Example.app with
    | none => (.done [] [] 128, w)
    | some c => (.done (ascii c.origin ++ b!"\n") [] 0, w)
  else if p.argv = [p!"git", p!"ls-remote", p!"--exit-code", p!"--", Example.urlU, p!"HEAD"] then (.done (ascii p!"c2" ++ b!"\t" ++ b!"HEAD\n") [] 0, w)
  else if p.argv = [p!"git", p!"clone", p!"--", Example.urlU, Example.app] then
    if (w.fs [p!"app"]).isNone then checkOut w else (.done [] [] 128, w)
  else if p.argv = [p!"git", p!"-C", Example.app, p!"pull", p!"--rebase"] then
    if cloneThere w Example.app = some ⟨p!"c1", Example.urlU, some p!"master", false⟩ ∨ cloneThere w Example.app = some ⟨p!"c2", Example.urlU, some p!"master", false⟩ then
      checkOut w
    else (.done [] [] 1, w)
  else (.done [] [] 128, w)

/-! ### All programs -/

/-- What can be found on the host. -/
def installed (_ : World) (c : Str) : Bool := decide (c = p!"pacman" ∨ c = p!"systemctl")

def siteBash (p : Proc) (w : World) : ExecRes × World :=
  if p.argv = [p!"bash", p!"-c", packageProbe.text] then (.done (printed (packageProbe.run (installed w)).1) [] 0, w)
  else if p.argv = [p!"bash", p!"-c", serviceProbe.text] then (.done (printed (serviceProbe.run (installed w)).1) [] 0, w)
  else (.done [] [] 127, w)

/-- The programs that are not among the standard tools. -/
def siteExec (p : Proc) (w : World) : ExecRes × World :=
  let c := p.argv.head?
  if c = some p!"groupadd" ∨ c = some p!"groupmod" ∨ c = some p!"groupdel" then guarded w (Example.groupExec p w)
  else if c = some p!"useradd" ∨ c = some p!"usermod" ∨ c = some p!"userdel" then guarded w (Example.userExec p w)
  else if c = some p!"pacman" then Example.pacmanExec p w
  else if c = some p!"systemctl" then Example.unitExec p w
  else if c = some p!"git" then siteGit p w
  else if c = some p!"bash" then siteBash p w
  else (.failed { errno := ENOENT, strerror := [], msg := [] }, w)

def tools : Tools := { Example.tools with other := siteExec }

def sys : Sys := { Example.sys with exec := core tools }

/-- The commands that are not among the standard tools. -/
theorem exec_other {p : Proc} {w : World} {c : Str} (h : p.argv.head? = some c)
    (hc : c ∈ [p!"groupadd", p!"groupmod", p!"groupdel", p!"useradd", p!"usermod", p!"userdel", p!"pacman", p!"systemctl", p!"emerge", p!"apt-get", p!"git", p!"bash"]) :
    sys.exec p w = siteExec p w := by
  show core tools p w = _
  unfold core
  have : parseTool p.argv = none := by
    cases ha : p.argv with
    | nil => rfl
    | cons a l =>
      rw [ha] at h
      cases h
      simp only [List.mem_cons, List.not_mem_nil, or_false] at hc
      rcases hc with rfl | rfl | rfl | rfl | rfl | rfl | rfl | rfl | rfl | rfl | rfl | rfl <;>
        (unfold parseTool; split <;> first | rfl | (rename_i he; cases he; simp))
  rw [this]
  rfl

theorem guarded_done {w w' : World} {r : ExecRes × World} {out err : Bytes} {code : Int} (h : guarded w r = (.done out err code, w')) :
    (∃ w2, r = (.done out err code, w2) ∧ w' = withAccounts w w2 ∧ Tidy w') ∨ (code = 1 ∧ w' = w) := by
  unfold guarded at h
  split at h
  · rename_i ht
    obtain ⟨r1, r2⟩ := r
    simp only [Prod.mk.injEq] at h
    obtain ⟨rfl, rfl⟩ := h
    exact .inl ⟨r2, rfl, rfl, ht⟩
  · cases h
    exact .inr ⟨rfl, rfl⟩

theorem guarded_ok {w w' : World} {r : ExecRes × World} {out err : Bytes} (h : guarded w r = (.done out err 0, w')) :
    ∃ w2, r = (.done out err 0, w2) ∧ w' = withAccounts w w2 := by
  rcases guarded_done h with ⟨w2, h1, h2, _⟩ | ⟨h, _⟩
  · exact ⟨w2, h1, h2⟩
  · cases h

theorem groupCommand {p : Proc} {w : World} (h : p.argv.head? = some p!"groupadd" ∨ p.argv.head? = some p!"groupmod" ∨ p.argv.head? = some p!"groupdel") :
    sys.exec p w = guarded w (Example.groupExec p w) := by
  have : sys.exec p w = siteExec p w := by
    rcases h with h | h | h <;> exact exec_other h (by simp)
  rw [this]
  unfold siteExec
  simp only
  rw [if_pos h]

theorem userCommand {p : Proc} {w : World} (h : p.argv.head? = some p!"useradd" ∨ p.argv.head? = some p!"usermod" ∨ p.argv.head? = some p!"userdel") :
    sys.exec p w = guarded w (Example.userExec p w) := by
  have : sys.exec p w = siteExec p w := by
    rcases h with h | h | h <;> exact exec_other h (by simp)
  rw [this]
  unfold siteExec
  simp only
  rw [if_neg (by rcases h with h | h | h <;> rw [h] <;> decide), if_pos h]

theorem packageCommand {p : Proc} {w : World} (h : p.argv.head? = some p!"pacman") : sys.exec p w = Example.pacmanExec p w := by
  rw [exec_other h (by simp)]
  unfold siteExec
  simp only [h]
  rfl

theorem serviceCommand {p : Proc} {w : World} (h : p.argv.head? = some p!"systemctl") : sys.exec p w = Example.unitExec p w := by
  rw [exec_other h (by simp)]
  unfold siteExec
  simp only [h]
  rfl

theorem gitCommand {p : Proc} {w : World} (h : p.argv.head? = some p!"git") : sys.exec p w = siteGit p w := by
  rw [exec_other h (by simp)]
  unfold siteExec
  simp only [h]
  rfl

theorem bashCommand {p : Proc} {w : World} (h : p.argv.head? = some p!"bash") : sys.exec p w = siteBash p w := by
  rw [exec_other h (by simp)]
  unfold siteExec
  simp only [h]
  rfl

theorem findsManager : FindsManager sys (pacman []) := by
  refine ⟨installed, ?_, [(p!"apt-get", apt [])], p!"pacman", [(p!"emerge", portage [] false)], rfl, fun w => ⟨rfl, ?_⟩⟩
  · intro p w out err code w' hp h
    rw [bashCommand (by rw [hp]; rfl)] at h
    unfold siteBash at h
    rw [if_pos hp] at h
    cases h
    exact ⟨rfl, rfl⟩
  · intro b hb
    cases List.mem_singleton.mp hb
    rfl

theorem findsSystemd : FindsSystemd sys := by
  refine ⟨installed, ?_, fun w => rfl⟩
  intro p w out err code w' hp h
  rw [bashCommand (by rw [hp]; rfl)] at h
  unfold siteBash at h
  rw [if_neg (by rw [hp]; decide), if_pos hp] at h
  cases h
  exact ⟨rfl, rfl⟩

theorem clone_there {w : World} {path : Str} {c : Clone} (h : cloneThere w path = some c) :
    path = Example.app ∧ dirThere w [] = true ∧ dirThere w [p!"app"] = true ∧ dirThere w [p!"app", p!".git"] = true ∧ c ∈ Example.clones := by
  unfold cloneThere at h
  split at h
  · rename_i hd
    refine ⟨hd.1, hd.2.1, hd.2.2.1, hd.2.2.2, ?_⟩
    split at h
    · split at h
      · exact List.mem_of_getElem? h
      · cases h
    · cases h
  · cases h

theorem dir_there {w : World} {l : Loc} (h : dirThere w l = true) : ∃ n, w.fs l = some n ∧ n.kind = .dir := by
  unfold dirThere at h
  cases hn : w.fs l with
  | none => rw [hn] at h; cases h
  | some n => rw [hn] at h; exact ⟨n, rfl, by simpa using h⟩

theorem isDir_names {w : World} {names : List Str} (hn : ∀ n ∈ names, FileName n) (hd : ∀ p s, names = p ++ s → dirThere w p = true) :
    IsDir w (pathOf names) := by
  obtain ⟨n, h1, h2⟩ := dir_there (hd names [] (by simp))
  refine ⟨names, n, lookup_of (denotes_dirs hn fun p s he _ => ?_) h1, h2⟩
  obtain ⟨m, h3, h4⟩ := dir_there (hd p s he)
  rw [h3]
  simp [shape, h4]

theorem clone_checkedOut {w : World} (h : dirThere w [] = true) : cloneThere (checkedOut w 1) Example.app = some ⟨p!"c2", Example.urlU, some p!"master", false⟩ := by
  have h0 : dirThere (checkedOut w 1) [] = true := h
  unfold cloneThere
  rw [if_pos ⟨rfl, h0, rfl, rfl⟩]
  rfl

theorem gitHost : GitHost sys repositories Example.app Example.urlU where
  history := fun _ _ => rfl
  directory := by
    intro w c h
    obtain ⟨_, h1, h2, h3, _⟩ := clone_there h
    have hn : ∀ n ∈ [p!"app", p!".git"], FileName n := by
      intro n hn
      simp only [List.mem_cons, List.not_mem_nil, or_false] at hn
      rcases hn with rfl | rfl <;> exact ⟨by decide, by decide, by decide, by decide⟩
    constructor
    · refine isDir_names (names := [p!"app"]) (fun n hm => hn n (by simp_all)) fun p s he => ?_
      match p, he with
      | [], _ => exact h1
      | [_], he => cases he; exact h2
    · refine isDir_names (names := [p!"app", p!".git"]) hn fun p s he => ?_
      match p, he with
      | [], _ => exact h1
      | [_], he => cases he; exact h2
      | [_, _], he => cases he; exact h3
  words := by
    intro w c h
    have : ∀ c ∈ Example.clones, Word c.commit ∧ Word c.origin := by decide
    exact this c (clone_there h).2.2.2.2
  objects := fun ref _ h => (Example.upstream_cases (url := Example.urlU) (ref := ref) h).1
  branches := fun ref _ h => (Example.upstream_cases (url := Example.urlU) (ref := ref) h).2
  revParse := by
    intro p w out err code w' hp h
    rw [gitCommand (by rw [hp]; rfl)] at h
    unfold siteGit at h
    rw [if_pos hp] at h
    split at h
    · cases h; exact ⟨rfl, fun h => by cases h⟩
    · rename_i c hc
      cases h; exact ⟨rfl, fun _ => ⟨c, hc, rfl⟩⟩
  config := by
    intro p w out err code w' hp h
    rw [gitCommand (by rw [hp]; rfl)] at h
    unfold siteGit at h
    rw [if_neg (by rw [hp]; decide), if_pos hp] at h
    split at h
    · cases h; exact ⟨rfl, fun h => by cases h⟩
    · rename_i c hc
      cases h; exact ⟨rfl, fun _ => ⟨c, hc, rfl⟩⟩
  lsRemote := by
    intro ref p w out err code w' hp h
    rw [gitCommand (by rw [hp]; rfl)] at h
    unfold siteGit at h
    rw [if_neg (by rw [hp]; simp), if_neg (by rw [hp]; simp)] at h
    split at h
    · rename_i hq
      rw [hp] at hq
      cases h
      simp only [List.cons.injEq, and_true, true_and] at hq
      subst hq
      exact ⟨rfl, fun _ => ⟨⟨p!"c2", p!"c2", true⟩, _, rfl, rfl⟩⟩
    · rw [if_neg (by rw [hp]; simp), if_neg (by rw [hp]; simp)] at h
      cases h
      exact ⟨rfl, fun h => by cases h⟩
  freshClone := by
    intro depth branch p w out err w' hp h
    have hq : depth = none ∧ branch = none ∧ dirThere w [] = true ∧ w' = checkedOut w 1 := by
      rw [gitCommand (by rw [hp]; rfl)] at h
      unfold siteGit at h
      rw [if_neg (by rw [hp]; simp), if_neg (by rw [hp]; simp), if_neg (by rw [hp]; simp)] at h
      split at h
      · rename_i hq
        rw [hp] at hq
        split at h
        · unfold checkOut at h
          split at h
          · rename_i hr
            cases h
            have hlen := congrArg List.length hq
            cases depth <;> cases branch <;> simp [opt] at hlen
            exact ⟨rfl, rfl, hr.1, rfl⟩
          · cases h
        · cases h
      · rw [if_neg (by rw [hp]; simp)] at h
        cases h
    obtain ⟨rfl, rfl, hr, rfl⟩ := hq
    exact ⟨⟨p!"c2", p!"c2", true⟩, _, rfl, clone_checkedOut hr, rfl, rfl, rfl, fun _ => ⟨p!"master", rfl, rfl⟩, fun h => by cases h⟩
  pull := by
    intro depth rebase ffOnly p w out err w' hp h
    rw [gitCommand (by rw [hp]; rfl)] at h
    unfold siteGit at h
    rw [if_neg (by rw [hp]; simp), if_neg (by rw [hp]; simp), if_neg (by rw [hp]; simp), if_neg (by rw [hp]; simp)] at h
    split at h
    · split at h
      · rename_i hc
        unfold checkOut at h
        split at h
        · rename_i hr
          cases h
          have key : ∀ c : Clone, cloneThere w Example.app = some c → c.origin = Example.urlU → c.follows = some p!"master" →
              ∃ c c' b u, repositories.clone w Example.app = some c ∧ c.follows = some b ∧ repositories.upstream c.origin b = some u
                ∧ repositories.clone (checkedOut w 1) Example.app = some c' ∧ c'.origin = c.origin ∧ c'.follows = c.follows
                ∧ (c.ahead = false → c'.commit = u.commit ∧ c'.ahead = false) := by
            intro c h1 h2 h3
            refine ⟨c, _, p!"master", ⟨p!"c2", p!"c2", true⟩, h1, h3, (by rw [h2]; rfl), clone_checkedOut hr.1, h2.symm, h3.symm, fun _ => ⟨rfl, rfl⟩⟩
          rcases hc with hc | hc <;> exact key _ hc rfl rfl
        · cases h
      · cases h
    · cases h
  submodules := by
    intro depth recursive p w out err w' hp h
    rw [gitCommand (by rw [hp]; rfl)] at h
    unfold siteGit at h
    rw [if_neg (by rw [hp]; simp), if_neg (by rw [hp]; simp), if_neg (by rw [hp]; simp), if_neg (by rw [hp]; simp), if_neg (by rw [hp]; simp)] at h
    cases h

theorem groupTools : GroupTools sys where
  add := by
    intro p w out err w' system gid name hp h
    rw [groupCommand (.inl (by rw [hp]; rfl))] at h
    obtain ⟨w2, hx2, rfl⟩ := guarded_ok h
    exact Example.groupTools.add p w out err w2 system gid name hp hx2
  modify := by
    intro p w out err w' x gid name hp hx h
    rw [groupCommand (.inr (.inl (by rw [hp]; rfl)))] at h
    obtain ⟨w2, hx2, rfl⟩ := guarded_ok h
    exact Example.groupTools.modify p w out err w2 x gid name hp hx hx2
  delete := by
    intro p w out err w' name hp h
    rw [groupCommand (.inr (.inr (by rw [hp]; rfl)))] at h
    obtain ⟨w2, hx2, rfl⟩ := guarded_ok h
    exact Example.groupTools.delete p w out err w2 name hp hx2
  others := by
    intro p w out err code w' name hp hl h
    rw [groupCommand hp] at h
    rcases guarded_done h with ⟨w2, hx2, rfl, _⟩ | ⟨_, rfl⟩
    · exact Example.groupTools.others p w out err code w2 name hp hl hx2
    · exact fun _ _ => Iff.rfl

theorem userTools : UserTools sys where
  add := by
    intro p w out err w' u hp hg h
    rw [userCommand (.inl (by rw [hp]; rfl))] at h
    obtain ⟨w2, hx2, rfl⟩ := guarded_ok h
    exact Example.userTools.add p w out err w2 u hp hg hx2
  delete := by
    intro p w out err w' name hp h
    rw [userCommand (.inr (.inr (by rw [hp]; rfl)))] at h
    obtain ⟨w2, hx2, rfl⟩ := guarded_ok h
    exact Example.userTools.delete p w out err w2 name hp hx2
  uid := by
    intro p w out err w' x uid name hp hx h
    rw [userCommand (.inr (.inl (by rw [hp]; rfl)))] at h
    obtain ⟨w2, hx2, rfl⟩ := guarded_ok h
    exact Example.userTools.uid p w out err w2 x uid name hp hx hx2
  gid := by
    intro p w out err w' x name hp hx h
    rw [userCommand (.inr (.inl (by rw [hp]; rfl)))] at h
    obtain ⟨w2, hx2, rfl⟩ := guarded_ok h
    exact Example.userTools.gid p w out err w2 x name hp hx hx2
  groups := by
    intro p w out err w' l name hl hp hx h
    rw [userCommand (.inr (.inl (by rw [hp]; rfl)))] at h
    obtain ⟨w2, hx2, rfl⟩ := guarded_ok h
    exact Example.userTools.groups p w out err w2 l name hl hp hx hx2
  comment := by
    intro p w out err w' x name hp h
    rw [userCommand (.inr (.inl (by rw [hp]; rfl)))] at h
    obtain ⟨w2, hx2, rfl⟩ := guarded_ok h
    exact Example.userTools.comment p w out err w2 x name hp hx2
  home := by
    intro p w out err w' x name hp h
    rw [userCommand (.inr (.inl (by rw [hp]; rfl)))] at h
    obtain ⟨w2, hx2, rfl⟩ := guarded_ok h
    exact Example.userTools.home p w out err w2 x name hp hx2
  shell := by
    intro p w out err w' x name hp h
    rw [userCommand (.inr (.inl (by rw [hp]; rfl)))] at h
    obtain ⟨w2, hx2, rfl⟩ := guarded_ok h
    exact Example.userTools.shell p w out err w2 x name hp hx2
  password := by
    intro p w out err w' x name hp h
    rw [userCommand (.inr (.inl (by rw [hp]; rfl)))] at h
    obtain ⟨w2, hx2, rfl⟩ := guarded_ok h
    exact Example.userTools.password p w out err w2 x name hp hx2
  others := by
    intro p w out err code w' name hp hl h
    rw [userCommand hp] at h
    rcases guarded_done h with ⟨w2, hx2, rfl, _⟩ | ⟨_, rfl⟩
    · obtain ⟨h1, h2, h3, h4⟩ := Example.userTools.others p w out err code w2 name hp hl hx2
      exact ⟨h1, h2, h3, h4⟩
    · exact ⟨fun _ _ => Iff.rfl, fun _ _ => Iff.rfl, fun _ _ _ => Iff.rfl, fun _ _ _ _ => Iff.rfl⟩

theorem packageHost : PackageHost sys
    (fun name => [p!"pacman", p!"-Ql", p!"--", name])
    (fun name => [p!"pacman", p!"--color", p!"always", p!"--noconfirm", p!"-S"] ++ [] ++ [p!"--", name])
    (fun name => [p!"pacman", p!"--color", p!"always", p!"--noconfirm", p!"-Rns"] ++ [] ++ [p!"--", name])
    (fun _ code => code = 0) where
  ask := by
    intro p w out err code w' name hp h
    rw [packageCommand (by rw [hp]; rfl)] at h
    exact Example.pacmanHost.ask p w out err code w' name hp h
  install := by
    intro p w out err w' name hp h
    rw [packageCommand (by rw [hp]; rfl)] at h
    exact Example.pacmanHost.install p w out err w' name hp h
  remove := by
    intro p w out err w' name hp h
    rw [packageCommand (by rw [hp]; rfl)] at h
    exact Example.pacmanHost.remove p w out err w' name hp h

theorem systemctl_head (user : Bool) (args : List Str) : (systemctl user args).head? = some p!"systemctl" := by cases user <;> rfl

theorem systemd (unit : Str) : Systemd sys Example.units unit where
  history := (Example.systemd unit).history
  showActive := by
    intro p w out err code w' hp h
    rw [serviceCommand (by rw [hp]; exact systemctl_head ..)] at h
    exact (Example.systemd unit).showActive p w out err code w' hp h
  showFile := by
    intro p w out err code w' hp h
    rw [serviceCommand (by rw [hp]; exact systemctl_head ..)] at h
    exact (Example.systemd unit).showFile p w out err code w' hp h
  start := by
    intro user p w out err w' hp h
    rw [serviceCommand (by rw [hp]; exact systemctl_head ..)] at h
    exact (Example.systemd unit).start user p w out err w' hp h
  restart := by
    intro user p w out err w' hp h
    rw [serviceCommand (by rw [hp]; exact systemctl_head ..)] at h
    exact (Example.systemd unit).restart user p w out err w' hp h
  stop := by
    intro user p w out err w' hp h
    rw [serviceCommand (by rw [hp]; exact systemctl_head ..)] at h
    exact (Example.systemd unit).stop user p w out err w' hp h
  reload := by
    intro user p w out err w' hp h
    rw [serviceCommand (by rw [hp]; exact systemctl_head ..)] at h
    exact (Example.systemd unit).reload user p w out err w' hp h
  enable := by
    intro user p w out err w' hp h
    rw [serviceCommand (by rw [hp]; exact systemctl_head ..)] at h
    exact (Example.systemd unit).enable user p w out err w' hp h
  disable := by
    intro user p w out err w' hp h
    rw [serviceCommand (by rw [hp]; exact systemctl_head ..)] at h
    exact (Example.systemd unit).disable user p w out err w' hp h

/-! ### What commands leave alone -/

section
variable {env : Env} {st : St} {items : List Item} {w : World}

/-- Packages and units are not looked at. -/
theorem orderly_rest (hg : ∀ G a, .repo G a ∈ items → G = repositories) (h : Orderly sys tools env st Example.units items w) (packages : List Str) (units : List SvcUnit) :
    Orderly sys tools env st Example.units items { w with packages, units } where
  ordinary := ⟨h.ordinary.exec, h.ordinary.stat, { h.ordinary.sane with }, { h.ordinary.accounts with }⟩
  aliases := { h.aliases with }
  groups := { h.groups with }
  users := h.users
  services := fun _ unit _ _ _ hr => by
    simp only [Example.units] at hr
    split at hr
    · split at hr <;> cases hr
    · cases hr
  repos := fun G a ha => by
    have hr := h.repos G a ha
    cases hg G a ha
    exact hr
  tasks := { h.tasks with }
  bits := h.bits

theorem orderly_accounts (hu : ∀ a, .user a ∈ items → a.user = p!"www") (hg : ∀ G a, .repo G a ∈ items → G = repositories) (h : Orderly sys tools env st Example.units items w) {w2 : World} (ht : Tidy (withAccounts w w2)) :
    Orderly sys tools env st Example.units items (withAccounts w w2) where
  ordinary := ⟨h.ordinary.exec, h.ordinary.stat,
    { h.ordinary.sane with users := ht.users, groups := ht.groups, ngroups := ht.ngroups, shadow := ht.shadow },
    ⟨ht.userUnique.1, ht.groupUnique.1, ht.userNames, fun e he => (ht.groupNames e he).1⟩⟩
  aliases := ⟨ht.userUnique.2, ht.groupUnique.2⟩
  groups := ⟨ht.groupUnique.1, ht.groupUnique.2, fun e he => (ht.groupNames e he).2⟩
  users := fun a ha => by
    rw [hu a ha]
    refine ⟨fun h => ht.complete.1 (by rw [h]; rfl), fun h h0 => ?_⟩
    have := ht.complete.2 (by cases hx : userNamed (withAccounts w w2) p!"www" with | none => exact absurd hx h | some _ => rfl)
    rw [h0] at this
    cases this
  services := fun _ unit _ _ _ hr => by
    simp only [Example.units] at hr
    split at hr
    · split at hr <;> cases hr
    · cases hr
  repos := fun G a ha => by
    have hr := h.repos G a ha
    cases hg G a ha
    exact hr
  tasks := { h.tasks with }
  bits := h.bits

theorem granted_rest {x : Wish} {l : Loc} (h : x.Granted sys env st w w l) (packages : List Str) (units : List SvcUnit) :
    x.Granted sys env st { w with packages, units } { w with packages, units } l := by
  cases x <;> exact h

theorem done_rest {j : Item} (h : j.Done sys env st Example.units w) (packages : List Str) (units : List SvcUnit)
    (hp : ∀ found m order names present, j = .packages found m order names present → packages = w.packages)
    (hs : ∀ found unit state enabled, j = .service found unit state enabled → units = w.units) (hg : ∀ G a, j = .repo G a → G = repositories) : j.Done sys env st Example.units { w with packages, units } := by
  cases j with
  | files c => exact fun t ht => ⟨granted_rest (h t ht).1 packages units, (h t ht).2⟩
  | group => exact h
  | user => exact h
  | packages found m order names present => cases hp _ _ _ _ _ rfl; exact h
  | service found unit state enabled => cases hs _ _ _ _ rfl; exact h
  | repo G a => cases hg _ _ rfl; exact h

end

theorem pacman_done {p : Proc} {w w' : World} {out err : Bytes} {code : Int} (h : Example.pacmanExec p w = (.done out err code, w')) :
    ∃ n P, p.argv.getLast? = some n ∧ w' = { w with packages := P } ∧ ∀ q, q ≠ n → (q ∈ P ↔ q ∈ w.packages) := by
  unfold Example.pacmanExec at h
  split at h
  · cases h
  · rename_i n hn
    refine ⟨n, w'.packages, hn, ?_⟩
    split at h
    · cases h; exact ⟨rfl, fun _ _ => Iff.rfl⟩
    · split at h
      · cases h; exact ⟨rfl, fun q hq => by simp [hq]⟩
      · split at h
        · cases h; exact ⟨rfl, fun q hq => by simp [hq]⟩
        · split at h
          · cases h; exact ⟨rfl, fun _ _ => Iff.rfl⟩
          · cases h

theorem unit_done {p : Proc} {w w' : World} {out err : Bytes} {code : Int} (h : Example.unitExec p w = (.done out err code, w')) :
    ∃ units, w' = { w with units := units } := by
  have action : ∀ user action unit, Example.unitAction user action unit w = (.done out err code, w') → ∃ units, w' = { w with units := units } := by
    intro user action unit h
    unfold Example.unitAction at h
    repeat' split at h
    all_goals first | (cases h; exact ⟨_, rfl⟩)
  unfold Example.unitExec at h
  split at h
  · repeat' split at h
    all_goals (cases h; exact ⟨_, rfl⟩)
  · exact action _ _ _ h
  · exact action _ _ _ h
  · cases h; exact ⟨_, rfl⟩

/-- Commands for packages. -/
theorem package_runs {found : Bool} {m : Manager} {order : List Str → List Str} {names : List Str} {present : Bool} {p : Proc} {w w' : World} {out err : Bytes} {code : Int}
    (hr : (Item.packages found m order names present).Runs p.argv) (h : sys.exec p w = (.done out err code, w')) :
    ∃ n ∈ names, ∃ P, w' = { w with packages := P } ∧ ∀ q, q ≠ n → (q ∈ P ↔ q ∈ w.packages) := by
  have key : ∀ {n : Str} {argv : List Str}, p.argv = argv → n ∈ names → argv.getLast? = some n →
      (argv.head? = some p!"pacman" ∨ argv.head? = some p!"emerge" ∨ argv.head? = some p!"apt-get") →
      ∃ n ∈ names, ∃ P, w' = { w with packages := P } ∧ ∀ q, q ≠ n → (q ∈ P ↔ q ∈ w.packages) := by
    intro n argv ha hn hl hh
    subst ha
    rcases hh with hh | hh | hh
    · rw [packageCommand hh] at h
      obtain ⟨n', P, h1, h2⟩ := pacman_done h
      rw [hl] at h1
      cases h1
      exact ⟨n, hn, P, h2⟩
    · rw [exec_other hh (by simp)] at h
      unfold siteExec at h
      simp only [hh] at h
      cases h
    · rw [exec_other hh (by simp)] at h
      unfold siteExec at h
      simp only [hh] at h
      cases h
  generalize ha : p.argv = argv at hr
  cases hr with
  | install hb _ _ _ n hn => cases hb <;> exact key ha hn (by simp only [List.getLast?_append]; rfl) (by simp)
  | remove hb _ _ _ n hn => cases hb <;> exact key ha hn (by simp only [List.getLast?_append]; rfl) (by simp)

/-- Commands for services. -/
theorem service_runs {found : Bool} {unit : Str} {state : Option Str} {enabled : Option Bool} {p : Proc} {w w' : World} {out err : Bytes} {code : Int}
    (hr : (Item.service found unit state enabled).Runs p.argv) (h : sys.exec p w = (.done out err code, w')) : ∃ units, w' = { w with units := units } := by
  have : p.argv.head? = some p!"systemctl" := by
    generalize p.argv = argv at hr
    cases hr <;> rfl
  rw [serviceCommand this] at h
  exact unit_done h

/-- Commands for the clone. -/
theorem repo_runs {G : Repositories} {a : RepoArgs} {p : Proc} {w w' : World} {out err : Bytes} {code : Int}
    (hr : (Item.repo G a).Runs p.argv) (h : sys.exec p w = (.done out err code, w')) :
    w' = w ∨ dirThere w [] = true ∧ dirThere w [p!"app", p!".git", p!"HEAD"] = false ∧ w' = checkedOut w 1 := by
  have hh : p.argv.head? = some p!"git" := by
    generalize p.argv = argv at hr
    cases hr <;> rfl
  rw [gitCommand hh] at h
  have key : ∀ {out err : Bytes} {code : Int}, checkOut w = (.done out err code, w') →
      w' = w ∨ dirThere w [] = true ∧ dirThere w [p!"app", p!".git", p!"HEAD"] = false ∧ w' = checkedOut w 1 := by
    intro out err code h
    unfold checkOut at h
    split at h
    · rename_i hc
      cases h
      exact .inr ⟨hc.1, hc.2, rfl⟩
    · cases h
      exact .inl rfl
  unfold siteGit at h
  repeat' split at h
  all_goals first | exact key h | (cases h; exact .inl rfl)

/-- Commands for accounts. -/
theorem account_runs {i : Item} (hi : (∃ name present gid system, i = .group name present gid system) ∨ ∃ a, i = .user a) {p : Proc} {w w' : World} {out err : Bytes} {code : Int}
    (hr : i.Runs p.argv) (h : sys.exec p w = (.done out err code, w')) : (∃ w2, w' = withAccounts w w2 ∧ Tidy w') ∨ w' = w := by
  rcases hi with ⟨name, present, gid, system, rfl⟩ | ⟨a, rfl⟩
  · have : p.argv.head? = some p!"groupadd" ∨ p.argv.head? = some p!"groupmod" ∨ p.argv.head? = some p!"groupdel" := by
      generalize p.argv = argv at hr
      cases hr <;> simp
    rw [groupCommand this] at h
    rcases guarded_done h with ⟨w2, _, h2, h3⟩ | ⟨_, h⟩
    · exact .inl ⟨w2, h2, h3⟩
    · exact .inr h
  · have : p.argv.head? = some p!"useradd" ∨ p.argv.head? = some p!"usermod" ∨ p.argv.head? = some p!"userdel" := by
      generalize p.argv = argv at hr
      cases hr <;> simp
    rw [userCommand this] at h
    rcases guarded_done h with ⟨w2, _, h2, h3⟩ | ⟨_, h⟩
    · exact .inl ⟨w2, h2, h3⟩
    · exact .inr h

theorem siteExec_bash {p : Proc} {w : World} : (siteBash p w).2 = w := by
  unfold siteBash
  repeat' split
  all_goals rfl

theorem looking : ∀ p w, LooksOnly p.argv → (sys.exec p w).2 = w := by
  intro p w h
  generalize ha : p.argv = argv at h
  cases h with
  | readlink path =>
    have := Example.looking p w (by rw [ha]; exact .readlink path)
    show (core tools p w).2 = w
    have h2 : (core Example.tools p w).2 = w := this
    unfold core at h2 ⊢
    rw [ha] at h2 ⊢
    cases hp : parseTool [p!"readlink", p!"-n", path] with
    | none =>
      show (siteExec p w).2 = w
      unfold siteExec
      rw [ha]
      rfl
    | some t =>
      have ht : parseTool [p!"readlink", p!"-n", path] = if isOption path = false then some (.readlink path) else none := by simp [parseTool]
      rw [hp] at ht h2
      split at ht
      · cases ht
        have h2 : (runReadlink Example.tools p w path).2 = w := h2
        show (runReadlink tools p w path).2 = w
        unfold runReadlink at h2 ⊢
        exact h2
      · cases ht
  | unitProperty property unit =>
    rw [serviceCommand (by rw [ha]; rfl)]
    unfold Example.unitExec
    rw [ha]
    simp only
    repeat' split
    all_goals rfl
  | pacmanInstalled package =>
    rw [packageCommand (by rw [ha]; rfl)]
    unfold Example.pacmanExec
    rw [ha]
    simp
  | packageCommand => rw [bashCommand (by rw [ha]; rfl)]; exact siteExec_bash
  | serviceCommand => rw [bashCommand (by rw [ha]; rfl)]; exact siteExec_bash
  | gitCommit path =>
    rw [gitCommand (by rw [ha]; rfl)]
    unfold siteGit
    rw [ha]
    split
    · split <;> rfl
    · rw [if_neg (by simp), if_neg (by simp), if_neg (by simp), if_neg (by simp)]
  | gitUrl path =>
    rw [gitCommand (by rw [ha]; rfl)]
    unfold siteGit
    rw [ha, if_neg (by simp)]
    split
    · split <;> rfl
    · rw [if_neg (by simp), if_neg (by simp), if_neg (by simp)]
  | gitUpstream url ref =>
    rw [gitCommand (by rw [ha]; rfl)]
    unfold siteGit
    rw [ha, if_neg (by simp), if_neg (by simp)]
    split
    · rfl
    · rw [if_neg (by simp), if_neg (by simp)]
  | _ =>
    show (core tools p w).2 = w
    unfold core
    rw [ha]
    show (siteExec p w).2 = w
    unfold siteExec
    rw [ha]
    rfl

/-! ### A script -/

/-- The host: there is telnet, and a service nginx that is not started. -/
def world : World := { Example.fullHost with packages := [p!"telnet"], units := [⟨p!"system nginx", false, false⟩] }

def www : UserArgs := { user := p!"www", group := some p!"web", groups := some [p!"users"], home := some p!"/srv", passwordHash := some p!"*" }

/-- It installs two packages and removes one, creates a group, a user, a directory that belongs to them, a file in it and a link to it,
removes `/home`, clones a repository, and starts a service. It leaves it to the host which package manager and which service manager
there is, except for the second call. -/
def script : List Item :=
  [.packages true (pacman []) id [p!"nginx", p!"curl"] true,
   .packages false (pacman []) id [p!"telnet"] false,
   .group p!"web" true none true,
   .user www,
   .files (.one ⟨directory (pathOf [p!"etc", p!"site"]) true false (some p!"755") (some p!"www") (some p!"web") true, [p!"etc", p!"site"],
     .dir (some p!"755") (some p!"www") (some p!"web")⟩),
   .files (.one ⟨uploadContent sys.sha512 (.str p!"x=1") (pathOf [p!"etc", p!"site", p!"conf"]) (some p!"640") (some p!"www") none true,
     [p!"etc", p!"site", p!"conf"], .file (.ok [120, 61, 49]) (some p!"640") (some p!"www") none⟩),
   .files (.one ⟨link (pathOf [p!"etc", p!"current"]) p!"site" true false none none true, [p!"etc", p!"current"], .link p!"site" none none⟩),
   .files (.one ⟨directory (pathOf [p!"home"]) false false none none none true, [p!"home"], .absent .dir⟩),
   .repo repositories { url := Example.urlU, path := Example.app },
   .service true p!"nginx" (some p!"started") (some true)]

theorem script_proper : ∀ i ∈ script, i.Proper sys Example.units := by
  intro i hi
  simp only [script, List.mem_cons, List.not_mem_nil, or_false] at hi
  rcases hi with rfl | rfl | rfl | rfl | rfl | rfl | rfl | rfl | rfl | rfl
  · exact ⟨⟨_, _, _, _, .pacman [], packageHost⟩, fun l => .refl l, (fun _ => by decide), fun _ => findsManager⟩
  · exact ⟨⟨_, _, _, _, .pacman [], packageHost⟩, fun l => .refl l, (fun _ => by decide), fun h => by cases h⟩
  · exact ⟨by decide, groupTools⟩
  · refine ⟨⟨⟨by decide, by decide, by decide⟩, (by intro g h; cases h; decide), ?_⟩, ?_, userTools⟩
    · intro l hl x hx
      cases hl
      simp only [List.mem_cons, List.not_mem_nil, or_false] at hx
      subst hx
      exact ⟨by decide, by decide, by decide⟩
    · intro l hl _
      cases hl
      decide
  · trivial
  · trivial
  · trivial
  · trivial
  · exact ⟨nofun, gitHost, ⟨p!"c2", p!"c2", true⟩, rfl, rfl⟩
  · exact ⟨.inr (.inl rfl), systemd _, fun _ => findsSystemd⟩

theorem script_users : ∀ a, .user a ∈ script → a.user = p!"www" := by
  intro a ha
  simp only [script, List.mem_cons, List.not_mem_nil, or_false, reduceCtorEq, false_or] at ha
  cases ha
  rfl

theorem script_repos : ∀ G a, .repo G a ∈ script → G = repositories ∧ a = { url := Example.urlU, path := Example.app } := by
  intro G a ha
  simp only [script, List.mem_cons, List.not_mem_nil, or_false, reduceCtorEq, false_or] at ha
  cases ha
  exact ⟨rfl, rfl⟩

theorem tidy : Tidy world := by decide +kernel

theorem script_tasks : Tasks sys world (siteTasks sys.sha512 script) := by
  refine ⟨?_, ?_, by decide +kernel, ?_, ?_, ?_, fun _ => Example.rooted⟩
  · intro t ht
    simp only [script, siteTasks, Item.tasks, Call.tasks, List.flatMap_cons, List.flatMap_nil, List.cons_append, List.nil_append, List.append_nil, List.mem_cons, List.not_mem_nil, or_false] at ht
    rcases ht with rfl | rfl | rfl | rfl
    · exact .directory _ _ _ _
    · exact .store (.content (.str p!"x=1") _) (by intro b h; cases h; unfold Modest; decide)
    · exact .link _ _ _ _ ⟨by unfold Text; decide, by unfold Modest; decide⟩
    · exact .noDirectory _ _ _ _
  · have : ∀ t ∈ siteTasks sys.sha512 script, ∀ n ∈ t.names, n ≠ [] ∧ n ≠ p!"." ∧ n ≠ p!".." ∧ 47 ∉ n := by decide +kernel
    intro t ht n hn
    obtain ⟨h1, h2, h3, h4⟩ := this t ht n hn
    exact ⟨h1, h4, h2, h3⟩
  · have : ∀ t ∈ siteTasks sys.sha512 script, ∀ k < t.names.length, (world.fs (t.names.take k)).all (fun n => n.kind = .dir) = true := by decide +kernel
    intro t ht p s he hs n target hn hk
    have hlen : p.length < t.names.length := by
      have := List.length_pos_iff.mpr hs
      rw [he, List.length_append]; omega
    have := this t ht p.length hlen
    rw [show t.names.take p.length = p from by rw [he]; simp, hn] at this
    simp [hk] at this
  · have : ∀ t ∈ siteTasks sys.sha512 script, ∀ d ∈ siteTasks sys.sha512 script,
        t.names.isPrefixOf d.names = true → t.names ≠ d.names → t.wish.isDir = true := by decide +kernel
    intro t ht d hd s he hs
    refine this t ht d hd (List.isPrefixOf_iff_prefix.mpr ⟨s, he.symm⟩) fun h => hs ?_
    rw [h] at he
    exact List.append_cancel_left (as := d.names) (by rw [List.append_nil]; exact he.symm)
  · intro t ht target owner group hw n hn
    simp only [script, siteTasks, Item.tasks, Call.tasks, List.flatMap_cons, List.flatMap_nil, List.cons_append, List.nil_append, List.append_nil, List.mem_cons, List.not_mem_nil, or_false] at ht
    rcases ht with rfl | rfl | rfl | rfl <;> cases hw
    have h0 : none = some n := hn
    cases h0

/-- At the beginning of a script that is run directly, or by the program. -/
def Beginning (st : St) : Prop := st = Example.st ∨ st = { stack := [Example.env.base, {}] }

theorem script_bits {st : St} (hst : Beginning st) : NoSetIdsAsked Example.env st world (siteTasks sys.sha512 script) := by
  rcases hst with rfl | rfl
  all_goals
    intro t ht
    simp only [script, siteTasks, Item.tasks, Call.tasks, List.flatMap_cons, List.flatMap_nil, List.cons_append, List.nil_append, List.append_nil, List.mem_cons, List.not_mem_nil, or_false] at ht
    rcases ht with rfl | rfl | rfl | rfl
    · refine ⟨fun m i hm hi => Example.mode_bits (.inl (by cases hm; rfl)) hi, fun n hn => ?_, fun _ p hp => ?_⟩
      · have h0 : none = some n := hn
        cases h0
      · have : world.fs [p!"etc"] = some p := hp
        cases this
        decide
    · exact fun m i hm hi => Example.mode_bits (.inr (.inr (by cases hm; rfl))) hi
    · trivial
    · trivial

theorem script_orderly {st : St} (hst : Beginning st) : Orderly sys tools Example.env st Example.units script world where
  ordinary := ⟨rfl, (by intro w p f e h; cases h),
    { Example.host_sane with users := tidy.users, groups := tidy.groups, ngroups := tidy.ngroups, shadow := tidy.shadow },
    ⟨tidy.userUnique.1, tidy.groupUnique.1, tidy.userNames, fun e he => (tidy.groupNames e he).1⟩⟩
  aliases := ⟨tidy.userUnique.2, tidy.groupUnique.2⟩
  groups := ⟨tidy.groupUnique.1, tidy.groupUnique.2, fun e he => (tidy.groupNames e he).2⟩
  users := fun a ha => by rw [script_users a ha]; exact ⟨by decide, by decide⟩
  services := fun _ unit _ _ _ hr => by
    simp only [Example.units] at hr
    split at hr
    · split at hr <;> cases hr
    · cases hr
  repos := fun G a ha => by
    obtain ⟨rfl, rfl⟩ := script_repos G a ha
    intro c hc
    have h0 : none = some c := hc
    cases h0
  tasks := script_tasks
  bits := script_bits hst

theorem script_owned : AllOwned Example.env Example.st (siteTasks sys.sha512 script) := by
  intro t ht _
  simp only [script, siteTasks, Item.tasks, Call.tasks, List.flatMap_cons, List.flatMap_nil, List.cons_append, List.nil_append, List.append_nil, List.mem_cons, List.not_mem_nil, or_false] at ht
  rcases ht with rfl | rfl | rfl | rfl <;> exact ⟨by decide, by decide⟩

theorem script_octal {st : St} (hst : Beginning st) : OctalDirModes Example.env st (siteTasks sys.sha512 script) := by
  rcases hst with rfl | rfl
  all_goals
    intro t ht hd m hm
    simp only [script, siteTasks, Item.tasks, Call.tasks, List.flatMap_cons, List.flatMap_nil, List.cons_append, List.nil_append, List.append_nil, List.mem_cons, List.not_mem_nil, or_false] at ht
    rcases ht with rfl | rfl | rfl | rfl <;> cases hd
    cases hm
    exact ⟨0o755, by decide +kernel⟩

theorem units_untouched {P : Loc → Prop} {w w' : World} (h : Untouched P w w') (unit : Str) :
    Example.units.active false w' unit = Example.units.active false w unit ∧ Example.units.file false w' unit = Example.units.file false w unit := by
  have : w'.units = w.units := by rw [h.rest]
  simp only [Example.units, Example.unitOf, this, and_self]

/-- The group is not affected by what is done to a user of another name. -/
theorem group_kept {name user : Str} {w w' : World} (hne : name ≠ user) (ho : OtherAccountsSame user w w') {system : Bool} {env : Env} {st : St}
    (h : (Item.group name true none system).Done sys env st Example.units w) : (Item.group name true none system).Done sys env st Example.units w' := by
  simp only [Item.Done, if_true] at h ⊢
  obtain ⟨e, he, _⟩ := h
  have hm := List.mem_of_find?_eq_some he
  have hn : e.name = name := by simpa using List.find?_some he
  obtain ⟨e', he', hn', _⟩ := (ho.groups name e.gid hne).mpr ⟨e, hm, hn, rfl⟩
  cases hg : groupNamed w' name with
  | some e2 => exact ⟨e2, rfl, fun i hi => by cases hi⟩
  | none =>
    have := List.find?_eq_none.mp hg e' he'
    simp [hn'] at this

/-! ### What git leaves alone -/

theorem checkedOut_other {w : World} {q : Loc} (h : q.head? ≠ some p!"app") : (checkedOut w 1).fs q = w.fs q := by
  have hne : ∀ r : Loc, q ≠ p!"app" :: r := fun r he => h (by rw [he]; rfl)
  show setNode (setNode (setNode w.fs _ _) _ _) _ _ q = w.fs q
  unfold setNode
  rw [if_neg (hne _), if_neg (hne _), if_neg (hne _)]

theorem checkedOut_cases {w : World} {q : Loc} {n : Node} (h : (checkedOut w 1).fs q = some n) :
    w.fs q = some n ∧ q ≠ [p!"app"] ∧ q ≠ [p!"app", p!".git"] ∧ q ≠ [p!"app", p!".git", p!"HEAD"] ∨ (q = [p!"app"] ∨ q = [p!"app", p!".git"]) ∧ n = Remote.Example.dirNode 0o755
    ∨ q = [p!"app", p!".git", p!"HEAD"] ∧ n = { Remote.Example.dirNode 0o644 with kind := .file [0] } := by
  have h : setNode (setNode (setNode w.fs _ _) _ _) _ _ q = some n := h
  unfold setNode at h
  repeat' split at h
  · rename_i h1; cases h; exact .inr (.inr ⟨h1, rfl⟩)
  · rename_i h1; cases h; exact .inr (.inl ⟨.inr h1, rfl⟩)
  · rename_i h1; cases h; exact .inr (.inl ⟨.inl h1, rfl⟩)
  · rename_i h1 h2 h3; exact .inl ⟨h, h3, h2, h1⟩

theorem checkedOut_rooted {w : World} (h : Rooted w) (h0 : dirThere w [] = true) (h1 : dirThere w [p!"app", p!".git", p!"HEAD"] = false) : Rooted (checkedOut w 1) := by
  intro l name n hn
  have hdir : (checkedOut w 1).fs [p!"app"] = some (Remote.Example.dirNode 0o755) ∧ (checkedOut w 1).fs [p!"app", p!".git"] = some (Remote.Example.dirNode 0o755) := ⟨rfl, rfl⟩
  rcases checkedOut_cases hn with ⟨h2, _⟩ | ⟨h2 | h2, _⟩ | ⟨h2, _⟩
  · obtain ⟨p, hp, hk⟩ := h l name n h2
    by_cases hl : l = [p!"app"] ∨ l = [p!"app", p!".git"]
    · rcases hl with rfl | rfl
      · exact ⟨_, hdir.1, rfl⟩
      · exact ⟨_, hdir.2, rfl⟩
    · by_cases hl' : l = [p!"app", p!".git", p!"HEAD"]
      · subst hl'
        unfold dirThere at h1
        rw [hp] at h1
        simp [hk] at h1
      · refine ⟨p, ?_, hk⟩
        show setNode (setNode (setNode w.fs _ _) _ _) _ _ l = some p
        unfold setNode
        rw [if_neg hl', if_neg fun h => hl (.inr h), if_neg fun h => hl (.inl h)]
        exact hp
  · have hl : l = [] := by
      have := congrArg List.length h2
      simp at this
      exact this
    subst hl
    obtain ⟨n, h3, h4⟩ := dir_there h0
    exact ⟨n, h3, h4⟩
  · have hl : l = [p!"app"] := (List.append_inj' (t₁ := [name]) (t₂ := [p!".git"]) h2 rfl).1
    subst hl
    exact ⟨_, hdir.1, rfl⟩
  · have hl : l = [p!"app", p!".git"] := (List.append_inj' (t₁ := [name]) (t₂ := [p!"HEAD"]) h2 rfl).1
    subst hl
    exact ⟨_, hdir.2, rfl⟩

/-- Nothing that is managed is at `/app`, or below. -/
theorem script_elsewhere : ∀ t ∈ siteTasks sys.sha512 script, ∀ p s, t.names = p ++ s → p.head? ≠ some p!"app" := by
  have : ∀ t ∈ siteTasks sys.sha512 script, t.names.head? ≠ some p!"app" := by decide +kernel
  intro t ht p s he
  have h := this t ht
  rw [he] at h
  cases p with
  | nil => simp
  | cons c p => exact h

theorem orderly_checkedOut {env : Env} {st : St} {w : World} (h : Orderly sys tools env st Example.units script w) (h0 : dirThere w [] = true)
    (h1 : dirThere w [p!"app", p!".git", p!"HEAD"] = false) : Orderly sys tools env st Example.units script (checkedOut w 1) where
  ordinary := ⟨h.ordinary.exec, h.ordinary.stat,
    { h.ordinary.sane with
      node := by
        intro q n hn
        rcases checkedOut_cases hn with ⟨h2, _⟩ | ⟨_, rfl⟩ | ⟨_, rfl⟩
        · exact h.ordinary.sane.node q n h2
        all_goals
          exact ⟨by decide, by unfold IdOk; decide, by unfold IdOk; decide, by unfold TimeOk; decide, by unfold TimeOk; decide,
            (by intro c h; cases h <;> (unfold Modest; decide)), (by intro t h; cases h)⟩ },
    { h.ordinary.accounts with }⟩
  aliases := { h.aliases with }
  groups := { h.groups with }
  users := h.users
  services := h.services
  repos := fun G a ha => by
    obtain ⟨rfl, rfl⟩ := script_repos G a ha
    intro c hc
    have : cloneThere (checkedOut w 1) Example.app = some c := hc
    rw [clone_checkedOut h0] at this
    cases this
    exact ⟨rfl, ⟨p!"master", rfl, rfl⟩, rfl⟩
  tasks := by
    refine ⟨h.tasks.proper, h.tasks.names, h.tasks.distinct, fun t ht p s he hs => ?_, h.tasks.apart, fun t ht => ?_, fun ha => checkedOut_rooted (h.tasks.rooted ha) h0 h1⟩
    · rw [checkedOut_other (script_elsewhere t ht p s he)]
      exact h.tasks.plain t ht p s he hs
    · rw [checkedOut_other (script_elsewhere t ht t.names [] (by simp))]
      exact h.tasks.links t ht
  bits := by
    intro t ht
    have hb := h.bits t ht
    have e1 := checkedOut_other (w := w) (script_elsewhere t ht t.names [] (by simp))
    have e2 : (checkedOut w 1).fs t.names.dropLast = w.fs t.names.dropLast := by
      by_cases hn : t.names = []
      · rw [hn]; rfl
      · exact checkedOut_other (script_elsewhere t ht _ [t.names.getLast hn] (List.dropLast_concat_getLast hn).symm)
    rw [e1, e2]
    exact hb

theorem done_checkedOut {env : Env} {st : St} {w : World} {j : Item} (hj : j ∈ script) (hg : ∀ G a, j ≠ .repo G a) (h : j.Done sys env st Example.units w) :
    j.Done sys env st Example.units (checkedOut w 1) := by
  cases j with
  | files c =>
    intro t ht
    obtain ⟨h1, h2⟩ := h t ht
    have hmem : t ∈ siteTasks sys.sha512 script := List.mem_flatMap.mpr ⟨_, hj, ht⟩
    have he : ∀ s, (checkedOut w 1).fs (t.names ++ s) = w.fs (t.names ++ s) := fun s => checkedOut_other (by
      have : ∀ t ∈ siteTasks sys.sha512 script, t.names ≠ [] := by decide +kernel
      have hne := this t hmem
      have hh := script_elsewhere t hmem t.names [] (by simp)
      cases hn : t.names with
      | nil => exact absurd hn hne
      | cons c r => rw [hn] at hh; exact hh)
    have e0 : (checkedOut w 1).fs t.names = w.fs t.names := by have := he []; rwa [List.append_nil] at this
    refine ⟨granted_congr (w := w) rfl rfl ?_, fun p s hs hne => ?_⟩
    · cases hw : t.wish <;> rw [hw] at h1 <;> simp only [Wish.Granted] at h1 ⊢ <;> rw [e0]
      all_goals first | exact h1 | exact ⟨h1.1, fun hd s => by rw [he]; exact h1.2 hd s⟩
    · rw [checkedOut_other (script_elsewhere t hmem p s hs)]
      exact h2 p s hs hne
  | repo G a => exact absurd rfl (hg G a)
  | _ => exact h

theorem clone_untouched {w w' : World} (h : Untouched (fun q => ∃ t ∈ siteTasks sys.sha512 script, t.Covers q) w w') (path : Str) : cloneThere w' path = cloneThere w path := by
  have key : ∀ q : Loc, (q = [] ∨ q.head? = some p!"app") → w'.fs q = w.fs q := by
    intro q hq
    refine h.fs q ?_
    rintro ⟨t, ht, hc⟩
    have hne : ∀ t ∈ siteTasks sys.sha512 script, t.names ≠ [] ∧ t.names.head? ≠ some p!"app" := by decide +kernel
    obtain ⟨h1, h2⟩ := hne t ht
    have : ∃ s, q = t.names ++ s := by
      rcases hc with rfl | ⟨_, s, rfl⟩
      · exact ⟨[], by simp⟩
      · exact ⟨s, rfl⟩
    obtain ⟨s, rfl⟩ := this
    cases hn : t.names with
    | nil => exact h1 hn
    | cons c r =>
      rw [hn] at h2 hq
      rcases hq with hq | hq
      · cases hq
      · exact h2 hq
  unfold cloneThere dirThere
  rw [key [] (.inl rfl), key [p!"app"] (.inr rfl), key [p!"app", p!".git"] (.inr rfl), key [p!"app", p!".git", p!"HEAD"] (.inr rfl)]

theorem script_compatible {env : Env} {st : St} : Compatible sys tools env st Example.units script where
  looking := looking
  orderly := by
    intro i hi p w out err code w' hr h ho
    cases i with
    | files c => cases hr
    | group name present gid system =>
      rcases account_runs (.inl ⟨_, _, _, _, rfl⟩) hr h with ⟨w2, rfl, ht⟩ | rfl
      · exact orderly_accounts script_users (fun G a h => (script_repos G a h).1) ho ht
      · exact ho
    | user a =>
      rcases account_runs (.inr ⟨_, rfl⟩) hr h with ⟨w2, rfl, ht⟩ | rfl
      · exact orderly_accounts script_users (fun G a h => (script_repos G a h).1) ho ht
      · exact ho
    | packages found m order names present =>
      obtain ⟨_, _, P, rfl, _⟩ := package_runs hr h
      exact orderly_rest (fun G a h => (script_repos G a h).1) ho P w.units
    | service found unit state enabled =>
      obtain ⟨u, rfl⟩ := service_runs hr h
      exact orderly_rest (fun G a h => (script_repos G a h).1) ho w.packages u
    | repo G a =>
      rcases repo_runs hr h with rfl | ⟨h0, h1, rfl⟩
      · exact ho
      · exact orderly_checkedOut ho h0 h1
  kept := by
    intro pre i post hsplit j hj p w out err code w' hr h ho hd
    have hk : pre = script.take pre.length := by rw [hsplit]; simp
    have hi : script[pre.length]? = some i := by rw [hsplit]; simp
    rw [hk] at hj
    generalize pre.length = k at hj hi
    match k with
    | 0 => cases hj
    | 1 =>
      cases hi
      obtain ⟨n, hn, P, rfl, hP⟩ := package_runs hr h
      simp only [script, List.take_succ_cons, List.take_zero, List.mem_cons, List.not_mem_nil, or_false] at hj hn
      subst hj hn
      intro q hq
      have hne : q ≠ p!"telnet" := by
        intro he
        subst he
        simp at hq
      exact (hP q hne).trans (hd q hq)
    | 2 =>
      cases hi
      simp only [script, List.take_succ_cons, List.take_zero, List.mem_cons, List.not_mem_nil, or_false] at hj
      rcases account_runs (.inl ⟨_, _, _, _, rfl⟩) hr h with ⟨w2, rfl, ht⟩ | rfl
      · rcases hj with rfl | rfl <;> exact hd
      · exact hd
    | 3 =>
      cases hi
      simp only [script, List.take_succ_cons, List.take_zero, List.mem_cons, List.not_mem_nil, or_false] at hj
      rcases hj with rfl | rfl | rfl
      · rcases account_runs (.inr ⟨_, rfl⟩) hr h with ⟨w2, rfl, ht⟩ | rfl <;> exact hd
      · rcases account_runs (.inr ⟨_, rfl⟩) hr h with ⟨w2, rfl, ht⟩ | rfl <;> exact hd
      · refine group_kept (user := p!"www") (by decide) ?_ hd
        have : (p.argv.head? = some p!"useradd" ∨ p.argv.head? = some p!"usermod" ∨ p.argv.head? = some p!"userdel") ∧ p.argv.getLast? = some p!"www" := by
          generalize p.argv = argv at hr
          cases hr with
          | useradd _ options => exact ⟨.inl rfl, by simp only [List.getLast?_append]; rfl⟩
          | usermod => exact ⟨.inr (.inl rfl), rfl⟩
          | userdel _ hp => cases hp
        exact userTools.others p w out err code w' _ this.1 this.2 h
    | 4 => cases hi; cases hr
    | 5 => cases hi; cases hr
    | 6 => cases hi; cases hr
    | 7 => cases hi; cases hr
    | 8 =>
      cases hi
      rcases repo_runs hr h with rfl | ⟨h0, h1, rfl⟩
      · exact hd
      · refine done_checkedOut (List.mem_of_mem_take hj) (fun G a he => ?_) hd
        subst he
        simp [script] at hj
    | 9 =>
      cases hi
      obtain ⟨u, rfl⟩ := service_runs hr h
      refine done_rest hd w.packages u (fun _ _ _ _ _ _ => rfl) (fun found unit state enabled he => ?_) fun G a he => ?_
      · subst he
        simp [script] at hj
      · subst he
        exact (script_repos G a (List.mem_of_mem_take hj)).1
    | k + 10 => cases hi
  running := fun _ unit _ _ _ w w' h => (units_untouched h unit).1
  enabled := fun _ _ _ _ _ unit _ _ _ w w' h => (units_untouched h unit).2
  clones := fun G a ha w w' h => by
    obtain ⟨rfl, _⟩ := script_repos G a ha
    exact clone_untouched h a.path

/-! ### A script whose calls interfere with each other -/

/-- `userdel` that also removes the group of the same name, as it is usually configured. -/
def usergroupsExec (p : Proc) (w : World) : ExecRes × World :=
  if p.argv.head? = some p!"userdel" then
    let r := siteExec p w
    (r.1, { r.2 with groups := r.2.groups.filter fun e => some e.name ≠ p.argv.getLast? })
  else siteExec p w

def usergroupsTools : Tools := { tools with other := usergroupsExec }

def usergroupsSys : Sys := { sys with exec := core usergroupsTools }

theorem usergroups_same {p : Proc} {w : World} (h : p.argv.head? ≠ some p!"userdel") (hn : parseTool p.argv = none) : usergroupsSys.exec p w = sys.exec p w := by
  show core usergroupsTools p w = core tools p w
  unfold core
  rw [hn]
  show usergroupsExec p w = siteExec p w
  unfold usergroupsExec
  rw [if_neg h]

theorem parse_account {p : Proc} (h : p.argv.head? = some p!"groupadd" ∨ p.argv.head? = some p!"groupmod" ∨ p.argv.head? = some p!"groupdel"
    ∨ p.argv.head? = some p!"useradd" ∨ p.argv.head? = some p!"usermod" ∨ p.argv.head? = some p!"userdel") : parseTool p.argv = none := by
  cases ha : p.argv with
  | nil => rfl
  | cons a l =>
    simp only [ha, List.head?_cons, Option.some.injEq] at h
    rcases h with rfl | rfl | rfl | rfl | rfl | rfl <;> (unfold parseTool; split <;> first | rfl | (rename_i he; cases he; simp))

theorem usergroups_userdel {p : Proc} {w : World} (h : p.argv.head? = some p!"userdel") :
    usergroupsSys.exec p w = ((sys.exec p w).1, { (sys.exec p w).2 with groups := (sys.exec p w).2.groups.filter fun e => some e.name ≠ p.argv.getLast? }) := by
  have hn : parseTool p.argv = none := parse_account (by simp [h])
  show core usergroupsTools p w = ((core tools p w).1, { (core tools p w).2 with groups := (core tools p w).2.groups.filter fun e => some e.name ≠ p.argv.getLast? })
  unfold core
  rw [hn]
  show usergroupsExec p w = _
  unfold usergroupsExec
  rw [if_pos h]
  rfl

theorem usergroups_groupTools : GroupTools usergroupsSys where
  add := by
    intro p w out err w' system gid name hp h
    have hh : p.argv.head? = some p!"groupadd" := by rw [hp]; rfl
    rw [usergroups_same (by rw [hh]; decide) (parse_account (by simp [hh]))] at h
    exact groupTools.add p w out err w' system gid name hp h
  modify := by
    intro p w out err w' x gid name hp hx h
    have hh : p.argv.head? = some p!"groupmod" := by rw [hp]; rfl
    rw [usergroups_same (by rw [hh]; decide) (parse_account (by simp [hh]))] at h
    exact groupTools.modify p w out err w' x gid name hp hx h
  delete := by
    intro p w out err w' name hp h
    have hh : p.argv.head? = some p!"groupdel" := by rw [hp]; rfl
    rw [usergroups_same (by rw [hh]; decide) (parse_account (by simp [hh]))] at h
    exact groupTools.delete p w out err w' name hp h
  others := by
    intro p w out err code w' name hp hl h
    rw [usergroups_same (by rcases hp with hp | hp | hp <;> rw [hp] <;> decide) (parse_account (by rcases hp with hp | hp | hp <;> simp [hp]))] at h
    exact groupTools.others p w out err code w' name hp hl h

theorem usergroups_userTools : UserTools usergroupsSys where
  add := by
    intro p w out err w' u hp hg h
    have hh : p.argv.head? = some p!"useradd" := by rw [hp]; rfl
    rw [usergroups_same (by rw [hh]; decide) (parse_account (by simp [hh]))] at h
    exact userTools.add p w out err w' u hp hg h
  delete := by
    intro p w out err w' name hp h
    rw [usergroups_userdel (by rw [hp]; rfl)] at h
    have h1 := congrArg Prod.fst h
    have h2 := congrArg Prod.snd h
    simp only at h1 h2
    have := userTools.delete p w out err (sys.exec p w).2 name hp (by rw [← h1])
    rw [← h2]
    exact this
  uid := by
    intro p w out err w' x uid name hp hx h
    have hh : p.argv.head? = some p!"usermod" := by rw [hp]; rfl
    rw [usergroups_same (by rw [hh]; decide) (parse_account (by simp [hh]))] at h
    exact userTools.uid p w out err w' x uid name hp hx h
  gid := by
    intro p w out err w' x name hp hx h
    have hh : p.argv.head? = some p!"usermod" := by rw [hp]; rfl
    rw [usergroups_same (by rw [hh]; decide) (parse_account (by simp [hh]))] at h
    exact userTools.gid p w out err w' x name hp hx h
  groups := by
    intro p w out err w' l name hl hp hx h
    have hh : p.argv.head? = some p!"usermod" := by rw [hp]; rfl
    rw [usergroups_same (by rw [hh]; decide) (parse_account (by simp [hh]))] at h
    exact userTools.groups p w out err w' l name hl hp hx h
  comment := by
    intro p w out err w' x name hp h
    have hh : p.argv.head? = some p!"usermod" := by rw [hp]; rfl
    rw [usergroups_same (by rw [hh]; decide) (parse_account (by simp [hh]))] at h
    exact userTools.comment p w out err w' x name hp h
  home := by
    intro p w out err w' x name hp h
    have hh : p.argv.head? = some p!"usermod" := by rw [hp]; rfl
    rw [usergroups_same (by rw [hh]; decide) (parse_account (by simp [hh]))] at h
    exact userTools.home p w out err w' x name hp h
  shell := by
    intro p w out err w' x name hp h
    have hh : p.argv.head? = some p!"usermod" := by rw [hp]; rfl
    rw [usergroups_same (by rw [hh]; decide) (parse_account (by simp [hh]))] at h
    exact userTools.shell p w out err w' x name hp h
  password := by
    intro p w out err w' x name hp h
    have hh : p.argv.head? = some p!"usermod" := by rw [hp]; rfl
    rw [usergroups_same (by rw [hh]; decide) (parse_account (by simp [hh]))] at h
    exact userTools.password p w out err w' x name hp h
  others := by
    intro p w out err code w' name hp hl h
    by_cases hd : p.argv.head? = some p!"userdel"
    · rw [usergroups_userdel hd] at h
      have h1 := congrArg Prod.fst h
      have h2 := congrArg Prod.snd h
      simp only at h1 h2
      obtain ⟨a, b, c, d⟩ := userTools.others p w out err code (sys.exec p w).2 name hp hl (by rw [← h1])
      rw [← h2]
      refine ⟨a, b, fun g i hg => (Iff.trans ?_ (c g i hg)), fun g m hg hm => (Iff.trans ?_ (d g m hg hm))⟩
      · constructor
        · rintro ⟨e, he, h⟩
          exact ⟨e, (List.mem_filter.mp he).1, h⟩
        · rintro ⟨e, he, h⟩
          refine ⟨e, List.mem_filter.mpr ⟨he, ?_⟩, h⟩
          rw [hl, h.1]
          simp [hg]
      · constructor
        · rintro ⟨e, he, h⟩
          exact ⟨e, (List.mem_filter.mp he).1, h⟩
        · rintro ⟨e, he, h⟩
          refine ⟨e, List.mem_filter.mpr ⟨he, ?_⟩, h⟩
          rw [hl, h.1]
          simp [hg]
    · rw [usergroups_same hd (parse_account (by rcases hp with hp | hp | hp <;> simp [hp]))] at h
      exact userTools.others p w out err code w' name hp hl h

/-- A host with the user www and their group. -/
def usergroupsWorld : World :=
  { world with users := world.users ++ [{ name := p!"www", uid := 2000, gid := 2000, gecos := [], home := p!"/srv", shell := p!"/bin/sh" }]
               groups := world.groups ++ [{ name := p!"www", gid := 2000, members := [] }]
               shadow := world.shadow ++ [(p!"www", p!"*")] }

/-- The group is to be present, the user is not. -/
def interfering : List Item := [.group p!"www" true none false, .user { user := p!"www", present := false }]

theorem interfering_proper : ∀ i ∈ interfering, i.Proper usergroupsSys Example.units := by
  intro i hi
  simp only [interfering, List.mem_cons, List.not_mem_nil, or_false] at hi
  rcases hi with rfl | rfl
  · exact ⟨by decide, usergroups_groupTools⟩
  · exact ⟨⟨⟨by decide, by decide, by decide⟩, (by intro g h; cases h), (by intro l h; cases h)⟩, (by intro l h; cases h), usergroups_userTools⟩

theorem interfering_orderly : Orderly usergroupsSys usergroupsTools Example.env Example.st Example.units interfering usergroupsWorld := by
  have tidy : Tidy usergroupsWorld := by decide +kernel
  exact {
    ordinary := ⟨rfl, (by intro w p f e h; cases h),
      { Example.host_sane with users := tidy.users, groups := tidy.groups, ngroups := tidy.ngroups, shadow := tidy.shadow },
      ⟨tidy.userUnique.1, tidy.groupUnique.1, tidy.userNames, fun e he => (tidy.groupNames e he).1⟩⟩
    aliases := ⟨tidy.userUnique.2, tidy.groupUnique.2⟩
    groups := ⟨tidy.groupUnique.1, tidy.groupUnique.2, fun e he => (tidy.groupNames e he).2⟩
    users := fun a ha => by
      have : a.user = p!"www" := by
        simp only [interfering, List.mem_cons, List.not_mem_nil, or_false, reduceCtorEq, false_or] at ha
        cases ha
        rfl
      rw [this]
      exact ⟨by decide, by decide⟩
    services := fun _ unit state enabled hs => by simp [interfering] at hs
    repos := fun G a hs => by simp [interfering] at hs
    tasks := by
      show Tasks usergroupsSys usergroupsWorld []
      exact ⟨by simp, by simp, by simp, by simp, by simp, by simp, by simp⟩
    bits := by
      show NoSetIdsAsked _ _ _ []
      intro t ht
      cases ht }

end Verif.Ops.Site
