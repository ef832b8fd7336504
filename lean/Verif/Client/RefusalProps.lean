/-
Property theorems about the messages with which arguments are refused (C80).
-/
import Verif.Client.FileProps
import Verif.Client.RunProps
import Verif.Client.AccountProps
import Verif.Script.ConnectionProps
import Verif.Py.GrammarLemmas

namespace Verif.Client

open Wire (Packet Kind encoding)
open Remote

/-! ### Specification -/

/-- An argument of a call: its name, the value given for it, and what makes a value wrong. -/
structure Argument where
  name : Str
  value : Option Str
  wrong : Str → Prop

/-- The message names one of the arguments, shows the value that was given for it, and that value is indeed wrong. -/
def Blames (args : List Argument) (m : Str) : Prop :=
  ∃ a ∈ args, ∃ v why, a.value = some v ∧ a.wrong v ∧ m = p!"Invalid value '" ++ v ++ p!"' given for field '" ++ a.name ++ p!"': " ++ why

/-- Not an octal number. -/
def NotOctal (m : Str) : Prop := ∀ i, ¬ Py.IsNumber 8 m i

/-- No account has this name or number. (No name contains a NUL character.) -/
def UnknownUser (w : World) (u : Str) : Prop := ¬ NoNul u ∨ ∀ e, ¬ DenotesUser w u e

def UnknownGroup (w : World) (g : Str) : Prop := ¬ NoNul g ∨ ∀ e, ¬ DenotesGroup w g e

/-- Not the path of a directory. -/
def NotDirectory (w : World) (c : Str) : Prop := ∀ l n, lookup w.fs w.cwd c true = .ok (l, n) → n.kind ≠ .dir

/-- The arguments of `upload` that can be wrong. -/
def uploadArguments (w : World) (mode owner group : Option Str) : List Argument :=
  [⟨p!"mode", mode, NotOctal⟩, ⟨p!"owner", owner, UnknownUser w⟩, ⟨p!"group", group, UnknownGroup w⟩]

/-- The arguments of `run` that can be wrong. -/
def runArguments (w : World) (user group umask cwd : Option Str) : List Argument :=
  [⟨p!"umask", umask, NotOctal⟩, ⟨p!"user", user, UnknownUser w⟩, ⟨p!"group", group, UnknownGroup w⟩, ⟨p!"cwd", cwd, NotDirectory w⟩]

/-- Some argument is wrong. -/
def SomeWrong (args : List Argument) : Prop := ∃ a ∈ args, ∃ v, a.value = some v ∧ a.wrong v

/-! ### Theorems -/

theorem notOctal_iff {m : Str} : NotOctal m ↔ Py.parseInt 8 m = none := by
  unfold NotOctal
  constructor
  · intro h
    cases hp : Py.parseInt 8 m with
    | none => rfl
    | some i => exact absurd (Py.parseInt_iff.mp hp) (h i)
  · intro h i hi
    rw [← Py.parseInt_iff, h] at hi
    cases hi

theorem optional_oct_error {o : Option Str} {e : Exn} (h : Remote.optional resolveOct o = .error e) : ∃ m, o = some m ∧ NotOctal m := by
  cases o with
  | none => cases h
  | some m =>
    refine ⟨m, rfl, notOctal_iff.mpr ?_⟩
    cases hp : Py.parseInt 8 m with
    | none => rfl
    | some i => simp [Remote.optional, resolveOct, hp] at h

theorem optional_user_error {w : World} (hw : w.Sane) {o : Option Str} {e : Exn} (h : Remote.optional (Remote.resolveUser w) o = .error e) :
    ∃ u, o = some u ∧ UnknownUser w u := by
  cases o with
  | none => cases h
  | some u =>
    refine ⟨u, rfl, ?_⟩
    by_cases hn : NoNul u
    · refine .inr fun x hx => ?_
      have := (resolveUser_eq hw u).1 x hx hn
      simp [Remote.optional, this] at h
    · exact .inl hn

theorem optional_group_error {w : World} (hw : w.Sane) {o : Option Str} {e : Exn} (h : Remote.optional (Remote.resolveGroup w) o = .error e) :
    ∃ u, o = some u ∧ UnknownGroup w u := by
  cases o with
  | none => cases h
  | some u =>
    refine ⟨u, rfl, ?_⟩
    by_cases hn : NoNul u
    · refine .inr fun x hx => ?_
      have := (resolveGroup_eq hw u).1 x hx hn
      simp [Remote.optional, this] at h
    · exact .inl hn

theorem optional_user_known {w : World} (hw : w.Sane) {o : Option Str} {u : Str} {x : Option (Nat × Nat)}
    (h : Remote.optional (Remote.resolveUser w) o = .ok x) (ho : o = some u) : ¬ UnknownUser w u := by
  subst ho
  rintro (hn | hno)
  · have := hasNul_iff.mpr hn
    simp [Remote.optional, Remote.resolveUser, getpwnam, this, nulError] at h
  · obtain ⟨m, hm⟩ := (resolveUser_eq hw u).2.2 hno
    simp [Remote.optional, hm] at h

theorem optional_group_known {w : World} (hw : w.Sane) {o : Option Str} {u : Str} {x : Option Nat}
    (h : Remote.optional (Remote.resolveGroup w) o = .ok x) (ho : o = some u) : ¬ UnknownGroup w u := by
  subst ho
  rintro (hn | hno)
  · have := hasNul_iff.mpr hn
    simp [Remote.optional, Remote.resolveGroup, getgrnam, this, nulError] at h
  · obtain ⟨m, hm⟩ := (resolveGroup_eq hw u).2.2 hno
    simp [Remote.optional, hm] at h

theorem optional_oct_known {o : Option Str} {u : Str} {x : Option Int} (h : Remote.optional resolveOct o = .ok x) (ho : o = some u) : ¬ NotOctal u := by
  subst ho
  intro hno
  simp [Remote.optional, resolveOct, notOctal_iff.mp hno] at h

/-- C80. If an argument of `upload` is wrong, a ValueError is raised that names a wrong argument and shows its value. -/
theorem C80_upload (sys : Sys) (w : World) (hw : w.Sane) (file : Str) (content : Bytes) (mode owner group : Option Str)
    (hbad : SomeWrong (uploadArguments w mode owner group)) :
    ∃ m, (Connector.upload file content mode owner group).run (direct sys) w = (.error (.valueError m), w)
      ∧ Blames (uploadArguments w mode owner group) m := by
  unfold Connector.upload
  simp only [Prog.run, direct, handle, handleUpload]
  cases h1 : Remote.optional resolveOct mode with
  | error e =>
    obtain ⟨v, rfl, hv⟩ := optional_oct_error h1
    exact ⟨_, rfl, ⟨p!"mode", _, NotOctal⟩, by simp [uploadArguments], v, _, rfl, hv, rfl⟩
  | ok mo =>
    cases h2 : Remote.optional (Remote.resolveUser w) owner with
    | error e =>
      obtain ⟨v, rfl, hv⟩ := optional_user_error hw h2
      exact ⟨_, rfl, ⟨p!"owner", _, UnknownUser w⟩, by simp [uploadArguments], v, _, rfl, hv, rfl⟩
    | ok ug =>
      cases h3 : Remote.optional (Remote.resolveGroup w) group with
      | error e =>
        obtain ⟨v, rfl, hv⟩ := optional_group_error hw h3
        exact ⟨_, rfl, ⟨p!"group", _, UnknownGroup w⟩, by simp [uploadArguments], v, _, rfl, hv, rfl⟩
      | ok g =>
        obtain ⟨a, ha, v, hv, hwrong⟩ := hbad
        simp only [uploadArguments, List.mem_cons, List.not_mem_nil, or_false] at ha
        rcases ha with rfl | rfl | rfl
        · exact absurd hwrong (optional_oct_known h1 hv)
        · exact absurd hwrong (optional_user_known hw h2 hv)
        · exact absurd hwrong (optional_group_known hw h3 hv)

/-- C80. If an argument of `run` is wrong, nothing is started and a ValueError is raised that names a wrong argument and shows its
value. -/
theorem C80_run (sys : Sys) (w : World) (hw : w.Sane) (command : List Str) (input : Option Bytes) (capture check : Bool)
    (user group umask cwd : Option Str) (hbad : SomeWrong (runArguments w user group umask cwd)) :
    ∃ m, (Connector.run command input capture check user group umask cwd).run (direct sys) w = (.error (.valueError m), w)
      ∧ Blames (runArguments w user group umask cwd) m := by
  unfold Connector.run
  simp only [Prog.run, direct, handle, handleRun]
  cases h1 : Remote.optional resolveOct umask with
  | error e =>
    obtain ⟨v, rfl, hv⟩ := optional_oct_error h1
    exact ⟨_, rfl, ⟨p!"umask", _, NotOctal⟩, by simp [runArguments], v, _, rfl, hv, rfl⟩
  | ok mo =>
    cases h2 : Remote.optional (Remote.resolveUser w) user with
    | error e =>
      obtain ⟨v, rfl, hv⟩ := optional_user_error hw h2
      exact ⟨_, rfl, ⟨p!"user", _, UnknownUser w⟩, by simp [runArguments], v, _, rfl, hv, rfl⟩
    | ok ug =>
      cases h3 : Remote.optional (Remote.resolveGroup w) group with
      | error e =>
        obtain ⟨v, rfl, hv⟩ := optional_group_error hw h3
        exact ⟨_, rfl, ⟨p!"group", _, UnknownGroup w⟩, by simp [runArguments], v, _, rfl, hv, rfl⟩
      | ok g =>
        obtain ⟨a, ha, v, hv, hwrong⟩ := hbad
        simp only [runArguments, List.mem_cons, List.not_mem_nil, or_false] at ha
        rcases ha with rfl | rfl | rfl | rfl
        · exact absurd hwrong (optional_oct_known h1 hv)
        · exact absurd hwrong (optional_user_known hw h2 hv)
        · exact absurd hwrong (optional_group_known hw h3 hv)
        · simp only at hv
          subst hv
          have hd : osIsdir sys w v = false := by
            unfold osIsdir osStat
            cases hgc : guardCall sys w v (.stat v true) with
            | error e => rfl
            | ok _ =>
              simp only
              cases hl : lookup w.fs w.cwd v true with
              | error n => rfl
              | ok x =>
                obtain ⟨l, n⟩ := x
                simpa using hwrong l n hl
          simp only [Option.any_some, hd, Bool.not_false, if_true]
          exact ⟨_, rfl, ⟨p!"cwd", _, NotDirectory w⟩, by simp [runArguments], v, _, rfl, hwrong, rfl⟩

/-- C80. Asking about an account that does not exist raises a ValueError that names the argument and shows its value. -/
theorem C80_accounts (sys : Sys) (w : World) (hw : w.Sane) (name : Str) (hash : Bool) (hn : NoNul name) :
    (UnknownUser w name → ∃ m, (Connector.resolveUser (some name)).run (direct sys) w = (.error (.valueError m), w)
        ∧ Blames [⟨p!"user", some name, UnknownUser w⟩] m)
    ∧ (UnknownUser w name → ∃ m, (Connector.queryUser name hash).run (direct sys) w = (.error (.valueError m), w)
        ∧ Blames [⟨p!"user", some name, UnknownUser w⟩] m)
    ∧ (UnknownGroup w name → ∃ m, (Connector.resolveGroup (some name)).run (direct sys) w = (.error (.valueError m), w)
        ∧ Blames [⟨p!"group", some name, UnknownGroup w⟩] m)
    ∧ (UnknownGroup w name → ∃ m, (Connector.queryGroup name).run (direct sys) w = (.error (.valueError m), w)
        ∧ Blames [⟨p!"group", some name, UnknownGroup w⟩] m) := by
  have hu : UnknownUser w name → findUser w name = none := by
    rintro (h | h)
    · exact absurd hn h
    · cases hf : findUser w name with
      | none => rfl
      | some e => exact absurd (findUser_iff.mp hf) (h e)
  have hg : UnknownGroup w name → findGroup w name = none := by
    rintro (h | h)
    · exact absurd hn h
    · cases hf : findGroup w name with
      | none => rfl
      | some e => exact absurd (findGroup_iff.mp hf) (h e)
  refine ⟨fun h => ?_, fun h => ?_, fun h => ?_, fun h => ?_⟩
  · refine ⟨_, ?_, _, List.mem_singleton_self _, name, p!"The user does not exist", rfl, h, rfl⟩
    rw [resolveUser_run hw sys (u := some name) hn]
    simp only [Option.getD_some, hu h]
    rfl
  · refine ⟨_, ?_, _, List.mem_singleton_self _, name, p!"The user does not exist", rfl, h, rfl⟩
    simp only [Connector.queryUser, Prog.run, direct, handle, Script.handleQueryUser_eq hw hn, hu h]
    rfl
  · refine ⟨_, ?_, _, List.mem_singleton_self _, name, p!"The group does not exist", rfl, h, rfl⟩
    rw [resolveGroup_run hw sys (u := some name) hn]
    simp only [Option.getD_some, hg h]
    rfl
  · refine ⟨_, ?_, _, List.mem_singleton_self _, name, p!"The group does not exist", rfl, h, rfl⟩
    simp only [Connector.queryGroup, Prog.run, direct, handle, Script.handleQueryGroup_eq hw hn, hg h]
    rfl

/-- C80. Downloading a file that does not exist raises a ValueError that names the argument and shows its value. -/
theorem C80_download (sys : Sys) (w : World) (file : Str) (hn : NoNul file) (hf : sys.fault w (.openRead file) = none)
    (hl : lookup w.fs w.cwd file true = .error ENOENT) :
    ∃ m, (Connector.download file).run (direct sys) w = (.error (.valueError m), w)
      ∧ Blames [⟨p!"file", some file, fun f => lookup w.fs w.cwd f true = .error ENOENT⟩] m := by
  refine ⟨_, ?_, _, List.mem_singleton_self _, file, (osErr ENOENT file).msg, rfl, hl, rfl⟩
  have : osRead sys w file = .error (osErr ENOENT file).exn := by
    unfold osRead guardCall
    simp [noNul_hasNul hn, hf, hl]
  simp only [Connector.download, Prog.run, direct, handle, handleDownload, this]
  rfl

example : SomeWrong (runArguments Example.world (some p!"bob") none (some p!"022") none)
    ∧ SomeWrong (uploadArguments Example.world (some p!"rwx") none none)
    ∧ lookup Example.world.fs Example.world.cwd p!"/nowhere" true = .error ENOENT :=
  ⟨⟨⟨p!"user", _, UnknownUser Example.world⟩, by simp [runArguments], p!"bob", rfl, .inr fun e h => by cases findUser_iff.mpr h⟩,
    ⟨⟨p!"mode", _, NotOctal⟩, by simp [uploadArguments], p!"rwx", rfl, notOctal_iff.mpr rfl⟩, rfl⟩
example : ((Connector.run [p!"id"] (user := some p!"bob") (umask := some p!"022")).run (direct Example.sys) Example.world).1
    = .error (.valueError p!"Invalid value 'bob' given for field 'user': The user with the name 'bob' does not exist.") := by rfl

end Verif.Client
