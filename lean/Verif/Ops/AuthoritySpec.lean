/-
Which changes each operation may request, in terms of its arguments.
-/
import Verif.Ops.MirrorSpec

namespace Verif.Ops

open Script
open Wire (Packet)

/-- A request that can change something: a command that is run, or a file that is written. -/
inductive Act where
  | command (argv : List Str)
  | write (file : Str) (content : Bytes)

/-- The request asks for this act. (With whatever identity and attributes.) -/
def Requests (p : Packet) : Act → Prop
  | .command argv => ∃ user group umask cwd, p = .processRun argv none true user group umask cwd
  | .write file content => ∃ mode owner group, p = .upload file content mode owner group

/-- Setting mode or owner of a path. -/
inductive Attributes (path : Str) : Act → Prop where
  | chmod (mode : Str) : Attributes path (.command [p!"chmod", mode, p!"--", path])
  | chown (who : Str) : Attributes path (.command [p!"chown", who, p!"--", path])

/-- Making a directory, and its attributes. -/
inductive Makes (path : Str) : Act → Prop where
  | mkdir : Makes path (.command [p!"mkdir", p!"--", path])
  | touch : Makes path (.command [p!"touch", p!"--", path])
  | attributes (a : Act) : Attributes path a → Makes path a

/-- Creating a file, and its attributes. -/
inductive Touches (path : Str) : Act → Prop where
  | touch : Touches path (.command [p!"touch", p!"--", path])
  | attributes (a : Act) : Attributes path a → Touches path a

/-- Creating a link, and its owner. -/
inductive Links (path target : Str) : Act → Prop where
  | ln : Links path target (.command [p!"ln", p!"-sf", p!"--", target, path])
  | chown (who : Str) : Links path target (.command [p!"chown", p!"--no-dereference", who, p!"--", path])
  | touch : Links path target (.command [p!"touch", p!"--no-dereference", p!"--", path])

/-- Writing this content, and the attributes of the file. -/
inductive Saves (path : Str) (content : Bytes) : Act → Prop where
  | write : Saves path content (.write path content)
  | attributes (a : Act) : Attributes path a → Saves path content a

/-- Changing a file in place, with a copy beside it. -/
inductive Edits (path : Str) : Act → Prop where
  | backup (copy : Str) : Edits path (.command [p!"cp", p!"-a", p!"--", path, copy])
  | write (content : Bytes) : Edits path (.write path content)

/-- This one command. -/
inductive Runs (argv : List Str) : Act → Prop where
  | run : Runs argv (.command argv)

/-- Creating or changing a user. -/
inductive Adjusts (user : Str) : Act → Prop where
  | useradd (options : List Str) : Adjusts user (.command (p!"useradd" :: options ++ [p!"--", user]))
  | usermod (option value : Str) : Adjusts user (.command [p!"usermod", option, value, p!"--", user])

/-- Creating or changing a group. -/
inductive AdjustsGroup (group : Str) : Act → Prop where
  | groupadd (options : List Str) : AdjustsGroup group (.command (p!"groupadd" :: options ++ [p!"--", group]))
  | groupmod (gid : Str) : AdjustsGroup group (.command [p!"groupmod", p!"--gid", gid, p!"--", group])

/-- Installing one of these packages. -/
inductive Installs (packages : List Str) : Act → Prop where
  | apt (opts : List Str) (p : Str) : p ∈ packages → Installs packages (.command ([p!"apt-get", p!"install"] ++ opts ++ [p!"--", p]))
  | pacman (opts : List Str) (p : Str) : p ∈ packages →
      Installs packages (.command ([p!"pacman", p!"--color", p!"always", p!"--noconfirm", p!"-S"] ++ opts ++ [p!"--", p]))
  | portage (opts : List Str) (p : Str) : p ∈ packages → Installs packages (.command ([p!"emerge", p!"--color=y", p!"--verbose"] ++ opts ++ [p!"--", p]))

/-- Removing one of these packages. -/
inductive Uninstalls (packages : List Str) : Act → Prop where
  | apt (opts : List Str) (p : Str) : p ∈ packages → Uninstalls packages (.command ([p!"apt-get", p!"remove"] ++ opts ++ [p!"--", p]))
  | pacman (opts : List Str) (p : Str) : p ∈ packages →
      Uninstalls packages (.command ([p!"pacman", p!"--color", p!"always", p!"--noconfirm", p!"-Rns"] ++ opts ++ [p!"--", p]))
  | portage (opts : List Str) (p : Str) : p ∈ packages →
      Uninstalls packages (.command ([p!"emerge", p!"--color=y", p!"--verbose", p!"--depclean"] ++ opts ++ [p!"--", p]))

/-- What systemctl is told about a unit: at most what was asked for. -/
inductive Controls (service : Str) (state : Option Str) (enabled : Option Bool) (instance_ : List Str) : Act → Prop where
  | start : state = some p!"started" → Controls service state enabled instance_ (.command (p!"systemctl" :: instance_ ++ [p!"start", p!"--", service]))
  | restart : state = some p!"restarted" → Controls service state enabled instance_ (.command (p!"systemctl" :: instance_ ++ [p!"restart", p!"--", service]))
  | reload : state = some p!"reloaded" → Controls service state enabled instance_ (.command (p!"systemctl" :: instance_ ++ [p!"reload", p!"--", service]))
  | stop : state = some p!"stopped" → Controls service state enabled instance_ (.command (p!"systemctl" :: instance_ ++ [p!"stop", p!"--", service]))
  | enable : enabled = some true → Controls service state enabled instance_ (.command (p!"systemctl" :: instance_ ++ [p!"enable", p!"--", service]))
  | disable : enabled = some false → Controls service state enabled instance_ (.command (p!"systemctl" :: instance_ ++ [p!"disable", p!"--", service]))

/-- Cloning, or updating a clone. -/
inductive Clones (url path : Str) : Act → Prop where
  | clone (options : List Str) : Clones url path (.command ([p!"git", p!"clone"] ++ options ++ [p!"--", url, path]))
  | pull (options : List Str) : Clones url path (.command ([p!"git", p!"-C", path, p!"pull"] ++ options))
  | submodules (options : List Str) : Clones url path (.command ([p!"git", p!"-C", path, p!"submodule", p!"update", p!"--init"] ++ options))

/-- What an operation may request, by its arguments. (For `upload_dir` see `C76_upload_dir`.) -/
inductive May : Op OpResult → (Act → Prop) → Prop where
  | directory (path : Str) (touch : Bool) (mode owner group : Option Str) (check : Bool) :
      May (directory path true touch mode owner group check) (Makes path)
  | removeDirectory (path : Str) (touch : Bool) (mode owner group : Option Str) (check : Bool) :
      May (directory path false touch mode owner group check) (Runs [p!"rm", p!"-rf", p!"--", path])
  | file (path : Str) (touch : Bool) (mode owner group : Option Str) (check : Bool) :
      May (file path true touch mode owner group check) (Touches path)
  | removeFile (path : Str) (touch : Bool) (mode owner group : Option Str) (check : Bool) :
      May (file path false touch mode owner group check) (Runs [p!"rm", p!"--", path])
  | link (path target : Str) (touch : Bool) (owner group : Option Str) (check : Bool) :
      May (link path target true touch owner group check) (Links path target)
  | removeLink (path target : Str) (touch : Bool) (owner group : Option Str) (check : Bool) :
      May (link path target false touch owner group check) (Runs [p!"rm", p!"--", path])
  | uploadBytes (sha512 : Bytes → Bytes) (content : Bytes) (dest : Str) (mode owner group : Option Str) (check : Bool) :
      May (uploadContent sha512 (.bytes content) dest mode owner group check) (Saves dest content)
  | uploadText (sha512 : Bytes → Bytes) (text : Str) (content : Bytes) (dest : Str) (mode owner group : Option Str) (check : Bool) :
      Py.encodeUtf8 text = some content → May (uploadContent sha512 (.str text) dest mode owner group check) (Saves dest content)
  | upload (sha512 : Bytes → Bytes) (src : Str) (content : Bytes) (dest : Str) (mode owner group : Option Str) (check : Bool) :
      May (upload sha512 src (.ok content) dest mode owner group check) (Saves (destOf src dest) content)
  | templateContent {V : Type} (sha512 : Bytes → Bytes) (templ : List (Str × V) → Rendered) (dest : Str) (vars : List (Str × V))
      (context : Option (List (Str × V))) (host : V) (mode owner group : Option Str) (check : Bool) (text : Str) (content : Bytes) :
      templ (templateVars vars context host) = .text text → Py.encodeUtf8 text = some content →
      May (templateContent sha512 templ dest vars context host mode owner group check) (Saves dest content)
  | template {V : Type} (sha512 : Bytes → Bytes) (src : Str) (templ : List (Str × V) → Rendered) (dest : Str)
      (vars : List (Str × V)) (context : Option (List (Str × V))) (host : V) (mode owner group : Option Str) (check : Bool) (text : Str) (content : Bytes) :
      templ (templateVars vars context host) = .text text → Py.encodeUtf8 text = some content →
      May (template sha512 src (.ok templ) dest vars context host mode owner group check) (Saves (destOf src dest) content)
  | line (path text : Str) (present : Bool) (regex : Option Regex) (ignoreWhitespace : Bool) (backup : Backup) (check : Bool) :
      May (Ops.line path text present regex ignoreWhitespace backup check) (Edits path)
  | user (args : UserArgs) (check : Bool) : args.present = true → May (user args check) (Adjusts args.user)
  | removeUser (args : UserArgs) (check : Bool) : args.present = false → May (user args check) (Runs [p!"userdel", p!"--", args.user])
  | group (name : Str) (gid : Option Int) (system check : Bool) : May (group name true gid system check) (AdjustsGroup name)
  | removeGroup (name : Str) (gid : Option Int) (system check : Bool) : May (group name false gid system check) (Runs [p!"groupdel", p!"--", name])
  | package (order : List Str → List Str) (packages : List Str) (check : Bool) : (∀ l p, p ∈ order l → p ∈ l) →
      May (package order packages true check) (Installs packages)
  | removePackage (order : List Str → List Str) (packages : List Str) (check : Bool) : (∀ l p, p ∈ order l → p ∈ l) →
      May (package order packages false check) (Uninstalls packages)
  | apt (order : List Str → List Str) (opts packages : List Str) (check : Bool) : (∀ l p, p ∈ order l → p ∈ l) →
      May (packageWith order (apt opts) packages true check) (Installs packages)
  | removeApt (order : List Str → List Str) (opts packages : List Str) (check : Bool) : (∀ l p, p ∈ order l → p ∈ l) →
      May (packageWith order (apt opts) packages false check) (Uninstalls packages)
  | pacman (order : List Str → List Str) (opts packages : List Str) (check : Bool) : (∀ l p, p ∈ order l → p ∈ l) →
      May (packageWith order (pacman opts) packages true check) (Installs packages)
  | removePacman (order : List Str → List Str) (opts packages : List Str) (check : Bool) : (∀ l p, p ∈ order l → p ∈ l) →
      May (packageWith order (pacman opts) packages false check) (Uninstalls packages)
  | portage (order : List Str → List Str) (opts : List Str) (oneshot : Bool) (packages : List Str) (check : Bool) : (∀ l p, p ∈ order l → p ∈ l) →
      May (packageWith order (portage opts oneshot) packages true check) (Installs packages)
  | removePortage (order : List Str → List Str) (opts : List Str) (oneshot : Bool) (packages : List Str) (check : Bool) : (∀ l p, p ∈ order l → p ∈ l) →
      May (packageWith order (portage opts oneshot) packages false check) (Uninstalls packages)
  | daemonReload (check : Bool) : May (daemonReload false check) (Runs [p!"systemctl", p!"daemon-reload"])
  | daemonReloadUser (check : Bool) : May (daemonReload true check) (Runs [p!"systemctl", p!"--user", p!"daemon-reload"])
  | systemdService (service : Str) (state : Option Str) (enabled : Option Bool) (check : Bool) :
      May (systemdService service state enabled false check) (Controls service state enabled [])
  | systemdUserService (service : Str) (state : Option Str) (enabled : Option Bool) (check : Bool) :
      May (systemdService service state enabled true check) (Controls service state enabled [p!"--user"])
  | service (service : Str) (state : Option Str) (enabled : Option Bool) (check : Bool) :
      May (Ops.service service state enabled check) (Controls service state enabled [])
  | repo (args : RepoArgs) (check : Bool) : May (repo args check) (Clones args.url args.path)

end Verif.Ops
