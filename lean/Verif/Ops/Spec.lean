/-
Specification vocabulary for operations.
-/
import Verif.Script.Spec
import Verif.Ops.Files
import Verif.Ops.System

namespace Verif.Ops

open Script
open Client (isQuery)
open Wire (Packet)

/-- Command lines that only look at the host and never change it. -/
inductive LooksOnly : List Str → Prop where
  | readlink (path : Str) : LooksOnly [p!"readlink", p!"-n", path]
  | unitProperty (property unit : Str) : LooksOnly [p!"systemctl", p!"show", p!"--value", p!"--property", property, p!"--", unit]
  | packageCommand : LooksOnly [p!"bash", p!"-c", p!"{ type &>/dev/null apt-get && echo apt-get ; } || { type &>/dev/null pacman && echo pacman ; } || { type &>/dev/null emerge && echo emerge ; } || echo __unknown__"]
  | serviceCommand : LooksOnly [p!"bash", p!"-c", p!"{ type &>/dev/null systemctl && echo systemctl ; } || echo __unknown__"]
  | aptInstalled (package : Str) : LooksOnly [p!"dpgk-query", p!"--show", p!"--showformat=${Status}", p!"--", package]
  | pacmanInstalled (package : Str) : LooksOnly [p!"pacman", p!"-Ql", p!"--", package]
  | portageInstalled (package : Str) : LooksOnly [p!"emerge", p!"--info", p!"--", package]
  | gitCommit (path : Str) : LooksOnly [p!"git", p!"-C", path, p!"rev-parse", p!"HEAD"]
  | gitUpstream (url ref : Str) : LooksOnly [p!"git", p!"ls-remote", p!"--exit-code", p!"--", url, ref]
  | gitUrl (path : Str) : LooksOnly [p!"git", p!"-C", path, p!"config", p!"--get", p!"remote.origin.url"]

/-- Requests that cannot modify the host: the queries of the connector, and commands that only look. -/
def ReadOnly (p : Packet) : Prop :=
  isQuery p = true ∨ ∃ command stdin capture user group umask cwd, p = .processRun command stdin capture user group umask cwd ∧ LooksOnly command

/-- The operations of fora, with any arguments. The first index lists the options that were given for the package manager. -/
inductive Operation : List Str → Op OpResult → Prop where
  | directory (path : Str) (present touch : Bool) (mode owner group : Option Str) (check : Bool) :
      Operation [] (directory path present touch mode owner group check)
  | file (path : Str) (present touch : Bool) (mode owner group : Option Str) (check : Bool) :
      Operation [] (file path present touch mode owner group check)
  | link (path target : Str) (present touch : Bool) (owner group : Option Str) (check : Bool) :
      Operation [] (link path target present touch owner group check)
  | uploadContent (sha512 : Bytes → Bytes) (content : Content) (dest : Str) (mode owner group : Option Str) (check : Bool) :
      Operation [] (uploadContent sha512 content dest mode owner group check)
  | upload (sha512 : Bytes → Bytes) (src : Str) (read : Except Exn Bytes) (dest : Str) (mode owner group : Option Str) (check : Bool) :
      Operation [] (upload sha512 src read dest mode owner group check)
  | uploadDir (sha512 : Bytes → Bytes) (src : Str) (tree : Tree) (dest : Str) (dirMode fileMode owner group : Option Str) (check : Bool) :
      Operation [] (uploadDir sha512 src tree dest dirMode fileMode owner group check)
  | templateContent {V : Type} (sha512 : Bytes → Bytes) (templ : List (Str × V) → Rendered) (dest : Str) (vars : List (Str × V))
      (context : Option (List (Str × V))) (host : V) (mode owner group : Option Str) (check : Bool) :
      Operation [] (templateContent sha512 templ dest vars context host mode owner group check)
  | template {V : Type} (sha512 : Bytes → Bytes) (src : Str) (templ : Except Exn (List (Str × V) → Rendered)) (dest : Str)
      (vars : List (Str × V)) (context : Option (List (Str × V))) (host : V) (mode owner group : Option Str) (check : Bool) :
      Operation [] (template sha512 src templ dest vars context host mode owner group check)
  | line (path text : Str) (present : Bool) (regex : Option Regex) (ignoreWhitespace : Bool) (backup : Backup) (check : Bool) :
      Operation [] (Ops.line path text present regex ignoreWhitespace backup check)
  | user (args : UserArgs) (check : Bool) : Operation [] (user args check)
  | group (name : Str) (present : Bool) (gid : Option Int) (system check : Bool) : Operation [] (group name present gid system check)
  | apt (order : List Str → List Str) (opts packages : List Str) (present check : Bool) :
      Operation opts (packageWith order (apt opts) packages present check)
  | pacman (order : List Str → List Str) (opts packages : List Str) (present check : Bool) :
      Operation opts (packageWith order (pacman opts) packages present check)
  | portage (order : List Str → List Str) (opts : List Str) (oneshot : Bool) (packages : List Str) (present check : Bool) :
      Operation opts (packageWith order (portage opts oneshot) packages present check)
  | package (order : List Str → List Str) (packages : List Str) (present check : Bool) :
      Operation [] (package order packages present check)
  | daemonReload (userMode check : Bool) : Operation [] (daemonReload userMode check)
  | systemdService (service : Str) (state : Option Str) (enabled : Option Bool) (userMode check : Bool) :
      Operation [] (systemdService service state enabled userMode check)
  | service (service : Str) (state : Option Str) (enabled : Option Bool) (check : Bool) : Operation [] (Ops.service service state enabled check)
  | repo (args : RepoArgs) (check : Bool) : Operation [] (repo args check)

/-- An operation together with the path it manages and the type of file it manages there. -/
inductive Manages : Str → Str → Op OpResult → Prop where
  | directory (path : Str) (present touch : Bool) (mode owner group : Option Str) (check : Bool) :
      Manages path p!"dir" (directory path present touch mode owner group check)
  | file (path : Str) (present touch : Bool) (mode owner group : Option Str) (check : Bool) :
      Manages path p!"file" (file path present touch mode owner group check)
  | link (path target : Str) (present touch : Bool) (owner group : Option Str) (check : Bool) :
      Manages path p!"link" (link path target present touch owner group check)
  | uploadContent (sha512 : Bytes → Bytes) (content : Content) (dest : Str) (mode owner group : Option Str) (check : Bool) :
      Manages dest p!"file" (uploadContent sha512 content dest mode owner group check)
  | upload (sha512 : Bytes → Bytes) (src : Str) (read : Except Exn Bytes) (dest : Str) (mode owner group : Option Str) (check : Bool) :
      Manages (destOf src dest) p!"file" (upload sha512 src read dest mode owner group check)
  | uploadDir (sha512 : Bytes → Bytes) (src : Str) (tree : Tree) (dest : Str) (dirMode fileMode owner group : Option Str) (check : Bool) :
      Manages (destOf src dest) p!"dir" (uploadDir sha512 src tree dest dirMode fileMode owner group check)
  | templateContent {V : Type} (sha512 : Bytes → Bytes) (templ : List (Str × V) → Rendered) (dest : Str) (vars : List (Str × V))
      (context : Option (List (Str × V))) (host : V) (mode owner group : Option Str) (check : Bool) :
      Manages dest p!"file" (templateContent sha512 templ dest vars context host mode owner group check)
  | template {V : Type} (sha512 : Bytes → Bytes) (src : Str) (templ : Except Exn (List (Str × V) → Rendered)) (dest : Str)
      (vars : List (Str × V)) (context : Option (List (Str × V))) (host : V) (mode owner group : Option Str) (check : Bool) :
      Manages (destOf src dest) p!"file" (template sha512 src templ dest vars context host mode owner group check)
  | line (path text : Str) (present : Bool) (regex : Option Regex) (ignoreWhitespace : Bool) (backup : Backup) (check : Bool) :
      Manages path p!"file" (Ops.line path text present regex ignoreWhitespace backup check)
  | repo (args : RepoArgs) (check : Bool) : Manages args.path p!"dir" (repo args check)

/-- The path argument of an operation: its name and its value. -/
inductive TakesPath : Str → Str → Op OpResult → Prop where
  | directory (path : Str) (present touch : Bool) (mode owner group : Option Str) (check : Bool) :
      TakesPath p!"path" path (directory path present touch mode owner group check)
  | file (path : Str) (present touch : Bool) (mode owner group : Option Str) (check : Bool) :
      TakesPath p!"path" path (file path present touch mode owner group check)
  | link (path target : Str) (present touch : Bool) (owner group : Option Str) (check : Bool) :
      TakesPath p!"path" path (link path target present touch owner group check)
  | uploadContent (sha512 : Bytes → Bytes) (content : Content) (dest : Str) (mode owner group : Option Str) (check : Bool) :
      TakesPath p!"dest" dest (uploadContent sha512 content dest mode owner group check)
  | upload (sha512 : Bytes → Bytes) (src : Str) (read : Except Exn Bytes) (dest : Str) (mode owner group : Option Str) (check : Bool) :
      TakesPath p!"dest" dest (upload sha512 src read dest mode owner group check)
  | uploadDir (sha512 : Bytes → Bytes) (src : Str) (tree : Tree) (dest : Str) (dirMode fileMode owner group : Option Str) (check : Bool) :
      TakesPath p!"dest" dest (uploadDir sha512 src tree dest dirMode fileMode owner group check)
  | templateContent {V : Type} (sha512 : Bytes → Bytes) (templ : List (Str × V) → Rendered) (dest : Str) (vars : List (Str × V))
      (context : Option (List (Str × V))) (host : V) (mode owner group : Option Str) (check : Bool) :
      TakesPath p!"dest" dest (templateContent sha512 templ dest vars context host mode owner group check)
  | template {V : Type} (sha512 : Bytes → Bytes) (src : Str) (templ : Except Exn (List (Str × V) → Rendered)) (dest : Str)
      (vars : List (Str × V)) (context : Option (List (Str × V))) (host : V) (mode owner group : Option Str) (check : Bool) :
      TakesPath p!"dest" dest (template sha512 src templ dest vars context host mode owner group check)
  | line (path text : Str) (present : Bool) (regex : Option Regex) (ignoreWhitespace : Bool) (backup : Backup) (check : Bool) :
      TakesPath p!"path" path (Ops.line path text present regex ignoreWhitespace backup check)
  | repo (args : RepoArgs) (check : Bool) : TakesPath p!"path" args.path (repo args check)

/-! ### Command lines -/

/-- Options of the commands that fora runs which take the next argument as their value. -/
def valueOptions : List Str :=
  [p!"-C", p!"-c", p!"--uid", p!"--gid", p!"--groups", p!"--comment", p!"--home-dir", p!"--home", p!"--shell", p!"--password",
   p!"--depth", p!"--branch", p!"--property", p!"--color"]

/-- Options without a value. -/
def flagOptions : List Str :=
  [p!"-n", p!"-a", p!"-rf", p!"-sf", p!"-S", p!"-Rns", p!"-Ql", p!"--no-dereference", p!"--system", p!"--user-group", p!"--no-user-group",
   p!"--no-create-home", p!"--user", p!"--value", p!"--show", p!"--showformat=${Status}", p!"--noconfirm", p!"--info", p!"--color=y",
   p!"--verbose", p!"--oneshot", p!"--depclean", p!"--init", p!"--recursive", p!"--rebase", p!"--ff-only", p!"--exit-code", p!"--get"]

/-- How a command parses its arguments: up to `--`, what starts with a dash is an option. All options are fixed ones, or
were given as options by the user (`extra`, with their values); everything else is an operand or the value of an option. -/
def NoStrayOption (extra : List Str) : List Str → Prop
  | [] => True
  | a :: r =>
    if a = p!"--" then True
    else if a ∈ extra then NoStrayOption extra r
    else if a ∈ valueOptions then
      match r with
      | [] => False
      | _ :: r' => NoStrayOption extra r'
    else (a.head? ≠ some 45 ∨ a ∈ flagOptions) ∧ NoStrayOption extra r

end Verif.Ops
