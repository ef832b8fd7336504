/-
Specification vocabulary for packages: the command lines of package managers, what their answers mean, and what they do to a
host.
-/
import Verif.Remote.Core
import Verif.Ops.System

namespace Verif.Ops

open Script Remote
open Wire (Packet)

/-- What fora runs for a package manager: the command lines that ask about, install and remove a package, and which outputs
and exit codes mean that the package is installed. -/
inductive Backend : Manager → (Str → List Str) → (Str → List Str) → (Str → List Str) → (Option Bytes → Int → Prop) → Prop where
  | pacman (opts : List Str) :
      Backend (pacman opts)
        (fun name => [p!"pacman", p!"-Ql", p!"--", name])
        (fun name => [p!"pacman", p!"--color", p!"always", p!"--noconfirm", p!"-S"] ++ opts ++ [p!"--", name])
        (fun name => [p!"pacman", p!"--color", p!"always", p!"--noconfirm", p!"-Rns"] ++ opts ++ [p!"--", name])
        (fun _ code => code = 0)
  | portage (opts : List Str) (oneshot : Bool) :
      Backend (portage opts oneshot)
        (fun name => [p!"emerge", p!"--info", p!"--", name])
        (fun name => [p!"emerge", p!"--color=y", p!"--verbose"] ++ (if oneshot then [p!"--oneshot"] else []) ++ opts ++ [p!"--", name])
        (fun name => [p!"emerge", p!"--color=y", p!"--verbose", p!"--depclean"] ++ opts ++ [p!"--", name])
        (fun out code => code = 0 ∧ ∃ a b, out = some (a ++ b!"was built with the following" ++ b))
  | apt (opts : List Str) :
      Backend (apt opts)
        (fun name => [p!"dpgk-query", p!"--show", p!"--showformat=${Status}", p!"--", name])
        (fun name => [p!"apt-get", p!"install"] ++ opts ++ [p!"--", name])
        (fun name => [p!"apt-get", p!"remove"] ++ opts ++ [p!"--", name])
        (fun out code => code = 0 ∧ ∃ a b, out = some (a ++ b!"ok installed" ++ b))

/-- The command lines that were run, in order. -/
def commandsOf (t : List (Packet × Except Exn Packet)) : List (Option (List Str)) :=
  t.map fun e => match e.1 with
    | .processRun command .. => some command
    | _ => none

/-- Some answer of the host said that the package is installed. -/
def SaidInstalled (query : Str → List Str) (yes : Option Bytes → Int → Prop) (t : List (Packet × Except Exn Packet)) (name : Str) : Prop :=
  ∃ stdin capture user group umask cwd out err code,
    (Packet.processRun (query name) stdin capture user group umask cwd, Except.ok (Packet.processCompleted out err code)) ∈ t ∧ yes out code

/-- Going by the answers, the package has to be installed, or has to be removed. -/
def Wanting (query : Str → List Str) (yes : Option Bytes → Int → Prop) (t : List (Packet × Except Exn Packet)) (present : Bool) (name : Str) : Prop :=
  if present then ¬ SaidInstalled query yes t name else SaidInstalled query yes t name

/-- A host whose package manager does what it is asked for: asking changes nothing and is answered truthfully; an installation
that succeeds installs the package and removes none; a removal that succeeds removes the package and installs none. Nothing is
assumed about other effects, and it may fail at any time. -/
structure PackageHost (sys : Sys) (query install remove : Str → List Str) (yes : Option Bytes → Int → Prop) : Prop where
  ask : ∀ p w out err code w' name, p.argv = query name → sys.exec p w = (.done out err code, w') →
    w' = w ∧ (yes (some out) code ↔ name ∈ w.packages)
  install : ∀ p w out err w' name, p.argv = install name → sys.exec p w = (.done out err 0, w') →
    name ∈ w'.packages ∧ ∀ q ∈ w.packages, q ∈ w'.packages
  remove : ∀ p w out err w' name, p.argv = remove name → sys.exec p w = (.done out err 0, w') →
    name ∉ w'.packages ∧ ∀ q ∈ w'.packages, q ∈ w.packages

/-! ### A little shell -/

/-- The shell commands that `find_command` is made of. -/
inductive Shell where
  /-- `type &>/dev/null x` -/
  | type (x : Str)
  /-- `echo x` -/
  | echo (x : Str)
  | and (a b : Shell)
  | or (a b : Shell)
  /-- `{ a ; }` -/
  | group (a : Shell)

/-- As bash reads it. -/
def Shell.text : Shell → Str
  | .type x => p!"type &>/dev/null " ++ x
  | .echo x => p!"echo " ++ x
  | .and a b => a.text ++ p!" && " ++ b.text
  | .or a b => a.text ++ p!" || " ++ b.text
  | .group a => p!"{ " ++ a.text ++ p!" ; }"

/-- What bash does: the lines that are printed, and whether the exit code is zero. `exists_` tells which commands there are. -/
def Shell.run (exists_ : Str → Bool) : Shell → List Str × Bool
  | .type x => ([], exists_ x)
  | .echo x => ([x], true)
  | .and a b => if (a.run exists_).2 then ((a.run exists_).1 ++ (b.run exists_).1, (b.run exists_).2) else a.run exists_
  | .or a b => if (a.run exists_).2 then a.run exists_ else ((a.run exists_).1 ++ (b.run exists_).1, (b.run exists_).2)
  | .group a => a.run exists_

/-- The lines as they are printed. (All words here are ASCII.) -/
def printed (lines : List Str) : Bytes := (lines.map fun l => l.map UInt8.ofNat ++ [10]).flatten

/-- `{ type x && echo x ; }` -/
def Shell.probe (x : Str) : Shell := .group (.and (.type x) (.echo x))

/-- The script that looks for a package manager, and the one that looks for a service manager. -/
def packageProbe : Shell :=
  .or (.or (.or (.probe p!"apt-get") (.probe p!"pacman")) (.probe p!"emerge")) (.echo p!"__unknown__")
def serviceProbe : Shell := .or (.probe p!"systemctl") (.echo p!"__unknown__")

/-- A host with a bash that executes this script as `Shell.run` says. `exists_` tells which commands can be found. -/
def BashHost (sys : Sys) (exists_ : World → Str → Bool) (s : Shell) : Prop :=
  ∀ p w out err code w', p.argv = [p!"bash", p!"-c", s.text] → sys.exec p w = (.done out err code, w') →
    w' = w ∧ out = printed (s.run (exists_ w)).1

end Verif.Ops
