/-
C106: no host can keep an operation busy.
-/
import Verif.Ops.EffortLemmas
import Verif.Ops.Record
import Verif.Ops.Example
import Verif.Run.Program

namespace Verif.Ops

open Script

/-- C106: however the host answers, every operation ends after no more requests than its arguments stand for, and no more of them than
said there are for changes. -/
theorem C106_effort (n c : Nat) (op : Op OpResult) (h : Effort n c op) : Limited n c op := limited_of (effort_limit h)

/-- The requests that creating a directory on the example host takes: exactly as many as it may, and three changes. -/
example :
    let t := conversation Example.sys Example.always (directory p!"/tmp/new" true false none none none true) Example.env Example.st Example.host
    t.length = 9 ∧ (t.drop 6).map (fun e => match e.1 with | .processRun c .. => c | _ => []) =
      [[p!"mkdir", p!"--", p!"/tmp/new"], [p!"chmod", p!"700", p!"--", p!"/tmp/new"], [p!"chown", p!"root:root", p!"--", p!"/tmp/new"]] := by
  decide +kernel

/-- Changing attributes, with a diff: an upload of what is already there, with another mode and owner, takes the most it may take. -/
example :
    (conversation Example.sys Example.always (uploadContent Example.sys.sha512 (.bytes b!"hi\n") p!"/etc/motd" (some p!"640") (some p!"alice") none true)
      { Example.env with diff := true } Example.st (Example.host.set [p!"etc", p!"motd"] (some { kind := .file b!"hi\n", perm := 0o644, uid := 0, gid := 0, mtime := 0, ctime := 0 }))).length = 9 := by
  decide +kernel

/-- What a tree takes: a directory with a file, a link to a directory and an empty directory. -/
example (sha512 : Bytes → Bytes) (check : Bool) :
    Effort 36 11 (uploadDir sha512 p!"./site" (.dir [(p!"a", .file (.ok b!"1")), (p!"b", .dirLink), (p!"c", .dir [])]) p!"/srv/" none none none none check) :=
  Effort.uploadDir sha512 p!"./site" (.dir [(p!"a", .file (.ok b!"1")), (p!"b", .dirLink), (p!"c", .dir [])]) p!"/srv/" none none none none check

/-- C106 for what is run on a host: the requests of all operations together, and five for the defaults of the script. -/
theorem C106_deploy (n c : Nat) (ops : List (Op OpResult)) (h : Efforts n c ops) : Limited (5 + n) c (Program.runCmdline ops) :=
  limited_of fun env => .withDefaults fun _ => deploy_limit h env

/-- A script of four operations. -/
example (sha512 : Bytes → Bytes) : Limited 28 8 (Program.runCmdline [directory p!"/srv" true false none none none true,
    uploadContent sha512 (.str p!"hello") p!"/srv/motd" none none none true, systemdService p!"nginx" (some p!"started") (some true) false true,
    daemonReload false true]) :=
  C106_deploy 23 8 _ (.cons (.directory ..) (.cons (.uploadContent ..) (.cons (.systemdService ..) (.cons (.daemonReload ..) .nil))))

end Verif.Ops
