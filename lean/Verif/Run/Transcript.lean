/-
All that a run writes to the standard output: /repo/src/fora/logger.py:99-135 with the places that call it,
/repo/src/fora/main.py:54-64, /repo/src/fora/connectors/tunnel_connector.py:41-71, /repo/src/fora/loader.py:104-147 and
/repo/src/fora/operations/api.py:84-98.
-/
import Verif.Run.Report

namespace Verif.Run.Transcript

open Py Script

/-- The code of a script, reduced to what is printed. Other computations choose how it goes on. The output of the user's own code and
of failed commands (on the standard error) is not modelled. -/
inductive Code where
  /-- the end of the code -/
  | done
  /-- an exception is raised -/
  | throw
  /-- An operation without parts. `early`: it comes to its description. It ends with a summary, and perhaps with an exception. Then the
  code goes on, or handles the exception. -/
  | operation (early : Bool) (title : Title) (report : Report) (raises : Bool) (k : Bool → Code)
  /-- An operation that consists of others: files.upload_dir -/
  | nested (title : Title) (parts : Code) (k : Bool → Code)
  /-- `local.script(path, name=name)`, with the code of that script -/
  | script (path : Str) (name : Option Str) (body : Code) (k : Bool → Code)

/-- `connection_init`, logger.py:104-106. `host.url` is given as text. -/
def connectionInit (o : Options) (level : Int) (name url : Str) : Str :=
  printIndented o level (col o p!"1;34" ++ p!"host" ++ col o p!"" ++ p!" " ++ name ++ p!" via " ++ col o p!"1;33" ++ url ++ col o p!"")

/-- `connection_failed`, logger.py:108-111 -/
def connectionFailed (o : Options) (level : Int) (message : Str) : Str :=
  col o p!"1;31" ++ p!"ERR" ++ col o p!"" ++ [10]
    ++ printIndented o level (p!" " ++ col o p!"90" ++ p!"└" ++ col o p!"" ++ p!" " ++ (col o p!"31" ++ message ++ col o p!""))

/-- `run_script`, logger.py:118-123 -/
def scriptTitle (o : Options) (level : Int) (path : Str) : Option Str → Str
  | some name => printIndented o level (col o p!"33;1" ++ p!"script" ++ col o p!"" ++ p!" " ++ path ++ p!" " ++ col o p!"90" ++ p!"(" ++ name ++ p!")" ++ col o p!"")
  | none => printIndented o level (col o p!"33;1" ++ p!"script" ++ col o p!"" ++ p!" " ++ path)

/-- What has been printed, `logger.state.indentation_level`, and whether there is an exception. -/
structure Out where
  text : Str
  level : Int
  failed : Bool

/-- What was printed before. -/
def Out.after (text : Str) (r : Out) : Out := { r with text := text ++ r.text }

/-- The execution of code. `Operation.desc` (api.py:84-98) prints the early title, and ends the line if there are parts;
`success` and `failure` (api.py:188-221) print the summary if there are none. `logger.indent()` (logger.py:35-42) is undone however its
body ends. (If printing the summary of a success raises an exception, the wrapper would print that of a failure after it, which is
omitted; the theorems are about reports that can be printed.) -/
def exec (udiff : List Bytes → List Bytes → List Bytes) (repr : Val → Str) (o : Options) : Code → Int → Out
  | .done, level => ⟨[], level, false⟩
  | .throw, level => ⟨[], level, true⟩
  | .operation early t r raises k, level =>
    let summary := printOperation udiff repr o level t r
    (exec udiff repr o (k (raises || summary.2.isSome)) level).after ((if early then printEarly o level t else []) ++ summary.1)
  | .nested t parts k, level =>
    let inner := exec udiff repr o parts (level + 1)
    (exec udiff repr o (k inner.failed) (inner.level - 1)).after (printEarly o level t ++ [10] ++ inner.text)
  | .script path name body k, level =>
    let inner := exec udiff repr o body (level + 1)
    (exec udiff repr o (k inner.failed) (inner.level - 1)).after (scriptTitle o level path name ++ inner.text)

/-- How the connection to a host fares. -/
inductive Opening where
  /-- `Connector.open` fails. The exit code of the process, if it has ended, and the message of the exception -/
  | failed (code : Option Int) (message : Str)
  /-- `_resolve_identity` raises an exception. -/
  | unidentified
  | open

/-- tunnel_connector.py:58-63: the message -/
def failureText (code : Option Int) (message : Str) : Str :=
  match code with
  | none => message
  | some n => p!"command exited with code " ++ intStr n

/-- A host of the run, with what the script does there. -/
structure HostRun where
  name : Str
  url : Str
  opening : Opening
  code : Code
  /-- the connection can be closed without an exception -/
  closes : Bool := true

/-- main.py:55-64: the loop over the selected hosts. `last` is `selected_hosts[-1]`. -/
def runHosts (udiff : List Bytes → List Bytes → List Bytes) (repr : Val → Str) (o : Options) (script last : Str) : List HostRun → Int → Out
  | [], level => ⟨[], level, false⟩
  | h :: hs, level =>
    let init := connectionInit o level h.name h.url
    match h.opening with
    | .failed code message => ⟨init ++ connectionFailed o level (failureText code message), level, true⟩
    | .unidentified => ⟨init, level, true⟩
    | .open =>
      let r := exec udiff repr o (.script script (some p!"cmdline") h.code fun failed => if failed then .throw else .done) level
      let text := init ++ r.text
      if r.failed || !h.closes then ⟨text, r.level, true⟩
      else (runHosts udiff repr o script last hs r.level).after (text ++ if h.name ≠ last then [10] else [])

/-- All that is printed for the selected hosts. -/
def run (udiff : List Bytes → List Bytes → List Bytes) (repr : Val → Str) (o : Options) (script : Str) (hosts : List HostRun) : Out :=
  runHosts udiff repr o script ((hosts.map (·.name)).getLast?.getD []) hosts 0

end Verif.Run.Transcript
