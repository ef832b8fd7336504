/-
`fora --init`: src/fora/example_deploys.py:91-281.
-/
import Verif.Py.Exn

namespace Verif.Run.Init

/-- A path below the current directory: its components. -/
abbrev Path := List Str

/-- What there is at a path. Symbolic links are not modelled; `blocked` is something that is neither a directory nor can be opened for
writing. -/
inductive Node where
  | dir
  | file (content : Str)
  | blocked
  deriving DecidableEq, Repr

/-- The current directory and everything below it. -/
abbrev Disk := List (Path × Node)

def Disk.get (d : Disk) (p : Path) : Option Node := if p = [] then some .dir else (d.find? fun e => e.1 = p).map (·.2)

def Disk.set (d : Disk) (p : Path) (n : Node) : Disk := (p, n) :: d

/-- `any(os.scandir(cwd))`, example_deploys.py:265-266 -/
def Disk.nonEmpty (d : Disk) : Bool := d.any fun e => e.1.length == 1

/-- One system call. Opening a file for writing empties it. -/
inductive Step where
  | mkdir (p : Path)
  | truncate (p : Path)
  | write (p : Path) (content : Str)
  deriving DecidableEq, Repr

def osError (msg : Str) : Exn := .osError none msg msg

/-- `Path(d).mkdir(exist_ok=True)` (example_deploys.py:101), `open(file, "w")` and `f.write(content)` (114-115) -/
def Step.exec (d : Disk) : Step → Except Exn Disk
  | .mkdir p =>
    if d.get p.dropLast ≠ some .dir then .error (osError p!"No such file or directory")
    else match d.get p with
      | none => .ok (d.set p .dir)
      | some .dir => .ok d
      | some _ => .error (osError p!"File exists")
  | .truncate p =>
    if d.get p.dropLast ≠ some .dir then .error (osError p!"No such file or directory")
    else match d.get p with
      | some .dir => .error (osError p!"Is a directory")
      | some .blocked => .error (osError p!"Permission denied")
      | _ => .ok (d.set p (.file []))
  | .write p content => .ok (d.set p (.file content))

/-- The steps one after the other. Before any of them, the program may be interrupted or the system may refuse to go on: `fault n`
is the exception before the step number `n`. -/
def execAll (fault : Nat → Option Exn) : Nat → List Step → Disk → Disk × Option Exn
  | _, [], d => (d, none)
  | n, s :: rest, d =>
    match fault n with
    | some e => (d, some e)
    | none =>
      match s.exec d with
      | .error e => (d, some e)
      | .ok d' => execAll fault (n + 1) rest d'

/-- A layout: the directories it creates, and then the files. -/
structure Layout where
  dirs : List Path
  files : List Path
  deriving DecidableEq, Repr

/-- `init_structure_minimal`, example_deploys.py:117-130 -/
def minimal : Layout where
  dirs := [[p!"hosts"]]
  files := [[p!"hosts", p!"localhost.py"], [p!"inventory.py"], [p!"deploy.py"]]

/-- `init_structure_flat`, example_deploys.py:132-177 -/
def flat : Layout where
  dirs := [[p!"hosts"], [p!"groups"], [p!"tasks"], [p!"files"], [p!"templates"]]
  files := [[p!"hosts", p!"localhost.py"], [p!"groups", p!"all.py"], [p!"inventory.py"], [p!"tasks", p!"example_task.py"], [p!"tasks", p!"example_params.py"],
    [p!"deploy.py"], [p!"templates", p!"template.j2"], [p!"files", p!"staticfile"]]

/-- `init_structure_dotfiles`, example_deploys.py:179-198 -/
def dotfiles : Layout where
  dirs := []
  files := [[p!"deploy.py"]]

/-- `init_structure_modular`, example_deploys.py:200-209 -/
def modular : Layout where
  dirs := [[p!"hosts"], [p!"groups"], [p!"tasks"], [p!"tasks", p!"example_task"], [p!"tasks", p!"example_task", p!"files"], [p!"tasks", p!"example_task", p!"templates"]]
  files := [[p!"hosts", p!"localhost.py"], [p!"groups", p!"all.py"], [p!"inventory.py"], [p!"tasks", p!"example_task", p!"install.py"],
    [p!"tasks", p!"example_task", p!"add_site.py"], [p!"tasks", p!"example_task", p!"templates", p!"site.j2"], [p!"deploy.py"]]

/-- `init_structure_staging_prod`, example_deploys.py:211-244 -/
def stagingProd : Layout where
  dirs := [[p!"inventories"], [p!"inventories", p!"hosts"], [p!"inventories", p!"groups"], [p!"tasks"], [p!"tasks", p!"example_task"],
    [p!"tasks", p!"example_task", p!"files"], [p!"tasks", p!"example_task", p!"templates"]]
  files := [[p!"inventories", p!"hosts", p!"example.py"], [p!"inventories", p!"groups", p!"all.py"], [p!"inventories", p!"staging.py"], [p!"inventories", p!"prod.py"],
    [p!"tasks", p!"example_task", p!"install.py"], [p!"tasks", p!"example_task", p!"add_site.py"], [p!"tasks", p!"example_task", p!"templates", p!"site.j2"], [p!"deploy.py"]]

/-- `_init_fns`, example_deploys.py:275-281 -/
def layouts : List (Str × Layout) :=
  [(p!"minimal", minimal), (p!"flat", flat), (p!"dotfiles", dotfiles), (p!"modular", modular), (p!"staging_prod", stagingProd)]

/-- `_create_dirs` and `_write_file`, example_deploys.py:91-115, as called by the layouts. The contents of files are a parameter. -/
def Layout.steps (l : Layout) (content : Path → Str) : List Step :=
  l.dirs.map .mkdir ++ l.files.flatMap fun p => [.truncate p, .write p (content p)]

/-- `response.lower()`. Only the letters of the alphabet are turned into lower case: no other character becomes one of "y", "e", "s". -/
def lower (s : Str) : Str := s.map fun c => if 65 ≤ c ∧ c ≤ 90 then c + 32 else c

/-- How the program ends: with an exit code, or with an exception (which leads to exit code 1 as well). -/
inductive End where
  | exit (code : Nat)
  | raised (e : Exn)
  deriving DecidableEq, Repr

/-- `init_deploy_structure`, example_deploys.py:246-273. `answer` is what `input` returns, or raises. -/
def run (content : Str → Path → Str) (fault : Nat → Option Exn) (answer : Except Exn Str) (layout : Str) (d : Disk) : Disk × End :=
  match layouts.lookup layout with
  | none => (d, .raised (.valueError (p!"Unknown deploy layout structure '" ++ layout ++ p!"'")))
  | some l =>
    let proceed : Except Exn Bool :=
      if d.nonEmpty then answer.map fun r => decide (lower r = p!"y") || decide (lower r = p!"yes") else .ok true
    match proceed with
    | .error e => (d, .raised e)
    | .ok false => (d, .exit 1)
    | .ok true =>
      match execAll fault 0 (l.steps (content layout)) d with
      | (d', none) => (d', .exit 0)
      | (d', some e) => (d', .raised e)

end Verif.Run.Init
