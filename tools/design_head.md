# Formal model of oddlama/fora in Lean 4

`/repo` is a Python deployment tool: a controller runs scripts, scripts call *operations*, operations talk to one
remote host through a *connection*, the connection goes through a *connector*, which speaks a packet protocol over a
pipe to a *dispatcher* running on the remote. An *inventory* says which hosts exist and which variables they have.

The model follows these layers. Every definition cites the file and lines it models. Property theorems (`Cnn_...`) live in
files named `*Props.lean`, apart from the model and from helper lemmas (`*Lemmas.lean`); small independent specifications
that the theorems refer to live in `*Spec.lean` files. Next to each theorem there is an `example` that instantiates its
hypotheses with a concrete, non-trivial case.

## Layers, and how each is modelled

| Layer | Lean modules | Modelled code | Style |
|---|---|---|---|
| Python values | `Verif/Py/*` | `str` (code points incl. lone surrogates), `bytes`, utf-8 strict, surrogateescape, backslashreplace and ignore, `int(s, 8)`, `int(s)`, `oct`, `str.strip/splitlines/join/split` | total functions, round-trip lemmas |
| Wire | `Verif/Wire/*` | `_serialize`, `_deserialize`, packet registry, `_write_packet`, `receive_packet` | bytes to bytes functions; round trip for every packet |
| Dispatcher | `Verif/Remote/*` | every `handle` method, `_main` | functions on a remote `World`; OS calls are interpreted in the world, errors are values |
| Client | `Verif/Client/*` | `TunnelConnector`, `receive_packet`'s exception mapping, opening and closing | the client over a byte tunnel is proved equal to direct handler calls |
| Connection, operation API | `Verif/Script/*` | `Connection`, `RemoteSettings`, `ScriptWrapper.defaults`, `OperationContext`, `@operation` | a state and exception monad over *interaction trees* |
| Operations | `Verif/Ops/*` | every operation in `operations/*.py` | an operation is a tree of remote requests and continuations, so "for every remote behaviour" is quantification over all paths of the tree (`Execution`). Convergence theorems run the tree in the `World` (`perform`), with connections that may break at any request |
| Inventory | `Verif/Inventory/*` | `rank_sort`, declarations, `instanciate_host`, `ModuleWrapper`, urls | functions on finite graphs and declarations, induction |
| Running | `Verif/Run/*` | `run_script`, `local.script`, `Params`, `main_run`, logger | state machines with exceptions that keep the state |

The two ways of running an operation are connected: every run in a `World` is a path of the tree (`Traces.lean`), so what is
proved for all answers holds for every host.

## How each property is modelled and proved

`properties.jsonl` has the statements. A property that is false of the code is stated in full, refuted by a theorem with the
suffix `_refuted` and a concrete witness, and the part that does hold is proved under the suffix `_partial`. The section
*Refuted claims* collects them.

* **C01-C06, wire.** A codec by recursion on wire types, one constructor of `Packet` per packet class. Round trip with an
  arbitrary suffix by induction on types and lists, sequences of packets by induction, prefix freedom as a corollary.
  Truncation by a lemma on short reads. A writer that fails keeps what was already written.
* **C07-C17, dispatcher.** Handlers are functions from a request and a world to an answer and a world; the loop recurses on
  the input. Invariants by case analysis over all requests; files, links and accounts are part of the world.
* **C18, tunnel.** Induction over the history of calls, with C01, C02 and C07: talking through the byte stream gives the same
  results and the same world as calling the handlers.
* **C19, lifecycle.** A state machine of the subprocess with an arbitrary outcome at every step.
* **C20-C24, settings.** Field-wise merge; balanced defaults for every block body by the structure of programs; octal numerals.
* **C25-C28, operation API.** The body of an operation is an arbitrary program.
* **C29, C31, C32, C33, C70** and the trace theorems of C30, C46, C53, C54: all paths of the tree, hence every behaviour of
  the remote. C29 and C31 also on the host: everything is the same afterwards (time stamps of access are not modelled).
* **C34-C40, C44-C46.** Hoare-style triples (`Post`) over the world. A triple has three outcomes: success, failure, and an
  exception at any point, including a connection that breaks before or after any request took effect. So frame and
  repeatability theorems hold for every crash point.
* **C41-C43.** Functions on lines, and the byte level.
* **C47.** Dictionary lookups.
* **C48-C54.** The tools (package managers, shadow-utils, systemctl, git) are specifications: structures that say what each
  command line does to the part of the world it manages. Each is shown to be satisfiable by a concrete model.
* **C55-C60, C72.** `rank_sort` is longest path in a graph; preprocessing of declarations as functions; modules are arbitrary
  functions of variables and a heap.
* **C76.** All paths of the tree again, against a table of the command lines that each operation may request.
* **C78, C79.** The summaries that have been printed are part of the state; all paths of the tree for their number, the host
  calculus for the diffs.
* **C80, C81.** The tunnel and host calculi again, for messages of exceptions and states in results.
* **C83.** Host-level triples again, with an invariant over the list of operations: what has been granted so far stays so, and
  nothing else has changed. The dry run is compared with the real run step by step. `upload_dir` is taken apart into the single
  operations it performs (`Ops/CallsSpec.lean` says what a tree asks for).
* **C84.** A relation between the trees of two runs: one has additional branches that only look. On a host, by induction over scripts and over the hosts of a run.
* **C85.** The recorded history of a variable is related to a specification over the objects and variables after each module, by
  induction over the modules.
* **C86.** String functions; what is visible is a function of the pieces that are printed. Induction over rows and columns.
* **C87.** System calls on a tree of files, with an exception possible before each of them; induction over the calls.
* **C88.** `Run/Program.lean` puts the loop over the hosts, the life cycle of connections, the defaults and the operations together; induction over the hosts, with the invariants of C83 on each of them.
* **C89.** Path functions; the modules that loading an inventory executes are compared with a specification of file names. The general claim is refuted by names that are absolute paths.
* **C90.** The parser is compared with a grammar of command lines, by induction over the arguments in both directions; together with C88 for the hosts.
* **C91.** User code as trees; every step is recorded with its place; induction over the code, the groups, the hosts, with an invariant about the global variables.
* **C92.** An exception passes a list of layers from the inside to the outside; induction over the layers. Two parts of the general claim are refuted.
* **C93.** A transition system of client, dispatcher, commands and processes in the background with two pipes of limited capacity. An invariant with four phases and a bound that every step decreases; progress by cases on the phases. Invariants for the commands that are never answered.
* **C94.** One list of calls of all kinds. An invariant of the host (Orderly) that every call and every command keeps, what was achieved (Item.Done) as a second one, by induction over the calls; files through the lemmas of C83, accounts, packages, services and clones through the lemmas of C48, C51, C52, C53, C54 and C99; system.package and system.service also through the search of C49. A host with all tools shows that the hypotheses can be met.
* **C95.** The loop over hosts and the sessions of C88 (Run/Program.lean) with the scripts of C94. The invariant of C94 is extended by the identity of the connection; then by the lemmas about the outcome of the loop, and induction over the history of runs.
* **C96.** A relation between programs that make the same requests but for the contents of files that are written, preserved by sequencing and by all the constructs of operations; then case by case over the operations (Ops/SecrecySpec.lean, SecrecyLemmas.lean). That nobody but user() asks for hashes: by the requests of every operation (Ops/SecrecyHash.lean). Refuted for password hashes by a run on the example host; without -v, by a relation between two runs of user() whose answers differ in the hash (Ops/PasswordSpec.lean, PasswordLemmas.lean).
* **C97.** What a call makes of the content as a function; calls about different lines do not disturb each other, so the result of all calls can be given in closed form (induction over the calls). On a host an invariant (file content, everything else untouched) is kept by every call (Ops/LinesSpec.lean, LinesLemmas.lean).
* **C98.** A tokenizer and evaluator for the part of the POSIX shell language that the command line needs (specification of the environment, Client/Shell.lean), a model of base64 with its decoder, and the command line itself (Client/Bootstrap.lean). What the shell executes is computed for an arbitrary source by rewriting; the encoded text is handled by induction over its characters, the base64 round trip by induction over groups of three bytes.
* **C99.** The same model and the same specification of git as for C54, and what failing commands leave behind (Ops/GitResumeSpec.lean). An invariant over all runs (what is at the path can be used) is kept by every command of the operation; the last run then falls under C54.
* **C100.** Ops/ScriptedSpec.lean gives the scripts of the user as an inductive predicate on programs of the model: operations, code that only looks, sequencing, exception handlers, blocks of defaults, other scripts. The properties are proved by induction over it, from those of single operations (C29, C31, C78); `upload_dir` is opened up into its parts. For whole runs, the summaries are collected in Run/Program.lean, host by host.
* **C101.** Ops/TogetherSpec.lean: runs take turns, one request at a time, as a schedule says; each run has its own connection, which may break. Dry runs: the requests are those that only look (C29, C100), by induction over the schedule. Real runs: if requests can be exchanged, a request of the second run can be moved behind the rest of the first one, by induction over the program; then by induction over the schedule. The lost line is a concrete schedule. Scripts about different files: a relation between two hosts that differ only at the places of the other script is kept by every request that such a script makes (stat, download, upload, mkdir, touch, chmod, chown, rm), and the effects stay at the own places; so requests can be exchanged. Any number of runs (Ops/CrowdSpec.lean): a step of one run can be moved behind the rest of each other run, by induction over the list of runs, then over the schedule.
* **C102.** Ops/MemorySpec.lean: scripts whose own code looks at the host, the settings and the options only. Two calls from states with the same innermost settings are related step by step (same requests, continuations related for every answer); the relation is proved for each operation and is kept by all ways to put scripts together.
* **C103.** Ops/OrderSpec.lean: a script of parts in some order. By C102 each part runs as if it were the first on the host as it is then; by the exchange lemmas of C101 it finds there what it would find at the beginning; two neighbouring parts are exchanged request by request, and every permutation is reached by such exchanges.
* **C104.** Run/SplitSpec.lean: the settings with which a script begins on a host as it is. A session over a working connection asks for these settings, which changes nothing, and then runs the script; a script of two parts is one after the other, and by C102 the second one runs as if it were the first. Then over the hosts of a run by induction.
* **C105.** Run/EachSpec.lean: the program run for one host after the other. By induction over the hosts, and by what each session does to its own host (Run/ProgramLemmas.lean, `Outcome`).
* **C106.** Ops/EffortSpec.lean: a table of limits for every operation. All paths of the tree again: requests are counted, by lemmas for each construct of operations; what an operation has decided once it decides in the same way later, so that making a directory and touching it are alternatives. The size of a tree by mutual induction.
* **C107.** Ops/FailSpec.lean: which answers are failures of which requests, and with which exception. All paths of the tree: a calculus in which a failed request must be the last one of a path and its exception the result; the handlers of `download_or`, `query_user` and `query_group` are shown to pass on everything but a missing object.
* **C108.** Inventory/Raw.lean models the processing of declarations again, for Python values of any type; Inventory/RawSpec.lean says which of them have the documented types and which are malformed. A refinement: on values of the documented types it does what Inventory/Decl.lean does. Rejection by cases on what is wrong.
* **C109.** Ops/ExposeSpec.lean says who can read a file. A moment during a run is the end of a run in which the next call fails, and the calls that fail are arbitrary, so the claim is an invariant of everything that a run can leave behind (host program logic, Ops/Post.lean): mode bits and owner are among those allowed after each of writing, chmod, chown, by the dispatcher or by the tools.
* **C110.** As C109, with an invariant of the content; for `line` along its own actions (backup, then an upload that keeps the attributes).
* **C111.** The postconditions of C101/C103 and frame theorems (C46, C50, C51) of the first operation compose with those of the opposite one; for `line` the list of lines after adding and removing is computed.
* **C112.** By induction over the list of earlier operations: they change at most the node at the one place the path denotes (`Left`), and keep the path resolving there. The postcondition of the last operation fixes that node, as in C40.
* **C113.** Inventory/Overview.lean models all that `show_inventory` prints, with the texts of values, types, urls and places as parameters. The whole page is given, line by line, in Inventory/OverviewSpec.lean; names of groups and hosts are unique (C55, C57), so the dict comprehensions keep every line; the tables are C86.
* **C114.** Run/Transcript.lean: what a tree of scripts and operations prints, with the level of indentation as a variable; Run/TranscriptSpec.lean: a terminal (lines, cursor) and the lines that are expected, by nesting. Induction over the code and the hosts: a text displays lines if it adds exactly these to every screen; summaries by C82. The expected lines are shown to be determined.
* **C115.** Script/Args.lean: Python's binding of arguments to parameters, the parameters of all operations as a table, and the decorator, which looks for `check` and `name` among the arguments given by name only. Script/ArgsSpec.lean says which calls fit and which value a parameter has. By induction over lists of parameters with distinct names; that the table has these is computed.
* **C82.** The text as a function; a specification of the lines without colours, and a relation that forgets colours.
* **C61-C69, C71, C73-C75, C77.** State machines with exceptions, string functions.

No property was found that could not be expressed in a model. `why_tests_cant` in `properties.jsonl` says what the
quantification is over.

## Trusted base

* Lean 4.33.0's kernel. The axioms that each theorem depends on are listed at the end of this file; none depends on more than
  `propext`, `Classical.choice` and `Quot.sound`. There is no `sorry`, `native_decide`, `bv_decide`, `implemented_by`,
  `unsafe` or axiom in the sources.
* The reading of the Python code: the model is written by hand, `/repo` is not executed.
* The semantics of Python and of the operating system that the model gives, see below.

### What is modelled

| File in `/repo/src/fora` | Modelled |
|---|---|
| `connectors/tunnel_dispatcher.py` | everything: serializers, packets, argument resolution, all handlers, `_main` |
| `connectors/tunnel_connector.py`, `connectors/connector.py` | everything but logging; abstract methods are not code |
| `connectors/ssh.py`, `connectors/local.py` | url handling and the command lines |
| `connection.py` | everything but logging |
| `remote_settings.py` | all but `__repr__` |
| `types.py` | `RemoteDefaultsContext`, `ModuleWrapper`, `GroupWrapper`, `HostWrapper`, `ScriptWrapper`, `Params` |
| `operations/api.py` | `OperationResult`, `Operation`, `@operation`; not the registration of names for documentation |
| `operations/files.py`, `utils.py`, `system.py`, `systemd.py`, `git.py`, `apt.py`, `pacman.py`, `portage.py`, `local.py` | every operation and helper; names and descriptions are omitted |
| `inventory_wrapper.py` | declarations (also of wrong types, Inventory/Raw.lean), ordering, loading, conflicts |
| `utils.py` | `rank_sort`, tables and headings, `load_py_module`, `check_host_active`, what is printed for failed commands and exceptions (Run/Failure.lean) |
| `loader.py` | `run_script`, `load_inventory`, `ImmediateInventory` |
| `logger.py` | `ellipsis`, indentation, colours, `decode_escape`, titles and summaries of operations, diffs, messages about connections and scripts; not debug output |
| `main.py` | host selection and `main_run`, effective colour and verbosity, all that `--inspect-inventory` prints (the texts for values, types, urls and places are parameters), the command line |
| `example_deploys.py` | `init_deploy_structure` and the layouts; not the contents of files, symbolic links |

### What is simplified, and what the environment is assumed to do

Each simplification is repeated at the definition it concerns.

* **File system** (`Remote/World.lean`): a partial function from absolute locations (lists of names) to nodes: files with content,
  directories, symbolic links, devices and other nodes; owner, group, permission bits, mtime and ctime. Path resolution follows
  links up to a bound. No hard links, quotas, mount points or extended attributes. Whether a permission check, a full disk or an I/O error stops a
  system call is decided by an arbitrary oracle (`Sys`), which theorems quantify over. Other processes do not change the
  world during an operation; theorems about all answers (`Execution`) do not need that assumption.
* **Programs** (`Remote/Core.lean`): GNU coreutils `mkdir, chmod, chown, touch, rm, ln, readlink, cp`, as far as the command
  lines of the operations go. `Ordinary` says that these are the programs that the host runs. Every change they attempt may fail.
* **Packages, accounts, services, git**: `PackageSpec.lean`, `AccountSpec.lean`, `UserSpec.lean`, `ServiceSpec.lean`,
  `GitSpec.lean` say what the tools do. During `git.repo` the upstream repository is constant. The shell fragment of `find_command` has a
  small semantics (`PackageSpec.lean`).
* **Sets**: where Python iterates over a set, the order is an argument that theorems quantify over.
* **Modules and scripts**: the body of an inventory module is an arbitrary function from the variables it sees and the heap to
  its definitions and the heap. The body of a script is an arbitrary program over the operations on scripts
  (`Run/Script.lean`); it is not Python syntax.
* **Local machine**: what is read from local files, the time, results of rendering templates and of matching regular
  expressions are arguments. `upload_dir`'s source is a finite tree.
* **sha512** is an arbitrary function. Theorems about uploads conclude that the content has the wanted checksum, and that it
  is the wanted content if nothing else has that checksum.
* **Logging, printing, names and descriptions** are omitted, except for what C71, C75 and later properties are about: the
  summaries that operations print are part of the state (`St.shown`), with result and diffs, and `Run/Report.lean` makes text of them. How difflib compares files and how Python writes lists and dictionaries are arguments there.
* **Python's own failures** (MemoryError, KeyboardInterrupt, recursion limits) are not modelled.


## How to read seeded/LOG.jsonl

* Edits made by hand are run by tools/mutate.py. A declaration whose proof fails is left open, the build goes on, and `failed` lists the property theorems that then depend on an open proof. This shows that the given proofs do not survive the edit. Another proof of the same statement might, where only a helper lemma broke.
* Mechanical edits are run by tools/sweep.py, which stops at the first declaration that fails. `failed` has only that one, often a helper lemma. Whether a property theorem fails too was not checked for these.
* A `note` with the word inconclusive marks an entry that is no evidence that a theorem catches the bug: only an example or a refutation is known to fail, or a prover process was killed for memory before the theorems were reached.
* Entries with an empty `failed` and no `tightened` survived. Most have the claim `none`: the edit changes a text or a constant that no property speaks about.
* Edits that do not elaborate are not logged.
