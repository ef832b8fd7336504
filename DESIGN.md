# Formal model of oddlama/fora in Lean 4

`/repo` is a Python deployment tool: a controller runs scripts, scripts call *operations*, operations talk to one
remote host through a *connection*, the connection goes through a *connector*, which speaks a packet protocol over a
pipe to a *dispatcher* running on the remote. An *inventory* says which hosts exist and which variables they have.

The model follows these layers. Every definition cites the file and lines it models. Property theorems (`Cnn_...`) live in
files named `*Props.lean`, apart from the model and from helper lemmas (`*Lemmas.lean`); small independent specifications
that the theorems refer to live in `*Spec.lean` files. Next to each theorem there is an `example` that instantiates its
hypotheses with a concrete, non-trivial case.

## Layers, and how each is modelled

| Layer | Lean modules | Modelled code | Style |
|---|---|---|---|
| Python values | `Verif/Py/*` | `str` (code points incl. lone surrogates), `bytes`, utf-8 strict, surrogateescape, backslashreplace and ignore, `int(s, 8)`, `int(s)`, `oct`, `str.strip/splitlines/join/split` | total functions, round-trip lemmas |
| Wire | `Verif/Wire/*` | `_serialize`, `_deserialize`, packet registry, `_write_packet`, `receive_packet` | bytes to bytes functions; round trip for every packet |
| Dispatcher | `Verif/Remote/*` | every `handle` method, `_main` | functions on a remote `World`; OS calls are interpreted in the world, errors are values |
| Client | `Verif/Client/*` | `TunnelConnector`, `receive_packet`'s exception mapping, opening and closing | the client over a byte tunnel is proved equal to direct handler calls |
| Connection, operation API | `Verif/Script/*` | `Connection`, `RemoteSettings`, `ScriptWrapper.defaults`, `OperationContext`, `@operation` | a state and exception monad over *interaction trees* |
| Operations | `Verif/Ops/*` | every operation in `operations/*.py` | an operation is a tree of remote requests and continuations, so "for every remote behaviour" is quantification over all paths of the tree (`Execution`). Convergence theorems run the tree in the `World` (`perform`), with connections that may break at any request |
| Inventory | `Verif/Inventory/*` | `rank_sort`, declarations, `instanciate_host`, `ModuleWrapper`, urls | functions on finite graphs and declarations, induction |
| Running | `Verif/Run/*` | `run_script`, `local.script`, `Params`, `main_run`, logger | state machines with exceptions that keep the state |

The two ways of running an operation are connected: every run in a `World` is a path of the tree (`Traces.lean`), so what is
proved for all answers holds for every host.

## How each property is modelled and proved

`properties.jsonl` has the statements. A property that is false of the code is stated in full, refuted by a theorem with the
suffix `_refuted` and a concrete witness, and the part that does hold is proved under the suffix `_partial`. The section
*Refuted claims* collects them.

* **C01-C06, wire.** A codec by recursion on wire types, one constructor of `Packet` per packet class. Round trip with an
  arbitrary suffix by induction on types and lists, sequences of packets by induction, prefix freedom as a corollary.
  Truncation by a lemma on short reads. A writer that fails keeps what was already written.
* **C07-C17, dispatcher.** Handlers are functions from a request and a world to an answer and a world; the loop recurses on
  the input. Invariants by case analysis over all requests; files, links and accounts are part of the world.
* **C18, tunnel.** Induction over the history of calls, with C01, C02 and C07: talking through the byte stream gives the same
  results and the same world as calling the handlers.
* **C19, lifecycle.** A state machine of the subprocess with an arbitrary outcome at every step.
* **C20-C24, settings.** Field-wise merge; balanced defaults for every block body by the structure of programs; octal numerals.
* **C25-C28, operation API.** The body of an operation is an arbitrary program.
* **C29, C31, C32, C33, C70** and the trace theorems of C30, C46, C53, C54: all paths of the tree, hence every behaviour of
  the remote. C29 and C31 also on the host: everything is the same afterwards (time stamps of access are not modelled).
* **C34-C40, C44-C46.** Hoare-style triples (`Post`) over the world. A triple has three outcomes: success, failure, and an
  exception at any point, including a connection that breaks before or after any request took effect. So frame and
  repeatability theorems hold for every crash point.
* **C41-C43.** Functions on lines, and the byte level.
* **C47.** Dictionary lookups.
* **C48-C54.** The tools (package managers, shadow-utils, systemctl, git) are specifications: structures that say what each
  command line does to the part of the world it manages. Each is shown to be satisfiable by a concrete model.
* **C55-C60, C72.** `rank_sort` is longest path in a graph; preprocessing of declarations as functions; modules are arbitrary
  functions of variables and a heap.
* **C76.** All paths of the tree again, against a table of the command lines that each operation may request.
* **C78, C79.** The summaries that have been printed are part of the state; all paths of the tree for their number, the host
  calculus for the diffs.
* **C80, C81.** The tunnel and host calculi again, for messages of exceptions and states in results.
* **C83.** Host-level triples again, with an invariant over the list of operations: what has been granted so far stays so, and
  nothing else has changed. The dry run is compared with the real run step by step. `upload_dir` is taken apart into the single
  operations it performs (`Ops/CallsSpec.lean` says what a tree asks for).
* **C84.** A relation between the trees of two runs: one has additional branches that only look. On a host, by induction over scripts and over the hosts of a run.
* **C85.** The recorded history of a variable is related to a specification over the objects and variables after each module, by
  induction over the modules.
* **C86.** String functions; what is visible is a function of the pieces that are printed. Induction over rows and columns.
* **C87.** System calls on a tree of files, with an exception possible before each of them; induction over the calls.
* **C88.** `Run/Program.lean` puts the loop over the hosts, the life cycle of connections, the defaults and the operations together; induction over the hosts, with the invariants of C83 on each of them.
* **C89.** Path functions; the modules that loading an inventory executes are compared with a specification of file names. The general claim is refuted by names that are absolute paths.
* **C90.** The parser is compared with a grammar of command lines, by induction over the arguments in both directions; together with C88 for the hosts.
* **C91.** User code as trees; every step is recorded with its place; induction over the code, the groups, the hosts, with an invariant about the global variables.
* **C92.** An exception passes a list of layers from the inside to the outside; induction over the layers. Two parts of the general claim are refuted.
* **C93.** A transition system of client, dispatcher, commands and processes in the background with two pipes of limited capacity. An invariant with four phases and a bound that every step decreases; progress by cases on the phases. Invariants for the commands that are never answered.
* **C94.** One list of calls of all kinds. An invariant of the host (Orderly) that every call and every command keeps, what was achieved (Item.Done) as a second one, by induction over the calls; files through the lemmas of C83, accounts, packages, services and clones through the lemmas of C48, C51, C52, C53, C54 and C99; system.package and system.service also through the search of C49. A host with all tools shows that the hypotheses can be met.
* **C95.** The loop over hosts and the sessions of C88 (Run/Program.lean) with the scripts of C94. The invariant of C94 is extended by the identity of the connection; then by the lemmas about the outcome of the loop, and induction over the history of runs.
* **C96.** A relation between programs that make the same requests but for the contents of files that are written, preserved by sequencing and by all the constructs of operations; then case by case over the operations (Ops/SecrecySpec.lean, SecrecyLemmas.lean). That nobody but user() asks for hashes: by the requests of every operation (Ops/SecrecyHash.lean). Refuted for password hashes by a run on the example host; without -v, by a relation between two runs of user() whose answers differ in the hash (Ops/PasswordSpec.lean, PasswordLemmas.lean).
* **C97.** What a call makes of the content as a function; calls about different lines do not disturb each other, so the result of all calls can be given in closed form (induction over the calls). On a host an invariant (file content, everything else untouched) is kept by every call (Ops/LinesSpec.lean, LinesLemmas.lean).
* **C98.** A tokenizer and evaluator for the part of the POSIX shell language that the command line needs (specification of the environment, Client/Shell.lean), a model of base64 with its decoder, and the command line itself (Client/Bootstrap.lean). What the shell executes is computed for an arbitrary source by rewriting; the encoded text is handled by induction over its characters, the base64 round trip by induction over groups of three bytes.
* **C99.** The same model and the same specification of git as for C54, and what failing commands leave behind (Ops/GitResumeSpec.lean). An invariant over all runs (what is at the path can be used) is kept by every command of the operation; the last run then falls under C54.
* **C100.** Ops/ScriptedSpec.lean gives the scripts of the user as an inductive predicate on programs of the model: operations, code that only looks, sequencing, exception handlers, blocks of defaults, other scripts. The properties are proved by induction over it, from those of single operations (C29, C31, C78); `upload_dir` is opened up into its parts. For whole runs, the summaries are collected in Run/Program.lean, host by host.
* **C101.** Ops/TogetherSpec.lean: runs take turns, one request at a time, as a schedule says; each run has its own connection, which may break. Dry runs: the requests are those that only look (C29, C100), by induction over the schedule. Real runs: if requests can be exchanged, a request of the second run can be moved behind the rest of the first one, by induction over the program; then by induction over the schedule. The lost line is a concrete schedule. Scripts about different files: a relation between two hosts that differ only at the places of the other script is kept by every request that such a script makes (stat, download, upload, mkdir, touch, chmod, chown, rm), and the effects stay at the own places; so requests can be exchanged. Any number of runs (Ops/CrowdSpec.lean): a step of one run can be moved behind the rest of each other run, by induction over the list of runs, then over the schedule.
* **C102.** Ops/MemorySpec.lean: scripts whose own code looks at the host, the settings and the options only. Two calls from states with the same innermost settings are related step by step (same requests, continuations related for every answer); the relation is proved for each operation and is kept by all ways to put scripts together.
* **C103.** Ops/OrderSpec.lean: a script of parts in some order. By C102 each part runs as if it were the first on the host as it is then; by the exchange lemmas of C101 it finds there what it would find at the beginning; two neighbouring parts are exchanged request by request, and every permutation is reached by such exchanges.
* **C104.** Run/SplitSpec.lean: the settings with which a script begins on a host as it is. A session over a working connection asks for these settings, which changes nothing, and then runs the script; a script of two parts is one after the other, and by C102 the second one runs as if it were the first. Then over the hosts of a run by induction.
* **C105.** Run/EachSpec.lean: the program run for one host after the other. By induction over the hosts, and by what each session does to its own host (Run/ProgramLemmas.lean, `Outcome`).
* **C106.** Ops/EffortSpec.lean: a table of limits for every operation. All paths of the tree again: requests are counted, by lemmas for each construct of operations; what an operation has decided once it decides in the same way later, so that making a directory and touching it are alternatives. The size of a tree by mutual induction.
* **C107.** Ops/FailSpec.lean: which answers are failures of which requests, and with which exception. All paths of the tree: a calculus in which a failed request must be the last one of a path and its exception the result; the handlers of `download_or`, `query_user` and `query_group` are shown to pass on everything but a missing object.
* **C108.** Inventory/Raw.lean models the processing of declarations again, for Python values of any type; Inventory/RawSpec.lean says which of them have the documented types and which are malformed. A refinement: on values of the documented types it does what Inventory/Decl.lean does. Rejection by cases on what is wrong.
* **C109.** Ops/ExposeSpec.lean says who can read a file. A moment during a run is the end of a run in which the next call fails, and the calls that fail are arbitrary, so the claim is an invariant of everything that a run can leave behind (host program logic, Ops/Post.lean): mode bits and owner are among those allowed after each of writing, chmod, chown, by the dispatcher or by the tools.
* **C110.** As C109, with an invariant of the content; for `line` along its own actions (backup, then an upload that keeps the attributes).
* **C111.** The postconditions of C101/C103 and frame theorems (C46, C50, C51) of the first operation compose with those of the opposite one; for `line` the list of lines after adding and removing is computed.
* **C112.** By induction over the list of earlier operations: they change at most the node at the one place the path denotes (`Left`), and keep the path resolving there. The postcondition of the last operation fixes that node, as in C40.
* **C113.** Inventory/Overview.lean models all that `show_inventory` prints, with the texts of values, types, urls and places as parameters. The whole page is given, line by line, in Inventory/OverviewSpec.lean; names of groups and hosts are unique (C55, C57), so the dict comprehensions keep every line; the tables are C86.
* **C114.** Run/Transcript.lean: what a tree of scripts and operations prints, with the level of indentation as a variable; Run/TranscriptSpec.lean: a terminal (lines, cursor) and the lines that are expected, by nesting. Induction over the code and the hosts: a text displays lines if it adds exactly these to every screen; summaries by C82. The expected lines are shown to be determined.
* **C115.** Script/Args.lean: Python's binding of arguments to parameters, the parameters of all operations as a table, and the decorator, which looks for `check` and `name` among the arguments given by name only. Script/ArgsSpec.lean says which calls fit and which value a parameter has. By induction over lists of parameters with distinct names; that the table has these is computed.
* **C82.** The text as a function; a specification of the lines without colours, and a relation that forgets colours.
* **C61-C69, C71, C73-C75, C77.** State machines with exceptions, string functions.

No property was found that could not be expressed in a model. `why_tests_cant` in `properties.jsonl` says what the
quantification is over.

## Trusted base

* Lean 4.33.0's kernel. The axioms that each theorem depends on are listed at the end of this file; none depends on more than
  `propext`, `Classical.choice` and `Quot.sound`. There is no `sorry`, `native_decide`, `bv_decide`, `implemented_by`,
  `unsafe` or axiom in the sources.
* The reading of the Python code: the model is written by hand, `/repo` is not executed.
* The semantics of Python and of the operating system that the model gives, see below.

### What is modelled

| File in `/repo/src/fora` | Modelled |
|---|---|
| `connectors/tunnel_dispatcher.py` | everything: serializers, packets, argument resolution, all handlers, `_main` |
| `connectors/tunnel_connector.py`, `connectors/connector.py` | everything but logging; abstract methods are not code |
| `connectors/ssh.py`, `connectors/local.py` | url handling and the command lines |
| `connection.py` | everything but logging |
| `remote_settings.py` | all but `__repr__` |
| `types.py` | `RemoteDefaultsContext`, `ModuleWrapper`, `GroupWrapper`, `HostWrapper`, `ScriptWrapper`, `Params` |
| `operations/api.py` | `OperationResult`, `Operation`, `@operation`; not the registration of names for documentation |
| `operations/files.py`, `utils.py`, `system.py`, `systemd.py`, `git.py`, `apt.py`, `pacman.py`, `portage.py`, `local.py` | every operation and helper; names and descriptions are omitted |
| `inventory_wrapper.py` | declarations (also of wrong types, Inventory/Raw.lean), ordering, loading, conflicts |
| `utils.py` | `rank_sort`, tables and headings, `load_py_module`, `check_host_active`, what is printed for failed commands and exceptions (Run/Failure.lean) |
| `loader.py` | `run_script`, `load_inventory`, `ImmediateInventory` |
| `logger.py` | `ellipsis`, indentation, colours, `decode_escape`, titles and summaries of operations, diffs, messages about connections and scripts; not debug output |
| `main.py` | host selection and `main_run`, effective colour and verbosity, all that `--inspect-inventory` prints (the texts for values, types, urls and places are parameters), the command line |
| `example_deploys.py` | `init_deploy_structure` and the layouts; not the contents of files, symbolic links |

### What is simplified, and what the environment is assumed to do

Each simplification is repeated at the definition it concerns.

* **File system** (`Remote/World.lean`): a partial function from absolute locations (lists of names) to nodes: files with content,
  directories, symbolic links, devices and other nodes; owner, group, permission bits, mtime and ctime. Path resolution follows
  links up to a bound. No hard links, quotas, mount points or extended attributes. Whether a permission check, a full disk or an I/O error stops a
  system call is decided by an arbitrary oracle (`Sys`), which theorems quantify over. Other processes do not change the
  world during an operation; theorems about all answers (`Execution`) do not need that assumption.
* **Programs** (`Remote/Core.lean`): GNU coreutils `mkdir, chmod, chown, touch, rm, ln, readlink, cp`, as far as the command
  lines of the operations go. `Ordinary` says that these are the programs that the host runs. Every change they attempt may fail.
* **Packages, accounts, services, git**: `PackageSpec.lean`, `AccountSpec.lean`, `UserSpec.lean`, `ServiceSpec.lean`,
  `GitSpec.lean` say what the tools do. During `git.repo` the upstream repository is constant. The shell fragment of `find_command` has a
  small semantics (`PackageSpec.lean`).
* **Sets**: where Python iterates over a set, the order is an argument that theorems quantify over.
* **Modules and scripts**: the body of an inventory module is an arbitrary function from the variables it sees and the heap to
  its definitions and the heap. The body of a script is an arbitrary program over the operations on scripts
  (`Run/Script.lean`); it is not Python syntax.
* **Local machine**: what is read from local files, the time, results of rendering templates and of matching regular
  expressions are arguments. `upload_dir`'s source is a finite tree.
* **sha512** is an arbitrary function. Theorems about uploads conclude that the content has the wanted checksum, and that it
  is the wanted content if nothing else has that checksum.
* **Logging, printing, names and descriptions** are omitted, except for what C71, C75 and later properties are about: the
  summaries that operations print are part of the state (`St.shown`), with result and diffs, and `Run/Report.lean` makes text of them. How difflib compares files and how Python writes lists and dictionaries are arguments there.
* **Python's own failures** (MemoryError, KeyboardInterrupt, recursion limits) are not modelled.


## How to read seeded/LOG.jsonl

* Edits made by hand are run by tools/mutate.py. A declaration whose proof fails is left open, the build goes on, and `failed` lists the property theorems that then depend on an open proof. This shows that the given proofs do not survive the edit. Another proof of the same statement might, where only a helper lemma broke.
* Mechanical edits are run by tools/sweep.py, which stops at the first declaration that fails. `failed` has only that one, often a helper lemma. Whether a property theorem fails too was not checked for these.
* A `note` with the word inconclusive marks an entry that is no evidence that a theorem catches the bug: only an example or a refutation is known to fail, or a prover process was killed for memory before the theorems were reached.
* Entries with an empty `failed` and no `tightened` survived. Most have the claim `none`: the edit changes a text or a constant that no property speaks about.
* Edits that do not elaborate are not logged.

## Refuted claims

Each of these theorems proves that the property, as stated, fails for a concrete case.

* **C04, A truncated stream is never taken for a packet.**
  * `C04_refuted`: C04 is false of the code: if the connection is lost inside the payload of a download, the client receives the beginning of the file as if it were the whole file.
* **C05, A value that cannot be sent is rejected cleanly.**
  * `C05_refuted`: The second half of C05 is false of the code: a request to run a command with an argument that cannot be encoded raises, but leaves its first bytes in the buffer; a check-alive request sent next is not understood.
* **C09, No request can take the dispatcher down.**
  * `C09_refuted`: C09 is false of the code: `stat` on a path with a NUL character ends the dispatcher.
  * `C09_nul_crashes_refuted`: C09, who is affected, 1: on every host, a NUL character in the path of a stat or download request, in the name of a resolve or query request or in a command crashes the dispatcher (unless another field is rejected first).
  * `C09_malformed_crashes_refuted`: C09, who is affected, 2: an empty command crashes the dispatcher, and so does any response packet sent to it.
* **C13, Uploaded ownership and mode are what was asked for.**
  * `C13_group_only_refuted`: C13 is false of the code, 1: giving only a group makes root the owner.
  * `C13_setuid_refuted`: C13 is false of the code, 2: with an owner, the setuid bit of the mode is lost.
  * `C13_group_only_owner_root_refuted`: C13 on every host: giving only a group always makes the user with uid 0 the owner.
* **C14, stat tells the truth.**
  * `C14_unencodable_refuted`: C14 is false at the API for paths that cannot be encoded: `stat` says that the file does not exist although it does.
* **C16, Commands run with the requested identity.**
  * `C16_supplementary_groups_refuted`: C16 is false of the code, 1: the process keeps the supplementary groups of the dispatcher. On the example host a command run as alice is a member of group 0.
  * `C16_relative_cwd_refuted`: C16 is false of the code, 2: a relative working directory is entered twice. The command asked to run in `a` (an existing directory) runs in `a/a` if that exists, and otherwise is not started at all.
* **C17, Command results are delivered unmodified.**
  * `C17_uncaptured_refuted`: C17 is false of the code without capturing: what the command prints goes into the protocol stream, so that a failing command can report success.
* **C19, Connections are always cleaned up.**
  * `C19_reopen_refuted`: C19 is false of the code: `close` does not reset `is_open`, so that opening a second time and failing leaves the process running.
  * `C19_identity_failure_refuted`: C19 is false of the code, if the identity cannot be determined: the process goes on running and the host's connection stays set.
  * `C19_close_twice_refuted`: C19 is false of the code: closing twice raises.
* **C24, Base settings from the inventory are canonical too.**
  * `C24_refuted`: An inventory with `file_mode="0600"` refutes the property for all settings.
  * `C24_never_equal_refuted`: With such an inventory, no object's reported mode ever equals the mode that is in force.
* **C25, An operation either succeeds or raises.**
  * `C25_unchecked_raises_refuted`: It is false: an OperationError that the body raises (such as that of a failed nested operation) propagates.
* **C27, unchanged(ignore_none) ignores unset targets.**
  * `C27_refuted`: It is false: an entry whose final value is None counts.
* **C30, Dry run predicts the real run.**
  * `C30_scripts_refuted`: The full statement of C30 is false of the code for scripts. An operation looks up the owner it is given even in a dry run; if an earlier operation of the script is about to create this account, the dry run ends with a ValueError.
* **C34, Only the named path is affected.**
  * `C34_link_frame_refuted`: C34 is false for a link that leads to a directory: `link(path="/link", target="/home")` on a host where `/link` points to `/etc` creates `/etc/home` and leaves `/link` alone; the operation reports success.
* **C35, directory() converges.**
  * `C35_mode_refuted`: C35 is false for the mode: `directory(path="/home", mode="755")` on a host where `/home` has mode 2775 succeeds, but the mode is 2755 afterwards.
* **C36, file() converges.**
  * `C36_mode_refuted`: C36 is false for setuid: `file(path="/tmp/x", mode="4755", owner="alice")` succeeds, but the mode is 755 afterwards, because the owner is set after the mode.
* **C37, link() converges.**
  * `C37_target_refuted`: C37 is false for a link that leads to a directory: `link(path="/link", target="/home")` on a host where `/link` points to `/etc` succeeds and leaves it as it is.
  * `C37_owner_refuted`: C37 is false for the owner if only the target is to be changed: `link(path="/dangling", target="/x", owner="alice")` on a host where `/dangling` belongs to alice succeeds, but afterwards it belongs to root.
* **C38, upload_content() converges.**
  * `C38_mode_refuted`: C38 is false for setuid, as C36: the owner is set after the mode.
  * `C38_large_mode_refuted`: C38 is false for modes beyond 7777: `upload_content(..., mode="10644")` succeeds, and the mode is 644 afterwards.
* **C39, Operations are idempotent.**
  * `C39_idempotent_refuted`: C39 is false in general. Each of these operations succeeds and reports a change, and so does the same operation afterwards: a directory in which setgid cannot be cleared; a file that is to be setuid and belong to another user; a link of which only the target had to be changed; and an operation that is to set the modification time.
* **C40, A failed run can be repeated.**
  * `C40_mode_refuted`: C40 is false for setuid: an uninterrupted `file(path="/tmp/x", mode="4755", owner="alice")` leads to mode 755, but if the connection breaks when the last command has been carried out, and the operation is done again, the mode is 4755.
* **C41, line(present) leaves the line in the file.**
  * `C41_line_break_refuted`: A text with a line break is not a line: it is added again and again.
* **C42, line() keeps all other lines byte for byte.**
  * `C42_terminators_refuted`: C42 is false for other line breaks: adding `c` to a file that contains `a` and `b` ended by carriage return and newline also changes the ends of these lines.
  * `C42_only_line_refuted`: C42 is false for the last remaining line: removing the only line does not leave an empty file but an empty line.
* **C43, line(absent) removes the line.**
  * `C43_whitespace_refuted`: C43 is false for a line given with surrounding whitespace: `line(path="/etc/motd", line=" hi", present=False)` reports success and a change, now and every time, and never removes the line `hi`, although it counts as the same line.
  * `C43_empty_line_refuted`: C43 is false for the empty line if there is no other: it remains.
* **C44, line() backs up the old file.**
  * `C44_name_refuted`: C44 is false for the name: with `backup=True` the backup of `/etc/motd` is not `/etc/motd.<date>.bak` but `/etc/.<date>.bak`. So all files of a directory share one backup per second.
* **C46, upload_dir mirrors the source tree.**
  * `C46_links_refuted`: C46 is false for links: the documentation of `upload_dir` says that it will only upload files and directories, not links. A link to a file is uploaded as a file, and a link to a directory becomes an empty directory.
  * `C46_dotdot_refuted`: C46 is false for a destination with `..` after a link: the top directory is created at one place, its content at another. `/tmp/l/../x` is `/etc/x` on this host, but the files are uploaded to `/tmp/x`.
  * `C46_slash_refuted`: C46 is false if both arguments end with a slash: `upload_dir("site/", "/tmp/")` does not create `/tmp/site`, it puts the content directly into `/tmp`. (The name after the last slash of the source is empty.)
* **C47, Template variables have a fixed precedence.**
  * `C47_inventory_refuted`: C47 does not hold for `inventory`: whatever the inventory is, the name refers to the host.
* **C48, Package operations act on exactly the right packages.**
  * `C48_duplicates_refuted`: C48, the part that is false: all packages are installed, one of them is listed twice; nothing has to be done and nothing is done, but a change is reported, every time.
* **C50, apt packages can be queried.**
  * `C50_apt_refuted`: C50 is false: on every host on which there is no program with the misspelt name `dpgk-query`, and whatever other programs and packages there are, `apt.package` raises, unless the list is empty; nothing is changed.
* **C51, user() converges and is idempotent.**
  * `C51_false_values_refuted`: C51, the part that is false: requests for the uid 0, an empty comment or no groups are ignored, and success is reported.
  * `C51_group_by_gid_refuted`: C51, the part that is false: if the group is given by its gid, which the documentation allows, every run reports a change.
  * `C51_duplicate_groups_refuted`: C51, the part that is false: if a group is given twice, every run reports a change.
  * `C51_incomplete_account_refuted`: C51, the part that is false: a user without a password entry is taken for absent; its removal is reported as a success although it is still there, and its creation fails.
  * `C51_stale_membership_refuted`: C51, the part that is false: a new user is a member of the groups that already listed its name, whatever groups are requested.
* **C52, group() converges and is idempotent.**
  * `C52_gid_zero_refuted`: C52, the part that is false: the gid 0 counts as no gid; the group keeps its own, and success is reported.
* **C53, systemd.service reaches the requested state.**
  * `C53_changed_flag_refuted`: C53, the part that is false: if only one of the two is given, every run reports a change.
  * `C53_user_mode_refuted`: C53, the part that is false: for units of the user, the state of the unit of the system with that name is looked at. If that is as requested, nothing is done, and success is reported.
  * `C53_reloading_refuted`: C53, the part that is false: a unit that is reloading is taken for stopped; a request to stop it does nothing, and success is reported.
* **C54, git.repo never pulls from a different remote.**
  * `C54_other_branch_refuted`: C54, the part that is false: the branch that is checked out is never switched. If another one is asked for, success (and a change) is reported every time, and the commit that is checked out stays another one.
  * `C54_tag_refuted`: C54, the part that is false: after a clone with an annotated tag, the same operation fails. It compares the commit with the id of the tag, and there is no branch to pull.
  * `C54_other_origin_unnoticed_refuted`: C54, the part that is false: a clone of another url is not noticed in a dry run (which reports success, where the real run fails), and not if it happens to be at the same commit.
* **C60, Unordered groups cannot silently disagree.**
  * `C60_different_rank_refuted`: C60 does not hold as stated: two groups that are not ordered relative to each other, and set the same variable to different values, are accepted if one of them has a greater rank.
  * `C60_ordered_refuted`: Groups that are ordered may be rejected, though nothing is ambiguous: `b` is declared to be loaded after `a`.
  * `C60_set_order_refuted`: Whether an inventory is accepted may depend on the order in which a set of strings is enumerated, which is different in every run: here the first of two groups sets `x` to `None`. (The inventory declares no groups, so that they are taken from the host.)
  * `C60_value_refuted`: The value of a variable may depend on it as well, if two groups change it in place.
  * `C60_declaration_refuted`: A variable in the declaration of a host may be redefined by a group only if the group `all` is not declared.
* **C61, Running a script leaves the context as it was.**
  * `C61_script_and_directory_refuted`: C61 does not hold if the working directory is removed meanwhile: the script that has ended stays the active one, and its directory the working directory.
* **C62, Recursive script calls are refused.**
  * `C62_recursion_refuted`: C62 does not hold: no call of a script is refused, whatever scripts are running, as long as the directories they are in exist. (The file is compared to these directories.)
* **C63, Script parameters.**
  * `C63_required_refuted`: C63 does not hold for a required parameter with a name that every class has as an attribute: no value is passed, no default is declared, yet nothing is raised.
* **C65, URL qualification.**
  * `C65_port_refuted`: A host name with a port is taken for a url with the name as its schema, and then refused.
* **C66, The ssh command targets the declared host.**
  * `C66_hostname_refuted`: C66 is false without `//`: two characters are missing in the name of the host, although ssh connects to the right one.
  * `C66_ipv6_refuted`: C66 is false for an IPv6 address.
* **C67, Wrapper attributes read back what was written.**
  * `C67_read_back_refuted`: C67 does not hold for a name with a single leading underscore: if the module defines it, it is set there, but read from the wrapper.
* **C68, Host variable hierarchy.**
  * `C68_agree_refuted`: C68 does not hold if the host has a module of that name: then the two disagree.
* **C69, download_or / query_or / home_dir fallbacks.**
  * `C69_query_user_refuted`: The property for users is false: an account whose primary group does not exist is reported as missing.
* **C71, Log lines fit.**
  * `C71_width_refuted`: With a width of 0 only the last character is replaced, so the result can have any length.
* **C72, Hosts are isolated from each other.**
  * `C72_isolated_refuted`: C72 does not hold in general: the variables of the inventory are shared by all hosts. If the module of `web` appends to such a list, the host `db` sees the new element, too, if and only if `web` is part of the inventory.
* **C75, Displayed content is harmless.**
  * `C75_printable_refuted`: The documentation says that all characters that are not printable are replaced. They are not: U+202E (right-to-left override) and U+2028 (line separator) are shown as they are.
  * `C75_distinct_refuted`: A backslash is not escaped, so different content can look the same.
* **C77, The inventory argument means one host or one module.**
  * `C77_fatal_refuted`: The documentation says that an invalid inventory leads to a `FatalError`. That is false for a host that is declared by a dict with an unknown key: the `TypeError` is passed on.
* **C78, Every operation prints one summary.**
  * `C78_upload_dir_arguments_refuted`: C78 is false of `upload_dir` itself: if its arguments are wrong, it fails, and nothing is printed.
  * `C78_search_refuted`: C78 is false of `package` if the connection breaks while it looks for the package manager: it fails, and nothing is printed.
* **C81, Results tell the truth.**
  * `C81_user_mode_refuted`: C81 is false of `systemd.service` for the units of a user: the states that are reported are those of the unit of the system with that name. Here the unit of the user is neither running nor enabled.
  * `C81_reloading_refuted`: C81 is false of a unit that is reloading: it is reported as stopped.
* **C82, Summaries show the changes.**
  * `C82_no_color_refuted`: C82 is false for diffs: they are coloured although --no-color is given.
  * `C82_changes_shown_refuted`: C82 is false for values that become None: a successful operation that has changed something may print nothing but its title.
  * `C82_escapes_refuted`: values are printed as they are. One that the host has chosen can clear the screen.
* **C83, Scripts can be repeated and resumed.**
  * `C83_same_path_refuted`: Why the paths have to be different: a script that asks for two modes of one directory changes it twice, whenever it is run.
  * `C83_removed_way_refuted`: Why a directory has to be asked for at a path that is on the way to another: a script that removes a directory and then asks for a file in it does not come to its end, because the directory is missing.
* **C85, Inspection shows where variables come from.**
  * `C85_none_refuted`: C85 does not hold for variables that are `None` all of the time: these are always said to be defined by the host, even if it has no module.
  * `C85_deleted_refuted`: C85 does not hold for variables that are deleted: the group `all` is said to have defined a variable that was deleted and defined anew by another group.
* **C86, Tables are complete and aligned.**
  * `C86_fit_refuted`: Tables are not always aligned if the terminal is wide enough: this table needs 15, 35, 1 and 1 characters and has 71, but its first column gets 11 and its second one 58.
* **C89, Modules are found by name below the inventory.**
  * `C89_inside_refuted`: C89 does not hold for every name: that of a host may be an absolute path, also if it comes from its url. Its module is then a file anywhere, whatever the directories of the inventory are.
* **C92, What went wrong is shown.**
  * `C92_escaped_refuted`: It is not true that special characters of the output are escaped, although the heading says so: an escape sequence of a command reaches the terminal.
  * `C92_uncaptured_refuted`: It is not true that an exception is always reported as what it is: if the output of a command that fails was not captured, then the report about it fails, the program ends with an `AttributeError` instead, and the script in which it happened is not mentioned.
* **C93, Requests and commands do not get in each other's way.**
  * `C93_unfed_refuted`: The full statement of C93 is false of the code: a command that is given no input shares the standard input of the dispatcher, and waits there for the next request.
  * `C93_daemon_refuted`: The full statement of C93 is false for commands that leave a process behind with their output, too.
  * `C93_leftover_refuted`: The full statement of C93 is false of the code: a process that a command leaves behind can take bytes of a later request away from the dispatcher, after which neither side ever gets what it waits for.
* **C94, A script that sets up a site reaches everything it asks for and can be repeated.**
  * `C94_interference_refuted`: C94, the part that is false: if `userdel` also removes the group of that name (as it does where groups are created with users), a script that asks for a group and for the absence of the user of the same name reports success, but the group is gone; the next run changes the host again.
* **C95, A run over an inventory sets up the sites of all its hosts.**
  * `C95_login_refuted`: C95, the part that is false: a script may remove the account that is logged in with. The run comes to its end and the call reports success. No other run comes to its end after that.
* **C96, What is stored in files stays off the screen.**
  * `C96_password_refuted`: C96 is false of password hashes: `user` shows the hash of an account on the screen if -v is given, even if the script neither mentions a hash nor changes anything about the account.
* **C97, Several lines of one file can be managed together.**
  * `C97_conflict_refuted`: Why the calls have to be about different lines: a script that asks for a line and asks for it to be removed changes the file in every run, without an end.
  * `C97_full_disk_refuted`: Why writing must not fail: if the disk is full when a line is to be added, the other lines are lost, and they are not brought back when the script is run again after there is space.
* **C98, The dispatcher that is executed on a host is the one that belongs to this program.**
  * `C98_python3_refuted`: The full statement of C98 is false of the code: the dispatcher is decompressed by `python`. On a host on which Python 3 is only called `python3`, as on many systems, an empty program is executed in the place of the dispatcher.
* **C99, An interrupted checkout is completed by the next run.**
  * `C99_submodules_refuted`: C99, the part that is false: after success with `update_submodules=True`, the submodules are checked out. If the connection breaks between the clone and the command for submodules, all further runs report success, and that nothing was changed, but the submodules are never checked out. The same happens if there already was a clone without them.
* **C101, Runs at the same time.**
  * `C101_lost_line_refuted`: C101 is false: two runs at the same time, each of which adds a line of its own to the same file. Both come to their end and report success and a change, with no connection broken. Nevertheless one of the lines is not in the file: `line` reads the file and writes it back as a whole (/repo/src/fora/operations/files.py:668-716). One after the other they would both be there.
* **C108, Malformed declarations are rejected.**
  * `C108_text_for_groups_refuted`: C108 does not hold in general: that everything that is accepted has the documented types. The groups of a host may be a text, which is taken for the list of its characters; without a declaration of groups, the host is then in groups that nobody meant.
  * `C108_number_for_name_refuted`: C108 does not hold for names either: a number is accepted as a name, under which no host can be selected on the command line.
  * `C108_value_error_refuted`: And rejections need not be `ValueError`s, which are the only ones that are reported as errors of the inventory.
* **C109, Content is not exposed while it is stored.**
  * `C109_existing_refuted`: C109 is false of a file that others could read before: the content is written before the mode is set, and a run that is interrupted in between (here: setting the mode fails) leaves it where everybody can read it.
  * `C109_group_refuted`: Nor is it true of groups: the mode is set before the group is. A run that is interrupted in between leaves the content where the members of another group can read it, here those of the group of the connection's user, although only members of `users` were meant to.
* **C110, An interrupted write leaves the old content or a beginning of the new one.**
  * `C110_atomic_refuted`: That the file always has either its old content or the complete new one is false: files are overwritten in place. Here the disk is full after three bytes.
  * `C110_lines_lost_refuted`: So adding a line to a file can lose the other lines, if no backup is wanted: of the file with the lines `hi` and `ho`, to which `there` should be added, only the first line remains.
* **C111, What was added can be taken back.**
  * `C111_line_refuted`: C111 is false of files without lines and of files whose last line is not ended: an empty file is left with an empty line, a missing one is left there with an empty line, and a newline is left at the end.
* **C112, Earlier wishes for a path leave no trace.**
  * `C112_directory_refuted`: C112 is false for directories that were setgid: `directory(path="/tmp/x", mode="755")` makes a directory of mode 755, but if `directory(path="/tmp/x", mode="2755")` was there before, it stays setgid, although the operation succeeds.
* **C115, Operations get the arguments that are given.**
  * `C115_by_position_refuted`: C115 is false for `check` and `name` given by position, for every operation: the call fits, and the function gets these values, but a failed result is raised although `check` is false, and the name is not shown.

## Theorems and their axioms

`p` stands for `propext`, `c` for `Classical.choice`, `q` for `Quot.sound`, `-` for no axiom.

* C01 (proved): `Verif.Wire.C01_packet_roundtrip` [c p q], `Verif.Wire.C01_receive_roundtrip` [c p q].
* C02 (proved): `Verif.Wire.C02_stream_in_sync` [c p q].
* C03 (proved): `Verif.Wire.C03_prefix_free` [c p q], `Verif.Wire.C03_injective` [c p q].
* C04 (partial): `Verif.Wire.C04_refuted` [p], `Verif.Wire.C04_truncation_refused_partial` [c p q], `Verif.Wire.C04_truncation_only_last_field_partial` [c p q].
* C05 (partial): `Verif.Wire.C05_send_iff_fits` [c p q], `Verif.Wire.C05_refuted` [p], `Verif.Wire.C05_failed_send_leaves_bytes` [c p q].
* C06 (proved): `Verif.Wire.C06_unknown_id_refused` [c p q], `Verif.Wire.C06_id_determines_kind` [p q], `Verif.Wire.C06_ids_unique` [p].
* C07 (proved): `Verif.Remote.C07_one_answer_per_request` [c p q], `Verif.Remote.C07_all_answered` [c p q], `Verif.Remote.C07_exit_stops` [c p q].
* C08 (proved): `Verif.Client.C08_outcomes` [c p q], `Verif.Client.C08_os_error_is_reported` [c p q], `Verif.Client.C08_api_os_errors` [p q], `Verif.Client.C08_api_exec_error` [p q], `Verif.Client.C08_crash_is_reported` [c p q], `Verif.Client.C08_rejected_field_shown` [c p q].
* C09 (partial): `Verif.Remote.C09_refuted` [c p q], `Verif.Remote.C09_nul_crashes_refuted` [p q], `Verif.Remote.C09_malformed_crashes_refuted` [p], `Verif.Remote.C09_survives_partial` [c p q].
* C10 (proved): `Verif.Client.C10_user_resolves` [p q], `Verif.Client.C10_user_name_wins` [c p q], `Verif.Client.C10_user_unknown` [p q], `Verif.Client.C10_user_self` [c p q], `Verif.Client.C10_user_idempotent` [c p q], `Verif.Client.C10_user_same_account` [c p q], `Verif.Client.C10_group_resolves` [p q], `Verif.Client.C10_group_name_wins` [c p q], `Verif.Client.C10_group_unknown` [p q], `Verif.Client.C10_group_self` [c p q], `Verif.Client.C10_group_idempotent` [c p q], `Verif.Client.C10_group_same_account` [c p q].
* C11 (proved): `Verif.Client.C11_download_after_upload` [p q], `Verif.Client.C11_stat_after_upload` [p q], `Verif.Client.C11_nothing_else_changed` [c p q].
* C12 (proved): `Verif.Client.C12_rejected_changes_nothing` [p], `Verif.Client.C12_refused_iff` [c p q].
* C13 (partial): `Verif.Client.C13_group_only_refuted` [c p q], `Verif.Client.C13_setuid_refuted` [c p q], `Verif.Client.C13_group_only_owner_root_refuted` [p q], `Verif.Client.C13_mode_partial` [c p q], `Verif.Client.C13_owner_partial` [p q], `Verif.Client.C13_defaults_partial` [p q].
* C14 (partial): `Verif.Client.C14_none_iff` [c p q], `Verif.Client.C14_describes` [p q], `Verif.Client.C14_mode_canonical` [c p q], `Verif.Client.C14_other_errors_raised` [p q], `Verif.Client.C14_unencodable_refuted` [p].
* C15 (proved): `Verif.Client.C15_query_changes_nothing` [p], `Verif.Client.C15_query_through_tunnel` [c p q], `Verif.Client.C15_api` [p].
* C16 (partial): `Verif.Client.C16_started_as_requested_partial` [p q], `Verif.Client.C16_invalid_not_started` [p q], `Verif.Client.C16_supplementary_groups_refuted` [c p q], `Verif.Client.C16_supplementary_groups_inherited` [c p q], `Verif.Client.C16_relative_cwd_refuted` [p].
* C17 (partial): `Verif.Client.C17_delivered_partial` [p q], `Verif.Client.C17_uncaptured_refuted` [c p q].
* C18 (proved): `Verif.Client.C18_request_transparent` [c p q], `Verif.Client.C18_tunnel_transparent` [c p q].
* C19 (partial): `Verif.Client.Lifecycle.C19_open_failure_partial` [p q], `Verif.Client.Lifecycle.C19_one_process` [p q], `Verif.Client.Lifecycle.C19_reopen_refuted` [p], `Verif.Client.Lifecycle.C19_with_block_partial` [p q], `Verif.Client.Lifecycle.C19_block_exception_kept` [p], `Verif.Client.Lifecycle.C19_identity_failure_refuted` [p], `Verif.Client.Lifecycle.C19_close_twice_refuted` [p].
* C20 (proved): `Verif.Script.C20_fields` [p], `Verif.Script.C20_neutral` [p], `Verif.Script.C20_assoc` [p], `Verif.Script.C20_idempotent` [p].
* C21 (proved): `Verif.Script.C21_defaults` [c p q], `Verif.Script.C21_run` [p].
* C22 (proved): `Verif.Script.C22_balanced` [p], `Verif.Script.C22_enter_fails` [p].
* C23 (proved): `Verif.Script.C23_equal` [c p q], `Verif.Script.C23_grammar` [c p q], `Verif.Script.C23_malformed` [p q], `Verif.Script.C23_idempotent` [c p q], `Verif.Script.C23_reported` [c p q], `Verif.Script.C23_rejected` [c p q].
* C24 (partial): `Verif.Script.C24_canonical_partial` [c p q], `Verif.Script.C24_default_partial` [c p q], `Verif.Script.C24_refuted` [c p q], `Verif.Script.C24_never_equal_refuted` [c p q].
* C25 (partial): `Verif.Script.C25_checked` [p], `Verif.Script.C25_result` [p], `Verif.Script.C25_exception` [p], `Verif.Script.C25_failure_raised` [p], `Verif.Script.C25_unchecked` [p], `Verif.Script.C25_unchecked_raises_refuted` [p].
* C26 (proved): `Verif.Script.C26_once` [p q], `Verif.Script.C26_changed` [c p q], `Verif.Script.C26_changed_key` [c p q].
* C27 (partial): `Verif.Script.C27_refuted` [p], `Verif.Script.C27_no_none_partial` [c p q], `Verif.Script.C27_unchanged_sound` [c p q], `Verif.Script.C27_missing_key` [c p q].
* C28 (proved): `Verif.Script.C28_duplicates_refused` [p q], `Verif.Script.C28_changed` [c p q], `Verif.Script.C28_no_own_state` [p q], `Verif.Script.C28_not_nested` [p].
* C29 (proved): `Verif.Ops.C29_dry_run_changes_nothing` [p q], `Verif.Ops.C29_dry_run_only_looks` [p q].
* C30 (partial): `Verif.Ops.C30_calls_partial` [c p q], `Verif.Ops.C30_deploy_partial` [c p q], `Verif.Ops.C30_linked_scripts_partial` [c p q], `Verif.Ops.C30_scripts_refuted` [p q], `Verif.Ops.C30_independent_scripts_partial` [p q], `Verif.Ops.C30_upload_dir_partial` [c p q], `Verif.Ops.C30_dry_run_predicts_partial` [p q], `Verif.Ops.C30_same_result_partial` [p q].
* C31 (proved): `Verif.Ops.C31_unchanged_changes_nothing` [c p q], `Verif.Ops.C31_unchanged_only_looks` [c p q].
* C32 (proved): `Verif.Ops.C32_wrong_type_refused` [p q].
* C33 (proved): `Verif.Ops.C33_relative_path_refused` [p q], `Verif.Ops.C33_absolute_path_accepted` [p].
* C34 (partial): `Verif.Ops.C34_directory_frame` [c p q], `Verif.Ops.C34_file_frame` [c p q], `Verif.Ops.C34_store_frame` [c p q], `Verif.Ops.C34_link_frame_partial` [c p q], `Verif.Ops.C34_link_frame_refuted` [p], `Verif.Ops.C34_line_frame` [c p q].
* C35 (partial): `Verif.Ops.C35_directory_converges_partial` [c p q], `Verif.Ops.C35_directory_removed` [c p q], `Verif.Ops.C35_mode_refuted` [p].
* C36 (partial): `Verif.Ops.C36_file_converges_partial` [c p q], `Verif.Ops.C36_file_removed` [c p q], `Verif.Ops.C36_mode_refuted` [p].
* C37 (partial): `Verif.Ops.C37_link_converges_partial` [c p q], `Verif.Ops.C37_link_removed` [c p q], `Verif.Ops.C37_target_refuted` [p], `Verif.Ops.C37_owner_refuted` [p].
* C38 (partial): `Verif.Ops.C38_store_converges_partial` [c p q], `Verif.Ops.C38_mode_refuted` [p], `Verif.Ops.C38_large_mode_refuted` [p].
* C39 (partial): `Verif.Ops.C39_upload_dir_idempotent_partial` [c p q], `Verif.Ops.C39_directory_idempotent_partial` [c p q], `Verif.Ops.C39_directory_removed_idempotent` [c p q], `Verif.Ops.C39_file_idempotent_partial` [c p q], `Verif.Ops.C39_file_removed_idempotent` [c p q], `Verif.Ops.C39_link_idempotent_partial` [c p q], `Verif.Ops.C39_link_removed_idempotent` [c p q], `Verif.Ops.C39_store_idempotent_partial` [c p q], `Verif.Ops.C39_idempotent_refuted` [p].
* C40 (partial): `Verif.Ops.C40_upload_dir_repeatable_partial` [c p q], `Verif.Ops.C40_directory_repeatable` [c p q], `Verif.Ops.C40_directory_removed_repeatable` [c p q], `Verif.Ops.C40_file_repeatable_partial` [c p q], `Verif.Ops.C40_file_removed_repeatable` [c p q], `Verif.Ops.C40_link_repeatable_partial` [c p q], `Verif.Ops.C40_link_removed_repeatable` [c p q], `Verif.Ops.C40_store_repeatable_partial` [c p q], `Verif.Ops.C40_mode_refuted` [p].
* C41 (partial): `Verif.Ops.C41_line_added` [c p q], `Verif.Ops.C41_line_break_refuted` [p].
* C42 (partial): `Verif.Ops.C42_added_exactly` [c p q], `Verif.Ops.C42_added_lines_partial` [c p q], `Verif.Ops.C42_removed_lines_partial` [c p q], `Verif.Ops.C42_terminators_refuted` [p], `Verif.Ops.C42_only_line_refuted` [p].
* C43 (partial): `Verif.Ops.C43_line_removed_partial` [c p q], `Verif.Ops.C43_matches_removed_partial` [c p q], `Verif.Ops.C43_whitespace_refuted` [p q], `Verif.Ops.C43_empty_line_refuted` [p].
* C44 (partial): `Verif.Ops.C44_backup_first` [c p q], `Verif.Ops.C44_name_refuted` [p].
* C45 (proved): `Verif.Ops.C45_metadata_kept` [c p q], `Verif.Ops.C45_new_file` [c p q].
* C46 (partial): `Verif.Ops.C46_mirrored_partial` [c p q], `Verif.Ops.C46_frame_partial` [c p q], `Verif.Ops.C46_directories_first_partial` [c p q], `Verif.Ops.C46_each_once` [p q], `Verif.Ops.C46_links_refuted` [p], `Verif.Ops.C46_dotdot_refuted` [p], `Verif.Ops.C46_slash_refuted` [p].
* C47 (partial): `Verif.Inventory.C47_precedence_partial` [c p q], `Verif.Inventory.C47_inventory_refuted` [c p q], `Verif.Ops.C47_template_sees_partial` [c p q].
* C48 (partial): `Verif.Ops.C48_acts_on_exactly` [c p q], `Verif.Ops.C48_converges` [c p q], `Verif.Ops.C48_nothing_to_do` [c p q], `Verif.Ops.C48_idempotent` [c p q], `Verif.Ops.C48_duplicates_refuted` [p].
* C49 (proved): `Verif.Ops.C49_package` [p q], `Verif.Ops.C49_service` [p q].
* C50 (partial): `Verif.Ops.C50_apt_refuted` [p q], `Verif.Ops.C50_empty_partial` [p].
* C51 (partial): `Verif.Ops.C51_converges_partial` [c p q], `Verif.Ops.C51_removed_partial` [c p q], `Verif.Ops.C51_other_accounts` [c p q], `Verif.Ops.C51_nothing_to_do` [c p q], `Verif.Ops.C51_idempotent_partial` [c p q], `Verif.Ops.C51_false_values_refuted` [p], `Verif.Ops.C51_group_by_gid_refuted` [p], `Verif.Ops.C51_duplicate_groups_refuted` [p], `Verif.Ops.C51_incomplete_account_refuted` [p], `Verif.Ops.C51_stale_membership_refuted` [p].
* C52 (partial): `Verif.Ops.C52_converges_partial` [c p q], `Verif.Ops.C52_other_groups` [c p q], `Verif.Ops.C52_nothing_to_do` [p q], `Verif.Ops.C52_idempotent` [c p q], `Verif.Ops.C52_gid_zero_refuted` [p].
* C53 (partial): `Verif.Ops.C53_daemon_reload` [p q], `Verif.Ops.C53_reaches_partial` [p q], `Verif.Ops.C53_unknown_state` [p], `Verif.Ops.C53_dry_run` [p q], `Verif.Ops.C53_nothing_to_do_partial` [p q], `Verif.Ops.C53_idempotent_partial` [p q], `Verif.Ops.C53_changed_flag_refuted` [p q], `Verif.Ops.C53_user_mode_refuted` [p], `Verif.Ops.C53_reloading_refuted` [p q].
* C54 (partial): `Verif.Ops.C54_right_origin` [p q], `Verif.Ops.C54_other_origin_fails` [p q], `Verif.Ops.C54_no_update_offline` [p q], `Verif.Ops.C54_other_origin_untouched` [c p q], `Verif.Ops.C54_no_update_untouched` [c p q], `Verif.Ops.C54_dry_run` [c p q], `Verif.Ops.C54_up_to_date_partial` [c p q], `Verif.Ops.C54_idempotent_partial` [c p q], `Verif.Ops.C54_other_branch_refuted` [p], `Verif.Ops.C54_tag_refuted` [p], `Verif.Ops.C54_other_origin_unnoticed_refuted` [p].
* C55 (proved): `Verif.Inventory.C55_rank_sort` [c p q], `Verif.Inventory.C55_order` [c p q], `Verif.Inventory.C55_cycle_rejected` [c p q].
* C56 (proved): `Verif.Inventory.C56_same_constraints` [c p q], `Verif.Inventory.C56_before_is_after` [c p q], `Verif.Inventory.C56_self_rejected` [c p q], `Verif.Inventory.C56_unknown_rejected` [c p q].
* C57 (proved): `Verif.Inventory.C57_loads_iff_valid` [c p q], `Verif.Inventory.C57_value_error` [c p q], `Verif.Inventory.C57_names` [c p q].
* C58 (proved): `Verif.Inventory.C58_all_first` [c p q], `Verif.Inventory.C58_before_all_rejected` [c p q].
* C59 (proved): `Verif.Inventory.C59_last_definition` [c p q], `Verif.Inventory.C59_declaration` [c p q], `Verif.Inventory.C59_inventory` [c p q], `Verif.Inventory.C59_inventory_variables` [c p q], `Verif.Inventory.C59_script` [c p q], `Verif.Inventory.C59_load` [c p q].
* C60 (partial): `Verif.Inventory.C60_apart_partial` [c p q], `Verif.Inventory.C60_same_rank_rejected_partial` [c p q], `Verif.Inventory.C60_different_rank_refuted` [p q], `Verif.Inventory.C60_ordered_refuted` [p q], `Verif.Inventory.C60_set_order_refuted` [p q], `Verif.Inventory.C60_value_refuted` [p q], `Verif.Inventory.C60_declaration_refuted` [p q].
* C61 (partial): `Verif.Run.C61_stack_and_indentation` [p q], `Verif.Run.C61_script_and_directory_partial` [p q], `Verif.Run.C61_script_and_directory_refuted` [p].
* C62 (partial): `Verif.Run.C62_recursive_allowed` [p], `Verif.Run.C62_recursion_refuted` [p].
* C63 (partial): `Verif.Run.C63_values` [c p q], `Verif.Run.C63_required_partial` [c p q], `Verif.Run.C63_required_refuted` [p q].
* C64 (proved): `Verif.Run.C64_wanted` [p q], `Verif.Run.C64_unknown` [c p q], `Verif.Run.C64_known` [c p q], `Verif.Run.C64_all` [c p q].
* C65 (partial): `Verif.Inventory.C65_keeps_schema` [p q], `Verif.Inventory.C65_idempotent` [p q], `Verif.Inventory.C65_round_trip` [p q], `Verif.Inventory.C65_local` [p q], `Verif.Inventory.C65_other_schemas` [p q], `Verif.Inventory.C65_port_refuted` [-].
* C66 (partial): `Verif.Inventory.C66_declared_hosts` [c p q], `Verif.Inventory.C66_destination` [p q], `Verif.Inventory.C66_hostname_partial` [p q], `Verif.Inventory.C66_hostname_refuted` [p], `Verif.Inventory.C66_ipv6_refuted` [-], `Verif.Inventory.C66_connector` [p q], `Verif.Inventory.C66_schemas` [p q].
* C67 (partial): `Verif.Inventory.C67_read_back_partial` [c p q], `Verif.Inventory.C67_others` [c p q], `Verif.Inventory.C67_module_shadows` [c p q], `Verif.Inventory.C67_read_back_refuted` [p q].
* C68 (partial): `Verif.Inventory.C68_no_private` [c p q], `Verif.Inventory.C68_agree_partial` [c p q], `Verif.Inventory.C68_agree_no_script` [c p q], `Verif.Inventory.C68_host_shadows` [c p q], `Verif.Inventory.C68_agree_refuted` [p q].
* C69 (partial): `Verif.Script.C69_download_any_answer` [p], `Verif.Script.C69_download_or` [p q], `Verif.Script.C69_query_group` [p q], `Verif.Script.C69_query_user_partial` [p q], `Verif.Script.C69_query_user_refuted` [c p q], `Verif.Script.C69_home_dir` [p q], `Verif.Script.C69_home_dir_self` [c p q], `Verif.Script.C69_getenv` [p].
* C70 (proved): `Verif.Ops.C70_arguments_are_not_options` [c p q].
* C71 (partial): `Verif.Run.C71_unchanged` [p q], `Verif.Run.C71_cut` [p q], `Verif.Run.C71_width_partial` [p q], `Verif.Run.C71_width_refuted` [p q], `Verif.Run.C71_indentation` [p q].
* C72 (partial): `Verif.Inventory.C72_isolated_partial` [c p q], `Verif.Inventory.C72_isolated_refuted` [p q].
* C73 (proved): `Verif.Run.C73_runs_in_own_directory` [p], `Verif.Run.C73_runs` [p q], `Verif.Run.C73_not_run` [p q].
* C74 (proved): `Verif.Run.C74_exception_has_stack` [p q], `Verif.Run.C74_innermost` [p q], `Verif.Run.C74_own_stack` [p q].
* C75 (partial): `Verif.Run.C75_harmless_partial` [c p q], `Verif.Run.C75_text` [c p q], `Verif.Run.C75_escapes` [c p q], `Verif.Run.C75_printable_refuted` [p], `Verif.Run.C75_distinct_refuted` [p].
* C76 (proved): `Verif.Ops.C76_only_what_was_asked` [p q], `Verif.Ops.C76_upload_dir` [p q].
* C77 (partial): `Verif.Inventory.C77_single_host` [c p q], `Verif.Inventory.C77_host_name` [c p q], `Verif.Inventory.C77_module` [c p q], `Verif.Inventory.C77_fatal_refuted` [p q].
* C78 (partial): `Verif.Ops.C78_one_summary_partial` [p q], `Verif.Ops.C78_upload_dir_partial` [p q], `Verif.Ops.C78_upload_dir_arguments_refuted` [p], `Verif.Ops.C78_search_refuted` [p].
* C79 (proved): `Verif.Ops.C79_stored_diff` [c p q], `Verif.Ops.C79_line_diff` [c p q].
* C80 (proved): `Verif.Client.C80_upload` [c p q], `Verif.Client.C80_run` [c p q], `Verif.Client.C80_accounts` [p q], `Verif.Client.C80_download` [p q].
* C81 (partial): `Verif.Ops.C81_directory` [c p q], `Verif.Ops.C81_file` [c p q], `Verif.Ops.C81_link` [c p q], `Verif.Ops.C81_content` [c p q], `Verif.Ops.C81_line` [c p q], `Verif.Ops.C81_user` [c p q], `Verif.Ops.C81_group` [p q], `Verif.Ops.C81_packages` [c p q], `Verif.Ops.C81_service_partial` [p q], `Verif.Ops.C81_reload` [p], `Verif.Ops.C81_repo` [c p q], `Verif.Ops.C81_user_mode_refuted` [p], `Verif.Ops.C81_reloading_refuted` [p q].
* C82 (partial): `Verif.Run.C82_values` [c p q], `Verif.Run.C82_text` [c p q], `Verif.Run.C82_failed` [c p q], `Verif.Run.C82_no_changes` [c p q], `Verif.Run.C82_changes_shown_partial` [c p q], `Verif.Run.C82_verbose` [c p q], `Verif.Run.C82_brief` [p q], `Verif.Run.C82_unchanged` [c p q], `Verif.Run.C82_diffs` [c p q], `Verif.Run.C82_no_diffs` [p q], `Verif.Run.C82_early` [p q], `Verif.Run.C82_completes` [c p q], `Verif.Run.C82_no_color_partial` [p q], `Verif.Run.C82_no_color_refuted` [p q], `Verif.Run.C82_changes_shown_refuted` [p], `Verif.Run.C82_escapes_refuted` [p].
* C83 (partial): `Verif.Ops.C83_calls_complete` [c p q], `Verif.Ops.C83_calls_idempotent_partial` [c p q], `Verif.Ops.C83_calls_resumable_partial` [c p q], `Verif.Ops.C83_deploy_complete` [c p q], `Verif.Ops.C83_deploy_idempotent_partial` [c p q], `Verif.Ops.C83_deploy_resumable_partial` [c p q], `Verif.Ops.C83_same_path_refuted` [p], `Verif.Ops.C83_removed_way_refuted` [p].
* C84 (proved): `Verif.Ops.C84_diff_only_looks` [c p q], `Verif.Ops.C84_display_host` [p q], `Verif.Ops.C84_scripts_host` [p q], `Verif.Program.C84_program` [p q].
* C85 (partial): `Verif.Inventory.C85_rows` [c p q], `Verif.Inventory.C85_order` [c p q], `Verif.Inventory.C85_defined_by_partial` [c p q], `Verif.Inventory.C85_none_refuted` [c p q], `Verif.Inventory.C85_deleted_refuted` [c p q].
* C86 (partial): `Verif.Run.C86_succeeds` [c p q], `Verif.Run.C86_lines` [c p q], `Verif.Run.C86_columns` [p q], `Verif.Run.C86_heading` [p q], `Verif.Run.C86_fit_refuted` [c p q], `Verif.Inventory.C86_origins` [p q], `Verif.Inventory.C86_inspection` [c p q].
* C87 (proved): `Verif.Run.Init.C87_consent` [c p q], `Verif.Run.Init.C87_contained` [c p q], `Verif.Run.Init.C87_success` [c p q], `Verif.Run.Init.C87_usable` [c p q], `Verif.Run.Init.C87_modules` [c p q], `Verif.Run.Init.C87_fresh` [c p q], `Verif.Run.Init.C87_choices` [c p q], `Verif.Run.Init.C87_resume` [c p q].
* C88 (partial): `Verif.Program.C88_independent` [c p q], `Verif.Program.C88_connections` [p q], `Verif.Program.C88_left_behind` [p q], `Verif.Program.C88_dry_run` [c p q], `Verif.Program.C88_reports` [c p q], `Verif.Program.C88_deployed_partial` [c p q], `Verif.Program.C88_again_partial` [c p q], `Verif.Program.C88_resumed_partial` [c p q], `Verif.Program.C88_predicted_partial` [c p q].
* C89 (partial): `Verif.Inventory.C89_paths_partial` [p q], `Verif.Inventory.C89_default_partial` [p q], `Verif.Inventory.C89_distinct` [p q], `Verif.Inventory.C89_only_modules` [c p q], `Verif.Inventory.C89_explicit` [c p q], `Verif.Inventory.C89_inside_refuted` [p q].
* C90 (proved): `Verif.Run.C90_run` [c p q], `Verif.Run.C90_dry` [c p q], `Verif.Run.C90_asked` [c p q], `Verif.Run.C90_immediate` [c p q], `Verif.Run.C90_ambiguous` [c p q], `Verif.Program.C90_dry_hosts` [c p q], `Verif.Program.C90_only_hosts` [c p q].
* C91 (proved): `Verif.Active.C91_modules` [c p q], `Verif.Active.C91_scripts` [c p q], `Verif.Active.C91_order` [c p q], `Verif.Active.C91_swapped` [p q], `Verif.Active.C91_without_inventory` [p q], `Verif.Active.C91_module_error` [p q].
* C92 (partial): `Verif.Failure.C92_report_partial` [c p q], `Verif.Failure.C92_traceback` [c p q], `Verif.Failure.C92_site` [p q], `Verif.Failure.C92_escaped_refuted` [p], `Verif.Failure.C92_uncaptured_refuted` [p q].
* C93 (partial): `Verif.Pipes.C93_every_schedule_partial` [c p q], `Verif.Pipes.C93_unfed_hangs` [c p q], `Verif.Pipes.C93_daemon_hangs` [c p q], `Verif.Pipes.C93_unfed_refuted` [c p q], `Verif.Pipes.C93_daemon_refuted` [c p q], `Verif.Pipes.C93_leftover_refuted` [c p q].
* C94 (partial): `Verif.Ops.C94_site_complete_partial` [c p q], `Verif.Ops.C94_site_idempotent_partial` [c p q], `Verif.Ops.C94_site_resumable_partial` [c p q], `Verif.Ops.C94_interference_refuted` [c p q].
* C95 (partial): `Verif.Program.C95_deployed_partial` [c p q], `Verif.Program.C95_again_partial` [c p q], `Verif.Program.C95_resumed_partial` [c p q], `Verif.Program.C95_login_refuted` [c p q].
* C96 (partial): `Verif.Ops.C96_password_partial` [c p q], `Verif.Ops.C96_contents` [p], `Verif.Ops.C96_line` [p q], `Verif.Ops.C96_hashes` [p q], `Verif.Ops.C96_password_refuted` [p].
* C97 (partial): `Verif.Ops.C97_lines` [c p q], `Verif.Ops.C97_again` [c p q], `Verif.Ops.C97_order` [c p q], `Verif.Ops.C97_predicted` [c p q], `Verif.Ops.C97_resumable_partial` [c p q], `Verif.Ops.C97_conflict_refuted` [p], `Verif.Ops.C97_full_disk_refuted` [p].
* C98 (partial): `Verif.Client.Bootstrap.C98_ssh` [c p q], `Verif.Client.Bootstrap.C98_command` [p q], `Verif.Client.Bootstrap.C98_only_tools` [p q], `Verif.Client.Bootstrap.C98_local` [p], `Verif.Client.Bootstrap.C98_python3_refuted` [p].
* C99 (partial): `Verif.Ops.C99_commit_partial` [c p q], `Verif.Ops.C99_submodules_partial` [p q], `Verif.Ops.C99_submodules_refuted` [p].
* C100 (proved): `Verif.Ops.C100_dry_run_only_looks` [p q], `Verif.Ops.C100_dry_run_changes_nothing` [p q], `Verif.Ops.C100_screen_only_looks` [c p q], `Verif.Ops.C100_screen_changes_nothing` [c p q], `Verif.Ops.C100_defaults` [p q], `Verif.Program.C100_run_screen` [c p q].
* C101 (partial): `Verif.Ops.C101_files_partial` [c p q], `Verif.Ops.C101_many_partial` [p q], `Verif.Ops.C101_many_files_partial` [c p q], `Verif.Ops.C101_dry_runs_unnoticed` [p q], `Verif.Ops.C101_serial_partial` [p q], `Verif.Ops.C101_lost_line_refuted` [p].
* C102 (proved): `Verif.Ops.C102_no_memory` [p], `Verif.Ops.C102_as_if_first` [p q], `Verif.Ops.C102_left_out` [p q].
* C103 (partial): `Verif.Ops.C103_exchangeable_partial` [c p q], `Verif.Ops.C103_files_partial` [c p q].
* C104 (proved): `Verif.Program.C104_split` [c p q].
* C105 (proved): `Verif.Program.C105_one_by_one` [c p q], `Verif.Program.C105_any_order` [c p q].
* C106 (proved): `Verif.Ops.C106_effort` [c p q], `Verif.Ops.C106_deploy` [c p q].
* C107 (proved): `Verif.Ops.C107_alternatives` [p], `Verif.Ops.C107_noticed` [c p q], `Verif.Ops.C107_returned` [c p q], `Verif.Ops.C107_script` [c p q].
* C108 (partial): `Verif.Inventory.C108_documented` [p q], `Verif.Inventory.C108_malformed_partial` [p q], `Verif.Inventory.C108_text_for_groups_refuted` [p], `Verif.Inventory.C108_text_is_letters` [p q], `Verif.Inventory.C108_number_for_name_refuted` [p], `Verif.Inventory.C108_value_error_refuted` [p].
* C109 (partial): `Verif.Ops.C109_bits` [c p q], `Verif.Ops.C109_readers_partial` [c p q], `Verif.Ops.C109_existing_refuted` [p q], `Verif.Ops.C109_group_refuted` [p q].
* C110 (partial): `Verif.Ops.C110_store` [c p q], `Verif.Ops.C110_line_added` [c p q], `Verif.Ops.C110_line_removed` [c p q], `Verif.Ops.C110_atomic_refuted` [p], `Verif.Ops.C110_lines_lost_refuted` [p].
* C111 (partial): `Verif.Ops.C111_file` [c p q], `Verif.Ops.C111_store` [c p q], `Verif.Ops.C111_directory` [c p q], `Verif.Ops.C111_link` [c p q], `Verif.Ops.C111_group` [c p q], `Verif.Ops.C111_user_partial` [c p q], `Verif.Ops.C111_line_partial` [c p q], `Verif.Ops.C111_line_refuted` [p].
* C112 (partial): `Verif.Ops.C112_store_partial` [c p q], `Verif.Ops.C112_removed` [c p q], `Verif.Ops.C112_file_partial` [c p q], `Verif.Ops.C112_directory_partial` [c p q], `Verif.Ops.C112_directory_refuted` [p].
* C113 (proved): `Verif.Inventory.C113_overview` [c p q], `Verif.Inventory.C113_groups` [c p q].
* C114 (proved): `Verif.Run.Transcript.C114_script` [c p q], `Verif.Run.Transcript.C114_run` [c p q], `Verif.Run.Transcript.C114_exactly` [p q], `Verif.Run.Transcript.C114_determined` [p].
* C115 (partial): `Verif.Script.C115_values` [c p q], `Verif.Script.C115_wrong_arguments` [c p q], `Verif.Script.C115_settings_partial` [c p q], `Verif.Script.C115_by_position_refuted` [p q].
