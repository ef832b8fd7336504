{
 "C04": "False as stated: C04_refuted gives the witness (a payload cut short is accepted). The partial theorems cover packets ending in a fixed-size field and bound the damage for all others.",
 "C05": "First half proved. Second half (connection stays usable) is false of the code: C05_refuted.",
 "C09": "False as stated: C09_refuted, C09_nul_crashes_refuted and C09_malformed_crashes_refuted give requests that end the dispatcher. C09_survives_partial proves it for requests without NUL bytes, with a non-empty command and an in-range mode.",
 "C13": "False as stated: refuted three ways (group without owner makes root the owner; setuid lost when an owner is given). The partial theorems characterise mode, owner and group for everything else.",
 "C14": "C14_none_iff, C14_describes and C14_other_errors_raised prove it for encodable paths; C14_unencodable_refuted shows that a path that cannot be encoded is reported as missing although it exists.",
 "C16": "False for supplementary groups and relative working directories (refuted); user, group, umask, absolute cwd and the refusal of invalid arguments are proved.",
 "C17": "Proved for captured output; C17_uncaptured_refuted: without capturing, a command can forge the response.",
 "C19": "False as stated: C19_reopen_refuted, C19_identity_failure_refuted and C19_close_twice_refuted give the witnesses. The partial theorems cover a first open and the with block once it is entered.",
 "C21": "The outermost context must have been entered: without any defaults block the script's stack holds empty settings and commands run without user, umask or cwd (C21_run with an empty top).",
 "C24": "False for inventories that override the modes (C24_refuted); proved for canonical modes, in particular the default settings.",
 "C25": "All parts proved; the documented effect of check=False on raised OperationErrors is false (C25_unchecked_raises_refuted).",
 "C27": "False as documented (C27_refuted); proved if no final value is None.",
 "C69": "download_or, query_group, home_dir and getenv proved; query_user is false for accounts without a primary group (C69_query_user_refuted), proved for all others.",
 "C30": "For every operation except upload_dir proved for any remote that answers the dry run's queries as it answers the real run's. For upload_dir, whose dry run does not find what the real run has created, proved for ordinary hosts with a proper file system on which faults of reading do not depend on other files (hence _partial). The state after the dry run is that after the real run, so that both print the same summaries. The same is proved for scripts of several operations on files, directories, links and directory trees. It is also proved for scripts of any operations other than upload_dir, if whatever a later operation looks at is the same before the script and after the earlier operations. For scripts in general the statement is refuted: an operation looks up the owner and group it is given in dry runs too, so a script that first creates an account and then gives a directory to it succeeds, but its dry run ends with a ValueError.",
 "C70": "Hypotheses: the inventory's base settings and the names that the remote resolves do not start with '-'. The options argument of apt, pacman and portage is exempt by design.",
 "C34": "For a host whose programs are the modelled standard tools. directory, file and the uploading operations proved; link is false where the path leads to a directory (C34_link_frame_refuted: ln -sf creates the link inside), proved otherwise.",
 "C35": "False for the mode if setuid/setgid bits are inherited (C35_mode_refuted); owner, group, kind, all other bits, and the exact mode without such bits are proved.",
 "C36": "False for setuid/setgid (C36_mode_refuted: the chown after the chmod clears them); everything else proved.",
 "C37": "False for a link that leads to a directory and for the owner if only the target is changed (both refuted); proved otherwise.",
 "C38": "False for setuid/setgid and for modes beyond 7777 (refuted); proved otherwise, for all four operations.",
 "C39": "False in general (C39_idempotent_refuted); proved for directory, file, link, upload_dir and the uploading operations where they converge, if the default modes are canonical, accounts have no aliases, an owner and group are in force, and touch is not requested. Removal proved without these conditions.",
 "C40": "Proved for every interruption point (request lost, or answer lost) and every failure of a tool, for directory, removal, and for the others (including upload_dir, whose trees may be interrupted anywhere) under the conditions under which they converge; false for setuid files (C40_mode_refuted).",
 "C41": "Proved for every proper line (text without a line break); false for a text that contains a line break, which is added on every run (refuted).",
 "C42": "Adding: exact bytes proved for files whose only line breaks are newlines; removing: all other lines stay. False for other line breaks and for the last remaining line (both refuted).",
 "C43": "Proved for lines that are not blank and, with ignore_whitespace, have no surrounding whitespace; and for regular expressions. False otherwise (both refuted).",
 "C44": "The copy is made first, proved for every interruption. The default name differs from the documented one (refuted).",
 "C65": "Proved for all host names with an optional user. C65_port_refuted: 'host:22' is taken for a url with the schema 'host', so that no ssh url results.",
 "C66": "The destination given to ssh is proved for all urls. C66_hostname_refuted: extract_hostname cuts two characters from 'ssh:host'; C66_ipv6_refuted: the name of 'ssh://[::1]:22' is '['. C66_hostname_partial is the case in which the name is right. C66_declared_hosts: the hosts of an inventory that loads are those declared, and are connected to by the url that was declared.",
 "C58": "early-explicits stands for the variables of the host declaration. It is ordered before 'all' only if 'all' is not declared, explicitly or by use (MustPrecede.early).",
 "C47": "Explicit context variables win over the host's, proved for all contexts. C47_inventory_refuted: templates see the host under the name `inventory`.",
 "C67": "A value assigned to a wrapper is read back when the module does not define the name. C67_read_back_refuted: names with one underscore are written to one place and read from another.",
 "C68": "vars_hierarchical and attribute access agree for variables that are set at the host. C68_agree_refuted: they differ if the host has an imported module of the same name as a variable of the script.",
 "C59": "The module body is any function of the variables it is given and the content of objects. `all` counts as defined before all other groups. A variable called `host` is defined by fora itself for every module.",
 "C60": "Two groups of equal rank that set a variable to different objects other than None are rejected, proved for all inventories (C60_same_rank_rejected_partial), and what is checked in general is C60_apart_partial. The claim itself is refuted: C60_different_rank_refuted, C60_ordered_refuted, C60_set_order_refuted, C60_value_refuted, C60_declaration_refuted.",
 "C72": "Proved for modules that do not change existing objects. C72_isolated_refuted: objects of the inventory are shared by all hosts.",
 "C61": "The stack and the indentation are restored however the script ends. The active script and the working directory are if the previous working directory still exists and may be entered; otherwise os.chdir in the finally block raises and they are left as the script had them (refuted in general).",
 "C62": "False of the code: definition_file() of a running script is its directory, so no script file is ever the same file. Proved: with recursive=True the check never refuses; refuted: a script that calls itself is run.",
 "C63": "Values and errors are proved for all declarations and parameters. Names that every class has as attributes, such as mro, count as having a default (refuted).",
 "C71": "Proved for every width of at least 1; refuted for a width of 0. That indentation is balanced is C61_stack_and_indentation.",
 "C75": "No line breaks or control characters for all bytes; text is unchanged. Refuted: other characters that are not printable are not escaped, and different content may look the same.",
 "C48": "Proved for pacman, portage and apt against a specification of the package managers (query, install and remove); with duplicate names in the list the changed flag is true although nothing is done (refuted).",
 "C49": "The shell fragment used to probe for commands is given a semantics; proved for every host that follows it.",
 "C50": "Refuted: dpgk-query is not a command, so apt.package fails on every host that has no such command, whatever is installed. Proved: with an empty list of packages it does nothing.",
 "C52": "Proved against a specification of groupadd, groupmod and groupdel. Convergence excludes the gid 0, for which it is refuted; idempotence and the frame hold for every gid. Names made of digits, which are taken for gids, are excluded.",
 "C51": "user(): convergence, removal, frame and idempotence for all databases and arguments, given a specification of useradd/usermod/userdel (UserTools, shown to be met by a model of them). Excluded and refuted: values Python takes for false, groups given by gid, groups given twice, accounts without a password entry, groups that already list a user that does not exist.",
 "C53": "systemd.service on a host whose systemctl keeps to a specification (Systemd, shown to be met by a model of it). Refuted: the changed flag is always true if only one of state/enabled is given; with user_mode the state of the system unit is looked at; a unit that is reloading is taken for stopped. daemon_reload: every trace is one daemon-reload command of the right instance, none in a dry run.",
 "C54": "Trace level, for every answer of the host: commands that can change something run only after the origin was reported equal to url (or the path did not exist), never in a dry run; another origin makes the operation fail; update=False with an existing path runs only rev-parse. Host level (git as a specification, upstream constant during the run): a clone of another url is untouched, dry runs change nothing, after success the checked-out commit is the upstream commit (fresh clones: any ref; existing clones: if the checked-out branch follows the requested one, without local commits), and a second run has no effect (branches). Refuted: branches are never switched although success is reported; annotated tags fail on the second run; another origin goes unnoticed in dry runs or at the same commit. git is assumed to print ASCII words for commit ids and origins.",
 "C46": "Proved on ordinary hosts for trees with proper file names: every entry is mirrored, nothing else is touched, at any interruption the parents are there first; every path occurs once (for all answers). Refuted for symlinks to files, for sources ending in '..' and for destinations starting with '//'.",
 "C29": "Proved for all answers (only queries are sent) and on the host (the file system is the same afterwards).",
 "C31": "Proved for all answers (no modifying request) and on the host (the file system is the same afterwards).",
 "C76": "C76_only_what_was_asked ranges over every operation but upload_dir, with the allowed commands spelled out in Ops/AuthoritySpec.lean; C76_upload_dir is the same for upload_dir, for source trees with ordinary file names and destinations given by a normal path. Which mode, owner or content is right is the subject of C35 to C46.",
 "C77": "C77_single_host and C77_host_name for single hosts, C77_module for modules, which are black boxes; C77_fatal_refuted shows the exception that is not turned into a FatalError.",
 "C26": "Proved for all sequences of calls. success() also raises a KeyError, unless --no-changes is given, if the final state has a value under a key that the initial state lacks: the summary that it prints looks every key up in both.",
 "C78": "For every execution of every operation, whatever the answers. Refuted for argument errors of upload_dir, and for package/service if the search for a manager raises an exception (C78_search_refuted); both print nothing. These are the only exceptions.",
 "C79": "The new side of the diff is tied to what a real run (with any schedule of connection errors) leaves on the host, assuming that the checksum of the wanted content is not that of another content (for uploads), and that the path of a backup is not occupied by something else (for line). How the diff is formatted by difflib is not modelled.",
 "C80": "C80_upload, C80_run, C80_accounts, C80_download: whichever arguments are wrong, the message blames one that is. Other failures of the dispatcher (for example chown refused by the kernel) are passed on as RemoteOSError and are not part of this claim.",
 "C81": "C81_directory, C81_file, C81_link, C81_content, C81_line, C81_user, C81_group, C81_packages, C81_reload, C81_repo and C81_service_partial give both states key by key, over any schedule of lost connections. upload_dir reports the results of its parts, each of which is a directory or content operation. For user the arguments must not be falsy (uid 0, empty texts; see C47). False: C81_user_mode_refuted (the states of the system unit are reported for a user unit) and C81_reloading_refuted.",
 "C82": "Proved for all results and options: the text without colours is exactly the documented lines. False for values that become None (nothing is shown although the result says changed), for diffs with --no-color (they are always coloured), and values are printed unescaped. The diff algorithm and Python's repr are arguments.",
 "C83": "Proved for scripts of directory, file and link (also with present=False), upload, upload_content, template, template_content and upload_dir calls on different paths below directories that are not symbolic links, under the conditions of C39 and C40 for single operations; where a link is asked for there is nothing, or a link to the same target. False if two operations disagree about one path (C83_same_path_refuted) or one removes what is on the way of another (C83_removed_way_refuted). For upload_dir see the theorems C83_calls_*.",
 "C84": "Proved for all operations and lists of operations, for scripts with any control flow whose own code does not look at these options, and for runs of the whole program. On the host it is assumed that a file that stat does not find is not found when opened either; without that assumption, and for connections that break, the theorem over all answers says what may differ. The options -v, --no-color and --debug only occur in the text of summaries (Run/Report.lean).",
 "C85": "Proved: inspection succeeds, shows every public variable with the value a script finds, in the stated order, and names the right modules for variables that are used in the ordinary way. Partial because the full statement is false: variables that are None all of the time and deleted variables are attributed wrongly (refuted theorems).",
 "C86": "Proved for all tables and terminals. Partial because the claim that columns are aligned whenever the terminal is wide enough is false (refuted theorem); a sufficient condition is proved instead.",
 "C87": "Proved for all directories without symbolic links. The texts of the files are a parameter. Interruption is possible before every system call.",
 "C88": "The statements about arbitrary scripts are proved without conditions on the hosts (dry runs and reports: programs that are for looking change nothing). Those about what is asked for, repetition, resumption and prediction are proved under the conditions of C83 and C30 on each host. Two hosts of an inventory are assumed to be two machines.",
 "C89": "False for names that begin with a slash (C89_inside_refuted); C89_paths_partial, C89_only_modules and C89_explicit hold for all other names and the usual directories.",
 "C90": "An iff between the parser and a grammar of command lines (Means); the semantics of argparse (abbreviations, clusters such as -vH, name=value, --) is modelled as in Python up to 3.11, see Run/Cmdline.lean for simplifications. C90_dry_hosts and C90_only_hosts are about the whole program, from the command line to the hosts.",
 "C91": "User code is a tree of calls whose continuations see the outcomes, so it may depend on them and handle exceptions; user code that assigns to the variables of fora itself, and threads, are not modelled.",
 "C92": "C92_report_partial needs captured output: C92_uncaptured_refuted shows that an uncaptured failure is reported as an AttributeError. C92_escaped_refuted: the heading promises escaping, but control characters of the output reach the terminal. The text of a command is that of a list, so it begins with a bracket (91). The format of tracebacks is the interpreter's. Chained exceptions are not modelled.",
 "C93": "C93_every_schedule_partial needs commands that leave the connection alone (Cmd.Calm): they read only input that was given to them, print without capturing only to standard error, end, and leave no process behind that uses a stream shared with them. C93_unfed_hangs and C93_daemon_hangs show for every host, program and schedule that commands without input that read, and commands that leave a process with their captured output, are never answered; C93_unfed_refuted, C93_daemon_refuted and C93_leftover_refuted refute the general claim. Commands change the host when they start; behaviours of commands are well-founded trees plus staying forever.",
 "C94": "The full statement is false: C94_interference_refuted. The partial theorems assume that no command that a later call may run (Item.Runs) undoes what an earlier call achieved (Compatible), arguments for which the single operations are correct (Item.Proper; see C48, C51, C52, C53, C54, C83, C99 for what is excluded), an ordinary host (Orderly), and, for the reports of the second run, services with both a state and whether to enable them (Item.Full).",
 "C95": "The full statement is false, see C94 and C95_login_refuted. The partial theorems assume, for each host that is asked for, what C94 assumes for a single script (Plan, Manageable), and that no command that the calls may run takes away the account that is logged in with. Two hosts of an inventory are assumed to be two machines.",
 "C96": "C96_contents relates two scripts whose operations differ in the contents that they store only (SameScript in Ops/SecrecySpec.lean): the requests are the same but for these contents, and so are the result and all that is printed. Titles of operations are not modelled; they are built from names and paths. C96_hashes: only user() asks for hashes. C96_password_refuted: user() prints the hash of an existing account with -v, even if the script mentions none. C96_password_partial: without -v, a user() that sets no password makes the same requests, prints the same and ends in the same way whatever the hash is; missing are runs with -v, for which this is false.",
 "C97": "LineCall (Ops/LinesSpec.lean) is a call of files.line() without regex and backup. Proper lines are those for which a single call works (C41, C43): text without a line break, not blank, without surrounding whitespace if whitespace is ignored when removing. C97_resumable_partial assumes that the file exists and that writing to an opened file does not fail. C97_conflict_refuted: calls that contradict each other change the file in every run. C97_full_disk_refuted: if the disk is full, the other lines are lost for good, since the file is truncated before it is written.",
 "C98": "Client/Shell.lean specifies the part of the POSIX shell language and of base64 that is needed (the environment, trusted); Client/Bootstrap.lean models the code. zlib is a parameter with decompress (compress x) = x. The limit of the operating system on the size of an argument is not modelled. C98_python3_refuted: a host on which Python is only called python3 executes an empty program. C98_ssh needs a program called python.",
 "C99": "git is a specification (GitHost of C54; GitFailures: a command of git that fails leaves the clone as it was). C99_commit_partial: branches only, and existing clones have the given url, follow the requested branch and have no commits of their own. C99_submodules_partial: whenever a change is reported. C99_submodules_refuted: success without submodules after an interruption, or if there already was a clone without them.",
 "C100": "Scripts are built from operations, code that only looks (any code that leaves the host alone and prints no summaries, including queries of the connection), sequencing, exception handlers, blocks of defaults and calls of other scripts. The statements about the host assume that programs that only look do not change it. Scripts that run commands directly on the connection (fora.host.connection.run) are not covered: these are executed in dry runs too. C88_dry_run and C90_dry_hosts are proved for the same scripts.",
 "C101": "Runs take turns, one request at a time: a request is dealt with before the next one, of whichever run. Both dispatchers run as the same user. Assumed: what programs do does not depend on the history of processes (which exists in the model only). The claim about real runs is refuted by a schedule of two calls of line(); it is proved for any number of runs whose requests can be exchanged, and for scripts about files and directories at different places (no symbolic links on the way, no links asked for, and errors of the environment about one path do not depend on what is at the places of the other script).",
 "C102": "Scripts are made of operations and code of the user by sequencing, handlers of exceptions, blocks of defaults and nested scripts; the user's own code is assumed to look at nothing but the host, the settings in force and the options (code that keeps a memory of its own is of course not covered). Operations are those of `Operation` in Ops/Spec.lean (all of the package).",
 "C103": "Proved for any number of parts whose requests can be exchanged (whatever operations they call), and for parts that create, fill and remove files and directories on an ordinary host, on the assumptions of C101_many_files_partial (no symbolic links on the way, none asked for, the working directory is not concerned, errors of the environment about one path do not depend on what is at other places), and if the connection is not lost. Not proved for parts that ask for symbolic links, accounts, packages, services or repositories.",
 "C104": "That the settings stay the same is a hypothesis: it can fail if the first part removes or renames the login account, or removes the working directory.",
 "C105": "The hosts are different machines and the scripts share nothing but what is modelled (that modules executed for one host may change objects that another host sees is C72_isolated_refuted).",
 "C106": "The number of requests, not the time that the host takes for each of them. The table of limits is Effort in Ops/EffortSpec.lean. Scripts are lists of operations.",
 "C107": "What succeeding and failing means is in Ops/FailSpec.lean. Scripts are lists of operations; a script that catches exceptions may go on.",
 "C108": "Partial: that only documented types are accepted is refuted - a text given for groups is taken for the list of its letters, a number is accepted as a name - and rejections need not be ValueErrors. What is rejected is proved for every position and every other content.",
 "C109": "Partial: the statement about readers is refuted for files that others could read before (the content is written before the mode is set), and for groups (the mode is set before the group is). The statement about bits is proved in full; the one about readers for new files and for files that were private.",
 "C110": "Partial: that the file always has the complete old or the complete new content is refuted (files are overwritten in place, so an interrupted line() without backup can lose other lines). That there is nothing but the old content or a beginning of the new one is proved in full.",
 "C111": "Partial: that line() gives back the same bytes is refuted (an absent or empty file is left with one empty line, and a missing final newline is left added). Files, directories, links, stored content and groups are proved in full; for users the first operation must have succeeded, the arguments be plain and no group have the name as a stale member, and nothing is said about a group of the account's own name.",
 "C112": "Partial: refuted for directories that were setuid or setgid (chmod with a numeric mode does not clear these bits on directories, and the operation succeeds nevertheless). Proved for directories if earlier modes have no such bits, for files and stored content if the last mode has none (see C13 for these), and for removal without restriction.",
 "C113": "Names and texts that begin with a control sequence are excluded (Texts.Readable): print_table takes them for colours. What is true of the rows of the tables is C85, of their columns C86.",
 "C114": "The standard error (output of failed commands, debug output) is not modelled; it may share the screen. That every operation has exactly one summary is C78, what a summary says is C82.",
 "C115": "C115_values, C115_wrong_arguments for all operations of the table in Script/Args.lean; C115_settings_partial if check and name are not given by position; C115_by_position_refuted shows for every operation that they are ignored if they are. package and service of fora.operations.system are plain functions that pass both on by name."
}