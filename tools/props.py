import json
P=[]
def p(title, statement, quantifier, why, anchors):
    P.append(dict(id=f"C{len(P)+1:02d}",title=title,statement=statement,quantifier=quantifier,why_tests_cant=why,anchors=anchors))
TD="src/fora/connectors/tunnel_dispatcher.py"; TC="src/fora/connectors/tunnel_connector.py"; CO="src/fora/connection.py"
FI="src/fora/operations/files.py"; OU="src/fora/operations/utils.py"; API="src/fora/operations/api.py"; SY="src/fora/operations/system.py"
IW="src/fora/inventory_wrapper.py"; UT="src/fora/utils.py"; TY="src/fora/types.py"; LO="src/fora/loader.py"; RS="src/fora/remote_settings.py"
# --- wire
p("Packets survive the wire","Every request or response packet whose field values fit their declared wire types is, after being written to a connection, read back on the other side as exactly the same packet, and exactly its own bytes are consumed, whatever bytes follow.","all 23 packet types, all field values (unbounded strings, byte strings, lists, optionals), all following bytes","values are unbounded; tests only send a few literals",[f"{TD}:_serialize",f"{TD}:_deserialize",f"{TD}:_write_packet",f"{TD}:_read_packet"])
p("A stream of packets stays in sync","Any sequence of encodable packets written one after the other is received as the same sequence of packets, with nothing left over; so request n is never confused with request m.","all finite packet sequences","histories are unbounded",[f"{TD}:Connection",f"{TD}:receive_packet"])
p("No two messages look alike on the wire","Two different packets never have the same encoding and the encoding of one packet is never a proper prefix of the encoding of another one.","all pairs of encodable packets","pairs of unbounded values",[f"{TD}:_write_packet",f"{TD}:Packet"])
p("A truncated stream is never taken for a packet","If the connection ends in the middle of a packet, receiving raises IOError instead of returning a packet. (False of the code: a short read inside a string or byte-string payload is accepted silently. The part about every other cut point holds.)","all packets, all cut points","cut points times unbounded packets",[f"{TD}:Connection.read",f"{TD}:receive_packet"])
p("A value that cannot be sent is rejected cleanly","Sending a packet fails exactly if some field does not fit its wire type, and a failed send leaves the connection usable for the next request. (The second half is false of the code: the fields before the bad one stay in the output buffer and desynchronise the stream.)","all packets with arbitrary (also unencodable) values, all later packets","bad value times position times later traffic",[f"{TD}:_write_packet",f"{TD}:_serializers"])
p("Unknown packet ids are refused","A received packet whose id is not one of the registered ids makes receive raise IOError without consuming more than the id; every registered id is decoded by the packet class that wrote it.","all 32-bit ids and all following bytes","2^32 ids",[f"{TD}:receive_packet",f"{TD}:Packet"])
# --- dispatcher
p("One answer per request, in order","For every sequence of requests the dispatcher produces exactly one response packet per request, in request order and of the kind that request expects or an error packet, until an exit request, which is not answered and stops it. Requests after the exit request have no effect.","all finite request sequences, all remote states","histories are unbounded",[f"{TD}:_main",f"{TD}:receive_packet"])
p("Remote errors are reported as what they are","An OSError raised by the remote system while handling any request reaches the caller as RemoteOSError with the same errno, strerror and message; a rejected field reaches the caller as ValueError naming a field that exists in the request and showing its value; no other exception type is produced by a well-formed answer.","all requests, all remote states, all OS errors","errors times requests times states",[f"{TD}:receive_packet",f"{TD}:_main",f"{TC}:TunnelConnector._request"])
p("No request can take the dispatcher down","Whatever request packet is sent, the dispatcher answers it and stays alive for the next request. (False of the code: a NUL character in a path, an empty command or a response packet sent to the server raises an exception that is not OSError and ends the dispatcher. Holds for all requests outside a characterised set.)","all packets, all remote states","adversarial inputs",[f"{TD}:_main",f"{TD}:PacketProcessRun.handle",f"{TD}:_handle_response_packet"])
p("Users and groups resolve consistently","resolve_user/resolve_group return the canonical name of an existing account: a name wins over a number, a numeric id is used only if no account has that name, resolving the result again gives the same result, with unique names the result denotes the same uid, and an unknown account is a ValueError.","all account databases, all inputs","databases are unbounded",[f"{TD}:PacketResolveUser.handle",f"{TD}:PacketResolveGroup.handle",f"{TD}:_resolve_user",f"{TD}:_resolve_group"])
p("Uploading then downloading returns the same bytes","After upload(file, content) succeeds, download(file) returns exactly content, stat reports a regular file of that size and checksum, and nothing but that file changed.","all file systems, contents, modes and owners","contents and states are unbounded",[f"{TD}:PacketUpload.handle",f"{TD}:PacketDownload.handle",f"{TD}:PacketStat.handle"])
p("A rejected upload changes nothing","If upload is refused because mode, owner or group is invalid then the remote file system is exactly as before (existing content is not truncated).","all invalid parameter combinations, all remote states","combinations times states",[f"{TD}:PacketUpload.handle"])
p("Uploaded ownership and mode are what was asked for","After a successful upload the file has the requested mode, owner and group; owner without group means the owner's primary group; if none is given an existing file keeps its metadata. (False in general: a group without an owner forces the owner to uid 0, the documented default mode 600 is not applied to an existing file, and setuid/setgid bits in the mode are cleared by the chown that follows the chmod.)","all combinations of mode/owner/group, all prior states","combinations times states",[f"{TD}:PacketUpload.handle","src/fora/connectors/connector.py:Connector.upload"])
p("stat tells the truth","stat returns None exactly if the path does not exist, otherwise exactly one file type, the permission bits as canonical octal digits, and the checksum exactly if requested for a regular file; other OS errors are raised.","all file systems and paths","state space is unbounded",[f"{TD}:PacketStat.handle",f"{TC}:TunnelConnector.stat","src/fora/connectors/connector.py:StatResult"])
p("Queries do not modify the remote","check-alive, stat, resolve, download, query_user, query_group and getenv leave the remote system completely unchanged, whatever their arguments.","all read-only requests, all remote states","state space is unbounded",[f"{TD}:PacketStat.handle",f"{TD}:PacketQueryUser.handle",f"{TD}:PacketGetenv.handle"])
p("Commands run with the requested identity","A command is started with exactly the requested user, group, umask and working directory: the user's primary group if only the user is given, umask 077 by default, and it is never started if one of them is invalid. (False for supplementary groups: they are inherited from the dispatcher.)","all combinations of user/group/umask/cwd, all account databases","combinations times databases",[f"{TD}:PacketProcessRun.handle"])
p("Command results are delivered unmodified","run returns exactly the stdout, stderr and return code of the command; with check it raises CalledProcessError exactly if the return code is not 0. (False without output capturing: the command's output is written into the protocol stream.)","all outputs and return codes","outputs are unbounded",[f"{TD}:PacketProcessRun.handle",f"{TC}:TunnelConnector.run"])
p("The tunnel is transparent","For every history of connector calls with encodable arguments, running them through encode, dispatcher loop, encode, decode gives the same results or exceptions and the same remote state as calling the handlers directly.","all finite call histories, all remote states","histories are unbounded",[f"{TC}:TunnelConnector",f"{TD}:_main"])
p("Connections are always cleaned up","After open fails for any reason no background process is left; a with-block over an opened connection always ends the process and clears host.connection, whatever happens in the block; closing twice is harmless. (False: a second close writes to a closed pipe; an error between open and the end of __enter__ leaves the process running.)","all failure points, all block outcomes","schedules of failures",[f"{TC}:TunnelConnector.open",f"{TC}:TunnelConnector.close",f"{CO}:Connection.__enter__",f"{CO}:Connection.__exit__"])
# --- settings
p("Settings overlay is a right-biased merge","Overlaying settings takes each field from the right operand if it is set there and from the left one otherwise; empty settings are neutral; overlaying is associative and idempotent.","all settings records","2^n field combinations times values",[f"{RS}:RemoteSettings.overlay"])
p("Explicit beats inner beats outer defaults","The settings used inside nested defaults blocks are, field by field, the innermost explicitly given value, falling back to the connection's base settings; command execution uses an explicit argument if given and those defaults otherwise.","all nestings of defaults blocks, all fields","nesting depth is unbounded",[f"{TY}:ScriptWrapper.defaults",f"{CO}:Connection.run",f"{CO}:Connection.resolve_defaults"])
p("Defaults blocks are balanced","However a block of nested defaults contexts ends, normally or by an exception at any point including the entering of a context, the defaults in force afterwards are those before it.","all programs built from nested defaults blocks, all exception points","nesting and exception points are unbounded",[f"{TY}:RemoteDefaultsContext",f"{TY}:ScriptWrapper.defaults"])
p("Modes are compared by value","Modes given through defaults or operation arguments are canonicalised so that two mode strings compare equal exactly if they denote the same number, canonicalisation is idempotent, a negative or malformed mode is rejected, and the result is what stat reports for a file with that mode.","all mode strings","infinitely many strings",[f"{TY}:ScriptWrapper.defaults","src/fora/connectors/connector.py:StatResult"])
p("Base settings from the inventory are canonical too","The resolved base settings used for comparisons hold canonical owner and group names and canonical modes. (False for modes: modes from the inventory are passed on verbatim, so file_mode '0600' never equals the reported '600'.)","all inventory settings","infinitely many settings",[f"{CO}:Connection.resolve_defaults",f"{IW}:InventoryWrapper.base_remote_settings"])
# --- api
p("An operation either succeeds or raises","With check enabled a decorated operation returns only successful results and raises otherwise; a returned result is always the one produced by the operation; an exception in the body always propagates. The documented claim that check=False turns a raised OperationError into a failed result is false of the code.","all operation bodies (arbitrary programs) and arguments","bodies are arbitrary",[f"{API}:operation"])
p("changed means the states differ","A successful result has changed=True exactly if initial and final state differ; each state can be set at most once and both must be set before success.","all sequences of state-setting calls","sequences are unbounded",[f"{API}:Operation.success",f"{API}:Operation.initial_state",f"{API}:Operation.final_state",f"{API}:Operation.unchanged"])
p("unchanged(ignore_none) ignores unset targets","unchanged(ignore_none=True) ignores states whose final value is None. (False of the code: the filter looks at the keys instead of the values.)","all pairs of states","pairs of states are unbounded",[f"{API}:Operation.unchanged"])
p("Nested results are aggregated faithfully","An operation with nested results reports changed exactly if one of the nested initial/final pairs differs, refuses duplicate keys, and cannot set state of its own.","all sequences of nested results","sequences are unbounded",[f"{API}:Operation.add_nested_result",f"{API}:Operation.nested"])
# --- file operations
p("Dry run never touches the remote","With dry-run enabled no operation ever sends a request that can modify the remote, whatever the remote answers.","all operations, arguments, defaults and all possible remote answers (including errors and lies)","remote behaviours are unbounded",[f"{FI}:directory",f"{FI}:file",f"{FI}:link",f"{FI}:line",f"{OU}:save_content",f"{OU}:generic_package",f"{SY}:user",f"{SY}:group","src/fora/operations/systemd.py:service","src/fora/operations/git.py:repo"])
p("Dry run predicts the real run","If the real run succeeds then the dry run on the same remote state succeeds with the same initial state, final state and changed flag. (False of the code for scripts in general: an account that the script creates is not found by its dry run.)","all operations, arguments and remote states","state space is unbounded",[f"{FI}:directory",f"{FI}:file",f"{FI}:link",f"{OU}:save_content"])
p("Unchanged means untouched","If an operation returns changed=False then it sent no request that can modify the remote.","all operations, arguments and remote behaviours","remote behaviours are unbounded",[f"{FI}:directory",f"{FI}:file",f"{FI}:link",f"{FI}:line",f"{OU}:save_content",f"{OU}:generic_package",f"{SY}:user",f"{SY}:group"])
p("Wrong file type fails without damage","If the path exists with another type than the operation manages, the operation fails and sends no modifying request.","all file operations, arguments and remote states","state space is unbounded",[f"{FI}:directory",f"{FI}:file",f"{FI}:link",f"{FI}:line",f"{OU}:save_content"])
p("Relative paths are refused locally","A file operation with an empty or relative path raises ValueError before any request is sent to the remote.","all strings","infinitely many strings",[f"{OU}:check_absolute_path",f"{FI}:directory"])
p("Only the named path is affected","A file operation changes nothing outside its path (for directory removal: nothing outside the subtree), whether it succeeds or fails, and does not change accounts or packages.","all file operations, file systems, failure points","state space is unbounded",[f"{FI}:directory",f"{FI}:file",f"{FI}:link",f"{OU}:save_content"])
p("directory() converges","After directory() succeeds the path is a directory with the requested mode, owner and group (or does not exist for present=False). (False for the mode: GNU chmod keeps setuid/setgid bits of directories on a numeric mode of up to four digits. Holds if the existing directory has none of these bits.)","all arguments, defaults and remote states","state space is unbounded",[f"{FI}:directory"])
p("file() converges","After file() succeeds the path is a regular file with the requested mode, owner and group (or does not exist for present=False), and existing content is kept. (False for setuid/setgid modes: the chown after the chmod clears them.)","all arguments, defaults and remote states","state space is unbounded",[f"{FI}:file"])
p("link() converges","After link() succeeds the path is a symbolic link to the requested target with the requested owner and group (or does not exist). (False if the link currently points to an existing directory: ln -sf creates the new link inside that directory. False for the owner if only the target has to be changed: ln -sf makes a new link, and its owner is not set.)","all arguments, defaults and remote states","state space is unbounded",[f"{FI}:link"])
p("upload_content() converges","After upload_content/upload/template succeed the remote file has exactly the given content and the requested mode, owner and group. (Mode restricted to modes without setuid/setgid bits; checksums compared instead of contents, so under absence of a hash collision.)","all contents, arguments, defaults and remote states","state space is unbounded",[f"{OU}:save_content",f"{FI}:upload_content"])
p("Operations are idempotent","Running the same file operation a second time immediately after it succeeded reports changed=False and touches nothing, unless touch is requested. (False where the operation does not converge: setgid directories, setuid files, links of which only the target is changed.)","all arguments, defaults and remote states","state space is unbounded",[f"{FI}:directory",f"{FI}:file",f"{FI}:link",f"{OU}:save_content"])
p("A failed run can be repeated","If an operation is interrupted by a connection or command failure at any point, running it again from the state left behind converges to the same final state as an uninterrupted run. (False for setuid/setgid files.)","all arguments, remote states and crash points (including a partially written upload)","crash points times states",[f"{FI}:directory",f"{FI}:file",f"{FI}:link",f"{OU}:save_content",f"{TD}:PacketUpload.handle"])
# --- line
p("line(present) leaves the line in the file","After line(present=True) without regex the file contains the line, everything that was in the file before is still there, and a second run reports changed=False.","all file contents (arbitrary bytes) and lines","contents are unbounded",[f"{FI}:line"])
p("line() keeps all other lines byte for byte","Adding or removing a line leaves every other line byte for byte as it was, including bytes that are not valid UTF-8. (False for line terminators: \\r\\n, \\v, \\f, \\x1c-\\x1e, \\x85, U+2028, U+2029 are all rewritten to \\n. Holds for files that use only \\n.)","all file contents (arbitrary bytes)","contents are unbounded",[f"{FI}:line"])
p("line(absent) removes the line","After line(present=False) the line is no longer in the file. (False: with ignore_whitespace the unstripped line is compared to the stripped lines, so a line given with surrounding blanks is reported as removed on every run but never removed.)","all file contents and lines","contents are unbounded",[f"{FI}:line"])
p("line() backs up the old file","With backup set, whenever an existing file is modified its previous content is first saved; by default under the file name with a dated suffix appended. (The file name part is false: the backup is written to '<dir>/.<date>.bak'.)","all paths and backup names","infinitely many paths",[f"{FI}:line"])
p("line() keeps the metadata of an existing file","line() never changes mode, owner or group of an existing file; a new file gets the current defaults.","all remote states and arguments","state space is unbounded",[f"{FI}:line"])
# --- upload_dir etc
p("upload_dir mirrors the source tree","upload_dir creates every directory of the source tree before its content, uploads every regular file to the path with the same relative name, uses each destination path once, and touches nothing else.","all source trees","trees are unbounded",[f"{FI}:upload_dir"])
p("Template variables have a fixed precedence","In a template, host and inventory objects shadow the given context, which shadows host variables, which shadow script variables. (The documented 'inventory' variable is bound to the host object instead of the inventory.)","all variable environments","environments are unbounded",[f"{FI}:_render_template",f"{TY}:HostWrapper.vars_hierarchical"])
# --- packages & system
p("Package operations act on exactly the right packages","A package operation installs exactly the requested packages that are missing (removes exactly those present), each once, and reports changed exactly if there were any; afterwards all are installed (absent) and a second run does nothing. (The changed flag is false of the code for duplicate package names.)","all package lists and installed sets","sets are unbounded",[f"{OU}:generic_package","src/fora/operations/pacman.py:package","src/fora/operations/apt.py:package","src/fora/operations/portage.py:package"])
p("The first available backend is used","system.package and system.service use the first registered backend whose command exists on the remote, and fail with an OperationError that says so, without modifying anything, if there is none.","all sets of available commands","subsets of commands",[f"{OU}:find_command",f"{SY}:package",f"{SY}:service"])
p("apt packages can be queried","apt.package determines installed packages with dpkg-query and succeeds if everything is already installed. (False of the code: the command name is misspelt and can never be started.)","all remote states having dpkg-query","-",["src/fora/operations/apt.py:package"])
p("user() converges and is idempotent","After system.user() succeeds the account exists with every requested property (or does not exist), unrelated accounts are untouched, and a second run reports changed=False. (False for falsy values such as uid=0, comment='' or groups=[] and for a group given as gid.)","all account databases and arguments","databases are unbounded",[f"{SY}:user"])
p("group() converges and is idempotent","After system.group() succeeds the group exists with the requested gid (or does not exist), unrelated groups are untouched, and a second run reports changed=False. (False for gid=0.)","all group databases and arguments","databases are unbounded",[f"{SY}:group"])
p("systemd.service reaches the requested state","After systemd.service succeeds the unit is enabled/disabled and running/stopped as requested and a second run reports changed=False. (The changed flag is false of the code if only one of enabled/state is given.)","all unit states and arguments","-",["src/fora/operations/systemd.py:service","src/fora/operations/systemd.py:daemon_reload"])
p("git.repo never pulls from a different remote","git.repo refuses to touch an existing clone of another url, never contacts the upstream of an existing clone with update=False, and leaves the checked-out commit equal to the upstream commit after a successful update of a branch.","all repositories and arguments","state space is unbounded",["src/fora/operations/git.py:repo"])
# --- inventory
p("Group dependencies are sorted or rejected","The group order exists exactly if the before/after relation has no cycle; then every declared before/after constraint is respected and each group's rank is the length of the longest chain below it; a cycle is reported as an error and sorting always terminates.","all finite dependency graphs","graphs are unbounded",[f"{UT}:rank_sort",f"{IW}:InventoryWrapper._calculate_topological_order"])
p("before and after mean the same thing","Declaring that a is before b has the same effect as declaring that b is after a; self dependencies and references to undeclared groups are rejected.","all group declarations","declarations are unbounded",[f"{IW}:InventoryWrapper._merge_group_dependencies",f"{IW}:InventoryWrapper._detect_self_dependencies",f"{IW}:InventoryWrapper._ensure_used_groups_are_declared"])
p("Names are unique and known","A loaded inventory has no two hosts and no two groups with the same name and every group used by a host is declared; otherwise loading fails.","all inventories","inventories are unbounded",[f"{IW}:InventoryWrapper._preprocess_host_declarations",f"{IW}:InventoryWrapper._preprocess_group_declarations"])
p("The all group comes first","Every host is in group 'all', and 'all' is ordered before every other group the user declares, so any group can override its variables; no declaration can change that.","all inventories","inventories are unbounded",[f"{IW}:InventoryWrapper._preprocess_group_declarations",f"{IW}:InventoryWrapper._preprocess_host_declarations"])
p("Variable precedence","A variable looked up on a host comes from the host module if defined there, otherwise from the last group in dependency order that defines it, otherwise from the host declaration, then inventory globals, then script defaults.","all hosts, groups, modules","modules are arbitrary",[f"{IW}:InventoryWrapper.instanciate_host",f"{TY}:HostWrapper.__getattr__"])
p("Unordered groups cannot silently disagree","If two groups of a host that are not ordered relative to each other both define the same variable, loading fails, so the result never depends on the iteration order of groups of equal rank. (False of the code as it stands: it compares ranks, so unordered groups of different rank pass and ordered groups may be rejected; a definition with the value None is not seen; and changes in place are allowed.)","all inventories, all iteration orders","hash iteration orders",[f"{IW}:InventoryWrapper.instanciate_host"])
# --- scripts
p("Running a script leaves the context as it was","However a script ends, after run_script the active script, working directory, script stack and log indentation are what they were before.","all scripts incl. nested ones and all exception points","programs are arbitrary",[f"{LO}:run_script","src/fora/logger.py:IndentationContext"])
p("Recursive script calls are refused","local.script refuses to run a script that is already on the call stack unless recursive=True. (False of the code: the script file is compared to the directory of the running scripts, so recursion is never detected.)","all call stacks","stacks are unbounded",["src/fora/operations/local.py:script",f"{TY}:ModuleWrapper.definition_file",f"{UT}:load_py_module"])
p("Script parameters","A declared script parameter has the value passed by the caller, otherwise its declared default, otherwise RuntimeError is raised; undeclared passed values never change a declared one.","all parameter declarations and values","-",[f"{TY}:ScriptWrapper.Params"])
p("Host selection","Running with a host selection runs the script for each selected host exactly once in the order given, refuses unknown hosts before running anything, and without selection runs all inventory hosts in order.","all inventories and selections","-",["src/fora/main.py:main_run"])
p("URL qualification","qualify_url is idempotent, leaves urls with a schema untouched, and turns a plain host name (with an optional user and port) into an ssh url from which the same host name is extracted again. (False of the code with a port: 'host:22' is taken for a url with the schema 'host'.)","all strings","infinitely many strings",[f"{IW}:InventoryWrapper.qualify_url",f"{IW}:InventoryWrapper.extract_hostname","src/fora/connectors/ssh.py:SshConnector"])
p("The ssh command targets the declared host","The command used to connect passes the declared user, port and host name from the url (with or without //) as the ssh destination. (False for extract_hostname with 'ssh:host' where two characters are cut off.)","all urls","infinitely many strings",["src/fora/connectors/ssh.py:SshConnector"])
p("Wrapper attributes read back what was written","Setting an attribute on a group/host/script wrapper and reading it gives the value set, other attributes are unaffected, and module definitions shadow wrapper attributes. (False for attributes with a single leading underscore that exist in the module.)","all attribute names, modules and values","-",[f"{TY}:ModuleWrapper.__getattribute__",f"{TY}:ModuleWrapper.__setattr__"])
p("Host variable hierarchy","vars_hierarchical and attribute lookup on a host agree: host variables shadow script variables, and nothing private or module-like is exported.","all environments","-",[f"{TY}:HostWrapper.vars_hierarchical",f"{TY}:HostWrapper.__getattr__",f"{TY}:ModuleWrapper.exported_variables"])
p("download_or / query_or / home_dir fallbacks","download_or, query_user, query_group and getenv return the default exactly if the item is missing on the remote, return the remote value otherwise, and let other errors through; home_dir returns the home directory of the account or raises ValueError if there is none. (False for query_user: an account whose primary group or shadow entry does not exist is reported as missing.)","all remote behaviours","remote behaviours are unbounded",[f"{CO}:Connection.download_or",f"{CO}:Connection.query_user",f"{CO}:Connection.query_group",f"{CO}:Connection.home_dir"])
p("Paths are never taken for options","For every path, mode, owner and package argument accepted by the operations, the command line sent to the remote passes it as an operand, never as an option.","all strings accepted by the operations","infinitely many strings",[f"{FI}:directory",f"{FI}:file",f"{FI}:link",f"{OU}:save_content"])
p("Log lines fit","ellipsis(s, n) has at most n characters and is s itself if s fits; indentation is balanced.","all strings and widths","infinitely many strings",["src/fora/logger.py:ellipsis","src/fora/logger.py:IndentationContext"])
p("Hosts are isolated from each other","The variables of a host depend only on its own declaration, its groups, its module and the inventory, not on which other hosts exist. (False of the code for objects of the inventory that modules change in place: all hosts share them.)","all inventories and module contents","unbounded inventories",[f"{IW}:InventoryWrapper.load",f"{IW}:InventoryWrapper.instanciate_host",f"{IW}:InventoryWrapper.load_group"])
p("A script runs in its own context","While a script runs, the working directory is initially the directory of its file, it is the active script and on top of the script stack, the log is indented by one more level and its code is given the parameters passed by the caller.","all scripts, parameters and callers","programs are arbitrary",[f"{LO}:run_script"])
p("Errors tell where they came from","An exception that leaves a script carries the stack of scripts at the place of the innermost script it left, however many scripts it passes on its way out.","all nestings of scripts and exceptions","programs are arbitrary",[f"{LO}:run_script"])
p("Displayed content is harmless","File content shown in a diff has no line breaks and no control characters, whatever the bytes are, so a line stays one line and cannot control the terminal; UTF-8 text without such characters is shown as it is. (The documentation promises more, that all characters that are not printable are escaped: false for U+202E or U+2028; and different content may look the same, because backslashes are not escaped.)","all byte strings","infinitely many contents",["src/fora/logger.py:decode_escape","src/fora/logger.py:diff"])
p("Operations request nothing but what their arguments stand for",
  "Whatever the host answers, every request that an operation makes either only looks at the host or is one of the changes that its arguments name: present=True never removes anything, present=False only removes; only the given path, account, group, packages, unit or repository are named; uploads write exactly the given content to the destination; services are only started, stopped, enabled or disabled as asked; upload_dir makes directories and writes files only where the source tree has them.",
  "all operations, arguments, answers of the host including failures, schedules of connection errors and dry-run settings",
  "Needs all answers the host can give at each step of each operation, not only the answers of a test host.",
  [FI+":directory",FI+":file",FI+":link",FI+":upload_dir",FI+":line",SY+":user",SY+":group",SY+":package",SY+":service",OU+":generic_package","src/fora/operations/systemd.py:service","src/fora/operations/git.py:repo"])
p("The inventory argument means one host or one module","An inventory argument that does not end in .py stands for exactly one host, named after its url, for which no file is read or executed; one that ends in .py is a module whose hosts and groups are loaded. Invalid urls, a missing list of hosts and invalid declarations are reported as FatalError; exceptions of the module itself are passed on. (False of the code for a host declared by a dict with an unknown key: a TypeError.)","all arguments, module contents, hash orders","infinitely many urls and inventories",[f"{LO}:load_inventory",f"{LO}:ImmediateInventory"])
p("Every operation prints one summary","However an operation ends and whatever the host answers, it prints exactly one summary, which shows the result that is returned, or a failure with the message of the exception; upload_dir prints one for each of its parts, up to the first failure. Earlier output is never altered. (False of the code: wrong arguments of upload_dir fail without a summary, and so do package and service if an exception is raised while they look for the package or service manager of the host.)","all operations, arguments, answers of the host and schedules of connection errors","Needs all answers the host can give at each step of each operation.",[API+":operation",API+":Operation.success",API+":Operation.failure","src/fora/logger.py:print_operation"])
p("Diffs are truthful","With --diff, an upload, template or line operation that reports a change of the content prints the diff from what the file contains (or nothing) to what the file will contain once the operation has succeeded, in dry runs as in real ones; without --diff, without a change of content or on failure it prints none.","all contents, paths, file systems, oracles and schedules of connection errors","infinitely many contents and file systems",[API+":Operation.diff",OU+":save_content",FI+":line"])
p("Refusals name the argument at fault","If a mode, umask, owner, user, group or working directory given to upload or run cannot be used on the host, or a queried account or downloaded file does not exist there, the call raises a ValueError whose message names an argument that is really at fault, and nothing on the host has changed.","all arguments, hosts and contents","infinitely many arguments and hosts",[f"{TD}:PacketUpload",f"{TD}:PacketProcessRun",f"{TD}:PacketQueryUser",f"{TD}:PacketDownload",f"{TC}:TunnelConnector.upload",f"{TC}:TunnelConnector.run"])
p("Results tell the truth","In the result of a successful operation, in dry runs as in real ones, the initial state describes what was on the host before (existence, mode, owner, group, link target, checksum, presence of the line, account data, installed packages, state of the unit, checked-out commit), and the final state describes what is asked for, with the settings in force. (False of the code for the units of a user, and for units that are reloading.)","all operations, arguments, settings, hosts and schedules of connection errors","infinitely many arguments, settings and hosts",[FI+":directory",FI+":file",FI+":link",FI+":line",OU+":save_content",OU+":generic_package",SY+":user",SY+":group","src/fora/operations/systemd.py:service","src/fora/operations/git.py:repo"])
LG="src/fora/logger.py"
p("Summaries show the changes","The summary of an operation consists of its title and, if it failed, the message, otherwise (unless --no-changes is given) every value that changes, with its key, its old value and its new value, cut to a fixed width unless -v is given, and with -v also those that do not change; with --diff also every diff, and nothing of the content of files without it. It covers the title that was printed early, and contains no escape sequences if colours are turned off.",
  "all results, diffs, titles, indentation levels and options","Results have arbitrary keys and values, and the options and colours combine in many ways.",
  [LG+":print_operation",LG+":_operation_state_infos",LG+":print_operation_title",LG+":print_operation_early",LG+":diff",LG+":use_color","src/fora/main.py:main"])
p("Scripts can be repeated and resumed","A script that calls one operation after another - making and removing directories, files and symbolic links, uploading files and directory trees, rendering templates, on different paths - leaves, when it comes to its end, every path as it was asked for, whatever order the operations come in as long as it comes to its end, and wherever it stops it has changed nothing but these paths. Running it again changes nothing and says so. A script that was interrupted anywhere, even with its operations in another order, can be run again and then leads to the host to which an uninterrupted run would have led. (This is false if two operations disagree about one path, and a script cannot come to its end if it removes a directory in which it then asks for something; also under the circumstances in which a single operation does not converge, see C39 and C40.)","all lists of operations, arguments, defaults, hosts, crash points and schedules of connection errors","Sequences of operations are unbounded, may be cut anywhere, and each operation sees the host that the earlier ones left behind.",[FI+":directory",FI+":upload",FI+":upload_content",FI+":template",FI+":template_content",LO+":run_script"])
p("Display options do not change what is done","With --diff or without, with --no-changes or without, the same script does the same to the host, gives the same results and prints the same summaries apart from the diffs, in dry runs as in real ones. The only additional requests are downloads of files that are about to be replaced; only if such a download fails does the run end there, before the file is touched.","all scripts, operations, arguments, hosts and answers of the remote","Two runs have to be compared for every operation and every answer of the host.",[OU+":save_content",FI+":line",API+":Operation.diff",API+":Operation.success","src/fora/logger.py:print_operation","src/fora/main.py:main"])
p("Inspection shows where variables come from","--inspect-inventory works for every inventory that can be loaded. It shows one row for every public variable of every host, with the value that a script finds; what fora itself defines comes first, then variables in the order of the groups that changed them last. The column of definitions names the module or declaration that assigned the variable last, followed by those that have changed the object since, each with its position in the order of groups. (False of the code for variables that are None all of the time and for deleted ones.)","all inventories, contents of modules, hash orders and variables","Needs every way in which modules can define, share and change variables.",["src/fora/main.py:show_inventory",f"{IW}:InventoryWrapper.instanciate_host",f"{TY}:VariableActionSnapshot",f"{TY}:HostWrapper.vars_hierarchical"])
p("Tables are complete and aligned","The table of variables that --inspect-inventory prints can be printed for every host on every terminal. It has a line for the heading, a rule and one line for every row, in this order, and shows the text of every cell in full. Columns are at least as wide as asked for, and if a column is wide enough for its longest text, all lines have it at the same position; this is so for texts of up to 40 characters that fit into the even share of the columns up to this one. Headings are as wide as the terminal. (False of the code: that columns are aligned whenever the terminal is wide enough for all of them.)","all tables, texts, colours and terminal widths","infinitely many tables and widths",["src/fora/utils.py:print_table","src/fora/utils.py:print_fullwith","src/fora/utils.py:ansipad","src/fora/main.py:show_inventory"])
p("Initialising a deploy asks first and can be resumed","--init changes nothing in a directory that is not empty unless the user answers y or yes. Whatever happens and wherever it is interrupted, it creates and changes only the directories and files of the chosen layout and removes nothing. In an empty directory every layout can be created without a question. Exit code 0 means that the layout is there, with a script deploy.py and the inventories to run it with; without interruption it is reached if and only if the user agrees and no directory is in the place of a file or the other way round. After an interruption it can be run again, with the same outcome as one uninterrupted run.","all directories, answers, layouts and points of interruption","infinitely many directories and answers; interruptions between any two system calls",["src/fora/example_deploys.py:init_deploy_structure","src/fora/example_deploys.py:_create_dirs","src/fora/example_deploys.py:_write_file"])
p("A run over several hosts","A run of the program deals with the hosts asked for one after the other, each as if it were the only one, and leaves hosts alone that it has not come to. Whenever it connects to a host, no background process of an earlier one is left. One can only be left if the run ends with an error: at most one, and exactly one if the connection was opened but the identity of the user cannot be found out. With --dry no host is changed. If it comes to its end there is one result for each operation on each host, and a host without a reported change is as before. For scripts of directory, file, link, upload, upload_dir and template operations: if it comes to its end, everything asked for is there on all hosts; however it ends, nothing else was changed; running it again changes nothing and says so; a run that was interrupted at any host and any operation can be run again, with the same outcome as one uninterrupted run; and a dry run reports the results of the real run on all hosts.","all inventories, selections of hosts, scripts, arguments, hosts, crash points and schedules of connection errors","Runs combine arbitrary many hosts, scripts and failures of connections, and may be cut anywhere.",["src/fora/main.py:main_run",f"{CO}:open_connection",f"{CO}:Connection.__enter__",f"{CO}:Connection.__exit__",f"{LO}:run_script"])
p("Modules are found by name below the inventory","The module of a group or host is the file with its name in groups_dir or hosts_dir below the directory of the inventory, or the file that its declaration gives, relative to that directory; no two groups or hosts share one by accident. Loading an inventory executes no other file. A module that is missing is no error, unless its file is given explicitly: then the inventory is not loaded. (False of the code: a name that is an absolute path selects a file outside of these directories.)","all names, directories, declarations and files on the machine","infinitely many names and files",[f"{IW}:InventoryWrapper.group_module_file",f"{IW}:InventoryWrapper.host_module_file",f"{IW}:InventoryWrapper.base_dir",f"{IW}:InventoryWrapper.load_group",f"{IW}:InventoryWrapper.load_host"])
p("The command line means what it says","A script is run if and only if every argument has a meaning and there are exactly two operands, the inventory and the script; then exactly the options that were asked for are in effect, wherever they are on the command line. If --dry, --dry-run, --pretend or an abbreviation of these is anywhere before --, no host is changed, and a run is dry only if this was asked for. With --hosts only the hosts of its last list are connected to. An argument that is unknown or ambiguous is an error, and no script is run. A deploy is initialised, or an inventory shown, only if asked for, as soon as the option is met, for one of the existing layouts.","all command lines, projects and hosts","infinitely many command lines; abbreviations, clusters of options and values interact",["src/fora/main.py:main","src/fora/main.py:ThrowingArgumentParser","src/fora/main.py:ActionImmediateFunction","src/fora/main.py:main_run"])
p("Operations act only on the host whose script is running","While an inventory, its group modules and its host modules are executed, nothing is done on any host, whatever they contain: operations and scripts that they call are refused with a message that mentions the likely mistake, so swapping inventory and script on the command line does no harm; the same holds without an inventory. In a script, and in all scripts that it calls, every operation acts on the host for which it is run and no other host can be reached. fora.host and fora.group are what their documentation says in every module. The hosts asked for follow one another, after all modules have been loaded. If a module of a group or a host raises a ValueError or a FatalError, the program ends with its message and nothing has been done on any host.",
  "all inventories, group modules, host modules and scripts (as programs that call operations and scripts, use connections, look at the variables and handle exceptions), all selections of hosts, all failures of connections","the programs of the user and their nesting are unbounded",
  [UT+":check_host_active","src/fora/operations/api.py:operation","src/fora/operations/local.py:script","src/fora/loader.py:load_inventory","src/fora/inventory_wrapper.py:InventoryWrapper.load","src/fora/inventory_wrapper.py:InventoryWrapper.load_host","src/fora/inventory_wrapper.py:InventoryWrapper.load_group","src/fora/main.py:main_run"])
p("What went wrong is shown","If a command fails and this ends the program, the command, its exit code and all that it has printed are shown once, however many operations and scripts the exception passes, then the places from which scripts were called, and a traceback. The exception is reported as what it is. The traceback begins with the last module of the user and is complete from there (with --debug it is complete); for an operation that a script calls it is the line of that call. Special characters of the output are escaped.",
  "all nestings of functions, operations and scripts, all exceptions, all outputs and exit codes, all widths of terminals, with and without colours and --debug","nesting and output are unbounded",
  [UT+":print_process_error",UT+":script_trace",UT+":print_exception",UT+":install_exception_hook",UT+":print_fullwith","src/fora/operations/api.py:operation","src/fora/loader.py:run_script"])
p("Requests and commands do not get in each other's way","The client, the dispatcher, the commands it runs and the processes that these leave behind run at the same time, connected by pipes of limited capacity. Whatever the operating system schedules, a program of requests never blocks forever, comes to its end after a bounded number of steps, and then has the result, and has left the host in the state, that executing the requests one after the other gives. (False of the code: a command that is given no input shares the standard input of the dispatcher. If it reads, it waits for the next request and is never answered; a process it leaves behind can swallow part of a later request. A command that leaves a process behind which keeps its captured output open is never answered either.)",
  "all schedules, capacities of pipes, programs of requests, hosts and behaviours of commands","schedules, sizes and behaviours of commands are unbounded",
  [TC+":TunnelConnector._request",TD+":PacketProcessRun.handle",TD+":receive_packet",TD+":_main",TD+":Connection"])
p("A script that sets up a site reaches everything it asks for and can be repeated","If a script that calls operations for packages, groups, users, files, directory trees, links, clones of git repositories and services comes to its end, then the host is as every call asks for, the early ones included. Running it again has no effect and reports no change. After any number of interrupted runs, wherever they broke off, a run that comes to its end leads to this too. (False of the code in general: a command for a later call may undo what an earlier one achieved, e.g. userdel removes the group of the same name.)",
  "all scripts, hosts, tools, points at which the connection breaks and numbers of interrupted runs","scripts, hosts and interruptions are unbounded",
  [API+":operation","src/fora/operations/system.py:user","src/fora/operations/system.py:group","src/fora/operations/utils.py:generic_package","src/fora/operations/systemd.py:service",FI+":directory",FI+":upload_dir","src/fora/operations/utils.py:save_content","src/fora/operations/system.py:package","src/fora/operations/system.py:service","src/fora/operations/git.py:repo"])
p("A run over an inventory sets up the sites of all its hosts","If a run of the program over the hosts of an inventory comes to its end, and the script calls operations for packages, groups, users, files, directory trees, links, clones of git repositories and services on each of them, then every host that was asked for is as every call for it asks for, and all calls have reported success; other hosts are left alone. Another run has no effect on any host and reports no change. Whatever runs there were before, for whatever hosts and wherever they were interrupted, this remains true. (False of the code in general, as for a single script; and a script may remove the account that is logged in with, after which no run comes to its end.)",
  "all inventories, selections of hosts, scripts, hosts, tools, points at which connections break and histories of runs","inventories, scripts, hosts and histories are unbounded",
  ["src/fora/main.py:main_run",CO+":open_connection","src/fora/loader.py:run_script",API+":operation","src/fora/operations/system.py:user","src/fora/operations/utils.py:generic_package","src/fora/operations/systemd.py:service"])
p("What is stored in files stays off the screen","Unless --diff is given, nothing about the contents that a script uploads or renders can be learned from what it prints, how it ends, or the requests it makes besides those that store them, other than their checksums; of a file that line() edits, only whether the line is there is shown. No operation shows the password hash of an account. (The last part is false of the code: user() always asks for the hash, though no other operation does, and shows it with -v; without -v, a user() that sets no password does not reveal it.)",
"All pairs of scripts that differ in the stored contents only, all checksum functions, all settings, all answers of the host and losses of the connection; all operations","An example of a secret that is not printed says nothing about other code paths, such as errors, or other values.",
[OU+":save_content",FI+":upload_content",FI+":upload_dir",FI+":template",FI+":line",SY+":user",LG+":print_operation"])

p("Several lines of one file can be managed together",
"A script that calls files.line() several times for one file, each time for a different line, leaves exactly the requested lines present and the others absent, keeps all other lines in their order and the file's mode and owner, can be repeated without effect, gives the same lines in whatever order the calls are made, is reported correctly by a dry run although a dry run does not change the file between the calls, and can be interrupted and run again. Calls that contradict each other, and writes that fail because the disk is full, are the exceptions.",
"all files (any bytes, or no file), all lists of calls to add or remove lines, all orders of them, all points of interruption",
"The calls act on one shared file, each rewrites all of it, and what one call leaves behind is what the next one decodes, splits and compares; tests can only try a few files and sequences.",
[FI+":line",CO+":upload",CO+":download"])

p("The dispatcher that is executed on a host is the one that belongs to this program",
"Connecting over ssh makes the shell of the host execute python3 with exactly the source of the installed dispatcher (up to newlines at its end), in debug mode if and only if --debug was given, whatever characters the source has; no character of the command line is taken for something else, and no other programs than echo, base64 and python are run on the way. On the local machine, python3 executes the file of the dispatcher. (False of the code: that python3 suffices. The source is decompressed by a program called python, and if there is none, an empty program is executed.)",
"all contents of the dispatcher file, all compressed forms of it, all hosts with a POSIX shell and the tools, all urls and ssh options, debug mode or not",
"The source passes through compression, base64, two levels of shell quoting, a pipeline and a command substitution; whether a character is misinterpreted depends on every byte, and on tools of the host that tests do not have.",
["src/fora/connectors/ssh.py:SshConnector.command","src/fora/connectors/local.py:LocalConnector.command",TD+":_main"])

p("An interrupted checkout is completed by the next run",
"If git.repo was interrupted, however often and wherever, and then reports success once, the commit that is upstream is checked out from the given url, and another run changes nothing. If update_submodules is set, the submodules are checked out after success. (The latter is false if nothing else is to be changed: if the connection breaks between the clone and the command for submodules, all further runs report success and the submodules are never checked out.)",
"all repositories, arguments and hosts with git, all sequences of interruptions (requests lost, answers lost, failing commands)",
"Interruptions can happen at every request of every run, and what a later run does depends on what all earlier ones left behind.",
["src/fora/operations/git.py:repo"])

p("Scripts with any control flow do no more than the screen says",
"A script may call operations in any order and on any conditions, go on depending on their results, handle their exceptions, set defaults for some of its parts and call other scripts. With --dry it changes nothing on the host, however it ends. Without --dry: if all the summaries that are printed say that an operation succeeded without a change, nothing was changed on the host. The same holds for each host of a run over an inventory, for the summaries that are printed while it is dealt with. Earlier output is never altered, and the defaults in force after the script are those before it.",
"all scripts that act on the host through operations; all answers of the host, and all points at which the connection breaks; all defaults in force",
"Tests run a few scripts; this is about every script with every control flow, and about every answer of the host.",
["src/fora/operations/api.py:operation", "src/fora/operations/api.py:Operation.success", "src/fora/operations/local.py:script", "src/fora/loader.py:run_script", "src/fora/types.py:ScriptWrapper.defaults", "src/fora/main.py:main_run"])

p("Runs at the same time",
"Several runs may act on one host at the same time. Dry runs are never noticed: whatever their number and pace, a real run has the outcome, the screen and the effects that it has alone. Real runs that have different aims, each come to their end and report success, all achieve what they were asked for. (The latter is false: two runs that add different lines to one file at the same time can both report success and a change, and one line is lost. It is true, for any number of runs, if their requests can be exchanged: then every schedule leads to what the runs lead to one after the other. This is so for scripts about files and directories at different places.)",
"all scripts, hosts, schedules (turns of the runs in any order), all points at which connections break, any number of runs",
"How the requests of two runs interleave is decided by networks and kernels; tests see one schedule of very many.",
["src/fora/main.py:main_run", FI+":line", CO+":upload", TD+":_main"])

p("Operations have no memory",
  "What an operation, or a part of a script, does depends on its arguments, the options of the command line, the settings in force (the innermost defaults) and on what the host answers, and on nothing else: called at another moment, after other operations, inside of other blocks of defaults or other scripts, it makes the same requests as long as it gets the same answers, ends with the same result or exception, and prints the same summaries. So the rest of a script does what it would do as a script of its own, on the host as the first part left it; and a part that left the host as it was could have been left out.",
  "all operations and scripts made of them (any control flow, handlers of exceptions, nested defaults, nested scripts), all moments with the same settings in force, all answers of hosts, all hosts",
  "Tests call operations one by one or in a few fixed sequences; that nothing is remembered from whatever came before is a statement about all pasts.",
  ["src/fora/operations/api.py: operation, Operation", "src/fora/types.py: RemoteDefaultsContext, ScriptWrapper", "src/fora/globals.py", "src/fora/connection.py: Connection.run", "src/fora/operations/"])

p("Independent parts of a script can be written in any order",
  "If the parts of a script are about different things (no path of one is a path of another or on the way to one), the order in which they are written does not matter: if the script succeeds with one order, it does with every other order; each part has the results and prints the summaries that it has as a script of its own; and the host is the same afterwards.",
  "all scripts of any number of parts, each with any number of operations; all orders of the parts; all ordinary hosts",
  "Tests try the one order that is in the script; there are n! others.",
  ["src/fora/operations/files.py: directory, file, upload, upload_content, template, template_content", "src/fora/operations/utils.py: save_content", "src/fora/operations/api.py: operation", "src/fora/connectors/tunnel_dispatcher.py"])

p("A deploy can be split into several runs",
  "If a deploy is written in two parts, running fora with the first part and then again with the second is as good as running it once with both, as long as the connections work and a script that starts after the first run starts with the same settings as before: the joined run comes to its end exactly if both runs do, and then every host is left in the same state, the results for each host are those of the two parts one after the other, and the same summaries are printed for each host in the same order.",
  "all scripts of fora operations with whatever control flow, and all ways to cut them in two; all inventories and selections of hosts; all machines in all states",
  "Tests run one deploy in one way; there are as many ways to split it as there are operations, and as many machines as there are users.",
  ["src/fora/main.py: main_run", "src/fora/loader.py: run_script", "src/fora/connection.py: open_connection, resolve_defaults, base_settings", "src/fora/types.py: ScriptWrapper.defaults"])

p("Hosts can be dealt with one at a time and in any order",
  "Running fora for several hosts is the same as running it for one host after the other with --hosts until such a run fails: the same end, the same hosts, the same results and the same summaries. If the hosts are named in a different order, the run comes to its end exactly if it did before, and then leaves the same on every host, with the same results and summaries for each.",
  "all inventories, selections of hosts and orders of them; all scripts; all machines in all states; all ways in which connections may break",
  "There are n! orders of n hosts, and any script and failure on each of them.",
  ["src/fora/main.py: main_run", "src/fora/loader.py: run_script", "src/fora/connection.py: open_connection"])

p("No host can keep an operation busy",
  "However the host answers, and wherever the connection breaks, every operation ends after a number of requests that depends on its arguments only, and makes at most a given number of changes: a directory or file at most nine requests and three changes, an upload or a line nine and two, an account eight and seven, a group two and one, packages two requests and one change for each of them (and one more request to find the package manager), a service four and two, a checkout seven and two, a directory tree nine for each directory and file. A script makes as many as its operations together, and five more.",
  "all operations with all arguments; all answers of the host to each request; all settings and options",
  "The answers are chosen by the host; tests try a few of the infinitely many conversations.",
  ["src/fora/operations/files.py", "src/fora/operations/system.py", "src/fora/operations/systemd.py: service", "src/fora/operations/git.py: repo", "src/fora/operations/utils.py: save_content, generic_package", "src/fora/connection.py: resolve_defaults"])

p("No failure passes unnoticed",
  "However the host answers, an operation stops at the first request that fails - a command that ends with another status than zero or cannot be started, an upload that is not confirmed, an exception of the host, a lost connection, an answer of the wrong kind - and raises exactly that failure, with check or without; the only exceptions that do not count are that something that is looked up does not exist, and the status of pacman -Ql. If an operation returns, everything it asked for was done. The same for scripts: nothing is asked of the host after a failure.",
  "all operations with all arguments; all answers of the host to each request; all settings and options; all lists of operations",
  "The failing request can be any of those an operation makes, with any status or exception; tests let a few of them fail.",
  ["src/fora/operations/files.py", "src/fora/operations/system.py", "src/fora/operations/systemd.py", "src/fora/operations/git.py: repo", "src/fora/operations/utils.py", "src/fora/operations/api.py: operation", "src/fora/connectors/tunnel_connector.py: run, upload, stat, download, query_user, query_group", "src/fora/connection.py: run, download_or, query_user, query_group"])

p("Malformed declarations are rejected",
  "Whatever Python values an inventory gives as hosts and groups: an entry that is neither a declaration, a text nor a dict, a dict with a key that is no field, a group without a name, a host without url and name, a name or a group that cannot be a key, groups that cannot be enumerated, each make the inventory be rejected before anything is loaded or contacted; and an inventory all of whose declarations have the documented types is processed the same as if no other values existed.",
  "all lists of host and group entries with values of all types (None, texts, numbers, lists, dicts, other objects, nested to any depth); all orders of sets",
  "The values come from user code of any kind; tests try a few wrong ones.",
  ["src/fora/inventory_wrapper.py: HostDeclaration, GroupDeclaration, qualify_url, extract_hostname, _preprocess_host_declarations, _preprocess_group_declarations"])

p("Content is not exposed while it is stored",
  "At every moment while upload, upload_content, template or template_content run, and however they end, a permission bit of the file at the destination is set only if the requested mode has it, the file that was there before had it, or the file is new and it is one of the owner's read and write bits. So content that is stored with a mode that lets only the owner read can at no moment be read by anybody but the superuser, the requested owner, the connection's user if the file is new and the previous owner if it is not.",
  "all hosts, contents, destinations, modes, owners, defaults in force; all calls that may fail, amounts of data written, and requests at which the connection may be lost; all users and their groups",
  "The window between two system calls cannot be hit by a test.",
  ["src/fora/operations/files.py: upload, upload_content, template, template_content", "src/fora/operations/utils.py: save_content", "src/fora/connectors/tunnel_dispatcher.py: PacketUpload.handle"])

p("An interrupted write leaves the old content or a beginning of the new one",
  "At every moment while upload, upload_content, template, template_content or line run, and however they end, at the destination there is what was there before, or a regular file with a beginning of exactly the new content (for line: of the old lines with the line added or removed); never a mixture or anything else, and an existing file does not disappear. A user would also expect that it is always either the complete old content or the complete new one.",
  "all hosts, contents, destinations, lines and defaults in force; all calls that may fail, amounts of data written, and requests at which the connection may be lost",
  "Tests cannot interrupt a write at every byte.",
  ["src/fora/operations/files.py: upload, upload_content, template, template_content, line", "src/fora/operations/utils.py: save_content", "src/fora/connectors/tunnel_dispatcher.py: PacketUpload.handle"])

p("What was added can be taken back",
  "If there is nothing at a path and file, directory, link, upload or template is run for it, then however that ended, once the same operation with present=False (for stored content: file with present=False) has succeeded, the whole host is as it was before. If there is no group of a name, adding it and removing it leaves the groups as they were; if there is no account of a name, making it and removing it leaves the same users, and the hashes and groups of others. If a line is not in a file, adding it with line() and removing it again leaves the same lines. A user would also expect the same bytes in the last case.",
  "all hosts, paths, contents, names, lines, other arguments and defaults in force; all ways the first operation may end, and requests at which the connection may be lost",
  "Tests take back a few examples; none covers every host, argument and way for the first operation to fail.",
  ["src/fora/operations/files.py: file, directory, link, upload_content, template_content, line", "src/fora/operations/system.py: group, user"])

p("Earlier wishes for a path leave no trace",
  "When a deploy script is changed and run again, its last word counts: if an upload, a template, file or directory for a path succeeds, the host is (but for time stamps) as if that operation had been the only one, whatever was stored, made or removed at that path before, with whatever content, mode, owner and group, and however those earlier operations ended. file and directory keep the content; so there the earlier operations are of the same kind.",
  "all hosts, paths, contents, modes, owners, groups and defaults in force; all lists of earlier operations at the path, each with its own settings, lost connection and failures",
  "Tests change a few settings once; none runs every history of earlier deploys.",
  ["src/fora/operations/files.py: file, directory, upload, upload_content, template, template_content", "src/fora/operations/utils.py: save_content"])

p("The overview of an inventory is complete",
  "--inspect-inventory works for every inventory that can be loaded and on every terminal. It shows, and shows nothing but: a heading with the inventory that was given; every group once, numbered from 0, so that a group that has to be loaded before another one is above it; every host in the order of the declarations, with its url and module; the variables of the inventory, if there are any; and for every host a heading and the table of its variables. The numbers of groups are those that the tables give for the origins of variables.",
  "all inventories that can be loaded, contents of modules, hash orders, texts of values and types, colours and widths of terminals",
  "The number of groups, hosts and variables and the order of groups are unbounded; tests show a few inventories.",
  ["src/fora/main.py: show_inventory", "src/fora/utils.py: print_fullwith, print_table", "src/fora/inventory_wrapper.py: InventoryWrapper.load"])

p("The screen shows the run",
  "After a run the screen shows the hosts in the order in which they were dealt with, each with its url, below it the script and everything that it called: every script and the summary of every operation, in order, indented by the number of scripts and operations that it is a part of, also after exceptions that the script handles. Titles that were printed early leave no trace. There is one empty line between two hosts, an error with its reason where no connection could be opened, nothing after the host where the run ends, and nothing else. (Standard output without --debug, on lines that are long enough; texts without line breaks and escape characters.)",
  "all scripts with any control flow and nesting, results of operations, options, orders and numbers of hosts, failures of connections, and whatever is on the screen before",
  "Scripts, nesting and the sequence of outcomes are unbounded; early titles are overwritten in place, so a wrong length or indentation shows only for some of them.",
  ["src/fora/logger.py: print_indented, indent, connection_init, connection_failed, run_script, print_operation_early, print_operation", "src/fora/main.py: main_run", "src/fora/connectors/tunnel_connector.py: TunnelConnector.open", "src/fora/operations/api.py: Operation.desc"])

p("Operations get the arguments that are given",
  "Every operation gets the values that are given for its parameters, by position or by name, or the documented defaults; a call that does not fit its parameters sends nothing to the host, prints one summary, which is that of a failure, and raises a TypeError. The values of check and name decide whether a failed result is raised and what the title says. (The last part is false of the code if they are given by position: check is then taken for True and the name is not shown.)",
  "all operations, all calls with any numbers, orders and values of arguments, and all executions",
  "The ways to pass arguments to seventeen operations with up to fourteen parameters cannot be enumerated; the values are unbounded.",
  ["src/fora/operations/api.py: operation", "src/fora/operations: the signatures of all operations"])

with open("/verif/properties.jsonl","w") as f:
    for x in P: f.write(json.dumps(x,ensure_ascii=False)+"\n")
print(len(P))
