{
 "claims": [
  {
   "property": "C01",
   "status": "proved",
   "theorems": [
    "Verif.Wire.C01_packet_roundtrip",
    "Verif.Wire.C01_receive_roundtrip"
   ],
   "note": ""
  },
  {
   "property": "C02",
   "status": "proved",
   "theorems": [
    "Verif.Wire.C02_stream_in_sync"
   ],
   "note": ""
  },
  {
   "property": "C03",
   "status": "proved",
   "theorems": [
    "Verif.Wire.C03_prefix_free",
    "Verif.Wire.C03_injective"
   ],
   "note": ""
  },
  {
   "property": "C04",
   "status": "partial",
   "theorems": [
    "Verif.Wire.C04_refuted",
    "Verif.Wire.C04_truncation_refused_partial",
    "Verif.Wire.C04_truncation_only_last_field_partial"
   ],
   "note": "False as stated: C04_refuted gives the witness (a payload cut short is accepted). The partial theorems cover packets ending in a fixed-size field and bound the damage for all others."
  },
  {
   "property": "C05",
   "status": "partial",
   "theorems": [
    "Verif.Wire.C05_send_iff_fits",
    "Verif.Wire.C05_refuted",
    "Verif.Wire.C05_failed_send_leaves_bytes"
   ],
   "note": "First half proved. Second half (connection stays usable) is false of the code: C05_refuted."
  },
  {
   "property": "C06",
   "status": "proved",
   "theorems": [
    "Verif.Wire.C06_unknown_id_refused",
    "Verif.Wire.C06_id_determines_kind",
    "Verif.Wire.C06_ids_unique"
   ],
   "note": ""
  },
  {
   "property": "C07",
   "status": "proved",
   "theorems": [
    "Verif.Remote.C07_one_answer_per_request",
    "Verif.Remote.C07_all_answered",
    "Verif.Remote.C07_exit_stops"
   ],
   "note": ""
  },
  {
   "property": "C08",
   "status": "proved",
   "theorems": [
    "Verif.Client.C08_outcomes",
    "Verif.Client.C08_os_error_is_reported",
    "Verif.Client.C08_api_os_errors",
    "Verif.Client.C08_api_exec_error",
    "Verif.Client.C08_crash_is_reported",
    "Verif.Client.C08_rejected_field_shown"
   ],
   "note": ""
  },
  {
   "property": "C09",
   "status": "partial",
   "theorems": [
    "Verif.Remote.C09_refuted",
    "Verif.Remote.C09_nul_crashes_refuted",
    "Verif.Remote.C09_malformed_crashes_refuted",
    "Verif.Remote.C09_survives_partial"
   ],
   "note": "False as stated: C09_refuted, C09_nul_crashes_refuted and C09_malformed_crashes_refuted give requests that end the dispatcher. C09_survives_partial proves it for requests without NUL bytes, with a non-empty command and an in-range mode."
  },
  {
   "property": "C10",
   "status": "proved",
   "theorems": [
    "Verif.Client.C10_user_resolves",
    "Verif.Client.C10_user_name_wins",
    "Verif.Client.C10_user_unknown",
    "Verif.Client.C10_user_self",
    "Verif.Client.C10_user_idempotent",
    "Verif.Client.C10_user_same_account",
    "Verif.Client.C10_group_resolves",
    "Verif.Client.C10_group_name_wins",
    "Verif.Client.C10_group_unknown",
    "Verif.Client.C10_group_self",
    "Verif.Client.C10_group_idempotent",
    "Verif.Client.C10_group_same_account"
   ],
   "note": ""
  },
  {
   "property": "C11",
   "status": "proved",
   "theorems": [
    "Verif.Client.C11_download_after_upload",
    "Verif.Client.C11_stat_after_upload",
    "Verif.Client.C11_nothing_else_changed"
   ],
   "note": ""
  },
  {
   "property": "C12",
   "status": "proved",
   "theorems": [
    "Verif.Client.C12_rejected_changes_nothing",
    "Verif.Client.C12_refused_iff"
   ],
   "note": ""
  },
  {
   "property": "C13",
   "status": "partial",
   "theorems": [
    "Verif.Client.C13_group_only_refuted",
    "Verif.Client.C13_setuid_refuted",
    "Verif.Client.C13_group_only_owner_root_refuted",
    "Verif.Client.C13_mode_partial",
    "Verif.Client.C13_owner_partial",
    "Verif.Client.C13_defaults_partial"
   ],
   "note": "False as stated: refuted three ways (group without owner makes root the owner; setuid lost when an owner is given). The partial theorems characterise mode, owner and group for everything else."
  },
  {
   "property": "C14",
   "status": "partial",
   "theorems": [
    "Verif.Client.C14_none_iff",
    "Verif.Client.C14_describes",
    "Verif.Client.C14_mode_canonical",
    "Verif.Client.C14_other_errors_raised",
    "Verif.Client.C14_unencodable_refuted"
   ],
   "note": "C14_none_iff, C14_describes and C14_other_errors_raised prove it for encodable paths; C14_unencodable_refuted shows that a path that cannot be encoded is reported as missing although it exists."
  },
  {
   "property": "C15",
   "status": "proved",
   "theorems": [
    "Verif.Client.C15_query_changes_nothing",
    "Verif.Client.C15_query_through_tunnel",
    "Verif.Client.C15_api"
   ],
   "note": ""
  },
  {
   "property": "C16",
   "status": "partial",
   "theorems": [
    "Verif.Client.C16_started_as_requested_partial",
    "Verif.Client.C16_invalid_not_started",
    "Verif.Client.C16_supplementary_groups_refuted",
    "Verif.Client.C16_supplementary_groups_inherited",
    "Verif.Client.C16_relative_cwd_refuted"
   ],
   "note": "False for supplementary groups and relative working directories (refuted); user, group, umask, absolute cwd and the refusal of invalid arguments are proved."
  },
  {
   "property": "C17",
   "status": "partial",
   "theorems": [
    "Verif.Client.C17_delivered_partial",
    "Verif.Client.C17_uncaptured_refuted"
   ],
   "note": "Proved for captured output; C17_uncaptured_refuted: without capturing, a command can forge the response."
  },
  {
   "property": "C18",
   "status": "proved",
   "theorems": [
    "Verif.Client.C18_request_transparent",
    "Verif.Client.C18_tunnel_transparent"
   ],
   "note": ""
  },
  {
   "property": "C19",
   "status": "partial",
   "theorems": [
    "Verif.Client.Lifecycle.C19_open_failure_partial",
    "Verif.Client.Lifecycle.C19_one_process",
    "Verif.Client.Lifecycle.C19_reopen_refuted",
    "Verif.Client.Lifecycle.C19_with_block_partial",
    "Verif.Client.Lifecycle.C19_block_exception_kept",
    "Verif.Client.Lifecycle.C19_identity_failure_refuted",
    "Verif.Client.Lifecycle.C19_close_twice_refuted"
   ],
   "note": "False as stated: C19_reopen_refuted, C19_identity_failure_refuted and C19_close_twice_refuted give the witnesses. The partial theorems cover a first open and the with block once it is entered."
  },
  {
   "property": "C20",
   "status": "proved",
   "theorems": [
    "Verif.Script.C20_fields",
    "Verif.Script.C20_neutral",
    "Verif.Script.C20_assoc",
    "Verif.Script.C20_idempotent"
   ],
   "note": ""
  },
  {
   "property": "C21",
   "status": "proved",
   "theorems": [
    "Verif.Script.C21_defaults",
    "Verif.Script.C21_run"
   ],
   "note": "The outermost context must have been entered: without any defaults block the script's stack holds empty settings and commands run without user, umask or cwd (C21_run with an empty top)."
  },
  {
   "property": "C22",
   "status": "proved",
   "theorems": [
    "Verif.Script.C22_balanced",
    "Verif.Script.C22_enter_fails"
   ],
   "note": ""
  },
  {
   "property": "C23",
   "status": "proved",
   "theorems": [
    "Verif.Script.C23_equal",
    "Verif.Script.C23_grammar",
    "Verif.Script.C23_malformed",
    "Verif.Script.C23_idempotent",
    "Verif.Script.C23_reported",
    "Verif.Script.C23_rejected"
   ],
   "note": ""
  },
  {
   "property": "C24",
   "status": "partial",
   "theorems": [
    "Verif.Script.C24_canonical_partial",
    "Verif.Script.C24_default_partial",
    "Verif.Script.C24_refuted",
    "Verif.Script.C24_never_equal_refuted"
   ],
   "note": "False for inventories that override the modes (C24_refuted); proved for canonical modes, in particular the default settings."
  },
  {
   "property": "C25",
   "status": "partial",
   "theorems": [
    "Verif.Script.C25_checked",
    "Verif.Script.C25_result",
    "Verif.Script.C25_exception",
    "Verif.Script.C25_failure_raised",
    "Verif.Script.C25_unchecked",
    "Verif.Script.C25_unchecked_raises_refuted"
   ],
   "note": "All parts proved; the documented effect of check=False on raised OperationErrors is false (C25_unchecked_raises_refuted)."
  },
  {
   "property": "C26",
   "status": "proved",
   "theorems": [
    "Verif.Script.C26_once",
    "Verif.Script.C26_changed",
    "Verif.Script.C26_changed_key"
   ],
   "note": "Proved for all sequences of calls. success() also raises a KeyError, unless --no-changes is given, if the final state has a value under a key that the initial state lacks: the summary that it prints looks every key up in both."
  },
  {
   "property": "C27",
   "status": "partial",
   "theorems": [
    "Verif.Script.C27_refuted",
    "Verif.Script.C27_no_none_partial",
    "Verif.Script.C27_unchanged_sound",
    "Verif.Script.C27_missing_key"
   ],
   "note": "False as documented (C27_refuted); proved if no final value is None."
  },
  {
   "property": "C28",
   "status": "proved",
   "theorems": [
    "Verif.Script.C28_duplicates_refused",
    "Verif.Script.C28_changed",
    "Verif.Script.C28_no_own_state",
    "Verif.Script.C28_not_nested"
   ],
   "note": ""
  },
  {
   "property": "C29",
   "status": "proved",
   "theorems": [
    "Verif.Ops.C29_dry_run_changes_nothing",
    "Verif.Ops.C29_dry_run_only_looks"
   ],
   "note": "Proved for all answers (only queries are sent) and on the host (the file system is the same afterwards)."
  },
  {
   "property": "C30",
   "status": "partial",
   "theorems": [
    "Verif.Ops.C30_calls_partial",
    "Verif.Ops.C30_deploy_partial",
    "Verif.Ops.C30_linked_scripts_partial",
    "Verif.Ops.C30_scripts_refuted",
    "Verif.Ops.C30_independent_scripts_partial",
    "Verif.Ops.C30_upload_dir_partial",
    "Verif.Ops.C30_dry_run_predicts_partial",
    "Verif.Ops.C30_same_result_partial"
   ],
   "note": "For every operation except upload_dir proved for any remote that answers the dry run's queries as it answers the real run's. For upload_dir, whose dry run does not find what the real run has created, proved for ordinary hosts with a proper file system on which faults of reading do not depend on other files (hence _partial). The state after the dry run is that after the real run, so that both print the same summaries. The same is proved for scripts of several operations on files, directories, links and directory trees. It is also proved for scripts of any operations other than upload_dir, if whatever a later operation looks at is the same before the script and after the earlier operations. For scripts in general the statement is refuted: an operation looks up the owner and group it is given in dry runs too, so a script that first creates an account and then gives a directory to it succeeds, but its dry run ends with a ValueError."
  },
  {
   "property": "C31",
   "status": "proved",
   "theorems": [
    "Verif.Ops.C31_unchanged_changes_nothing",
    "Verif.Ops.C31_unchanged_only_looks"
   ],
   "note": "Proved for all answers (no modifying request) and on the host (the file system is the same afterwards)."
  },
  {
   "property": "C32",
   "status": "proved",
   "theorems": [
    "Verif.Ops.C32_wrong_type_refused"
   ],
   "note": ""
  },
  {
   "property": "C33",
   "status": "proved",
   "theorems": [
    "Verif.Ops.C33_relative_path_refused",
    "Verif.Ops.C33_absolute_path_accepted"
   ],
   "note": ""
  },
  {
   "property": "C34",
   "status": "partial",
   "theorems": [
    "Verif.Ops.C34_directory_frame",
    "Verif.Ops.C34_file_frame",
    "Verif.Ops.C34_store_frame",
    "Verif.Ops.C34_link_frame_partial",
    "Verif.Ops.C34_link_frame_refuted",
    "Verif.Ops.C34_line_frame"
   ],
   "note": "For a host whose programs are the modelled standard tools. directory, file and the uploading operations proved; link is false where the path leads to a directory (C34_link_frame_refuted: ln -sf creates the link inside), proved otherwise."
  },
  {
   "property": "C35",
   "status": "partial",
   "theorems": [
    "Verif.Ops.C35_directory_converges_partial",
    "Verif.Ops.C35_directory_removed",
    "Verif.Ops.C35_mode_refuted"
   ],
   "note": "False for the mode if setuid/setgid bits are inherited (C35_mode_refuted); owner, group, kind, all other bits, and the exact mode without such bits are proved."
  },
  {
   "property": "C36",
   "status": "partial",
   "theorems": [
    "Verif.Ops.C36_file_converges_partial",
    "Verif.Ops.C36_file_removed",
    "Verif.Ops.C36_mode_refuted"
   ],
   "note": "False for setuid/setgid (C36_mode_refuted: the chown after the chmod clears them); everything else proved."
  },
  {
   "property": "C37",
   "status": "partial",
   "theorems": [
    "Verif.Ops.C37_link_converges_partial",
    "Verif.Ops.C37_link_removed",
    "Verif.Ops.C37_target_refuted",
    "Verif.Ops.C37_owner_refuted"
   ],
   "note": "False for a link that leads to a directory and for the owner if only the target is changed (both refuted); proved otherwise."
  },
  {
   "property": "C38",
   "status": "partial",
   "theorems": [
    "Verif.Ops.C38_store_converges_partial",
    "Verif.Ops.C38_mode_refuted",
    "Verif.Ops.C38_large_mode_refuted"
   ],
   "note": "False for setuid/setgid and for modes beyond 7777 (refuted); proved otherwise, for all four operations."
  },
  {
   "property": "C39",
   "status": "partial",
   "theorems": [
    "Verif.Ops.C39_upload_dir_idempotent_partial",
    "Verif.Ops.C39_directory_idempotent_partial",
    "Verif.Ops.C39_directory_removed_idempotent",
    "Verif.Ops.C39_file_idempotent_partial",
    "Verif.Ops.C39_file_removed_idempotent",
    "Verif.Ops.C39_link_idempotent_partial",
    "Verif.Ops.C39_link_removed_idempotent",
    "Verif.Ops.C39_store_idempotent_partial",
    "Verif.Ops.C39_idempotent_refuted"
   ],
   "note": "False in general (C39_idempotent_refuted); proved for directory, file, link, upload_dir and the uploading operations where they converge, if the default modes are canonical, accounts have no aliases, an owner and group are in force, and touch is not requested. Removal proved without these conditions."
  },
  {
   "property": "C40",
   "status": "partial",
   "theorems": [
    "Verif.Ops.C40_upload_dir_repeatable_partial",
    "Verif.Ops.C40_directory_repeatable",
    "Verif.Ops.C40_directory_removed_repeatable",
    "Verif.Ops.C40_file_repeatable_partial",
    "Verif.Ops.C40_file_removed_repeatable",
    "Verif.Ops.C40_link_repeatable_partial",
    "Verif.Ops.C40_link_removed_repeatable",
    "Verif.Ops.C40_store_repeatable_partial",
    "Verif.Ops.C40_mode_refuted"
   ],
   "note": "Proved for every interruption point (request lost, or answer lost) and every failure of a tool, for directory, removal, and for the others (including upload_dir, whose trees may be interrupted anywhere) under the conditions under which they converge; false for setuid files (C40_mode_refuted)."
  },
  {
   "property": "C41",
   "status": "partial",
   "theorems": [
    "Verif.Ops.C41_line_added",
    "Verif.Ops.C41_line_break_refuted"
   ],
   "note": "Proved for every proper line (text without a line break); false for a text that contains a line break, which is added on every run (refuted)."
  },
  {
   "property": "C42",
   "status": "partial",
   "theorems": [
    "Verif.Ops.C42_added_exactly",
    "Verif.Ops.C42_added_lines_partial",
    "Verif.Ops.C42_removed_lines_partial",
    "Verif.Ops.C42_terminators_refuted",
    "Verif.Ops.C42_only_line_refuted"
   ],
   "note": "Adding: exact bytes proved for files whose only line breaks are newlines; removing: all other lines stay. False for other line breaks and for the last remaining line (both refuted)."
  },
  {
   "property": "C43",
   "status": "partial",
   "theorems": [
    "Verif.Ops.C43_line_removed_partial",
    "Verif.Ops.C43_matches_removed_partial",
    "Verif.Ops.C43_whitespace_refuted",
    "Verif.Ops.C43_empty_line_refuted"
   ],
   "note": "Proved for lines that are not blank and, with ignore_whitespace, have no surrounding whitespace; and for regular expressions. False otherwise (both refuted)."
  },
  {
   "property": "C44",
   "status": "partial",
   "theorems": [
    "Verif.Ops.C44_backup_first",
    "Verif.Ops.C44_name_refuted"
   ],
   "note": "The copy is made first, proved for every interruption. The default name differs from the documented one (refuted)."
  },
  {
   "property": "C45",
   "status": "proved",
   "theorems": [
    "Verif.Ops.C45_metadata_kept",
    "Verif.Ops.C45_new_file"
   ],
   "note": ""
  },
  {
   "property": "C46",
   "status": "partial",
   "theorems": [
    "Verif.Ops.C46_mirrored_partial",
    "Verif.Ops.C46_frame_partial",
    "Verif.Ops.C46_directories_first_partial",
    "Verif.Ops.C46_each_once",
    "Verif.Ops.C46_links_refuted",
    "Verif.Ops.C46_dotdot_refuted",
    "Verif.Ops.C46_slash_refuted"
   ],
   "note": "Proved on ordinary hosts for trees with proper file names: every entry is mirrored, nothing else is touched, at any interruption the parents are there first; every path occurs once (for all answers). Refuted for symlinks to files, for sources ending in '..' and for destinations starting with '//'."
  },
  {
   "property": "C47",
   "status": "partial",
   "theorems": [
    "Verif.Inventory.C47_precedence_partial",
    "Verif.Inventory.C47_inventory_refuted",
    "Verif.Ops.C47_template_sees_partial"
   ],
   "note": "Explicit context variables win over the host's, proved for all contexts. C47_inventory_refuted: templates see the host under the name `inventory`."
  },
  {
   "property": "C48",
   "status": "partial",
   "theorems": [
    "Verif.Ops.C48_acts_on_exactly",
    "Verif.Ops.C48_converges",
    "Verif.Ops.C48_nothing_to_do",
    "Verif.Ops.C48_idempotent",
    "Verif.Ops.C48_duplicates_refuted"
   ],
   "note": "Proved for pacman, portage and apt against a specification of the package managers (query, install and remove); with duplicate names in the list the changed flag is true although nothing is done (refuted)."
  },
  {
   "property": "C49",
   "status": "proved",
   "theorems": [
    "Verif.Ops.C49_package",
    "Verif.Ops.C49_service"
   ],
   "note": "The shell fragment used to probe for commands is given a semantics; proved for every host that follows it."
  },
  {
   "property": "C50",
   "status": "partial",
   "theorems": [
    "Verif.Ops.C50_apt_refuted",
    "Verif.Ops.C50_empty_partial"
   ],
   "note": "Refuted: dpgk-query is not a command, so apt.package fails on every host that has no such command, whatever is installed. Proved: with an empty list of packages it does nothing."
  },
  {
   "property": "C51",
   "status": "partial",
   "theorems": [
    "Verif.Ops.C51_converges_partial",
    "Verif.Ops.C51_removed_partial",
    "Verif.Ops.C51_other_accounts",
    "Verif.Ops.C51_nothing_to_do",
    "Verif.Ops.C51_idempotent_partial",
    "Verif.Ops.C51_false_values_refuted",
    "Verif.Ops.C51_group_by_gid_refuted",
    "Verif.Ops.C51_duplicate_groups_refuted",
    "Verif.Ops.C51_incomplete_account_refuted",
    "Verif.Ops.C51_stale_membership_refuted"
   ],
   "note": "user(): convergence, removal, frame and idempotence for all databases and arguments, given a specification of useradd/usermod/userdel (UserTools, shown to be met by a model of them). Excluded and refuted: values Python takes for false, groups given by gid, groups given twice, accounts without a password entry, groups that already list a user that does not exist."
  },
  {
   "property": "C52",
   "status": "partial",
   "theorems": [
    "Verif.Ops.C52_converges_partial",
    "Verif.Ops.C52_other_groups",
    "Verif.Ops.C52_nothing_to_do",
    "Verif.Ops.C52_idempotent",
    "Verif.Ops.C52_gid_zero_refuted"
   ],
   "note": "Proved against a specification of groupadd, groupmod and groupdel. Convergence excludes the gid 0, for which it is refuted; idempotence and the frame hold for every gid. Names made of digits, which are taken for gids, are excluded."
  },
  {
   "property": "C53",
   "status": "partial",
   "theorems": [
    "Verif.Ops.C53_daemon_reload",
    "Verif.Ops.C53_reaches_partial",
    "Verif.Ops.C53_unknown_state",
    "Verif.Ops.C53_dry_run",
    "Verif.Ops.C53_nothing_to_do_partial",
    "Verif.Ops.C53_idempotent_partial",
    "Verif.Ops.C53_changed_flag_refuted",
    "Verif.Ops.C53_user_mode_refuted",
    "Verif.Ops.C53_reloading_refuted"
   ],
   "note": "systemd.service on a host whose systemctl keeps to a specification (Systemd, shown to be met by a model of it). Refuted: the changed flag is always true if only one of state/enabled is given; with user_mode the state of the system unit is looked at; a unit that is reloading is taken for stopped. daemon_reload: every trace is one daemon-reload command of the right instance, none in a dry run."
  },
  {
   "property": "C54",
   "status": "partial",
   "theorems": [
    "Verif.Ops.C54_right_origin",
    "Verif.Ops.C54_other_origin_fails",
    "Verif.Ops.C54_no_update_offline",
    "Verif.Ops.C54_other_origin_untouched",
    "Verif.Ops.C54_no_update_untouched",
    "Verif.Ops.C54_dry_run",
    "Verif.Ops.C54_up_to_date_partial",
    "Verif.Ops.C54_idempotent_partial",
    "Verif.Ops.C54_other_branch_refuted",
    "Verif.Ops.C54_tag_refuted",
    "Verif.Ops.C54_other_origin_unnoticed_refuted"
   ],
   "note": "Trace level, for every answer of the host: commands that can change something run only after the origin was reported equal to url (or the path did not exist), never in a dry run; another origin makes the operation fail; update=False with an existing path runs only rev-parse. Host level (git as a specification, upstream constant during the run): a clone of another url is untouched, dry runs change nothing, after success the checked-out commit is the upstream commit (fresh clones: any ref; existing clones: if the checked-out branch follows the requested one, without local commits), and a second run has no effect (branches). Refuted: branches are never switched although success is reported; annotated tags fail on the second run; another origin goes unnoticed in dry runs or at the same commit. git is assumed to print ASCII words for commit ids and origins."
  },
  {
   "property": "C55",
   "status": "proved",
   "theorems": [
    "Verif.Inventory.C55_rank_sort",
    "Verif.Inventory.C55_order",
    "Verif.Inventory.C55_cycle_rejected"
   ],
   "note": ""
  },
  {
   "property": "C56",
   "status": "proved",
   "theorems": [
    "Verif.Inventory.C56_same_constraints",
    "Verif.Inventory.C56_before_is_after",
    "Verif.Inventory.C56_self_rejected",
    "Verif.Inventory.C56_unknown_rejected"
   ],
   "note": ""
  },
  {
   "property": "C57",
   "status": "proved",
   "theorems": [
    "Verif.Inventory.C57_loads_iff_valid",
    "Verif.Inventory.C57_value_error",
    "Verif.Inventory.C57_names"
   ],
   "note": ""
  },
  {
   "property": "C58",
   "status": "proved",
   "theorems": [
    "Verif.Inventory.C58_all_first",
    "Verif.Inventory.C58_before_all_rejected"
   ],
   "note": "early-explicits stands for the variables of the host declaration. It is ordered before 'all' only if 'all' is not declared, explicitly or by use (MustPrecede.early)."
  },
  {
   "property": "C59",
   "status": "proved",
   "theorems": [
    "Verif.Inventory.C59_last_definition",
    "Verif.Inventory.C59_declaration",
    "Verif.Inventory.C59_inventory",
    "Verif.Inventory.C59_inventory_variables",
    "Verif.Inventory.C59_script",
    "Verif.Inventory.C59_load"
   ],
   "note": "The module body is any function of the variables it is given and the content of objects. `all` counts as defined before all other groups. A variable called `host` is defined by fora itself for every module."
  },
  {
   "property": "C60",
   "status": "partial",
   "theorems": [
    "Verif.Inventory.C60_apart_partial",
    "Verif.Inventory.C60_same_rank_rejected_partial",
    "Verif.Inventory.C60_different_rank_refuted",
    "Verif.Inventory.C60_ordered_refuted",
    "Verif.Inventory.C60_set_order_refuted",
    "Verif.Inventory.C60_value_refuted",
    "Verif.Inventory.C60_declaration_refuted"
   ],
   "note": "Two groups of equal rank that set a variable to different objects other than None are rejected, proved for all inventories (C60_same_rank_rejected_partial), and what is checked in general is C60_apart_partial. The claim itself is refuted: C60_different_rank_refuted, C60_ordered_refuted, C60_set_order_refuted, C60_value_refuted, C60_declaration_refuted."
  },
  {
   "property": "C61",
   "status": "partial",
   "theorems": [
    "Verif.Run.C61_stack_and_indentation",
    "Verif.Run.C61_script_and_directory_partial",
    "Verif.Run.C61_script_and_directory_refuted"
   ],
   "note": "The stack and the indentation are restored however the script ends. The active script and the working directory are if the previous working directory still exists and may be entered; otherwise os.chdir in the finally block raises and they are left as the script had them (refuted in general)."
  },
  {
   "property": "C62",
   "status": "partial",
   "theorems": [
    "Verif.Run.C62_recursive_allowed",
    "Verif.Run.C62_recursion_refuted"
   ],
   "note": "False of the code: definition_file() of a running script is its directory, so no script file is ever the same file. Proved: with recursive=True the check never refuses; refuted: a script that calls itself is run."
  },
  {
   "property": "C63",
   "status": "partial",
   "theorems": [
    "Verif.Run.C63_values",
    "Verif.Run.C63_required_partial",
    "Verif.Run.C63_required_refuted"
   ],
   "note": "Values and errors are proved for all declarations and parameters. Names that every class has as attributes, such as mro, count as having a default (refuted)."
  },
  {
   "property": "C64",
   "status": "proved",
   "theorems": [
    "Verif.Run.C64_wanted",
    "Verif.Run.C64_unknown",
    "Verif.Run.C64_known",
    "Verif.Run.C64_all"
   ],
   "note": ""
  },
  {
   "property": "C65",
   "status": "partial",
   "theorems": [
    "Verif.Inventory.C65_keeps_schema",
    "Verif.Inventory.C65_idempotent",
    "Verif.Inventory.C65_round_trip",
    "Verif.Inventory.C65_local",
    "Verif.Inventory.C65_other_schemas",
    "Verif.Inventory.C65_port_refuted"
   ],
   "note": "Proved for all host names with an optional user. C65_port_refuted: 'host:22' is taken for a url with the schema 'host', so that no ssh url results."
  },
  {
   "property": "C66",
   "status": "partial",
   "theorems": [
    "Verif.Inventory.C66_declared_hosts",
    "Verif.Inventory.C66_destination",
    "Verif.Inventory.C66_hostname_partial",
    "Verif.Inventory.C66_hostname_refuted",
    "Verif.Inventory.C66_ipv6_refuted",
    "Verif.Inventory.C66_connector",
    "Verif.Inventory.C66_schemas"
   ],
   "note": "The destination given to ssh is proved for all urls. C66_hostname_refuted: extract_hostname cuts two characters from 'ssh:host'; C66_ipv6_refuted: the name of 'ssh://[::1]:22' is '['. C66_hostname_partial is the case in which the name is right. C66_declared_hosts: the hosts of an inventory that loads are those declared, and are connected to by the url that was declared."
  },
  {
   "property": "C67",
   "status": "partial",
   "theorems": [
    "Verif.Inventory.C67_read_back_partial",
    "Verif.Inventory.C67_others",
    "Verif.Inventory.C67_module_shadows",
    "Verif.Inventory.C67_read_back_refuted"
   ],
   "note": "A value assigned to a wrapper is read back when the module does not define the name. C67_read_back_refuted: names with one underscore are written to one place and read from another."
  },
  {
   "property": "C68",
   "status": "partial",
   "theorems": [
    "Verif.Inventory.C68_no_private",
    "Verif.Inventory.C68_agree_partial",
    "Verif.Inventory.C68_agree_no_script",
    "Verif.Inventory.C68_host_shadows",
    "Verif.Inventory.C68_agree_refuted"
   ],
   "note": "vars_hierarchical and attribute access agree for variables that are set at the host. C68_agree_refuted: they differ if the host has an imported module of the same name as a variable of the script."
  },
  {
   "property": "C69",
   "status": "partial",
   "theorems": [
    "Verif.Script.C69_download_any_answer",
    "Verif.Script.C69_download_or",
    "Verif.Script.C69_query_group",
    "Verif.Script.C69_query_user_partial",
    "Verif.Script.C69_query_user_refuted",
    "Verif.Script.C69_home_dir",
    "Verif.Script.C69_home_dir_self",
    "Verif.Script.C69_getenv"
   ],
   "note": "download_or, query_group, home_dir and getenv proved; query_user is false for accounts without a primary group (C69_query_user_refuted), proved for all others."
  },
  {
   "property": "C70",
   "status": "proved",
   "theorems": [
    "Verif.Ops.C70_arguments_are_not_options"
   ],
   "note": "Hypotheses: the inventory's base settings and the names that the remote resolves do not start with '-'. The options argument of apt, pacman and portage is exempt by design."
  },
  {
   "property": "C71",
   "status": "partial",
   "theorems": [
    "Verif.Run.C71_unchanged",
    "Verif.Run.C71_cut",
    "Verif.Run.C71_width_partial",
    "Verif.Run.C71_width_refuted",
    "Verif.Run.C71_indentation"
   ],
   "note": "Proved for every width of at least 1; refuted for a width of 0. That indentation is balanced is C61_stack_and_indentation."
  },
  {
   "property": "C72",
   "status": "partial",
   "theorems": [
    "Verif.Inventory.C72_isolated_partial",
    "Verif.Inventory.C72_isolated_refuted"
   ],
   "note": "Proved for modules that do not change existing objects. C72_isolated_refuted: objects of the inventory are shared by all hosts."
  },
  {
   "property": "C73",
   "status": "proved",
   "theorems": [
    "Verif.Run.C73_runs_in_own_directory",
    "Verif.Run.C73_runs",
    "Verif.Run.C73_not_run"
   ],
   "note": ""
  },
  {
   "property": "C74",
   "status": "proved",
   "theorems": [
    "Verif.Run.C74_exception_has_stack",
    "Verif.Run.C74_innermost",
    "Verif.Run.C74_own_stack"
   ],
   "note": ""
  },
  {
   "property": "C75",
   "status": "partial",
   "theorems": [
    "Verif.Run.C75_harmless_partial",
    "Verif.Run.C75_text",
    "Verif.Run.C75_escapes",
    "Verif.Run.C75_printable_refuted",
    "Verif.Run.C75_distinct_refuted"
   ],
   "note": "No line breaks or control characters for all bytes; text is unchanged. Refuted: other characters that are not printable are not escaped, and different content may look the same."
  },
  {
   "property": "C76",
   "status": "proved",
   "theorems": [
    "Verif.Ops.C76_only_what_was_asked",
    "Verif.Ops.C76_upload_dir"
   ],
   "note": "C76_only_what_was_asked ranges over every operation but upload_dir, with the allowed commands spelled out in Ops/AuthoritySpec.lean; C76_upload_dir is the same for upload_dir, for source trees with ordinary file names and destinations given by a normal path. Which mode, owner or content is right is the subject of C35 to C46."
  },
  {
   "property": "C77",
   "status": "partial",
   "theorems": [
    "Verif.Inventory.C77_single_host",
    "Verif.Inventory.C77_host_name",
    "Verif.Inventory.C77_module",
    "Verif.Inventory.C77_fatal_refuted"
   ],
   "note": "C77_single_host and C77_host_name for single hosts, C77_module for modules, which are black boxes; C77_fatal_refuted shows the exception that is not turned into a FatalError."
  },
  {
   "property": "C78",
   "status": "partial",
   "theorems": [
    "Verif.Ops.C78_one_summary_partial",
    "Verif.Ops.C78_upload_dir_partial",
    "Verif.Ops.C78_upload_dir_arguments_refuted",
    "Verif.Ops.C78_search_refuted"
   ],
   "note": "For every execution of every operation, whatever the answers. Refuted for argument errors of upload_dir, and for package/service if the search for a manager raises an exception (C78_search_refuted); both print nothing. These are the only exceptions."
  },
  {
   "property": "C79",
   "status": "proved",
   "theorems": [
    "Verif.Ops.C79_stored_diff",
    "Verif.Ops.C79_line_diff"
   ],
   "note": "The new side of the diff is tied to what a real run (with any schedule of connection errors) leaves on the host, assuming that the checksum of the wanted content is not that of another content (for uploads), and that the path of a backup is not occupied by something else (for line). How the diff is formatted by difflib is not modelled."
  },
  {
   "property": "C80",
   "status": "proved",
   "theorems": [
    "Verif.Client.C80_upload",
    "Verif.Client.C80_run",
    "Verif.Client.C80_accounts",
    "Verif.Client.C80_download"
   ],
   "note": "C80_upload, C80_run, C80_accounts, C80_download: whichever arguments are wrong, the message blames one that is. Other failures of the dispatcher (for example chown refused by the kernel) are passed on as RemoteOSError and are not part of this claim."
  },
  {
   "property": "C81",
   "status": "partial",
   "theorems": [
    "Verif.Ops.C81_directory",
    "Verif.Ops.C81_file",
    "Verif.Ops.C81_link",
    "Verif.Ops.C81_content",
    "Verif.Ops.C81_line",
    "Verif.Ops.C81_user",
    "Verif.Ops.C81_group",
    "Verif.Ops.C81_packages",
    "Verif.Ops.C81_service_partial",
    "Verif.Ops.C81_reload",
    "Verif.Ops.C81_repo",
    "Verif.Ops.C81_user_mode_refuted",
    "Verif.Ops.C81_reloading_refuted"
   ],
   "note": "C81_directory, C81_file, C81_link, C81_content, C81_line, C81_user, C81_group, C81_packages, C81_reload, C81_repo and C81_service_partial give both states key by key, over any schedule of lost connections. upload_dir reports the results of its parts, each of which is a directory or content operation. For user the arguments must not be falsy (uid 0, empty texts; see C47). False: C81_user_mode_refuted (the states of the system unit are reported for a user unit) and C81_reloading_refuted."
  },
  {
   "property": "C82",
   "status": "partial",
   "theorems": [
    "Verif.Run.C82_values",
    "Verif.Run.C82_text",
    "Verif.Run.C82_failed",
    "Verif.Run.C82_no_changes",
    "Verif.Run.C82_changes_shown_partial",
    "Verif.Run.C82_verbose",
    "Verif.Run.C82_brief",
    "Verif.Run.C82_unchanged",
    "Verif.Run.C82_diffs",
    "Verif.Run.C82_no_diffs",
    "Verif.Run.C82_early",
    "Verif.Run.C82_completes",
    "Verif.Run.C82_no_color_partial",
    "Verif.Run.C82_no_color_refuted",
    "Verif.Run.C82_changes_shown_refuted",
    "Verif.Run.C82_escapes_refuted"
   ],
   "note": "Proved for all results and options: the text without colours is exactly the documented lines. False for values that become None (nothing is shown although the result says changed), for diffs with --no-color (they are always coloured), and values are printed unescaped. The diff algorithm and Python's repr are arguments."
  },
  {
   "property": "C83",
   "status": "partial",
   "theorems": [
    "Verif.Ops.C83_calls_complete",
    "Verif.Ops.C83_calls_idempotent_partial",
    "Verif.Ops.C83_calls_resumable_partial",
    "Verif.Ops.C83_deploy_complete",
    "Verif.Ops.C83_deploy_idempotent_partial",
    "Verif.Ops.C83_deploy_resumable_partial",
    "Verif.Ops.C83_same_path_refuted",
    "Verif.Ops.C83_removed_way_refuted"
   ],
   "note": "Proved for scripts of directory, file and link (also with present=False), upload, upload_content, template, template_content and upload_dir calls on different paths below directories that are not symbolic links, under the conditions of C39 and C40 for single operations; where a link is asked for there is nothing, or a link to the same target. False if two operations disagree about one path (C83_same_path_refuted) or one removes what is on the way of another (C83_removed_way_refuted). For upload_dir see the theorems C83_calls_*."
  },
  {
   "property": "C84",
   "status": "proved",
   "theorems": [
    "Verif.Ops.C84_diff_only_looks",
    "Verif.Ops.C84_display_host",
    "Verif.Ops.C84_scripts_host",
    "Verif.Program.C84_program"
   ],
   "note": "Proved for all operations and lists of operations, for scripts with any control flow whose own code does not look at these options, and for runs of the whole program. On the host it is assumed that a file that stat does not find is not found when opened either; without that assumption, and for connections that break, the theorem over all answers says what may differ. The options -v, --no-color and --debug only occur in the text of summaries (Run/Report.lean)."
  },
  {
   "property": "C85",
   "status": "partial",
   "theorems": [
    "Verif.Inventory.C85_rows",
    "Verif.Inventory.C85_order",
    "Verif.Inventory.C85_defined_by_partial",
    "Verif.Inventory.C85_none_refuted",
    "Verif.Inventory.C85_deleted_refuted"
   ],
   "note": "Proved: inspection succeeds, shows every public variable with the value a script finds, in the stated order, and names the right modules for variables that are used in the ordinary way. Partial because the full statement is false: variables that are None all of the time and deleted variables are attributed wrongly (refuted theorems)."
  },
  {
   "property": "C86",
   "status": "partial",
   "theorems": [
    "Verif.Run.C86_succeeds",
    "Verif.Run.C86_lines",
    "Verif.Run.C86_columns",
    "Verif.Run.C86_heading",
    "Verif.Run.C86_fit_refuted",
    "Verif.Inventory.C86_origins",
    "Verif.Inventory.C86_inspection"
   ],
   "note": "Proved for all tables and terminals. Partial because the claim that columns are aligned whenever the terminal is wide enough is false (refuted theorem); a sufficient condition is proved instead."
  },
  {
   "property": "C87",
   "status": "proved",
   "theorems": [
    "Verif.Run.Init.C87_consent",
    "Verif.Run.Init.C87_contained",
    "Verif.Run.Init.C87_success",
    "Verif.Run.Init.C87_usable",
    "Verif.Run.Init.C87_modules",
    "Verif.Run.Init.C87_fresh",
    "Verif.Run.Init.C87_choices",
    "Verif.Run.Init.C87_resume"
   ],
   "note": "Proved for all directories without symbolic links. The texts of the files are a parameter. Interruption is possible before every system call."
  },
  {
   "property": "C88",
   "status": "partial",
   "theorems": [
    "Verif.Program.C88_independent",
    "Verif.Program.C88_connections",
    "Verif.Program.C88_left_behind",
    "Verif.Program.C88_dry_run",
    "Verif.Program.C88_reports",
    "Verif.Program.C88_deployed_partial",
    "Verif.Program.C88_again_partial",
    "Verif.Program.C88_resumed_partial",
    "Verif.Program.C88_predicted_partial"
   ],
   "note": "The statements about arbitrary scripts are proved without conditions on the hosts (dry runs and reports: programs that are for looking change nothing). Those about what is asked for, repetition, resumption and prediction are proved under the conditions of C83 and C30 on each host. Two hosts of an inventory are assumed to be two machines."
  },
  {
   "property": "C89",
   "status": "partial",
   "theorems": [
    "Verif.Inventory.C89_paths_partial",
    "Verif.Inventory.C89_default_partial",
    "Verif.Inventory.C89_distinct",
    "Verif.Inventory.C89_only_modules",
    "Verif.Inventory.C89_explicit",
    "Verif.Inventory.C89_inside_refuted"
   ],
   "note": "False for names that begin with a slash (C89_inside_refuted); C89_paths_partial, C89_only_modules and C89_explicit hold for all other names and the usual directories."
  },
  {
   "property": "C90",
   "status": "proved",
   "theorems": [
    "Verif.Run.C90_run",
    "Verif.Run.C90_dry",
    "Verif.Run.C90_asked",
    "Verif.Run.C90_immediate",
    "Verif.Run.C90_ambiguous",
    "Verif.Program.C90_dry_hosts",
    "Verif.Program.C90_only_hosts"
   ],
   "note": "An iff between the parser and a grammar of command lines (Means); the semantics of argparse (abbreviations, clusters such as -vH, name=value, --) is modelled as in Python up to 3.11, see Run/Cmdline.lean for simplifications. C90_dry_hosts and C90_only_hosts are about the whole program, from the command line to the hosts."
  },
  {
   "property": "C91",
   "status": "proved",
   "theorems": [
    "Verif.Active.C91_modules",
    "Verif.Active.C91_scripts",
    "Verif.Active.C91_order",
    "Verif.Active.C91_swapped",
    "Verif.Active.C91_without_inventory",
    "Verif.Active.C91_module_error"
   ],
   "note": "User code is a tree of calls whose continuations see the outcomes, so it may depend on them and handle exceptions; user code that assigns to the variables of fora itself, and threads, are not modelled."
  },
  {
   "property": "C92",
   "status": "partial",
   "theorems": [
    "Verif.Failure.C92_report_partial",
    "Verif.Failure.C92_traceback",
    "Verif.Failure.C92_site",
    "Verif.Failure.C92_escaped_refuted",
    "Verif.Failure.C92_uncaptured_refuted"
   ],
   "note": "C92_report_partial needs captured output: C92_uncaptured_refuted shows that an uncaptured failure is reported as an AttributeError. C92_escaped_refuted: the heading promises escaping, but control characters of the output reach the terminal. The text of a command is that of a list, so it begins with a bracket (91). The format of tracebacks is the interpreter's. Chained exceptions are not modelled."
  },
  {
   "property": "C93",
   "status": "partial",
   "theorems": [
    "Verif.Pipes.C93_every_schedule_partial",
    "Verif.Pipes.C93_unfed_hangs",
    "Verif.Pipes.C93_daemon_hangs",
    "Verif.Pipes.C93_unfed_refuted",
    "Verif.Pipes.C93_daemon_refuted",
    "Verif.Pipes.C93_leftover_refuted"
   ],
   "note": "C93_every_schedule_partial needs commands that leave the connection alone (Cmd.Calm): they read only input that was given to them, print without capturing only to standard error, end, and leave no process behind that uses a stream shared with them. C93_unfed_hangs and C93_daemon_hangs show for every host, program and schedule that commands without input that read, and commands that leave a process with their captured output, are never answered; C93_unfed_refuted, C93_daemon_refuted and C93_leftover_refuted refute the general claim. Commands change the host when they start; behaviours of commands are well-founded trees plus staying forever."
  },
  {
   "property": "C94",
   "status": "partial",
   "theorems": [
    "Verif.Ops.C94_site_complete_partial",
    "Verif.Ops.C94_site_idempotent_partial",
    "Verif.Ops.C94_site_resumable_partial",
    "Verif.Ops.C94_interference_refuted"
   ],
   "note": "The full statement is false: C94_interference_refuted. The partial theorems assume that no command that a later call may run (Item.Runs) undoes what an earlier call achieved (Compatible), arguments for which the single operations are correct (Item.Proper; see C48, C51, C52, C53, C54, C83, C99 for what is excluded), an ordinary host (Orderly), and, for the reports of the second run, services with both a state and whether to enable them (Item.Full)."
  },
  {
   "property": "C95",
   "status": "partial",
   "theorems": [
    "Verif.Program.C95_deployed_partial",
    "Verif.Program.C95_again_partial",
    "Verif.Program.C95_resumed_partial",
    "Verif.Program.C95_login_refuted"
   ],
   "note": "The full statement is false, see C94 and C95_login_refuted. The partial theorems assume, for each host that is asked for, what C94 assumes for a single script (Plan, Manageable), and that no command that the calls may run takes away the account that is logged in with. Two hosts of an inventory are assumed to be two machines."
  },
  {
   "property": "C96",
   "status": "partial",
   "theorems": [
    "Verif.Ops.C96_password_partial",
    "Verif.Ops.C96_contents",
    "Verif.Ops.C96_line",
    "Verif.Ops.C96_hashes",
    "Verif.Ops.C96_password_refuted"
   ],
   "note": "C96_contents relates two scripts whose operations differ in the contents that they store only (SameScript in Ops/SecrecySpec.lean): the requests are the same but for these contents, and so are the result and all that is printed. Titles of operations are not modelled; they are built from names and paths. C96_hashes: only user() asks for hashes. C96_password_refuted: user() prints the hash of an existing account with -v, even if the script mentions none. C96_password_partial: without -v, a user() that sets no password makes the same requests, prints the same and ends in the same way whatever the hash is; missing are runs with -v, for which this is false."
  },
  {
   "property": "C97",
   "status": "partial",
   "theorems": [
    "Verif.Ops.C97_lines",
    "Verif.Ops.C97_again",
    "Verif.Ops.C97_order",
    "Verif.Ops.C97_predicted",
    "Verif.Ops.C97_resumable_partial",
    "Verif.Ops.C97_conflict_refuted",
    "Verif.Ops.C97_full_disk_refuted"
   ],
   "note": "LineCall (Ops/LinesSpec.lean) is a call of files.line() without regex and backup. Proper lines are those for which a single call works (C41, C43): text without a line break, not blank, without surrounding whitespace if whitespace is ignored when removing. C97_resumable_partial assumes that the file exists and that writing to an opened file does not fail. C97_conflict_refuted: calls that contradict each other change the file in every run. C97_full_disk_refuted: if the disk is full, the other lines are lost for good, since the file is truncated before it is written."
  },
  {
   "property": "C98",
   "status": "partial",
   "theorems": [
    "Verif.Client.Bootstrap.C98_ssh",
    "Verif.Client.Bootstrap.C98_command",
    "Verif.Client.Bootstrap.C98_only_tools",
    "Verif.Client.Bootstrap.C98_local",
    "Verif.Client.Bootstrap.C98_python3_refuted"
   ],
   "note": "Client/Shell.lean specifies the part of the POSIX shell language and of base64 that is needed (the environment, trusted); Client/Bootstrap.lean models the code. zlib is a parameter with decompress (compress x) = x. The limit of the operating system on the size of an argument is not modelled. C98_python3_refuted: a host on which Python is only called python3 executes an empty program. C98_ssh needs a program called python."
  },
  {
   "property": "C99",
   "status": "partial",
   "theorems": [
    "Verif.Ops.C99_commit_partial",
    "Verif.Ops.C99_submodules_partial",
    "Verif.Ops.C99_submodules_refuted"
   ],
   "note": "git is a specification (GitHost of C54; GitFailures: a command of git that fails leaves the clone as it was). C99_commit_partial: branches only, and existing clones have the given url, follow the requested branch and have no commits of their own. C99_submodules_partial: whenever a change is reported. C99_submodules_refuted: success without submodules after an interruption, or if there already was a clone without them."
  },
  {
   "property": "C100",
   "status": "proved",
   "theorems": [
    "Verif.Ops.C100_dry_run_only_looks",
    "Verif.Ops.C100_dry_run_changes_nothing",
    "Verif.Ops.C100_screen_only_looks",
    "Verif.Ops.C100_screen_changes_nothing",
    "Verif.Ops.C100_defaults",
    "Verif.Program.C100_run_screen"
   ],
   "note": "Scripts are built from operations, code that only looks (any code that leaves the host alone and prints no summaries, including queries of the connection), sequencing, exception handlers, blocks of defaults and calls of other scripts. The statements about the host assume that programs that only look do not change it. Scripts that run commands directly on the connection (fora.host.connection.run) are not covered: these are executed in dry runs too. C88_dry_run and C90_dry_hosts are proved for the same scripts."
  },
  {
   "property": "C101",
   "status": "partial",
   "theorems": [
    "Verif.Ops.C101_files_partial",
    "Verif.Ops.C101_many_partial",
    "Verif.Ops.C101_many_files_partial",
    "Verif.Ops.C101_dry_runs_unnoticed",
    "Verif.Ops.C101_serial_partial",
    "Verif.Ops.C101_lost_line_refuted"
   ],
   "note": "Runs take turns, one request at a time: a request is dealt with before the next one, of whichever run. Both dispatchers run as the same user. Assumed: what programs do does not depend on the history of processes (which exists in the model only). The claim about real runs is refuted by a schedule of two calls of line(); it is proved for any number of runs whose requests can be exchanged, and for scripts about files and directories at different places (no symbolic links on the way, no links asked for, and errors of the environment about one path do not depend on what is at the places of the other script)."
  },
  {
   "property": "C102",
   "status": "proved",
   "theorems": [
    "Verif.Ops.C102_no_memory",
    "Verif.Ops.C102_as_if_first",
    "Verif.Ops.C102_left_out"
   ],
   "note": "Scripts are made of operations and code of the user by sequencing, handlers of exceptions, blocks of defaults and nested scripts; the user's own code is assumed to look at nothing but the host, the settings in force and the options (code that keeps a memory of its own is of course not covered). Operations are those of `Operation` in Ops/Spec.lean (all of the package)."
  },
  {
   "property": "C103",
   "status": "partial",
   "theorems": [
    "Verif.Ops.C103_exchangeable_partial",
    "Verif.Ops.C103_files_partial"
   ],
   "note": "Proved for any number of parts whose requests can be exchanged (whatever operations they call), and for parts that create, fill and remove files and directories on an ordinary host, on the assumptions of C101_many_files_partial (no symbolic links on the way, none asked for, the working directory is not concerned, errors of the environment about one path do not depend on what is at other places), and if the connection is not lost. Not proved for parts that ask for symbolic links, accounts, packages, services or repositories."
  },
  {
   "property": "C104",
   "status": "proved",
   "theorems": [
    "Verif.Program.C104_split"
   ],
   "note": "That the settings stay the same is a hypothesis: it can fail if the first part removes or renames the login account, or removes the working directory."
  },
  {
   "property": "C105",
   "status": "proved",
   "theorems": [
    "Verif.Program.C105_one_by_one",
    "Verif.Program.C105_any_order"
   ],
   "note": "The hosts are different machines and the scripts share nothing but what is modelled (that modules executed for one host may change objects that another host sees is C72_isolated_refuted)."
  },
  {
   "property": "C106",
   "status": "proved",
   "theorems": [
    "Verif.Ops.C106_effort",
    "Verif.Ops.C106_deploy"
   ],
   "note": "The number of requests, not the time that the host takes for each of them. The table of limits is Effort in Ops/EffortSpec.lean. Scripts are lists of operations."
  },
  {
   "property": "C107",
   "status": "proved",
   "theorems": [
    "Verif.Ops.C107_alternatives",
    "Verif.Ops.C107_noticed",
    "Verif.Ops.C107_returned",
    "Verif.Ops.C107_script"
   ],
   "note": "What succeeding and failing means is in Ops/FailSpec.lean. Scripts are lists of operations; a script that catches exceptions may go on."
  },
  {
   "property": "C108",
   "status": "partial",
   "theorems": [
    "Verif.Inventory.C108_documented",
    "Verif.Inventory.C108_malformed_partial",
    "Verif.Inventory.C108_text_for_groups_refuted",
    "Verif.Inventory.C108_text_is_letters",
    "Verif.Inventory.C108_number_for_name_refuted",
    "Verif.Inventory.C108_value_error_refuted"
   ],
   "note": "Partial: that only documented types are accepted is refuted - a text given for groups is taken for the list of its letters, a number is accepted as a name - and rejections need not be ValueErrors. What is rejected is proved for every position and every other content."
  },
  {
   "property": "C109",
   "status": "partial",
   "theorems": [
    "Verif.Ops.C109_bits",
    "Verif.Ops.C109_readers_partial",
    "Verif.Ops.C109_existing_refuted",
    "Verif.Ops.C109_group_refuted"
   ],
   "note": "Partial: the statement about readers is refuted for files that others could read before (the content is written before the mode is set), and for groups (the mode is set before the group is). The statement about bits is proved in full; the one about readers for new files and for files that were private."
  },
  {
   "property": "C110",
   "status": "partial",
   "theorems": [
    "Verif.Ops.C110_store",
    "Verif.Ops.C110_line_added",
    "Verif.Ops.C110_line_removed",
    "Verif.Ops.C110_atomic_refuted",
    "Verif.Ops.C110_lines_lost_refuted"
   ],
   "note": "Partial: that the file always has the complete old or the complete new content is refuted (files are overwritten in place, so an interrupted line() without backup can lose other lines). That there is nothing but the old content or a beginning of the new one is proved in full."
  },
  {
   "property": "C111",
   "status": "partial",
   "theorems": [
    "Verif.Ops.C111_file",
    "Verif.Ops.C111_store",
    "Verif.Ops.C111_directory",
    "Verif.Ops.C111_link",
    "Verif.Ops.C111_group",
    "Verif.Ops.C111_user_partial",
    "Verif.Ops.C111_line_partial",
    "Verif.Ops.C111_line_refuted"
   ],
   "note": "Partial: that line() gives back the same bytes is refuted (an absent or empty file is left with one empty line, and a missing final newline is left added). Files, directories, links, stored content and groups are proved in full; for users the first operation must have succeeded, the arguments be plain and no group have the name as a stale member, and nothing is said about a group of the account's own name."
  },
  {
   "property": "C112",
   "status": "partial",
   "theorems": [
    "Verif.Ops.C112_store_partial",
    "Verif.Ops.C112_removed",
    "Verif.Ops.C112_file_partial",
    "Verif.Ops.C112_directory_partial",
    "Verif.Ops.C112_directory_refuted"
   ],
   "note": "Partial: refuted for directories that were setuid or setgid (chmod with a numeric mode does not clear these bits on directories, and the operation succeeds nevertheless). Proved for directories if earlier modes have no such bits, for files and stored content if the last mode has none (see C13 for these), and for removal without restriction."
  },
  {
   "property": "C113",
   "status": "proved",
   "theorems": [
    "Verif.Inventory.C113_overview",
    "Verif.Inventory.C113_groups"
   ],
   "note": "Names and texts that begin with a control sequence are excluded (Texts.Readable): print_table takes them for colours. What is true of the rows of the tables is C85, of their columns C86."
  },
  {
   "property": "C114",
   "status": "proved",
   "theorems": [
    "Verif.Run.Transcript.C114_script",
    "Verif.Run.Transcript.C114_run",
    "Verif.Run.Transcript.C114_exactly",
    "Verif.Run.Transcript.C114_determined"
   ],
   "note": "The standard error (output of failed commands, debug output) is not modelled; it may share the screen. That every operation has exactly one summary is C78, what a summary says is C82."
  },
  {
   "property": "C115",
   "status": "partial",
   "theorems": [
    "Verif.Script.C115_values",
    "Verif.Script.C115_wrong_arguments",
    "Verif.Script.C115_settings_partial",
    "Verif.Script.C115_by_position_refuted"
   ],
   "note": "C115_values, C115_wrong_arguments for all operations of the table in Script/Args.lean; C115_settings_partial if check and name are not given by position; C115_by_position_refuted shows for every operation that they are ignored if they are. package and service of fora.operations.system are plain functions that pass both on by name."
  }
 ]
}
