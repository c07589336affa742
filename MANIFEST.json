{
 "claims": [
  {
   "property": "C01",
   "status": "proved",
   "theorems": [
    "Qrexec.C01_resolution_is_of_first_match",
    "Qrexec.C01_first_match_decides",
    "Qrexec.C01_first_match_ask"
   ],
   "note": ""
  },
  {
   "property": "C02",
   "status": "proved",
   "theorems": [
    "Qrexec.C02_default_deny",
    "Qrexec.C02_no_match_no_resolution",
    "Qrexec.C02_frontend"
   ],
   "note": ""
  },
  {
   "property": "C03",
   "status": "proved",
   "theorems": [
    "Qrexec.C03_deny_is_final",
    "Qrexec.C03_frontend"
   ],
   "note": ""
  },
  {
   "property": "C05",
   "status": "proved",
   "theorems": [
    "Qrexec.C05_allow_target",
    "Qrexec.C05_no_keyword_target",
    "Qrexec.C05_target_unique",
    "Qrexec.C05_otherwise_denied"
   ],
   "note": ""
  },
  {
   "property": "C06",
   "status": "proved",
   "theorems": [
    "Qrexec.C06_token_grammar",
    "Qrexec.C06_only_syntax_errors",
    "Qrexec.C06_text_kept"
   ],
   "note": ""
  },
  {
   "property": "C07",
   "status": "proved",
   "theorems": [
    "Qrexec.C07_dom0_keywords",
    "Qrexec.C07_dom0_by_name",
    "Qrexec.C07_dom0_needs_mention"
   ],
   "note": ""
  },
  {
   "property": "C08",
   "status": "proved",
   "theorems": [
    "Qrexec.C08_request_by_name_or_uuid",
    "Qrexec.C08_rule_by_name_or_uuid",
    "Qrexec.C08_same_deciding_rule",
    "Qrexec.C08_system_info_consistent"
   ],
   "note": ""
  },
  {
   "property": "C09",
   "status": "proved",
   "theorems": [
    "Qrexec.C09_type_and_tag",
    "Qrexec.C09_not_keywords"
   ],
   "note": ""
  },
  {
   "property": "C10",
   "status": "partial",
   "theorems": [
    "Qrexec.C10_plain_dispvm",
    "Qrexec.C10_dispvm_rules_partial",
    "Qrexec.C10_violated_no_default",
    "Qrexec.C10_violated_uuid"
   ],
   "note": "the code violates the full statement (AttributeError without default template; @dispvm:uuid: rules do not match plain @dispvm)"
  },
  {
   "property": "C11",
   "status": "partial",
   "theorems": [
    "Qrexec.C11_total_partial",
    "Qrexec.C11_violated_no_default",
    "Qrexec.C11_violated_missing_template",
    "Qrexec.C11_violated_ask_target",
    "Qrexec.C11_frontend_partial",
    "Qrexec.C11_violated_ask_dispvm",
    "Qrexec.C11_violated_unknown_source"
   ],
   "note": "the code violates the full statement in five situations, each shown by a theorem; proved outside of them"
  },
  {
   "property": "C12",
   "status": "proved",
   "theorems": [
    "Qrexec.C12_missing_target_is_default",
    "Qrexec.C12_empty_target_is_default",
    "Qrexec.C12_bad_dispvm_template_denied"
   ],
   "note": ""
  },
  {
   "property": "C13",
   "status": "proved",
   "theorems": [
    "Qrexec.C05_allow_target",
    "Qrexec.C13_ask_no_autostart",
    "Qrexec.C13_answer"
   ],
   "note": ""
  },
  {
   "property": "C14",
   "status": "proved",
   "theorems": [
    "Qrexec.C14_offered_targets_valid"
   ],
   "note": ""
  },
  {
   "property": "C15",
   "status": "partial",
   "theorems": [
    "Qrexec.C15_names_means_covers",
    "Qrexec.C15_ask_offers_partial",
    "Qrexec.C15_offered_exactly",
    "Qrexec.C15_violated_dom0",
    "Qrexec.C15_violated_dispvm"
   ],
   "note": "the code violates the full statement for aliases of dom0 and the default disposable; proved with the code's notion of what a rule names"
  },
  {
   "property": "C17",
   "status": "proved",
   "theorems": [
    "Qrexec.C17_default_target"
   ],
   "note": ""
  },
  {
   "property": "C29",
   "status": "proved",
   "theorems": [
    "Qrexec.C29_irrelevant_rule"
   ],
   "note": ""
  },
  {
   "property": "C30",
   "status": "proved",
   "theorems": [
    "Qrexec.C30_deny_never_grants",
    "Qrexec.C30_allow_unchanged"
   ],
   "note": ""
  },
  {
   "property": "C04",
   "status": "proved",
   "theorems": [
    "Qrexec.C04_no_allow_without_grant"
   ],
   "note": ""
  },
  {
   "property": "C16",
   "status": "proved",
   "theorems": [
    "Qrexec.C16_only_offered",
    "Qrexec.C16_other_replies_refused",
    "Qrexec.C16_approved",
    "Qrexec.C16_approved_any"
   ],
   "note": ""
  },
  {
   "property": "C18",
   "status": "partial",
   "theorems": [
    "Qrexec.C18_no_loopback_partial",
    "Qrexec.C18_violated_uuid",
    "Qrexec.C18_violated_relay"
   ],
   "note": "violated by the code when the caller names itself by UUID, and when a relay calls a domain it relays for; proved otherwise"
  },
  {
   "property": "C19",
   "status": "proved",
   "theorems": [
    "Qrexec.C19_source_of_request",
    "Qrexec.C19_otherwise_refused"
   ],
   "note": ""
  },
  {
   "property": "C20",
   "status": "partial",
   "theorems": [
    "Qrexec.C20_through_relay_partial",
    "Qrexec.C20_no_relay_refused",
    "Qrexec.C20_violated_redirect"
   ],
   "note": "with a redirect to a remote domain the service line names the requested, not the resolved target"
  },
  {
   "property": "C21",
   "status": "partial",
   "theorems": [
    "Qrexec.C21_every_answer_reads_back",
    "Qrexec.C21_answer_reads_back_partial",
    "Qrexec.C21_violated_remote"
   ],
   "note": "needs: no newline in the service call when the target is a remote domain (guaranteed by the daemon protocol, not by handle_request itself)"
  },
  {
   "property": "C46",
   "status": "partial",
   "theorems": [
    "Qrexec.C46_allowed_partial",
    "Qrexec.C46_just_evaluate",
    "Qrexec.C46_user_denied",
    "Qrexec.C03_frontend",
    "Qrexec.C02_frontend",
    "Qrexec.C46_violated_loopback"
   ],
   "note": "an allow notification is sent before the loopback/relay refusal; that a failing notification cannot change the answer is built into the model"
  },
  {
   "property": "C23",
   "status": "proved",
   "theorems": [
    "Qrexec.C23_rule_line",
    "Qrexec.C23_otherwise_syntax_error",
    "Qrexec.C23_unambiguous",
    "Qrexec.C23_five_fields",
    "Qrexec.C23_defaults",
    "Qrexec.C23_blanks"
   ],
   "note": ""
  },
  {
   "property": "C24",
   "status": "proved",
   "theorems": [
    "Qrexec.C24_file",
    "Qrexec.C24_policy",
    "Qrexec.C24_content_exists"
   ],
   "note": ""
  },
  {
   "property": "C25",
   "status": "proved",
   "theorems": [
    "Qrexec.C25_load_order",
    "Qrexec.C25_order_unique",
    "Qrexec.C25_listing_order",
    "Qrexec.C25_override"
   ],
   "note": ""
  },
  {
   "property": "C26",
   "status": "proved",
   "theorems": [
    "Qrexec.C26_bad_name",
    "Qrexec.C26_missing_dir",
    "Qrexec.C26_bad_file",
    "Qrexec.C26_bad_line",
    "Qrexec.C26_errors",
    "Qrexec.C26_fail_closed",
    "Qrexec.C26_syntax_error_denied",
    "Qrexec.C26_ignored_files",
    "Qrexec.C26_loaded_rules_parsed"
   ],
   "note": ""
  },
  {
   "property": "C27",
   "status": "proved",
   "theorems": [
    "Qrexec.C27_include",
    "Qrexec.C27_which_file",
    "Qrexec.C27_missing",
    "Qrexec.C27_same_as_inline",
    "Qrexec.C27_include_dir",
    "Qrexec.C27_depth",
    "Qrexec.C27_self_include",
    "Qrexec.C27_include_service"
   ],
   "note": ""
  },
  {
   "property": "C28",
   "status": "proved",
   "theorems": [
    "Qrexec.C28_no_fall_through"
   ],
   "note": ""
  },
  {
   "property": "C31",
   "status": "proved",
   "theorems": [
    "Qrexec.C31_replace",
    "Qrexec.C31_remove",
    "Qrexec.C31_no_lost_update",
    "Qrexec.C31_no_lost_update_remove",
    "Qrexec.C31_stale_token",
    "Qrexec.C31_concurrent",
    "Qrexec.C31_lock_excludes",
    "Qrexec.C31_concurrent_replace"
   ],
   "note": ""
  },
  {
   "property": "C32",
   "status": "proved",
   "theorems": [
    "Qrexec.C32_replace_get",
    "Qrexec.C32_remove_get",
    "Qrexec.C32_list",
    "Qrexec.C32_replace_names",
    "Qrexec.C32_remove_names"
   ],
   "note": ""
  },
  {
   "property": "C33",
   "status": "proved",
   "theorems": [
    "Qrexec.C33_rejected",
    "Qrexec.C33_failed",
    "Qrexec.C33_read_only"
   ],
   "note": ""
  },
  {
   "property": "C34",
   "status": "proved",
   "theorems": [
    "Qrexec.C34_confined",
    "Qrexec.C34_which",
    "Qrexec.C34_get_reads"
   ],
   "note": ""
  },
  {
   "property": "C35",
   "status": "partial",
   "theorems": [
    "Qrexec.C35_replace_partial",
    "Qrexec.C35_remove_partial",
    "Qrexec.C35_uppercase_violation",
    "Qrexec.C35_cr_violation",
    "Qrexec.C35_legacy_violation"
   ],
   "note": "False of the code for capital letters in names, lone carriage returns and files only included by the legacy policy (proved as violations); proved otherwise, without symbolic links in the listed directories."
  },
  {
   "property": "C36",
   "status": "proved",
   "theorems": [
    "Qrexec.C36_old_or_new",
    "Qrexec.C36_remove",
    "Qrexec.C36_policy",
    "Qrexec.C36_include",
    "Qrexec.C36_stuck"
   ],
   "note": "C36_stuck records that a crash in the middle blocks the API until the temporary file is removed."
  },
  {
   "property": "C37",
   "status": "proved",
   "theorems": [
    "Qrexec.C37_fresh",
    "Qrexec.C37_current",
    "Qrexec.C37_failed_load_retried",
    "Qrexec.C37_not_reloaded",
    "Qrexec.C37_startup_gap"
   ],
   "note": "C37_startup_gap: edits between the daemon's first load and the start of watching are never noticed (no notification exists for them)"
  },
  {
   "property": "C38",
   "status": "proved",
   "theorems": [
    "Qrexec.C38_answered",
    "Qrexec.C38_nothing_else",
    "Qrexec.C38_unambiguous",
    "Qrexec.C38_truncated"
   ],
   "note": "C38_truncated: the end of the stream ends a request, even in the middle of a line"
  },
  {
   "property": "C39",
   "status": "proved",
   "theorems": [
    "Qrexec.C39_answer",
    "Qrexec.C39_silent",
    "Qrexec.C39_answered",
    "Qrexec.C39_no_agent",
    "Qrexec.C39_reads_all"
   ],
   "note": ""
  },
  {
   "property": "C41",
   "status": "proved",
   "theorems": [
    "Qrexec.C41_domain",
    "Qrexec.C41_service",
    "Qrexec.C41_c",
    "Qrexec.C41_agree",
    "Qrexec.C41_facts"
   ],
   "note": ""
  },
  {
   "property": "C22",
   "status": "proved",
   "theorems": [
    "Qrexec.C22_allow_iff",
    "Qrexec.C22_deny_iff",
    "Qrexec.C22_engine_answer_understood",
    "Qrexec.C22_runs_only_when_allowed"
   ],
   "note": ""
  },
  {
   "property": "C55",
   "status": "partial",
   "theorems": [
    "Qrexec.C55_fallback_same_partial",
    "Qrexec.C55_violated_source_lost",
    "Qrexec.C55_violated_half_answer"
   ],
   "note": "the fallback does not pass the requested source on: a remote qube denied by the policy is served as its relay when the policy daemon is down; a broken answer of the daemon leaves its policy_source behind; refusals of the fallback are reported as problems"
  },
  {
   "property": "C56",
   "status": "partial",
   "theorems": [
    "Qrexec.C56_vm_command",
    "Qrexec.C56_remote_command",
    "Qrexec.C56_dom0_command_partial",
    "Qrexec.C56_violated_dom0"
   ],
   "note": "violated for dom0: a call of a remote qube through its relay is attributed to the relay"
  },
  {
   "property": "C53",
   "status": "proved",
   "theorems": [
    "Qrexec.C53_accepted",
    "Qrexec.C53_dies_iff",
    "Qrexec.C53_refused",
    "Qrexec.C53_safe",
    "Qrexec.C53_no_injection",
    "Qrexec.C53_evaluated"
   ],
   "note": ""
  },
  {
   "property": "C57",
   "status": "proved",
   "theorems": [
    "Qrexec.C57_executed_only_if_granted"
   ],
   "note": "for a policy daemon that answers; the fallback is C55"
  },
  {
   "property": "C40",
   "status": "partial",
   "theorems": [
    "Qrexec.C40_invalid_argument",
    "Qrexec.C40_effect",
    "Qrexec.C40_line_meaning",
    "Qrexec.C40_concurrent_partial",
    "Qrexec.C40_at_most_once_partial",
    "Qrexec.C40_admin_requests",
    "Qrexec.C40_violated_no_newline",
    "Qrexec.C40_violated_hidden",
    "Qrexec.C40_violated_breaks_policy"
   ],
   "note": "proved for any interleaving, also with admin API requests; violated when the file does not end with a newline, when a runtime directory has a file of the same name, and a service name that is empty or has a + breaks the whole policy"
  },
  {
   "property": "C58",
   "status": "proved",
   "theorems": [
    "Qrexec.C58_legacy_line",
    "Qrexec.C58_legacy_bad_line",
    "Qrexec.C58_legacy_include"
   ],
   "note": ""
  },
  {
   "property": "C59",
   "status": "proved",
   "theorems": [
    "Qrexec.C59_answer",
    "Qrexec.C59_refused",
    "Qrexec.C59_shown",
    "Qrexec.C59_ambiguous"
   ],
   "note": "C59_ambiguous: the names shown do not identify files: include/a and a.policy are both shown as a"
  },
  {
   "property": "C51",
   "status": "proved",
   "theorems": [
    "Qrexec.C51_unique",
    "Qrexec.C51_range",
    "Qrexec.C51_disjoint",
    "Qrexec.C51_exhausted",
    "Qrexec.C51_end_notifies",
    "Qrexec.C51_unused",
    "Qrexec.C51_needs_real_domains"
   ],
   "note": "clients are assumed to give domain ids below 2^31; C51_needs_real_domains shows that the id -1 gets an unreserved port"
  },
  {
   "property": "C52",
   "status": "partial",
   "theorems": [
    "Qrexec.C52_at_most_once",
    "Qrexec.C52_exactly_once_partial",
    "Qrexec.C52_bad_refused",
    "Qrexec.C52_killed_never_answered",
    "Qrexec.C52_exit_before_connect",
    "Qrexec.C52_bad_port",
    "Qrexec.C52_stale_child"
   ],
   "note": "never more than one answer, for all histories; exactly one under the stated conditions on children and clients; without them requests stay unanswered (proved violations)"
  },
  {
   "property": "C60",
   "status": "proved",
   "theorems": [
    "Qrexec.C60_forward",
    "Qrexec.C60_once",
    "Qrexec.C60_hello_first"
   ],
   "note": ""
  },
  {
   "property": "C54",
   "status": "partial",
   "theorems": [
    "Qrexec.C54_cleanup_partial",
    "Qrexec.C54_kills_only_own",
    "Qrexec.C54_leak_start",
    "Qrexec.C54_leak_name"
   ],
   "note": "always cleaned up once qubesd reports the start; if it does not, or names the disposable badly, nothing is killed (proved)"
  },
  {
   "property": "C61",
   "status": "proved",
   "theorems": [
    "Qrexec.C61_no_autostart",
    "Qrexec.C61_starts",
    "Qrexec.C61_told",
    "Qrexec.C61_understood"
   ],
   "note": ""
  },
  {
   "property": "C47",
   "status": "proved",
   "theorems": [
    "Qrexec.C47_fifo",
    "Qrexec.C47_order",
    "Qrexec.C47_abort",
    "Qrexec.C47_remove_aborts"
   ],
   "note": "the process stops exactly when the limit of 50 MB would be exceeded; C47_remove_aborts: taking data out can also stop it, since the rest is copied"
  },
  {
   "property": "C48",
   "status": "proved",
   "theorems": [
    "Qrexec.C48_prefix",
    "Qrexec.C48_kept",
    "Qrexec.C48_eof",
    "Qrexec.C48_write_stdin",
    "Qrexec.C48_filter"
   ],
   "note": ""
  },
  {
   "property": "C49",
   "status": "partial",
   "theorems": [
    "Qrexec.C49_sent",
    "Qrexec.C49_sizes",
    "Qrexec.C49_frame",
    "Qrexec.C49_frames",
    "Qrexec.C49_end_to_end_partial",
    "Qrexec.C49_violated_usr1",
    "Qrexec.C49_late_lost",
    "Qrexec.C63_violated_prefix"
   ],
   "note": "proved for connections without SIGUSR1 whose prefix data are gone before the exit message arrives; without these conditions data are sent behind the end of file (proved violations)"
  },
  {
   "property": "C62",
   "status": "proved",
   "theorems": [
    "Qrexec.C62_write",
    "Qrexec.C62_write_returns",
    "Qrexec.C62_read",
    "Qrexec.C62_read_to_end",
    "Qrexec.C62_bad_sizes",
    "Qrexec.C62_sendmsg",
    "Qrexec.C62_copy"
   ],
   "note": ""
  },
  {
   "property": "C63",
   "status": "partial",
   "theorems": [
    "Qrexec.C63_client",
    "Qrexec.C63_service",
    "Qrexec.C63_end_to_end_partial",
    "Qrexec.C63_ends",
    "Qrexec.C63_ends_eventually",
    "Qrexec.C63_stuck",
    "Qrexec.C63_stuck_reached",
    "Qrexec.C63_violated_prefix"
   ],
   "note": "proved for both ends and end to end; a client whose reader has gone away with data buffered never notices that the service's qube is gone (C63_stuck), and pending prefix data make a client lose the status (C63_violated_prefix)"
  },
  {
   "property": "C50",
   "status": "proved",
   "theorems": [
    "Qrexec.C50_parse",
    "Qrexec.C50_descriptor",
    "Qrexec.C50_from_daemon",
    "Qrexec.C50_user_colon"
   ],
   "note": "a user name with a colon (possible in a policy) splits the command elsewhere: C50_user_colon"
  },
  {
   "property": "C64",
   "status": "proved",
   "theorems": [
    "Qrexec.C64_env",
    "Qrexec.C64_no_abort",
    "Qrexec.C64_agree",
    "Qrexec.C64_shell"
   ],
   "note": ""
  },
  {
   "property": "C65",
   "status": "proved",
   "theorems": [
    "Qrexec.C65_place",
    "Qrexec.C65_directories",
    "Qrexec.C65_found",
    "Qrexec.C65_inside",
    "Qrexec.C65_port",
    "Qrexec.C65_service",
    "Qrexec.C65_tcp",
    "Qrexec.C65_dangling",
    "Qrexec.C65_dotdot"
   ],
   "note": "C65_dangling and C65_dotdot are findings: a dangling link is skipped although the comment says it is an error, and the service name '..' finds a directory"
  },
  {
   "property": "C66",
   "status": "proved",
   "theorems": [
    "Qrexec.C66_parse",
    "Qrexec.C66_unique",
    "Qrexec.C66_call",
    "Qrexec.C66_accept",
    "Qrexec.C66_spaces"
   ],
   "note": "a line of blanks only is refused (C66_spaces)"
  },
  {
   "property": "C42",
   "status": "proved",
   "theorems": [
    "Qrexec.C42_decision",
    "Qrexec.C42_button",
    "Qrexec.C42_answer",
    "Qrexec.C42_usable"
   ],
   "note": "GTK is modelled by the signals it may send"
  },
  {
   "property": "C43",
   "status": "proved",
   "theorems": [
    "Qrexec.C43_text",
    "Qrexec.C43_unambiguous",
    "Qrexec.C43_inert",
    "Qrexec.C43_notify"
   ],
   "note": "g_markup_escape_text and the used fragment of Pango markup are modelled after GLib"
  },
  {
   "property": "C44",
   "status": "proved",
   "theorems": [
    "Qrexec.C44_answer",
    "Qrexec.C44_chosen",
    "Qrexec.C44_names",
    "Qrexec.C44_pressed",
    "Qrexec.C44_default"
   ],
   "note": "the allowed target is the one chosen when the window is deleted, which GTK does shortly after the button was pressed"
  },
  {
   "property": "C45",
   "status": "partial",
   "theorems": [
    "Qrexec.C45_print",
    "Qrexec.C45_same_partial",
    "Qrexec.C45_legacy",
    "Qrexec.C45_violated"
   ],
   "note": "the exact rules for which it holds are characterised (C45_same_partial); notify=, autostart=, an empty user= and the service '*' are lost by printing (C45_violated)"
  },
  {
   "property": "C67",
   "status": "partial",
   "theorems": [
    "Qrexec.C67_reported_partial",
    "Qrexec.C67_once",
    "Qrexec.C67_bound",
    "Qrexec.C67_lost",
    "Qrexec.C67_full"
   ],
   "note": "proved while at most 256 connections are open and no fork fails; a connection for which fork fails (C67_lost) and one begun while 256 others are open (C67_full) are never reported"
  },
  {
   "property": "C68",
   "status": "proved",
   "theorems": [
    "Qrexec.C68_all",
    "Qrexec.C68_arrives",
    "Qrexec.C68_session_ends",
    "Qrexec.C68_waiting",
    "Qrexec.C68_fork_server",
    "Qrexec.C68_command"
   ],
   "note": ""
  },
  {
   "property": "C69",
   "status": "proved",
   "theorems": [
    "Qrexec.C69_roundtrip",
    "Qrexec.C69_forward",
    "Qrexec.C69_daemon_lives",
    "Qrexec.C69_refused",
    "Qrexec.C69_connect",
    "Qrexec.C69_right_client",
    "Qrexec.C69_early_end"
   ],
   "note": "the daemon is assumed to answer each request at most once with its identifier (C52); C69_early_end is a finding"
  },
  {
   "property": "C70",
   "status": "proved",
   "theorems": [
    "Qrexec.C70_agree",
    "Qrexec.C70_progress",
    "Qrexec.C70_free",
    "Qrexec.C70_chunk",
    "Qrexec.C70_data",
    "Qrexec.C70_any_peer",
    "Qrexec.C70_control",
    "Qrexec.C70_client"
   ],
   "note": "C70_control: the daemon sends an agent's own version back to it, so an agent newer than the daemon would believe in a version the daemon does not speak (finding)"
  },
  {
   "property": "C71",
   "status": "partial",
   "theorems": [
    "Qrexec.C71_refused",
    "Qrexec.C71_just_exec",
    "Qrexec.C71_dom0_partial",
    "Qrexec.C71_dom0_crash",
    "Qrexec.C71_started",
    "Qrexec.C71_dom0_started",
    "Qrexec.C71_client",
    "Qrexec.C71_ends"
   ],
   "note": "proved for qubes, and for dom0 where the command can be parsed; a service name longer than 255 characters ends the process in dom0 and the caller gets no status (C71_dom0_crash); the end is proved for callers without a local process"
  },
  {
   "property": "C72",
   "status": "proved",
   "theorems": [
    "Qrexec.C72_request",
    "Qrexec.C72_exact",
    "Qrexec.C72_evaluated",
    "Qrexec.C72_bad_name",
    "Qrexec.C72_main",
    "Qrexec.C72_status"
   ],
   "note": "names longer than 63 bytes are cut silently (C72_request states the result); the exit status is proved for calls without -p data and without a local program"
  },
  {
   "property": "C73",
   "status": "proved",
   "theorems": [
    "Qrexec.C73_options",
    "Qrexec.C73_terminal"
   ],
   "note": ""
  },
  {
   "property": "C74",
   "status": "proved",
   "theorems": [
    "Qrexec.C74_buffer_size",
    "Qrexec.C74_int"
   ],
   "note": ""
  },
  {
   "property": "C75",
   "status": "proved",
   "theorems": [
    "Qrexec.C75_refused",
    "Qrexec.C75_qube",
    "Qrexec.C75_qube_data",
    "Qrexec.C75_connect",
    "Qrexec.C75_dom0_call",
    "Qrexec.C75_dom0_dom0"
   ],
   "note": "a local command (-l) that cannot be started, or a command for dom0 that cannot be parsed, ends the program by a null pointer access, without the kill (stated in the theorems as the outcome crash)"
  },
  {
   "property": "C76",
   "status": "partial",
   "theorems": [
    "Qrexec.C76_sound",
    "Qrexec.C76_complete",
    "Qrexec.C76_covered",
    "Qrexec.C76_allowed_drawn_partial",
    "Qrexec.C76_once",
    "Qrexec.C76_text",
    "Qrexec.C76_gap",
    "Qrexec.C76_service_crash",
    "Qrexec.C76_dispvm_crash"
   ],
   "note": "the code violates the full statement: calls in the gap are missing from the graph (C76_gap), --service fails with a rule for all services (C76_service_crash), a rule naming @dispvm:X fails if a qube has no default disposable template (C76_dispvm_crash); everything else is proved for every policy"
  },
  {
   "property": "C77",
   "status": "partial",
   "theorems": [
    "Qrexec.C77_lines",
    "Qrexec.C77_lines_service",
    "Qrexec.C77_total",
    "Qrexec.C77_total_service",
    "Qrexec.C77_loads_iff",
    "Qrexec.C77_service_loads_iff",
    "Qrexec.C77_clean_loads_partial",
    "Qrexec.C77_reported_fails",
    "Qrexec.C77_main",
    "Qrexec.C77_unchecked",
    "Qrexec.C77_service_unchecked",
    "Qrexec.C77_service_old_include",
    "Qrexec.C77_crash"
   ],
   "note": "the code violates the full statement in the cases stated by C77_unchecked, C77_service_unchecked, C77_service_old_include and C77_crash; the theorems say exactly which lines are accepted, with these cases in the statement; only the first file with an error is reported (C77_main)"
  },
  {
   "property": "C78",
   "status": "partial",
   "theorems": [
    "Qrexec.C78_get",
    "Qrexec.C78_replace",
    "Qrexec.C78_remove",
    "Qrexec.C78_list_partial",
    "Qrexec.C78_get_files",
    "Qrexec.C78_dom0",
    "Qrexec.C78_command",
    "Qrexec.C78_other",
    "Qrexec.C78_list_empty_violation"
   ],
   "note": "the code violates the full statement for the list of an area without files, which is returned as one empty name (C78_list_empty_violation); everything else is proved; UTF-8 is an assumption (Spec.Utf8); a message that begins with another name of the module raises TypeError, excluded in C78_other"
  },
  {
   "property": "C79",
   "status": "partial",
   "theorems": [
    "Qrexec.C79_saved",
    "Qrexec.C79_unsaved",
    "Qrexec.C79_saves",
    "Qrexec.C79_conflict",
    "Qrexec.C79_name",
    "Qrexec.C79_main",
    "Qrexec.C79_include_violation"
   ],
   "note": "files for !include cannot be saved: the linter takes every file of the include directory for one of !include-service (C79_include_violation); everything else is proved; a failed Replace may leave the temporary file of the server (C79_unsaved)"
  },
  {
   "property": "C80",
   "status": "proved",
   "theorems": [
    "Qrexec.C80_shown",
    "Qrexec.C80_rows",
    "Qrexec.C80_opens",
    "Qrexec.C80_allowed",
    "Qrexec.C80_refused",
    "Qrexec.C80_confirmed",
    "Qrexec.C80_unlisted",
    "Qrexec.C80_redirect_unusable"
   ],
   "note": "the window is asked to close when OK is pressed and the target that counts is the one chosen when it is gone (C44); finding: a target without a row, as with ask target=@dispvm, can only be refused (C80_redirect_unusable)"
  },
  {
   "property": "C81",
   "status": "proved",
   "theorems": [
    "Qrexec.C81_shown"
   ],
   "note": ""
  },
  {
   "property": "C82",
   "status": "proved",
   "theorems": [
    "Qrexec.C82_message",
    "Qrexec.C82_not_twice",
    "Qrexec.C82_handoff",
    "Qrexec.C82_clients",
    "Qrexec.C82_stuck",
    "Qrexec.C82_accept_fails"
   ],
   "note": "the clients that go on are those that finish or go away: findings C82_stuck (a client that connects and is silent blocks the server for everyone), C82_accept_fails (a failing accept ends it), C82_message (a message of type 0x202 ends it by an assertion)"
  },
  {
   "property": "C83",
   "status": "partial",
   "theorems": [
    "Qrexec.C83_evaluate_runs_nothing",
    "Qrexec.C83_answer",
    "Qrexec.C83_just",
    "Qrexec.C83_executes_partial",
    "Qrexec.C83_reaches",
    "Qrexec.C83_path_violation",
    "Qrexec.C83_remote_violation",
    "Qrexec.C83_just_violation"
   ],
   "note": "the code does not meet the statement for RemoteVMs (C83_remote_violation: the transport service is ignored), with --path (C83_path_violation: always an exception), and for --just-evaluate where only the execution would refuse (C83_just_violation: a qube that calls itself); everything else is proved. A disposable is not removed afterwards (C83_reaches), qubesd is given the destination with the prefix @dispvm: (C83_executes_partial)"
  },
  {
   "property": "C84",
   "status": "proved",
   "theorems": [
    "Qrexec.C84_creds",
    "Qrexec.C84_started",
    "Qrexec.C84_env",
    "Qrexec.C84_status",
    "Qrexec.C84_nothing",
    "Qrexec.C84_root_waits",
    "Qrexec.C84_unprivileged",
    "Qrexec.C84_fork_server",
    "Qrexec.C84_dom0",
    "Qrexec.C84_request",
    "Qrexec.C84_failed",
    "Qrexec.C84_long_home",
    "Qrexec.C84_long_home_always"
   ],
   "note": "findings: C84_long_home_always (a home directory of 59 bytes or more: nothing can be run for the user, because of a 64 byte buffer), C84_long_home (a failure after the session is open leaves it open). pam_end failing turns any status into 125, waitpid failing into 1 (C84_status)"
  },
  {
   "property": "C85",
   "status": "proved",
   "theorems": [
    "Qrexec.C85_fix",
    "Qrexec.C85_done",
    "Qrexec.C85_bad",
    "Qrexec.C85_service",
    "Qrexec.C85_dom0",
    "Qrexec.C85_ends",
    "Qrexec.C85_closed_stdin",
    "Qrexec.C85_above_255"
   ],
   "note": "outside of the hypotheses: C85_closed_stdin (a process that has closed its stdin would start services without stdin; C119_closed: it exits), C85_above_255 (finding)"
  },
  {
   "property": "C86",
   "status": "proved",
   "theorems": [
    "Qrexec.C86_usage",
    "Qrexec.C86_get",
    "Qrexec.C86_replace",
    "Qrexec.C86_no_text",
    "Qrexec.C86_remove",
    "Qrexec.C86_list"
   ],
   "note": "findings: -r and -d overwrite and remove unconditionally (token any); line ends become newlines (C86_replace); a listing of an empty directory is one empty line (C86_list). The listing is for names without a newline"
  },
  {
   "property": "C87",
   "status": "proved",
   "theorems": [
    "Qrexec.C87_info",
    "Qrexec.C87_domains",
    "Qrexec.C87_cut",
    "Qrexec.C87_none",
    "Qrexec.C87_used",
    "Qrexec.C87_call"
   ],
   "note": "JSON is specified by the grammar Spec/Json (RFC 8259), proved equivalent to the reader (loads_iff). C87_cut is for answers in ASCII, as json.dumps writes them. Finding in C87_none: anything but an exception reported by qubesd - no connection, a cut or malformed answer - gives no answer instead of a refusal (the C side then refuses)"
  },
  {
   "property": "C88",
   "status": "proved",
   "theorems": [
    "Qrexec.C88_nothing_lost",
    "Qrexec.C88_verdict",
    "Qrexec.C88_old_retired",
    "Qrexec.C88_every_rule",
    "Qrexec.C88_only_legacy",
    "Qrexec.C88_order",
    "Qrexec.C88_where",
    "Qrexec.C88_new_file",
    "Qrexec.C88_merged_file",
    "Qrexec.C88_converted_file"
   ],
   "note": "the calculation of the graph (proved on its own as C76) and loading the rules (C24-C28) are parameters, so are the order of directory listings and of sets. Findings: C88_violated_deny (a catch-all denial is dropped, so that a later rule of the new policy may allow), C88_violated_input (a rule for an input service with another argument is dropped)"
  },
  {
   "property": "C89",
   "status": "partial",
   "theorems": [
    "Qrexec.C89_revert_partial",
    "Qrexec.C89_violated"
   ],
   "note": "the code does not meet the statement for files of the old format (C89_violated: they have been renamed, the first removal raises an exception, they stay out of use); the files of the new directory are restored, and everything is if there was no old file in use"
  },
  {
   "property": "C90",
   "status": "proved",
   "theorems": [
    "Qrexec.C90_only"
   ],
   "note": "names and UUIDs are unique among the qubes (Named) and for names and UUIDs ids are not reused (IdsUnique). Finding: with a reused id a stale link left by a killed daemon leads to another qube's daemon (C90_violated_reuse)"
  },
  {
   "property": "C91",
   "status": "partial",
   "theorems": [
    "Qrexec.C91_reached_partial",
    "Qrexec.C91_violated_child",
    "Qrexec.C91_violated_late"
   ],
   "note": "proved while each qube has one process at a time that touches the names (OneEach). The code violates the rest: a child serving a dom0 call that hits an error on its vchan runs the exit handler of the daemon and removes its names (C91_violated_child); a daemon that ends late removes the links of its successor (C91_violated_late)"
  },
  {
   "property": "C92",
   "status": "proved",
   "theorems": [
    "Qrexec.C92_status",
    "Qrexec.C92_nowait",
    "Qrexec.C92_serves",
    "Qrexec.C92_complete",
    "Qrexec.C92_timeout"
   ],
   "note": "the system calls are parameters; the wait is that of C93 and the HELLO that of C70"
  },
  {
   "property": "C93",
   "status": "proved",
   "theorems": [
    "Qrexec.C93_result",
    "Qrexec.C93_times"
   ],
   "note": "the clock, ppoll and libvchan are parameters"
  },
  {
   "property": "C94",
   "status": "proved",
   "theorems": [
    "Qrexec.C94_runs",
    "Qrexec.C94_arrives",
    "Qrexec.C94_connection",
    "Qrexec.C94_example"
   ],
   "note": "composition of the models of client, agents, daemons and policy. C94_runs: names in the system state and the user names of rules are as the parser and qubesd make them (no space, NUL, newline; no colon in user names), relays are not dom0; targets in dom0 are C56. C94_arrives: service names up to 255 characters (the agent's limit), the target not a remote domain; that qubesd, the kernel and vchan deliver is assumed (C51, C52, C93 say what happens otherwise)"
  },
  {
   "property": "C95",
   "status": "partial",
   "theorems": [
    "Qrexec.C95_client",
    "Qrexec.C95_service",
    "Qrexec.C95_gone_partial",
    "Qrexec.C95_hangs",
    "Qrexec.C95_hangs_reachable"
   ],
   "note": "client and service proved. The other end goes away: proved unless the local process closes its input while data for it are buffered; there the code violates the property: a client without exit status hangs for ever (C95_hangs, reachable by C95_hangs_reachable). A negative exit status does not end a client; it waits for the other end to go away"
  },
  {
   "property": "C96",
   "status": "partial",
   "theorems": [
    "Qrexec.C96_sleep_partial",
    "Qrexec.C96_violated_prefix",
    "Qrexec.C96_violated_closed"
   ],
   "note": "proved except for two states in which the code sleeps up to ten seconds although it could go on: unsent prefix data, and data buffered for a closed input"
  },
  {
   "property": "C97",
   "status": "proved",
   "theorems": [
    "Qrexec.C97_leads",
    "Qrexec.C97_result",
    "Qrexec.C97_descriptor",
    "Qrexec.C97_tcp",
    "Qrexec.C97_relative_gap"
   ],
   "note": "for service directories given from the root, as they are by default; with a relative directory in QREXEC_SERVICE_PATH long paths lead elsewhere (C97_relative_gap). mkdtemp gives a new directory (its contract); getaddrinfo, socket and connect are parameters; a kill in the middle leaves the temporary directory"
  },
  {
   "property": "C98",
   "status": "proved",
   "theorems": [
    "Qrexec.C98_who",
    "Qrexec.C98_call",
    "Qrexec.C98_writers",
    "Qrexec.C98_default",
    "Qrexec.C98_read_too"
   ],
   "note": "the texts of the shipped files are part of the model (Model/Shipped)"
  },
  {
   "property": "C99",
   "status": "partial",
   "theorems": [
    "Qrexec.C99_noticed_partial",
    "Qrexec.C99_roots",
    "Qrexec.C99_daemon_watches",
    "Qrexec.C99_only",
    "Qrexec.C99_gap_elsewhere",
    "Qrexec.C99_gap_replaced",
    "Qrexec.C99_gap_late"
   ],
   "note": "proved when all that may be read for the policy lies in watched directories and these are not themselves renamed. The code violates the rest: files included (or linked) from elsewhere are not watched, nor is the renaming of a policy directory, nor a legacy directory made after the start. The kernel's notifications are part of the model; links do not change"
  },
  {
   "property": "C100",
   "status": "partial",
   "theorems": [
    "Qrexec.C100_agent",
    "Qrexec.C100_others_partial",
    "Qrexec.C100_frame",
    "Qrexec.C100_daemon_violated",
    "Qrexec.C100_pipe_violated"
   ],
   "note": "proved for everything the agent starts for a call, and for the fork server and the local program of qrexec-client. The code violates the rest: services in dom0 called by qubes run with SIGCHLD blocked; the local program of qrexec-client-vm, services in dom0 called from dom0 and qubes.WaitForSession run with SIGPIPE ignored"
  },
  {
   "property": "C101",
   "status": "proved",
   "theorems": [
    "Qrexec.C101_sleep",
    "Qrexec.C101_once",
    "Qrexec.C101_goes_on",
    "Qrexec.C101_starved"
   ],
   "note": "while descriptors are always ready the end of a child can stay unhandled for any number of rounds (C101_starved); the loop does not sleep then"
  },
  {
   "property": "C102",
   "status": "proved",
   "theorems": [
    "Qrexec.C102_daemon",
    "Qrexec.C102_daemon_round",
    "Qrexec.C102_agent",
    "Qrexec.C102_agent_run",
    "Qrexec.C102_example"
   ],
   "note": "SIGTERM and failures of ppoll other than EINTR are not modelled (the programs end)"
  },
  {
   "property": "C103",
   "status": "partial",
   "theorems": [
    "Qrexec.C103_policy",
    "Qrexec.C103_daemon",
    "Qrexec.C103_agent",
    "Qrexec.C103_fork_partial",
    "Qrexec.C103_fork_gap"
   ],
   "note": "proved for the policy daemon, the daemons and the agent; for the fork server only with a umask that keeps others out: it does not set one, and with others everybody can have programs run as its user (C103_fork_gap)"
  },
  {
   "property": "C104",
   "status": "partial",
   "theorems": [
    "Qrexec.C104_waits_partial",
    "Qrexec.C104_program",
    "Qrexec.C104_others",
    "Qrexec.C104_goes_on",
    "Qrexec.C104_gap",
    "Qrexec.C104_without"
   ],
   "note": "proved as long as the program stays in its process group: the code waits for the group and not for the program, and violates the full statement otherwise (C104_gap). If the program cannot be started, the service is started at once (C104_without)"
  },
  {
   "property": "C105",
   "status": "partial",
   "theorems": [
    "Qrexec.C105_restore_partial",
    "Qrexec.C105_restore_violated",
    "Qrexec.C105_order_violated"
   ],
   "note": "nothing is overwritten; but the code violates the rest: the tool always fails, because qrexec.policy.parser has no function toposort, and the method of that name always fails too"
  },
  {
   "property": "C106",
   "status": "partial",
   "theorems": [
    "Qrexec.C106_refused_partial",
    "Qrexec.C106_at_once",
    "Qrexec.C106_not_early",
    "Qrexec.C106_garbage",
    "Qrexec.C106_agent_ends",
    "Qrexec.C106_violated"
   ],
   "note": "The client sees the end exactly when every process has ended that the agent itself started between the request and the refusal. The full statement is violated: data processes are forked without closing descriptors and hold the client's connection (C106_violated)."
  },
  {
   "property": "C107",
   "status": "partial",
   "theorems": [
    "Qrexec.C107_hello",
    "Qrexec.C107_request",
    "Qrexec.C107_else",
    "Qrexec.C107_rounds",
    "Qrexec.C107_call",
    "Qrexec.C107_agent_else",
    "Qrexec.C107_pair",
    "Qrexec.C107_client_vm",
    "Qrexec.C107_reply",
    "Qrexec.C107_waits_partial",
    "Qrexec.C107_agent_waits_partial",
    "Qrexec.C107_waits_violated",
    "Qrexec.C107_limit_gap"
   ],
   "note": "Everything but the last sentence is proved; when the receiver waits is characterised exactly. Violated: a program that sends a part of a message and stays connected stops the daemon or the agent for everyone (C107_waits_violated)."
  },
  {
   "property": "C108",
   "status": "proved",
   "theorems": [
    "Qrexec.C108_shell",
    "Qrexec.C108_same",
    "Qrexec.C108_agent"
   ],
   "note": "The script is text that a model of the POSIX shell (the part needed; anything else has no meaning) reads and runs; C108_same compares with the direct start of C64. The positional parameters are assumed not to be changed by the login files, and no built-in to be aliased."
  },
  {
   "property": "C109",
   "status": "proved",
   "theorems": [
    "Qrexec.C109_words",
    "Qrexec.C109_refused",
    "Qrexec.C109_client_vm",
    "Qrexec.C109_client_vm_any",
    "Qrexec.C109_client_vm_options",
    "Qrexec.C109_client_options",
    "Qrexec.C109_python",
    "Qrexec.C109_policy_exec",
    "Qrexec.C109_daemon",
    "Qrexec.C109_agent"
   ],
   "note": "C109_words: getopt_long against a grammar of command lines, both directions, for every table of options. The programs' tables are instances. argparse of the Python tools is not modelled."
  },
  {
   "property": "C110",
   "status": "partial",
   "theorems": [
    "Qrexec.C110_call",
    "Qrexec.C110_async_partial",
    "Qrexec.C110_admin",
    "Qrexec.C110_where",
    "Qrexec.C110_async_violated"
   ],
   "note": "proved for call, and for call_async with text or bytes; without input (the default) or with a file call_async raises KeyError and starts nothing (C110_async_violated)"
  },
  {
   "property": "C111",
   "status": "partial",
   "theorems": [
    "Qrexec.C111_copy",
    "Qrexec.C111_log",
    "Qrexec.C111_service",
    "Qrexec.C111_tag",
    "Qrexec.C111_tag_call",
    "Qrexec.C111_tag_ambiguous",
    "Qrexec.C111_violated"
   ],
   "note": "proved for services; for other commands the code violates it: logger_fd is left 0, so that their stderr is written to descriptor 0 of the agent (C111_violated). A logger that does not read stops the service (the copy is a blocking write; not modelled)"
  },
  {
   "property": "C112",
   "status": "partial",
   "theorems": [
    "Qrexec.C112_ready",
    "Qrexec.C112_waits",
    "Qrexec.C112_ends",
    "Qrexec.C112_elsewhere",
    "Qrexec.C112_started",
    "Qrexec.C112_inherited",
    "Qrexec.C112_argument_violated",
    "Qrexec.C112_user_violated"
   ],
   "note": "proved for the default user of the qube and without an argument. The code violates the rest: the script waits for the default user, not the one the service runs as (C112_user_violated; the agent writes the name to its input, but it is not read), and with an argument, also one in the environment of the process that starts it, it succeeds at once (C112_argument_violated, C112_inherited). What the script calls (qubesdb-read, systemctl) is arbitrary"
  },
  {
   "property": "C113",
   "status": "partial",
   "theorems": [
    "Qrexec.C113_start",
    "Qrexec.C113_usage",
    "Qrexec.C113_program_violated"
   ],
   "note": "everything but the choice of the program, which is characterised: the script goes through the directories one by one, so a file for the service in an earlier directory is preferred to one for the service with its argument in a later one (C113_program_violated). The copying of stderr in the script is not modelled"
  },
  {
   "property": "C114",
   "status": "partial",
   "theorems": [
    "Qrexec.logged_forget",
    "Qrexec.C114_allow_recorded",
    "Qrexec.C114_deny_recorded",
    "Qrexec.C114_deny_true",
    "Qrexec.C114_allowed_true_partial",
    "Qrexec.C114_just_evaluate",
    "Qrexec.C114_text_unambiguous",
    "Qrexec.C114_text_target",
    "Qrexec.C114_allowed_text",
    "Qrexec.C114_allowed_then_denied",
    "Qrexec.C114_relay_not_named",
    "Qrexec.C114_no_record",
    "Qrexec.C114_forged_line"
   ],
   "note": "every answered call has its record, and exactly one that says what the answer is. The code violates the rest: a call is recorded as allowed before loopback and RemoteVM settings are checked, and then as denied (C114_allowed_then_denied; C114_allowed_true_partial says exactly when); the record of a call through a relay names the RemoteVM only (C114_relay_not_named); a call that ends in an exception has no record (C114_no_record); the GUI qube can add any line (C114_forged_line). Unambiguous only if the names are single words. logged_forget ties the model with the log to the one of the other properties. Texts of exceptions other than that of an unoffered target are arbitrary"
  },
  {
   "property": "C115",
   "status": "partial",
   "theorems": [
    "Qrexec.C115_sleeps",
    "Qrexec.C115_closed",
    "Qrexec.C115_wakes",
    "Qrexec.C115_wait_ready",
    "Qrexec.C115_no_spin",
    "Qrexec.C115_main_loop_violated"
   ],
   "note": "proved for all schedules, but for one part: the main loops of agent and daemon may sleep although the peer has gone (C115_main_loop_violated); the daemon looks after its timeout of one second, the agent never. libvchan is modelled by its contract: whatever the peer does raises the event, only libvchan_wait takes it"
  },
  {
   "property": "C116",
   "status": "proved",
   "theorems": [
    "Qrexec.C116_runs",
    "Qrexec.C116_connected",
    "Qrexec.C116_example"
   ],
   "note": "hypotheses: the policy daemon answers without NUL, names of qubes, users and rules are what they can be (UsualDecisions, UsualNames; C116_example meets them with a run in which a program is started and its client is connected); the socket names lead to fixed daemons (Model/SockDir has their changes). Services in dom0 and the data connections are not in this model (see C46, C61, C111)"
  },
  {
   "property": "C117",
   "status": "partial",
   "theorems": [
    "Qrexec.C117_lost_only_partial",
    "Qrexec.C117_alone",
    "Qrexec.C117_for_ever",
    "Qrexec.C117_once",
    "Qrexec.C117_refused",
    "Qrexec.C117_full_violated",
    "Qrexec.C117_race_violated",
    "Qrexec.C117_example"
   ],
   "note": "violated: an answer is lost when the vchan to the caller's agent is full, or when another process ends at the same time (C117_full_violated, C117_race_violated); then the caller waits for ever though the service runs. Proved: it is lost in no other way, nobody is told twice, a refused or failed call is always told"
  },
  {
   "property": "C118",
   "status": "proved",
   "theorems": [
    "Qrexec.C118_data",
    "Qrexec.C118_order",
    "Qrexec.C118_status",
    "Qrexec.C118_complete",
    "Qrexec.C118_quiet",
    "Qrexec.C118_survives",
    "Qrexec.C118_service_ends",
    "Qrexec.C118_ends",
    "Qrexec.C118_example"
   ],
   "note": "simplifications (Model/Connection): no SIGUSR1, ppoll does not fail, sends succeed while the other end runs. An end can die in the middle of a message: then the other fails when it receives the part (C118_survives and C118_ends assume that none arrives, and that the prefix data have been sent: C63_violated_prefix). The single ends in all their states are C48, C49, C63, C96"
  },
  {
   "property": "C119",
   "status": "proved",
   "theorems": [
    "Qrexec.C119_program",
    "Qrexec.C119_ends",
    "Qrexec.C119_closed",
    "Qrexec.C119_just_exec",
    "Qrexec.C119_policy",
    "Qrexec.C119_example"
   ],
   "note": "on a kernel without close_range: if no descriptor above 255 is inherited (finding C85_above_255)"
  },
  {
   "property": "C121",
   "status": "proved",
   "theorems": [
    "Qrexec.C121_closed",
    "Qrexec.C121_serves",
    "Qrexec.C121_no_policy",
    "Qrexec.C121_agent",
    "Qrexec.C121_agent_link",
    "Qrexec.C121_directory",
    "Qrexec.C121_example"
   ],
   "note": "a directory at a path keeps the daemon from starting (C121_directory); a link that leads nowhere keeps the agent from starting (C121_agent_link)"
  },
  {
   "property": "C122",
   "status": "partial",
   "theorems": [
    "Qrexec.C122_ready",
    "Qrexec.C122_told_partial",
    "Qrexec.C122_violated_abstract",
    "Qrexec.C122_violated_long",
    "Qrexec.C122_signalled",
    "Qrexec.C122_once",
    "Qrexec.C122_woken_partial",
    "Qrexec.C122_violated_pid",
    "Qrexec.C122_example"
   ],
   "note": "violated: a socket in the abstract namespace or with a path over 107 bytes is not reached (the agent then never becomes ready for systemd); a reporter whose number is above 65535 is never woken"
  },
  {
   "property": "C120",
   "status": "partial",
   "theorems": [
    "Qrexec.C120_isolated",
    "Qrexec.C120_same",
    "Qrexec.C120_answer",
    "Qrexec.C120_client",
    "Qrexec.C120_client_none",
    "Qrexec.C120_no_wait",
    "Qrexec.C120_evaluation",
    "Qrexec.C120_fresh",
    "Qrexec.C120_granted",
    "Qrexec.C120_stale_violated",
    "Qrexec.C120_example"
   ],
   "note": "the last sentence is violated (C120_stale_violated): a question that is open when the policy changes is answered by the old policy and the old list of qubes; everything else is proved"
  }
 ]
}