{
 "claims": [
  {
   "property": "C01",
   "status": "proved",
   "theorems": [
    "Slash.Cleanup.C01_serial_is_registration_order",
    "Slash.Cleanup.C01_lifo",
    "Slash.Cleanup.C01_complete"
   ],
   "note": "Proved in full for the model: [C01_serial_is_registration_order] Serial numbers are registration order. [C01_lifo] C01. Whenever a cleanup is called, every cleanup registered on the same scope after it (also by other cleanups, also while the scope is being closed) has already been dealt with. [C01_complete] C01. When closing a scope returns normally, every cleanup ever placed on it was called or passed over by the flags; none is left behind."
  },
  {
   "property": "C02",
   "status": "proved",
   "theorems": [
    "Slash.Cleanup.C02_errors_do_not_stop",
    "Slash.Cleanup.C02_recorded",
    "Slash.Cleanup.C02_others_recorded",
    "Slash.Cleanup.C02_hook_recorded",
    "Slash.Cleanup.C02_recorded_once",
    "Slash.Cleanup.C02_results",
    "Slash.Cleanup.C02_refused_inside"
   ],
   "note": "Proved in full for the model: [C02_errors_do_not_stop] C02. Closing the innermost scope under its own name raises only what the `before_test_cleanups` hook raised or what a cleanup raised that is a skip, an interruption or a non-`Exception`; errors and failures of cleanups never stop the remaining ones (with `C01_complete`: all are dealt with). [C02_recorded] C02. An ordinary exception out of a cleanup is recorded with its own kind in the result that was current when the cleanup was registered, ... [C02_others_recorded] ... what is no ordinary exception (an interruption, `SystemExit`) ends the closing and is recorded in the result of the current test, or of the session if there is none, ... [C02_hook_recorded] ... so is whatever the hook announcing the cleanups of a test raises, ... [C02_recorded_once] ... a cleanup is called at most once and leaves at most one record, ... [C02_results] ... and what has been recorded is found in the results: each result holds at least as many errors, failures and skips as were recorded in it. [C02_refused_inside] ... A registration that is refused inside a cleanup makes the cleanup raise, unless the cleanup itself handles it: whatever it would have done afterwards, it ends with an error - a failure if the refused registration asked for both `critical` and `success_only`, which is a failed assertion."
  },
  {
   "property": "C03",
   "status": "proved",
   "theorems": [
    "Slash.Cleanup.C03_called_were_eligible",
    "Slash.Cleanup.C03_passed_over_were_not",
    "Slash.Cleanup.C03_flags",
    "Slash.Cleanup.C03_flags_session"
   ],
   "note": "Proved in full for the model: [C03_called_were_eligible] C03. A cleanup that was called was eligible: with the flags the closing of its scope started with (`f`: unsuccessful, `i`: interrupted), only critical ones under an interruption, no `success_only` one under a failure or interruption. [C03_passed_over_were_not] C03. A cleanup that was passed over was not eligible. [C03_flags] C03. The flags are those of the current result when closing starts: interrupted, and unsuccessful = has an error, a failure or an interruption, or neither ran nor was skipped. [C03_flags_session] C03. When no test is current, what counts is the session as a whole: its own entries and the results of all its tests."
  },
  {
   "property": "C04",
   "status": "proved",
   "theorems": [
    "Slash.Cleanup.C04_conservation",
    "Slash.Cleanup.C04_right_scope",
    "Slash.Cleanup.C04_named_registration",
    "Slash.Cleanup.C04_named_refused",
    "Slash.Cleanup.C04_implicit_registration",
    "Slash.Cleanup.C04_default_registration",
    "Slash.Cleanup.C04_setting_in_force",
    "Slash.Cleanup.C04_permission_in_force"
   ],
   "note": "Proved in full for the model: [C04_conservation] C04. Every accepted cleanup is exactly in one place: waiting for a first scope, on one open scope, or dealt with once (called, passed over, or dropped with its scope). [C04_right_scope] C04. A cleanup is dealt with only as part of the scope it was put on. [C04_named_registration] C04. Registering by scope name puts the cleanup on the innermost open scope of that name ... [C04_named_refused] ... a name no open scope has is refused, and nothing changes; ... [C04_implicit_registration] ... and registering without a name (nor default) uses the innermost open scope, or waits for the first scope to be opened, unless implicit scoping is forbidden. [C04_default_registration] ... Leaving out the scope altogether means the default scope in force, and no name if there is none. [C04_setting_in_force] ... The default scope in force is the one set last, whatever scopes were opened and closed and whatever cleanups did since: a cleanup registered without a scope goes where one naming that scope would go; and the same holds for the permission to register without any scope. [C04_permission_in_force]"
  },
  {
   "property": "C05",
   "status": "partial",
   "theorems": [
    "Slash.Scope.C05_nesting_violated",
    "Slash.Scope.C05_second_run_violated",
    "Slash.Scope.C05_nesting_partial",
    "Slash.Scope.C05_all_tests_run"
   ],
   "note": "Proved in part: [C05_nesting_partial] C05, partial: for every list of tests, whatever the closing of test scopes raises (including interruptions, which end the run early) and whatever ordinary exceptions the final closing of module and session scopes raises, the scopes are opened and closed exactly as expected for the tests that were run, and nothing stays open. Missing: closing a module scope between two tests raising something (skips and interruptions are what cleanups can raise there), and an interruption during the final flush; see the violations above. What is missing is false of the code, proved with a concrete witness: [C05_nesting_violated] C05 is violated if teardown of a module scope raises a skip (e.g. `slash.skip_test` in a module cleanup): the next test does not get a scope, and the one after that destroys the session scope: the third test of this run never gets its module and test scopes. [C05_second_run_violated] C05 is violated by a second run in the same session: the manager does not forget the last module when the scopes are flushed, so the second run does not get session and module scopes."
  },
  {
   "property": "C06",
   "status": "proved",
   "theorems": [
    "Slash.Scope.C06_both_mechanisms",
    "Slash.Scope.C06_exception_propagates",
    "Slash.Scope.C06_call_all",
    "Slash.Scope.C06_call_all_raises"
   ],
   "note": "Proved in full for the model: [C06_both_mechanisms] C06. Closing the innermost scope always tears down its cleanups, and - unless that was cut short by an interruption (or another non-ordinary exception) - its fixtures too, whatever ordinary exception the first raised. [C06_exception_propagates] C06. If either raised, one of the raised exceptions propagates; an interruption takes precedence; if none raised, nothing does. [C06_call_all] C06, for the helper in general: as long as only ordinary exceptions are raised every function is called, in order, ... [C06_call_all_raises] C06 ... and something is raised iff one of them raised; what is raised is what one of them raised."
  },
  {
   "property": "C07",
   "status": "partial",
   "theorems": [
    "Slash.C07_success_hook_iff",
    "Slash.C07_failure_hook_iff",
    "Slash.C07_skip_hook_iff",
    "Slash.C07_error_hook_iff",
    "Slash.Runner.C07_one_summary_per_test_partial",
    "Slash.Runner.C07_interrupted_no_summary_violated"
   ],
   "note": "Proved in part: [C07_one_summary_per_test_partial] C07. During any run at most one summary hook fires per test, and only for begun tests; for a test whose start hook fired, and in which nothing raises an interruption, exactly one fires. What is missing is false of the code, proved with a concrete witness: [C07_interrupted_no_summary_violated] C07 is violated: a test that is interrupted gets no summary hook although it was started."
  },
  {
   "property": "C08",
   "status": "proved",
   "theorems": [
    "Slash.Exc.C08_recorded_at_most_once",
    "Slash.Exc.C08_recorded_kind",
    "Slash.Exc.C08_recorded_exactly_once"
   ],
   "note": "Proved in full for the model: [C08_recorded_at_most_once] C08. Whatever contexts and recording calls an exception passes, it contributes at most one entry to results. [C08_recorded_kind] C08. The heading: assertion failures are failures (first), else skips are skips, else interruptions, else everything except GeneratorExit is an error. [C08_recorded_exactly_once] C08. With an active session, an unanticipated exception leaving a handling context has been recorded exactly once (GeneratorExit: not at all)."
  },
  {
   "property": "C09",
   "status": "proved",
   "theorems": [
    "Slash.C09_never_success_again",
    "Slash.C09_success_iff",
    "Slash.C09_exclusive",
    "Slash.C09_nothing_recorded",
    "Slash.C09_fatal_iff"
   ],
   "note": "Proved in full for the model: [C09_never_success_again] C09. After an error, failure or interruption no later event makes the result successful. [C09_success_iff] C09. `is_success` in terms of the history: nothing bad, and either started without a skip or (if skips are allowed) skipped. [C09_exclusive] C09. Success excludes error, failure, interruption and \"not run\" - the last one for results without skips (a result skipped before it started counts as both \"success, skips allowed\" and \"not run\"). [C09_nothing_recorded] C09. A started and finished result on which nothing else happened is a finished success. [C09_fatal_iff] C09. A result has a fatal error iff an error or failure marked fatal was added."
  },
  {
   "property": "C10",
   "status": "proved",
   "theorems": [
    "Slash.SessionResults.C10_session_success_iff",
    "Slash.SessionResults.C10_bad_event_is_final",
    "Slash.SessionResults.C10_counts",
    "Slash.SessionResults.C10_skips_and_fatal",
    "Slash.SessionResults.C10_success_means_no_errors",
    "Slash.SessionResults.C10_disjoint"
   ],
   "note": "Proved in full for the model: [C10_session_success_iff] C10. The session is successful exactly if the global result is, no worker error was reported, and every test with a result is successful. [C10_bad_event_is_final] C10. Consequently one bad event anywhere - in any test that has a result or globally - makes the session unsuccessful for good. [C10_counts] C10. The counts are the numbers of tests (plus the global result where it is included) with the given property, in terms of what happened to them. [C10_skips_and_fatal] C10. Likewise for skips (of all tests, or of those that were started only) and fatal errors. [C10_success_means_no_errors] C10. A successful session has no errors and no failures; and no test is counted both as successful and as erroneous, failed or not run. [C10_disjoint]"
  },
  {
   "property": "C11",
   "status": "proved",
   "theorems": [
    "Slash.SessionResults.C11_iteration_order",
    "Slash.SessionResults.C11_lookup",
    "Slash.SessionResults.C11_no_second_creation",
    "Slash.SessionResults.C11_index"
   ],
   "note": "Proved in full for the model: [C11_iteration_order] C11. Iteration is in order of first creation, each test once. [C11_lookup] C11. Looking up a test gives the result created for it, carrying exactly what happened to that test; events of other tests, and refused second creations, have no effect on it. [C11_no_second_creation] C11. A second creation for the same test is refused. [C11_index] C11. Access by position agrees with iteration order."
  },
  {
   "property": "C12",
   "status": "partial",
   "theorems": [
    "Slash.Runner.C12_prefix",
    "Slash.Runner.C12_all_have_results",
    "Slash.Runner.C12_stop_reason",
    "Slash.Runner.C12_stops",
    "Slash.Runner.C12_only_special_exceptions_escape",
    "Slash.Runner.C12_complete_only_if_all",
    "Slash.Runner.C12_skip_ends_run_violated",
    "Slash.Runner.C12_interrupted_violated",
    "Slash.Runner.C12_complete_violated"
   ],
   "note": "What is missing is false of the code, proved with a concrete witness: [C12_skip_ends_run_violated] C12 is violated: a skip raised while checking the requirements of a test (or by the `test_avoided` or `test_end` hooks) is not absorbed: it ends the whole run, and the remaining tests get no result. [C12_interrupted_violated] C12 is violated: when the user interrupts the run, the tests not begun get no result (instead of one marked not-run). [C12_complete_violated] C12 is violated: all tests ran, yet the session is not marked complete (the last test failed, with stop-on-error set)."
  },
  {
   "property": "C13",
   "status": "proved",
   "theorems": [
    "Slash.Runner.C13_start_end_paired"
   ],
   "note": "Proved in full for the model: [C13_start_end_paired] C13. In every run the start hooks, bodies and end hooks come, test by test for the tests that were begun, as one of: nothing; start and end; start, body and end. In particular the end hook of a test fires iff its start hook fired, once, after the body, and before anything of the next test - even if the run ends by an exception."
  },
  {
   "property": "C14",
   "status": "partial",
   "theorems": [
    "Slash.Runner.C14_files_partial",
    "Slash.Runner.C14_double_file_end_violated",
    "Slash.Runner.C14_missing_file_end_violated"
   ],
   "note": "Proved in part: [C14_files_partial] C14 (partial). For every run, what the reporter sees of files and test starts, compared to the proper bracketing `fileSpec` of the tests that were begun: it is exactly that if the run completes, or stops in the middle of a file; if it stops normally at a boundary of files there is an extra file end; if it ends by an exception the last file end may be missing. Full statement: always exactly `fileSpec`; see the two violations below. What is missing is false of the code, proved with a concrete witness: [C14_double_file_end_violated] C14 is violated: a run that stops at the last test of a file reports the end of that file twice. [C14_missing_file_end_violated] C14 is violated: when the run is interrupted the end of the current file is never reported."
  },
  {
   "property": "C15",
   "status": "proved",
   "theorems": [
    "Slash.Peekable.C15_transparent",
    "Slash.Peekable.C15_yields_original_sequence",
    "Slash.Peekable.C15_peek_next"
   ],
   "note": "Proved in full for the model: [C15_transparent] C15. Whatever interleaving of calls is made, every call returns what it would return on the plain sequence in which only `next` consumes; and an exception of the iterator comes out once, of the call that meets it. [C15_yields_original_sequence] C15. In particular, for an iterator over a list, the `next` calls deliver the list in order and then stop, regardless of the other calls in between. [C15_peek_next] C15. A call of `next` returns what a call of `peek` before it returned, unless that raised an exception of the iterator."
  },
  {
   "property": "C16",
   "status": "partial",
   "theorems": [
    "Slash.Fix.C16_called_once_and_shared_partial",
    "Slash.Fix.C16_stale_dependency_violated"
   ],
   "note": "Proved in part: [C16_called_once_and_shared_partial] C16: in the setup of one test, at any point of any session: no fixture function is called twice; one which is called has no value from before that may be reused; each call gets, for each fixture it needs, the one value that fixture has in this setup, computed before; and the test gets these same values. Across tests see `C16_stale_dependency_violated`. What is missing is false of the code, proved with a concrete witness: [C16_stale_dependency_violated] C16 (violated): a fixture which outlives the value of a dependency keeps it. Fixture `1` (session scope) depends on the parametrized fixture `0`; the tests run with parameter 0, 1 (using `0` only) and 0 again: in the third test `1` is still the one built from the first value of `0`, cleaned up since, while the test gets a new one."
  },
  {
   "property": "C17",
   "status": "partial",
   "theorems": [
    "Slash.Fix.C17_cleaned_once_lifo",
    "Slash.Fix.C17_cleaned_all",
    "Slash.Fix.C17_raising_cleanup_violated",
    "Slash.Fix.C17_scope_end_partial",
    "Slash.Fix.C17_reverse_order_partial",
    "Slash.Fix.C17_interrupted_violated",
    "Slash.Fix.C17_skip_in_cleanup_violated",
    "Slash.Fix.C17_dependents_first_partial",
    "Slash.Fix.C17_dependents_first_violated"
   ],
   "note": "Proved in part: [C17_scope_end_partial] C17: when a scope ends, at any point of any session, uninterrupted and without an exception escaping from a cleanup, exactly the fixtures of wider scopes stay active. [C17_reverse_order_partial] C17: if moreover no fixture of a narrower scope is active, the fixtures of the scope are torn down in the reverse of the order in which they were activated. [C17_dependents_first_partial] C17: in such sessions, with dependencies of scopes at least as wide (which C19 proves), whatever was given to a fixture function is cleaned up only after all the cleanups of what the function returned; and nothing is given to a fixture function that was cleaned up before. What is missing is false of the code, proved with a concrete witness: [C17_raising_cleanup_violated] C17 (violated): a cleanup of a fixture that raises makes the fixture's other cleanups never be called. [C17_interrupted_violated] C17 (violated): after an interruption nothing is torn down. [C17_skip_in_cleanup_violated] C17 (violated): a cleanup which skips the test makes the other fixtures of the scope stay active. [C17_dependents_first_violated] C17 (violated): when the value of a parameter changes, a fixture can be torn down before another one built from it. Two session fixtures depend on a parametrized session fixture; the next test has another value of the parameter."
  },
  {
   "property": "C18",
   "status": "proved",
   "theorems": [
    "Slash.Fix.C18_no_spurious_error",
    "Slash.Fix.C18_depth_irrelevant",
    "Slash.FG.C18_terminates",
    "Slash.FG.C18_error_iff_cycle",
    "Slash.FG.C18_memo_stays_right"
   ],
   "note": "Proved in full for the model: [C18_no_spurious_error] C18, when fixtures are computed: without a cycle among their dependencies the only errors are those raised by user code, however deep the dependencies are. [C18_depth_irrelevant] The depth of the recursion in the model does not matter, if it exceeds the number of fixtures. [C18_terminates] C18: collecting what a fixture needs terminates, whatever the (finite) dependency graph: `V` is any finite set of fixtures containing the given one and all dependencies of its members. [C18_error_iff_cycle] C18: whenever it ends, the cycle error was raised exactly if the fixture leads to a dependency cycle, and otherwise the result is exactly the set of all parameters of all fixtures it leads to, without repetition. `memo` holds earlier results. [C18_memo_stays_right] C18: the table of earlier results stays right when a new result is stored in it (`fixture_store.py:152-154`). So the results do not depend on what was computed before."
  },
  {
   "property": "C19",
   "status": "proved",
   "theorems": [
    "Slash.FG.C19_dependencies_live_longer",
    "Slash.FG.C19_narrower_rejected"
   ],
   "note": "Proved in full for the model: [C19_dependencies_live_longer] C19: if all fixtures resolve, each fixture got a definition, all its arguments which are not parameters were found, each dependency has a scope at least as wide and is another fixture, and its parametrizations are there, each once. [C19_narrower_rejected] C19: a fixture with an argument naming a fixture of narrower scope is rejected, whatever the order of resolution."
  },
  {
   "property": "C20",
   "status": "partial",
   "theorems": [
    "Slash.NS.C20_closest_definition_partial",
    "Slash.NS.C20_names_in_fixtures_partial",
    "Slash.NS.C20_names_stay",
    "Slash.NS.C20_sibling_visible_violated",
    "Slash.NS.C20_renamed_violated"
   ],
   "note": "Proved in part: [C20_closest_definition_partial] C20: whatever files were loaded before, in a test file a fixture name means the fixture of that name defined in the file, otherwise the one in the `slashconf` of the closest directory defining one, otherwise the one known everywhere; it is unknown if there is none. (Provided variables in `slashconf` files have the name of their fixture, see `C20_renamed_violated`.) [C20_names_in_fixtures_partial] C20: the names used by a fixture that becomes known with this file have the same meaning if the fixture is defined in the file; if it is defined in a `slashconf`, the file's own definitions are not considered. What is missing is false of the code, proved with a concrete witness: [C20_sibling_visible_violated] C20 (violated): a fixture of a `slashconf` shared by two directories is bound to the definitions of the directory loaded first. The common parent defines 1 (which uses the name 2) and 2; directory A overrides 2. In a file of directory B, loaded after one of A, the name 2 means the parent's fixture, but the parent's fixture 1 uses the one of A. [C20_renamed_violated] C20 (violated): overriding a fixture of a parent directory by one of the same name, but kept in another variable, fails (an assertion)."
  },
  {
   "property": "C21",
   "status": "proved",
   "theorems": [
    "Slash.Var.C21_each_is_a_combination",
    "Slash.Var.C21_each_combination_once",
    "Slash.Var.C21_count",
    "Slash.Var.C21_transitive",
    "Slash.Var.C21_dicts",
    "Slash.Var.C21_dicts_nodup",
    "Slash.Var.C21_dicts_order"
   ],
   "note": "Proved in full for the model: [C21_each_is_a_combination] C21: each variation gives each needed parameter, once, one of its values, and nothing else. [C21_each_combination_once] C21: each combination of values of the needed parameters occurs exactly once; so with no needed parameters there is exactly one variation. [C21_count] C21: so their number is the product of the numbers of values. [C21_transitive] C21: the parameters are those of the fixtures the test needs, directly or not (`defs`: the fixtures; the needed ones with what the store computes for them). [C21_dicts] C21 for `iter_cartesian_dicts`: exactly the dictionaries that have the given keys, in their order, each with one of its values ... [C21_dicts_nodup] ... each of them once, if no value is listed twice for a key ... [C21_dicts_order] ... in the order in which the values of the last key change fastest."
  },
  {
   "property": "C22",
   "status": "partial",
   "theorems": [
    "Slash.Var.C22_wide_change_least_partial",
    "Slash.Var.C22_indirect_violated"
   ],
   "note": "Proved in part: [C22_wide_change_least_partial] C22, the part that holds (the parameters of the wide fixtures which the test itself asks for): two variations that agree on the parameters of all the fixtures asked for with at least the scope `s` have only such variations between them. So the variations of these fixtures are gone through one after the other, and the narrower parameters change within. Not so for a wide fixture that is only asked for by a narrower fixture, see `C22_indirect_violated`. What is missing is false of the code, proved with a concrete witness: [C22_indirect_violated] C22 fails when a session fixture is asked for by a test fixture only: below, the test fixture 0 has the parameter 2 and asks for the session fixture 1, which has the parameter 3. Parameter 3 alternates."
  },
  {
   "property": "C23",
   "status": "proved",
   "theorems": [
    "Slash.Fix.C23_reused_iff_same_variation"
   ],
   "note": "Proved in full for the model: [C23_reused_iff_same_variation] C23: let a fixture be computed while a test with the variation `E1` is set up, and still be active when, after anything else that may happen in a session, it is needed first by a test with variation `E2`. If all parameters the fixture depends on have the same values, its value is reused and nothing is called. Otherwise its cleanups are called first (up to one which raises), and if the computation succeeds the value is that of a new call made after them."
  },
  {
   "property": "C24",
   "status": "partial",
   "theorems": [
    "Slash.Pat.C24_boolean_reading_partial",
    "Slash.Pat.C24_word_starting_with_not_violated",
    "Slash.Pat.C24_rest_ignored_violated"
   ],
   "note": "Proved in part: [C24_boolean_reading_partial] C24, the part that holds (the words in the expression are neither read as `tag:` and a word nor as `not` and something else): every text of an expression, of whatever depth, is accepted up to its end, and selects exactly the tests for which the boolean reading holds. What is missing is false of the code, proved with a concrete witness: [C24_word_starting_with_not_violated] C24 fails for words that begin with `not` and a character which is not a letter, digit or underscore: `not-there` selects the tests which do not contain `-there`: not a test in `not-there.py`, but one in `elsewhere.py`. [C24_rest_ignored_violated] C24 fails for texts which are not expressions: they are not rejected, and what comes after the longest expression at the start is dropped. `a b` and `a and (b` are read as `a`."
  },
  {
   "property": "C25",
   "status": "proved",
   "theorems": [
    "Slash.Pat.C25_conjunction",
    "Slash.Pat.C25_monotone",
    "Slash.Pat.C25_suite_files"
   ],
   "note": "Proved in full for the model: [C25_conjunction] C25: a test passes the filters iff it satisfies every one of them. [C25_monotone] C25: so without filters every test passes, and another filter only takes away tests. [C25_suite_files] C25: the filter of a suite file which another suite file mentions, and of the line that mentions it, have to be satisfied both, whichever of them there are; however deep the suite files are nested (`fs`: the filters on the way)."
  },
  {
   "property": "C26",
   "status": "partial",
   "theorems": [
    "Slash.Tag.C26_keeps_everything",
    "Slash.Tag.C26_conflict_raised",
    "Slash.Tag.C26_conflict_only_if_partial",
    "Slash.Tag.C26_order_violated",
    "Slash.Tag.C26_set_up_partial",
    "Slash.Tag.C26_set_up_violated"
   ],
   "note": "Proved in part: [C26_conflict_only_if_partial] C26, the part that holds (no tag has a value in one source and none in another one): there is a conflict only if two sources give one tag different values. With `C26_conflict_raised` that does not depend on the order in which they are merged. See `C26_order_violated` for the rest. [C26_set_up_partial] C26, for the fixtures that are set up for a test (partial: there are no fixtures but those among its arguments): each tag of each fixture that is set up for the test, or that such a fixture uses, is a tag of the test, with the value it has. What is missing is false of the code, proved with a concrete witness: [C26_order_violated] C26 fails when one source gives a tag a value and another one does not: whether that is a conflict depends on which one comes first. [C26_set_up_violated] C26 fails for fixtures declared with `autouse`, those named by `use_fixtures`, and those that `before` or `after` of a class take: they are set up for the test, but their tags are not tags of the test (their conflicts with tags of the test are not noticed either), although those of arguments are."
  },
  {
   "property": "C27",
   "status": "partial",
   "theorems": [
    "Slash.Excl.C27_excluded_iff_partial",
    "Slash.Excl.C27_declaration",
    "Slash.Excl.C27_malformed_refused",
    "Slash.Excl.C27_unknown_not_ignored",
    "Slash.Excl.C27_unknown_complaint",
    "Slash.Excl.C27_same_names_violated",
    "Slash.Excl.C27_indirect_fixture_violated",
    "Slash.Excl.C27_names_in_list_violated"
   ],
   "note": "Proved in part: [C27_excluded_iff_partial] C27, the part that holds (the declarations name parameters the test has, in tuples, no two declarations on one function name the same parameters; and only those on the test and on the fixtures among its arguments count): a test is excluded iff for one of the declarations, the values of all the named parameters are one of the listed combinations. What is missing is false of the code, proved with a concrete witness: [C27_same_names_violated] C27 fails for two declarations with the same names: only the one applied last (the outer one) counts. [C27_indirect_fixture_violated] C27 fails for declarations on a fixture the test uses through another fixture: only the fixtures among the arguments are looked at. (Fixture 1 is an argument, and uses fixture 5, on which the value of parameter 3 is excluded.) [C27_names_in_list_violated] C27 fails for several names given as a list (which `exclude` accepts): the check itself raises an error."
  },
  {
   "property": "C28",
   "status": "partial",
   "theorems": [
    "Slash.Req.C28_all_requirements_collected",
    "Slash.Req.C28_unmet_partial",
    "Slash.Req.C28_reasons",
    "Slash.Req.C28_declared",
    "Slash.Req.C28_use_fixtures_violated",
    "Slash.Req.C28_before_violated",
    "Slash.Req.C28_nofixtures_violated",
    "Slash.Runner.C28_avoided_not_run"
   ],
   "note": "Proved in part: [C28_unmet_partial] C28, the part that holds (no fixture comes from `use_fixtures` or is used by `before` or `after` of a class, and the test is not marked with `nofixtures`, unless there are no autouse fixtures): nothing is unmet (and so the test runs, see `C28_avoided_not_run` for the runner) only if every requirement of the test and of every fixture set up for it is met; otherwise one skip is recorded for each unmet requirement, and no others. What is missing is false of the code, proved with a concrete witness: [C28_use_fixtures_violated] C28 fails for fixtures that the test names by `use_fixtures`: their requirements are not looked at, and they are set up. [C28_before_violated] C28 fails for tests of classes: the requirements of fixtures that `before` or `after` take are not looked at, and they are set up (unless the method takes them as well). [C28_nofixtures_violated] C28 fails for tests marked with `nofixtures`: autouse fixtures are set up for them, but their requirements are not looked at."
  },
  {
   "property": "C29",
   "status": "proved",
   "theorems": [
    "Slash.Par.C29_handed_out_once"
   ],
   "note": "Proved in full for the model: [C29_handed_out_once] C29: over any history no test is handed out twice (in particular not to two workers), and only collected tests are."
  },
  {
   "property": "C30",
   "status": "partial",
   "theorems": [
    "Slash.Par.C30_every_test_accounted_partial",
    "Slash.Par.C30_late_report_violated",
    "Slash.Par.C30_reconnect_violated"
   ],
   "note": "Proved in part: [C30_every_test_accounted_partial] C30: if each worker connects once, and nothing is heard any more of a test whose worker was reported dead, every collected test is at any time in exactly one of three states, and exactly the finished ones have a result, one each. What is missing is false of the code, proved with a concrete witness: [C30_late_report_violated] C30, missing: a worker whose keep-alive lapsed is reported as failed but may still be running; if it then reports the test, the test counts as finished twice (the server does not forget what the dead worker was executing). The server then takes the run for finished while another test is still executing. [C30_reconnect_violated] C30, missing: a worker connecting again while it executes a test; the test is neither waiting nor executed nor finished."
  },
  {
   "property": "C31",
   "status": "partial",
   "theorems": [
    "Slash.Par.C31_forced_goes_there_partial",
    "Slash.Par.C31_excluded_never_handed",
    "Slash.Par.C31_not_both",
    "Slash.Par.C31_calls",
    "Slash.Par.C31_forced_late_violated",
    "Slash.Par.C31_forced_twice_violated",
    "Slash.Par.C31_run_forced",
    "Slash.Par.C31_run_excluded"
   ],
   "note": "Proved in part: [C31_forced_goes_there_partial] C31, forced tests: with the tests forced when the run starts, a test forced onto some workers is only ever handed to one of these; so if it is forced onto one worker only, it is handed to no other one. What is missing is false of the code, proved with a concrete witness: [C31_forced_late_violated] C31, missing: a test forced onto a worker once the server has been created (as in a `before_worker_start` hook, where the documentation suggests it) is handed to another worker. [C31_forced_twice_violated] C31, missing: a test forced onto two workers is handed only to the last one."
  },
  {
   "property": "C32",
   "status": "partial",
   "theorems": [
    "Slash.Par.C32_served_after_validation",
    "Slash.Par.C32_all_workers_agree_partial",
    "Slash.Par.C32_counts_validations_violated"
   ],
   "note": "Proved in part: [C32_all_workers_agree_partial] C32, for the workers the run was configured with: if the requests come from these workers and no worker validates successfully twice, then whenever a test is handed out all of them have connected, and all of them have validated the parent's collection. So a worker with another collection gets no test, and neither does any other worker. What is missing is false of the code, proved with a concrete witness: [C32_counts_validations_violated] C32, missing: the server counts validations and not workers; one worker validating twice stands for two, and a worker with another collection is then given a test."
  },
  {
   "property": "C33",
   "status": "partial",
   "theorems": [
    "Slash.Par.C33_all_finished_partial",
    "Slash.Par.C33_stopped_nothing_waits_partial",
    "Slash.Par.C33_waits_iff_partial",
    "Slash.Par.C33_worker_problem_known",
    "Slash.Par.C33_interrupted_violated",
    "Slash.Par.C33_failed_disconnect_violated",
    "Slash.Par.C33_excluded_everywhere_violated"
   ],
   "note": "Proved in part: [C33_all_finished_partial] C33, first half: let no worker fail or be interrupted, let each worker of `W` have been told that there are no more tests, each test be executable by one of these workers, and no test be still in execution. Then all tests are finished, with one result each, and once all workers disconnected the parent stops waiting. [C33_stopped_nothing_waits_partial] C33, second half: with no interruption and no worker leaving with a failure, once the server has stopped handing out tests - because of a crash, a fatal result, a failure under stop-on-error, or the end of the tests - no test is waiting: each one has a result or is still being executed. [C33_waits_iff_partial] C33: if each worker connects once, and nothing is heard any more of a test whose worker was reported dead, the parent waits exactly as long as a worker is connected or a test has no result. What is missing is false of the code, proved with a concrete witness: [C33_interrupted_violated] C33, missing: an interruption stops the run without giving the waiting tests results. [C33_failed_disconnect_violated] C33, missing: so does a worker leaving because its collection differs. The parent goes on waiting for tests (until its time-out), although all workers are gone. [C33_excluded_everywhere_violated] C33, missing: a test excluded from every worker never gets a result, and the parent waits (until its time-out) although all workers were told there are no more tests and disconnected."
  },
  {
   "property": "C34",
   "status": "partial",
   "theorems": [
    "Slash.Resume.C34_flags",
    "Slash.Resume.C34_resume_partial",
    "Slash.Resume.C34_only",
    "Slash.Resume.C34_rerun",
    "Slash.Resume.C34_same_address_violated",
    "Slash.Resume.C34_failed_and_skipped_violated"
   ],
   "note": "Proved in part: [C34_resume_partial] C34, the part that holds (tests with the same address are the same test): without options, what is offered to be resumed is exactly the tests with a result which did not finish successfully, and the tests without any result. What is missing is false of the code, proved with a concrete witness: [C34_same_address_violated] C34 fails for two tests with one address (two variations which are written the same way, see `C69_same_text_violated`) neither of which was run: only one of them is saved, and the other one is not offered. [C34_failed_and_skipped_violated] C34 fails for a test that both failed and was skipped (for example in its teardown): `--failed-only` does not offer it."
  },
  {
   "property": "C35",
   "status": "proved",
   "theorems": [
    "Slash.Resume.C35_only_reorders"
   ],
   "note": "Proved in full for the model: [C35_only_reorders] C35: the ordering options are rejected only if both are given, and otherwise put the tests asked for first, and keep the order among these and among the others; no test is lost or repeated."
  },
  {
   "property": "C36",
   "status": "proved",
   "theorems": [
    "Slash.Resume.C36_survives",
    "Slash.Resume.C36_expires",
    "Slash.Resume.C36_last",
    "Slash.Resume.C36_previous_local",
    "Slash.Resume.C36_previous_remote"
   ],
   "note": "Proved in full for the model: [C36_survives] C36 for surviving: after a session was saved, what is read back for it is what was saved, whatever other sessions are saved before and after, as long as no clean-up with a later time limit was done. [C36_expires] C36 for expiry: a clean-up removes exactly the sessions created before its time limit, with all their entries, and keeps the others and their entries. [C36_last] C36 for the last session: it is a session of the folder such that no other session of the folder was created later; and resuming is refused if and only if there is no session of the folder. [C36_previous_local] C36: resuming a session of at least one test, any number of sessions and cleanings later, offers what was saved for it, selected and ordered by the flags, wherever it could also be found; contradicting flags are refused. [C36_previous_remote] C36: a session that was not saved here, or has expired, is looked up elsewhere, and resumed in the same way if it is found."
  },
  {
   "property": "C37",
   "status": "proved",
   "theorems": [
    "Slash.Load.C37_each_pass",
    "Slash.Load.C37_total",
    "Slash.Load.C37_passes_in_order",
    "Slash.Load.C37_distinct"
   ],
   "note": "Proved in full for the model: [C37_each_pass] C37: if loading succeeds, each test that was found occurs in the result as often in each of the `all` passes as its repeat mark times the number of repetitions of each test says. [C37_total] C37 for the total: each test occurs `all * each * rep` times (where no repetition of all tests is the same as one). [C37_passes_in_order] C37 for order: all tests of one pass come before those of the next one, whatever sort keys the hooks set. [C37_distinct] C37 for identity: loading tests that were not loaded before succeeds, all the tests it gives are different objects, each gets an id, and all ids are different. `earlier`: the tests that got ids before."
  },
  {
   "property": "C38",
   "status": "proved",
   "theorems": [
    "Slash.Load.C38_stable",
    "Slash.Load.C38_default_order"
   ],
   "note": "Proved in full for the model: [C38_stable] C38: sorting neither drops nor repeats a test, sorts by the keys within each pass, and keeps the order of tests with the same key. [C38_default_order] C38 if no hook sets sort keys: tests are run in the order in which they were found (sort keys are handed out in increasing order, from 1), each with its repetitions, pass by pass, after the interactive test if there is one."
  },
  {
   "property": "C39",
   "status": "partial",
   "theorems": [
    "Slash.Load.C39_selects",
    "Slash.Load.C39_path",
    "Slash.Load.C39_own_address_partial",
    "Slash.Load.C39_variation_violated"
   ],
   "note": "Proved in part: [C39_own_address_partial] C39 for the addresses of tests, the part that holds (the test has no variation): each test can be loaded by its own address. What is missing is false of the code, proved with a concrete witness: [C39_variation_violated] C39 fails for tests with a variation: loading `f:t(a=1)`, which is the address of a test in `f`, is refused."
  },
  {
   "property": "C40",
   "status": "proved",
   "theorems": [
    "Slash.Exc.C40_caught_hook_at_most_once",
    "Slash.Exc.C40_caught_hook_exactly_once",
    "Slash.Exc.C40_anticipated_never_handled"
   ],
   "note": "Proved in full for the model: [C40_caught_hook_at_most_once] C40. However a script nests handling, anticipating, swallowing, try/except and try/finally, and whatever the hooks themselves raise, the exception-caught hook fires at most once per exception. [C40_caught_hook_exactly_once] C40. If an exception reaches a handling context and is neither anticipated nor passed through, then by the time the context is left the hook has fired for it exactly once, no matter how many contexts inside had seen it before. [C40_anticipated_never_handled] C40. Exceptions anticipated by `assert_raises` / `allowing_exceptions` never fire the hook, however many handling contexts they cross inside."
  },
  {
   "property": "C41",
   "status": "proved",
   "theorems": [
    "Slash.Exc.C41_handling_stops_iff",
    "Slash.Exc.C41_skip_and_interrupt_escape",
    "Slash.Exc.C41_handling_transparent",
    "Slash.Exc.C41_noswallow",
    "Slash.Exc.C41_decorated",
    "Slash.Exc.C41_mark_stays"
   ],
   "note": "Proved in full for the model: [C41_handling_stops_iff] C41. Exact decision of one handling context around any script, when the exception hooks do not raise: the exception is stopped iff it is not anticipated / passed through, is neither a skip (which only matters while a session is active) nor an interruption, and is an instance of the swallow types (`Exception` when `swallow=True`); in every other case the very same exception propagates. [C41_skip_and_interrupt_escape] C41. A skip or an interruption gets out of any number of nested handling contexts, whatever they swallow. [C41_handling_transparent] C41. A handling context whose body does not raise does not raise either and does nothing. [C41_noswallow] C41. A `noswallow` mark gets an exception out of any number of swallowing contexts; an unmarked exception (of whatever class) is stopped by the innermost one. [C41_decorated] C41. Whatever a function decorated with `disable_exception_swallowing` does, its exception leaves any number of swallowing contexts around the call, and decorating changes nothing else: not the outcome, nor what is recorded and announced. [C41_mark_stays] C41. An exception once marked stays so, whatever is done with it and with others."
  },
  {
   "property": "C42",
   "status": "proved",
   "theorems": [
    "Slash.Exc.C42_assert_raises",
    "Slash.Exc.C42_allowing",
    "Slash.Exc.C42_anticipation_restored"
   ],
   "note": "Proved in full for the model: [C42_assert_raises] C42. Exact outcome of `assert_raises` around any script: an instance of the expected classes is caught and exposed, any other exception propagates unchanged, and silence is an `ExpectedExceptionNotCaught`. [C42_allowing] C42. `allowing_exceptions` differs only in that silence is fine. [C42_anticipation_restored] C42. Anticipation ends with the context: after any script, on every exit path, the set of anticipated classes is what it was before."
  },
  {
   "property": "C43",
   "status": "partial",
   "theorems": [
    "Slash.Plug.C43_active_installed",
    "Slash.Plug.C43_inactive_has_none",
    "Slash.Plug.C43_registered_once_partial",
    "Slash.Plug.C43_twice_violated",
    "Slash.Plug.C43_replaced_violated",
    "Slash.Plug.C43_noops_violated",
    "Slash.Plug.C43_toggle_violated"
   ],
   "note": "Proved in part: [C43_registered_once_partial] C43, the part that holds (active plugins are not activated again, and not replaced by another one of the same name): the methods registered for an active plugin are exactly those its installed object asks for, each as often as it asks. What is missing is false of the code, proved with a concrete witness: [C43_twice_violated] C43 fails if an active plugin is activated again: its methods are registered twice. [C43_replaced_violated] C43 fails if another plugin of the same name is installed: the methods of the one that was active stay registered although it is not installed any more. [C43_noops_violated] C43 fails for what orders hooks: if activating a plugin is refused, the no-ops registered for it stay, even when it is uninstalled. [C43_toggle_violated] C43 fails for toggles: a plugin which uses the end of the session, but not its start, leaves a registration for the start when it is deactivated."
  },
  {
   "property": "C44",
   "status": "partial",
   "theorems": [
    "Slash.Plug.C44_without_wins_partial",
    "Slash.Plug.C44_requests",
    "Slash.Plug.C44_succeeds_partial",
    "Slash.Plug.C44_clash_violated",
    "Slash.Plug.C44_uninstalled_violated"
   ],
   "note": "Proved in part: [C44_without_wins_partial] C44, the part that holds (no two installed plugins have names that are the same on the command line, and no plugin was uninstalled while its activation was pending): after any history, if activating and deactivating what is pending succeeds, in whatever order, exactly those plugins are active that were active or asked for and not asked to be inactive, which is what was predicted; and nothing is pending any more. [C44_succeeds_partial] C44: activating what is pending succeeds if all plugins asked for are installed, know their hooks, and nothing raises. What is missing is false of the code, proved with a concrete witness: [C44_clash_violated] C44 fails for plugins whose names are the same on the command line: asking for the plugin `a-b`, by the object itself, activates `a b`, although `a-b` was predicted. [C44_uninstalled_violated] C44 fails if a plugin is uninstalled while its activation is pending: the others are not activated either."
  },
  {
   "property": "C45",
   "status": "proved",
   "theorems": [
    "Slash.Cfg.C45_restored_when_applying_fails",
    "Slash.Cfg.C45_restored",
    "Slash.Cfg.C45_restored_exactly",
    "Slash.Cfg.C45_exception_passed",
    "Slash.Cfg.C45_last_override_in_force",
    "Slash.Cfg.C45_others_untouched",
    "Slash.Cfg.C45_option_in_force"
   ],
   "note": "Proved in full for the model: [C45_restored_when_applying_fails] C45: if applying the options and overrides fails at any point, the block is not run, and the configuration is what it was. [C45_restored] C45: for every block, whether it raises or not: after the context each value is what it was before, unless the path was not overridden (it had the old value when the block was entered) and the block itself changed it. [C45_restored_exactly] C45: if the block leaves the configuration as it found it, then after the context the configuration is what it was before, whether the block raises or not. [C45_exception_passed] The exception of the block is passed on. [C45_last_override_in_force] C45: inside of the context the last override given for a path is in force: the path has the value which its text stands for, converted to the type of the value it replaces. [C45_others_untouched] C45: a value which no override and no option is about is not changed inside of the context. [C45_option_in_force] C45: an option of the command line for a path which no override is about gives the value in force inside of the context: its argument replaces the old value, or is appended to it; then the flags given are applied in turn, each to what the one before left; then the value is converted to the type of the old one."
  },
  {
   "property": "C46",
   "status": "proved",
   "theorems": [
    "Slash.Ctx.C46_push_pop_restores",
    "Slash.Ctx.C46_fresh_context_is_clean",
    "Slash.Ctx.C46_keeps_value",
    "Slash.Ctx.C46_own_globals",
    "Slash.Ctx.C46_assignment",
    "Slash.Ctx.C46_bottom_is_permanent",
    "Slash.Ctx.C46_bottom_refuses",
    "Slash.Ctx.C46_pushed_allows"
   ],
   "note": "Proved in full for the model: [C46_push_pop_restores] C46. Pushing a context, doing anything well-bracketed (including assignments in it and in contexts pushed on top of it), and popping it restores exactly the previous stack - and so every attribute value. [C46_fresh_context_is_clean] C46. Inside a pushed context nothing of the outer ones shows: the standard attributes are None until assigned, whatever the outer contexts contain. [C46_keeps_value] C46. An attribute of a context keeps its value whatever is pushed, assigned and popped on top of the context, and whatever other attributes are assigned in it. [C46_own_globals] C46. Each context has its own storages for globals, one for users and one for slash itself. [C46_assignment] C46. An assignment is seen by lookups of that attribute and by no others, and leaves outer contexts alone. [C46_bottom_is_permanent] C46. In every history the bottom context stays where it is, and the stack has one context for each push not yet popped. [C46_bottom_refuses] C46. Without a pushed context, popping and assigning are refused and change nothing, all standard attributes read as None, and reading any other attribute is an AttributeError. [C46_pushed_allows] C46. With a pushed context, popping and assigning are possible."
  },
  {
   "property": "C47",
   "status": "partial",
   "theorems": [
    "Slash.Exit.C47_zero_iff_partial",
    "Slash.Exit.C47_empty_selection_partial",
    "Slash.Exit.C47_selection",
    "Slash.Exit.C47_no_paths_fails",
    "Slash.Exit.C47_system_exit_violated",
    "Slash.Exit.C47_system_exit_run",
    "Slash.Exit.C47_resume_nothing_violated",
    "Slash.Exit.C47_zero_means_passed_partial"
   ],
   "note": "Proved in part: [C47_zero_iff_partial] C47 (partial: if nothing raises SystemExit with a code that means success): the status is 0 iff nothing was raised and the session is successful (skips are allowed). [C47_empty_selection_partial] C47: `slash run` (not resuming) runs something or fails: with nothing selected the status is not 0. [C47_zero_means_passed_partial] C47, together with the runner: if the tests are run by `run_tests` (what follows it may not change the results of tests, and may raise), status 0 means that at least one test was selected and every selected test has a result which is successful or skipped. What is missing is false of the code, proved with a concrete witness: [C47_system_exit_violated] C47 is violated: a test that raises SystemExit with code 0 (or without a code) ends the run with status 0, though its result has an error and other tests were not run. [C47_resume_nothing_violated] C47 is violated for `slash resume`: if there is nothing to resume, the status is 0 though no test was run."
  },
  {
   "property": "C48",
   "status": "partial",
   "theorems": [
    "Slash.Warn.C48_matches_partial",
    "Slash.Warn.C48_matches_violated",
    "Slash.Warn.C48_covers_matches",
    "Slash.Warn.C48_recorded_iff",
    "Slash.Warn.C48_context_undone",
    "Slash.Warn.C48_states",
    "Slash.Warn.C48_recorded_exactly",
    "Slash.Warn.C48_in_force_inside"
   ],
   "note": "Proved in part: [C48_matches_partial] C48 (partial: for filters none of whose criteria is an empty string or 0): a filter matches a warning iff all the criteria it specifies hold. What is missing is false of the code, proved with a concrete witness: [C48_matches_violated] C48 is violated: a filter for warnings with an empty message ignores warnings with any message."
  },
  {
   "property": "C49",
   "status": "proved",
   "theorems": [
    "Slash.IdSpace.C49_ids",
    "Slash.IdSpace.C49_unique",
    "Slash.IdSpace.C49_tests_get_distinct_ids",
    "Slash.IdSpace.C49_second_request_refused",
    "Slash.IdSpace.C49_id_is_permanent"
   ],
   "note": "Proved in full for the model: [C49_ids] C49. The i-th id allocated is the base, an underscore (not doubled), and the decimal number i (from 1): ids share the base and increase. [C49_unique] C49. All ids ever allocated from one space are different. [C49_tests_get_distinct_ids] C49. Whatever the order of id requests for tests - including repeated ones, which are refused - no two tests get the same id, and a test's id never changes once given. [C49_second_request_refused] C49. A request is refused exactly if the test has an id already. [C49_id_is_permanent]"
  },
  {
   "property": "C50",
   "status": "partial",
   "theorems": [
    "Slash.Suite.C50_white_space",
    "Slash.Suite.C50_every_line",
    "Slash.Suite.C50_expansion_partial",
    "Slash.Suite.C50_depth",
    "Slash.Suite.C50_filters_conjoined",
    "Slash.Suite.C50_filter_with_comma_violated",
    "Slash.Suite.C50_several_files"
   ],
   "note": "Proved in part: [C50_expansion_partial] C50 (partial: filters with a comma are cut, see `C50_filter_with_comma_violated`): a suite file yields an expansion iff that is what its lines say, whatever the lines are (`C50_every_line`). The number is the depth of nesting that is possible, anything large enough gives the same (`C50_depth`). What is missing is false of the code, proved with a concrete witness: [C50_filter_with_comma_violated] C50 is violated for filters with a comma, which is an ordinary character of filters elsewhere (in addresses, for example): the filter ends at the comma."
  },
  {
   "property": "C51",
   "status": "partial",
   "theorems": [
    "Slash.C51_error_not_announced_as_skip_violated",
    "Slash.C51_interruption_not_announced_as_skip_violated",
    "Slash.C51_error_hook_partial"
   ],
   "note": "Proved in part: [C51_error_hook_partial] C51, partial: without any skip on record, an error always fires the error hook, and an interruption the error or failure hook. Missing: histories that also contain a skip. What is missing is false of the code, proved with a concrete witness: [C51_error_not_announced_as_skip_violated] C51 is violated: an error followed by a skip (e.g. an error added with `slash.add_error`, then `slash.skip_test`) fires the skip hook; so does an interrupted test that has a skip. [C51_interruption_not_announced_as_skip_violated]"
  },
  {
   "property": "C52",
   "status": "partial",
   "theorems": [
    "Slash.Warn.C52_restored_violated",
    "Slash.Warn.C52_restored_partial"
   ],
   "note": "Proved in part: [C52_restored_partial] C52 (partial): what is left behind by a context that is left by an exception is its own filter and nothing else: the filters in force are those its block would have left on its own, with the context's filter put before the ones which the block added; and if the block cleared the filters, exactly those its block would have left. What is missing is false of the code, proved with a concrete witness: [C52_restored_violated] C52 is violated: if the block raises, the filter of the context stays."
  },
  {
   "property": "C53",
   "status": "partial",
   "theorems": [
    "Slash.Suite.C53_repeat_of_suite_violated",
    "Slash.Suite.C53_repeat_of_suite_partial"
   ],
   "note": "Proved in part: [C53_repeat_of_suite_partial] C53 (partial: for lines that say one repetition or nothing): a line naming another suite file yields the expansion of that file as often as it says. What is missing is false of the code, proved with a concrete witness: [C53_repeat_of_suite_violated] C53 is violated: a line naming another suite file gives what that file expands to once, though it says twice."
  },
  {
   "property": "C54",
   "status": "partial",
   "theorems": [
    "Slash.ExcMark.C54_mark_is_seen",
    "Slash.ExcMark.C54_object_marks_are_local",
    "Slash.ExcMark.C54_fresh_object_inherits",
    "Slash.ExcMark.C54_class_marks_are_local_violated",
    "Slash.ExcMark.C54_class_marks_are_local_partial"
   ],
   "note": "Proved in part: [C54_class_marks_are_local_partial] C54, partial: if classes are marked before (never after) their base classes, every mark seen anywhere was put, with that value, on the object itself or on a class it derives from. Missing: histories marking a subclass after its base class. What is missing is false of the code, proved with a concrete witness: [C54_class_marks_are_local_violated] C54 is violated: marking a class whose base class has been marked before (as `app.py:25` does with `SlashException`) writes into the dictionary of the base class, so the mark shows on the base class, on its other subclasses and on their instances. Here 1 and 2 are both subclasses of 0."
  },
  {
   "property": "C55",
   "status": "partial",
   "theorems": [
    "Slash.Cleanup.C55_critical_always_runs_violated",
    "Slash.Cleanup.C55_critical_runs_partial"
   ],
   "note": "Proved in part: [C55_critical_runs_partial] C55, partial: if closing the scope returns normally (no cleanup raised a skip, an interruption or a non-`Exception`, and no `before_test_cleanups` hook raised), every critical cleanup of the scope is called, whatever the state of the results. Missing for the full property: the case where closing is cut short. What is missing is false of the code, proved with a concrete witness: [C55_critical_always_runs_violated] C55 is violated: \"critical: this cleanup will take place even when tests are interrupted by the user\" (documentation of `add_cleanup`). When the interruption arrives while another cleanup of the scope is running, the remaining ones - critical ones included - are dropped without being called."
  },
  {
   "property": "C56",
   "status": "partial",
   "theorems": [
    "Slash.Cleanup.C56_incorrect_scope_reported_violated",
    "Slash.Cleanup.C56_registers_nothing",
    "Slash.Cleanup.C56_open_accepted",
    "Slash.Cleanup.C56_incorrect_scope_reported_partial"
   ],
   "note": "Proved in part: [C56_incorrect_scope_reported_partial] C56, partial: a name that was never used for a scope is reported with `IncorrectScope`. Missing: names used before. What is missing is false of the code, proved with a concrete witness: [C56_incorrect_scope_reported_violated] C56 is violated: after a scope was opened and closed once, naming it raises `IndexError` rather than `IncorrectScope`."
  },
  {
   "property": "C57",
   "status": "partial",
   "theorems": [
    "Slash.SessionResults.C57_interrupted_session_violated",
    "Slash.SessionResults.C57_interrupted_session_partial"
   ],
   "note": "Proved in part: [C57_interrupted_session_partial] C57, partial: an interruption of a test is reported, and only then; and an interruption anywhere makes the session unsuccessful. Missing: interruptions outside tests. What is missing is false of the code, proved with a concrete witness: [C57_interrupted_session_violated] C57 is violated: an interruption outside any test marks the global result, which `is_interrupted` of the session ignores."
  },
  {
   "property": "C58",
   "status": "partial",
   "theorems": [
    "Slash.Ctx.C58_failed_activation_violated",
    "Slash.Ctx.C58_session_context_partial",
    "Slash.Ctx.C58_no_double_activation"
   ],
   "note": "Proved in part: [C58_session_context_partial] C58, partial: a session that was activated successfully and deactivated without a crash leaves the context as it was, whatever well-bracketed things happened in between. Missing: crashes inside `activate` and `deactivate`. What is missing is false of the code, proved with a concrete witness: [C58_failed_activation_violated] C58 is violated: if entering the logging context (e.g. creating the log directory) raises, the context pushed by `activate` stays on the stack, with the failed session as `context.session`; nobody calls `deactivate`."
  },
  {
   "property": "C59",
   "status": "partial",
   "theorems": [
    "Slash.Ctx.C59_global_scope_closed",
    "Slash.Ctx.C59_session_end_fires_violated",
    "Slash.Ctx.C59_session_end_fires_partial",
    "Slash.Ctx.C59_no_end_without_start",
    "Slash.Ctx.C59_interrupt_hook",
    "Slash.Ctx.C59_last_exception_leaves"
   ],
   "note": "Proved in part: [C59_session_end_fires_partial] C59, partial: if closing the session-global scope does not raise, the end hook fires exactly once if the start hook fired and returned, and never otherwise. Missing: cleanups of the session-global scope raising. What is missing is false of the code, proved with a concrete witness: [C59_session_end_fires_violated] C59 is violated: `session_start` completed, but the end hook never fires if a session cleanup raises an interruption (or a skip) - the only kinds that get out of `pop_scope`."
  },
  {
   "property": "C60",
   "status": "partial",
   "theorems": [
    "Slash.Runner.C60_flush_closes_all",
    "Slash.Runner.C60_no_scope_left_open_partial",
    "Slash.Runner.C60_no_scope_left_open_violated"
   ],
   "note": "Proved in part: [C60_no_scope_left_open_partial] C60. However a run ends - normally, stopping early, or by an exception raised at any point - no scope is open after it, provided only that the final teardown itself is not interrupted. (No assumption on the tests.) What is missing is false of the code, proved with a concrete witness: [C60_no_scope_left_open_violated] C60 without the condition is violated: if the user interrupts the teardown of the module scope, the session scope stays open and its cleanups do not run."
  },
  {
   "property": "C61",
   "status": "partial",
   "theorems": [
    "Slash.Runner.C61_interruption_ends_run_partial",
    "Slash.Runner.C61_interruption_ends_run_violated",
    "Slash.Runner.C61_skip_in_cleanup_violated"
   ],
   "note": "Proved in part: [C61_interruption_ends_run_partial] C61 (partial). If the body of a test that runs is interrupted (or raises another non-ordinary exception), and neither its teardown nor its end hook raises an ordinary exception (they may well be interrupted too), then no further test is begun, and `run_tests` raises. Full statement: without the condition on teardown and end hook. What is missing is false of the code, proved with a concrete witness: [C61_interruption_ends_run_violated] C61 is violated: an ordinary error in the end hook of an interrupted test hides the interruption; the run goes on with the next test and returns normally. [C61_skip_in_cleanup_violated] C61 is violated by teardown, too: a cleanup of the interrupted test that skips hides the interruption."
  },
  {
   "property": "C62",
   "status": "proved",
   "theorems": [
    "Slash.Runner.C62_current_result_restored"
   ],
   "note": "Proved in full for the model: [C62_current_result_restored] C62. After a run, however it ended, the current result and the current test are again those that were current before it."
  },
  {
   "property": "C63",
   "status": "partial",
   "theorems": [
    "Slash.Runner.C63_success_means_it_ran_partial",
    "Slash.Runner.C63_body_exception_in_result_partial",
    "Slash.Runner.C63_success_without_running_violated",
    "Slash.Runner.C63_exception_raised_again_violated"
   ],
   "note": "Proved in part: [C63_success_means_it_ran_partial] C63 (partial). If after any run the result of a test is successful then the test really ran: its requirements were met, its start hook and its body were executed and raised nothing, its teardown raised nothing, and its end hook raised nothing but maybe a skip (see C85). Missing (and false of the code, see below): the same for tests in which something is raised that was added to another result. [C63_body_exception_in_result_partial] C63 (partial). An exception raised by the body of a test shows up in the result of that test as what it is: an error, a failure, a skip, an interruption. Missing (and false of the code, see below): exceptions that were added to another result before. What is missing is false of the code, proved with a concrete witness: [C63_success_without_running_violated] C63 is violated: a test whose body was never run has a successful result, and the hook for successful tests fires for it. (A module-scope cleanup of an earlier test skips: the skip is added to the earlier test's result, and to no other any more, but ends the later test.) [C63_exception_raised_again_violated] C63 is violated: a test whose body raises an exception that an earlier test raised before (an exception object kept somewhere, for instance by a future) has a successful result."
  },
  {
   "property": "C64",
   "status": "partial",
   "theorems": [
    "Slash.Par.C64_nothing_after_stop_partial",
    "Slash.Par.C64_interruption_stops",
    "Slash.Par.C64_report_stops_iff",
    "Slash.Par.C64_connect_after_interruption_violated"
   ],
   "note": "Proved in part: [C64_nothing_after_stop_partial] C64: once the run was stopped - by an interruption, a reported crash, or because the tests ran out - no test is handed out any more, provided no further worker connects. What is missing is false of the code, proved with a concrete witness: [C64_connect_after_interruption_violated] C64, missing: if the interruption comes while the workers are still starting, a worker connecting afterwards puts the server back to work."
  },
  {
   "property": "C65",
   "status": "partial",
   "theorems": [
    "Slash.Tag.C65_base_class_tagged_violated",
    "Slash.Tag.C65_others_untouched_partial",
    "Slash.Tag.C65_history_partial"
   ],
   "note": "Proved in part: [C65_others_untouched_partial] C65, the part that holds (the class has tags of its own, or neither it nor the classes it derives from have any): tagging a class only changes the tags of the class and of those which derive from it. [C65_history_partial] C65, for all histories: after any sequence of taggings of classes that began without tags, tagging a class that has tags of its own, or that has none at all, only changes the tags of the class and of those which derive from it. What is missing is false of the code, proved with a concrete witness: [C65_base_class_tagged_violated] C65 fails: class 1 derives from class 0, which is tagged with tag 7. Tagging class 1 with tag 8 tags class 0 with it as well."
  },
  {
   "property": "C66",
   "status": "partial",
   "theorems": [
    "Slash.Req.C66_requires_is_local",
    "Slash.Req.C66_reading",
    "Slash.Req.C66_inherited",
    "Slash.Req.C66_declared_partial",
    "Slash.Req.C66_only_declared",
    "Slash.Req.C66_late_violated"
   ],
   "note": "Proved in part: [C66_declared_partial] C66 (partial: no class is decorated after a class derived from it): after any sequence of declarations, the requirements of each class and function are those declared on itself and on the classes it derives from. What is missing is false of the code, proved with a concrete witness: [C66_late_violated] C66 fails if a class is decorated after one derived from it: class 1, which has a requirement of its own, does not have the one its base class is given later, while a class without requirements of its own (2) has it."
  },
  {
   "property": "C67",
   "status": "partial",
   "theorems": [
    "Slash.Args.C67_exactly_the_arguments_partial",
    "Slash.Args.C67_function_arguments_partial",
    "Slash.Args.C67_part_of_name_violated",
    "Slash.Args.C67_wrong_fixture_violated"
   ],
   "note": "Proved in part: [C67_exactly_the_arguments_partial] C67, the part that holds (no name that some fixture names by `use_fixtures` is part of the name of an argument, or is the argument or the fixture of an argument declared with `slash.use`): a function gets a value for each of its arguments (but `this`), which is that of the fixture the argument names, and nothing else. [C67_function_arguments_partial] C67, for the arguments of a function (each with the name of the fixture it stands for, which is its own unless declared with `slash.use`), some of which are parameters: the part that holds, if no name that some fixture names by `use_fixtures` is part of the name of an argument or is the name an argument stands for. The function gets, for each of its arguments that is not a parameter (nor `this`), the value of the fixture the argument stands for, and nothing else. What is missing is false of the code, proved with a concrete witness: [C67_part_of_name_violated] C67 fails if a fixture names by `use_fixtures` something that is part of the name of an argument: for the argument `ab`, whose fixture uses `b`, the function is given a value for `b` as well, which it does not take. [C67_wrong_fixture_violated] C67 fails if a fixture names by `use_fixtures` the same name as an argument which stands for another fixture: for the arguments `a` and `b`, the latter standing for `c`, where the fixture of `a` uses `b`, the argument `b` gets the fixture `b`."
  },
  {
   "property": "C68",
   "status": "partial",
   "theorems": [
    "Slash.Args.C68_use_fixtures_local_partial",
    "Slash.Args.C68_shared_list_violated"
   ],
   "note": "Proved in part: [C68_use_fixtures_local_partial] C68, the part that holds (each function has its own list): applying `use_fixtures` to a function adds the names to those of the function, and does not change those of any other function. What is missing is false of the code, proved with a concrete witness: [C68_shared_list_violated] C68 fails if one list is given to two functions: names added to the first of them by another `use_fixtures` are added to the second one too."
  },
  {
   "property": "C69",
   "status": "partial",
   "theorems": [
    "Slash.Meta.C69_same_representation_iff",
    "Slash.Meta.C69_same_address_iff",
    "Slash.Meta.C69_distinct_partial",
    "Slash.Meta.C69_not_printable",
    "Slash.Meta.C69_sorted",
    "Slash.Meta.C69_safe_text",
    "Slash.Meta.C69_label_partial",
    "Slash.Meta.C69_unnamed_valid",
    "Slash.Meta.C69_label_newline_violated",
    "Slash.Meta.C69_same_text_violated",
    "Slash.Meta.C69_looks_like_index_violated",
    "Slash.Meta.C69_no_label_violated"
   ],
   "note": "Proved in part: [C69_distinct_partial] C69, the part that holds: two variations of one test have different addresses if different values of a parameter are written in different ways. [C69_label_partial] C69, labels: the names that can be given to the values of parameters are those of at most 30 letters, digits and underscores, not beginning with a digit. (Missing for all strings: `$` also matches before a newline, see below.) What is missing is false of the code, proved with a concrete witness: [C69_label_newline_violated] ... A newline at the end is accepted. [C69_same_text_violated] C69 fails for values with the same text: `1` and `'1'` give two tests with one address. [C69_looks_like_index_violated] C69 fails for a printable value that looks like the name and the index of another one. [C69_no_label_violated] C69 fails for `slash.param` values without a label."
  },
  {
   "property": "C70",
   "status": "partial",
   "theorems": [
    "Slash.Meta.C70_declared_once_partial",
    "Slash.Meta.C70_no_argument_violated",
    "Slash.Meta.C70_tuple_violated"
   ],
   "note": "Proved in part: [C70_declared_once_partial] C70, the part that holds (each declaration is for a single argument of the function): the declarations are accepted if and only if no argument is declared twice, and then each argument is parametrized by what was declared for it. What is missing is false of the code, proved with a concrete witness: [C70_no_argument_violated] C70 fails for names that are not arguments (they are for use by the body through keyword arguments): the second declaration wins silently. [C70_tuple_violated] C70 fails for an argument that is declared by itself and then in a tuple: the first declaration is lost silently."
  },
  {
   "property": "C71",
   "status": "partial",
   "theorems": [
    "Slash.Meta.C71_function_name_partial",
    "Slash.Meta.C71_alias_violated"
   ],
   "note": "Proved in part: [C71_function_name_partial] C71, the part that holds (a class is loaded by its own name): the function name of a test is the name of the function, or of the method. What is missing is false of the code, proved with a concrete witness: [C71_alias_violated] C71 fails for a class which is also known under another name in the module: asking for the function name of the tests that are loaded from it under the other name raises an assertion error."
  },
  {
   "property": "C72",
   "status": "partial",
   "theorems": [
    "Slash.Resume.C72_entry_partial",
    "Slash.Resume.C72_session_partial",
    "Slash.Resume.C72_unnamed_parameters_violated"
   ],
   "note": "Proved in part: [C72_entry_partial] C72 for one entry, the part that holds (a variation is not empty): resuming a saved test loads that test and nothing else, if it is not excluded by a filter. [C72_session_partial] C72 for a session, the part that holds (as above, for files that have not changed: `now m` is the test that `m` is in the file now): the tests that are loaded are those that were saved, in the same order, without those excluded by a filter. What is missing is false of the code, proved with a concrete witness: [C72_unnamed_parameters_violated] C72 fails for variations by parameters that no name is bound to (their `id` is empty): for one entry all variations of the test are loaded."
  },
  {
   "property": "C73",
   "status": "proved",
   "theorems": [
    "Slash.Load.C73_finds",
    "Slash.Load.C73_order",
    "Slash.Load.C73_once",
    "Slash.Load.C73_listing_order"
   ],
   "note": "Proved in full for the model: [C73_finds] C73: walking a directory finds the files in it and in the directories that are not hidden, and no others. [C73_order] C73 for order: the files of a directory are found in the order of their names, then those of its directories, in the order of the names of these. [C73_once] C73: each file is found once. [C73_listing_order] C73: the order in which the system lists directories has no influence: if the same files are below two directories, walking both finds them in the same order."
  },
  {
   "property": "C74",
   "status": "proved",
   "theorems": [
    "Slash.Load.C74_fails_iff",
    "Slash.Load.C74_loads_all"
   ],
   "note": "Proved in full for the model: [C74_fails_iff] C74: loading a path fails if and only if nothing is there, or importing one of the Python files found there fails; no tests are loaded then. [C74_loads_all] C74: otherwise the tests of all Python files found there are loaded, in the order in which the files are found."
  },
  {
   "property": "C75",
   "status": "proved",
   "theorems": [
    "Slash.Load.C75_tests",
    "Slash.Load.C75_order",
    "Slash.Load.C75_definition_order"
   ],
   "note": "Proved in full for the model: [C75_tests] C75: the tests of a module are its functions whose own name begins with `test_`, and the methods beginning with `test` of its test classes that are not abstract; nothing else is a test. [C75_order] C75 for order: the tests of a module come in the order of the names in it, each class' in the order of the methods' names. [C75_definition_order] C75: so the order of definitions in the module has no influence."
  },
  {
   "property": "C76",
   "status": "proved",
   "theorems": [
    "Slash.Plug.C76_refused",
    "Slash.Plug.C76_registers",
    "Slash.Plug.C76_helpers"
   ],
   "note": "Proved in full for the model: [C76_refused] C76: activating a plugin is refused if and only if one of its methods is to be called by a hook that is not known; no method is registered then, and the plugin is not active unless it was. [C76_registers] C76: if activating an inactive plugin succeeds, a method of it is registered for a hook if and only if it is to be called by it. [C76_helpers] C76: what else is registered, if activating a plugin succeeds: something that does nothing, for each hook of slash no method of the plugin is to be called by, if the plugin is marked to provide something (so that others can be ordered after it); and something that notes the start of the session, for plugins that are only to be called at its end."
  },
  {
   "property": "C77",
   "status": "partial",
   "theorems": [
    "Slash.Plug.C77_restored_partial",
    "Slash.Plug.C77_replaced_violated",
    "Slash.Plug.C77_internal_violated",
    "Slash.Plug.C77_pending_violated"
   ],
   "note": "Proved in part: [C77_restored_partial] C77, the part that holds (names differ on the command line, too, and leaving the context succeeds): after the context that restores plugins, whatever was done in it, the plugins with the same names as before are installed and active, and those that were uninstalled in it are the same objects as before. What is missing is false of the code, proved with a concrete witness: [C77_replaced_violated] C77 fails for plugins replaced in the context: the new object stays installed. [C77_internal_violated] C77 fails for internal plugins: one that was uninstalled in the context is not internal any more. [C77_pending_violated] C77 fails for what is pending: requests made in the context stay."
  },
  {
   "property": "C78",
   "status": "partial",
   "theorems": [
    "Slash.Suite.C78_exact_multiplicity",
    "Slash.Suite.C78_each_file_once_partial",
    "Slash.Suite.C78_each_file_once_violated"
   ],
   "note": "Proved in part: [C78_each_file_once_partial] C78 (partial: for directories without subdirectories): every suite file of a directory is used exactly once. What is missing is false of the code, proved with a concrete witness: [C78_each_file_once_violated] C78 is violated: a suite file in a subdirectory of the given directory is used twice."
  },
  {
   "property": "C79",
   "status": "proved",
   "theorems": [
    "Slash.Par.C79_every_test_accounted"
   ],
   "note": "Proved in full for the model: [C79_every_test_accounted] C79: in every execution each test of the parent is in exactly one of three states, waiting, executed by exactly one worker, or finished; exactly the finished ones have a result, one each. There is no assumption on the workers' requests: the workers' program and the manager only make requests for which this holds."
  },
  {
   "property": "C80",
   "status": "proved",
   "theorems": [
    "Slash.Par.C80_right_tests_once",
    "Slash.Par.C80_only_if_all_agree"
   ],
   "note": "Proved in full for the model: [C80_right_tests_once] C80: a worker only ever runs, for a test of the parent, one of its own tests with the same file, name and variation; it runs none of its tests twice; and no test of the parent is run twice, by the same worker or by two of them. [C80_only_if_all_agree] C80: no worker runs any test unless the tests collected by every worker are those of the parent, up to their order."
  },
  {
   "property": "C81",
   "status": "proved",
   "theorems": [
    "Slash.Par.C81_workers_survive"
   ],
   "note": "Proved in full for the model: [C81_workers_survive] C81: as long as the user's hooks in the parent return normally, a step of a worker never ends in an exception: it finds the test it is asked to run, and its request is never answered by a fault, by a protocol error or not at all."
  },
  {
   "property": "C82",
   "status": "proved",
   "theorems": [
    "Slash.Par.C82_results_are_those_sent"
   ],
   "note": "Proved in full for the model: [C82_results_are_those_sent] C82: the results of the parent that come from a run of the test are exactly those the workers sent; each test has at most one result; and each result sent by a worker is for a test this worker ran."
  },
  {
   "property": "C83",
   "status": "partial",
   "theorems": [
    "Slash.Par.C83_all_tests_reported_partial",
    "Slash.Par.C83_all_tests_run_partial",
    "Slash.Par.C83_other_collection_violated"
   ],
   "note": "Proved in part: [C83_all_tests_reported_partial] C83: let all workers collect the tests of the parent, let each worker leave regularly or be reported as dead, and let the session not be interrupted and no other time-out occur. If a worker was reported as dead, or if each test may be executed by one of the workers that left regularly, then in the end each test has exactly one result, and the parent stops waiting. [C83_all_tests_run_partial] C83: if moreover no worker died and no test ended the run early (a fatal failure, or a failure when the run is to stop at the first error), each test was run, by exactly one of the workers. What is missing is false of the code, proved with a concrete witness: [C83_other_collection_violated] C83, missing: if a worker collected other tests, all workers leave, no test has a result, and the parent goes on waiting (until its time-out)."
  },
  {
   "property": "C84",
   "status": "partial",
   "theorems": [
    "Slash.Par.C84_bounded",
    "Slash.Par.C84_no_deadlock_partial",
    "Slash.Par.C84_ends_partial",
    "Slash.Par.C84_found_dead_partial",
    "Slash.Par.C84_early_death_violated"
   ],
   "note": "Proved in part: [C84_no_deadlock_partial] C84: no deadlock. If each worker that died was reported, then, unless all workers are finished or dead, some worker will be answered something other than \"wait\" if it goes on. [C84_ends_partial] C84: so any schedule that lets workers get on whenever one can, ends after at most the number of requests above: if, with every dead worker reported, no worker can get on, all workers are finished or dead. [C84_found_dead_partial] C84: a worker that was heard once after it connected and dies later is found dead: as long as the server counts it as connected, the next look at it reports it. What is missing is false of the code, proved with a concrete witness: [C84_early_death_violated] C84, missing: a worker that dies after it connected but before its keep-alive thread was first heard is never reported as dead: whatever happens later, it stays connected for the server, and the parent goes on waiting. Only the time-out for the whole server (no request of anybody for a long time) ends such a run."
  },
  {
   "property": "C85",
   "status": "partial",
   "theorems": [
    "Slash.Runner.C85_end_hook_exception_in_result_partial",
    "Slash.Runner.C85_summary_exception_in_result_partial",
    "Slash.Runner.C85_start_hook_exception_in_result_partial",
    "Slash.Runner.C85_end_hook_skip_lost_violated",
    "Slash.Runner.C85_start_hook_error_lost_violated"
   ],
   "note": "Proved in part: [C85_end_hook_exception_in_result_partial] C85 (partial). If a `test_end` hook raises, the exception is recorded in the result of the test that ended (not in that of another test or in the global result), also if the run is ended by it. Missing (and false of the code, see below): skips; and exceptions that were added to another result before. [C85_summary_exception_in_result_partial] C85 (partial). If a hook announcing the outcome of a test raises, the exception is recorded in the result of this test. Missing: exceptions that were added to another result before. [C85_start_hook_exception_in_result_partial] C85 (partial). If a `test_start` hook raises and the teardown of the test raises nothing, the exception is recorded in the result of this test (and the test does not run, C63). Missing (and false of the code, see below): tests whose teardown raises as well; and exceptions that were added to another result before. What is missing is false of the code, proved with a concrete witness: [C85_end_hook_skip_lost_violated] C85 is violated by skips: a skip raised by the `test_end` hook of the last test vanishes, while the same skip of an earlier test is recorded. [C85_start_hook_error_lost_violated] C85 is violated: if the start hook of a test raises and then a cleanup of the test is interrupted by a skip, the error of the hook vanishes: the test is announced as skipped."
  },
  {
   "property": "C86",
   "status": "partial",
   "theorems": [
    "Slash.Whole.C86_start",
    "Slash.Whole.C86_body",
    "Slash.Whole.C86_scopes_partial",
    "Slash.Whole.C86_scopes_violated"
   ],
   "note": "Proved in part: [C86_scopes_partial] C86. The open scopes at the start and at the call of the function are exactly those of test, module and session, unless an earlier test did not begin because a cleanup of the module before it raised a skip. What is missing is false of the code, proved with a concrete witness: [C86_scopes_violated] C86 is violated without this hypothesis: a test whose function is called while no module scope is open."
  },
  {
   "property": "C87",
   "status": "partial",
   "theorems": [
    "Slash.Whole.C87_shared_partial",
    "Slash.Whole.C87_shared_violated"
   ],
   "note": "Proved in part: [C87_shared_partial] C87. Two tests that start one after the other: if they are of the same module they share its scope (and those around it), if not, the scope of the module of the first one is closed before the second starts, and they share the scopes of the session. What is missing is false of the code, proved with a concrete witness: [C87_shared_violated] C87 is violated if a test between them did not begin because of a skip: tests 1 and 3 are of the same module and start one after the other, but the scope of the module (number 2) was closed in between and test 3 has none."
  },
  {
   "property": "C88",
   "status": "proved",
   "theorems": [
    "Slash.Whole.C88_test_cleanups_done",
    "Slash.Whole.C88_announced"
   ],
   "note": "Proved in full for the model: [C88_test_cleanups_done] C88. When the outcome of a test or its end or that it is not run is announced, when the session cleanup begins and when the end of the session is announced, no test scope is open, and every cleanup ever registered on one was called, passed over, or dropped. [C88_announced] C88. The outcome announced for a test is the one of its result at that moment, after its cleanups: if a cleanup registered while this test was the current one raised an error or a failure, success is not announced."
  },
  {
   "property": "C89",
   "status": "partial",
   "theorems": [
    "Slash.Whole.C89_all_done_partial",
    "Slash.Whole.C89_skip_violated",
    "Slash.Whole.C89_interrupt_violated",
    "Slash.Whole.C89_unscoped_violated"
   ],
   "note": "Proved in part: [C89_all_done_partial] C89. When the end of the session is announced, and when it is over, no scope is open and all cleanups registered on scopes were called, passed over or dropped - unless a skip out of the cleanups of a module prevented a test from beginning, or something that is no `Exception` was raised out of the closing of a scope. What is missing is false of the code, proved with a concrete witness: [C89_skip_violated] C89 is violated by the first of these: a cleanup of a module raises a skip when the first test of the next module is about to begin, and the test after it is of a third module. Then a cleanup of the session is never called and the end of the session never announced. [C89_interrupt_violated] C89 is violated by the second: if the run was stopped by an error and a cleanup of the module is then interrupted, a critical cleanup of the session is never called, the end of the session is never announced, and not the interruption is raised but an error. [C89_unscoped_violated] Neither the theorem nor the code covers cleanups that are on no scope: a cleanup registered when the end of the session is announced is accepted and never called."
  },
  {
   "property": "C90",
   "status": "proved",
   "theorems": [
    "Slash.Whole.C90_body",
    "Slash.Whole.C90_teardown_after_cleanups"
   ],
   "note": "Proved in full for the model: [C90_body] C90. When the function of a test is called, the fixtures it needs have just been computed without an error, and the next thing to happen is the closing of its scope with the fixtures still as they were. [C90_teardown_after_cleanups] C90. All cleanups of a scope are called before any of its fixtures is torn down: from the moment when the closing of a scope begins to the moment when the teardown of fixtures begins, the fixtures stay as they were, and when it begins no cleanup is left."
  },
  {
   "property": "C91",
   "status": "proved",
   "theorems": [
    "Slash.Whole.C91_no_error_lost"
   ],
   "note": "Proved in full for the model: [C91_no_error_lost] C91. If the session is successful (no errors, failures or interruption in the results of the session and of its tests), then no cleanup of any scope, whoever registered it and whenever it was called, raised an error, a failure or an interruption."
  },
  {
   "property": "C92",
   "status": "partial",
   "theorems": [
    "Slash.Whole.C92_success_means_run_partial",
    "Slash.Whole.C92_success_means_run_violated"
   ],
   "note": "Proved in part: [C92_success_means_run_partial] C92. If success is announced for a test, then the hooks for its start, its function and the hook before its cleanups were called and returned - unless an earlier test (or this one) did not begin because a cleanup of the module before it raised a skip. What is missing is false of the code, proved with a concrete witness: [C92_success_means_run_violated] C92 is violated otherwise: the skip is recorded in the result of the test that registered the cleanup, and success is announced for a test that was never started, whose function was never called."
  },
  {
   "property": "C93",
   "status": "partial",
   "theorems": [
    "Slash.TestRun.C93_starts_partial",
    "Slash.TestRun.C93_class_partial",
    "Slash.TestRun.C93_raises_partial",
    "Slash.TestRun.C93_skipped_violated",
    "Slash.TestRun.C93_skip_violated"
   ],
   "note": "Proved in part: [C93_starts_partial] C93, function tests: at any point of any session in which no end callback raised a skip or an interruption and `after` was called wherever `before` succeeded: when the fixtures of a test are available and no start callback raises, all the start callbacks of all the active fixtures are called, each once, those of one fixture in the order they were registered, and all of them before the test function; whatever comes after is end callbacks. Without the restrictions on the past: `C93_skipped_violated`, `C93_skip_violated`. [C93_class_partial] C93, tests of classes: the same, with `before` called before the start callbacks, and `after` before the end callbacks. [C93_raises_partial] C93, raising callbacks: if a start callback of an active fixture raises, the test function is not called, and the exception of a start callback that was called is recorded and leaves the test as an exception. What is missing is false of the code, proved with a concrete witness: [C93_skipped_violated] Where the code violates C93: a test of a class whose `after` needs a fixture that cannot be set up leaves the marks of the fixtures it started; in the next test the start callback of the fixture, which is still active, is not called. [C93_skip_violated] Where the code violates C93: an end callback that skips the test keeps the other fixtures from getting their end callbacks, and in the next test from getting their start callbacks."
  },
  {
   "property": "C94",
   "status": "partial",
   "theorems": [
    "Slash.TestRun.C94_ends_partial",
    "Slash.TestRun.C94_class_partial",
    "Slash.TestRun.C94_rest_violated",
    "Slash.TestRun.C94_skip_violated"
   ],
   "note": "Proved in part: [C94_ends_partial] C94, function tests: at any point of any session (start callbacks may have been missed before): when the fixtures of a test are available, then whatever the start callbacks and the test function do, the end callbacks of each active fixture are called after everything else, in the order they were registered, each once, up to the first one that raises; its exception is recorded, and does not affect the other fixtures, if it is not a skip or an interruption. Otherwise: `C94_rest_violated`, `C94_skip_violated`. [C94_class_partial] C94, tests of classes: at any point of any session, in a test of a class whose `before` succeeded, whatever the method does: if the fixtures of `after` are available, the end callbacks of all the fixtures active then are called after `after`, with the same exceptions as in `C94_ends_partial`. What is missing is false of the code, proved with a concrete witness: [C94_rest_violated] Where the code violates the full C94: an end callback that raises keeps the later end callbacks of its fixture from being called; and end callbacks are called although the start callbacks of the fixture were not. [C94_skip_violated] Where the code violates the full C94: an end callback that skips keeps the end callbacks of other fixtures from being called, as does an interruption."
  },
  {
   "property": "C95",
   "status": "proved",
   "theorems": [
    "Slash.TestRun.C95_before_after",
    "Slash.TestRun.C95_function"
   ],
   "note": "Proved in full for the model: [C95_before_after] C95: a test of a class, in any state, whatever the fixtures, callbacks and functions do: * if the fixtures of `before` are not available, nothing of the class is called, and the test ends with an exception - that of the fixture function, if it was one; * if `before` raises, nothing else is called, and its exception leaves the test; * otherwise `after` is called exactly if its own fixtures are available, whether or not the method was called or raised, and after it nothing is called but end callbacks; the method is called, if at all, once and between the two: not if its fixtures are not available, and certainly if they are and no start callback raises; * in this case the test ends without an exception only if method and `after` were called and did not raise, and the method did not return a generator; an exception it ends with was recorded. [C95_function] C95. A test function, in any state, whatever the fixtures and callbacks do: * if its fixtures are not available it is not called, and the exception of the fixture leaves the test; * otherwise it is called at most once, and the test ends without an exception only if it was called, did not raise and did not return a generator; * if no start callback raises, it is called, and if no end callback raises a skip or an interruption the test ends as the function did, where returning a generator counts as an error."
  },
  {
   "property": "C96",
   "status": "partial",
   "theorems": [
    "Slash.FixDeco.C96_yield_fixture",
    "Slash.FixDeco.C96_raise_after",
    "Slash.FixDeco.C96_no_yield",
    "Slash.FixDeco.C96_second_yield",
    "Slash.FixDeco.C96_lost_cleanup_violated"
   ],
   "note": "What is missing is false of the code, proved with a concrete witness: [C96_lost_cleanup_violated] Where the code violates the expectation that all cleanups of a fixture are called: those added before the `yield` are lost if the part after it raises."
  },
  {
   "property": "C97",
   "status": "partial",
   "theorems": [
    "Slash.FixDeco.C97_use_fixtures_partial",
    "Slash.FixDeco.C97_shared_list_violated"
   ],
   "note": "Proved in part: [C97_use_fixtures_partial] C97: whatever functions are decorated with `use_fixtures`, in whatever order, if each decorator is given a list of its own: the fixtures a function uses are the names given in its own decorators, those of the decorator applied first first. If a list is used in several decorators: `C97_shared_list_violated`. What is missing is false of the code, proved with a concrete witness: [C97_shared_list_violated] Where the code violates C97: a list object given to the decorators of two functions, one of which has another decorator, is extended, so the other function uses a fixture named in none of its decorators."
  },
  {
   "property": "C98",
   "status": "partial",
   "theorems": [
    "Slash.Whole.C98_scope_end_partial",
    "Slash.Whole.C98_nothing_else",
    "Slash.Whole.C98_test_fixtures_partial",
    "Slash.Whole.C98_none_left_partial",
    "Slash.Whole.C98_interrupted_violated",
    "Slash.Whole.C98_skip_violated"
   ],
   "note": "Proved in part: [C98_scope_end_partial] C98. From the moment when the fixtures of a scope are torn down to the next event (or the end), exactly the fixtures of this scope and of narrower ones go - if the current result is not interrupted and nothing is raised out of the closing of the scope. [C98_test_fixtures_partial] C98. No fixture of a test is active outside of it: at every event but those from the call of its function to the teardown of its fixtures, all active fixtures are of modules or of the session. This holds as long as no interruption was recorded before fixtures were torn down and nothing was raised out of the closing of a test scope. [C98_none_left_partial] C98. When the end of the session is announced no fixture is active: all were torn down. This holds unless an interruption was recorded before fixtures were torn down, something was raised out of the closing of a scope, or a skip out of the cleanups of a module prevented a test from beginning. What is missing is false of the code, proved with a concrete witness: [C98_interrupted_violated] C98 is violated after an interruption: the function of the test is interrupted, and its fixture is still active and its cleanup was not called when the end of the session is announced. [C98_skip_violated] C98 is violated if the cleanup of a fixture raises a skip: the fixtures activated before it are not torn down with the test."
  },
  {
   "property": "C99",
   "status": "proved",
   "theorems": [
    "Slash.Whole.C99_start",
    "Slash.Whole.C99_body",
    "Slash.Whole.C99_body_after_start"
   ],
   "note": "Proved in full for the model: [C99_start] C99. What follows the announcement of the start of test `t`. If the hook raises, the test scope is closed at once. If it returns, the fixtures are computed; if that raises, the function is not called: the test scope is closed at once, and the exception was added to the result of `t` - a cycle of fixtures counts as an error. Otherwise the function is called. [C99_body] C99. The function of test `t` is called: when it ended, the test scope is closed, and if it raised (or one of its calls of the API did), this exception, and nothing else, was added to the result of `t`. [C99_body_after_start] C99. The function of a test is called only right after its start was announced."
  },
  {
   "property": "C100",
   "status": "proved",
   "theorems": [
    "Slash.Whole.C100_avoided"
   ],
   "note": "Proved in full for the model: [C100_avoided] C100. A test with a reason not to run (an unmet requirement or an exclusion) is never started and its function never called; a test without is never announced as avoided."
  },
  {
   "property": "C101",
   "status": "proved",
   "theorems": [
    "Slash.Whole.C101_implicit",
    "Slash.Whole.C101_after"
   ],
   "note": "Proved in full for the model: [C101_implicit] C101. While the end of a test is announced, a cleanup registered without naming a scope is refused: its test scope is closed, and it would land on the scope of the module or of the session. At every other event it is accepted. [C101_after] C101. Also after the session it is accepted again."
  },
  {
   "property": "C102",
   "status": "proved",
   "theorems": [
    "Slash.Whole.C102_in_order"
   ],
   "note": "Proved in full for the model: [C102_in_order] C102. In a session of different tests, the tests are begun in the given order, each at most once, and what happens for one test is over before the next one is begun: all that is announced is one course after the other. What is not begun keeps an empty result, what is begun does not. If the session raises nothing, tests are left out only with `stop_on_error` and if something went wrong."
  },
  {
   "property": "C103",
   "status": "partial",
   "theorems": [
    "Slash.Whole.C103_stop_partial",
    "Slash.Whole.C103_stop_violated"
   ],
   "note": "Proved in part: [C103_stop_partial] C103. With `stop_on_error`: once an error, a failure or an interruption is in a result - of a test or of the session - while test `i` is the current one, no other test is begun, started or called any more. What is missing is false of the code, proved with a concrete witness: [C103_stop_violated] C103 is violated without the hypothesis that a test is the current one: an error noted in the result of the session by a `session_start` hook does not keep the first test from being run."
  },
  {
   "property": "C104",
   "status": "proved",
   "theorems": [
    "Slash.Whole.C104_hooks",
    "Slash.Whole.C104_start_raises",
    "Slash.Whole.C104_started",
    "Slash.Whole.C104_interrupt_hook"
   ],
   "note": "Proved in full for the model: [C104_hooks] C104. `session_start` comes first, unless a hook before it raised; `session_end` comes last, if at all, and only if the hooks before and those of `session_start` returned; neither happens in between. If the session raises nothing, both happened and all hooks returned. [C104_start_raises] C104. If a hook raises before the first test is begun, there is no step of any test, the session raises, and - unless it was a skip - the result of the session is not a success. [C104_started] C104. At every moment from `session_start` on the result of the session is marked as started. [C104_interrupt_hook] C104. The hook `session_interrupt` is called if and only if an interruption left the hooks of the start or the run of the tests: then it is called in the state they left, before the session ends, and what it raises takes the place of the interruption; otherwise the session ends with the state they left and raises what they raised, unless its end raises."
  },
  {
   "property": "C105",
   "status": "partial",
   "theorems": [
    "Slash.Whole.C105_interrupt_partial",
    "Slash.Whole.C105_interrupt_violated"
   ],
   "note": "Proved in part: [C105_interrupt_partial] C105. If the function of a test raises an interruption (or any other exception that is not an `Exception`), the session raises, and no other test is begun or started or called or announced any more. Partial: this is said for the case that the closing of the scope of this test and its `test_end` hook do not raise an `Exception` of their own. What is missing is false of the code, proved with a concrete witness: [C105_interrupt_violated] C105 is violated without these hypotheses: the interruption of test 1 is replaced by a skip raised by a critical cleanup, by an error of a `before_test_cleanups` hook, by an error of a `test_end` hook; the session goes on with test 2 and raises nothing."
  },
  {
   "property": "C106",
   "status": "partial",
   "theorems": [
    "Slash.Log.C106_test_partial",
    "Slash.Log.C106_session_partial",
    "Slash.Log.C106_unified",
    "Slash.Log.C106_filter_violated",
    "Slash.Log.C106_extra_violated",
    "Slash.Log.C106_shared_violated"
   ],
   "note": "Proved in part: [C106_test_partial] The log of a test is exactly what the test logged, in order, without silenced loggers and without low levels of slash itself. [C106_session_partial] The log of the session is exactly what is logged outside of tests (unless `unified_session_log`). What is missing is false of the code, proved with a concrete witness: [C106_filter_violated] The full claim, that silenced loggers and low levels of slash itself get into no log file, is false for the unified session log. [C106_extra_violated] An extra handler that does not bubble (the default of `logbook`) keeps everything out of the log files. [C106_shared_violated] If the log of a test is also the unified log of the session, its records are written twice."
  },
  {
   "property": "C107",
   "status": "proved",
   "theorems": [
    "Slash.Log.C107_life",
    "Slash.Log.C107_closed",
    "Slash.Log.C107_result"
   ],
   "note": "Proved in full for the model: [C107_life] Every file, whatever the paths are: it is opened, written only while open, closed, announced once to `log_file_closed` and then perhaps removed; then it may be opened again. In the end no file is open. [C107_closed] Every file is closed as often as it is opened. [C107_result] `log_file_closed` is fired with the result of the test (or of the session) whose file it is."
  },
  {
   "property": "C108",
   "status": "partial",
   "theorems": [
    "Slash.Log.C108_disabled",
    "Slash.Log.C108_test_partial",
    "Slash.Log.C108_session_partial",
    "Slash.Log.C108_kept_violated"
   ],
   "note": "Proved in part: [C108_test_partial] The log of a test is removed exactly if cleanup is enabled and the test was a success, or failed tests' logs need not be kept. [C108_session_partial] The log of the session is removed exactly if cleanup is enabled and the whole session was a success, or failed logs need not be kept. What is missing is false of the code, proved with a concrete witness: [C108_kept_violated] The full claim, `keep_failed` keeps the logs of all failed tests, is false: if a later test has the same path and succeeds, the file is removed."
  },
  {
   "property": "C109",
   "status": "partial",
   "theorems": [
    "Slash.Log.C109_extra",
    "Slash.Log.C109_errors",
    "Slash.Log.C109_once_partial",
    "Slash.Log.C109_console",
    "Slash.Log.C109_warnings",
    "Slash.Log.C109_twice_violated"
   ],
   "note": "Proved in part: [C109_once_partial] If the filter for slash itself drops nothing, extra handlers and captured errors get every record once, in order. What is missing is false of the code, proved with a concrete witness: [C109_twice_violated] The full claim, each record is delivered once, is false: with the default configuration an extra handler gets a record that slash's own runner logs in a test twice, and an error of slash itself may be captured as two errors."
  },
  {
   "property": "C110",
   "status": "proved",
   "theorems": [
    "Slash.Log.C110_short",
    "Slash.Log.C110_unchanged",
    "Slash.Log.C110_lines"
   ],
   "note": "Proved in full for the model: [C110_short] With `truncate_console_lines`, lines of a long message on the console are at most 160 characters long, unless it is an error. [C110_unchanged] All other messages are shown as they are: short ones, errors (unless `truncate_console_errors`), and everything if truncation is off. [C110_lines] In both cases a line is shown up to its end or up to character 157, followed by three dots; no line is dropped or added but empty last ones."
  },
  {
   "property": "C111",
   "status": "proved",
   "theorems": [
    "Slash.Log.C111_directories"
   ],
   "note": "Proved in full for the model: [C111_directories] Names of tests, sessions and so on in the template of a path neither add directories nor remove any: the separators of the path are those of the template, and nothing else than separators changes in names."
  },
  {
   "property": "C112",
   "status": "partial",
   "theorems": [
    "Slash.Marks.C112_set",
    "Slash.Marks.C112_raises",
    "Slash.Marks.C112_others",
    "Slash.Marks.C112_local_partial",
    "Slash.Marks.C112_local_violated"
   ],
   "note": "Proved in part: [C112_local_partial] Marking an object changes only what it and the objects that inherit from it show, provided it has marks of its own already or inherits none. What is missing is false of the code, proved with a concrete witness: [C112_local_violated] The full claim, marking a class does not mark others that do not inherit from it, is false: marking a class whose base class has marks marks the base class and all classes that inherit from it."
  },
  {
   "property": "C113",
   "status": "proved",
   "theorems": [
    "Slash.Marks.C113_set",
    "Slash.Marks.C113_local",
    "Slash.Marks.C113_all",
    "Slash.Marks.C113_wrapped"
   ],
   "note": "Proved in full for the model: [C113_set] A marker gives its function the value; with an appending marker the value is added to those already there. [C113_local] Marking never changes what others show that do not inherit from the marked object; and no other marker is affected. [C113_all] After any decorators: a test shows, for an appending marker, all values given to it in the order of decoration (innermost decorator first), if nothing is inherited. [C113_wrapped] A class method or static method and the function it wraps have the same markers: it does not matter whether a marker is applied below or above `@classmethod`."
  },
  {
   "property": "C114",
   "status": "partial",
   "theorems": [
    "Slash.Signals.C114_active",
    "Slash.Signals.C114_inactive",
    "Slash.Signals.C114_restored_partial",
    "Slash.Signals.C114_restored_violated"
   ],
   "note": "Proved in part: [C114_restored_partial] Deactivating the plugin puts back the handlers that were there when it was activated, provided that it was not active already and that handlers registered since were for signals without one, each once. What is missing is false of the code, proved with a concrete witness: [C114_restored_violated] The full claim, deactivating the plugin always restores the handlers of before, is false: registering another handler for a signal that is handled already, or activating the plugin twice, makes it \"restore\" its own handler."
  },
  {
   "property": "C115",
   "status": "proved",
   "theorems": [
    "Slash.Fmt.C115_restored",
    "Slash.Fmt.C115_lines",
    "Slash.Fmt.C115_pieces"
   ],
   "note": "Proved in full for the model: [C115_restored] Whatever is written in indented blocks, even if they raise, the indentation is the same afterwards. [C115_lines] Every line that is written is indented by exactly the blocks it is written in. [C115_pieces] A line may be written in pieces, some of them empty: the output is the same as that of writing it at once."
  },
  {
   "property": "C116",
   "status": "partial",
   "theorems": [
    "Slash.Fmt.C116_frames_partial",
    "Slash.Fmt.C116_layout_partial",
    "Slash.Fmt.C116_frames_violated"
   ],
   "note": "Proved in part: [C116_frames_partial] If each frame has either global or local variables to show, but not both, all frames are shown at the same indentation. [C116_layout_partial] With such frames the text is: the header; for each frame in order its file, one level below its code, and below that the kind of its variables with the variables. What is missing is false of the code, proved with a concrete witness: [C116_frames_violated] The full claim, all frames are shown at the same indentation, is false: a frame with both kinds of variables moves the following ones to the right, a frame without variables to the left."
  },
  {
   "property": "C117",
   "status": "partial",
   "theorems": [
    "Slash.Fmt.C117_values",
    "Slash.Fmt.C117_calls",
    "Slash.Fmt.C117_type_error",
    "Slash.Fmt.C117_callback_error",
    "Slash.Fmt.C117_copy_partial",
    "Slash.Fmt.C117_copy_violated"
   ],
   "note": "Proved in part: [C117_copy_partial] A copy made by `all()` shows the same value for a key whatever is done later, unless something is appended to that key. What is missing is false of the code, proved with a concrete witness: [C117_copy_violated] The full claim, that a copy never changes, is false: appending to a list shows in copies made before."
  },
  {
   "property": "C118",
   "status": "partial",
   "theorems": [
    "Slash.Console.C118_success",
    "Slash.Console.C118_total",
    "Slash.Console.C118_worst_partial",
    "Slash.Console.C118_skip",
    "Slash.Console.C118_worst_violated"
   ],
   "note": "Proved in part: [C118_worst_partial] An error is reported as an error, a failure as a failure, an interruption as an interruption, if the test has no skip as well. What is missing is false of the code, proved with a concrete witness: [C118_worst_violated] The full claim, that an erroneous test is reported as an error, is false: with a skip as well it is reported as a skipped one."
  },
  {
   "property": "C119",
   "status": "partial",
   "theorems": [
    "Slash.Console.C119_file_line",
    "Slash.Console.C119_other_levels",
    "Slash.Console.C119_pass_violated"
   ],
   "note": "What is missing is false of the code, proved with a concrete witness: [C119_pass_violated] `PASS` means that no test of the file had an error or a failure, not that its tests succeeded: an interrupted test and errors of the session do not count."
  },
  {
   "property": "C120",
   "status": "partial",
   "theorems": [
    "Slash.Console.C120_listed_partial",
    "Slash.Console.C120_messages_partial",
    "Slash.Console.C120_entries",
    "Slash.Console.C120_layout",
    "Slash.Console.C120_messages_violated",
    "Slash.Console.C120_duration",
    "Slash.Console.C120_warnings",
    "Slash.Console.C120_warnings_violated"
   ],
   "note": "Proved in part: [C120_listed_partial] A test is in the summary, under its number, exactly if it has errors or failures (unless the verbosity is below that of errors), or skips with enough verbosity (14 and 11 are the levels of errors and of information); provided that no error without frames is shown with single frames. [C120_messages_partial] Every error and failure of a test in the summary is shown there with its message, if tracebacks are shown and it has frames, or if it is one the user added with a message. What is missing is false of the code, proved with a concrete witness: [C120_messages_violated] The full claim is false: without tracebacks (`--tb=0`) nothing says what an exception was; and with single frames an error without frames makes the summary fail. [C120_warnings_violated] Different warnings from the same place are not all shown."
  },
  {
   "property": "C121",
   "status": "partial",
   "theorems": [
    "Slash.Console.C121_box_partial",
    "Slash.Console.C121_closed",
    "Slash.Console.C121_box_violated"
   ],
   "note": "Proved in part: [C121_box_partial] All lines of a box have its width, and the text is inside, if the headline fits; `textwrap.wrap` makes lines that are not too long. What is missing is false of the code, proved with a concrete witness: [C121_box_violated] The full claim is false for headlines that do not fit: their beginning is dropped, not their end, and the line may still be too long."
  },
  {
   "property": "C122",
   "status": "partial",
   "theorems": [
    "Slash.Console.C122_record_partial",
    "Slash.Console.C122_shown",
    "Slash.Console.C122_restored_violated"
   ],
   "note": "Proved in part: [C122_record_partial] A record of the log that comes while a line is in progress is shown on a row of its own, and the line in progress is shown again as it was, if the line does not end exactly at the right edge of the terminal. What is missing is false of the code, proved with a concrete witness: [C122_restored_violated] The full claim is false: at the right edge of the terminal the record is written over the line in progress; and a message of the session's reporter erases the line in progress for good."
  },
  {
   "property": "C123",
   "status": "partial",
   "theorems": [
    "Slash.Rep.C123_written_partial",
    "Slash.Rep.C123_written_violated",
    "Slash.Rep.C123_worker",
    "Slash.Rep.C123_cases",
    "Slash.Rep.C123_elements",
    "Slash.Rep.C123_counts_partial",
    "Slash.Rep.C123_counts_violated"
   ],
   "note": "Proved in part: [C123_written_partial] The file is written exactly if the details of the tests that were started can be written; otherwise it is left empty. [C123_counts_partial] The attributes count the results: all tests, those with errors, with failures but no errors, started ones with skips (the session's own result included); `tests` is the number of test cases if all tests were started. What is missing is false of the code, proved with a concrete witness: [C123_written_violated] The full claim, a session always leaves a report, is false: a detail that is `None` leaves an empty file. [C123_counts_violated] The full claim is false: `tests` also counts tests that were not started; and an error that was added for a failed assertion is counted as an error but shown as a failure."
  },
  {
   "property": "C124",
   "status": "partial",
   "theorems": [
    "Slash.Rep.C124_all_partial",
    "Slash.Rep.C124_sublist",
    "Slash.Rep.C124_all_violated",
    "Slash.Rep.C124_when",
    "Slash.Rep.C124_debugger",
    "Slash.Rep.C124_recipients_partial",
    "Slash.Rep.C124_recipients_violated",
    "Slash.Rep.C124_text",
    "Slash.Rep.C124_fields"
   ],
   "note": "Proved in part: [C124_all_partial] Every notifier that is enabled and configured is used once, in order, also if others fail with errors or failures, and nothing gets out. [C124_recipients_partial] One mail is sent to each recipient once. What is missing is false of the code, proved with a concrete witness: [C124_all_violated] The full claim is false: a skip raised while notifying (or an interruption) keeps the others from being used. [C124_recipients_violated] The second mail of a session (after one from the debugger) has the user's address twice."
  },
  {
   "property": "C125",
   "status": "partial",
   "theorems": [
    "Slash.Rep.C125_frames",
    "Slash.Rep.C125_machinery",
    "Slash.Rep.C125_user_partial",
    "Slash.Rep.C125_user_violated",
    "Slash.Rep.C125_correction_partial",
    "Slash.Rep.C125_correction_violated",
    "Slash.Rep.C125_stack_partial",
    "Slash.Rep.C125_values"
   ],
   "note": "Proved in part: [C125_user_partial] Every frame of user code is shown, if the exception did not come through `slash.assertions`. [C125_correction_partial] A frame correction hides that many of the innermost frames, if there are so many. [C125_stack_partial] `slash.add_error` and the like show the stack without the innermost `correction - 1` frames. What is missing is false of the code, proved with a concrete witness: [C125_user_violated] The full claim is false: frames of user code called by `slash.assertions` (a function given to `assert_raises`, a comparison) are not shown. [C125_correction_violated] The full claim is false: with a correction larger than the number of frames some are shown again."
  },
  {
   "property": "C126",
   "status": "partial",
   "theorems": [
    "Slash.Rep.C126_tests",
    "Slash.Rep.C126_only",
    "Slash.Rep.C126_no_params_partial",
    "Slash.Rep.C126_no_params_violated",
    "Slash.Rep.C126_relative_partial",
    "Slash.Rep.C126_listed_partial",
    "Slash.Rep.C126_relative_violated",
    "Slash.Rep.C126_fixtures"
   ],
   "note": "Proved in part: [C126_no_params_partial] With `--no-params` an address `file:test(\u2026)` is shown as `file:test` and each of them once, if there is no parenthesis in the path of the file or the name of the test. [C126_relative_partial] With `--relative-paths` the path of the file is made relative and the rest is kept, if there is no colon in the parameters. [C126_listed_partial] For any combination of options: each test `file:name(parameters)` is listed as `file:name(parameters)`, with its path made relative if wanted, and without the parameters if they are not wanted; all of them in order, or each once at its first place. This holds if paths and names have no parenthesis, and names and (if they are shown with relative paths) parameters no colon. What is missing is false of the code, proved with a concrete witness: [C126_no_params_violated] The full claim is false: a parenthesis in the path of a file cuts the address there, so different tests are listed as one; with `--relative-paths` the command crashes. [C126_relative_violated] The full claim is false: with a colon in a parameter the path and the test are taken for a path together."
  },
  {
   "property": "C127",
   "status": "proved",
   "theorems": [
    "Slash.Rep.C127_code",
    "Slash.Rep.C127_no_crash"
   ],
   "note": "Proved in full for the model: [C127_code] For every run that does not crash: without sources it is an error of usage; if loading fails, or there are warnings that count as errors, the code is -1; else 0 if tests were found or `--allow-empty` is given, and 1 if not. [C127_no_crash] It does not crash without `--relative-paths`, nor if each address has a colon (outside of the parameters, if these are not shown)."
  },
  {
   "property": "C128",
   "status": "partial",
   "theorems": [
    "Slash.App.C128_restored_partial",
    "Slash.App.C128_restored_violated",
    "Slash.App.C128_summary",
    "Slash.App.C128_debugger",
    "Slash.App.C128_report",
    "Slash.App.C128_failure"
   ],
   "note": "Proved in part: [C128_restored_partial] However `with app` ends \u2014 arguments that cannot be parsed, exceptions of `.slashrc`, of plugins, of the block, of hooks, interruptions \u2014 and whatever user code did to the handlers, afterwards the handlers of SIGTERM and of warnings, the configuration and the log handlers are as they were, provided that nothing fails while the end itself is reported. If the session could be activated and its log files closed, there are as many contexts as before, and `app_quit` was triggered exactly once. What is missing is false of the code, proved with a concrete witness: [C128_restored_violated] The full claim is false: if a callback of `result_summary` raises, nothing is undone and `app_quit` is not triggered; a handler of SIGTERM that was not installed by Python is not put back; if the session cannot be activated, its context stays; if closing its log files fails, `app_quit` is not triggered."
  },
  {
   "property": "C129",
   "status": "partial",
   "theorems": [
    "Slash.App.C129_logs_partial",
    "Slash.App.C129_logs_violated",
    "Slash.App.C129_warnings_partial",
    "Slash.App.C129_warnings_violated"
   ],
   "note": "Proved in part: [C129_logs_partial] Every record of the time before the session is delivered exactly once and in order, whatever happens afterwards: to the log of the session if it got active and has one, else to the console; provided that no delivery fails. [C129_warnings_partial] Every warning of the time before the session that is not ignored (also by what was configured after it) is one of the session, once and in order, if the session gets active and the hook `warning_added` does not raise. What is missing is false of the code, proved with a concrete witness: [C129_logs_violated] The full claim is false: if the delivery of a record fails, those before it are delivered twice and those after it never. [C129_warnings_violated] The full claim is false: if entering fails they are lost, and if the hook raises for one of them, so are it and those after it."
  },
  {
   "property": "C130",
   "status": "partial",
   "theorems": [
    "Slash.Front.C130_needed",
    "Slash.Front.C130_needed_violated",
    "Slash.Front.C130_one_partial",
    "Slash.Front.C130_unknown",
    "Slash.Front.C130_one_violated"
   ],
   "note": "Proved in part: [C130_one_partial] Exactly one debugger is used: the preferred one if it is installed, else the first one that is, in the order of the known ones; provided that no debugger raises `NotImplementedError` itself. The names of the known debuggers are different. What is missing is false of the code, proved with a concrete witness: [C130_needed_violated] Without a session a skip is debugged although skips are not to be. [C130_one_violated] The full claim is false: `NotImplementedError` raised in a debugger starts the next one."
  },
  {
   "property": "C131",
   "status": "partial",
   "theorems": [
    "Slash.Front.C131_order",
    "Slash.Front.C131_path",
    "Slash.Front.C131_path_violated",
    "Slash.Front.C131_user"
   ],
   "note": "What is missing is false of the code, proved with a concrete witness: [C131_path_violated] So additions to `sys.path` in such a file are lost, while those of `SLASH_SETTINGS` are kept."
  },
  {
   "property": "C132",
   "status": "partial",
   "theorems": [
    "Slash.Front.C132_listed",
    "Slash.Front.C132_below_partial",
    "Slash.Front.C132_below_violated"
   ],
   "note": "Proved in part: [C132_below_partial] Every value below one of the given paths is listed, in order, and nothing else if the paths have one component. What is missing is false of the code, proved with a concrete witness: [C132_below_violated] The full claim, only values below the given paths, is false: `slash list-config log.root` lists everything below `log`."
  },
  {
   "property": "C133",
   "status": "partial",
   "theorems": [
    "Slash.Front.C133_partial",
    "Slash.Front.C133_violated"
   ],
   "note": "Proved in part: [C133_partial] For every function at the top of a loaded file that has the name of an earlier one there, there is a warning with its file, name and line, exactly one however often the file is loaded; there are no others. What is missing is false of the code, proved with a concrete witness: [C133_violated] The full claim, a test hidden by a later definition of its name is warned about, is false for definitions that are no plain functions at the top."
  },
  {
   "property": "C134",
   "status": "partial",
   "theorems": [
    "Slash.Front.C134_partial",
    "Slash.Front.C134_shared",
    "Slash.Front.C134_worker",
    "Slash.Front.C134_violated"
   ],
   "note": "Proved in part: [C134_partial] After a session that is no worker's and writes logs to files, provided that the links have different names and that tests have log files of their own: the link to the last test leads to the log of the last test, the one to the last failed test to the log of the last test with errors or failures (if there was none, it is as before), the one to the last session to the session's log. What is missing is false of the code, proved with a concrete witness: [C134_violated] The full claim is false: tests that log to the file of the session leave the link to the last test as it was, and a failing test without a log file removes the link to the last failed test."
  },
  {
   "property": "C135",
   "status": "partial",
   "theorems": [
    "Slash.Tr.C135_call",
    "Slash.Tr.C135_failures_partial",
    "Slash.Tr.C135_failures_violated",
    "Slash.Tr.C135_same_partial",
    "Slash.Tr.C135_same_violated",
    "Slash.Tr.C135_fatal_partial",
    "Slash.Tr.C135_fatal_violated",
    "Slash.Tr.C135_fatal_only",
    "Slash.Tr.C135_released_partial",
    "Slash.Tr.C135_held",
    "Slash.Tr.C135_released_violated",
    "Slash.Tr.C135_exception_partial",
    "Slash.Tr.C135_exception_violated"
   ],
   "note": "Proved in part: [C135_failures_partial] Every error in the list of failures is a failure; one in the list of errors is one exactly if its exception is of a failure type or it has been added as a failure too. [C135_same_partial] Adding the same exception several times, whatever happens in between, gives the same error, if attributes can be set on the exception. [C135_fatal_partial] If an exception is marked as fatal before an error is made from it, all its errors are fatal. [C135_released_partial] As long as no callback of `error_added` raises, no error in a result holds its exception. [C135_exception_partial] `add_exception` records the exception, as a failure exactly if it is of such a type, once however often it is called; provided that it is the active exception. What is missing is false of the code, proved with a concrete witness: [C135_failures_violated] The full claim, errors are no failures, is false: adding the active exception as a failure turns the error that was recorded for it into a failure. [C135_same_violated] Else there are two errors. [C135_fatal_violated] Marking an exception as fatal after an error was made from it has no effect. [C135_released_violated] Else it is kept. [C135_exception_violated] The full claim is false: a failure that is given but not active is lost, also when it is added again, and another one that happens to be active is recorded in its place."
  },
  {
   "property": "C136",
   "status": "partial",
   "theorems": [
    "Slash.Tr.C136_attributes",
    "Slash.Tr.C136_extra",
    "Slash.Tr.C136_outcome_partial",
    "Slash.Tr.C136_violated"
   ],
   "note": "Proved in part: [C136_outcome_partial] If everything can be pickled and unpickled, the parent's result says the same as the worker's about the outcome of the test. What is missing is false of the code, proved with a concrete witness: [C136_violated] The full claim is false: if the errors of a test cannot be pickled (or unpickled), the test is successful for the parent; facts are never sent; if pickling raises an exception that is not expected nothing arrives."
  },
  {
   "property": "C137",
   "status": "partial",
   "theorems": [
    "Slash.Tr.C137_shown",
    "Slash.Tr.C137_quick",
    "Slash.Tr.C137_ends",
    "Slash.Tr.C137_fails_partial",
    "Slash.Tr.C137_fails_violated"
   ],
   "note": "Proved in part: [C137_fails_partial] If there is a session when the block ends, the operation does not fail. What is missing is false of the code, proved with a concrete witness: [C137_fails_violated] It fails if the session is closed in the block after the message was shown."
  },
  {
   "property": "C138",
   "status": "partial",
   "theorems": [
    "Slash.Plug.C138_arguments",
    "Slash.Plug.C138_active_partial",
    "Slash.Plug.C138_order_partial",
    "Slash.Plug.C138_names_partial",
    "Slash.Plug.C138_names_violated",
    "Slash.Plug.C138_list_partial"
   ],
   "note": "Proved in part: [C138_active_partial] Which plugins are active after an application was entered: those that were to be active before or are asked for with `--with-`, and that are not to be inactive, are not excluded with `--without-`, and belong in the session. [C138_order_partial] The order of the arguments does not matter. [C138_names_partial] A plugin is called on the command line by its name with dashes for spaces, if no two plugins are called the same. [C138_list_partial] `slash list-plugins` lists exactly the plugins that are installed and not internal, as active exactly if a run without arguments for plugins in a session that is not parallel has them active. What is missing is false of the code, proved with a concrete witness: [C138_names_violated] Else a plugin has no name on the command line."
  },
  {
   "property": "C139",
   "status": "partial",
   "theorems": [
    "Slash.Ext.C139_names",
    "Slash.Ext.C139_first",
    "Slash.Ext.C139_failure_partial",
    "Slash.Ext.C139_within",
    "Slash.Ext.C139_broken",
    "Slash.Ext.C139_install",
    "Slash.Ext.C139_failure_violated"
   ],
   "note": "Proved in part: [C139_failure_partial] An `ImportError` that comes from the extension is passed on; \"no module named\" is said exactly if no choice is there. In both cases a later import tries again. What is missing is false of the code, proved with a concrete witness: [C139_failure_violated] The full claim is false: if an extension fails with another exception after it was imported by that name, a second import succeeds with the module that failed."
  },
  {
   "property": "C140",
   "status": "partial",
   "theorems": [
    "Slash.Flags.C140_names",
    "Slash.Flags.C140_find_none",
    "Slash.Flags.C140_rest",
    "Slash.Flags.C140_refused_partial",
    "Slash.Flags.C140_argument_partial",
    "Slash.Flags.C140_appended_partial",
    "Slash.Flags.C140_switch_partial",
    "Slash.Flags.C140_level_partial",
    "Slash.Flags.C140_level_truth_partial",
    "Slash.Flags.C140_independent",
    "Slash.Flags.C140_unmentioned",
    "Slash.Flags.C140_override",
    "Slash.Flags.C140_last_wins_violated"
   ],
   "note": "Proved in part: [C140_refused_partial] C140. When the command line is refused (if no value has both an option that replaces it and one that is appended to it): exactly if some option lacks its argument, some flag has one, or a required option is missing. Options of any number and in any order are accepted otherwise. [C140_argument_partial] C140. A value with an option that takes an argument: the argument given last is in force; without the option the value is the configured one. [C140_appended_partial] C140. A list with an option that is appended to it: the arguments given follow the configured elements, in order. [C140_switch_partial] C140. A value with flags that turn it on and off: the flag given last is in force; without such flags the value is the configured one. [C140_level_partial] C140. A number with flags that increase and decrease it (`-q`, `-v`): it is changed by the number of times they are given, in whatever order they come. [C140_level_truth_partial] C140. The same for a truth value with such flags if one of them is given: it counts as 0 or 1. What is missing is false of the code, proved with a concrete witness: [C140_last_wins_violated] C140 is violated: of the options of one value the last one given does not prevail if one of them takes an argument and another one is a flag: flags are applied after arguments."
  },
  {
   "property": "C141",
   "status": "partial",
   "theorems": [
    "Slash.PConf.C141_others_untouched",
    "Slash.PConf.C141_refused",
    "Slash.PConf.C141_accepted",
    "Slash.PConf.C141_installed",
    "Slash.PConf.C141_name",
    "Slash.PConf.C141_removed",
    "Slash.PConf.C141_kept",
    "Slash.PConf.C141_sections_partial",
    "Slash.PConf.C141_clash_violated",
    "Slash.PConf.C141_replaced_violated"
   ],
   "note": "Proved in part: [C141_sections_partial] C141, the part that holds (names that differ also with spaces written as underscores, and no plugin is installed over another): at any time, there is a section for exactly the installed plugins that have defaults. What is missing is false of the code, proved with a concrete witness: [C141_clash_violated] C141, violated: with names that differ only in a space and an underscore, uninstalling one plugin removes the section of the other, whose `current_config` fails from then on. [C141_replaced_violated] C141, violated: a plugin without defaults that is installed over one of the same name is given the section of the latter."
  },
  {
   "property": "C142",
   "status": "proved",
   "theorems": [
    "Slash.Frames.C142_locals",
    "Slash.Frames.C142_globals",
    "Slash.Frames.C142_logged",
    "Slash.Frames.C142_calls",
    "Slash.Frames.C142_listed_silent",
    "Slash.Frames.C142_unrecorded",
    "Slash.Frames.C142_attributes",
    "Slash.Frames.C142_attribute_calls"
   ],
   "note": "Proved in full for the model: [C142_locals] C142: what is recorded of the locals of a frame: every local whose name has no `@`, and for `self`, unless `repr` of it is not to be called, its attributes, each with its text of at most 100 characters; and nothing else. [C142_globals] C142: what is recorded of the globals of a frame: those the code of the frame names and that are not functions, methods, modules or classes, each with its text of at most 100 characters; and nothing else. [C142_logged] C142: with `log.traceback_variables`, what is logged of a frame: all locals and the attributes of `self`, as above, but with whole texts. [C142_calls] C142: when frames are recorded and logged, `repr` is only called for values of types that are not in `log.repr_blacklisted_types`; and attributes are only looked up of locals named `self` that are not of such types, and only those in their `__dict__` whose names do not both begin and end with `__`. [C142_listed_silent] C142: so no code of an object of a type in `log.repr_blacklisted_types` is called for it, wherever in the frames it is. [C142_unrecorded] C142: variables that are shown in logs but not recorded (their names contain `@`) are looked at only if variables are logged (`log.traceback_variables`), and then they are. [C142_attributes] C142: the attributes of an exception that are recorded: those of its `__dict__` as above; numbers and strings as they are, others by their texts. [C142_attribute_calls] C142: for the attributes of an exception, exactly this code of users is called: its `__dict__` is looked up, the attributes in it whose names do not both begin and end with `__`, and `repr` of those that are shown and are no numbers or strings, nor of a type whose `repr` is not to be called."
  },
  {
   "property": "C143",
   "status": "proved",
   "theorems": [
    "Slash.Phase.C143_phase",
    "Slash.Phase.C143_closed"
   ],
   "note": "Proved in full for the model: [C143_phase] C143: whatever functions, cleanups and callbacks of hooks do \u2014 open scopes, also in cleanups, add cleanups, also from cleanups, raise exceptions \u2014, every answer of `get_current_cleanup_phase` is the scope of the cleanup that is being called (the innermost one, should a cleanup have opened a scope), and is `None` when none is being called; and afterwards, no cleanup is being called. [C143_closed] C143: a scope is closed however it is left: when a function is over, in whatever way, the scopes are open that were before."
  },
  {
   "property": "C144",
   "status": "partial",
   "theorems": [
    "Slash.VN.C144_ends",
    "Slash.VN.C144_names",
    "Slash.VN.C144_indices",
    "Slash.VN.C144_each_parameter_named_partial",
    "Slash.VN.C144_distinct_partial",
    "Slash.VN.C144_function_distinct_partial",
    "Slash.VN.C144_dump",
    "Slash.VN.C144_inherited_before_violated",
    "Slash.VN.C144_autouse_same_name_violated",
    "Slash.VN.C144_tuple_in_fixture_violated"
   ],
   "note": "Proved in part: [C144_each_parameter_named_partial] C144: if equal names of starting points stand for the same thing, each parameter of the test has a name. [C144_distinct_partial] C144: if equal names of starting points stand for the same thing, two variations of a test that have the same indices for all names are the same variation. [C144_function_distinct_partial] C144: this is so for a test function whose arguments have different names, for autouse fixtures of different names, if `use_fixtures` and the arguments of the function understand the same name in the same way. What is missing is false of the code, proved with a concrete witness: [C144_inherited_before_violated] C144: the full statement is false: `before` of a class and of its base class, both parametrized by `x` (parameters 11 and 12): the test has four variations, and pairs of them have the same indices and hence the same address. [C144_autouse_same_name_violated] C144: the full statement is false: an autouse fixture of a file that has the name of an autouse fixture of `slashconf.py`, both parametrized by `x`. [C144_tuple_in_fixture_violated] C144: of several names parametrized together in a fixture, only the first gets a name: `parametrize(('p', 'q'), ...)` of fixture `a`. For a test function each of the names is there."
  },
  {
   "property": "C145",
   "status": "partial",
   "theorems": [
    "Slash.PV.C145_accepted_iff",
    "Slash.PV.C145_argument",
    "Slash.PV.C145_others",
    "Slash.PV.C145_call_succeeds",
    "Slash.PV.C145_iterate",
    "Slash.PV.C145_generator_fixture",
    "Slash.PV.C145_over_partial",
    "Slash.PV.C145_over_once",
    "Slash.PV.C145_label_partial",
    "Slash.PV.C145_label_newline_violated",
    "Slash.PV.C145_two_annotations_violated",
    "Slash.PV.C145_tuple_of_one_violated"
   ],
   "note": "Proved in part: [C145_over_partial] C145: a value put over `slash.param(...)` or `slash.tag(...)` is that value, with the label and tags of the latter. [C145_label_partial] C145: a label without a newline is accepted exactly if it has 1 to 30 characters, all of them letters of the English alphabet, digits or underscores, and does not begin with a digit. What is missing is false of the code, proved with a concrete witness: [C145_label_newline_violated] C145 fails for labels that end with a newline: one is accepted. [C145_two_annotations_violated] C145, full statement (a value with annotations stands for that value): it fails if both `slash.param` and `slash.tag` are put on a value, as in `1 // slash.param('x') // slash.tag('t')`: the argument gets the object that `//` made, and the label is lost. [C145_tuple_of_one_violated] C145, full statement (names in a tuple get the elements of the values): it fails for a tuple of one name, `parametrize(('a',), [(1,)])`: `a` gets the tuple, and values that are no tuples are accepted."
  },
  {
   "property": "C146",
   "status": "partial",
   "theorems": [
    "Slash.Resume.C146_local_first",
    "Slash.Resume.C146_query",
    "Slash.Resume.C146_one_query",
    "Slash.Resume.C146_offered",
    "Slash.Resume.C146_refused_partial",
    "Slash.Resume.C146_version_violated"
   ],
   "note": "Proved in part: [C146_refused_partial] C146: if the client has a version whose first two parts are numbers, then resuming fails exactly with `CannotResume`, and exactly if the plugin is not active, it cannot resume, it does not know the session, or the options contradict each other. What is missing is false of the code, proved with a concrete witness: [C146_version_violated] C146 fails for a plugin named `backslash` that can resume and knows the session, if the client library is not installed as a distribution, or has a version such as `2.dev1`: an `AttributeError` or a `ValueError` is raised and no query is made."
  },
  {
   "property": "C147",
   "status": "partial",
   "theorems": [
    "Slash.Resume.C147_closed",
    "Slash.Resume.C147_saved",
    "Slash.Resume.C147_no_silent_loss",
    "Slash.Resume.C147_error_partial",
    "Slash.Resume.C147_error_after_success_violated"
   ],
   "note": "Proved in part: [C147_error_partial] C147: if every commit after a successful one succeeds too, then an error means that nothing is stored. What is missing is false of the code, proved with a concrete witness: [C147_error_after_success_violated] C147 fails for a commit that succeeds at once: committing goes on, and if the database is busy at the third commit then an error is raised although everything is stored."
  },
  {
   "property": "C148",
   "status": "proved",
   "theorems": [
    "Slash.TC.C148_tests",
    "Slash.TC.C148_skipped",
    "Slash.TC.C148_abstract_refused"
   ],
   "note": "Proved in full for the model: [C148_tests] C148: a class has no tests because it is abstract exactly if it was itself declared abstract; what was declared of its base classes or of classes derived from it does not matter. Otherwise it has exactly one test for each variation of each method whose name starts with `test`, those it inherits included. [C148_skipped] C148: a test of a class is skipped exactly if the class or one it is derived from was skipped by `skip_all`; the reason is the one given last for the first such class in the order in which Python looks for attributes. Nothing of such a test runs. [C148_abstract_refused] C148: a class that is not derived from `slash.Test` cannot be declared abstract."
  },
  {
   "property": "C149",
   "status": "partial",
   "theorems": [
    "Slash.Tb.C149_complete_partial",
    "Slash.Tb.C149_plain",
    "Slash.Tb.C149_reused_context_violated"
   ],
   "note": "Proved in part: [C149_complete_partial] C149: when an exception is handled, the traceback that is recorded shows the whole way from the start of the program to the place where the exception was raised: the callers of the function that handles it, outermost first, and then what Python's traceback shows. The latter is left as it was. `self`, `handling` and `here` are the frames of the two functions of slash and of the `with` statement; `more`: whatever traceback objects come into existence before the exception is handled. What is missing is false of the code, proved with a concrete witness: [C149_reused_context_violated] C149 fails for a context that is used for a second exception: the traceback recorded for the first one (object 0) then shows the second one."
  },
  {
   "property": "C150",
   "status": "partial",
   "theorems": [
    "Slash.Col.C150_text",
    "Slash.Col.C150_codes_partial",
    "Slash.Col.C150_styles",
    "Slash.Col.C150_error_stream_violated",
    "Slash.Col.C150_title_violated",
    "Slash.Col.C150_colored_strings",
    "Slash.Col.C150_colored_parts",
    "Slash.Col.C150_ljust"
   ],
   "note": "Proved in part: [C150_codes_partial] C150: what is no error contains codes exactly if an argument has a style and colors are forced, or they are enabled and the stream it is written to is a terminal. What is missing is false of the code, proved with a concrete witness: [C150_error_stream_violated] C150 fails for errors: whether they are colored depends on the stream for reports. If this is a terminal, codes are written to a stream for errors that is none, such as a file; and if it is none, errors on the terminal are not colored. [C150_title_violated] C150 fails for the tests that `slash list` lists: their addresses are given a style that gets lost, so they are not colored even if colors are forced."
  },
  {
   "property": "C151",
   "status": "partial",
   "theorems": [
    "Slash.WP.C151_process",
    "Slash.WP.C151_hooks",
    "Slash.WP.C151_tmux_partial",
    "Slash.WP.C151_tmux_space_violated",
    "Slash.WP.C151_options_partial",
    "Slash.WP.C151_dashes_violated"
   ],
   "note": "Proved in part: [C151_tmux_partial] C151 (workers in `tmux`, partial): if no argument is empty or has a blank or a `;` in it, the shells of the windows run the same programs. Missing: other arguments, see `C151_tmux_space_violated`. [C151_options_partial] C151 (options, partial): if `--` is not among the arguments, the worker takes everything it is given as an option or its value. Missing: see `C151_dashes_violated`. What is missing is false of the code, proved with a concrete witness: [C151_tmux_space_violated] The code does not quote the arguments for the shell: a directory with a blank in its name becomes two arguments of the workers in `tmux`. Worker processes get it unchanged. [C151_dashes_violated] The code puts its options behind the arguments of the user: after a `--` they are no options any more. The worker is not told that it is one, but that it is to have workers itself."
  },
  {
   "property": "C152",
   "status": "partial",
   "theorems": [
    "Slash.WP.C152_ended_partial",
    "Slash.WP.C152_stopped_last",
    "Slash.WP.C152_interrupted_start_violated",
    "Slash.WP.C152_hook_error_violated",
    "Slash.WP.C152_tmux_unconnected_violated",
    "Slash.WP.C152_tmux_left_violated",
    "Slash.WP.C152_second_interruption_violated"
   ],
   "note": "Proved in part: [C152_ended_partial] C152 (partial): if the workers can all be started, the servers can be reached, each worker ends by itself or when it is asked to, those in `tmux` connected to the server and end soon, and the parent is not interrupted again, then the run of the parent is over with what ended it, the end of each worker was seen, and then both servers were told to stop. When the parent gave up because of a time-out, or was interrupted, every worker was sent `SIGTERM`. Missing: see the theorems below. What is missing is false of the code, proved with a concrete witness: [C152_interrupted_start_violated] An interruption while workers are being started ends in `AttributeError`, the servers are not told to stop: the code waits for workers that were not started. [C152_hook_error_violated] An exception other than an interruption while workers are being started: the workers that run are not asked to end, although they would, and the parent waits for them for ever. (A worker waits until all have connected.) [C152_tmux_unconnected_violated] A worker in `tmux` that did not connect in time: the parent gives up with `TypeError` instead of the time-out, does not ask the other workers to end if they come later, and leaves its servers running. [C152_tmux_left_violated] A worker in `tmux` that takes long to end, or was not heard of any more, still runs when the run of the parent is over. [C152_second_interruption_violated] A second interruption, while the parent waits for its workers after the first one: the servers are not told to stop."
  },
  {
   "property": "C153",
   "status": "partial",
   "theorems": [
    "Slash.Notify.C153_body",
    "Slash.Notify.C153_title_partial",
    "Slash.Notify.C153_session_end_partial",
    "Slash.Notify.C153_debugger_partial",
    "Slash.Notify.C153_title_violated",
    "Slash.Notify.C153_escapes_violated",
    "Slash.Notify.C153_hook_violated",
    "Slash.Notify.C153_names",
    "Slash.Notify.C153_recipients_partial",
    "Slash.Notify.C153_recipients_violated"
   ],
   "note": "Proved in part: [C153_title_partial] C153 (titles, partial): the title says on which host, and what happened. Missing: hosts with braces in their names, see `C153_title_violated`. [C153_session_end_partial] C153 (end of the session, partial): nothing is sent after a session shorter than the threshold, nor after a successful one if only failures are of interest. Otherwise every service that is enabled and set up is sent the message exactly once, even if others fail. The hooks left the message as it was, and nothing interrupts the plugin. Missing: hosts with braces in their names. [C153_debugger_partial] C153 (debugger, partial): the same when a debugger is entered, unless that was switched off. [C153_recipients_partial] C153 (recipients, partial): without the `backslash` plugin the recipients stay those of the configuration. What is missing is false of the code, proved with a concrete witness: [C153_title_violated] The code formats the title twice: on a host with a brace in its name nobody is told anything. [C153_escapes_violated] An exception that is not swallowed, or one of the user's hook `prepare_notification`, keeps the others from being told. [C153_hook_violated] An exception of the user's hook `prepare_notification` keeps every service from being told, and is not swallowed. [C153_recipients_violated] With it, the user is added to the recipients again with every message: the one after `n` others has them `n + 1` times."
  },
  {
   "property": "C154",
   "status": "partial",
   "theorems": [
    "Slash.Console.C154_context_partial",
    "Slash.Console.C154_line",
    "Slash.Console.C154_form_feed_violated",
    "Slash.Console.C154_no_source",
    "Slash.Console.C154_indent",
    "Slash.Console.C154_skips_partial",
    "Slash.Console.C154_reason_violated",
    "Slash.Console.C154_details",
    "Slash.Console.C154_collected"
   ],
   "note": "Proved in part: [C154_context_partial] C154 (source with context, partial): for an error in line `lineno` of a function that starts in line `first`, exactly those lines are shown, each once and in order, and the one of the error is marked. The lines have no characters in them that end lines for Python texts, and the one with the error is not empty. Missing: see `C154_form_feed_violated`. [C154_skips_partial] C154 (skips, partial): all reasons are listed in order. Missing: reasons that are no strings, see `C154_reason_violated`. What is missing is false of the code, proved with a concrete witness: [C154_form_feed_violated] The code takes other characters for ends of lines than the file: the line of the error is shown as two, and only the rest of it is marked. [C154_reason_violated] `skip_test` may be given anything as its reason, but the summary fails for what is no string."
  },
  {
   "property": "C155",
   "status": "partial",
   "theorems": [
    "Slash.LC.C155_nearest",
    "Slash.LC.C155_shared",
    "Slash.LC.C155_restored",
    "Slash.LC.C155_fails_iff",
    "Slash.LC.C155_once_partial",
    "Slash.LC.C155_files",
    "Slash.LC.C155_again_violated"
   ],
   "note": "Proved in part: [C155_once_partial] C155 (once, partial): however many test files are loaded, in whatever order, a `slashconf` file is run at most once. Missing: files of a directory one of which fails, see `C155_again_violated`. What is missing is false of the code, proved with a concrete witness: [C155_again_violated] A file that fails makes the files before it be run again with the next test file."
  },
  {
   "property": "C156",
   "status": "partial",
   "theorems": [
    "Slash.Ctx.C156_values",
    "Slash.Ctx.C156_restored",
    "Slash.Ctx.C156_written",
    "Slash.Ctx.C156_no_session",
    "Slash.Ctx.C156_eq",
    "Slash.Ctx.C156_truth_violated",
    "Slash.Ctx.C156_attributes_partial",
    "Slash.Ctx.C156_attributes_violated"
   ],
   "note": "Proved in part: [C156_attributes_partial] C156 (attributes, partial): in a session, and without one, the test, its file, the session and the reporter can be asked for; without a test or session the answer is `None`. Missing: see `C156_attributes_violated`. What is missing is false of the code, proved with a concrete witness: [C156_truth_violated] Without a session `slash.session` equals `None`, but counts as true. [C156_attributes_violated] Without a session the id of the session cannot be asked for; in a session the names of the class and the method of the test cannot, although they can without one."
  },
  {
   "property": "C157",
   "status": "partial",
   "theorems": [
    "Slash.Shell.C157_names_partial",
    "Slash.Shell.C157_hook_names",
    "Slash.Shell.C157_names_violated",
    "Slash.Shell.C157_typed",
    "Slash.Shell.C157_recorded_partial",
    "Slash.Shell.C157_terminated_partial",
    "Slash.Shell.C157_hook_violated",
    "Slash.Shell.C157_no_session_violated",
    "Slash.Shell.C157_no_session_deaf",
    "Slash.Shell.C157_result",
    "Slash.Shell.C157_goes_on_violated"
   ],
   "note": "Proved in part: [C157_names_partial] The names a shell has: the keyword arguments, and in a session the attributes of `slash.g` unless configured otherwise. Keyword arguments are missing only if `slash.g` has an attribute of that name. [C157_recorded_partial] In a session whose hooks for exceptions do not raise, the exceptions of code called from the shell are recorded as what they are, each once and in order; those of the lines typed are not, and nothing is read after a request to terminate. [C157_terminated_partial] There, the shell is ended by slash exactly on a request to terminate, and then there is one error for it. What is missing is false of the code, proved with a concrete witness: [C157_names_violated] A keyword argument is replaced by an attribute of `slash.g`. [C157_hook_violated] Once a hook for exceptions raised, nothing is recorded any more. [C157_no_session_violated] Without a session a request to terminate is ignored. [C157_goes_on_violated] A request to terminate ends the shell, and both the test and the session count as interrupted, but the tests after it are run."
  },
  {
   "property": "C158",
   "status": "partial",
   "theorems": [
    "Slash.Ci.C158_link",
    "Slash.Ci.C158_default",
    "Slash.Ci.C158_no_build",
    "Slash.Ci.C158_no_log_violated"
   ],
   "note": "What is missing is false of the code, proved with a concrete witness: [C158_no_log_violated] A test without a log file gets an error of the plugin."
  },
  {
   "property": "C159",
   "status": "proved",
   "theorems": [
    "Slash.Ci.C159_types",
    "Slash.Ci.C159_files",
    "Slash.Ci.C159_child",
    "Slash.Ci.C159_reports",
    "Slash.Ci.C159_saved",
    "Slash.Ci.C159_fails",
    "Slash.Ci.C159_raises"
   ],
   "note": "Proved in full for the model: [C159_types] The plugin can be activated exactly if the types of reports are one or more of `html` and `xml` with commas between them, and then these are the reports to make. [C159_files] The data of different workers, and of the session that is none, are in different files. [C159_child] Workers save their data and report nothing. [C159_reports] In other sessions the data are saved first, and then each report is made once, in order, with the data of the workers; the session does not fail because there are no data. [C159_saved] Without reports, the data are saved all the same. [C159_fails] An exception leaves the plugin only if the package raised it and it is not about missing data. [C159_raises] The first exception of the package that is not about missing data leaves the plugin."
  },
  {
   "property": "C160",
   "status": "partial",
   "theorems": [
    "Slash.Rep.C160_frames",
    "Slash.Rep.C160_caller_partial",
    "Slash.Rep.C160_outermost_violated",
    "Slash.Rep.C160_assertions_violated",
    "Slash.Rep.C160_log_violated"
   ],
   "note": "Proved in part: [C160_caller_partial] The error points to the caller, with a correction to its caller and so on, if this frame is neither muted nor the outermost one, and it was not called by `slash.assertions`. What is missing is false of the code, proved with a concrete witness: [C160_outermost_violated] An error added at the outermost level of a program points nowhere. [C160_assertions_violated] An error added by code that `slash.assertions` called points to the caller of the assertion. [C160_log_violated] An error that was logged points to the handler of slash, not to the code that logged it."
  },
  {
   "property": "C161",
   "status": "partial",
   "theorems": [
    "Slash.Load.C161_numbers",
    "Slash.Load.C161_total_partial",
    "Slash.Load.C161_total_violated",
    "Slash.Load.C161_bound_partial",
    "Slash.Load.C161_bound_violated"
   ],
   "note": "Proved in part: [C161_total_partial] The total number of tests is that of the tests loaded, without interactive ones. [C161_bound_partial] The number of a test that is run is at most the total number of tests, if only loaded tests are run and there is no interactive one. What is missing is false of the code, proved with a concrete witness: [C161_total_violated] With the interactive test, there is one test more than the total number says. [C161_bound_violated] With the interactive test, the last test has a number beyond the total."
  },
  {
   "property": "C162",
   "status": "partial",
   "theorems": [
    "Slash.Resume.C162_chain_partial",
    "Slash.Resume.C162_empty",
    "Slash.Resume.C162_nothing_left_violated",
    "Slash.Resume.C162_failed_load_violated",
    "Slash.Resume.C162_interactive_violated",
    "Slash.Resume.C162_repeat_violated"
   ],
   "note": "Proved in part: [C162_chain_partial] C162, the part that holds (the files still load, with the tests that were run; each of them can be told from the others there; none has a `repeat` marker; something was left to be done by the session before): after a session, any number of resumptions in the same directory, whatever other sessions are made elsewhere in between. Each of them runs exactly the tests of the first session which did not succeed in any of the sessions before it, each once. What is missing is false of the code, proved with a concrete witness: [C162_nothing_left_violated] C162 fails when nothing is left: the first resumption after all tests succeeded runs nothing and is fine, the next one fails. [C162_failed_load_violated] C162 fails after a resumption that could not load the tests (here: their file was missing for a while): it is stored as a session without tests, and the next resumption fails although the file is there again and no test has succeeded. [C162_interactive_violated] C162 fails for sessions with the interactive test: it is stored under a file that does not exist (number 0 here), and unless it succeeded the session cannot be resumed at all. [C162_repeat_violated] C162 fails for tests with a `repeat` marker: each of the two runs of the test is stored, and each is repeated when it is resumed: four runs, then eight."
  },
  {
   "property": "C163",
   "status": "proved",
   "theorems": [
    "Slash.Load.C163_collect",
    "Slash.Load.C163_count",
    "Slash.Load.C163_fails_iff",
    "Slash.Load.C163_no_other"
   ],
   "note": "Proved in full for the model: [C163_collect] C163: what is run is the interactive test, if asked for, then as many times as all is to be repeated: for each source used in the order given, the tests it selects, each as many times as it is to be repeated. For each source a test is taken once, in the order of files, names, methods and variations. [C163_count] C163: each test is run as often as `--repeat-all` times `--repeat-each` times its own `repeat` times the number of sources that select it. [C163_fails_iff] C163: nothing is run and the reason is that tests cannot be loaded, exactly if nothing is named (and no defaults and no interactive test), or a source used is broken, or no test is left after all. [C163_no_other] C163: collecting never fails for another reason."
  },
  {
   "property": "C164",
   "status": "partial",
   "theorems": [
    "Slash.Sig.C164_called_partial",
    "Slash.Sig.C164_unknown",
    "Slash.Sig.C164_nofixtures",
    "Slash.Sig.C164_default_violated",
    "Slash.Sig.C164_variadic_violated",
    "Slash.Sig.C164_positional_violated",
    "Slash.Sig.C164_extra_violated",
    "Slash.Sig.C164_self_violated",
    "Slash.Sig.C164_this_violated",
    "Slash.Sig.C164_self_fails",
    "Slash.Sig.C164_extra_fails"
   ],
   "note": "Proved in part: [C164_called_partial] A test function or method with named arguments, whose parameters are arguments of it: if each other argument names a fixture, it is called with all its arguments, each with its value, and nothing else. What is missing is false of the code, proved with a concrete witness: [C164_default_violated] An argument with a default must name a fixture all the same. [C164_variadic_violated] `*args` and `kwargs` are taken for arguments that name fixtures; if there is a fixture of that name, the call fails, or the fixture ends in `kwargs`. [C164_positional_violated] A positional-only argument is looked up, but cannot be given, whether it has a default or not. [C164_extra_violated] A parameter that is no argument is found out only when the test runs. [C164_self_violated] The first argument of a method is taken for a fixture unless it is called `self`; a function's first argument is not if it is. [C164_this_violated] A fixture called `this` is not given to tests."
  },
  {
   "property": "C165",
   "status": "partial",
   "theorems": [
    "Slash.RunAll.C165_zero_iff",
    "Slash.RunAll.C165_zero_means_run_partial",
    "Slash.RunAll.C165_zero_nothing_raised",
    "Slash.RunAll.C165_zero_means_run_violated"
   ],
   "note": "Proved in part: [C165_zero_means_run_partial] C165. If the status is zero then tests were collected, and each one that is not shown as skipped had its function called, and it returned - unless a skip raised by the cleanups of a module prevented a test from beginning. What is missing is false of the code, proved with a concrete witness: [C165_zero_means_run_violated] C165 is violated by a cleanup of a module that raises a skip: the status is zero, a test is not shown as skipped, and its function was never called."
  },
  {
   "property": "C166",
   "status": "partial",
   "theorems": [
    "Slash.RunAll.C166_zero_iff",
    "Slash.RunAll.C166_done_means",
    "Slash.RunAll.C166_all_done_partial",
    "Slash.RunAll.C166_all_done_violated"
   ],
   "note": "Proved in part: [C166_all_done_partial] C166, the part that holds (the tests of the first session can be told from each other; the files either cannot be loaded or have the tests in them; none of them has a `repeat` marker): a session, then any number of resumptions in the same directory, whatever is raised in them, and whatever other sessions are made elsewhere in between. If one of the resumptions ends with status zero, then each test of the first session has succeeded in one of the sessions before it, or it is run in this one and nothing goes wrong in it (it may be skipped). What is missing is false of the code, proved with a concrete witness: [C166_all_done_violated] C166 is violated for tests which differ only in parameters that are written alike: if neither of them was begun in the first session (here a hook at its start raises), only one of them is stored. `slash resume` runs it and ends with status zero, although the other one was never run."
  },
  {
   "property": "C167",
   "status": "proved",
   "theorems": [
    "Slash.Par.C167_zero_iff",
    "Slash.Par.C167_waits",
    "Slash.Par.C167_zero_says",
    "Slash.Par.C167_zero_if"
   ],
   "note": "Proved in full for the model: [C167_zero_iff] C167: exit status zero. The process of the parent ends with status 0 exactly if nothing was raised outside of the tests, the parent was neither interrupted nor gave up, its own (global) result is a success, no worker told it of an error or was found dead, and each test of the parent has the result of a run of this test by a worker, a success (or skipped). [C167_waits] C167: when the process of the parent has no status yet. It is exactly as long as it waits for its workers: the tests were collected, nothing was raised until then, and its server was not left. So if anything is raised before the tests are started, or there are none, the process ends, and not with status 0. [C167_zero_says] C167: what status 0 says about the run. Each test of the parent was run by exactly one worker, as one of its own tests with the same file, name and variation, and the result the worker sent is a success (or skipped); no worker sent any other result. If there are any tests, every worker had collected the tests of the parent, and left regularly. The parent was not interrupted and did not give up, and no worker had told it of an error outside of the tests. [C167_zero_if] C167: a run in which nothing goes wrong ends with status 0: the workers collected the tests of the parent, left regularly and told of no error, every test may be run by some worker, all results sent are successes (or skips), and the parent stopped its server without being interrupted and without giving up."
  },
  {
   "property": "C168",
   "status": "partial",
   "theorems": [
    "Slash.Tmux.C168_which",
    "Slash.Tmux.C168_file",
    "Slash.Tmux.C168_missing",
    "Slash.Tmux.C168_started_partial",
    "Slash.Tmux.C168_space_violated",
    "Slash.Tmux.C168_found",
    "Slash.Tmux.C168_moves_once",
    "Slash.Tmux.C168_foreign_session_violated",
    "Slash.Tmux.C168_window"
   ],
   "note": "Proved in part: [C168_started_partial] C168 (partial): without a session of the agreed name, the process becomes `tmux`, which makes exactly one session, of that name, and lets it run the same command with the same arguments, if no argument is empty or has a blank or a `;` in it. Within `tmux`, the new session is not attached. Missing: other arguments, see `C168_space_violated`. What is missing is false of the code, proved with a concrete witness: [C168_space_violated] C168 (violated): the arguments are not quoted: a filter of several words becomes several arguments. [C168_foreign_session_violated] C168 (violated): a run started outside of `tmux` while a session of the agreed name exists, for example one of another run that has not come to give it its own name yet, does not move into `tmux`; it takes the session of the other run for its own."
  },
  {
   "property": "C169",
   "status": "partial",
   "theorems": [
    "Slash.Exc.C169_tuples_partial",
    "Slash.Exc.C169_stops_partial",
    "Slash.Exc.C169_refused",
    "Slash.Exc.C169_list",
    "Slash.Exc.C169_list_violated",
    "Slash.Exc.C169_list_swallow_violated"
   ],
   "note": "Proved in part: [C169_tuples_partial] C169 (partial): with tuples the context does what is told of it in C40 and C41: it is the context with these types, and it never fails by itself. Missing: lists, see `C169_list_violated`. [C169_stops_partial] C169 (partial): with tuples, and hooks that do not raise, an exception is stopped exactly if it is of one of the types to swallow (or any `Exception`, with `swallow`), and neither of a type to pass, nor anticipated, nor a skip, nor an interruption; otherwise it leaves as the exception it was. What is missing is false of the code, proved with a concrete witness: [C169_list_violated] C169 (violated): `swallow_types` may be a list, says the assertion; but an exception of a type in the list is not swallowed, a `TypeError` comes in its place. [C169_list_swallow_violated] C169 (violated): with `swallow` a list is refused, by a `TypeError`."
  },
  {
   "property": "C170",
   "status": "partial",
   "theorems": [
    "Slash.CHook.C170_add",
    "Slash.CHook.C170_ensure",
    "Slash.CHook.C170_register",
    "Slash.CHook.C170_remove_partial",
    "Slash.CHook.C170_called_partial",
    "Slash.CHook.C170_again",
    "Slash.CHook.C170_own_violated",
    "Slash.CHook.C170_ensure_attr_violated",
    "Slash.CHook.C170_remove_violated",
    "Slash.CHook.C170_get_violated",
    "Slash.CHook.C170_get_partial"
   ],
   "note": "Proved in part: [C170_remove_partial] C170 (partial): removing a hook that can be called as an attribute removes it, with its handlers, and its attribute, and nothing else; removing a name that is no hook fails and changes nothing. Missing: hooks without attributes, see `C170_remove_violated`. [C170_called_partial] C170 (partial): whatever hooks are added, ensured, removed and registered for, one after the other, and whichever of these fail: each hook that is defined can be called as an attribute of the module, which calls exactly the handlers registered for it; no attribute is left of hooks that were removed; different names stand for different hooks; and what the module has of its own stays. Missing: names of the module's own (`C170_own_violated`), and hooks defined with `gossip` (`C170_ensure_attr_violated`). [C170_get_partial] C170 (partial): a hook that is defined is found by its name. Missing: other names, see `C170_get_violated`. What is missing is false of the code, proved with a concrete witness: [C170_own_violated] C170 (violated): a hook with a name of the module's own takes the place of it: `slash.hooks.register` is no function then; and it is gone for good after the hook was removed. [C170_ensure_attr_violated] C170 (violated): a hook defined with `gossip` is accepted by `ensure_custom_hook`, but is not an attribute. [C170_remove_violated] C170 (violated): removing such a hook removes it, and raises an exception nevertheless. [C170_get_violated] C170 (violated): `get_hook_by_name` of a name that is no hook raises, though `None` is promised."
  },
  {
   "property": "C171",
   "status": "partial",
   "theorems": [
    "Slash.ErrF.C171_logged_partial",
    "Slash.ErrF.C171_lines_violated",
    "Slash.ErrF.C171_empty_violated"
   ],
   "note": "Proved in part: [C171_logged_partial] C171 (partial): whatever workers write in whichever order, and in whichever order the directory lists its files: all that a worker could write is logged by the parent, under the name of the file of this worker, in lines: put together they are what the worker wrote, in order. Nothing else is logged with file names, and the notice that there are no files is logged if and only if no worker could write anything. Missing: that messages are on lines of their own (`C171_lines_violated`), and that a message without text is noticed (`C171_empty_violated`). What is missing is false of the code, proved with a concrete witness: [C171_lines_violated] C171 (violated): no line end is written after a message: two messages of a worker are logged as one line. [C171_empty_violated] C171 (violated): a worker that fails with an exception without text is not mentioned at all; nor is it said that there are no files."
  },
  {
   "property": "C172",
   "status": "partial",
   "theorems": [
    "Slash.Resume.C172_selected_partial",
    "Slash.Resume.C172_times_partial",
    "Slash.Resume.C172_rerun_partial",
    "Slash.Resume.C172_last",
    "Slash.Resume.C172_refused",
    "Slash.Resume.C172_twice_violated"
   ],
   "note": "Proved in part: [C172_selected_partial] C172: `slash resume` and `slash rerun` with the ids of sessions run the tests of these sessions that are asked for, one session after the other in the order of the ids, and for each session those that come first before the others; none is lost or added. [C172_times_partial] C172: a test is run exactly as often as there are ids of sessions in which its result is one that is asked for. [C172_rerun_partial] C172: `slash rerun` without options runs all tests of the sessions again, whatever their results. What is missing is false of the code, proved with a concrete witness: [C172_twice_violated] C172 does not hold as one would wish: a test that failed in two of the sessions is run twice, and one that failed in the first and succeeded in the second is run again."
  },
  {
   "property": "C173",
   "status": "partial",
   "theorems": [
    "Slash.Par.C173_zero_says_partial",
    "Slash.Par.C173_failure_counts_partial",
    "Slash.Par.C173_zero_if",
    "Slash.Par.C173_lost_violated"
   ],
   "note": "Proved in part: [C173_zero_says_partial] C173: a parallel run whose outcome arrives from the workers ends with status 0 only if each test of the parent was run by a worker, as its test with the same file, name and variation, and has the result of a success (or was skipped) there. [C173_failure_counts_partial] C173: if a test did not succeed where it was run, the status is not 0, whatever else happens, provided that its outcome arrives. What is missing is false of the code, proved with a concrete witness: [C173_lost_violated] The full claim is false: if the errors of a test cannot be pickled, or not be unpickled, the run ends with status 0 although the test has an error."
  },
  {
   "property": "C174",
   "status": "partial",
   "theorems": [
    "Slash.NS.C174_file_partial",
    "Slash.NS.C174_slashconf_partial",
    "Slash.NS.C174_stays",
    "Slash.NS.C174_known_everywhere",
    "Slash.NS.C174_listed_partial",
    "Slash.NS.C174_slashconf_violated",
    "Slash.NS.C174_unused_violated"
   ],
   "note": "Proved in part: [C174_file_partial] A fixture of a test file is marked as overriding another one exactly if a fixture of that name is defined in a `slashconf` of a directory above, or is known everywhere; whatever files were loaded before. [C174_slashconf_partial] A fixture of a `slashconf` is marked exactly if a fixture of that name is known everywhere; the `slashconf` files of directories further up are not considered. [C174_listed_partial] Each fixture is listed in its place, with its name and its mark of overriding; it is said to be used automatically exactly if it is; if nothing is said some listed test uses it, and if it is said to be unused no listed test requires it itself. What is missing is false of the code, proved with a concrete witness: [C174_slashconf_violated] A `slashconf` that defines fixture 1 again, with one further up that defines 1 and 2, and a file that defines 2 again: only the latter is marked. [C174_unused_violated] A fixture that the only test uses by way of another fixture is said to be unused."
  },
  {
   "property": "C175",
   "status": "partial",
   "theorems": [
    "Slash.NS.C175_leads_partial",
    "Slash.NS.C175_excluded_partial",
    "Slash.NS.C175_fixture_partial",
    "Slash.NS.C175_excluded_fixture_partial",
    "Slash.NS.C175_unknown",
    "Slash.NS.C175_fixture_violated",
    "Slash.NS.C175_unused_violated",
    "Slash.NS.C175_clash_violated"
   ],
   "note": "Proved in part: [C175_leads_partial] A dotted name in an exclusion of a test leads to the parameter of the fixture that the test gets by way of the named fixtures, as they are seen where they are used. [C175_excluded_partial] An exclusion of a test for such a name leaves out exactly the variations in which that fixture gets one of the values. [C175_fixture_partial] An exclusion of a fixture: the same, if the fixtures it uses are the same ones when seen from the file of the test. [C175_excluded_fixture_partial] ... so an exclusion of a fixture among the arguments of the test leaves out exactly the variations in which that parameter has one of the values. What is missing is false of the code, proved with a concrete witness: [C175_fixture_violated] Names in an exclusion of a fixture are looked up from the file of the test, not from where the fixture is defined: `exclude(\"2.3\", \u2026)` for fixture 1, which gets the parameter 7, goes by the parameter 8 of the fixture defined in the file. The value 5 of the former is not left out, and 6 is although it is not a value of the former; if the test does not use that fixture, loading fails. [C175_unused_violated] A fixture need not use the one named after it: fixture 102 has no arguments, but the name 2.1.2.3 leads to a parameter. [C175_clash_violated] If a function has a parameter with the name of a fixture that another of its arguments stands for (`slash.use`), the name does not lead to that fixture."
  },
  {
   "property": "C176",
   "status": "partial",
   "theorems": [
    "Slash.Tog.C176_not_started",
    "Slash.Tog.C176_once",
    "Slash.Tog.C176_told",
    "Slash.Tog.C176_only_partial",
    "Slash.Tog.C176_late",
    "Slash.Tog.C176_deactivated",
    "Slash.Tog.C176_only_violated"
   ],
   "note": "Proved in part: [C176_only_partial] C176: a plugin that was not activated while the session was running is told that it ends only if it was active when the session started; and then, if it has a method `session_start`, this was called in this session. What is missing is false of the code, proved with a concrete witness: [C176_only_violated] C176, violated: a plugin that was deactivated in an earlier session and is activated again while a session is running is told that it ends, though it was not told that it started (whatever `gossip` does about exceptions); the same goes for a plugin without `session_start`, which leaves a callback behind, even if it was active in no session before; and a plugin that is activated twice is told about the start twice, and once about the end."
  },
  {
   "property": "C177",
   "status": "partial",
   "theorems": [
    "Slash.Plug.C177_provides_partial",
    "Slash.Plug.C177_needs",
    "Slash.Plug.C177_order",
    "Slash.Plug.C177_first_partial",
    "Slash.Plug.C177_fires_partial",
    "Slash.Plug.C177_free",
    "Slash.Plug.C177_deactivated",
    "Slash.Plug.C177_providers_partial",
    "Slash.Plug.C177_only_ends_violated",
    "Slash.Plug.C177_incompatible_violated"
   ],
   "note": "Proved in part: [C177_provides_partial] C177, the part that holds (no plugin is installed over another active one; and a plugin with `session_end` and without `session_start` does not provide anything when the session starts): an active plugin that is marked as providing something does so at every hook of the `slash` group, whether it has a method for it or not, whatever happened before. [C177_first_partial] C177, for two plugins: a method of an active plugin that provides something \u2014 the plugin as a whole, the method, or the registration is marked so \u2014 is called before each method of another one that needs it, in any of the same three ways. [C177_fires_partial] C177, the part that holds: if all that is needed at a hook of the `slash` group is provided by active plugins marked so, and needs are not circular, calling the hook does not fail. [C177_providers_partial] C177, the part that holds (all plugins have methods for known hooks only): only active plugins provide anything. What is missing is false of the code, proved with a concrete witness: [C177_only_ends_violated] C177, violated: an active plugin marked as providing something, with a method for the end of the session and none for its start, does not provide it at the start, so that a plugin which needs it makes starting a session fail. [C177_incompatible_violated] C177, violated: a plugin whose activation fails because it has a method for an unknown hook goes on providing what it is marked with, though it is neither active nor installed."
  },
  {
   "property": "C178",
   "status": "partial",
   "theorems": [
    "Slash.Deco.C178_seen",
    "Slash.Deco.C178_order",
    "Slash.Deco.C178_twice",
    "Slash.Deco.C178_called",
    "Slash.Deco.C178_generator_partial",
    "Slash.Deco.C178_generator_violated",
    "Slash.Deco.C178_apart_partial",
    "Slash.Deco.C178_shared_violated"
   ],
   "note": "Proved in part: [C178_generator_partial] Whatever the order, a fixture written as a generator is started if no decorator of the user's is below its declaration as a fixture (or one of its parametrizations is below these). [C178_apart_partial] A new function `g` made of `f` by a decorator of the user's or by parametrizing it, and decorated further: `f` stays as it was, both what is found at it and what a call does, if no requirements are added to `g`, and parameters, tags and fixtures are added only if `f` itself has none. What is missing is false of the code, proved with a concrete witness: [C178_generator_violated] For calls, the order does matter: a fixture written as a generator, with a decorator of the user's (made with `functools.wraps`) below `slash.fixture`, is not started: the value of the fixture is the generator. [C178_shared_violated] Otherwise `f` does change: a tag given to `g` is also one of `f` if `f` had another tag; a requirement of `g` is always one of `f`; fixtures used by `g` are used by `f` if `f` uses another one; and so on for parameters."
  },
  {
   "property": "C179",
   "status": "partial",
   "theorems": [
    "Slash.Par.C179_refines",
    "Slash.Par.C179_reported",
    "Slash.Par.C179_interrupted",
    "Slash.Par.C179_spared",
    "Slash.Par.C179_found_partial",
    "Slash.Par.C179_in_time_partial",
    "Slash.Par.C179_raised",
    "Slash.Par.C179_gives_up",
    "Slash.Par.C179_gives_up_in_time",
    "Slash.Par.C179_early_death_violated",
    "Slash.Par.C179_only_worker_violated"
   ],
   "note": "Proved in part: [C179_found_partial] C179: a silent worker is found. Once all workers have connected, a look at a worker whose last keep-alive is longer ago than the time-out takes it out of the run: it is killed, the server does not count it any more, the test it was running has a result saying that it was interrupted, and the run has a worker error, so that its exit status will not be zero. [C179_in_time_partial] C179: and it is found in time. If the manager looks at least every `P` (two seconds in the code, and what the looks take), then at the latest `P` after the time-out of the worker is over, counted from its last keep-alive, the server does not count the worker any more, or the parent has stopped watching. What is missing is false of the code, proved with a concrete witness: [C179_early_death_violated] C179, missing: a worker that dies after it connected and before its first keep-alive is never found, however long the run waits, as long as another worker is heard of: for any number of looks, two seconds apart. [C179_only_worker_violated] C179, missing: as the time-out for the silence of all workers (20 seconds) is shorter than the one for a single worker (60), the only worker of a run, or the last one, is not found when it dies: the parent gives up before, and the test the worker was running has no result at all."
  },
  {
   "property": "C180",
   "status": "partial",
   "theorems": [
    "Slash.SkipReg.C180_same_partial",
    "Slash.SkipReg.C180_failure_violated",
    "Slash.SkipReg.C180_failure_escapes",
    "Slash.SkipReg.C180_recorded",
    "Slash.SkipReg.C180_lasts",
    "Slash.SkipReg.C180_goes_on",
    "Slash.SkipReg.C180_end_violated"
   ],
   "note": "Proved in part: [C180_same_partial] C180. From the moment on when a class is registered, exceptions of this class behave as if they were `SkipTest`: if in some tests of the session - in any place, within any nesting of contexts, `try`s and registrations - some exceptions of the class are replaced by ones of another class that is a skip, everything recorded and all hooks called stay the same, and so does what ends the loop over the tests. The exceptions are of classes that do not count as failures (otherwise the claim is violated, see below), and neither `except` clauses of the tests nor the hooks called for exceptions tell the classes apart. What is missing is false of the code, proved with a concrete witness: [C180_failure_violated] C180 is violated for classes that count as failures, like a user's subclass of `AssertionError`: registered or not, its exceptions are recorded as failures, so that the test fails instead of being skipped. [C180_end_violated] C180 is violated when the end of a test is announced: a skip raised there, registered or `SkipTest` itself, is recorded as a skip but ends the run, while after the same exception raised by the body the next test is run."
  },
  {
   "property": "C181",
   "status": "partial",
   "theorems": [
    "Slash.Discover.C181_found",
    "Slash.Discover.C181_once",
    "Slash.Discover.C181_installed_partial",
    "Slash.Discover.C181_stops",
    "Slash.Discover.C181_never_called_violated",
    "Slash.Discover.C181_start_stops",
    "Slash.Discover.C181_file_violated",
    "Slash.Discover.C181_overlap_violated"
   ],
   "note": "Proved in part: [C181_installed_partial] C181. If searching ends without an exception, each plugin that a file installs is installed - unless a plugin of the same name is installed after it, by the same file or by a file found later -, and names that no file installs are as before. This is about calls of `discover`; that nothing calls it is shown below. What is missing is false of the code, proved with a concrete witness: [C181_never_called_violated] C181 is violated: nothing in slash calls `discover`. Unless a customization file does so itself, what is in the search paths has no effect at all: whatever the application does until a session begins, it does the same without them. [C181_file_violated] C181 is violated by search paths that are files: they are not imported. [C181_overlap_violated] C181 is violated by search paths one of which is within the other: files below both are asked twice for their plugins, so that the hooks of an active plugin are registered twice, the first time for an object that is not installed any more."
  },
  {
   "property": "C182",
   "status": "partial",
   "theorems": [
    "Slash.Reuse.C182_again_partial",
    "Slash.Reuse.C182_nested_violated",
    "Slash.Reuse.C182_broken_violated",
    "Slash.Reuse.C182_made_before_violated",
    "Slash.Reuse.C182_made_within_violated",
    "Slash.Reuse.C182_caught",
    "Slash.Reuse.C182_handled",
    "Slash.Reuse.C182_handled_hook",
    "Slash.Reuse.C182_stale_violated"
   ],
   "note": "Proved in part: [C182_again_partial] C182. Using one object again and again is like making a new context each time - with respect to the exceptions that leave, what is recorded, the hooks that are called, what is caught, and what is anticipated afterwards -, as long as no object of `assert_raises` or `allowing_exceptions` is entered while it is entered already, and objects of `handling_exceptions` are used where the same exceptions are anticipated as where they were made. What is missing is false of the code, proved with a concrete witness: [C182_nested_violated] C182 is violated by entering an object of `assert_raises` or `allowing_exceptions` within itself: when the outer `with` statement is left, the types that are ignored in this thread become `None`, whatever was anticipated before. [C182_broken_violated] C182 is violated from then on: in this thread no context can be entered any more, neither of `handling_exceptions` nor of `assert_raises` and `allowing_exceptions` - all of them raise `TypeError` before their blocks are begun -, and nothing that is run ends this. [C182_made_before_violated] C182 is violated by an object of `handling_exceptions` that was made before `assert_raises` or `allowing_exceptions` was entered: exceptions that are anticipated are recorded nevertheless, as errors or whatever they are. With a context that is made on the spot they are not. [C182_made_within_violated] C182 is violated the other way round, too: an object of `handling_exceptions` that was made while exceptions were anticipated lets them pass unrecorded where they are not anticipated any more. [C182_stale_violated] C182 is violated by `allowing_exceptions`: if nothing is raised, the object still gives the exception that was caught when it was used before."
  },
  {
   "property": "C183",
   "status": "partial",
   "theorems": [
    "Slash.Thr.C183_apart_partial",
    "Slash.Thr.C183_ends",
    "Slash.Thr.C183_once_partial",
    "Slash.Thr.C183_recorded",
    "Slash.Thr.C183_serial",
    "Slash.Thr.C183_race_violated",
    "Slash.Thr.C183_hooks_violated",
    "Slash.Thr.C183_early_violated"
   ],
   "note": "Proved in part: [C183_apart_partial] C183. If no exception object belongs to two threads, then whatever the threads do and however their steps interleave, a thread that has come to its end has done exactly what it does alone: the same exception leaves it, the same is recorded, the hooks are called and the exceptions are caught in the same order, its exceptions have the same marks; what other threads anticipate plays no role. [C183_once_partial] C183. If no exception object belongs to two threads, then at every point of every execution each exception has been recorded at most once, and the hook has been called for it at most once, in all threads together. What is missing is false of the code, proved with a concrete witness: [C183_race_violated] C183, violated. When two threads handle the same exception object at the same time, both may find that it is not yet handled and not yet added to a result: it is recorded twice, and the hooks are called twice. [C183_hooks_violated] C183, violated. It may also be recorded once while the hooks are called twice, and the hooks in one thread may be called before the other thread has recorded the exception. [C183_early_violated] C183, violated. Handling may end in one thread although the exception is not recorded yet: the second thread finds the mark and goes on while the first one is still about to record it."
  },
  {
   "property": "C184",
   "status": "partial",
   "theorems": [
    "Slash.WarnPy.C184_no_loop",
    "Slash.WarnPy.C184_recorded_partial",
    "Slash.WarnPy.C184_filters",
    "Slash.WarnPy.C184_block",
    "Slash.WarnPy.C184_once",
    "Slash.WarnPy.C184_replaced_violated",
    "Slash.WarnPy.C184_other",
    "Slash.WarnPy.C184_no_text_violated",
    "Slash.WarnPy.C184_not_string_violated",
    "Slash.WarnPy.C184_import_violated",
    "Slash.WarnPy.C184_hook_violated",
    "Slash.WarnPy.C184_filters_violated",
    "Slash.WarnPy.C184_lost_violated",
    "Slash.WarnPy.C184_record_violated"
   ],
   "note": "Proved in part: [C184_recorded_partial] C184. In a session whose code leaves Python's filters and `showwarning` alone, and if the hook does not raise: warnings never raise; each warning with a text that is no ImportWarning and is not ignored by `slash.ignore_warnings` is recorded once and logged once, in order, whatever Python's filters were before and however often it was given; each record of level warning is recorded as one warning and not logged again; and nothing else happens. In the end `showwarning` is what it was. What is missing is false of the code, proved with a concrete witness: [C184_replaced_violated] C184, violated. Code that replaces `warnings.showwarning` takes all warnings to come from the session: they go to its function and are neither recorded nor logged (but ImportWarnings, which go nowhere). When the session is over, `showwarning` is what it was before the session. [C184_no_text_violated] C184, violated. A warning object without arguments raises IndexError in the code that warns, and is not recorded. [C184_not_string_violated] C184, violated. If a regular expression is given to `slash.ignore_warnings`, a warning whose first argument is no string raises TypeError in the code that warns. [C184_import_violated] C184, violated. An ImportWarning is not recorded, although nothing ignores it. [C184_hook_violated] C184, violated. If the hook `warning_added` raises, so does the code that warns, and the warning is not recorded. [C184_filters_violated] C184, violated. When the session is over, Python's filters are not what they were: where warnings were errors before (`python -W error`), they are not any more; they were not during the session either. [C184_lost_violated] C184, violated. A filter that code of the session adds stays in force for everything that follows: later tests' warnings are lost. [C184_record_violated] C184, violated. A record of level warning is lost as a warning if a filter of Python's makes it an error: `logbook` prints the exception."
  },
  {
   "property": "C185",
   "status": "partial",
   "theorems": [
    "Slash.Plug.C185_found",
    "Slash.Plug.C185_unknown_partial",
    "Slash.Plug.C185_first",
    "Slash.Plug.C185_clash_violated"
   ],
   "note": "Proved in part: [C185_unknown_partial] C185, the part that holds (names differ on the command line, too). Each of these operations is refused with `UnknownPlugin` - and then changes nothing - if and only if no installed plugin is meant. What is missing is false of the code, proved with a concrete witness: [C185_clash_violated] C185, violated. If the name of one plugin is what another one is called on the command line, referring to the first one by its name means the other one; and when the first one is uninstalled, the other one is no longer known by that name."
  },
  {
   "property": "C186",
   "status": "partial",
   "theorems": [
    "Slash.ThrTests.C186_once",
    "Slash.ThrTests.C186_waited_partial",
    "Slash.ThrTests.C186_added",
    "Slash.ThrTests.C186_between",
    "Slash.ThrTests.C186_ends",
    "Slash.ThrTests.C186_later_violated",
    "Slash.ThrTests.C186_begin_violated",
    "Slash.ThrTests.C186_end_violated",
    "Slash.ThrTests.C186_over_violated",
    "Slash.ThrTests.C186_split_violated"
   ],
   "note": "Proved in part: [C186_waited_partial] C186. If a test waits for the threads it starts, everything they report is recorded in the result of this test, and nowhere else: for any number of tests and threads - also if other tests leave threads behind - and for any schedule. When the test is over, all they had to report is recorded. What is missing is false of the code, proved with a concrete witness: [C186_later_violated] C186, violated. What a thread reports that is not waited for is recorded for another test, the one that is running by then. [C186_begin_violated] C186, violated. An exception that is handled just when another test is about to begin is recorded nowhere, and a KeyError is raised in its place. [C186_end_violated] C186, violated. An exception that is handled just when the test ends is recorded nowhere, and an AttributeError is raised in its place. [C186_over_violated] C186, violated. After the end of the session everything is ignored. [C186_split_violated] C186, violated. While the end of a test is over but its context is not left, an exception is recorded for the test, and an error that is added for the session."
  },
  {
   "property": "C187",
   "status": "partial",
   "theorems": [
    "Slash.Whole.C187_later",
    "Slash.Whole.C187_same_partial",
    "Slash.Whole.C187_other_violated",
    "Slash.Whole.C187_empty",
    "Slash.Whole.C187_two_calls_violated",
    "Slash.Whole.C187_fixture_violated",
    "Slash.Whole.C187_cleanup_violated"
   ],
   "note": "Proved in part: [C187_same_partial] C187, partial. Of the tests given to a later call, those of the module of the test that was started last are started. (The session is not to be stopped by errors, nothing is raised out of it, and nothing keeps the test from running.) What is missing is false of the code, proved with a concrete witness: [C187_other_violated] C187 is violated by every test of another module that is given to a later call: it is not started (see `C187_later`), and an error is added to its result. [C187_two_calls_violated] C187 is violated: two tests of two modules, in one call and in two. In one, both are run, and there is no error; in two, the second one is not run and has an error. [C187_fixture_violated] C187 is violated: a fixture of the module that is needed in both calls is torn down at the end of the first one, but never after that: its cleanup is called once and the function twice. In one call, both are called once. [C187_cleanup_violated] C187 is violated: in a later call there is no scope of the module, so that a cleanup for it is refused; in one call it is called."
  },
  {
   "property": "C188",
   "status": "partial",
   "theorems": [
    "Slash.Use.C188_used_partial",
    "Slash.Use.C188_only",
    "Slash.Use.C188_once",
    "Slash.Use.C188_called_partial",
    "Slash.Use.C188_through_argument_violated",
    "Slash.Use.C188_autouse_violated",
    "Slash.Use.C188_nofixtures_violated",
    "Slash.Use.C188_parameter_violated",
    "Slash.Use.C188_cycle_violated",
    "Slash.Use.C188_before_violated"
   ],
   "note": "Proved in part: [C188_used_partial] C188. When a test function is called, all fixtures that it uses - those of its arguments, those that it names with `use_fixtures`, and those that are named with `use_fixtures` on fixtures that it uses - are active, and so are those declared with `autouse`. (The part that holds: `use_fixtures` on fixtures that come in as arguments of fixtures, or through `autouse`, has no effect.) [C188_called_partial] C188. The test function is called indeed - if no function of a fixture raises, all names are known, no fixture comes to use itself through `use_fixtures` or arguments (ranks `u` and `r`), and the fixtures named with `use_fixtures` on fixtures need no parameters that the test has not got anyway. What is missing is false of the code, proved with a concrete witness: [C188_through_argument_violated] C188 is violated by `use_fixtures` on a fixture that comes in as argument of a fixture: the test that takes `a`, which takes `b`, is called without `c`, which `b` uses; the test that takes `b` itself is not. [C188_autouse_violated] C188 is violated by `use_fixtures` on a fixture that is declared with `autouse`: the test is called without `c`. [C188_nofixtures_violated] C188 is violated by `use_fixtures` on a test that is marked with `nofixtures`: the names are ignored, for all tests and all states. [C188_parameter_violated] C188 is violated by fixtures with parameters: if a fixture that the test uses through `use_fixtures` on a fixture needs a parameter which the test has not got otherwise, the test function is not called, whatever the state. [C188_cycle_violated] C188 is violated by fixtures that come to use themselves through `use_fixtures`: unlike with arguments, this is not noticed when the tests are loaded; a test that uses one of them is not called, however deep the recursion may be. [C188_before_violated] C188 is violated by the order: unlike with arguments, the function of a fixture is called before those of the fixtures that are named with `use_fixtures` on it - if the test takes it as its only argument and nothing was active, it is the first one of all, for all fixtures without arguments."
  },
  {
   "property": "C189",
   "status": "partial",
   "theorems": [
    "Slash.Whole.C189_tests",
    "Slash.Whole.C189_open",
    "Slash.Whole.C189_closed",
    "Slash.Whole.C189_results_violated",
    "Slash.Whole.C189_same_session_partial",
    "Slash.Whole.C189_skip_violated",
    "Slash.Whole.C189_begin_violated"
   ],
   "note": "Proved in part: [C189_same_session_partial] C189. A whole session of a worker that gets all tests from the server is the same as the session without workers, also while the session is cleaned up and ends: the same things happen in the same order; the same cleanups are called, passed over and dropped at the same places; the same is done to the fixtures; all results are the same but those of the last test and of the session, and whether the run is successful is the same. The worker raises the same exception, but for a skip that the last test catches. (Unless something keeps a test from beginning, or the closing of a scope is interrupted.) What is missing is false of the code, proved with a concrete witness: [C189_results_violated] C189 is violated for the results: the error of a cleanup of a session-wide fixture is one of the last test if there are no workers, and of no test in a worker. [C189_skip_violated] C189 is violated for exceptions: a skip raised when the session is cleaned up ends a worker with that exception; without workers the last test catches it. [C189_begin_violated] C189 is violated if beginning the last test raises (a cleanup of the module before it skips; `C189_same_session_partial` excludes this): what cleanups of the session add belongs to the test that was not begun if there are no workers - its errors too -, and to the session in a worker."
  },
  {
   "property": "C190",
   "status": "partial",
   "theorems": [
    "Slash.CurScope.C190_in_test",
    "Slash.CurScope.C190_answers_partial",
    "Slash.CurScope.C190_closings",
    "Slash.CurScope.C190_cleanup_violated",
    "Slash.CurScope.C190_lost_violated"
   ],
   "note": "Proved in part: [C190_answers_partial] C190. If closing a module before the next one raises nothing, and closing the last one is not interrupted: hooks for the start and the end of the session get `None`; within a test the answer is `test`; hooks for the outcome and the end of a test, and before the session is cleaned up, get `module`; and cleanups and fixtures being torn down get the scope *around* the one they belong to: those of a test get `module`, those of a module `session`, and those of the session `None`. What is missing is false of the code, proved with a concrete witness: [C190_cleanup_violated] C190 is violated for cleanups: a cleanup of a scope is told that the scope is another one than its own, already in the simplest session. [C190_lost_violated] C190 is violated when closing a module raised a skip: the next test of a known module runs with a scope of the test alone, so its end is told that there is no scope."
  }
 ]
}