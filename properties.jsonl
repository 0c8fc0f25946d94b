{"id": "C01", "title": "Cleanups run last-in-first-out, including cleanups registered by cleanups", "statement": "When a scope ends normally (no interruption, no failure) and the cleanup callbacks raise nothing but ordinary exceptions, the callbacks executed are exactly all callbacks registered on that scope - including those that callbacks register while the scope is being torn down - each executed exactly once, and a callback starts only when everything registered after it (at that moment) has already been executed.", "quantifier": "every finite tree of cleanup registrations (a cleanup may register further cleanups, to any depth), every combination of callbacks that raise or return", "why_tests_cant": "A test fixes a handful of callbacks; the claim is about arbitrary registration trees and every subset of them raising.", "anchors": ["slash/core/cleanup_manager.py: CleanupManager.add_cleanup, CleanupManager.call_cleanups, CleanupManager.pop_scope", "slash/core/cleanup_manager.py: _Cleanup.__call__"]}
{"id": "C02", "title": "A raising cleanup does not stop the others and its error is recorded", "statement": "If a cleanup callback raises an ordinary exception, every other due callback of the scope is still executed, and the error is added to the result that was current when the cleanup was registered. Only a skip or an interruption raised from a cleanup may cut the teardown short.", "quantifier": "every list of callbacks and every choice of outcome (returns / raises ordinary exception / raises skip / raises interruption) for each of them", "why_tests_cant": "The set of outcome combinations is exponential in the number of callbacks; tests check one raising callback.", "anchors": ["slash/core/cleanup_manager.py: CleanupManager.call_cleanups, _Cleanup.__call__", "slash/exception_handling.py: _HandlingException.__exit__"]}
{"id": "C03", "title": "Which cleanups run under failure and interruption", "statement": "Let 'failed' mean the scope's result is not successful (skips allowed) and 'interrupted' mean it is interrupted, both judged when teardown starts. Interrupted: exactly the critical cleanups run. Failed but not interrupted: exactly those not marked success_only run. Otherwise: all of them run. Nothing a cleanup does during teardown changes the choice for a later cleanup.", "quantifier": "every list of cleanups with any flags and every result state at the time teardown starts, every effect of the callbacks on the result", "why_tests_cant": "Needs all combinations of flags, states and mid-teardown state changes.", "anchors": ["slash/core/cleanup_manager.py: CleanupManager.pop_scope, CleanupManager.call_cleanups", "slash/core/result.py: Result.is_success, Result.is_interrupted"]}
{"id": "C04", "title": "No cleanup is lost, duplicated, or run in the wrong scope", "statement": "For any program of open-scope / add-cleanup (default or explicitly named scope) / close-scope operations, every successfully added cleanup is at all times either waiting in exactly one scope that is the scope it was registered on, or has been disposed of exactly once (executed, passed over by the failure/interruption rule, or discarded because the teardown of its scope was cut short by a skip or an interruption), and it was disposed of by the closing of that very scope.", "quantifier": "every finite sequence of operations, including nested scopes with equal names, cleanups added before the first scope opens, and failing add operations", "why_tests_cant": "Requires an invariant over all histories; tests only cover short hand-written ones.", "anchors": ["slash/core/cleanup_manager.py: CleanupManager.add_cleanup, CleanupManager.push_scope, CleanupManager.pop_scope"]}
{"id": "C05", "title": "Session, module and test scopes are strictly nested and paired", "statement": "Running any list of tests (each belonging to a module) through begin-test/end-test and finally flushing opens and closes cleanup scopes as a well-bracketed sequence: exactly one session scope around everything (if there is at least one test), exactly one module scope around each maximal run of consecutive tests of the same module, exactly one test scope per test, and nothing stays open after the flush.", "quantifier": "every list of tests with arbitrary module sequences, and everything teardown code may raise", "why_tests_cant": "The bracket structure must hold for unbounded alternating module sequences.", "anchors": ["slash/core/scope_manager.py: ScopeManager.begin_test, ScopeManager.end_test, ScopeManager.flush_remaining_scopes"]}
{"id": "C06", "title": "Scope teardown runs both teardown mechanisms even if one raises", "statement": "When a scope is closed, both the cleanup teardown and the fixture teardown of that scope are attempted, whatever ordinary exception the first raises, and if any of them raised an ordinary exception, one of the raised exceptions propagates; non-ordinary exceptions (interruptions) propagate immediately.", "quantifier": "every list of callbacks and every assignment of outcomes to them", "why_tests_cant": "All outcome combinations over an unbounded list of callbacks.", "anchors": ["slash/utils/python.py: call_all_raise_first", "slash/core/scope_manager.py: ScopeManager._pop_scope"]}
{"id": "C07", "title": "Every test gets exactly one final status hook, consistent with its result", "statement": "At the end of each test that was started exactly one of the failure / skip / success / error summary hooks fires. The success hook fires iff the result is successful (no error, failure, interruption or skip), the failure hook iff the result has failures and no errors, and an erroneous or interrupted result never fires the success hook.", "quantifier": "every history of result-changing events on a test result", "why_tests_cant": "Result histories are unbounded; only an invariant can cover every order of add_error/add_failure/skip/interrupt/start/finish.", "anchors": ["slash/runner.py: _fire_test_summary_hooks", "slash/core/result.py: Result.is_success, Result.is_just_failure, Result.is_skip, Result.is_error"]}
{"id": "C08", "title": "An exception is added to a result at most once", "statement": "However many nested exception-handling contexts and recording calls a single raised exception passes through, it contributes at most one entry (error, failure, skip or interruption) to the results it reaches, and it is classified as: assertion failure -> failure, skip -> skip, interruption -> interrupted, generator-exit -> nothing, anything else -> error.", "quantifier": "every exception kind and every number/nesting of handling contexts and recording calls", "why_tests_cant": "Nesting depth is unbounded.", "anchors": ["slash/core/result.py: Result.add_exception", "slash/utils/exception_mark.py: mark_exception, get_exception_mark", "slash/exception_handling.py: handling_exceptions"]}
{"id": "C09", "title": "Result predicates are monotone and exclusive", "statement": "Once a result has an error, failure or interruption it is never again reported as successful, whatever is recorded afterwards; a result is never simultaneously 'success' and 'not run'; a finished result with nothing recorded is a success.", "quantifier": "every sequence of result events", "why_tests_cant": "Claims about all future histories.", "anchors": ["slash/core/result.py: Result.is_success, Result.is_success_finished, Result.is_not_run, Result.is_run_and_started"]}
{"id": "C10", "title": "Session statistics account for every test", "statement": "The counts of successful, erroneous, failed, skipped and not-run results reported for a session agree with the individual results; the session is reported successful exactly if every test result is successful (skips allowed) and the global result is successful.", "quantifier": "every set of test results in every state plus every global result", "why_tests_cant": "Aggregation over unboundedly many results in arbitrary states.", "anchors": ["slash/core/result.py: SessionResults.is_success, SessionResults.get_num_errors, SessionResults.get_num_failures, SessionResults.get_num_skipped, SessionResults.get_num_successful, SessionResults.get_num_not_run, GlobalResult.is_success"]}
{"id": "C11", "title": "Result lookup and creation is a bijection with tests", "statement": "Creating a result for a test makes exactly that result retrievable under that test, never replaces another test's result, refuses to create a second one for the same test, and iteration yields results in creation order.", "quantifier": "every sequence of result creations and lookups", "why_tests_cant": "Needs induction over the history.", "anchors": ["slash/core/result.py: SessionResults.create_result, SessionResults.get_result, SessionResults.safe_get_result, SessionResults.iter_test_results"]}
{"id": "C12", "title": "The sequential runner accounts for every test", "statement": "After a sequential run of any list of tests, each test either was executed exactly once, in list order, or has a result marked not-run, and the executed ones form a prefix of the list; the prefix ends early only after a test with stop-on-error set and an unsuccessful (non-skip) result, after a fatal exception, or by an interruption propagating. The session is marked complete iff the prefix is the whole list.", "quantifier": "every list of tests and every assignment of outcomes (success, failure, skip, fatal, interruption) to them", "why_tests_cant": "Unbounded list and outcome combinations.", "anchors": ["slash/runner.py: run_tests, _run_single_test, _mark_unrun_tests"]}
{"id": "C13", "title": "Test start and end notifications are paired", "statement": "For each executed test the test-start notification is fired at most once and before the body, and the test-end notification is fired exactly once iff test-start was fired, whatever the body, requirements, or the scope setup raise.", "quantifier": "every outcome of requirement check, scope begin, body, scope end, hooks", "why_tests_cant": "Every crash point of the start/body/end sequence must be covered.", "anchors": ["slash/runner.py: TestStartEndController, _run_single_test, _fire_test_summary_hooks"]}
{"id": "C14", "title": "File start/end reports are paired", "statement": "The reporter sees, for every maximal run of consecutive tests of one file, exactly one file-start before and exactly one file-end after those tests.", "quantifier": "every list of tests with arbitrary file sequences and every early-stop point", "why_tests_cant": "Every combination of file boundaries and early stops.", "anchors": ["slash/runner.py: run_tests", "slash/utils/iteration.py: PeekableIterator"]}
{"id": "C15", "title": "Peekable iteration is transparent", "statement": "Wrapping an iterator for peeking yields exactly the original sequence whatever interleaving of peek / has_next / next calls is used; a peek returns what the following next returns. An exception that the iterator raises comes out exactly once, of the first call that needs the element, and afterwards the sequence goes on as if only next had been called.", "quantifier": "every underlying sequence, finite or not, with exceptions anywhere in it, and every interleaving of calls", "why_tests_cant": "Unbounded interleavings.", "anchors": ["slash/utils/iteration.py: PeekableIterator"]}
{"id": "C16", "title": "Within one test every needed fixture is computed exactly once and shared", "statement": "While a test is being set up, each fixture in the transitive closure of its dependencies is called at most once, after all the fixtures it depends on, and every requester receives the same value.", "quantifier": "every acyclic fixture dependency graph and every list of requested fixtures", "why_tests_cant": "Arbitrary graphs.", "anchors": ["slash/core/fixtures/fixture_store.py: FixtureStore.get_fixture_dict, FixtureStore._compute_fixture_value, FixtureStore._call_fixture"]}
{"id": "C17", "title": "Fixtures are torn down in reverse activation order of their scope", "statement": "When a scope ends, every active fixture of that scope (and of narrower scopes) has its cleanups called exactly once, fixtures activated later first, and it is no longer active afterwards; fixtures of wider scopes stay active. In particular a fixture is torn down before the same-scope fixtures it depends on.", "quantifier": "every sequence of fixture activations in arbitrary scopes followed by a scope end", "why_tests_cant": "Unbounded activation histories.", "anchors": ["slash/core/fixtures/fixture_store.py: FixtureStore.pop_scope, FixtureStore.push_scope, FixtureStore._deactivate_fixture", "slash/core/fixtures/active_fixture.py: ActiveFixture.do_cleanups"]}
{"id": "C18", "title": "Cyclic fixture dependencies are reported instead of looping", "statement": "Resolving the fixtures needed by a test terminates for every dependency graph; it reports a cyclic-dependency error iff a cycle is reachable from the requested fixtures, and otherwise yields exactly the transitive closure.", "quantifier": "every finite dependency graph, cyclic or not", "why_tests_cant": "All graphs; termination can only be proved.", "anchors": ["slash/core/fixtures/fixture_store.py: FixtureStore._compute_all_needed_parametrization_ids, FixtureStore.get_all_needed_fixture_ids", "slash/core/fixtures/fixture.py: Fixture._resolve"]}
{"id": "C19", "title": "A fixture can never outlive a fixture it depends on", "statement": "After fixtures are resolved successfully every dependency edge goes from a fixture to one whose scope is at least as wide; a definition that violates this is rejected.", "quantifier": "every set of fixture definitions with arbitrary scopes and dependencies", "why_tests_cant": "All graphs with all scope assignments.", "anchors": ["slash/core/fixtures/fixture.py: Fixture._resolve", "slash/core/fixtures/utils.py: get_scope_by_name"]}
{"id": "C20", "title": "Fixture names resolve to the closest definition", "statement": "A fixture name looked up from a test resolves to the definition in the innermost enclosing namespace (test file, then slashconf of closest directory, ... then global) that defines it, and is unknown iff no enclosing namespace defines it; definitions in sibling namespaces are never visible.", "quantifier": "every chain of namespaces and every sequence of definitions", "why_tests_cant": "Unbounded nesting.", "anchors": ["slash/core/fixtures/namespace.py: Namespace.get_fixture_by_name", "slash/core/fixtures/fixture_store.py: FixtureStore.new_namespace_context", "slash/core/local_config.py: LocalConfig.get_dict"]}
{"id": "C21", "title": "Parametrization expands to exactly the cartesian product", "statement": "The variations generated for a test are exactly all combinations of one value for each parameter needed by the test or, transitively, by its fixtures: no combination is missing, none appears twice, and a test needing no parameters is generated exactly once.", "quantifier": "every finite list of parameters with any number of values each", "why_tests_cant": "Unbounded products.", "anchors": ["slash/core/variation_factory.py: VariationFactory.iter_variations", "slash/utils/iteration.py: iter_cartesian_dicts", "slash/core/fixtures/fixture_store.py: FixtureStore.iter_parametrization_variations"]}
{"id": "C22", "title": "Wide-scope parameters vary slowest", "statement": "In the sequence of variations generated for a test, the tests sharing the same values of all session-scoped (then module-scoped) fixture parameters are contiguous, so that a wider-scoped parametrized fixture is never torn down and re-created because a narrower one changed.", "quantifier": "every list of needed parameters with any scopes and sizes", "why_tests_cant": "Ordering property over unbounded products.", "anchors": ["slash/core/variation_factory.py: VariationFactory.iter_variations", "slash/core/fixtures/fixture_store.py: FixtureStore.get_all_needed_fixture_ids"]}
{"id": "C23", "title": "Cached fixture values are reused only if the variation agrees", "statement": "A still-active fixture's value is reused for a test exactly if all the parametrization values it was computed with are the same in the current variation; otherwise it is torn down first and computed anew.", "quantifier": "every pair of variations and every set of parameters the fixture depends on", "why_tests_cant": "All pairs of variations.", "anchors": ["slash/core/fixtures/fixture_store.py: FixtureStore._compute_fixture_value, FixtureStore._is_active_fixture_valid"]}
{"id": "C24", "title": "Filter expressions mean what their boolean structure says", "statement": "A -k expression built from words, tag:words, not, and, or and parentheses selects a test iff its boolean reading (not binds tighter than and, and tighter than or) is true, with a plain word true iff it is a substring of the test's address or matches a tag, and a tag:word true iff a tag matches.", "quantifier": "every expression of any depth and every test", "why_tests_cant": "All expression trees.", "anchors": ["slash/utils/pattern_matching.py: Matcher, _get_expr, Include, And, Or, Exclude", "slash/core/tagging.py: Tags.matches_pattern"]}
{"id": "C25", "title": "Multiple filters compose as conjunction", "statement": "With several -k filters a test is loaded iff it satisfies every one of them; with none every test is loaded; the filters of suite-file lines are conjoined with those as well.", "quantifier": "every list of filters and every test", "why_tests_cant": "Unbounded list of filters.", "anchors": ["slash/loader.py: Loader._is_excluded, Loader._generate_test_sources", "slash/utils/suite_files.py: iter_suite_file_paths"]}
{"id": "C26", "title": "Tag merging never silently overwrites a value", "statement": "Combining the tags of a test with those of its fixtures/parameters keeps every tag of every source with its value, and raises a conflict if two sources give one tag different values - independently of the order in which the sources are combined. The tags of all fixtures that are set up for a test are tags of the test.", "quantifier": "every list of tag sets, in every order", "why_tests_cant": "All orders of merging.", "anchors": ["slash/core/tagging.py: Tags.__add__, Tags.update, _tag"]}
{"id": "C27", "title": "Exclusions exclude exactly the listed value combinations", "statement": "A test is excluded (skipped) iff for at least one exclude declaration on it or on a fixture it uses, the current values of all named parameters equal one of the listed combinations.", "quantifier": "every list of declarations and every variation", "why_tests_cant": "All declaration lists.", "anchors": ["slash/core/exclusions.py: exclude, is_excluded"]}
{"id": "C28", "title": "Unmet requirements prevent the test from running", "statement": "A test runs only if every requirement declared on it and on all fixtures it uses (transitively) is met; otherwise it is reported as skipped with the unmet requirements and neither fixtures nor body run.", "quantifier": "every list of requirements with arbitrary verdicts", "why_tests_cant": "All verdict combinations.", "anchors": ["slash/runner.py: _process_requirements_and_exclusions", "slash/core/requirements.py: Requirement, Skip", "slash/core/runnable_test.py: RunnableTest.get_unmet_requirements"]}
{"id": "C29", "title": "No test is ever given to two workers", "statement": "In a parallel run the server hands out every test to at most one worker, for every interleaving of worker requests (connect, validate, get test, finish, interrupt, disconnect, crash).", "quantifier": "every finite sequence of worker requests from any number of workers", "why_tests_cant": "Interleavings are unbounded; races are not reproducible.", "anchors": ["slash/parallel/server.py: Server.get_test, Server.finished_test, Server.report_client_failure, Server.disconnect", "slash/parallel/tests_distributer.py: TestsDistributer.get_next_test_for_client"]}
{"id": "C30", "title": "The parallel server loses no test", "statement": "At every point of a parallel run every collected test is accounted for exactly once as waiting, being executed by one worker, or finished (executed, interrupted by a crash, or marked not run).", "quantifier": "every finite sequence of worker requests, including worker crashes at any point", "why_tests_cant": "Crash points and interleavings are unbounded.", "anchors": ["slash/parallel/server.py: Server", "slash/parallel/tests_distributer.py: TestsDistributer"]}
{"id": "C31", "title": "Forced and excluded tests go where they were told to", "statement": "A test forced onto a worker is never handed to any other worker, and a test excluded from a worker is never handed to that worker.", "quantifier": "every assignment of forced and excluded tests and every sequence of requests", "why_tests_cant": "All assignments and interleavings.", "anchors": ["slash/parallel/tests_distributer.py: TestsDistributer", "slash/parallel/worker_configuration.py: WorkerConfiguration.force_test, WorkerConfiguration.exclude_test"]}
{"id": "C32", "title": "Tests are served only after all workers agreed on the collection", "statement": "No test is handed out before every worker connected and validated its collection against the same list; a worker with a different collection never gets a test.", "quantifier": "every sequence of connect/validate/request operations of any number of workers", "why_tests_cant": "Interleavings.", "anchors": ["slash/parallel/server.py: Server.connect, Server.validate_collection, Server.get_test"]}
{"id": "C33", "title": "The parallel run ends with everything reported", "statement": "When all workers have been told there are no more tests and disconnected without failures, every collected test was finished; whenever the server reports no more tests after an interruption, all unfinished tests have not-run results.", "quantifier": "every sequence of worker requests", "why_tests_cant": "Liveness/accounting over all interleavings.", "anchors": ["slash/parallel/server.py: Server.get_test, Server._mark_unrun_tests, Server.should_wait_for_request", "slash/parallel/tests_distributer.py: TestsDistributer.has_unstarted_tests"]}
{"id": "C34", "title": "Resuming reruns exactly the unsuccessful tests", "statement": "For any session, the tests offered by 'slash resume' without flags are exactly those collected tests that did not finish successfully, and 'slash rerun' offers all of them; each flag combination selects exactly the documented statuses or is rejected as contradictory.", "quantifier": "every session outcome (any collected list, any results) and all flag combinations", "why_tests_cant": "All outcomes x flags.", "anchors": ["slash/resuming.py: save_resume_state, _filter_tests, get_tests_from_previous_session"]}
{"id": "C35", "title": "Resume ordering flags only reorder", "statement": "--failed-first / --unstarted-first put exactly the matching tests first, keep the relative order within both groups, and drop or duplicate nothing.", "quantifier": "every list of tests", "why_tests_cant": "All lists.", "anchors": ["slash/resuming.py: _sort_tests"]}
{"id": "C36", "title": "Resume state of a session survives and expires correctly", "statement": "Reading back the state saved for a session gives exactly what was saved for that session whatever other sessions were saved before or after; clean-up removes exactly the sessions older than the retention period together with their tests; the 'last' session of a folder is the most recently created one.", "quantifier": "every history of saves, cleanups and queries", "why_tests_cant": "Database histories are unbounded.", "anchors": ["slash/resuming.py: save_resume_state, clean_old_entries, get_last_resumeable_session_id, get_tests_locally"]}
{"id": "C37", "title": "Repetition multiplies tests exactly", "statement": "With repeat-each = k, repeat-all = n and per-test repeat marks r(t), every loaded test occurs exactly n*k*r(t) times, all occurrences are distinct tests with distinct ids, and the whole collection of repetition i runs before any test of repetition i+1.", "quantifier": "every list of tests, all repeat counts", "why_tests_cant": "All lists and counts.", "anchors": ["slash/loader.py: Loader._generate_repeats, Loader.get_runnables"]}
{"id": "C38", "title": "Loading order is deterministic and stable", "statement": "The order of loaded tests is a function of the sources only: reordering requested by a hook via sort keys is applied stably within each repetition, and no test is dropped or duplicated by sorting.", "quantifier": "every list of tests and assignment of sort keys", "why_tests_cant": "All lists.", "anchors": ["slash/loader.py: Loader.get_runnables", "slash/core/metadata.py: Metadata.get_sort_key"]}
{"id": "C39", "title": "A test address selects what it names", "statement": "An address 'file:spec' loads exactly the tests of the file whose full in-file address, address without variation, or factory name is spec; if there are none the load fails instead of silently running nothing. Every loaded test can be addressed by its own address.", "quantifier": "every list of tests in a file and every address", "why_tests_cant": "All addresses.", "anchors": ["slash/loader.py: Loader._iter_test_address, Loader._address_in_file_matches", "slash/core/metadata.py: Metadata.address_in_file"]}
{"id": "C40", "title": "Exception handlers fire exactly once per exception", "statement": "However deeply handling_exceptions contexts are nested, the exception-caught hooks fire exactly once for an exception, unless it is anticipated by assert_raises/allowing_exceptions, in which case they never fire.", "quantifier": "every nesting of handling contexts and anticipation contexts", "why_tests_cant": "Nesting depth is unbounded.", "anchors": ["slash/exception_handling.py: handling_exceptions, _HandlingException.__exit__, handle_exception", "slash/assertions.py: _CaughtContext"]}
{"id": "C41", "title": "Skips and interruptions are never swallowed", "statement": "A handling context with swallow enabled stops an ordinary exception iff it matches the swallow types, and never stops a skip or an interruption; without swallow it stops nothing; an exception marked by noswallow or disable_exception_swallowing, or leaving a function decorated with the latter, passes any number of swallowing contexts, and decorating changes nothing else.", "quantifier": "every exception and every nesting of contexts with every swallow setting", "why_tests_cant": "Nesting depth.", "anchors": ["slash/exception_handling.py: _HandlingException.__exit__, get_exception_swallowing_context, noswallow"]}
{"id": "C42", "title": "assert_raises accepts exactly the expected exceptions", "statement": "assert_raises(T) succeeds iff the body raised an instance of T, exposes that exception, lets any other exception propagate unchanged, and fails when nothing is raised; allowing_exceptions differs only in that raising nothing is fine. Anticipation is removed on exit.", "quantifier": "every exception type hierarchy and every body outcome, with arbitrary nesting", "why_tests_cant": "All hierarchies.", "anchors": ["slash/assertions.py: assert_raises, allowing_exceptions, _CaughtContext", "slash/exception_handling.py: thread_ignore_exception_context"]}
{"id": "C43", "title": "Plugin activity invariants", "statement": "Under every sequence of install / uninstall / activate / deactivate operations the active plugins are a subset of the installed ones, each active plugin's hook callbacks are registered exactly once and an inactive plugin has none registered.", "quantifier": "every finite sequence of plugin-manager operations", "why_tests_cant": "All histories.", "anchors": ["slash/plugins/plugin_manager.py: PluginManager.install, PluginManager.uninstall, PluginManager.activate, PluginManager.deactivate"]}
{"id": "C44", "title": "--without wins over --with", "statement": "After processing pending activations a plugin is active iff it was already active or was requested, and was not requested to be deactivated; the predicted set of future active plugins equals the actual one.", "quantifier": "every initial state and every sequence of activate-later / deactivate-later requests", "why_tests_cant": "All request sequences.", "anchors": ["slash/plugins/plugin_manager.py: PluginManager.activate_later, PluginManager.deactivate_later, PluginManager.activate_pending_plugins, PluginManager.get_future_active_plugins"]}
{"id": "C45", "title": "Configuration overrides are undone", "statement": "After the context that applies command-line overrides is left - normally or by exception, even one raised half-way through applying - every configuration value equals what it was before, except for values without an override that the code inside the context itself changed.", "quantifier": "every list of overrides (including repeated ones for one path) and every crash point while applying", "why_tests_cant": "Every crash point.", "anchors": ["slash/utils/cli_utils.py: get_modified_configuration_from_args_context"]}
{"id": "C46", "title": "The global context is a proper stack", "statement": "context attribute lookups always see the innermost pushed context; an assignment affects only the innermost context; any balanced sequence between a push and its pop leaves the previous contexts as they were; popping or assigning to the bottom (empty) context is refused without changing anything.", "quantifier": "every sequence of push/pop operations", "why_tests_cant": "All sequences.", "anchors": ["slash/ctx.py: _ContextStack.push, _ContextStack.pop, _ContextStack.__getattr__, ContextAttributeProxy"]}
{"id": "C47", "title": "Exit code is zero exactly for successful sessions", "statement": "'slash run' returns 0 iff tests ran and the session is successful and nothing raised; an empty selection, an interruption, an unhandled exception or any unsuccessful result gives a nonzero code.", "quantifier": "every outcome of loading and running", "why_tests_cant": "All outcomes.", "anchors": ["slash/frontend/slash_run.py: slash_run, _collect_tests", "slash/app.py: Application.__enter__, Application.__exit__", "slash/frontend/main.py: main_entry_point"]}
{"id": "C48", "title": "Ignored warnings are exactly the matching ones", "statement": "A warning is recorded iff no installed filter matches; a filter matches iff all the criteria it specifies match. A filter installed by the ignored_warnings context is in force inside the context and gone once the context is left normally.", "quantifier": "every list of filters and every warning", "why_tests_cant": "All lists.", "anchors": ["slash/warnings.py: _IgnoredWarning.matches, SessionWarnings.warning_should_be_filtered, ignore_warnings, ignored_warnings"]}
{"id": "C49", "title": "Allocated ids are unique", "statement": "Ids allocated from one id space are pairwise distinct, share the space's base, and are allocated in increasing order.", "quantifier": "every number of allocations", "why_tests_cant": "Unbounded.", "anchors": ["slash/utils/id_space.py: IDSpace"]}
{"id": "C50", "title": "Suite files expand to what they list", "statement": "A suite file yields, in order, for each non-blank non-comment line, its path repeated as many times as its repeat directive says, each with the filter given; nested suite files are expanded in place with the filters of the including line conjoined.", "quantifier": "every suite file content", "why_tests_cant": "All contents.", "anchors": ["slash/utils/suite_files.py: iter_suite_file_paths, _parse_path_filter_and_repeat, _and_matchers"]}
{"id": "C51", "title": "An erroneous test is never announced as merely skipped", "statement": "If a test recorded an error (or an interruption), the summary hook fired for it is the error (or failure) hook, not the skip hook, also if the test was skipped at some point.", "quantifier": "every history of result-changing events on a test result", "why_tests_cant": "Order and combination of events is unbounded.", "anchors": ["slash/runner.py: _fire_test_summary_hooks"]}
{"id": "C52", "title": "Temporarily ignored warnings are restored also when the block raises", "statement": "A filter installed by the ignored_warnings context is gone once the context is left by an exception.", "quantifier": "every block outcome and every previously installed list of filters", "why_tests_cant": "Every crash point inside the block.", "anchors": ["slash/warnings.py: ignored_warnings"]}
{"id": "C53", "title": "A repeat directive also applies to lines naming another suite file", "statement": "A suite-file line with 'repeat: n' naming another suite file yields the expansion of that file n times.", "quantifier": "every suite file content", "why_tests_cant": "All contents.", "anchors": ["slash/utils/suite_files.py: iter_suite_file_paths"]}
{"id": "C54", "title": "Marking an exception class does not affect unrelated classes", "statement": "A mark (such as 'do not show a traceback for this exception') set on an exception class is seen on that class, its subclasses and their instances only; a mark set on one exception object is seen on that object only.", "quantifier": "every class hierarchy and every sequence of marking operations on classes and objects", "why_tests_cant": "Needs all hierarchies and all orders of marking.", "anchors": ["slash/utils/exception_mark.py: mark_exception, get_exception_mark, _ensure_exception_marks", "slash/exception_handling.py: inhibit_unhandled_exception_traceback"]}
{"id": "C55", "title": "Critical cleanups always take place", "statement": "A cleanup registered as critical is executed when its scope ends, also if the test is interrupted by the user at any time.", "quantifier": "every history, every interruption point", "why_tests_cant": "Every interruption point.", "anchors": ["slash/core/cleanup_manager.py: CleanupManager.call_cleanups, CleanupManager.add_cleanup"]}
{"id": "C56", "title": "Naming a scope that is not open is reported as an incorrect scope", "statement": "Adding a cleanup to a scope name that no open scope has raises IncorrectScope and registers nothing.", "quantifier": "every history of scope openings and closings", "why_tests_cant": "Needs all histories.", "anchors": ["slash/core/cleanup_manager.py: CleanupManager.add_cleanup"]}
{"id": "C57", "title": "An interrupted session is reported as interrupted", "statement": "If the run was interrupted - whether inside a test or outside of any test - the session's results say so, and the session is not successful.", "quantifier": "every history of events on the session's results", "why_tests_cant": "Every interruption point.", "anchors": ["slash/core/result.py: SessionResults.is_interrupted, SessionResults.is_success"]}
{"id": "C58", "title": "A failed session activation leaves no trace", "statement": "After entering and leaving a session - also when entering it failed part way, or leaving it crashed - the global context is the one from before; a session can not be activated twice.", "quantifier": "every outcome of every step of activation and deactivation", "why_tests_cant": "Every crash point.", "anchors": ["slash/core/session.py: Session.activate, Session.deactivate, Session.__enter__, Session.__exit__"]}
{"id": "C59", "title": "Every started session is ended exactly once", "statement": "In a started-session context the session_end hook is fired exactly once if and only if the start hook completed, whatever happens inside (including interruptions and failures of session-level teardown), and the session-global cleanup scope is always closed; the session_interrupt hook is fired iff the body was interrupted.", "quantifier": "every outcome of every step", "why_tests_cant": "Every crash point.", "anchors": ["slash/core/session.py: Session.get_started_context"]}
{"id": "C60", "title": "No scope stays open after a run", "statement": "However a run ends (normally, stopping on an error, or by an exception raised at any point by any user code), afterwards no session, module or test scope is open: each open scope is closed innermost first and both its cleanups and its fixtures are torn down, whatever ordinary exceptions teardown code raises. (Interrupting the final teardown itself is the only exception, and then outer scopes do stay open.)", "quantifier": "every list of tests, every behaviour of requirements, hooks, bodies and teardown code, every state of the scope stack", "why_tests_cant": "Every crash point of an unbounded run would have to be sampled.", "anchors": ["slash/core/scope_manager.py: ScopeManager.flush_remaining_scopes", "slash/core/session.py: Session.initiate_cleanup", "slash/runner.py: run_tests"]}
{"id": "C61", "title": "An interruption ends the run", "statement": "If the user interrupts a test (KeyboardInterrupt or another non-ordinary exception in its body), no further test is begun and the run raises to its caller.", "quantifier": "every list of tests, every position and every behaviour of the other hooks and tests", "why_tests_cant": "Every position of the interruption and every combination with other failures.", "anchors": ["slash/runner.py: run_tests, _run_single_test, TestStartEndController", "slash/exception_handling.py: handling_exceptions"]}
{"id": "C62", "title": "The current result is restored after a run", "statement": "After running tests, however the run ends, the current result and the current test are again those that were current before.", "quantifier": "every list of tests and every crash point", "why_tests_cant": "All crash points.", "anchors": ["slash/runner.py: _get_test_context, _set_current_result, TestStartEndController.end"]}
{"id": "C63", "title": "A result tells what really happened", "statement": "If a test's result is successful, the test really ran: its requirements were met, its start hook and body were executed and raised nothing, its teardown raised nothing and its end hook raised no error. Conversely an exception raised by the body shows up in the test's result as what it is (error, failure, skip, interruption).", "quantifier": "every list of tests, every behaviour of all user code, every way the run ends", "why_tests_cant": "Success must be sound for every combination of failures along the run.", "anchors": ["slash/runner.py: _run_single_test", "slash/exception_handling.py: handling_exceptions", "slash/core/result.py: Result.is_success, Result.add_exception"]}
{"id": "C64", "title": "Nothing is handed out after the parallel run was stopped", "statement": "Once a parallel run was interrupted or stopped, no further test is handed to any worker, whatever requests the workers send afterwards.", "quantifier": "every history of requests before and after the stop", "why_tests_cant": "Requests of several workers can be in flight in any order when the run is stopped.", "anchors": ["slash/parallel/server.py: Server.session_interrupted, Server.get_test, Server.connect, Server.report_client_failure"]}
{"id": "C65", "title": "Tagging a class does not tag other classes", "statement": "Tagging a test class affects that class and the classes derived from it, but not its base classes or unrelated classes, whatever tags those carry already.", "quantifier": "every class hierarchy, every sequence of tagging operations", "why_tests_cant": "All orders of tagging base and derived classes would have to be tried.", "anchors": ["slash/core/tagging.py: tag_test, get_tags"]}
{"id": "C66", "title": "Requirements are local and inherited", "statement": "Declaring a requirement on a class or function affects only it and the classes deriving from it; a class has the requirements declared on itself and on its base classes. Asking for the requirements of something changes the requirements of nothing.", "quantifier": "every class hierarchy and every sequence of declarations", "why_tests_cant": "All orders of declarations over all hierarchies.", "anchors": ["slash/core/requirements.py: requires, get_requirements"]}
{"id": "C67", "title": "A function gets exactly the arguments it names", "statement": "A test function is given a value for each of its arguments, which is the value of the fixture the argument names (or stands for), and nothing else, whatever further fixtures those fixtures use.", "quantifier": "every set of fixtures and every list of arguments", "why_tests_cant": "The interplay of the names of arguments and of fixtures that are only used indirectly is unbounded.", "anchors": ["slash/core/fixtures/fixture_store.py: call_with_fixtures, get_fixture_dict, _get_fixtures_set, get_required_fixture_names"]}
{"id": "C68", "title": "use_fixtures only affects the function it decorates", "statement": "Declaring with use_fixtures that a function uses fixtures adds them to those of the function, and leaves other functions as they were.", "quantifier": "every sequence of declarations", "why_tests_cant": "Aliasing shows only for particular sequences.", "anchors": ["slash/core/fixtures/utils.py: use_fixtures"]}
{"id": "C69", "title": "Different tests have different addresses", "statement": "Two different variations of a test have different addresses, so that what is reported, saved or filtered by address is unambiguous; tests of one file have the same address only if they are the same function or method with variations that are written the same way.", "quantifier": "every set of parameters, labels and values", "why_tests_cant": "Values and labels are arbitrary, and a clash needs particular pairs of them.", "anchors": ["slash/core/metadata.py: Metadata.get_address", "slash/core/variation.py: Variation._get_safe_repr, Variation._format_parameter_value_safe", "slash/core/fixtures/parameters.py: _normalize_values"]}
{"id": "C70", "title": "A parameter can not be declared twice", "statement": "Parametrizing an argument of a function twice is refused; otherwise each argument takes the values declared for it.", "quantifier": "every sequence of declarations", "why_tests_cant": "Orders and groupings of declarations are unbounded.", "anchors": ["slash/core/fixtures/parameters.py: parametrize, ParameterizationInfo.add_options"]}
{"id": "C71", "title": "The function name of a test", "statement": "For each loaded test the function name is the name of the function, or of the method of the class, it was loaded from.", "quantifier": "every test of every module", "why_tests_cant": "Names under which classes are known in a module are arbitrary.", "anchors": ["slash/core/metadata.py: Metadata.function_name"]}
{"id": "C72", "title": "Resuming loads the saved tests", "statement": "Resuming a session whose files have not changed loads exactly the tests that were saved and selected, in the order of the saved entries, each exactly once.", "quantifier": "every content of the files, every saved session", "why_tests_cant": "All sets of variations and addresses.", "anchors": ["slash/loader.py: Loader._iter_test_resume", "slash/resuming.py: get_tests_from_previous_session, save_resume_state"]}
{"id": "C73", "title": "Which files are found, and in which order", "statement": "Loading a directory considers each file in it and in its subdirectories whose names do not begin with a dot, exactly once; files come in the order of their names, before those of the subdirectories, and the order in which the system lists directories has no influence.", "quantifier": "every directory tree, every order in which directories are listed", "why_tests_cant": "Trees are unbounded and the listing order depends on the system.", "anchors": ["slash/loader.py: _walk"]}
{"id": "C74", "title": "Loading a path loads all of it or fails", "statement": "Loading a path fails if nothing is there or if one of the Python files found there can not be imported, and then gives no tests; otherwise it gives the tests of all Python files.", "quantifier": "every directory tree, every outcome of imports", "why_tests_cant": "Trees are unbounded, each file may fail.", "anchors": ["slash/loader.py: Loader._iter_paths, Loader._is_file_wanted"]}
{"id": "C75", "title": "Which tests a module has", "statement": "The tests of a module are its functions whose names begin with test_ and the methods beginning with test of its test classes which are not abstract, ordered by name whatever the order of definitions.", "quantifier": "every module", "why_tests_cant": "Modules are unbounded.", "anchors": ["slash/loader.py: Loader._iter_runnable_tests_in_module, Loader._get_runnable_test_factory", "slash/core/test.py: TestTestFactory._generate_tests"]}
{"id": "C76", "title": "Activating a plugin registers the methods meant for hooks, all of them or none", "statement": "Activating a plugin registers exactly its public methods which are named after hooks or declared to be registered on one, except those declared as not being hooks; activation is refused exactly if a method names a hook that does not exist, and then none of its methods is registered.", "quantifier": "every plugin, every set of defined hooks", "why_tests_cant": "Plugins have any number of methods with arbitrary declarations.", "anchors": ["slash/plugins/plugin_manager.py: PluginManager._get_plugin_registrations, PluginManager.activate"]}
{"id": "C77", "title": "The context that restores plugin state", "statement": "After the context that restores plugin state, whatever plugins were installed, uninstalled, activated or deactivated in it, the installed and the active plugins are those of before.", "quantifier": "every plugin state, every sequence of operations inside of the context", "why_tests_cant": "Sequences of operations are unbounded.", "anchors": ["slash/plugins/plugin_manager.py: PluginManager.restoring_state_context"]}
{"id": "C78", "title": "A directory of suite files stands for the suite files in it", "statement": "Giving a directory instead of a suite file uses every suite file in it and its subdirectories exactly once.", "quantifier": "every tree of directories, every order in which they are listed", "why_tests_cant": "Trees are unbounded.", "anchors": ["slash/utils/suite_files.py: _extract_suite_files"]}
{"id": "C79", "title": "Every test of a parallel run is accounted for, whatever the workers do", "statement": "In a parallel run, whatever the interleaving of the workers, and wherever workers die, each test is at any time waiting, executed by exactly one worker, or finished, and exactly the finished ones have a result, one each.", "quantifier": "every plan (tests, workers, collections, configuration), every sequence of actions of workers following their program, dying anywhere, of the manager and of the user's code", "why_tests_cant": "Interleavings and points of crashes are unbounded; races do not show in tests.", "anchors": ["slash/parallel/worker.py: Worker.start_execution", "slash/parallel/server.py: Server", "slash/parallel/parallel_manager.py: ParallelManager"]}
{"id": "C80", "title": "Parallel workers run the tests they are asked to run, once", "statement": "For a test of the parent a worker runs one of its tests with the same file, name and variation; it runs none of its tests twice; no test of the parent is run twice, by one worker or by two; and nothing is run unless all workers collected the tests of the parent.", "quantifier": "every plan, every execution, every order in which a worker has its tests", "why_tests_cant": "Collections, orders and interleavings are unbounded.", "anchors": ["slash/parallel/worker.py: Worker.start_execution", "slash/parallel/server.py: Server.validate_collection, Server.get_test"]}
{"id": "C81", "title": "Workers do not fail by themselves", "statement": "As long as the user's hooks in the parent return normally, no worker fails because of the communication: it always finds the test it is asked to run and is never told of a protocol error.", "quantifier": "every plan, every reachable state, every worker", "why_tests_cant": "A failing combination may need any number of tests and workers.", "anchors": ["slash/parallel/worker.py: Worker.start_execution", "slash/parallel/server.py: Server"]}
{"id": "C82", "title": "The results of a parallel run are those of the workers", "statement": "The results of tests that were run are exactly those sent by the workers, each by the worker that ran the test, at most one for each test.", "quantifier": "every plan, every execution", "why_tests_cant": "Interleavings are unbounded.", "anchors": ["slash/parallel/server.py: Server.finished_test", "slash/parallel/worker.py: Worker.start_execution"]}
{"id": "C83", "title": "At the end of a parallel run each test has a result", "statement": "When all workers have left, or died and were found dead, each test has exactly one result and the parent stops waiting; if no worker died and no test ended the run early, each test was run by exactly one worker.", "quantifier": "every plan, every execution at whose end every worker left or was found dead", "why_tests_cant": "Interleavings and crashes are unbounded.", "anchors": ["slash/parallel/server.py: Server", "slash/parallel/parallel_manager.py: ParallelManager.start"]}
{"id": "C84", "title": "Parallel runs end", "statement": "Whatever the schedule, the number of requests not answered by 'wait' is bounded by four for each worker and two for each test, and as long as not all workers are finished one of them will get on if scheduled; a worker that died is found dead.", "quantifier": "every plan, every execution, every reachable state", "why_tests_cant": "Deadlocks and infinite waits do not show in finitely many tests.", "anchors": ["slash/parallel/server.py: Server.get_test, Server.connect, Server.validate_collection", "slash/parallel/worker.py: Worker.start_execution", "slash/parallel/parallel_manager.py: ParallelManager.check_worker_timed_out"]}
{"id": "C85", "title": "Exceptions of hooks are recorded in the result of the test they are fired for", "statement": "If code hooked to the start, the end or the announcement of the outcome of a test raises, the exception is recorded in the result of that test.", "quantifier": "every list of tests, every behaviour of all other hooks, tests and cleanups, every way the run ends", "why_tests_cant": "At the end hook the current result was already replaced or not depending on the position of the test and on what failed before.", "anchors": ["slash/runner.py: TestStartEndController, _run_single_test, _fire_test_summary_hooks", "slash/exception_handling.py: handling_exceptions, update_current_result"]}
{"id": "C86", "title": "Scopes a test runs in", "statement": "When the start of a test is announced a fresh, empty test scope has been opened and is the innermost one; while the test function is called the open scopes are exactly those of the test, its module and the session (and the one of the session itself), and cleanups on the test scope are only those registered for this test.", "quantifier": "every session: any list of tests of any modules, any scripts of hooks, test functions, cleanups and fixtures raising anything anywhere", "why_tests_cant": "Depends on everything that closed or failed to close a scope before: every combination of earlier failures.", "anchors": ["slash/core/scope_manager.py: begin_test, _push_scope, _pop_scope", "slash/runner.py: _run_single_test", "slash/core/cleanup_manager.py"]}
{"id": "C87", "title": "Module and session scopes are shared by the tests of a module and of the session", "statement": "Tests that start one after the other and are of the same module run in the same module scope; if the module changes, the scope of the previous module is closed (all its cleanups dealt with) before the next test starts; the session scope is the same for all tests.", "quantifier": "every session, every two tests starting one after the other", "why_tests_cant": "The history between two starts is unbounded and may contain any failures.", "anchors": ["slash/core/scope_manager.py: begin_test", "slash/runner.py: run_tests"]}
{"id": "C88", "title": "The cleanups of a test are done, and counted, before its outcome is announced", "statement": "When the outcome of a test, its end, or its being avoided is announced, no test scope is open and every cleanup registered on a test scope has been dealt with; the announced outcome is that of the result including errors raised by these cleanups.", "quantifier": "every session, every such announcement", "why_tests_cant": "Cleanups may register cleanups, fail, skip or interrupt; scopes are closed on many paths.", "anchors": ["slash/runner.py: _run_single_test, _fire_test_summary_hooks", "slash/core/scope_manager.py: end_test", "slash/core/cleanup_manager.py: pop_scope, call_cleanup"]}
{"id": "C89", "title": "Nothing is left when the session ends", "statement": "When the session ends all scopes are closed and all registered cleanups have been dealt with, and the end of the session is announced.", "quantifier": "every session, however it ends", "why_tests_cant": "Needs every way in which tests, cleanups, fixtures and hooks can raise on the way to the end.", "anchors": ["slash/core/session.py: get_started_context, initiate_cleanup", "slash/core/scope_manager.py: flush_remaining_scopes", "slash/core/cleanup_manager.py: pop_scope"]}
{"id": "C90", "title": "Fixtures are set up before the test function and outlive the cleanups of the test", "statement": "When the function of a test is called its fixtures were computed successfully; they stay as they are until the cleanups of the test have been called; the fixtures of a scope are torn down after all cleanups of that scope have been dealt with.", "quantifier": "every session, every fixture graph, every call of a test function, every closing of a scope", "why_tests_cant": "Interplay of fixture store, cleanup manager and scopes for arbitrary graphs and scripts.", "anchors": ["slash/core/function_test.py: run", "slash/core/fixtures/fixture_store.py: call_with_fixtures, pop_scope", "slash/core/scope_manager.py: _pop_scope"]}
{"id": "C91", "title": "No failing cleanup is lost in a successful session", "statement": "If a session is successful then no cleanup of any scope, called at any time, raised an error, a failure or an interruption.", "quantifier": "every session", "why_tests_cant": "A cleanup of a module or of the session is called when another test, or none, is the current one; which result gets its error depends on that.", "anchors": ["slash/core/cleanup_manager.py: call_cleanup", "slash/exception_handling.py: update_current_result", "slash/core/result.py: is_success"]}
{"id": "C92", "title": "Success is announced only for tests that were run", "statement": "If success is announced for a test, its start was announced, its function was called, and the hooks for its start and its function returned without an exception.", "quantifier": "every session, every announcement of success", "why_tests_cant": "Exceptions can replace each other on the way out of a test (finally blocks), and the runner swallows some; a lost one would make a test pass that was never run.", "anchors": ["slash/runner.py: _run_single_test, _fire_test_summary_hooks", "slash/core/scope_manager.py: begin_test, end_test", "slash/exception_handling.py: handling_exceptions"]}
{"id": "C93", "title": "Start callbacks of fixtures", "statement": "When a test starts, the callbacks registered with `this.test_start` of every fixture active then (including those set up for earlier tests) are called, each exactly once, in the order they were registered, before the test function (and after `before` of a class); if one raises, the test function is not called, and the test ends with that exception, which is recorded.", "quantifier": "every sequence of tests (functions and classes, any variations, any needed fixtures) and ends of scopes, every behaviour of fixture functions, callbacks, test functions, `before` and `after`", "why_tests_cant": "Whether a callback is called depends on marks left by earlier tests, so on the whole history of the fixture.", "anchors": ["slash/core/fixtures/active_fixture.py: call_test_start", "slash/core/fixtures/fixture_store.py: call_with_fixtures, iter_active_fixtures", "slash/core/test.py: run", "slash/core/function_test.py: run"]}
{"id": "C94", "title": "End callbacks of fixtures", "statement": "Whatever the start callbacks and the test function do, the callbacks registered with `this.test_end` of every active fixture are called after the test function (after `after` of a class), each exactly once, in the order they were registered, also if others raise; their exceptions are recorded.", "quantifier": "every state of every session, every test whose fixtures are available, every behaviour of callbacks and functions", "why_tests_cant": "Needs all combinations of raising callbacks, kinds of exceptions and active fixtures.", "anchors": ["slash/core/fixtures/active_fixture.py: call_test_end", "slash/core/fixtures/fixture_store.py: call_with_fixtures", "slash/core/test.py: run", "slash/core/function_test.py: run"]}
{"id": "C95", "title": "before and after of test classes", "statement": "In a test of a class `before` is called first; if it raises nothing else is called; otherwise `after` is called last, whatever the method does, provided its own fixtures are available; the method is called at most once, between them. The test ends without an exception only if all three were called and none raised; an exception it ends with after `before` was recorded.", "quantifier": "every state of the fixture store, every class, every behaviour of the three functions, fixtures and callbacks", "why_tests_cant": "Nested try/finally with fixtures that may fail at three places and callbacks at two.", "anchors": ["slash/core/test.py: Test.run, before, after", "slash/core/fixtures/fixture_store.py: call_with_fixtures"]}
{"id": "C96", "title": "Fixtures written as generators", "statement": "For a fixture written as a generator the part before the `yield` is run when the fixture is set up and the value yielded is its value; the part after it is run exactly once when the fixture is torn down, before the cleanups added by the first part, all of which are called too; a generator that does not yield, or yields twice, is an error.", "quantifier": "every generator: any steps, added cleanups and exceptions before and after any number of yields", "why_tests_cant": "Interleavings of added cleanups and the suspended generator for arbitrary bodies.", "anchors": ["slash/core/fixtures/utils.py: yield_fixture", "slash/core/fixtures/active_fixture.py: add_cleanup, do_cleanups"]}
{"id": "C97", "title": "Fixtures named in use_fixtures", "statement": "The fixtures a test or fixture function uses through `use_fixtures` are exactly those named in its own decorators.", "quantifier": "every set of functions, every sequence of decorators, every list objects given to them", "why_tests_cant": "Depends on sharing of list objects between decorators anywhere in the test code.", "anchors": ["slash/core/fixtures/utils.py: use_fixtures"]}
{"id": "C98", "title": "A scope takes its fixtures along", "statement": "When a test, module or the session ends, exactly the fixtures of this scope and of narrower ones are torn down; no fixture of a test is active outside of that test; between these moments and the start of tests nothing happens to the fixtures; when the end of the session is announced no fixture is active.", "quantifier": "every session, every closing of a scope, every pair of consecutive events", "why_tests_cant": "Fixtures of different scopes interleave with cleanups, failures and module changes in unboundedly many ways.", "anchors": ["slash/core/scope_manager.py: _pop_scope", "slash/core/fixtures/fixture_store.py: pop_scope, fill_fixture"]}
{"id": "C99", "title": "A test function runs only with its fixtures ready, and its exception is counted once for its test", "statement": "After the start of a test its fixtures are computed; if one of them raises, the function is not called and the exception is added to the result of the test; otherwise the function is called next, and what it raises, and nothing else, is added to the result of this test before its scope is closed.", "quantifier": "every session, every started test", "why_tests_cant": "Depends on fixture graphs of any depth and on every state that earlier tests may leave.", "anchors": ["slash/runner.py: _run_single_test", "slash/core/function_test.py: run", "slash/core/fixtures/fixture_store.py: get_fixture_dict", "slash/exception_handling.py"]}
{"id": "C100", "title": "A test with unmet requirements or an exclusion is never started", "statement": "In a session in which tests have different identities, a test with a reason not to run is never started and its function is never called, and a test without such reason is never announced as avoided.", "quantifier": "every session, every test", "why_tests_cant": "Quantifies over everything that may happen before and after the test.", "anchors": ["slash/runner.py: _run_single_test, _process_requirements_and_exclusions"]}
{"id": "C101", "title": "Cleanups without a scope are refused exactly while the end of a test is announced", "statement": "A cleanup registered without naming a scope is refused at the announcement of the end of a test, when the scope of the test is closed already; at all other events, and after the session, it is accepted.", "quantifier": "every session, every event", "why_tests_cant": "The permission must survive every exception raised by a hook for the end of a test.", "anchors": ["slash/core/cleanup_manager.py: forbid_implicit_scoping_context, add_cleanup", "slash/runner.py"]}
{"id": "C102", "title": "The tests of a session are run one after the other, in order", "statement": "In a session of different tests, the tests are begun in the order given, each at most once; all that happens for one test (avoided; or started, its function called, summary announced, ended) is over before the next is begun. A test that is started is ended. Tests that were not begun have empty results, tests that were begun have not. If the session raises nothing, every test has a result and tests are left out only with stop_on_error after something went wrong.", "quantifier": "every session, every behaviour of hooks, tests, cleanups and fixtures", "why_tests_cant": "Exceptions can leave the runner at any point of any test; the order must hold for every interleaving of failures.", "anchors": ["slash/runner.py: run_tests, _run_single_test, _mark_unrun_tests", "slash/core/session.py: get_started_context"]}
{"id": "C103", "title": "stop_on_error", "statement": "With stop_on_error, once an error, a failure or an interruption is in any result, no further test is begun, started, called or announced.", "quantifier": "every session, every moment, every result", "why_tests_cant": "The error may be put into any result, by code of any test, hook, cleanup or fixture.", "anchors": ["slash/runner.py: run_tests", "slash/core/result.py: is_success"]}
{"id": "C104", "title": "Hooks of the session", "statement": "session_start is announced first and session_end last, each at most once; if a hook of the start raises then nothing happens for any test, the session raises and (unless it is a skip) is not successful; the end is announced only if session_start returned; a session that raises nothing announced both, and their hooks returned. session_interrupt is called if and only if an interruption left the start of the session or the run of the tests. The result of the session counts as started from the beginning.", "quantifier": "every session", "why_tests_cant": "Depends on all exception paths out of the session.", "anchors": ["slash/core/session.py: get_started_context", "slash/exception_handling.py: handling_exceptions"]}
{"id": "C105", "title": "An interruption of a test ends the session", "statement": "If a test function raises an interruption (or another exception that is not an Exception), no other test is begun afterwards and the session raises.", "quantifier": "every session, every test, every behaviour of the code that runs on the way out", "why_tests_cant": "The exception passes through several finally blocks with user code, any of which may replace it.", "anchors": ["slash/runner.py: _run_single_test, run_tests", "slash/core/session.py: get_started_context", "slash/exception_handling.py: handling_exceptions"]}
{"id": "C106", "title": "Content of log files", "statement": "With paths of their own, the log file of a test holds exactly what was logged while the test ran and the log of the session exactly what was logged outside of tests, each record once and in order, without silenced loggers and without records of slash itself below core_log_level. With unified_session_log, the session log also holds what tests log.", "quantifier": "every configuration of paths, silenced loggers, extra handlers, compression with a raw file, highlights; every session", "why_tests_cant": "Which handler gets a record depends on a stack of up to eighteen handlers with filters, levels and bubbling flags; tests try single settings.", "anchors": ["slash/log.py: SessionLogging, _get_file_logging_context, _slash_logs_filter, SilencedLoggersHandler, _BubblingWrapper"]}
{"id": "C107", "title": "Life of log files", "statement": "A log file is written only while it is open; it is closed as often as it is opened, log_file_closed is fired once after each closing and with the result the file belongs to, a file is removed only after that, and no file is open at the end of the session, even if tests, session and highlights share paths.", "quantifier": "every configuration of paths, shared or not; every session", "why_tests_cant": "Sharing of paths between session, tests, raw files and highlights gives many cases; tests use distinct paths.", "anchors": ["slash/log.py: _log_file_handler_context, get_active_log_paths", "slash/hooks.py: log_file_closed"]}
{"id": "C108", "title": "Removing log files", "statement": "With log.cleanup.enabled the log of a test is removed exactly if the test was a success or keep_failed is off, the log of the session exactly if the whole session was a success or keep_failed is off; a failed test's log is never removed with keep_failed; without cleanup nothing is removed.", "quantifier": "every configuration with cleanup; every session", "why_tests_cant": "What is removed depends on the results of all tests and on whether paths are shared.", "anchors": ["slash/log.py: _should_delete_log, _log_file_handler_context"]}
{"id": "C109", "title": "Each record is delivered once", "statement": "Every record logged during a session is delivered once to each handler added by add_log_handler, shown at most once on the console, and captured as at most one error.", "quantifier": "every session, every configuration of levels, silenced loggers and handlers", "why_tests_cant": "Handlers are on the stack twice while a test runs; only a filter decides whether the second ones are reached.", "anchors": ["slash/log.py: _get_file_logging_context, add_log_handler, ErrorHandler, ConsoleHandler"]}
{"id": "C110", "title": "Lines on the console", "statement": "With truncate_console_lines, each line of a long message is shown up to 160 characters: whole if it fits, else its first 157 characters and three dots; no line is lost. Short messages, and errors unless truncate_console_errors is on, are shown unchanged.", "quantifier": "every message, level and setting", "why_tests_cant": "Boundary cases of lengths and of line breaks.", "anchors": ["slash/log.py: ConsoleHandler.format, _truncate"]}
{"id": "C111", "title": "Names do not change the directories of log files", "statement": "Whatever the names of tests, sessions and modules are, the path of a log file has exactly the separators of its template: names add no directories; characters other than separators are kept.", "quantifier": "every template, every value of its fields", "why_tests_cant": "Names of tests are arbitrary strings (parameters, files); tests try one name.", "anchors": ["slash/log.py: _NormalizedObject, _format_log_path"]}
{"id": "C112", "title": "Marks of plugins and their methods", "statement": "A marking decorator (plugins.active, registers_on, needs, provides, parallel_mode and the like) gives its object the mark, leaves its other marks alone, and does not change what objects show that do not inherit from it.", "quantifier": "every sequence of decorators on any objects and any inheritance", "why_tests_cant": "Tests decorate one class; aliasing of the dictionary of a base class needs a hierarchy with marks on the base.", "anchors": ["slash/utils/marks.py: mark, try_get_mark"]}
{"id": "C113", "title": "Markers of functions", "statement": "A marker (slash.exclude, slash.requires, parameters and the like) gives its function the value; an appending marker collects all values in the order of decoration; neither other markers nor objects that do not inherit from the marked one are affected.", "quantifier": "every sequence of decorators, functions, methods and classes", "why_tests_cant": "Values are kept on inherited attributes; order and sharing show only in combinations.", "anchors": ["slash/utils/function_marker.py: FunctionMarker, FunctionAppenderMarker"]}
{"id": "C114", "title": "Signal handlers are restored", "statement": "While signal handling is active each signal has the handler registered last for it; as long as it has not been activated handlers are untouched; deactivating it puts back the handlers of before.", "quantifier": "every sequence of registering, activating and deactivating", "why_tests_cant": "Handlers are state of the process; the order of registering and activating decides what is restored.", "anchors": ["slash/plugins/builtin/signal_handling.py: register_handler, activate, deactivate"]}
{"id": "C115", "title": "Indented output", "statement": "Every line written through a formatter is indented by exactly the blocks it is written in, lines of a message with several lines each; after any block, also one left by an exception, the indentation is the same as before.", "quantifier": "every nesting of blocks and lines, any indentation strings, exceptions anywhere", "why_tests_cant": "Nesting and exceptions combine without bound.", "anchors": ["slash/utils/formatter.py: Formatter.write, writeln, indented, LineTracker"]}
{"id": "C116", "title": "Frames of a detailed traceback", "statement": "In the detailed text of an error all frames are shown at the same indentation, with their code one level below.", "quantifier": "every list of frames with any variables", "why_tests_cant": "The indentation of a frame depends on the variables of all frames before it.", "anchors": ["slash/core/error.py: Error.get_detailed_traceback_str"]}
{"id": "C117", "title": "Details and facts of results", "statement": "Each key has the value set last with what was appended since; a raising hook keeps a set from happening; appending to a value that is no list fails with TypeError and changes nothing; fact_set is triggered for each successful use with the new value; a copy made by all() does not change afterwards.", "quantifier": "every sequence of uses, hooks that raise or not", "why_tests_cant": "Aliasing of lists shows only after later operations on other keys.", "anchors": ["slash/core/details.py: Details", "slash/core/result.py: details, facts"]}
{"id": "C118", "title": "How the end of a test is reported", "statement": "The end of every test is reported in exactly one way: as a success exactly if it was one, else as error, interruption, failure or skip, the worst of what its result contains.", "quantifier": "every result", "why_tests_cant": "Which of several things in a result wins shows only for combinations of errors, failures, skips and interruptions.", "anchors": ["slash/reporting/reporter_interface.py: report_test_end", "slash/core/result.py"]}
{"id": "C119", "title": "Progress on the console", "statement": "For each file the console shows its name, one mark per error, failure, skip and end of a test in order, and at the end FAIL if something bad happened in it and PASS otherwise; with other levels the same events are shown as lines or as marks only.", "quantifier": "every sequence of tests with errors, failures and skips; every level", "why_tests_cant": "The word at the end of a file depends on flags collected over all its tests.", "anchors": ["slash/reporting/console_reporter.py: report_file_start, report_file_end, report_test_*"]}
{"id": "C120", "title": "Summary of a session on the console", "statement": "The summary lists exactly the tests with errors or failures (and those with skips, if verbose enough), each under its number and with the messages of all its errors; the duration is right; each place a warning comes from is listed once with the number of its warnings and a message.", "quantifier": "every list of results, warnings and level of tracebacks", "why_tests_cant": "The summary walks all results; settings of tracebacks and errors without frames combine.", "anchors": ["slash/reporting/console_reporter.py: report_session_end, _report_error_summary, _report_result_warning_summary"]}
{"id": "C121", "title": "Boxes of messages", "statement": "A box that is shown to the user has all its lines of the same width, shows the headline and every line of the text.", "quantifier": "every width of the terminal, headline and text", "why_tests_cant": "Boundaries of the width.", "anchors": ["slash/reporting/console_reporter.py: report_fancy_message, _make_fancy_message"]}
{"id": "C122", "title": "The line in progress survives log records", "statement": "A log record printed while a line of progress is on the console appears on a line of its own, and afterwards the line in progress is there again as before.", "quantifier": "every width of the terminal and every progress so far", "why_tests_cant": "Depends on the width of the terminal, the length of the line so far and the length of the record.", "anchors": ["slash/reporting/console_reporter.py: TerminalWriterWrapper", "slash/log.py: ConsoleHandler"]}
{"id": "C123", "title": "xUnit files", "statement": "A session leaves an xUnit file with one test case per test that was started, in order, with its address and one element per error, failure, skip and value of a detail; the attributes count the test cases, errors, failures and skips of the file.", "quantifier": "every session result, with any details", "why_tests_cant": "Details are arbitrary values of users; tests write simple ones.", "anchors": ["slash/plugins/builtin/xunit.py: session_end, _add_errors, _add_element_from_detail"]}
{"id": "C124", "title": "Notifications", "statement": "At the end of a session that took long enough (and failed, if only failures are wanted) every notifier that is enabled and configured is told once, whatever the others do; each recipient gets a mail once; the text of exceptions is not altered by formatting.", "quantifier": "every configuration, any notifiers failing in any way, every text", "why_tests_cant": "Notifiers talk to external services that fail; tests replace them.", "anchors": ["slash/plugins/builtin/notifications.py: session_end, entering_debugger, _notify_all, _escape_format"]}
{"id": "C125", "title": "Frames of tracebacks", "statement": "The traceback of an error shows all frames of user code in order and none of slash's machinery; a frame correction hides exactly that many innermost frames; values of variables are shown with at most 100 characters, whatever their repr does.", "quantifier": "every stack, correction and value", "why_tests_cant": "Stacks of any depth; corrections are counted from the end.", "anchors": ["slash/utils/traceback_utils.py: distill_traceback, distill_call_stack, _distill_frames, _safe_repr"]}
{"id": "C126", "title": "What slash list lists", "statement": "slash list shows the address of each test that would run once (all of them with --show-duplicates), in order, without parameters or relative to the current directory if wanted; fixtures are marked unused exactly if no listed test requires them and they are not autouse.", "quantifier": "every list of tests and fixtures, every combination of options", "why_tests_cant": "Addresses come from paths and parameters of users.", "anchors": ["slash/frontend/slash_list.py: slash_list, _report_tests, _report_fixtures"]}
{"id": "C127", "title": "Exit code of slash list", "statement": "Unless the command crashes (which takes --relative-paths and an address without a colon outside of what is cut off), the code is -1 if loading fails or warnings count as errors and there are some, else 0 if there are tests or --allow-empty is given, else 1; without sources it is an error of usage; it does not depend on what is listed.", "quantifier": "every combination of options, tests and warnings", "why_tests_cant": "Combinations of options.", "anchors": ["slash/frontend/slash_list.py: slash_list"]}
{"id": "C128", "title": "An application leaves the process as it was", "statement": "However using the application ends (arguments that cannot be parsed, exceptions of customization files, of plugins, of the block, of hooks, interruptions), the handler of SIGTERM, the function that shows warnings, the configuration, log handlers and contexts are what they were before, and app_quit is triggered exactly once.", "quantifier": "every outcome of every step of entering, of the block and of leaving; user code that changes the handlers and the configuration", "why_tests_cant": "There are many places to fail, each combined with failures while leaving.", "anchors": ["slash/app.py: Application.__enter__, __exit__", "slash/utils/warning_capture.py", "slash/core/session.py: activate, deactivate"]}
{"id": "C129", "title": "Records and warnings of the time before the session", "statement": "What is logged and warned about before the session is active is not lost: each record is delivered once and in order to the log of the session, or to the console if there is no session; each warning that is not ignored is one of the session's.", "quantifier": "every sequence of records and warnings, every way to fail", "why_tests_cant": "Records are kept and delivered later; failures in between.", "anchors": ["slash/app.py: _emit_prelude_logs, _emit_prelude_warnings", "slash/log.py: RetainedLogHandler", "slash/utils/warning_capture.py"]}
{"id": "C130", "title": "When the debugger starts, and which one", "statement": "The debugger starts exactly if it is enabled and there is an exception that is no exit, no interruption, no skip (unless skips are to be debugged) and matches all filters; exactly one debugger is used, the preferred one if it is installed, else the first of the known ones that is.", "quantifier": "every exception, configuration and set of installed debuggers", "why_tests_cant": "Combinations of options and installed packages.", "anchors": ["slash/utils/debug.py: debug_if_needed, launch_debugger"]}
{"id": "C131", "title": "Customization files", "statement": "The user's customization file, the project's, that of SLASH_SETTINGS and entry points are run in this order, each once, up to the first that raises; files run with their directory in sys.path, which is restored afterwards whatever they do.", "quantifier": "every code of customization files, raising or not, changing sys.path in any way", "why_tests_cant": "Files are written by users.", "anchors": ["slash/site.py: load"]}
{"id": "C132", "title": "What slash list-config lists", "statement": "All values are listed if no path is given, else exactly those below one of the given paths, in order.", "quantifier": "every configuration and list of paths", "why_tests_cant": "Paths of any depth.", "anchors": ["slash/frontend/list_config.py: list_config"]}
{"id": "C133", "title": "Warnings about functions defined twice", "statement": "A test function that is hidden by a later definition of the same name in its file is warned about, with file, name and line, once however often the file is loaded; nothing else is.", "quantifier": "every list of files with any definitions", "why_tests_cant": "Depends on all definitions of a file and on which files are loaded several times.", "anchors": ["slash/utils/python.py: check_duplicate_functions", "slash/loader.py: get_runnables"]}
{"id": "C134", "title": "Links to the last logs", "statement": "After a session the links to the last session, its directory, the last test and the last failed test lead to the right logs; the link to the last failed test is as before if none failed; workers do not touch links.", "quantifier": "every sequence of tests with any outcomes, configuration of paths and links, state of the links before", "why_tests_cant": "The links depend on the whole history and on paths that users configure.", "anchors": ["slash/log.py: _log_file_handler_context, _try_create_symlink, _create_last_failed_symlink_if_needed"]}
{"id": "C135", "title": "Errors and failures of a result", "statement": "Each call of add_error or add_failure adds exactly one error to the right list, calls error_added for it once, reports it once and returns it; an exception always has the same error, which is a failure exactly if it is one by type or was added as one, fatal if the exception was marked so before and only if it or the error itself was marked, and lets go of the exception after it was added; add_exception records an exception once however often it passes.", "quantifier": "every history of calls with messages, error objects, exceptions and marks, with hooks that raise or not", "why_tests_cant": "The objects are shared between calls, results and scopes; what they are depends on the whole history.", "anchors": ["slash/core/result.py: add_error, add_failure, add_exception, _add_error", "slash/core/error.py: Error.capture_exception, mark_fatal, mark_as_failure"]}
{"id": "C136", "title": "Results of parallel workers", "statement": "The parent's result of a test run by a worker says the same as the worker's: each attribute is the worker's, errors, failures and skips are reported by the parent once each, and the outcome is the same.", "quantifier": "every result, with attributes that can be pickled and unpickled or not", "why_tests_cant": "Results have attributes of any kind, set by users; pickling fails in several ways.", "anchors": ["slash/core/result.py: serialize, deserialize", "slash/parallel/server.py: finished_test"]}
{"id": "C137", "title": "The notice about slow operations", "statement": "Around a slow operation the message is shown at most once, and only if the operation takes longer than the time given; the end message exactly if the message was shown; the operation is never held up.", "quantifier": "every interleaving of the two threads, with sessions that end in between", "why_tests_cant": "A race between a thread and a timer.", "anchors": ["slash/utils/interactive.py: notify_if_slow_context"]}
{"id": "C138", "title": "Plugins on the command line and in parallel runs", "statement": "Exactly the plugins asked for with --with- (or activated before), not excluded with --without- and fitting the session (parent, worker or not parallel) are active, in any order of arguments; the other arguments stay; every plugin can be named so, and list-plugins says what will be active.", "quantifier": "every history of installations and activations, every command line, every kind of session", "why_tests_cant": "Any combination of arguments, names and modes of plugins.", "anchors": ["slash/utils/cli_utils.py: add_pending_plugins_from_commandline", "slash/plugins/plugin_manager.py: configure_for_parallel_mode", "slash/utils/parallel_utils.py", "slash/frontend/slash_list_plugins.py"]}
{"id": "C139", "title": "Imports of extensions", "statement": "Importing slash.ext.x gives the very module of the first candidate (slash_x) that can be imported, the same on each import and as attribute of slash.ext; an ImportError raised within the extension is passed on, and ImportError is said exactly if no candidate is there; after a failure a later import tries again.", "quantifier": "every list of candidates, every behaviour of imported code, every content of sys.modules", "why_tests_cant": "Imported code may import anything, itself included, and fail in any way.", "anchors": ["slash/exthook.py: ExtensionImporter", "slash/ext/__init__.py"]}
{"id": "C140", "title": "Options of configuration values on the command line", "statement": "An option belongs to one value: clashing names are refused. Of the options given for a value the last one prevails, options of lists append in order, -q and -v change the level by how often they are given; a value whose options are not given is the configured one, and options of other values do not influence it; what is not an option stays as argument; only missing or superfluous arguments and missing required options are refused.", "quantifier": "every set of declared options, every command line (order, repetition, mixtures), every configuration", "why_tests_cant": "Any number of options, in any order, over any declarations, including those of plugins.", "anchors": ["slash/utils/conf_utils.py: _Cmdline", "slash/utils/cli_utils.py: configure_arg_parser_by_config", "slash/app.py: Application.__enter__"]}
{"id": "C141", "title": "Configuration of plugins", "statement": "At any time config.root.plugin_config has a section for exactly the installed plugins that have defaults. Installing a plugin adds its section with its defaults, which is what current_config gives; uninstalling it, or failing to activate it while installing, removes the section; a refused plugin leaves no trace. What users set in a section stays through any operation on other plugins and through activation and deactivation.", "quantifier": "every history of installing, uninstalling, activating and deactivating plugins and of assignments to configuration values, any plugins, names and defaults, operations that fail or not", "why_tests_cant": "Depends on the whole history and on names that users choose.", "anchors": ["slash/plugins/plugin_manager.py: install, uninstall, _configure, _unconfigure", "slash/plugins/interface.py: current_config"]}
{"id": "C142", "title": "Variables in tracebacks", "statement": "Of each frame of a recorded error exactly the locals (those with @ aside), the attributes of self and the globals the code names are recorded, texts of at most 100 characters, a placeholder where repr fails; the log shows the locals with whole texts. Neither repr nor attributes of an object whose type is in log.repr_blacklisted_types are called; attributes are read of self only, and only those of its __dict__ that are not special names.", "quantifier": "every list of frames with any variables, objects whose repr or attributes fail, any blacklisted types", "why_tests_cant": "Any objects of users may be in the frames, with code of their own that is called.", "anchors": ["slash/utils/traceback_utils.py: DistilledFrame, iter_distilled_object_attributes, distill_object_attributes, _safe_repr"]}
{"id": "C143", "title": "The phase of cleanups", "statement": "get_current_cleanup_phase answers the scope of the cleanup that is being called, the innermost one if a cleanup opened a scope itself, and None (is_in_cleanup False) whenever none is being called, also after cleanups that raised. A scope is closed however it is left.", "quantifier": "all functions, cleanups and hook callbacks: any nesting of scopes, cleanups added by cleanups, exceptions that are swallowed or not", "why_tests_cant": "Any depth of nesting and any way to leave a cleanup.", "anchors": ["slash/cleanups.py: get_current_cleanup_phase, is_in_cleanup", "slash/core/cleanup_manager.py: call_cleanups, pop_scope, get_current_scope_name"]}
{"id": "C144", "title": "Names of the parameters of a test", "statement": "Each parameter a test depends on, directly, through fixtures, through use_fixtures or through autouse fixtures, is in test.__slash__.variation under a name that tells the way to it (argument, then arguments of fixtures, joined by dots), with the index of the value of that variation. Two different variations of a test differ in the indices of their names; what parallel processes compare does not depend on the order in which parameters were found.", "quantifier": "every graph of fixtures, also with cycles, every test function or method with before and after of its base classes, every parametrization, every set of autouse fixtures", "why_tests_cant": "The number of fixtures, the depth of their dependencies and the number of ways to a parameter are unlimited.", "anchors": ["slash/core/variation_factory.py: _add_needed_fixtures_from_function, _populate_param_name_bindings", "slash/core/variation.py: Variation", "slash/core/test.py: _iter_inherited_methods"]}
{"id": "C145", "title": "Values of parameters", "statement": "A parametrized argument that the caller does not give gets the value the current variation selects: the value itself, or its element for the position of the name if several names are parametrized together; labels and tags put on the value with // do not change it and the tags of the variation are those of that value. What the caller gives, and other arguments, are left alone. A parametrization is refused exactly if the argument is parametrized already, a value is missing, or a value for several names is not a sequence of as many elements. iterate, toggle and generator_fixture are parametrize for each name, by True and False, and by the values yielded. A label given to slash.param is accepted exactly if it is an identifier of at most 30 English letters, digits and underscores, and a value cannot be put with // over one that has a value.", "quantifier": "every function, every list of decorators with any names and values, every variation, every way to call", "why_tests_cant": "Any number of decorators, names and values, in any combination.", "anchors": ["slash/core/fixtures/parameters.py: parametrize, iterate, toggle, ParameterizationInfo, Parametrization, ParametrizationValue", "slash/core/fixtures/utils.py: generator_fixture", "slash/core/tagging.py: Tagger.__rfloordiv__"]}
{"id": "C146", "title": "Resuming a session stored remotely", "statement": "When a session is resumed or rerun, what is stored about it locally is used if there is anything; otherwise the active plugin that keeps sessions remotely is asked about it, once, and for successful tests exactly if they are wanted. Each test it reports is offered under the file, name and parameters reported, if and only if the options ask for tests of its outcome: failures, errors and interruptions are failed tests, and outcomes other than success and skip are tests not started. If the plugin is missing, cannot resume or does not know the session, or the options contradict each other, resuming fails with CannotResume and nothing is asked of it.", "quantifier": "every local database, every plugin and every answer of it, every version of its library, all options, every session", "why_tests_cant": "Any answer of the remote store, any combination of options and versions.", "anchors": ["slash/resuming.py: get_tests_from_previous_session, get_tests_from_remote, _get_resume_status_from_backslash_status", "slash/__version__.py: get_backslash_client_version"]}
{"id": "C147", "title": "Saving the state of a session is all or nothing", "statement": "What is written to the database of sessions in one block is stored if and only if the block does not raise and one of three attempts to store it succeeds, none before it failing for another reason than the database being busy. The connection is closed in every case. If the block raises, what it raised is raised. If nothing is raised then it is stored, and an error means that it is not.", "quantifier": "every outcome of the block and of each attempt", "why_tests_cant": "Needs a database that is busy at chosen moments.", "anchors": ["slash/resuming.py: connecting_to_db"]}
{"id": "C148", "title": "Skipped and abstract test classes", "statement": "A test class declared abstract has no tests of its own, and this says nothing about the classes derived from it or those it is derived from; any other test class has exactly one test for each variation of each method, own or inherited, whose name starts with test. All tests of a class are skipped exactly if skip_all was called on it or on a class it is derived from; the reason is the one given last for the nearest such class, and nothing of the test, before and after included, runs. Declaring a class abstract that is no test class is refused.", "quantifier": "every hierarchy of classes, every sequence of declarations, every class, its methods and their variations", "why_tests_cant": "Inheritance of any depth with declarations in any order.", "anchors": ["slash/core/test.py: TestTestFactory._generate_tests, Test.skip_all, abstract_test_class, is_abstract_base_class", "slash/exceptions.py: SlashException.throw"]}
{"id": "C149", "title": "Tracebacks of handled exceptions are complete", "statement": "The traceback recorded for an exception that slash handles shows the whole way from the start of the program to the place where it was raised: all callers of the function that handles it, outermost first, followed by what Python's own traceback shows, each once and in order. Python's traceback is not changed. The traceback recorded for an exception does not change later.", "quantifier": "every call stack, every traceback, every state of other tracebacks", "why_tests_cant": "Stacks and tracebacks of any depth; objects that are changed while shared.", "anchors": ["slash/utils/traceback_proxy.py: create_traceback_proxy", "slash/exception_handling.py: handling_exceptions, _HandlingException.__exit__"]}
{"id": "C150", "title": "Colored output", "statement": "What slash list, list-plugins and list-config print shows the same text with colors and without. It contains codes for colors exactly if some of it has a style and colors are forced, or they are enabled and the stream it is written to is a terminal. Each piece is shown in its own style and what follows it in none. Errors are written to the stream for errors if there is one, and nothing is written if output is switched off. Colored strings, however put together, have the length and text of their parts, and each part is shown in its own color.", "quantifier": "all texts, styles, options, streams, any number of arguments, any composition of colored strings", "why_tests_cant": "Any texts and styles; streams that are terminals.", "anchors": ["slash/utils/cli_utils.py: Printer, ColorizedString, make_styler", "slash/utils/color_string.py: ColorString, ColorCompoundString", "slash/frontend/slash_list.py: slash_list, _report_tests"]}
{"id": "C151", "title": "What parallel workers run", "statement": "Each worker of a parallel run is started at most once, in the order of the numbers, and every worker if no before_worker_start hook raises an exception. It runs the command of the parent with exactly the parent's arguments, and takes the options saying which worker it is and where its parent listens. A hook may change the arguments; what it leaves is what the worker gets.", "quantifier": "all commands and argument lists, numbers of workers, hooks, processes and windows that cannot be made, schedules of the rest of the run", "why_tests_cant": "Any arguments, any number of workers; workers are other processes.", "anchors": ["slash/parallel/worker_configuration.py: WorkerConfiguration, ProcessWorkerConfiguration, TmuxWorkerConfiguration", "slash/parallel/parallel_manager.py: ParallelManager._create_workers, ParallelManager.start"]}
{"id": "C152", "title": "No workers are left behind", "statement": "When the part of a parallel run with workers is over in the parent, however it ended, no worker still runs, the servers of the parent were told to stop after that, and the run ends with what ended it: normally, with the time-out, or with the interruption. If it was a time-out of the whole run or an interruption, every worker was asked to end by SIGTERM, and a worker process that was not heard of was killed.", "quantifier": "all numbers of workers of both kinds, behaviours of the processes, workers found silent, ends of the run, hooks and failures of calls", "why_tests_cant": "Processes that do not end, interruptions and time-outs at any point.", "anchors": ["slash/parallel/parallel_manager.py: ParallelManager.start, handle_error, kill_workers, check_worker_timed_out", "slash/parallel/worker_configuration.py: kill, handle_timeout, wait_to_finish"]}
{"id": "C153", "title": "Content and recipients of notifications", "statement": "At the end of a session the notifications plugin sends a message unless the session was shorter than the threshold, or was successful and only failures are of interest; when a debugger is entered it does unless that is switched off. Every service that is enabled and set up is sent the message exactly once, others nothing, and a service that fails does not keep the others from being told. The title says on which host and with what result, the text is the summary of the results, or the exception with whatever characters it has, followed by where the session is found. Mails go to the recipients of the configuration.", "quantifier": "all configurations, sessions, texts, failures of services, any number of messages", "why_tests_cant": "Any configuration and text; services that fail.", "anchors": ["slash/plugins/builtin/notifications.py: Plugin, Message, _escape_format"]}
{"id": "C154", "title": "What is shown with results", "statement": "For an error, the console shows the source of the function from its first line to the line of the error, each line once and in order, the line of the error marked; without context only that line is shown; a source that cannot be read is not shown. Every line of a message is indented. For a skipped test all reasons given are listed in order, and the summary is written whatever was given as the reason. Details of unsuccessful tests are listed once each, followed by the log. While tests are collected their number is shown in one row, where finally only the number of collected tests remains.", "quantifier": "all source files, line numbers, messages, lists of skips and details, any number of tests, terminals wide enough", "why_tests_cant": "Texts of any length, with any characters; a row that is overwritten any number of times.", "anchors": ["slash/reporting/console_reporter.py: _write_frame_code, _indent_with, _report_result_skip_summary, _report_additional_test_details, _report_num_collected", "slash/utils/traceback_utils.py: DistilledFrame"]}
{"id": "C155", "title": "Variables of slashconf files", "statement": "From a test file, a name of its slashconf files stands for the value in the nearest directory upwards whose slashconf file, or the last file of whose slashconf directory, defines it; names defined elsewhere are not seen. Test files below a directory see the very same objects of it, whenever they are loaded, and after a test file the variables are those of before. Loading fails exactly if a directory upwards has both a slashconf file and a slashconf directory, or one of the files fails. Every such file is run at most once in a session.", "quantifier": "all directory trees, contents of files, orders in which test files are loaded", "why_tests_cant": "Any nesting of directories and any sequence of files; objects shared through a cache.", "anchors": ["slash/core/local_config.py: LocalConfig", "slash/loader.py: Loader._adding_local_fixtures"]}
{"id": "C156", "title": "slash.g and the context", "statement": "In a session, an attribute of slash.g has the value last written in that very session, and does not exist before it is written; sessions started and ended meanwhile do not change it, and without a session slash.g can be neither read nor written. slash.session, slash.test and so on compare and count as what they stand for. Attributes of slash.context can be asked for with and without a session and are None where there is nothing.", "quantifier": "all histories of nested sessions, reads and writes", "why_tests_cant": "Sessions nested to any depth, aliasing between their storages.", "anchors": ["slash/ctx.py: Context, NullContext, ContextAttributeProxy, push_context, pop_context"]}
{"id": "C157", "title": "The interactive shell", "statement": "The interactive shell has the keyword arguments it was started with as names, and in a session the attributes of slash.g unless configured otherwise; hooks may change them. Exceptions of code called from the shell are recorded in the current result as failures, skips, interruptions or errors, each once and in order; exceptions of the lines typed themselves are not. A request to terminate ends the shell with an error, no further line is read, and the tests after it are not run.", "quantifier": "all names, all sequences of lines and exceptions, all class hierarchies", "why_tests_cant": "Any sequence of lines; what happens after a termination or a failing hook depends on what IPython and the runner do next.", "anchors": ["slash/utils/interactive.py: _interact, _is_exception_in_ipython_eval, start_interactive_shell", "slash/exception_handling.py: handle_exception", "slash/runner.py: run_tests"]}
{"id": "C158", "title": "Links to logs of a CI system", "statement": "With the address of a build, each test gets the link described by the template: the address without slashes at its end, and the path of its log file with forward slashes. Without such an address nothing is added. Tests do not get errors because of the plugin.", "quantifier": "all templates of text, references and percent signs, all addresses and paths", "why_tests_cant": "Any strings, including percent signs and trailing slashes; tests without log files.", "anchors": ["slash/plugins/builtin/ci_links.py: Plugin"]}
{"id": "C159", "title": "Coverage reports", "statement": "The coverage plugin can be activated exactly if the types of reports are one or more of html and xml with commas between them. At the end of a session the data are saved, in files of their own for workers; sessions other than workers then make each report once and in order, with the data of the workers combined before, and workers make none. Missing data do not fail the session; other exceptions of the package do.", "quantifier": "all strings of report types, all roles of sessions, all behaviours of the coverage package", "why_tests_cant": "Any list of reports and any exceptions of the package.", "anchors": ["slash/plugins/builtin/coverage.py: Plugin"]}
{"id": "C160", "title": "Where errors point to", "statement": "An error or failure added with a message points to the line that called the function adding it (slash.add_error, slash.add_failure, the methods of results, Error itself); with frame_correction=k, to the k-th caller above. The frames shown are those of the code up to that line, without those of slash that run tests.", "quantifier": "all call stacks and corrections, all functions that add errors", "why_tests_cant": "Any depth of the stack; the corrections of five functions add up.", "anchors": ["slash/utils/__init__.py: add_error, add_failure", "slash/core/result.py: Result.add_error, add_failure, _add_error", "slash/core/error.py: Error.__init__", "slash/utils/traceback_utils.py: distill_call_stack"]}
{"id": "C161", "title": "Numbers of tests", "statement": "Tests are numbered from 1 on in the order they are run in a session, each with its own number. The total number of tests of the session is the number of tests loaded into it, repetitions and the interactive test included; no test has a number beyond it if all the tests run were loaded.", "quantifier": "all sequences of loading and running tests in a session", "why_tests_cant": "Any number of loadings, repetitions and runs in one session.", "anchors": ["slash/loader.py: Loader.get_runnables, _collect", "slash/core/session.py: Session.get_total_num_tests", "slash/runner.py: _set_test_metadata", "slash/core/metadata.py: Metadata.test_index1"]}
{"id": "C162", "title": "Resuming again and again", "statement": "After a session, each 'slash resume' made in the same directory runs exactly those tests of that session which have not succeeded in it or in any of the resumptions before, each of them once, however often one resumes and whatever sessions are made in other directories in between.", "quantifier": "all sessions, all numbers of resumptions, all results of the tests in each of them, all sessions made elsewhere in between, all earlier contents of the store", "why_tests_cant": "The claim is about histories of any length, each step working on what the one before stored; tests resume once or twice.", "anchors": ["slash/frontend/slash_run.py: slash_run, slash_resume", "slash/resuming.py: save_resume_state, get_last_resumeable_session_id, get_tests_from_previous_session", "slash/loader.py: Loader._iter_test_resume, _generate_repeats"]}
{"id": "C163", "title": "What slash run runs", "statement": "'slash run' runs the interactive test first, if it is asked for, and then, as many times as '--repeat-all' says, for each path named on the command line and in suite files in the order given, exactly the tests which that path selects: those of the Python files at or below it (not in hidden directories) that have the name after the colon, pass all filters and the filter of the suite file, each as often as '--repeat-each' times its own repetitions. For one path a test is taken once, in the order of files, of names in a file, of methods and of variations. It is an error exactly if a path does not exist, a Python file there cannot be imported, no test there has the name given, or nothing at all is left to run; the configured default paths are used exactly if nothing is named and no interactive test is asked for.", "quantifier": "all trees of files, all contents of modules, all variations, paths, suite files, filters, markers and numbers of repetitions", "why_tests_cant": "The claim is about arbitrary trees, modules and combinations of paths, filters and repetitions, of the whole way from the command line to the list of tests; tests use small suites.", "anchors": ["slash/frontend/slash_run.py: _collect_tests, _extend_paths_from_suite_files", "slash/loader.py: Loader.get_runnables, _collect, _generate_test_sources, _iter_test_address, _iter_path, _generate_repeats", "slash/loader.py: _walk", "slash/core/runnable_test_factory.py: RunnableTestFactory.generate_tests"]}
{"id": "C164", "title": "Arguments of test functions", "statement": "A test function or method may have any signature Python allows. A test is called with each of its arguments: the value of its parameter in this variation, or else of the fixture the argument names, or else its default; a test with an argument that has none of these, or with a parameter that is no argument, is rejected when it is loaded. No test that is loaded fails because its arguments do not match its signature. A function marked with nofixtures is called with no arguments.", "quantifier": "all signatures (positional-only, keyword-only, variadic arguments, defaults), all parameters and fixtures, functions and methods", "why_tests_cant": "The claim is about every signature; tests use plain arguments.", "anchors": ["slash/utils/python.py: get_arguments", "slash/core/variation_factory.py: VariationFactory.add_needed_fixtures_from_function", "slash/core/fixtures/fixture_store.py: FixtureStore.call_with_fixtures, get_required_fixture_names, get_fixture_dict", "slash/core/fixtures/parameters.py: parametrize"]}
{"id": "C165", "title": "What exit status zero means", "statement": "The process of a 'slash run' that is not parallel ends with status zero exactly if nothing is raised outside of the tests, at least one test was collected, the session running the collected tests raises nothing, and neither in the session nor in any of the collected tests anything went wrong, each test having been started or skipped. In that case every collected test that is not shown as skipped had its function called and it returned, no function of a test raised anything but a skip, and no cleanup did.", "quantifier": "all files, modules, paths, filters and repetitions; all tests, fixtures, hooks and cleanups with all their exceptions; all exceptions before and after the session other than SystemExit with a code that means success", "why_tests_cant": "The claim connects the command line, the collection, the run of arbitrary tests with arbitrary hooks, fixtures and cleanups, the results and the status of the process; tests check single failures.", "anchors": ["slash/frontend/slash_run.py: slash_run, _collect_tests", "slash/runner.py: run_tests, _run_single_test", "slash/core/session.py: Session.get_started_context", "slash/core/result.py: SessionResults.is_success", "slash/app.py: Application.__exit__", "slash/frontend/main.py: main"]}
{"id": "C166", "title": "A resumption that ends with status zero leaves nothing undone", "statement": "After a session has been run and 'slash resume' has been used any number of times in the same directory, the exit status of 'slash resume' can be trusted: if one of the resumptions exits with zero, then every test of the first session has succeeded in one of the sessions before it, or is run in this one without anything going wrong (it may be skipped). This holds whatever was raised in the sessions in between, before, while or after they ran tests. The status of a resumption is zero exactly if nothing was raised, the tests to be resumed could be loaded, and nothing went wrong in the session and in any of its tests.", "quantifier": "all first sessions, all numbers of resumptions, all behaviours of tests, hooks, fixtures and cleanups in each of them, all failures to start, to load or to store a session, all sessions made elsewhere in between, all earlier contents of the store", "why_tests_cant": "The claim combines the store, loading, running and the exit status over histories of any length; a test checks a single resumption after a single session.", "anchors": ["slash/frontend/slash_run.py: slash_run, slash_resume", "slash/resuming.py: save_resume_state, get_last_resumeable_session_id, get_tests_from_previous_session", "slash/runner.py: run_tests, TestStartEndController.end", "slash/core/result.py: Result.is_success_finished, SessionResults.is_success"]}
{"id": "C167", "title": "A parallel run that ends with status zero has run every test with success", "statement": "If a parallel 'slash run' exits with status zero, then each of the tests collected by the parent was run by exactly one worker, as a test with the same file, name and parameters, and the result this worker sent is a success (or the test was skipped); no worker sent any other result; every worker had collected the same tests as the parent and left the run regularly; the parent was neither interrupted nor did it give up waiting, and no worker had told it of an error outside of its tests. This holds for every interleaving of the workers and wherever they die. Conversely a run in which nothing goes wrong exits with zero.", "quantifier": "all numbers of workers and tests, all interleavings of the requests of workers with deaths, time-outs, interruptions and errors told by workers, all exclusions and forced tests, all results, everything raised in the parent outside of the tests except a request to leave with success", "why_tests_cant": "The claim is about all interleavings of several processes; a test runs a few of them, and cannot make workers die at every point.", "anchors": ["slash/frontend/slash_run.py: slash_run", "slash/parallel/parallel_manager.py: ParallelManager.start, handle_error", "slash/parallel/server.py: Server", "slash/parallel/worker.py: Worker.start_execution, error_added", "slash/core/result.py: GlobalResult.is_success, SessionResults.is_success"]}
{"id": "C168", "title": "Moving into tmux", "statement": "With --tmux, a run started while there is no tmux session of the agreed name becomes tmux, which makes one session and lets it run the same command with the same arguments; the run started there goes on without moving again, its session gets the id of the run as its name, and windows for workers are made in that session. Windows are never made in a session of another name. tmux is the first executable of this name in the directories of PATH, and a run that needs it and cannot find it fails without changing anything. Other sessions of tmux are left as they are.", "quantifier": "all command lines, environments, sets of sessions of tmux, and ids", "why_tests_cant": "Tests replace tmux by a stand-in and look at a few command lines; they cannot cover all arguments and all sets of sessions.", "anchors": ["slash/utils/tmux_utils.py: which, get_slash_tmux_session, create_new_window, create_new_pane, run_slash_in_tmux", "slash/frontend/slash_run.py: slash_run"]}
{"id": "C169", "title": "Arguments of handling_exceptions", "statement": "Types to swallow may be passed to handling_exceptions as a tuple or as a list: exceptions of these types, and with swallow=True all Exceptions, are stopped, unless they are of a type to pass, anticipated, skips or interruptions; all others leave the context as they are. Arguments of other types are refused before the block is run.", "quantifier": "all class hierarchies, arguments, scripts of user code, states", "why_tests_cant": "Tests use tuples; the claim is about all kinds of arguments and all exceptions.", "anchors": ["slash/exception_handling.py: handling_exceptions, _HandlingException"]}
{"id": "C170", "title": "Hooks defined by users", "statement": "After any sequence of additions, ensurings and removals of custom hooks and of registrations, whichever of them fail: a hook that is defined can be called as slash.hooks.<name>, which calls the handlers registered for it since it was defined, in order; nothing can be called under the name of a hook that was removed; other hooks and the functions of slash.hooks are unaffected. Adding a hook twice fails and changes nothing; ensuring never fails and keeps the handlers; a hook is found by its name, and None is returned for other names.", "quantifier": "all names, all sequences of operations", "why_tests_cant": "Tests run single operations on one name; the claim is about all sequences, including failing operations and clashes of names.", "anchors": ["slash/hooks.py: register, _define, add_custom_hook, ensure_custom_hook, remove_custom_hook, get_hook_by_name"]}
{"id": "C171", "title": "Error files of parallel workers", "statement": "All that workers could write about errors outside of their tests is logged by the parent once it reports them, under the name of a file that belongs to this worker only, complete and in order, each message on lines of its own; and if there is nothing to report, this is said.", "quantifier": "all sequences of messages of any number of workers, all orders in which a directory lists its files", "why_tests_cant": "Which workers write, how often and in which order is up to failures of processes that tests can not enumerate.", "anchors": ["slash/parallel/worker.py: Worker.write_to_error_file", "slash/parallel/parallel_manager.py: ParallelManager.report_worker_error_logs"]}
{"id": "C172", "title": "Resuming and rerunning sessions by their ids run exactly the tests asked for", "statement": "'slash resume ID...' runs, for each of the ids in their order, the tests of that session whose last result is one that is asked for: by default those that failed, were skipped or were not run, with --failed-only only those that failed, with --unstarted-only only those that were not run or skipped, with --no-skipped none that were skipped; with --unstarted-first or --failed-first the tests named come first among those of each session. 'slash rerun ID...' without options runs all tests of the sessions. No test is lost, and none is run that was not in one of the sessions; a test is run exactly as often as there are ids of sessions in which its result is asked for. Without ids the last session of the working directory is taken. If an id is unknown, or if options exclude each other, nothing is run at all. A test that is named by several of the sessions is run once.", "quantifier": "all histories of sessions and cleanings of the store, all numbers of ids in any order, all options, all results of the tests", "why_tests_cant": "Which tests are run depends on the results of every test in every session named and on all options together; tests use one session and one option.", "anchors": ["slash/frontend/slash_run.py: slash_run, slash_rerun", "slash/resuming.py: save_resume_state, get_tests_from_previous_session, _filter_tests, _sort_tests", "slash/loader.py: Loader._iter_test_resume"]}
{"id": "C173", "title": "A test that fails in a worker makes the whole parallel run fail", "statement": "In a parallel run, the status of the parent's process is trustworthy about the results the workers have: it is 0 only if each test was run by a worker, as its test of the same file, name and variation, and has succeeded or was skipped according to that worker's own result. If a test has an error, a failure or an interruption where it was run, the status is not 0, whatever else happens. If all tests succeed in their workers and nothing else goes wrong the status is 0. This holds whatever the errors of the tests are.", "quantifier": "all numbers of workers and tests, all interleavings of requests, crashes, time-outs and interruptions, all results of the tests, all attributes that can or cannot be pickled", "why_tests_cant": "The result of a test passes through pickling of each attribute, the server and the exit code; the tests of parallel runs only use results whose attributes can all be pickled.", "anchors": ["slash/parallel/worker.py: Worker.start_execution", "slash/parallel/server.py: Server.finished_test", "slash/core/result.py: Result.serialize, Result.deserialize, Result.is_success, SessionResults.is_success", "slash/frontend/slash_run.py: slash_run"]}
{"id": "C174", "title": "The marks of fixtures in slash list are right", "statement": "In the output of 'slash list', a fixture is marked as an override exactly if it takes the place of another fixture of the same name that would otherwise be visible there: one of a slashconf file in a directory further up, or one known everywhere. It is marked as unused exactly if it is not used automatically and no listed test uses it, be it directly or by way of other fixtures. The marks of a fixture do not depend on which other files are loaded after it.", "quantifier": "all sequences of files with all their slashconf files, all fixtures defined in them, all tests", "why_tests_cant": "The marks depend on the chain of namespaces in which a fixture was first seen, which grows with the directories and files; tests list a file or two.", "anchors": ["slash/core/fixtures/fixture.py: Fixture.is_override", "slash/frontend/slash_list.py: _report_fixtures", "slash/core/fixtures/namespace.py: Namespace"]}
{"id": "C175", "title": "Dotted names in slash.exclude mean the parameter that is really used", "statement": "A dotted name such as 'f.g.p' in slash.exclude means the parameter p of the fixture g that is used by the fixture f that is used by the decorated test or fixture, each of them as seen from where it is used, even if other fixtures of these names are defined elsewhere. A test is left out exactly for the variations in which that fixture gets one of the excluded values; a name that does not describe such a chain is refused.", "quantifier": "all arrangements of fixtures in files and slashconf files, all names of any number of parts, all parametrizations and variations", "why_tests_cant": "The meaning of a name depends on all namespaces in which its parts are looked up; tests use fixtures of one file with different names.", "anchors": ["slash/core/fixtures/fixture_store.py: FixtureStore.resolve_name", "slash/core/exclusions.py: exclude, is_excluded"]}
{"id": "C176", "title": "Plugins are told about the end of a session exactly if they were told about its start", "statement": "In each session session_end of a plugin is called at most once, and only if the plugin was told about the start of this session (or has no method for it and was active then). If the session cannot be started, because before_session_start or session_start of some plugin raises, session_end of no plugin is called. If it can be started, session_end is called for each plugin that has one, was active at the start and is still active at the end.", "quantifier": "all sequences of sessions in one process with plugins being activated and deactivated before and during them in any order, any callbacks raising, any order of callbacks", "why_tests_cant": "The toggles of plugins outlive sessions; tests have one session with one or two plugins.", "anchors": ["slash/plugins/plugin_manager.py: PluginManager.install, activate, deactivate, _get_plugin_registrations", "slash/core/session.py: Session.get_started_context"]}
{"id": "C177", "title": "What a plugin needs is called after what provides it", "statement": "Whenever a hook is called, the callbacks of plugins that provide something come before the callbacks of plugins that need it, and every registered callback is called once per registration. A plugin marked as a whole as providing something provides it at every hook of slash as long as it is active, also at hooks it has no method for; needs apply only to hooks the needing plugin has methods for. So if all that is needed is provided by active plugins marked so, and needs are not circular, no hook fails; once the only provider is deactivated, exactly the hooks with needs fail.", "quantifier": "all histories of installing, uninstalling, activating and deactivating plugins (now or later, with or without exceptions), all sets of methods and of dependencies of classes, methods and registrations, all hooks, any library that orders callbacks by dependencies", "why_tests_cant": "Whether a hook has a provider depends on the methods of all plugins and on the history of activations; tests use two plugins and few combinations.", "anchors": ["slash/plugins/plugin_manager.py: PluginManager._get_plugin_registrations, activate, deactivate", "slash/plugins/__init__.py: needs, provides"]}
{"id": "C178", "title": "Decorators may be written in any order", "statement": "The decorators of a test or a fixture (parameters, tags, requirements, exclusions, repetitions, fixtures used, declaration as a fixture, decorators of the user made with functools.wraps) may be written in any order: slash finds everything that was said, once, and the same for each order. A call calls each function made by the user's decorators once and passes on the given arguments and the values of all parameters not given. Decorating a function further under another name leaves the first function as it is.", "quantifier": "all lists of decorators in which nothing is said twice, all their orders, all functions (with any arguments, generators or not), all functions and objects that exist before, all variations and arguments of the call", "why_tests_cant": "There are n! orders of n decorators, and each of them changes the function, returns a new one or changes an object shared between the two; tests try single orders.", "anchors": ["slash/core/fixtures/parameters.py: parametrize, ParameterizationInfo", "slash/core/fixtures/utils.py: fixture, yield_fixture, use_fixtures", "slash/core/tagging.py: tag_test", "slash/core/requirements.py: requires, _get_requirements_list", "slash/utils/function_marker.py: Marker", "slash/utils/python.py: wraps, get_underlying_func, resolve_underlying_function"]}
{"id": "C179", "title": "Parallel runs time out when they should, and only then", "statement": "In a parallel run, a worker is taken for dead only if its keep-alive has not arrived for longer than parallel.communication_timeout_secs; a worker heard of within that time is left alone, however long its test takes. A worker that has fallen silent for longer is found by the next look of the parent, so at the latest one interval between looks after the time-out: it is killed, the test it was running is reported as interrupted, and the run has an error. The parent gives up the whole run only if it is interrupted, if no worker at all was heard of for longer than parallel.no_request_timeout, or if the workers were not all connected after parallel.worker_connect_timeout for each; and in the last two cases it does so at its next look.", "quantifier": "all plans of tests and workers, all values of the time-outs, all orders and times of requests, deaths, keep-alives and looks", "why_tests_cant": "What happens depends on the order of events in time in several processes and threads; a test can only try single schedules, and would have to wait for the time-outs.", "anchors": ["slash/parallel/parallel_manager.py: ParallelManager.check_worker_timed_out, check_no_requests_timeout, wait_all_workers_to_connect, start", "slash/parallel/server.py: KeepaliveServer.keep_alive, Server.report_client_failure", "slash/parallel/worker.py: Worker.keep_alive, connect_to_server", "slash/parallel/worker_configuration.py: ProcessWorkerConfiguration.handle_timeout"]}
{"id": "C180", "title": "Registered skip exceptions behave like skip_test", "statement": "After slash.register_skip_exception(t), an exception of type t or of a type derived from it behaves just as if the test had called slash.skip_test: wherever it is raised and handled, it is recorded as a skip of the test and not as an error or interruption, contexts that swallow exceptions let it pass, the rest of the test is not executed, and the other tests are run. The registration takes effect at once, also for exceptions that were raised but not handled yet, does not change what was recorded before, and lasts to the end of the session, for all later tests.", "quantifier": "all class hierarchies, all sessions, all scripts of tests and hooks with any nesting of handling contexts, try statements and registrations, all exceptions in them", "why_tests_cant": "The skip types are looked up in four places at different times while an exception travels outwards; that all of them agree with one another for every nesting and every moment of registration is not a matter of examples.", "anchors": ["slash/utils/__init__.py: register_skip_exception, skip_test", "slash/core/session.py: Session.register_skip_exception, get_skip_exception_types", "slash/core/result.py: Result.add_exception", "slash/exception_handling.py: _HandlingException.__exit__", "slash/runner.py: _run_single_test, run_tests"]}
{"id": "C181", "title": "Plugins in the search paths are found and installed", "statement": "The paths in plugins.search_paths are searched for Python files: each file below them whose name ends with .py is imported once, and its function install_plugins is called if it has one. Plugins that these functions install are installed afterwards, under their names - a later one replaces an earlier one of the same name -, and other plugins are left alone. If a file cannot be imported or its function raises, the search ends with that exception; what was installed before stays and later files are not imported.", "quantifier": "all lists of search paths, all directory trees of any depth below them, all contents of the files, all states of the plugin manager before", "why_tests_cant": "The trees and the order in which names are replaced are unbounded; that nothing calls the search can only be seen by looking at everything that happens before a session begins, not by a test that calls discover itself (as the tests of slash do).", "anchors": ["slash/plugins/plugin_manager.py: PluginManager.discover, install", "slash/app.py: Application.__enter__", "slash/conf.py: plugins.search_paths", "doc/plugins.rst: Plugin Discovery"]}
{"id": "C182", "title": "Context objects can be entered again", "statement": "An object returned by slash.assert_raises, slash.allowing_exceptions or slash.exception_handling.handling_exceptions can be kept and entered as often as one likes - one after the other or within one another -, with the same effect as making a new one in each with statement: the same exceptions leave, the same exceptions are recorded, the same hooks are called, the same exceptions are caught, and after the with statement exactly those exceptions are anticipated that were before.", "quantifier": "all scripts of with statements on any number of objects, with any nesting, all class hierarchies, all exceptions, all states", "why_tests_cant": "Whether an object keeps state from one use to the next shows only in particular nestings and in what happens after the with statement; a test has one nesting.", "anchors": ["slash/assertions.py: _CaughtContext, assert_raises, allowing_exceptions", "slash/exception_handling.py: thread_ignore_exception_context, handling_exceptions, _HandlingException"]}
{"id": "C183", "title": "Exceptions handled in several threads", "statement": "Threads may use handling_exceptions, assert_raises, allowing_exceptions, the exception-swallowing context, noswallow, disable_exception_swallowing and result.add_exception at the same time. However their steps interleave, each exception object is recorded at most once and the exception hooks are called at most once for it; what one thread anticipates has no influence on the others, so that a thread does exactly what it would do alone; no thread waits for another; and once all threads are at their ends, every exception that was handled is recorded.", "quantifier": "any number of threads, all scripts they run, all interleavings of their steps, all class hierarchies, all exceptions, all outcomes of the hooks", "why_tests_cant": "The number of interleavings is exponential and the operating system chooses among them; a test sees a handful and cannot reproduce the one that matters.", "anchors": ["slash/exception_handling.py: handle_exception, handling_exceptions, thread_ignore_exception_context, _IgnoredState", "slash/core/result.py: Result.add_exception", "slash/assertions.py: _CaughtContext", "slash/utils/exception_mark.py: mark_exception, get_exception_mark"]}
{"id": "C184", "title": "Python's warnings become warnings of the session", "statement": "Every warning given with Python's warnings module while a session is active is recorded as one warning of the session and logged once, in order, unless slash.ignore_warnings covers it - whatever Python's own filters were and however often the same line gave it -; every record logged at level warning is recorded as one warning and not logged again; the two never feed each other endlessly. Giving a warning does not raise. When the session is over, the warnings module is as it was.", "quantifier": "every program of a session, every state of Python's filters and registry before it, every hierarchy of warning classes, every list of ignored warnings", "why_tests_cant": "Filters are global and order-dependent, and recording and logging call each other; tests start from one state of the warnings module and one program.", "anchors": ["slash/warnings.py: SessionWarnings, WarnHandler, RecordedWarning, capture_all_warnings", "slash/utils/warning_capture.py: warning_callback_context", "slash/core/session.py: Session.activate, deactivate"]}
{"id": "C185", "title": "Plugins are found by name, class or object", "statement": "However the user refers to a plugin - the object, its class, its name, or the name the command line uses for it - activating, deactivating, uninstalling it, or requesting this for later, concerns a plugin that is installed and meant by the reference, and no other; it is refused as unknown, and changes nothing, exactly if no installed plugin is meant. Of several plugins of a class the first one installed is meant.", "quantifier": "every history of installing, uninstalling, activating and deactivating plugins, including failed operations; every reference; every set of plugin objects, names and classes", "why_tests_cant": "The table for names on the command line is kept apart from the one for plugins; whether they agree depends on the history, and tests look at few histories.", "anchors": ["slash/plugins/plugin_manager.py: PluginManager._get_installed_plugin, install, uninstall, activate, deactivate, activate_later, deactivate_later, normalize_command_line_name"]}
{"id": "C186", "title": "What threads report is recorded for the test that started them", "statement": "Whatever threads started by a test report - exceptions that are handled, errors added with slash.add_error - is recorded exactly once, in the result of this test, whatever the other tests and threads do and however they are scheduled. Nothing that is reported during a session is lost - what a thread handles between two tests is recorded for the session -, and nobody waits for ever.", "quantifier": "every number of tests and threads, every list of reports, every schedule of the threads and the main thread", "why_tests_cant": "The current test and the current result are shared by all threads and change while tests begin and end; tests can not try all schedules.", "anchors": ["slash/exception_handling.py: update_current_result", "slash/utils/__init__.py: add_error, add_failure", "slash/runner.py: _run_single_test, _get_test_context, _set_current_test_context, TestStartEndController.end", "slash/core/session.py: Session.activate, deactivate", "slash/core/result.py: SessionResults.get_result, current"]}
{"id": "C187", "title": "Several calls of run_tests in one session", "statement": "Tests may be given to slash.run_tests in several calls within one started session: every test of a later call that nothing keeps from running is started, in the scopes of its test, its module and the session, and what was registered for these scopes (cleanups, fixtures) is called or torn down when they end, as if all tests had been given in one call. What holds: calls without tests change nothing; after calls that returned, a later call starts exactly the tests of the module of the test that was started last. Tests of all other modules are not started and get an error; module and session scopes are never opened again, so fixtures of these scopes are not torn down and cleanups for them are refused.", "quantifier": "all sequences of calls with any tests, any scripts of hooks, test functions, cleanups and fixtures, any number of calls before and after", "why_tests_cant": "what the scope manager remembers between calls matters for every sequence of calls, modules and outcomes; the tests of the project make one call per session", "anchors": ["slash/runner.py:22-82", "slash/core/scope_manager.py:25-75", "slash/core/session.py:112-154", "doc/advanced_usage.rst:41-73"]}
{"id": "C188", "title": "Fixtures used through use_fixtures are active for the test", "statement": "When a test function is called, the fixtures of its arguments, those declared with autouse and those named with slash.use_fixtures on the test are active, and so are those named with slash.use_fixtures on any of these fixtures, directly or through others, set up before the fixture that uses them and with all values of their parameters; each fixture function is called at most once, after those of its arguments, and no other fixture functions are called. What holds: all this for the fixtures that come in as arguments of the test or through use_fixtures alone, if they need no parameters of their own. What does not: use_fixtures has no effect on fixtures that are arguments of fixtures, on autouse fixtures and on tests marked with nofixtures; fixtures named on fixtures are set up after the one that names them; if they have parameters the test ends with a KeyError; and fixtures that use each other are not reported when they are loaded but end the test with a RecursionError.", "quantifier": "all sets of fixtures with any arguments, names and parameters, all tests, all sets of fixtures that are active before, all orders in which Python gives the members of a set, all fixture functions that raise", "why_tests_cant": "which fixtures are set up depends on the whole graph of arguments and of names given to use_fixtures; a test of the project has one graph", "anchors": ["slash/core/fixtures/fixture_store.py:58-80,157-188,256-397", "slash/core/fixtures/utils.py:28-42", "slash/core/variation_factory.py:39-118", "doc/fixtures.rst:220-240", "doc/changelog.rst:13"]}
{"id": "C189", "title": "A parallel worker runs its tests as a run without workers would", "statement": "Whatever tests a worker of a parallel run is given, all hooks and functions of these tests are called as in a run of the same tests without workers: in the same order, each time with the same fixtures, cleanups and results up to then; although each test is given to run_tests by itself, the session of the worker is cleaned up only when all of its tests are done, so fixtures and cleanups of sessions (and of modules, between tests of one) are shared by all of its tests; and however the worker ends (also when the server is lost), all scopes are closed, unless the closing of one is interrupted. If nothing keeps a test from beginning and no closing of a scope is interrupted, the whole session of a worker that got all tests is as without workers: the same hooks are called, scopes closed and cleanups called or passed over, in the same order, also at the end of the session; the run is successful in both or in neither, and the results of all tests but the last are the same. What does not hold: an error of a fixture of the session in its cleanup is one of the last test without workers and of no test in a worker; and a skip raised while the session is cleaned up ends a worker with an exception, but not a run without workers.", "quantifier": "all lists of tests given to the worker, all hooks, tests, fixtures and cleanups with any exceptions and interruptions, all ways the communication ends", "why_tests_cant": "a test of the project runs a few tests with workers and looks at the results of the parent; that every interplay of scopes, fixtures and exceptions is as without workers is about two programs with all inputs", "anchors": ["slash/parallel/worker.py:96-136", "slash/runner.py:22-127", "slash/core/session.py:112-154", "doc/parallel.rst"]}
{"id": "C190", "title": "What slash.get_current_scope answers", "statement": "slash.get_current_scope() answers 'test' in the hooks for the start of a test, in fixtures being set up for it and in its function, whatever happened earlier in the session. If nothing is raised while a module is closed before the next one, and closing the last module is not interrupted, then: hooks for the start and the end of the session get None; hooks for the outcome and the end of a test and before_session_cleanup get 'module'; and cleanups and fixtures being torn down get the scope around their own one: 'module' for those of a test, 'session' for those of a module, None for those of the session. What does not hold: that a cleanup of a scope, or a hook of a started session without a test yet, is told the scope it belongs to; and after an exception while a module was closed, the scopes around a test may be missing.", "quantifier": "all lists of tests in any modules, all exceptions and interruptions of tests, cleanups and fixtures", "why_tests_cant": "a test of the project asks in tests of one suite without exceptions, and its check of a hook for the session start is never called; what is answered after failures and while closing scopes is about all interleavings", "anchors": ["slash/core/scope_manager.py:19-81", "slash/runner.py:106-127", "slash/core/session.py:112-154", "tests/test_scope_manager.py:58-86"]}
