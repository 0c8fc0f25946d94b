# Formal model of getslash/slash: design

The code under study is `/repo` (Python package `slash`). It is read as text; nothing is run.
The model is a set of small, total, computable Lean 4 functions that mirror the Python functions
branch by branch, with exceptions as values. Every definition carries a comment naming the file and
lines it mirrors, and the simplifications made.

## Layout

* `lean/Verif/Model/*.lean` - the models (definitions, each with a citation; `Cleanup` also has the
  few size lemmas its loop needs).
* `lean/Verif/Lemmas/*.lean` - helper lemmas.
* `lean/Verif/Props/*.lean` - the property theorems, each with a non-vacuity `example` beside it,
  the specification functions they are stated with, and the negative results (`..._violated`) with a
  concrete witness.
* `properties.jsonl`, `MANIFEST.json` - the properties and the theorems for each.
* `seeded/LOG.jsonl` - wrong programs the theorems were tried on, and what failed.

## Conventions

* *User code as scripts.* Callbacks, test bodies and hooks are finite scripts (inductive
  trees or records) of API calls ending in "return" or "raise e"; theorems quantify over all scripts.
  This is how "for every behaviour of user code" is expressed without letting user code reach into
  private state. Loops and data-dependent branching of user code are covered because only the finite
  sequence of API calls made in one execution matters to slash.
* *Exceptions.* An exception is a value with a kind (failure, skip, interruption, ordinary error,
  other BaseException). In `Exc` it is an object with an identity, a class in an arbitrary class
  hierarchy, and mutable marks kept in the state.
* *External calls* (logging, debugger, file system, sqlite, XML-RPC, gossip) are parameters or are
  dropped; see the trusted base.
* A property that the code violates is kept in full, the violation is proved with a concrete
  witness (`*_violated`), and the strongest true restriction found is proved as `*_partial`.
* Recursion that Python bounds only by its stack takes fuel; theorems either hold for every fuel or
  show that a computable bound is always enough.

## Trusted base

* Lean 4.33.0 kernel. Axioms: at most `propext`, `Classical.choice`, `Quot.sound` (see the last section).
* The reading of the Python source recorded in each definition's comment.
* Python semantics assumed: list/dict/set semantics (dicts iterate in insertion order; the order in
  which a set is iterated is a parameter or the insertion order, as the comments say), stable
  `list.sort`, `try/finally`, the context-manager protocol, `isinstance` as a fixed relation.
* Not modelled anywhere: format of log lines, colours, wall-clock time and timeouts, real threads and sockets
  (the parallel server is modelled at the level of atomic RPC requests, which is how
  `xmlrpc` `SimpleXMLRPCServer` without threading serves them), pickling, sqlite (a list of rows),
  the file system (a finite tree or a parameter), the debugger, tmux, IPython, `confetti`, `gossip`
  (its registrations are a list), `pyparsing` (the grammar it builds is modelled by hand).

## What is modelled, by file of `/repo/slash`

| code | model | left out |
|---|---|---|
| `core/cleanup_manager.py` (all) | `Cleanup` | `args`/`kwargs` of callbacks, `get_current_scope_name` (see `Phase`), opening and closing scopes inside of a callback |
| `core/scope_manager.py` (all), `utils/python.py:101-109` | `Scope` | tests without metadata |
| `core/result.py` (predicates, additions, `SessionResults`) | `Result` | data, log paths, times, `GlobalResult` display |
| `exception_handling.py`, `assertions.py` (`assert_raises`, `allowing_exceptions`), `Result.add_exception` | `Exc` | debugger, traceback proxying, decorator forms |
| `utils/exception_mark.py` (all) | `ExcMark` | objects without a `__dict__` |
| `runner.py` (all), `core/session.py:146-154` | `Runner` (on `Result` and `Scope`) | reporter contents, logging, debugger; parallel workers |
| `runner.py`, `core/scope_manager.py`, `core/session.py:112-154`, `core/cleanup_manager.py`, `fixture_store.py` together: whole sessions | `Whole` (on `Cleanup`, `Fixture`, `Result`) | files, reporters, fatal marks, order of tests, fixture functions calling `add_cleanup`, `test_start`/`test_end` callbacks, parallel runs; C98-C105 are stated on this model too |
| `ctx.py`, `core/session.py:74-144` | `Ctx` | computed properties of the context, `notify_if_slow_context` |
| `utils/iteration.py` | `Peekable`, `Variation` | wrapped iterators that raise |
| `core/fixtures/fixture_store.py`, `fixture.py`, `active_fixture.py`, `namespace.py`, `parameters.py`, `utils.py`, `core/local_config.py` | `FixtureGraph`, `Fixture`, `FixtureArgs`, `Namespace`, `TestMeta` | `generator_fixture`, `this` apart from its name, importing of files, fixture functions changing the store |
| `core/test.py:115-142`, `core/function_test.py:27-34`, `fixture_store.py:53-80`, `active_fixture.py:15-34` | `TestRun` (on `Fixture`) | user code that changes the fixture store or registers callbacks later |
| `core/fixtures/utils.py:28-43,116-146`, `active_fixture.py:36-42` | `FixtureDeco` | cleanups that add cleanups |
| `core/variation_factory.py`, `core/variation.py` | `Variation`, `TestMeta` | needed fixtures given by name in a parametrization |
| `core/metadata.py`, `utils/id_space.py` | `TestMeta`, `IdSpace` | address override, interactive tests apart from their sort key |
| `utils/pattern_matching.py`, `core/tagging.py` | `Pattern`, `Tagging` | packrat internals of `pyparsing` |
| `core/exclusions.py`, `core/requirements.py` | `Exclusion`, `Requirement` | |
| `loader.py`, `core/test.py`, `core/function_test.py`, `core/runnable_test.py` | `Loader` | importing, `local_config`, Windows drives, test factories other than functions and classes |
| `resuming.py` (local part), `loader.py:126-134` | `Resume` | the remote backend (a parameter) |
| `parallel/server.py`, `tests_distributer.py`, `worker_configuration.py` | `Parallel` | keep-alive thread, reporters, symlinks |
| `parallel/worker.py`, `parallel_manager.py` (with the server: whole runs) | `Worker` | timing (time-outs may happen whenever their condition can hold), starting processes, error files, warnings and error reports of workers |
| `plugins/plugin_manager.py` | `Plugins` | builtin plugins, discovery, configuration and command line of plugins (see `PluginConfig`, `PluginCli`) |
| `plugins/plugin_manager.py:276-292`, `plugins/interface.py:17-39` | `PluginConfig` (on `Plugins`) | confetti: what it makes of defaults added to a section that is there is a parameter |
| `cleanups.py:28-43`, `core/cleanup_manager.py:31-34,81-163` | `Phase` | flags and named scopes of cleanups (see `Cleanup`) |
| `utils/traceback_utils.py:136-273` | `Frames` | file names, lines and source of frames, `BaseException`s raised by `repr` |
| `warnings.py` | `Warnings` | Python's own `warnings` registry |
| `utils/suite_files.py` | `SuiteFile` | |
| `utils/cli_utils.py:68-95`, `utils/conf_utils.py:74-88` | `ConfigOverride` | confetti |
| `utils/conf_utils.py:4-72`, `utils/cli_utils.py:35-66`, `app.py:115-122` | `Flags` | how argparse splits the command line into occurrences, help texts |
| `log.py` (all), dispatch of `logbook` by hand | `Log` | format of lines, colours, `unittest_mode`, files that cannot be opened, messages that are no strings |
| `utils/marks.py`, `utils/function_marker.py` | `Marks` | objects that forbid attributes |
| `plugins/builtin/signal_handling.py` | `Signals` | delivery of signals while handlers are exchanged |
| `utils/formatter.py`, `core/error.py:131-156`, `core/details.py` | `Formatter` | colours, streams that fail; lists that users keep a reference to |
| `reporting/reporter_interface.py`, `reporting/console_reporter.py` | `Console` | colours, `unittest_mode`, source lines and variables of tracebacks, terminals that change their width |
| `plugins/builtin/xunit.py`, `plugins/builtin/notifications.py`, `utils/traceback_utils.py`, `frontend/slash_list.py` | `Reports` | XML syntax, times, transports, source lines, other output of `slash list` (tags, pretty printing) |
| `app.py:102-200`, `utils/warning_capture.py`, `log.py:382-404`, `core/session.py:77-105` | `App` | the keyboard interrupt between two steps, threads |
| `utils/debug.py`, `site.py`, `frontend/list_config.py`, `utils/python.py:19-34`, `loader.py:56-61`, symbolic links of `log.py` | `Frontend` | arguments of debuggers, URLs, `project_name`, values printed by `slash list-config`, errors of the file system, cleanup of logs that links lead to |
| `core/result.py:120-330` (additions and transfer of results), `core/error.py:20-130`, `parallel/server.py` (`finished_test`), `utils/interactive.py:68-110` | `Transfer` | pickling itself, contents of errors, attributes of results set while they are sent |
| `utils/cli_utils.py:12-27`, `utils/parallel_utils.py`, `plugins/plugin_manager.py:120-135`, `frontend/slash_list_plugins.py` | `PluginCli` | callbacks of `configure` that change plugins, output of `list-plugins` |
| `exthook.py` (all), `ext/__init__.py` | `ExtHook` | the traceback of the exception passed on |
| `frontend/slash_run.py`, `app.py:102-165`, `frontend/main.py` | `ExitCode` | printing |
| `core/variation_factory.py:21-100`, `core/variation.py:29-45,74-78`, `core/test.py:42-59` | `VarNames` (on `Variation`, `FixtureGraph`) | functions marked with `nofixtures`; JSON is taken as the sorted list it writes |
| `core/fixtures/parameters.py:18-62,79-225`, `core/tagging.py:17-20`, `core/fixtures/utils.py:93-113` | `ParamValue` | how values are written in code; sequences of several levels |
| `resuming.py:146-171,219-225` | `ResumeRemote` | what the remote store does with a query; how the parts of a version are read as numbers |
| `resuming.py:73-87` | `ResumeRemote` | the database: a commit that fails is assumed to leave the changes pending |
| `core/test.py:23-40,84-92,147-162` | `TestClass` | setting the attributes without the functions meant for it |
| `utils/traceback_proxy.py:155-181`, `exception_handling.py:84-92,125-130` | `TbProxy` | reference counts and memory layout; `create_traceback_proxy(tb, frame_correction)` with a correction |
| `utils/cli_utils.py:124-166`, `utils/color_string.py`, `frontend/slash_list.py:86,108` | `Colors` | the table of colors of colorama; other keyword arguments of print; the % operator of colored strings |
| `parallel/worker_configuration.py`, `parallel/parallel_manager.py:36-41,58-60,74-79,88-98,115-137` | `WorkerProc` | the clocks of the loops, what processes do and failures of calls are parameters; quoting in shells; log lines; temporary directories |
| `plugins/builtin/notifications.py` | `Notify` | the network and mail libraries; the HTML body of mails; conversions and attributes in `str.format`; the warning about old option names |
| `reporting/console_reporter.py:154-171,305-367`, `utils/traceback_utils.py:151-154` | `Details` | colors; encodings of source files |
| `core/local_config.py` | `LocalConf` | paths as lists of names; `os.walk` order is a parameter |
| `ctx.py:7-57,92-144` | `CtxProxy` | `str`, `repr`, `dir`, calls through proxies |
| `utils/interactive.py:17-53` | `Interactive` | IPython itself, colors, displaying tracebacks |
| `plugins/builtin/ci_links.py` | `CiPlugins` | conversions other than `%(name)s` and `%%` |
| `plugins/builtin/coverage.py` | `CiPlugins` | the package `coverage` (a parameter) |
| `utils/__init__.py:42-64`, `core/result.py:205-231`, `core/error.py:24-50` (frames) | `ErrorPos` | errors made from exceptions (C125) |
| `core/session.py:36,162-170`, `runner.py:203-209`, `loader.py:94-104` | `TestCount` | numbers in workers (given by the server) |
| `frontend/slash_run.py:49-76`, `resuming.py` (sessions one after the other) | `ResumeChain` | options, remote stores, ids given |
| `frontend/slash_run.py:102-126`, `loader.py:55-276` (the whole collection) | `Collect` | trailing slashes, sort keys set by hooks |
| `utils/python.py:60-98`, calls of tests with any signature | `Signature` | `slash.use` (in `FixtureArgs`), parameters of `nofixtures` functions |
| `frontend/slash_run.py:33-82` (the whole of a run) | `RunAll` | parallel runs, resuming |
| `frontend/slash_run.py` (resume), `resuming.py`, `runner.py` put together | `RunResume` | parallel sessions, session ids given on the command line, options for the selection, remote stores |
| `frontend/slash_run.py` for the parent of a parallel run, put together with `parallel/*.py` | `ParRun` | how the parent collects its tests, what is in the results (see `Transfer`), exit statuses of workers |
| `utils/tmux_utils.py` | `Tmux` | `libtmux` (sessions are names), options of sessions |
| `exception_handling.py:93-99,108-138` for arguments of all types | `HandlingArgs` | tracebacks (see `TbProxy`) |
| `hooks.py:7-19,84-126` | `CustomHooks` | `gossip` but for names, handlers and definitions |
| `parallel/worker.py:48-55`, `parallel/parallel_manager.py:62-72` | `ErrorFiles` | files that cannot be read |
| `frontend/slash_run.py:49-56` (ids, `slash rerun`) | `ResumeMany` | `--repeat-each`, `--repeat-all`, exclusions, interactive mode |
| `parallel/worker.py`, `parallel/server.py`, `core/result.py:57-80`, `frontend/slash_run.py` put together | `ParSend` | exceptions other than `TypeError` while the parent reads a result |
| `core/fixtures/fixture.py:49-61`, `frontend/slash_list.py:71-76,118-138` | `Override` | documentation and source lines of fixtures |
| `core/fixtures/fixture_store.py:104-124`, `core/exclusions.py:28-58` (names) | `ExclName` | names are lists of parts |
| `plugins/plugin_manager.py:155-160,205-220,266-282,396-412`, `core/session.py:112-145` | `Toggles` | other hooks; the library `gossip` (its toggles and policies are parameters) |
| `plugins/plugin_manager.py:329-336,364-416`, `plugins/__init__.py:44-49` | `PluginDeps` (on `Plugins`) | the library `gossip` (its order is a parameter with a specification) |
| `core/fixtures/parameters.py:18-44,77-128`, `core/fixtures/utils.py:15-43,111-146`, `core/tagging.py:13-42`, `core/requirements.py:18-45`, `utils/function_marker.py:12-45`, `utils/python.py:36-57,112-121` | `Decorators` | classes, class methods and static methods; several parameters declared at once; lists given to `use_fixtures` that are used elsewhere |
| `parallel/parallel_manager.py:50-56,74-113,115-137`, `parallel/server.py:30-62,79,96-107`, `parallel/worker.py:30-34,57-64`, `parallel/worker_configuration.py:107-109`, `conf.py:115-117` | `Watchdog` | one turn of a loop of the manager happens at one moment; clocks that go backwards; workers in tmux; how long a killed process takes to end |
| `utils/__init__.py:9-14,32-39`, `core/session.py:53,61-65`, `core/result.py:82-117`, `exception_handling.py:72-138`, `runner.py:36-69,90-127,159-187` | `SkipReg` | calls without a session; the debugger; cleanups of the session after the last test; options that stop the run; hooks that test results call |
| `slash/runner.py:22-82`, `slash/core/session.py:112-154`, `slash/core/scope_manager.py` | `Verif.Model.WholeMany` (on top of `Verif.Model.Whole`) | as `Verif.Model.Whole`; a call that raises is the last one |
| `slash/core/fixtures/fixture_store.py:58-69,157-166,256-397`, `slash/core/fixtures/parameters.py:66-75`, `slash/core/variation_factory.py:39-118` | `Verif.Model.UseFixtures` (on top of `Verif.Model.FixtureArgs`) | fixtures that are active with other parameter values count as not active; values, arguments (C67), notifications of fixtures, cleanups; names on fixtures are looked up in the namespace of the test, as in the code |
| `slash/parallel/worker.py:96-136`, `slash/runner.py:22-127` | `Verif.Model.WholeWorker` (on top of `Verif.Model.Whole`) | as for whole sessions; which tests the server gives (C79-C84); what is sent to the server, keep-alive thread |
| `slash/core/scope_manager.py:19-81` (`get_current_scope`) | `Verif.Model.CurScope` | as for `Verif.Model.Scope`; the hooks of tests that are not to be run; cleanups registered before the first test (these get `None`, as hooks for the session end); asking in other threads |
| slash/exception_handling.py:23-32, slash/utils/__init__.py:42-64, slash/runner.py:90-126,175-183,212-251, slash/core/session.py:74-103 | Verif/Model/ThreadTests.lean | that adding an exception to the result looks at the session once more; threads that share exceptions (in Verif/Model/Threads.lean); nested contexts; what tests do besides |
| slash/plugins/plugin_manager.py:137-274,297-323 | Verif/Model/Plugins.lean | get_plugin (which takes only names); names in the configuration |
| slash/warnings.py:15-89,115-125,143-191, slash/utils/warning_capture.py:16-26, slash/core/session.py:86-98; of Python: warnings.warn_explicit, _add_filter, catch_warnings | Verif/Model/WarnPy.lean | the handlers between a logger and the one for warnings (in Verif/Model/Log.lean); message, module and line of Python's filters are numbered predicates; reentrancy from hooks |
| slash/exception_handling.py:23-199,246-253, slash/core/result.py:82-117, slash/assertions.py:26-49 | Verif/Model/Threads.lean | tracebacks, logging, the debugger; the running test does not change meanwhile; setting one mark is one step (creating the dictionary of marks is not split up); what add_failure, add_error and add_skip do is one step |
| slash/assertions.py:15-49, slash/exception_handling.py:50-138 | Verif/Model/CtxReuse.lean | messages, logging, tracebacks, the debugger; objects shared between threads |
| slash/plugins/plugin_manager.py:62-75, slash/app.py:110-131 | Verif/Model/Discover.lean | effects of importing a file other than failing; links to directories (os.walk does not enter them); unreadable directories (os.walk skips them) |

Not modelled: `plugins/builtin/{coverage,ci_links}.py`,
`utils/interactive.py` (apart from `notify_if_slow_context`), `utils/tmux_utils.py`,
`hooks.py`.

## Properties: where they are proved and how

| id | title | status | files (`Props/`) | technique |
|---|---|---|---|---|
| C01 | Cleanups run last-in-first-out, including cleanups registered by cleanups | proved | `Cleanup` | the while-loop refined to a depth-first specification; invariants over operation histories |
| C02 | A raising cleanup does not stop the others and its error is recorded | proved | `Cleanup` | the while-loop refined to a depth-first specification; invariants over operation histories |
| C03 | Which cleanups run under failure and interruption | proved | `Cleanup` | the while-loop refined to a depth-first specification; invariants over operation histories |
| C04 | No cleanup is lost, duplicated, or run in the wrong scope | proved | `Cleanup` | the while-loop refined to a depth-first specification; invariants over operation histories |
| C05 | Session, module and test scopes are strictly nested and paired | partial | `Scope` | induction over the list of tests; the specification is the bracket structure of module runs |
| C06 | Scope teardown runs both teardown mechanisms even if one raises | proved | `Scope` | induction over the list of tests; the specification is the bracket structure of module runs |
| C07 | Every test gets exactly one final status hook, consistent with its result | partial | `Result`, `Runner` | decision logic and invariants over event histories |
| C08 | An exception is added to a result at most once | proved | `Exc` | induction over user programs |
| C09 | Result predicates are monotone and exclusive | proved | `Result` | decision logic and invariants over event histories |
| C10 | Session statistics account for every test | proved | `Result` | decision logic and invariants over event histories |
| C11 | Result lookup and creation is a bijection with tests | proved | `Result` | decision logic and invariants over event histories |
| C12 | The sequential runner accounts for every test | partial | `Runner` | induction over the list of tests for every crash point; trace specifications |
| C13 | Test start and end notifications are paired | proved | `Runner` | induction over the list of tests for every crash point; trace specifications |
| C14 | File start/end reports are paired | partial | `Runner` | induction over the list of tests for every crash point; trace specifications |
| C15 | Peekable iteration is transparent | proved | `Peekable` | refinement to a list |
| C16 | Within one test every needed fixture is computed exactly once and shared | partial | `Fixture` | invariants over sessions of setups and scope ends; well-founded induction on the dependency graph |
| C17 | Fixtures are torn down in reverse activation order of their scope | partial | `Fixture` | invariants over sessions of setups and scope ends; well-founded induction on the dependency graph |
| C18 | Cyclic fixture dependencies are reported instead of looping | proved | `Fixture`, `FixtureGraph` | invariants over sessions of setups and scope ends; well-founded induction on the dependency graph |
| C19 | A fixture can never outlive a fixture it depends on | proved | `FixtureGraph` | invariants over sessions of setups and scope ends; well-founded induction on the dependency graph |
| C20 | Fixture names resolve to the closest definition | partial | `Namespace` | refinement to "first match in the chain", invariant over files loaded before |
| C21 | Parametrization expands to exactly the cartesian product | proved | `Variation` | algebraic laws of the product |
| C22 | Wide-scope parameters vary slowest | partial | `Variation` | algebraic laws of the product |
| C23 | Cached fixture values are reused only if the variation agrees | proved | `Fixture` | invariants over sessions of setups and scope ends; well-founded induction on the dependency graph |
| C24 | Filter expressions mean what their boolean structure says | partial | `Pattern` | parse/print correspondence by induction over expressions; boolean semantics |
| C25 | Multiple filters compose as conjunction | proved | `Pattern` | parse/print correspondence by induction over expressions; boolean semantics |
| C26 | Tag merging never silently overwrites a value | partial | `Tagging` | refinement to finite maps; heap of shared objects |
| C27 | Exclusions exclude exactly the listed value combinations | partial | `Exclusion` | decision logic, induction over the needed fixtures |
| C28 | Unmet requirements prevent the test from running | partial | `Requirement`, `Runner` | decision logic, induction over the needed fixtures |
| C29 | No test is ever given to two workers | proved | `Parallel` | invariants over all sequences of requests |
| C30 | The parallel server loses no test | partial | `Parallel` | invariants over all sequences of requests |
| C31 | Forced and excluded tests go where they were told to | partial | `Parallel`, `Worker` | invariants over all sequences of requests |
| C32 | Tests are served only after all workers agreed on the collection | partial | `Parallel` | invariants over all sequences of requests |
| C33 | The parallel run ends with everything reported | partial | `Parallel` | invariants over all sequences of requests |
| C34 | Resuming reruns exactly the unsuccessful tests | partial | `Resume` | list laws, invariants over database histories |
| C35 | Resume ordering flags only reorder | proved | `Resume` | list laws, invariants over database histories |
| C36 | Resume state of a session survives and expires correctly | proved | `Resume` | list laws, invariants over database histories |
| C37 | Repetition multiplies tests exactly | proved | `Loader` | list laws, induction over directory trees |
| C38 | Loading order is deterministic and stable | proved | `Loader` | list laws, induction over directory trees |
| C39 | A test address selects what it names | partial | `Loader` | list laws, induction over directory trees |
| C40 | Exception handlers fire exactly once per exception | proved | `Exc` | induction over user programs |
| C41 | Skips and interruptions are never swallowed | proved | `Exc` | induction over user programs |
| C42 | assert_raises accepts exactly the expected exceptions | proved | `Exc` | induction over user programs |
| C43 | Plugin activity invariants | partial | `Plugins` | invariants over operation histories |
| C44 | --without wins over --with | partial | `Plugins` | invariants over operation histories |
| C45 | Configuration overrides are undone | proved | `ConfigOverride` | restoration for every crash point |
| C46 | The global context is a proper stack | proved | `Ctx` | stack laws, case analysis over every crash point |
| C47 | Exit code is zero exactly for successful sessions | partial | `ExitCode` | decision logic, linked with the runner |
| C48 | Ignored warnings are exactly the matching ones | partial | `Warnings` | decision logic, induction over scripts |
| C49 | Allocated ids are unique | proved | `IdSpace` | injectivity of decimal notation |
| C50 | Suite files expand to what they list | partial | `SuiteFile` | relational specification of suite files, induction over lines and nesting |
| C51 | An erroneous test is never announced as merely skipped | partial | `Result` | decision logic and invariants over event histories |
| C52 | Temporarily ignored warnings are restored also when the block raises | partial | `Warnings` | decision logic, induction over scripts |
| C53 | A repeat directive also applies to lines naming another suite file | partial | `SuiteFile` | relational specification of suite files, induction over lines and nesting |
| C54 | Marking an exception class does not affect unrelated classes | partial | `ExcMark` | invariant over histories of marks |
| C55 | Critical cleanups always take place | partial | `Cleanup` | the while-loop refined to a depth-first specification; invariants over operation histories |
| C56 | Naming a scope that is not open is reported as an incorrect scope | partial | `Cleanup` | the while-loop refined to a depth-first specification; invariants over operation histories |
| C57 | An interrupted session is reported as interrupted | partial | `Result` | decision logic and invariants over event histories |
| C58 | A failed session activation leaves no trace | partial | `Ctx` | stack laws, case analysis over every crash point |
| C59 | Every started session is ended exactly once | partial | `Ctx` | stack laws, case analysis over every crash point |
| C60 | No scope stays open after a run | partial | `Runner` | induction over the list of tests; the specification is the bracket structure of module runs |
| C61 | An interruption ends the run | partial | `Runner` | induction over the list of tests for every crash point; trace specifications |
| C62 | The current result is restored after a run | proved | `Runner` | induction over the list of tests for every crash point; trace specifications |
| C63 | A result tells what really happened | partial | `Runner` | induction over the list of tests for every crash point; trace specifications |
| C64 | Nothing is handed out after the parallel run was stopped | partial | `Parallel` | invariants over all sequences of requests |
| C65 | Tagging a class does not tag other classes | partial | `Tagging` | refinement to finite maps; heap of shared objects |
| C66 | Requirements are local and inherited | partial | `Requirement` | decision logic, induction over the needed fixtures |
| C67 | A function gets exactly the arguments it names | partial | `FixtureArgs` | list laws, heap of shared lists |
| C68 | use_fixtures only affects the function it decorates | partial | `FixtureArgs` | list laws, heap of shared lists |
| C69 | Different tests have different addresses | partial | `TestMeta` | injectivity of the textual representation |
| C70 | A parameter can not be declared twice | partial | `TestMeta` | injectivity of the textual representation |
| C71 | The function name of a test | partial | `TestMeta` | injectivity of the textual representation |
| C72 | Resuming loads the saved tests | partial | `Resume` | list laws, invariants over database histories |
| C73 | Which files are found, and in which order | proved | `Loader` | list laws, induction over directory trees |
| C74 | Loading a path loads all of it or fails | proved | `Loader` | list laws, induction over directory trees |
| C75 | Which tests a module has | proved | `Loader` | list laws, induction over directory trees |
| C76 | Activating a plugin registers the methods meant for hooks, all of them or none | proved | `Plugins` | invariants over operation histories |
| C77 | The context that restores plugin state | partial | `Plugins` | invariants over operation histories |
| C78 | A directory of suite files stands for the suite files in it | partial | `SuiteFile` | relational specification of suite files, induction over lines and nesting |
| C79 | Every test of a parallel run is accounted for, whatever the workers do | proved | `Worker` | inductive invariant over all executions of the composed system (workers, server, manager), from which the hypotheses of C30 follow |
| C80 | Parallel workers run the tests they are asked to run, once | proved | `Worker` | invariant relating what each worker has left and has run to its collection, and to the tests the server handed out; counting of signatures |
| C81 | Workers do not fail by themselves | proved | `Worker` | invariants, case analysis over the worker's program |
| C82 | The results of a parallel run are those of the workers | proved | `Worker` | invariants relating worker and server state |
| C83 | At the end of a parallel run each test has a result | partial | `Worker` | invariants on leaving workers; split of the history at the request that ended the handing out |
| C84 | Parallel runs end | partial | `Worker` | potential function decreasing with every request not answered by 'wait'; invariants on the phases in which the server answers 'wait' |
| C85 | Exceptions of hooks are recorded in the result of the test they are fired for | partial | `Runner` | induction over the list of tests for every crash point; trace specifications |
| C86 | Scopes a test runs in | partial | `Whole` | inductive invariant over all pieces of the program, for every state in which they are left by an exception; snapshots of the state at each event |
| C87 | Module and session scopes are shared by the tests of a module and of the session | partial | `Whole` | the same invariant, relating consecutive starts |
| C88 | The cleanups of a test are done, and counted, before its outcome is announced | proved | `Whole` | the same invariant with those of the cleanup manager (each snapshot is a reachable state of it) |
| C89 | Nothing is left when the session ends | partial | `Whole` | the same invariant at the end of the session |
| C90 | Fixtures are set up before the test function and outlive the cleanups of the test | proved | `Whole` | adjacency invariant on the trace, link with the model of the fixture store |
| C91 | No failing cleanup is lost in a successful session | proved | `Whole` | invariant: every exception of a cleanup has been recorded in a result of the session |
| C92 | Success is announced only for tests that were run | partial | `Whole` | case analysis over every exception path; monotonicity of results; ownership of cleanups on the scope of a test |
| C93 | Start callbacks of fixtures | partial | `TestRun` | induction over the list of tests with the invariant that no active fixture is marked; equational specification of the loops over callbacks |
| C94 | End callbacks of fixtures | partial | `TestRun` | equational specification of the loops over callbacks, permutation of the active fixtures; holds in every reachable state |
| C95 | before and after of test classes | proved | `TestRun` | case analysis over all exception paths, for every state |
| C96 | Fixtures written as generators | partial | `FixtureDeco` | induction over the steps of the generator and over the stack of cleanups |
| C97 | Fixtures named in use_fixtures | partial | `FixtureDeco` | induction over the decorations, with an invariant on aliasing of list objects |
| C98 | A scope takes its fixtures along | partial | `WholeFx` | invariant of the trace relating consecutive events (induction over the run); specification of the teardown of fixtures |
| C99 | A test function runs only with its fixtures ready, and its exception is counted once for its test | proved | `WholeFx` | invariant of the trace relating consecutive events; case analysis over all exception paths |
| C100 | A test with unmet requirements or an exclusion is never started | proved | `WholeFx` | invariant of the trace over the tests run so far |
| C101 | Cleanups without a scope are refused exactly while the end of a test is announced | proved | `WholeFx` | invariant over every step, including all exception paths |
| C102 | The tests of a session are run one after the other, in order | proved | `WholeSession` | refinement of the runner model (simulation relation), then the runner's protocol |
| C103 | stop_on_error | partial | `WholeSession` | refinement for the results; induction over the tests on the trace of events |
| C104 | Hooks of the session | proved | `WholeSession` | case analysis over all exception paths; monotonicity of results along the run |
| C105 | An interruption of a test ends the session | partial | `WholeSession` | induction over the tests; a compositional judgement on programs tracking the exception through every handler |
| C106 | Content of log files | partial | `Log` | closed form of whole sessions (a test restores the stack of handlers), compositional dispatch over lists of handlers, induction over the session; witnesses for what the code violates |
| C107 | Life of log files | proved | `Log` | an automaton for the life of each file, run along the closed form of the session; no assumption on paths |
| C108 | Removing log files | partial | `Log` | closed form of sessions; the files opened by a context are exactly its own |
| C109 | Each record is delivered once | partial | `Log` | counting deliveries along the stack of handlers; exact multiplicities; witnesses for what the code violates |
| C110 | Lines on the console | proved | `Log` | induction over the message; lines of the shown message are the truncated lines |
| C111 | Names do not change the directories of log files | proved | `Log` | induction over the template; counting separators |
| C112 | Marks of plugins and their methods | partial | `Marks` | lookup along the bases, frame lemmas for dictionaries; witness for the base class that is marked |
| C113 | Markers of functions | proved | `Marks` | lookup along the bases; induction over the decorators |
| C114 | Signal handlers are restored | partial | `Signals` | invariant on saved and registered handlers, induction over the operations; witnesses |
| C115 | Indented output | proved | `Formatter` | structural induction over programs with nested blocks and exceptions; independent specification of the lines |
| C116 | Frames of a detailed traceback | partial | `Formatter` | induction over the frames with the depth as invariant; witnesses |
| C117 | Details and facts of results | partial | `Formatter` | refinement to a map of values (invariant: valid references, no two keys share a list); witness for the copy |
| C118 | How the end of a test is reported | partial | `Console` | case analysis over the parts of a result; witness |
| C119 | Progress on the console | partial | `Console` | induction over the events with the flags of the file as invariant; witness |
| C120 | Summary of a session on the console | partial | `Console` | induction over results and errors; grouping of warnings as an invariant of the fold; arithmetic; witnesses |
| C121 | Boxes of messages | partial | `Console` | arithmetic on widths, for any wrapping; witnesses |
| C122 | The line in progress survives log records | partial | `Console` | a terminal with wrapping; invariant relating what is on it to the line remembered; witnesses |
| C123 | xUnit files | partial | `Reports` | structural lemmas on the tree; the file is written iff the details are writable; witnesses |
| C124 | Notifications | partial | `Reports` | induction over the notifiers and the characters of the text; witnesses |
| C125 | Frames of tracebacks | partial | `Reports` | induction over the frames; closed form as takeWhile and filter; witnesses |
| C126 | What slash list lists | partial | `Reports` | induction over the tests with the visited addresses; specification of first occurrences; witnesses |
| C127 | Exit code of slash list | proved | `Reports` | case analysis; totality by induction over the tests |
| C128 | An application leaves the process as it was | partial | `App` | the exit stack as an invariant of entering; case analysis over all ways to leave; witnesses |
| C129 | Records and warnings of the time before the session | partial | `App` | induction over the records; invariant on what is kept and delivered; witnesses |
| C130 | When the debugger starts, and which one | partial | `Frontend` | case analysis; induction over the debuggers; witnesses |
| C131 | Customization files | partial | `Frontend` | induction over entry points; specification as the codes up to the first that raises; witness |
| C132 | What slash list-config lists | partial | `Frontend` | subpaths are the non-empty prefixes; closed form by first components; witness |
| C133 | Warnings about functions defined twice | partial | `Frontend` | induction over the definitions with the names seen; duplicates removed by a fold; witness |
| C134 | Links to the last logs | partial | `Frontend` | induction over the tests; links as a map with frame lemmas; witnesses |
| C135 | Errors and failures of a result | partial | `Transfer` | invariant of objects, lists and remembered exceptions over all histories; memory of exceptions is monotone; witnesses |
| C136 | Results of parallel workers | partial | `Transfer` | frame lemma: an assignment changes one attribute; induction over the attributes that are sent; witnesses |
| C137 | The notice about slow operations | partial | `Transfer` | inductive invariant of a two-thread transition system, a decreasing measure for the end; witness |
| C138 | Plugins on the command line and in parallel runs | partial | `PluginCli` | induction over the arguments with the invariant of installed plugins; frame lemma over histories; witnesses |
| C139 | Imports of extensions | partial | `ExtHook` | characterization of the loop by an inductive relation of candidates that are missing; determinism of it; witness |
| C140 | Options of configuration values on the command line | partial | `Flags` | refinement of the parser to a fold over the occurrences of one declaration; reuse of C45 |
| C141 | Configuration of plugins | partial | `PluginConfig` | refinement to the model of the manager (C43); frame lemma per section; invariant over histories; witnesses |
| C142 | Variables in tracebacks | proved | `Frames` | characterization of the entries by membership; an event trace of calls of user code, with its provenance |
| C143 | The phase of cleanups | proved | `Phase` | simultaneous induction over the three mutually recursive functions with a replay of the trace |
| C144 | Names of the parameters of a test | partial | `VarNames` | invariant of the worklist (visited is closed up to the stack); names are uniquely decodable paths; termination by counting unvisited objects; composition with C18 and C21; counterexamples |
| C145 | Values of parameters | partial | `ParamValue` | induction over the decorators with the parametrization of each name as a function; characterization of normalization; counterexamples |
| C146 | Resuming a session stored remotely | partial | `ResumeRemote` | case analysis of the search with the list of queries; composition with the characterization of filtering of C34; counterexample |
| C147 | Saving the state of a session is all or nothing | partial | `ResumeRemote` | case analysis of the attempts; counterexample (an error although everything is stored) |
| C148 | Skipped and abstract test classes | proved | `TestClass` | induction over the declarations giving the attributes of each class; induction over the order of lookup |
| C149 | Tracebacks of handled exceptions are complete | partial | `TbProxy` | explicit layout of the objects allocated, by induction over the frames; tracebacks as paths without repetition; counterexample (a context used twice) |
| C150 | Colored output | partial | `Colors` | refinement against a terminal that applies codes; induction over texts, arguments and compositions; counterexamples |
| C151 | What parallel workers run | partial | `WorkerProc` | induction over the workers; a shell that cuts lines into words; counterexamples |
| C152 | No workers are left behind | partial | `WorkerProc` | equations for each loop over the workers, composed; an invariant for arbitrary failures; counterexamples |
| C153 | Content and recipients of notifications | partial | `Notify` | str.format as an automaton with a round trip for escaping; induction over the services; counterexamples |
| C154 | What is shown with results | partial | `Details` | splitting a joined text gives the lines back (induction over the lines); terminal model of C122 with monotone lengths of numbers; counterexamples |
| C155 | Variables of slashconf files | partial | `LocalConf` | invariant of the cache over all sequences of operations; nearest-first lookup by induction over the path; counterexample |
| C156 | slash.g and the context | partial | `CtxProxy` | heap of storages; frame property by induction over bracketed histories; counterexamples |
| C157 | The interactive shell | partial | `Interactive` | Induction on the lines with a specification of one line over the model of exception handling; the tests after the shell run in the model of the runner. |
| C158 | Links to logs of a CI system | partial | `CiPlugins` | Induction on the pieces of the template; stripping characterized by a decomposition. |
| C159 | Coverage reports | proved | `CiPlugins` | Induction on the list of reports; splitting and joining are inverse. |
| C160 | Where errors point to | partial | `ErrorPos` | Calls with explicit stacks; arithmetic of list prefixes for any stack and correction. |
| C161 | Numbers of tests | partial | `TestCount` | Invariant of the counters over any sequence of operations; counting by distinctness. |
| C162 | Resuming again and again | partial | `ResumeChain` | Induction over the resumptions with an invariant of the store: the session before is the last one of its directory, with the entries of its tests. |
| C163 | What slash run runs | proved | `Collect` | Composition of the characterisations of each step; a strict order on tests shows that the list for each path is determined by its members. |
| C164 | Arguments of test functions | partial | `Signature` | Python's rules for keyword calls as a function; case analysis and induction on the signature; witnesses for each kind of argument that is treated wrongly. |
| C165 | What exit status zero means | partial | `RunAll` | Composition of C163, C102, C92, C91, C99 and C47; a new invariant: what leaves a part of the runner as already handled was recorded as an error, a failure or an interruption unless it is a skip. |
| C166 | A resumption that ends with status zero leaves nothing undone | partial | `RunResume` | Induction over the resumptions. The invariant is that the last session stored for the directory has the entries of the last session that was stored, and that its tests are exactly those not yet done; a session stored without tests makes all later resumptions fail. The results of each session are those of the model of whole sessions, so that the claim is about everything tests, hooks and cleanups may do. Violated (witness proved) for tests of one function whose parameters are written alike: metadata is compared by address, so only one of those not begun is stored. |
| C167 | A parallel run that ends with status zero has run every test with success | proved | `ParRun` | The model of a whole parallel run (any sequence of actions of workers, manager and user) is put together with the model of the exit code. The parent stops its server only if it raises or if nobody is connected and all tests are finished; with the accounting invariant of the server each test then has exactly one result. A further invariant says that a worker whose tests agreed has left regularly, is still connected, or the server knows of a problem. |
| C168 | Moving into tmux | partial | `Tmux` | The two runs (the one that becomes tmux, and the one tmux starts) are put one after the other on the list of sessions. The command line is a text, which a shell cuts into words: the proof is by induction over the arguments. Refuted for arguments with blanks (they are not quoted), and for a run started while another run's session still has the agreed name. |
| C169 | Arguments of handling_exceptions | partial | `HandlingArgs` | The arguments are a tuple, a list or something else. For tuples the context is shown equal to the one of C40 and C41. Refuted for lists: an assertion accepts them, but isinstance and + do not, so that a TypeError takes the place of the exception. |
| C170 | Hooks defined by users | partial | `CustomHooks` | Invariant of all sequences of operations: the attributes of the module are its own ones and exactly the hooks that are defined. Refuted for names of the module's own functions, for hooks defined with gossip directly, and for lookups of unknown names. |
| C171 | Error files of parallel workers | partial | `ErrorFiles` | Invariant of the directory: names of files are those of the workers that wrote, without repetition, and contents are what was written. Names determine workers. Refuted for messages without line end (two messages become one line) and for messages without text. |
| C172 | Resuming and rerunning sessions by their ids run exactly the tests asked for | partial | `ResumeMany` | The entries stored for a session are a permutation of its tests with their statuses (for tests with different ids and addresses), so filters commute with storing; induction over the ids for the concatenation, and over the parts for the number of runs. Violated (witness proved): a test that failed in two of the sessions is run twice, and a test that failed in the first and succeeded in the second is run again. |
| C173 | A test that fails in a worker makes the whole parallel run fail | partial | `ParSend` | The schedule of the parallel model is filled in with the results the workers have, as they arrive; an invariant over all schedules says that everything sent is what arrived, so that C167 applies; C136 gives that what arrives counts as what the worker has. Proved for results whose errors, failures, skips and flags arrive. Violated (witness proved): if the list of errors of a test cannot be pickled or unpickled it is silently left out, and the run ends with status 0 although the test has an error. |
| C174 | The marks of fixtures in slash list are right | partial | `Override` | Unfolding the chain of namespaces that loading a file makes (invariants of C20), induction over files for the marks not changing. Violated (witnesses proved): a slashconf fixture that overrides one of a slashconf further up is not marked, as the variables of all slashconf files are merged into one namespace; a fixture that is used only by another fixture is marked as unused. |
| C175 | Dotted names in slash.exclude mean the parameter that is really used | partial | `ExclName` | A relation says which parameter one gets to by following arguments from function to function; induction on it against the loop that resolves the parts of the name. Violated (witnesses proved): the names in an exclusion of a fixture are looked up from the file of the test, so that another fixture may be taken; a fixture may be named that the one before it does not use; a parameter may hide a fixture that an argument stands for. |
| C176 | Plugins are told about the end of a session exactly if they were told about its start | partial | `Toggles` | Invariant over all histories of sessions (registrations belong to active plugins, toggles that are on to plugins activated before); induction over the callbacks of both hooks. Violated (witness proved, whatever the library does about exceptions): a toggle that is left on by a plugin deactivated during a session, or turned on by the callback a plugin without session_start leaves behind, makes session_end be called for a plugin activated during a later session; a plugin activated twice is told about the start twice. |
| C177 | What a plugin needs is called after what provides it | partial | `PluginDeps` | Invariant over all histories (everything active plugins ask for stays registered; all else but toggles belongs to active plugins), on top of a specification of what the library gossip does with dependencies, shown satisfiable by a topological sort proved correct. Violated (witnesses proved): an active provider with session_end and without session_start provides nothing at session_start, so sessions fail to start; a plugin rejected for an unknown hook goes on providing what it is marked with. |
| C178 | Decorators may be written in any order | partial | `Decorators` | Invariant of the functions and the shared objects over all lists of decorators (chain of functions around the innermost one, where each object is kept, that objects of different kinds are apart). Violated (witnesses proved): a fixture written as a generator with a decorator of the user's below slash.fixture is not started, its value is the generator; a tag, a fixture used or a parameter added under another name is also added to the first function if it has one already, a requirement always. |
| C179 | Parallel runs time out when they should, and only then | partial | `Watchdog` | Timed transition system on top of the one of C79 to C84, shown to refine it; invariants that relate the times the parent keeps to the history of keep-alives; a look as a fold over the connected workers; looks at regular intervals. Violated (witnesses proved): a worker that dies between its connection and its first keep-alive is never found, for any number of looks, as long as another worker is heard of; with the default values the only or last worker of a run is not found when it dies, since the time-out for the silence of all is shorter: the parent gives up and the test it was running has no result. |
| C180 | Registered skip exceptions behave like skip_test | partial | `SkipReg` | Scripts whose state contains the skip types; simulation between a session and the session in which some exceptions of the registered class are replaced by SkipTest (same trace, same end); invariant that relates each entry to the types registered at some moment between; what escapes from nested contexts. Violated for classes that count as failures, for example registered subclasses of AssertionError: they are recorded as failures, for all of them, although contexts that swallow exceptions treat them as skips. |
| C181 | Plugins in the search paths are found and installed | partial | `Discover` | Mutually recursive walk characterized by an inductive relation; induction over files and over the operations of each of them. |
| C182 | Context objects can be entered again | partial | `CtxReuse` | Simulation of scripts over kept objects by scripts over new ones (Verif.Model.Exc), by induction over scripts with an invariant on the objects that are entered. |
| C183 | Exceptions handled in several threads | partial | `Threads` | Small-step machine with shared marks and a schedule; a thread's steps are local to the exceptions it has (frame and locality lemmas), so an execution projects to the thread alone, which reaches what Verif.Model.Exc.eval says (by induction over scripts); a measure bounds the steps; an inductive invariant over all interleavings shows that nothing handled is lost. Sharing one exception object breaks at-most-once: check and mark are separate steps. |
| C184 | Python's warnings become warnings of the session | partial | `WarnPy` | Model of Python's filter list, registry, showwarning and catch_warnings together with slash's callback and log handler (with fuel, shown irrelevant); exact trace by mutual induction over programs with the invariant that the session's filters are in front. |
| C185 | Plugins are found by name, class or object | partial | `PluginFind` | Induction over histories of operations with invariants that relate the two tables; negation by evaluation for names that clash on the command line. |
| C186 | What threads report is recorded for the test that started them | partial | `ThreadTests` | Small-step machine with one access to the shared context per step; invariants over all schedules (phases of the main thread, outcomes per thread); a measure for termination; negation by evaluation of concrete schedules. |
| C187 | Several calls of run_tests in one session | partial | `WholeMany` | relation kept by each piece of a session (what is remembered, what may happen), induction on tests and calls; invariant that the remembered module is that of the last test started; concrete witnesses by evaluation in the kernel |
| C188 | Fixtures used through use_fixtures are active for the test | partial | `UseFixtures` | induction on the recursion (fuel) with an invariant on active fixtures and functions called; the set that is made is the closure of the names; descent for cycles; ranks for termination |
| C189 | A parallel worker runs its tests as a run without workers would | partial | `WholeWorker` | refinement between the two programs: the run of a last test is that of a test in a worker continued by a cleanup; a bisimulation up to the results of one test through cleanup manager, fixture store and scope manager; induction on the tests; invariants on the events |
| C190 | What slash.get_current_scope answers | partial | `CurScope` | invariant on the stack of scopes and the log of answers; induction on the tests |

## Where the code violates the property

Each of these is a theorem with a concrete witness; the property stays as stated and its `_partial` theorem has the strongest
part that was proved.

* **C05** (Session, module and test scopes are strictly nested and paired)
  * `C05_nesting_violated`: C05 is violated if teardown of a module scope raises a skip (e.g. `slash.skip_test` in a module cleanup): the next test does not get a scope, and the one after that destroys the session scope: the third test of this run never gets its module and test scopes.
  * `C05_second_run_violated`: C05 is violated by a second run in the same session: the manager does not forget the last module when the scopes are flushed, so the second run does not get session and module scopes.
* **C07** (Every test gets exactly one final status hook, consistent with its result)
  * `C07_interrupted_no_summary_violated`: C07 is violated: a test that is interrupted gets no summary hook although it was started.
* **C12** (The sequential runner accounts for every test)
  * `C12_skip_ends_run_violated`: C12 is violated: a skip raised while checking the requirements of a test (or by the `test_avoided` or `test_end` hooks) is not absorbed: it ends the whole run, and the remaining tests get no result.
  * `C12_interrupted_violated`: C12 is violated: when the user interrupts the run, the tests not begun get no result (instead of one marked not-run).
  * `C12_complete_violated`: C12 is violated: all tests ran, yet the session is not marked complete (the last test failed, with stop-on-error set).
* **C14** (File start/end reports are paired)
  * `C14_double_file_end_violated`: C14 is violated: a run that stops at the last test of a file reports the end of that file twice.
  * `C14_missing_file_end_violated`: C14 is violated: when the run is interrupted the end of the current file is never reported.
* **C16** (Within one test every needed fixture is computed exactly once and shared)
  * `C16_stale_dependency_violated`: C16 (violated): a fixture which outlives the value of a dependency keeps it. Fixture `1` (session scope) depends on the parametrized fixture `0`; the tests run with parameter 0, 1 (using `0` only) and 0 again: in the third test `1` is still the one built from the first value of `0`, cleaned up since, while the test gets a new one.
* **C17** (Fixtures are torn down in reverse activation order of their scope)
  * `C17_raising_cleanup_violated`: C17 (violated): a cleanup of a fixture that raises makes the fixture's other cleanups never be called.
  * `C17_interrupted_violated`: C17 (violated): after an interruption nothing is torn down.
  * `C17_skip_in_cleanup_violated`: C17 (violated): a cleanup which skips the test makes the other fixtures of the scope stay active.
  * `C17_dependents_first_violated`: C17 (violated): when the value of a parameter changes, a fixture can be torn down before another one built from it. Two session fixtures depend on a parametrized session fixture; the next test has another value of the parameter.
* **C20** (Fixture names resolve to the closest definition)
  * `C20_sibling_visible_violated`: C20 (violated): a fixture of a `slashconf` shared by two directories is bound to the definitions of the directory loaded first. The common parent defines 1 (which uses the name 2) and 2; directory A overrides 2. In a file of directory B, loaded after one of A, the name 2 means the parent's fixture, but the parent's fixture 1 uses the one of A.
  * `C20_renamed_violated`: C20 (violated): overriding a fixture of a parent directory by one of the same name, but kept in another variable, fails (an assertion).
* **C22** (Wide-scope parameters vary slowest)
  * `C22_indirect_violated`: C22 fails when a session fixture is asked for by a test fixture only: below, the test fixture 0 has the parameter 2 and asks for the session fixture 1, which has the parameter 3. Parameter 3 alternates.
* **C24** (Filter expressions mean what their boolean structure says)
  * `C24_word_starting_with_not_violated`: C24 fails for words that begin with `not` and a character which is not a letter, digit or underscore: `not-there` selects the tests which do not contain `-there`: not a test in `not-there.py`, but one in `elsewhere.py`.
  * `C24_rest_ignored_violated`: C24 fails for texts which are not expressions: they are not rejected, and what comes after the longest expression at the start is dropped. `a b` and `a and (b` are read as `a`.
* **C26** (Tag merging never silently overwrites a value)
  * `C26_order_violated`: C26 fails when one source gives a tag a value and another one does not: whether that is a conflict depends on which one comes first.
  * `C26_set_up_violated`: C26 fails for fixtures declared with `autouse`, those named by `use_fixtures`, and those that `before` or `after` of a class take: they are set up for the test, but their tags are not tags of the test (their conflicts with tags of the test are not noticed either), although those of arguments are.
* **C27** (Exclusions exclude exactly the listed value combinations)
  * `C27_same_names_violated`: C27 fails for two declarations with the same names: only the one applied last (the outer one) counts.
  * `C27_indirect_fixture_violated`: C27 fails for declarations on a fixture the test uses through another fixture: only the fixtures among the arguments are looked at. (Fixture 1 is an argument, and uses fixture 5, on which the value of parameter 3 is excluded.)
  * `C27_names_in_list_violated`: C27 fails for several names given as a list (which `exclude` accepts): the check itself raises an error.
* **C28** (Unmet requirements prevent the test from running)
  * `C28_use_fixtures_violated`: C28 fails for fixtures that the test names by `use_fixtures`: their requirements are not looked at, and they are set up.
  * `C28_before_violated`: C28 fails for tests of classes: the requirements of fixtures that `before` or `after` take are not looked at, and they are set up (unless the method takes them as well).
  * `C28_nofixtures_violated`: C28 fails for tests marked with `nofixtures`: autouse fixtures are set up for them, but their requirements are not looked at.
* **C30** (The parallel server loses no test)
  * `C30_late_report_violated`: C30, missing: a worker whose keep-alive lapsed is reported as failed but may still be running; if it then reports the test, the test counts as finished twice (the server does not forget what the dead worker was executing). The server then takes the run for finished while another test is still executing.
  * `C30_reconnect_violated`: C30, missing: a worker connecting again while it executes a test; the test is neither waiting nor executed nor finished.
* **C31** (Forced and excluded tests go where they were told to)
  * `C31_forced_late_violated`: C31, missing: a test forced onto a worker once the server has been created (as in a `before_worker_start` hook, where the documentation suggests it) is handed to another worker.
  * `C31_forced_twice_violated`: C31, missing: a test forced onto two workers is handed only to the last one.
* **C32** (Tests are served only after all workers agreed on the collection)
  * `C32_counts_validations_violated`: C32, missing: the server counts validations and not workers; one worker validating twice stands for two, and a worker with another collection is then given a test.
* **C33** (The parallel run ends with everything reported)
  * `C33_interrupted_violated`: C33, missing: an interruption stops the run without giving the waiting tests results.
  * `C33_failed_disconnect_violated`: C33, missing: so does a worker leaving because its collection differs. The parent goes on waiting for tests (until its time-out), although all workers are gone.
  * `C33_excluded_everywhere_violated`: C33, missing: a test excluded from every worker never gets a result, and the parent waits (until its time-out) although all workers were told there are no more tests and disconnected.
* **C34** (Resuming reruns exactly the unsuccessful tests)
  * `C34_same_address_violated`: C34 fails for two tests with one address (two variations which are written the same way, see `C69_same_text_violated`) neither of which was run: only one of them is saved, and the other one is not offered.
  * `C34_failed_and_skipped_violated`: C34 fails for a test that both failed and was skipped (for example in its teardown): `--failed-only` does not offer it.
* **C39** (A test address selects what it names)
  * `C39_variation_violated`: C39 fails for tests with a variation: loading `f:t(a=1)`, which is the address of a test in `f`, is refused.
* **C43** (Plugin activity invariants)
  * `C43_twice_violated`: C43 fails if an active plugin is activated again: its methods are registered twice.
  * `C43_replaced_violated`: C43 fails if another plugin of the same name is installed: the methods of the one that was active stay registered although it is not installed any more.
  * `C43_noops_violated`: C43 fails for what orders hooks: if activating a plugin is refused, the no-ops registered for it stay, even when it is uninstalled.
  * `C43_toggle_violated`: C43 fails for toggles: a plugin which uses the end of the session, but not its start, leaves a registration for the start when it is deactivated.
* **C44** (--without wins over --with)
  * `C44_clash_violated`: C44 fails for plugins whose names are the same on the command line: asking for the plugin `a-b`, by the object itself, activates `a b`, although `a-b` was predicted.
  * `C44_uninstalled_violated`: C44 fails if a plugin is uninstalled while its activation is pending: the others are not activated either.
* **C47** (Exit code is zero exactly for successful sessions)
  * `C47_system_exit_violated`: C47 is violated: a test that raises SystemExit with code 0 (or without a code) ends the run with status 0, though its result has an error and other tests were not run.
  * `C47_resume_nothing_violated`: C47 is violated for `slash resume`: if there is nothing to resume, the status is 0 though no test was run.
* **C48** (Ignored warnings are exactly the matching ones)
  * `C48_matches_violated`: C48 is violated: a filter for warnings with an empty message ignores warnings with any message.
* **C50** (Suite files expand to what they list)
  * `C50_filter_with_comma_violated`: C50 is violated for filters with a comma, which is an ordinary character of filters elsewhere (in addresses, for example): the filter ends at the comma.
* **C51** (An erroneous test is never announced as merely skipped)
  * `C51_error_not_announced_as_skip_violated`: C51 is violated: an error followed by a skip (e.g. an error added with `slash.add_error`, then `slash.skip_test`) fires the skip hook; so does an interrupted test that has a skip.
  * `C51_interruption_not_announced_as_skip_violated`: 
* **C52** (Temporarily ignored warnings are restored also when the block raises)
  * `C52_restored_violated`: C52 is violated: if the block raises, the filter of the context stays.
* **C53** (A repeat directive also applies to lines naming another suite file)
  * `C53_repeat_of_suite_violated`: C53 is violated: a line naming another suite file gives what that file expands to once, though it says twice.
* **C54** (Marking an exception class does not affect unrelated classes)
  * `C54_class_marks_are_local_violated`: C54 is violated: marking a class whose base class has been marked before (as `app.py:25` does with `SlashException`) writes into the dictionary of the base class, so the mark shows on the base class, on its other subclasses and on their instances. Here 1 and 2 are both subclasses of 0.
* **C55** (Critical cleanups always take place)
  * `C55_critical_always_runs_violated`: C55 is violated: "critical: this cleanup will take place even when tests are interrupted by the user" (documentation of `add_cleanup`). When the interruption arrives while another cleanup of the scope is running, the remaining ones - critical ones included - are dropped without being called.
* **C56** (Naming a scope that is not open is reported as an incorrect scope)
  * `C56_incorrect_scope_reported_violated`: C56 is violated: after a scope was opened and closed once, naming it raises `IndexError` rather than `IncorrectScope`.
* **C57** (An interrupted session is reported as interrupted)
  * `C57_interrupted_session_violated`: C57 is violated: an interruption outside any test marks the global result, which `is_interrupted` of the session ignores.
* **C58** (A failed session activation leaves no trace)
  * `C58_failed_activation_violated`: C58 is violated: if entering the logging context (e.g. creating the log directory) raises, the context pushed by `activate` stays on the stack, with the failed session as `context.session`; nobody calls `deactivate`.
* **C59** (Every started session is ended exactly once)
  * `C59_session_end_fires_violated`: C59 is violated: `session_start` completed, but the end hook never fires if a session cleanup raises an interruption (or a skip) - the only kinds that get out of `pop_scope`.
* **C60** (No scope stays open after a run)
  * `C60_no_scope_left_open_violated`: C60 without the condition is violated: if the user interrupts the teardown of the module scope, the session scope stays open and its cleanups do not run.
* **C61** (An interruption ends the run)
  * `C61_interruption_ends_run_violated`: C61 is violated: an ordinary error in the end hook of an interrupted test hides the interruption; the run goes on with the next test and returns normally.
  * `C61_skip_in_cleanup_violated`: C61 is violated by teardown, too: a cleanup of the interrupted test that skips hides the interruption.
* **C63** (A result tells what really happened)
  * `C63_success_without_running_violated`: C63 is violated: a test whose body was never run has a successful result, and the hook for successful tests fires for it. (A module-scope cleanup of an earlier test skips: the skip is added to the earlier test's result, and to no other any more, but ends the later test.)
  * `C63_exception_raised_again_violated`: C63 is violated: a test whose body raises an exception that an earlier test raised before (an exception object kept somewhere, for instance by a future) has a successful result.
* **C64** (Nothing is handed out after the parallel run was stopped)
  * `C64_connect_after_interruption_violated`: C64, missing: if the interruption comes while the workers are still starting, a worker connecting afterwards puts the server back to work.
* **C65** (Tagging a class does not tag other classes)
  * `C65_base_class_tagged_violated`: C65 fails: class 1 derives from class 0, which is tagged with tag 7. Tagging class 1 with tag 8 tags class 0 with it as well.
* **C66** (Requirements are local and inherited)
  * `C66_late_violated`: C66 fails if a class is decorated after one derived from it: class 1, which has a requirement of its own, does not have the one its base class is given later, while a class without requirements of its own (2) has it.
* **C67** (A function gets exactly the arguments it names)
  * `C67_part_of_name_violated`: C67 fails if a fixture names by `use_fixtures` something that is part of the name of an argument: for the argument `ab`, whose fixture uses `b`, the function is given a value for `b` as well, which it does not take.
  * `C67_wrong_fixture_violated`: C67 fails if a fixture names by `use_fixtures` the same name as an argument which stands for another fixture: for the arguments `a` and `b`, the latter standing for `c`, where the fixture of `a` uses `b`, the argument `b` gets the fixture `b`.
* **C68** (use_fixtures only affects the function it decorates)
  * `C68_shared_list_violated`: C68 fails if one list is given to two functions: names added to the first of them by another `use_fixtures` are added to the second one too.
* **C69** (Different tests have different addresses)
  * `C69_label_newline_violated`: ... A newline at the end is accepted.
  * `C69_same_text_violated`: C69 fails for values with the same text: `1` and `'1'` give two tests with one address.
  * `C69_looks_like_index_violated`: C69 fails for a printable value that looks like the name and the index of another one.
  * `C69_no_label_violated`: C69 fails for `slash.param` values without a label.
* **C70** (A parameter can not be declared twice)
  * `C70_no_argument_violated`: C70 fails for names that are not arguments (they are for use by the body through keyword arguments): the second declaration wins silently.
  * `C70_tuple_violated`: C70 fails for an argument that is declared by itself and then in a tuple: the first declaration is lost silently.
* **C71** (The function name of a test)
  * `C71_alias_violated`: C71 fails for a class which is also known under another name in the module: asking for the function name of the tests that are loaded from it under the other name raises an assertion error.
* **C72** (Resuming loads the saved tests)
  * `C72_unnamed_parameters_violated`: C72 fails for variations by parameters that no name is bound to (their `id` is empty): for one entry all variations of the test are loaded.
* **C77** (The context that restores plugin state)
  * `C77_replaced_violated`: C77 fails for plugins replaced in the context: the new object stays installed.
  * `C77_internal_violated`: C77 fails for internal plugins: one that was uninstalled in the context is not internal any more.
  * `C77_pending_violated`: C77 fails for what is pending: requests made in the context stay.
* **C78** (A directory of suite files stands for the suite files in it)
  * `C78_each_file_once_violated`: C78 is violated: a suite file in a subdirectory of the given directory is used twice.
* **C83** (At the end of a parallel run each test has a result)
  * `C83_other_collection_violated`: C83, missing: if a worker collected other tests, all workers leave, no test has a result, and the parent goes on waiting (until its time-out).
* **C84** (Parallel runs end)
  * `C84_early_death_violated`: C84, missing: a worker that dies after it connected but before its keep-alive thread was first heard is never reported as dead: whatever happens later, it stays connected for the server, and the parent goes on waiting. Only the time-out for the whole server (no request of anybody for a long time) ends such a run.
* **C85** (Exceptions of hooks are recorded in the result of the test they are fired for)
  * `C85_end_hook_skip_lost_violated`: C85 is violated by skips: a skip raised by the `test_end` hook of the last test vanishes, while the same skip of an earlier test is recorded.
  * `C85_start_hook_error_lost_violated`: C85 is violated: if the start hook of a test raises and then a cleanup of the test is interrupted by a skip, the error of the hook vanishes: the test is announced as skipped.
* **C86** (Scopes a test runs in)
  * `C86_scopes_violated`: C86 is violated without this hypothesis: a test whose function is called while no module scope is open.
* **C87** (Module and session scopes are shared by the tests of a module and of the session)
  * `C87_shared_violated`: C87 is violated if a test between them did not begin because of a skip: tests 1 and 3 are of the same module and start one after the other, but the scope of the module (number 2) was closed in between and test 3 has none.
* **C89** (Nothing is left when the session ends)
  * `C89_skip_violated`: C89 is violated by the first of these: a cleanup of a module raises a skip when the first test of the next module is about to begin, and the test after it is of a third module. Then a cleanup of the session is never called and the end of the session never announced.
  * `C89_interrupt_violated`: C89 is violated by the second: if the run was stopped by an error and a cleanup of the module is then interrupted, a critical cleanup of the session is never called, the end of the session is never announced, and not the interruption is raised but an error.
  * `C89_unscoped_violated`: Neither the theorem nor the code covers cleanups that are on no scope: a cleanup registered when the end of the session is announced is accepted and never called.
* **C92** (Success is announced only for tests that were run)
  * `C92_success_means_run_violated`: C92 is violated otherwise: the skip is recorded in the result of the test that registered the cleanup, and success is announced for a test that was never started, whose function was never called.
* **C93** (Start callbacks of fixtures)
  * `C93_skipped_violated`: Where the code violates C93: a test of a class whose `after` needs a fixture that cannot be set up leaves the marks of the fixtures it started; in the next test the start callback of the fixture, which is still active, is not called.
  * `C93_skip_violated`: Where the code violates C93: an end callback that skips the test keeps the other fixtures from getting their end callbacks, and in the next test from getting their start callbacks.
* **C94** (End callbacks of fixtures)
  * `C94_rest_violated`: Where the code violates the full C94: an end callback that raises keeps the later end callbacks of its fixture from being called; and end callbacks are called although the start callbacks of the fixture were not.
  * `C94_skip_violated`: Where the code violates the full C94: an end callback that skips keeps the end callbacks of other fixtures from being called, as does an interruption.
* **C96** (Fixtures written as generators)
  * `C96_lost_cleanup_violated`: Where the code violates the expectation that all cleanups of a fixture are called: those added before the `yield` are lost if the part after it raises.
* **C97** (Fixtures named in use_fixtures)
  * `C97_shared_list_violated`: Where the code violates C97: a list object given to the decorators of two functions, one of which has another decorator, is extended, so the other function uses a fixture named in none of its decorators.
* **C98** (A scope takes its fixtures along)
  * `C98_interrupted_violated`: C98 is violated after an interruption: the function of the test is interrupted, and its fixture is still active and its cleanup was not called when the end of the session is announced.
  * `C98_skip_violated`: C98 is violated if the cleanup of a fixture raises a skip: the fixtures activated before it are not torn down with the test.
* **C103** (stop_on_error)
  * `C103_stop_violated`: C103 is violated without the hypothesis that a test is the current one: an error noted in the result of the session by a `session_start` hook does not keep the first test from being run.
* **C105** (An interruption of a test ends the session)
  * `C105_interrupt_violated`: C105 is violated without these hypotheses: the interruption of test 1 is replaced by a skip raised by a critical cleanup, by an error of a `before_test_cleanups` hook, by an error of a `test_end` hook; the session goes on with test 2 and raises nothing.
* **C106** (Content of log files)
  * `C106_filter_violated`: The full claim, that silenced loggers and low levels of slash itself get into no log file, is false for the unified session log.
  * `C106_extra_violated`: An extra handler that does not bubble (the default of `logbook`) keeps everything out of the log files.
  * `C106_shared_violated`: If the log of a test is also the unified log of the session, its records are written twice.
* **C108** (Removing log files)
  * `C108_kept_violated`: The full claim, `keep_failed` keeps the logs of all failed tests, is false: if a later test has the same path and succeeds, the file is removed.
* **C109** (Each record is delivered once)
  * `C109_twice_violated`: The full claim, each record is delivered once, is false: with the default configuration an extra handler gets a record that slash's own runner logs in a test twice, and an error of slash itself may be captured as two errors.
* **C112** (Marks of plugins and their methods)
  * `C112_local_violated`: The full claim, marking a class does not mark others that do not inherit from it, is false: marking a class whose base class has marks marks the base class and all classes that inherit from it.
* **C114** (Signal handlers are restored)
  * `C114_restored_violated`: The full claim, deactivating the plugin always restores the handlers of before, is false: registering another handler for a signal that is handled already, or activating the plugin twice, makes it "restore" its own handler.
* **C116** (Frames of a detailed traceback)
  * `C116_frames_violated`: The full claim, all frames are shown at the same indentation, is false: a frame with both kinds of variables moves the following ones to the right, a frame without variables to the left.
* **C117** (Details and facts of results)
  * `C117_copy_violated`: The full claim, that a copy never changes, is false: appending to a list shows in copies made before.
* **C118** (How the end of a test is reported)
  * `C118_worst_violated`: The full claim, that an erroneous test is reported as an error, is false: with a skip as well it is reported as a skipped one.
* **C119** (Progress on the console)
  * `C119_pass_violated`: `PASS` means that no test of the file had an error or a failure, not that its tests succeeded: an interrupted test and errors of the session do not count.
* **C120** (Summary of a session on the console)
  * `C120_messages_violated`: The full claim is false: without tracebacks (`--tb=0`) nothing says what an exception was; and with single frames an error without frames makes the summary fail.
  * `C120_warnings_violated`: Different warnings from the same place are not all shown.
* **C121** (Boxes of messages)
  * `C121_box_violated`: The full claim is false for headlines that do not fit: their beginning is dropped, not their end, and the line may still be too long.
* **C122** (The line in progress survives log records)
  * `C122_restored_violated`: The full claim is false: at the right edge of the terminal the record is written over the line in progress; and a message of the session's reporter erases the line in progress for good.
* **C123** (xUnit files)
  * `C123_written_violated`: The full claim, a session always leaves a report, is false: a detail that is `None` leaves an empty file.
  * `C123_counts_violated`: The full claim is false: `tests` also counts tests that were not started; and an error that was added for a failed assertion is counted as an error but shown as a failure.
* **C124** (Notifications)
  * `C124_all_violated`: The full claim is false: a skip raised while notifying (or an interruption) keeps the others from being used.
  * `C124_recipients_violated`: The second mail of a session (after one from the debugger) has the user's address twice.
* **C125** (Frames of tracebacks)
  * `C125_user_violated`: The full claim is false: frames of user code called by `slash.assertions` (a function given to `assert_raises`, a comparison) are not shown.
  * `C125_correction_violated`: The full claim is false: with a correction larger than the number of frames some are shown again.
* **C126** (What slash list lists)
  * `C126_no_params_violated`: The full claim is false: a parenthesis in the path of a file cuts the address there, so different tests are listed as one; with `--relative-paths` the command crashes.
  * `C126_relative_violated`: The full claim is false: with a colon in a parameter the path and the test are taken for a path together.
* **C128** (An application leaves the process as it was)
  * `C128_restored_violated`: The full claim is false: if a callback of `result_summary` raises, nothing is undone and `app_quit` is not triggered; a handler of SIGTERM that was not installed by Python is not put back; if the session cannot be activated, its context stays; if closing its log files fails, `app_quit` is not triggered.
* **C129** (Records and warnings of the time before the session)
  * `C129_logs_violated`: The full claim is false: if the delivery of a record fails, those before it are delivered twice and those after it never.
  * `C129_warnings_violated`: The full claim is false: if entering fails they are lost, and if the hook raises for one of them, so are it and those after it.
* **C130** (When the debugger starts, and which one)
  * `C130_needed_violated`: Without a session a skip is debugged although skips are not to be.
  * `C130_one_violated`: The full claim is false: `NotImplementedError` raised in a debugger starts the next one.
* **C131** (Customization files)
  * `C131_path_violated`: So additions to `sys.path` in such a file are lost, while those of `SLASH_SETTINGS` are kept.
* **C132** (What slash list-config lists)
  * `C132_below_violated`: The full claim, only values below the given paths, is false: `slash list-config log.root` lists everything below `log`.
* **C133** (Warnings about functions defined twice)
  * `C133_violated`: The full claim, a test hidden by a later definition of its name is warned about, is false for definitions that are no plain functions at the top.
* **C134** (Links to the last logs)
  * `C134_violated`: The full claim is false: tests that log to the file of the session leave the link to the last test as it was, and a failing test without a log file removes the link to the last failed test.
* **C135** (Errors and failures of a result)
  * `C135_failures_violated`: The full claim, errors are no failures, is false: adding the active exception as a failure turns the error that was recorded for it into a failure.
  * `C135_same_violated`: Else there are two errors.
  * `C135_fatal_violated`: Marking an exception as fatal after an error was made from it has no effect.
  * `C135_released_violated`: Else it is kept.
  * `C135_exception_violated`: The full claim is false: a failure that is given but not active is lost, also when it is added again, and another one that happens to be active is recorded in its place.
* **C136** (Results of parallel workers)
  * `C136_violated`: The full claim is false: if the errors of a test cannot be pickled (or unpickled), the test is successful for the parent; facts are never sent; if pickling raises an exception that is not expected nothing arrives.
* **C137** (The notice about slow operations)
  * `C137_fails_violated`: It fails if the session is closed in the block after the message was shown.
* **C138** (Plugins on the command line and in parallel runs)
  * `C138_names_violated`: Else a plugin has no name on the command line.
* **C139** (Imports of extensions)
  * `C139_failure_violated`: The full claim is false: if an extension fails with another exception after it was imported by that name, a second import succeeds with the module that failed.
* **C140** (Options of configuration values on the command line)
  * `C140_last_wins_violated`: C140 is violated: of the options of one value the last one given does not prevail if one of them takes an argument and another one is a flag: flags are applied after arguments.
* **C141** (Configuration of plugins)
  * `C141_clash_violated`: C141, violated: with names that differ only in a space and an underscore, uninstalling one plugin removes the section of the other, whose `current_config` fails from then on.
  * `C141_replaced_violated`: C141, violated: a plugin without defaults that is installed over one of the same name is given the section of the latter.
* **C144** (Names of the parameters of a test)
  * `C144_inherited_before_violated`: C144: the full statement is false: `before` of a class and of its base class, both parametrized by `x` (parameters 11 and 12): the test has four variations, and pairs of them have the same indices and hence the same address.
  * `C144_autouse_same_name_violated`: C144: the full statement is false: an autouse fixture of a file that has the name of an autouse fixture of `slashconf.py`, both parametrized by `x`.
  * `C144_tuple_in_fixture_violated`: C144: of several names parametrized together in a fixture, only the first gets a name: `parametrize(('p', 'q'), ...)` of fixture `a`. For a test function each of the names is there.
* **C145** (Values of parameters)
  * `C145_label_newline_violated`: C145 fails for labels that end with a newline: one is accepted.
  * `C145_two_annotations_violated`: C145, full statement (a value with annotations stands for that value): it fails if both `slash.param` and `slash.tag` are put on a value, as in `1 // slash.param('x') // slash.tag('t')`: the argument gets the object that `//` made, and the label is lost.
  * `C145_tuple_of_one_violated`: C145, full statement (names in a tuple get the elements of the values): it fails for a tuple of one name, `parametrize(('a',), [(1,)])`: `a` gets the tuple, and values that are no tuples are accepted.
* **C146** (Resuming a session stored remotely)
  * `C146_version_violated`: C146 fails for a plugin named `backslash` that can resume and knows the session, if the client library is not installed as a distribution, or has a version such as `2.dev1`: an `AttributeError` or a `ValueError` is raised and no query is made.
* **C147** (Saving the state of a session is all or nothing)
  * `C147_error_after_success_violated`: C147 fails for a commit that succeeds at once: committing goes on, and if the database is busy at the third commit then an error is raised although everything is stored.
* **C149** (Tracebacks of handled exceptions are complete)
  * `C149_reused_context_violated`: C149 fails for a context that is used for a second exception: the traceback recorded for the first one (object 0) then shows the second one.
* **C150** (Colored output)
  * `C150_error_stream_violated`: C150 fails for errors: whether they are colored depends on the stream for reports. If this is a terminal, codes are written to a stream for errors that is none, such as a file; and if it is none, errors on the terminal are not colored.
  * `C150_title_violated`: C150 fails for the tests that `slash list` lists: their addresses are given a style that gets lost, so they are not colored even if colors are forced.
* **C151** (What parallel workers run)
  * `C151_tmux_space_violated`: The code does not quote the arguments for the shell: a directory with a blank in its name becomes two arguments of the workers in `tmux`. Worker processes get it unchanged.
  * `C151_dashes_violated`: The code puts its options behind the arguments of the user: after a `--` they are no options any more. The worker is not told that it is one, but that it is to have workers itself.
* **C152** (No workers are left behind)
  * `C152_interrupted_start_violated`: An interruption while workers are being started ends in `AttributeError`, the servers are not told to stop: the code waits for workers that were not started.
  * `C152_hook_error_violated`: An exception other than an interruption while workers are being started: the workers that run are not asked to end, although they would, and the parent waits for them for ever. (A worker waits until all have connected.)
  * `C152_tmux_unconnected_violated`: A worker in `tmux` that did not connect in time: the parent gives up with `TypeError` instead of the time-out, does not ask the other workers to end if they come later, and leaves its servers running.
  * `C152_tmux_left_violated`: A worker in `tmux` that takes long to end, or was not heard of any more, still runs when the run of the parent is over.
  * `C152_second_interruption_violated`: A second interruption, while the parent waits for its workers after the first one: the servers are not told to stop.
* **C153** (Content and recipients of notifications)
  * `C153_title_violated`: The code formats the title twice: on a host with a brace in its name nobody is told anything.
  * `C153_escapes_violated`: An exception that is not swallowed, or one of the user's hook `prepare_notification`, keeps the others from being told.
  * `C153_hook_violated`: An exception of the user's hook `prepare_notification` keeps every service from being told, and is not swallowed.
  * `C153_recipients_violated`: With it, the user is added to the recipients again with every message: the one after `n` others has them `n + 1` times.
* **C154** (What is shown with results)
  * `C154_form_feed_violated`: The code takes other characters for ends of lines than the file: the line of the error is shown as two, and only the rest of it is marked.
  * `C154_reason_violated`: `skip_test` may be given anything as its reason, but the summary fails for what is no string.
* **C155** (Variables of slashconf files)
  * `C155_again_violated`: A file that fails makes the files before it be run again with the next test file.
* **C156** (slash.g and the context)
  * `C156_truth_violated`: Without a session `slash.session` equals `None`, but counts as true.
  * `C156_attributes_violated`: Without a session the id of the session cannot be asked for; in a session the names of the class and the method of the test cannot, although they can without one.
* **C157** (The interactive shell)
  * `C157_names_violated`: A keyword argument is replaced by an attribute of `slash.g`.
  * `C157_hook_violated`: Once a hook for exceptions raised, nothing is recorded any more.
  * `C157_no_session_violated`: Without a session a request to terminate is ignored.
  * `C157_goes_on_violated`: A request to terminate ends the shell, and both the test and the session count as interrupted, but the tests after it are run.
* **C158** (Links to logs of a CI system)
  * `C158_no_log_violated`: A test without a log file gets an error of the plugin.
* **C160** (Where errors point to)
  * `C160_outermost_violated`: An error added at the outermost level of a program points nowhere.
  * `C160_assertions_violated`: An error added by code that `slash.assertions` called points to the caller of the assertion.
  * `C160_log_violated`: An error that was logged points to the handler of slash, not to the code that logged it.
* **C161** (Numbers of tests)
  * `C161_total_violated`: With the interactive test, there is one test more than the total number says.
  * `C161_bound_violated`: With the interactive test, the last test has a number beyond the total.
* **C162** (Resuming again and again)
  * `C162_nothing_left_violated`: C162 fails when nothing is left: the first resumption after all tests succeeded runs nothing and is fine, the next one fails.
  * `C162_failed_load_violated`: C162 fails after a resumption that could not load the tests (here: their file was missing for a while): it is stored as a session without tests, and the next resumption fails although the file is there again and no test has succeeded.
  * `C162_interactive_violated`: C162 fails for sessions with the interactive test: it is stored under a file that does not exist (number 0 here), and unless it succeeded the session cannot be resumed at all.
  * `C162_repeat_violated`: C162 fails for tests with a `repeat` marker: each of the two runs of the test is stored, and each is repeated when it is resumed: four runs, then eight.
* **C164** (Arguments of test functions)
  * `C164_default_violated`: An argument with a default must name a fixture all the same.
  * `C164_variadic_violated`: `*args` and `kwargs` are taken for arguments that name fixtures; if there is a fixture of that name, the call fails, or the fixture ends in `kwargs`.
  * `C164_positional_violated`: A positional-only argument is looked up, but cannot be given, whether it has a default or not.
  * `C164_extra_violated`: A parameter that is no argument is found out only when the test runs.
  * `C164_self_violated`: The first argument of a method is taken for a fixture unless it is called `self`; a function's first argument is not if it is.
  * `C164_this_violated`: A fixture called `this` is not given to tests.
* **C165** (What exit status zero means)
  * `C165_zero_means_run_violated`: C165 is violated by a cleanup of a module that raises a skip: the status is zero, a test is not shown as skipped, and its function was never called.
* **C166** (A resumption that ends with status zero leaves nothing undone)
  * `C166_all_done_violated`: C166 is violated for tests which differ only in parameters that are written alike: if neither of them was begun in the first session (here a hook at its start raises), only one of them is stored. `slash resume` runs it and ends with status zero, although the other one was never run.
* **C168** (Moving into tmux)
  * `C168_space_violated`: C168 (violated): the arguments are not quoted: a filter of several words becomes several arguments.
  * `C168_foreign_session_violated`: C168 (violated): a run started outside of `tmux` while a session of the agreed name exists, for example one of another run that has not come to give it its own name yet, does not move into `tmux`; it takes the session of the other run for its own.
* **C169** (Arguments of handling_exceptions)
  * `C169_list_violated`: C169 (violated): `swallow_types` may be a list, says the assertion; but an exception of a type in the list is not swallowed, a `TypeError` comes in its place.
  * `C169_list_swallow_violated`: C169 (violated): with `swallow` a list is refused, by a `TypeError`.
* **C170** (Hooks defined by users)
  * `C170_own_violated`: C170 (violated): a hook with a name of the module's own takes the place of it: `slash.hooks.register` is no function then; and it is gone for good after the hook was removed.
  * `C170_ensure_attr_violated`: C170 (violated): a hook defined with `gossip` is accepted by `ensure_custom_hook`, but is not an attribute.
  * `C170_remove_violated`: C170 (violated): removing such a hook removes it, and raises an exception nevertheless.
  * `C170_get_violated`: C170 (violated): `get_hook_by_name` of a name that is no hook raises, though `None` is promised.
* **C171** (Error files of parallel workers)
  * `C171_lines_violated`: C171 (violated): no line end is written after a message: two messages of a worker are logged as one line.
  * `C171_empty_violated`: C171 (violated): a worker that fails with an exception without text is not mentioned at all; nor is it said that there are no files.
* **C172** (Resuming and rerunning sessions by their ids run exactly the tests asked for)
  * `C172_twice_violated`: C172 does not hold as one would wish: a test that failed in two of the sessions is run twice, and one that failed in the first and succeeded in the second is run again.
* **C173** (A test that fails in a worker makes the whole parallel run fail)
  * `C173_lost_violated`: The full claim is false: if the errors of a test cannot be pickled, or not be unpickled, the run ends with status 0 although the test has an error.
* **C174** (The marks of fixtures in slash list are right)
  * `C174_slashconf_violated`: A `slashconf` that defines fixture 1 again, with one further up that defines 1 and 2, and a file that defines 2 again: only the latter is marked.
  * `C174_unused_violated`: A fixture that the only test uses by way of another fixture is said to be unused.
* **C175** (Dotted names in slash.exclude mean the parameter that is really used)
  * `C175_fixture_violated`: Names in an exclusion of a fixture are looked up from the file of the test, not from where the fixture is defined: `exclude("2.3", …)` for fixture 1, which gets the parameter 7, goes by the parameter 8 of the fixture defined in the file. The value 5 of the former is not left out, and 6 is although it is not a value of the former; if the test does not use that fixture, loading fails.
  * `C175_unused_violated`: A fixture need not use the one named after it: fixture 102 has no arguments, but the name 2.1.2.3 leads to a parameter.
  * `C175_clash_violated`: If a function has a parameter with the name of a fixture that another of its arguments stands for (`slash.use`), the name does not lead to that fixture.
* **C176** (Plugins are told about the end of a session exactly if they were told about its start)
  * `C176_only_violated`: C176, violated: a plugin that was deactivated in an earlier session and is activated again while a session is running is told that it ends, though it was not told that it started (whatever `gossip` does about exceptions); the same goes for a plugin without `session_start`, which leaves a callback behind, even if it was active in no session before; and a plugin that is activated twice is told about the start twice, and once about the end.
* **C177** (What a plugin needs is called after what provides it)
  * `C177_only_ends_violated`: C177, violated: an active plugin marked as providing something, with a method for the end of the session and none for its start, does not provide it at the start, so that a plugin which needs it makes starting a session fail.
  * `C177_incompatible_violated`: C177, violated: a plugin whose activation fails because it has a method for an unknown hook goes on providing what it is marked with, though it is neither active nor installed.
* **C178** (Decorators may be written in any order)
  * `C178_generator_violated`: For calls, the order does matter: a fixture written as a generator, with a decorator of the user's (made with `functools.wraps`) below `slash.fixture`, is not started: the value of the fixture is the generator.
  * `C178_shared_violated`: Otherwise `f` does change: a tag given to `g` is also one of `f` if `f` had another tag; a requirement of `g` is always one of `f`; fixtures used by `g` are used by `f` if `f` uses another one; and so on for parameters.
* **C179** (Parallel runs time out when they should, and only then)
  * `C179_early_death_violated`: C179, missing: a worker that dies after it connected and before its first keep-alive is never found, however long the run waits, as long as another worker is heard of: for any number of looks, two seconds apart.
  * `C179_only_worker_violated`: C179, missing: as the time-out for the silence of all workers (20 seconds) is shorter than the one for a single worker (60), the only worker of a run, or the last one, is not found when it dies: the parent gives up before, and the test the worker was running has no result at all.
* **C180** (Registered skip exceptions behave like skip_test)
  * `C180_failure_violated`: C180 is violated for classes that count as failures, like a user's subclass of `AssertionError`: registered or not, its exceptions are recorded as failures, so that the test fails instead of being skipped.
  * `C180_end_violated`: C180 is violated when the end of a test is announced: a skip raised there, registered or `SkipTest` itself, is recorded as a skip but ends the run, while after the same exception raised by the body the next test is run.
* **C181** (Plugins in the search paths are found and installed)
  * `C181_never_called_violated`: C181 is violated: nothing in slash calls `discover`. Unless a customization file does so itself, what is in the search paths has no effect at all: whatever the application does until a session begins, it does the same without them.
  * `C181_file_violated`: C181 is violated by search paths that are files: they are not imported.
  * `C181_overlap_violated`: C181 is violated by search paths one of which is within the other: files below both are asked twice for their plugins, so that the hooks of an active plugin are registered twice, the first time for an object that is not installed any more.
* **C182** (Context objects can be entered again)
  * `C182_nested_violated`: C182 is violated by entering an object of `assert_raises` or `allowing_exceptions` within itself: when the outer `with` statement is left, the types that are ignored in this thread become `None`, whatever was anticipated before.
  * `C182_broken_violated`: C182 is violated from then on: in this thread no context can be entered any more, neither of `handling_exceptions` nor of `assert_raises` and `allowing_exceptions` - all of them raise `TypeError` before their blocks are begun -, and nothing that is run ends this.
  * `C182_made_before_violated`: C182 is violated by an object of `handling_exceptions` that was made before `assert_raises` or `allowing_exceptions` was entered: exceptions that are anticipated are recorded nevertheless, as errors or whatever they are. With a context that is made on the spot they are not.
  * `C182_made_within_violated`: C182 is violated the other way round, too: an object of `handling_exceptions` that was made while exceptions were anticipated lets them pass unrecorded where they are not anticipated any more.
  * `C182_stale_violated`: C182 is violated by `allowing_exceptions`: if nothing is raised, the object still gives the exception that was caught when it was used before.
* **C183** (Exceptions handled in several threads)
  * `C183_race_violated`: C183, violated. When two threads handle the same exception object at the same time, both may find that it is not yet handled and not yet added to a result: it is recorded twice, and the hooks are called twice.
  * `C183_hooks_violated`: C183, violated. It may also be recorded once while the hooks are called twice, and the hooks in one thread may be called before the other thread has recorded the exception.
  * `C183_early_violated`: C183, violated. Handling may end in one thread although the exception is not recorded yet: the second thread finds the mark and goes on while the first one is still about to record it.
* **C184** (Python's warnings become warnings of the session)
  * `C184_replaced_violated`: C184, violated. Code that replaces `warnings.showwarning` takes all warnings to come from the session: they go to its function and are neither recorded nor logged (but ImportWarnings, which go nowhere). When the session is over, `showwarning` is what it was before the session.
  * `C184_no_text_violated`: C184, violated. A warning object without arguments raises IndexError in the code that warns, and is not recorded.
  * `C184_not_string_violated`: C184, violated. If a regular expression is given to `slash.ignore_warnings`, a warning whose first argument is no string raises TypeError in the code that warns.
  * `C184_import_violated`: C184, violated. An ImportWarning is not recorded, although nothing ignores it.
  * `C184_hook_violated`: C184, violated. If the hook `warning_added` raises, so does the code that warns, and the warning is not recorded.
  * `C184_filters_violated`: C184, violated. When the session is over, Python's filters are not what they were: where warnings were errors before (`python -W error`), they are not any more; they were not during the session either.
  * `C184_lost_violated`: C184, violated. A filter that code of the session adds stays in force for everything that follows: later tests' warnings are lost.
  * `C184_record_violated`: C184, violated. A record of level warning is lost as a warning if a filter of Python's makes it an error: `logbook` prints the exception.
* **C185** (Plugins are found by name, class or object)
  * `C185_clash_violated`: C185, violated. If the name of one plugin is what another one is called on the command line, referring to the first one by its name means the other one; and when the first one is uninstalled, the other one is no longer known by that name.
* **C186** (What threads report is recorded for the test that started them)
  * `C186_later_violated`: C186, violated. What a thread reports that is not waited for is recorded for another test, the one that is running by then.
  * `C186_begin_violated`: C186, violated. An exception that is handled just when another test is about to begin is recorded nowhere, and a KeyError is raised in its place.
  * `C186_end_violated`: C186, violated. An exception that is handled just when the test ends is recorded nowhere, and an AttributeError is raised in its place.
  * `C186_over_violated`: C186, violated. After the end of the session everything is ignored.
  * `C186_split_violated`: C186, violated. While the end of a test is over but its context is not left, an exception is recorded for the test, and an error that is added for the session.
* **C187** (Several calls of run_tests in one session)
  * `C187_other_violated`: C187 is violated by every test of another module that is given to a later call: it is not started (see `C187_later`), and an error is added to its result.
  * `C187_two_calls_violated`: C187 is violated: two tests of two modules, in one call and in two. In one, both are run, and there is no error; in two, the second one is not run and has an error.
  * `C187_fixture_violated`: C187 is violated: a fixture of the module that is needed in both calls is torn down at the end of the first one, but never after that: its cleanup is called once and the function twice. In one call, both are called once.
  * `C187_cleanup_violated`: C187 is violated: in a later call there is no scope of the module, so that a cleanup for it is refused; in one call it is called.
* **C188** (Fixtures used through use_fixtures are active for the test)
  * `C188_through_argument_violated`: C188 is violated by `use_fixtures` on a fixture that comes in as argument of a fixture: the test that takes `a`, which takes `b`, is called without `c`, which `b` uses; the test that takes `b` itself is not.
  * `C188_autouse_violated`: C188 is violated by `use_fixtures` on a fixture that is declared with `autouse`: the test is called without `c`.
  * `C188_nofixtures_violated`: C188 is violated by `use_fixtures` on a test that is marked with `nofixtures`: the names are ignored, for all tests and all states.
  * `C188_parameter_violated`: C188 is violated by fixtures with parameters: if a fixture that the test uses through `use_fixtures` on a fixture needs a parameter which the test has not got otherwise, the test function is not called, whatever the state.
  * `C188_cycle_violated`: C188 is violated by fixtures that come to use themselves through `use_fixtures`: unlike with arguments, this is not noticed when the tests are loaded; a test that uses one of them is not called, however deep the recursion may be.
  * `C188_before_violated`: C188 is violated by the order: unlike with arguments, the function of a fixture is called before those of the fixtures that are named with `use_fixtures` on it - if the test takes it as its only argument and nothing was active, it is the first one of all, for all fixtures without arguments.
* **C189** (A parallel worker runs its tests as a run without workers would)
  * `C189_results_violated`: C189 is violated for the results: the error of a cleanup of a session-wide fixture is one of the last test if there are no workers, and of no test in a worker.
  * `C189_skip_violated`: C189 is violated for exceptions: a skip raised when the session is cleaned up ends a worker with that exception; without workers the last test catches it.
  * `C189_begin_violated`: C189 is violated if beginning the last test raises (a cleanup of the module before it skips; `C189_same_session_partial` excludes this): what cleanups of the session add belongs to the test that was not begun if there are no workers - its errors too -, and to the session in a worker.
* **C190** (What slash.get_current_scope answers)
  * `C190_cleanup_violated`: C190 is violated for cleanups: a cleanup of a scope is told that the scope is another one than its own, already in the simplest session.
  * `C190_lost_violated`: C190 is violated when closing a module raised a skip: the next test of a known module runs with a scope of the test alone, so its end is told that there is no scope.

## Axioms

From `#print axioms` on every theorem named in `MANIFEST.json` (regenerated with each milestone):

* `Quot.sound`: 1 theorems
* no axioms: 40 theorems
* `propext`: 135 theorems
* `propext`, `Quot.sound`: 293 theorems
* `propext`, `Classical.choice`, `Quot.sound`: 483 theorems

These are the three axioms of Lean itself; there are no others, no `sorry` and no compiler-trusting tactics.

Theorems that need `Classical.choice` (it comes from `grind`, `omega` and `simp` on decidable propositions):

`App.C128_restored_partial`, `App.C129_logs_partial`, `Args.C67_exactly_the_arguments_partial`, `Args.C67_function_arguments_partial`, `C07_error_hook_iff`, `C07_failure_hook_iff`, `C07_skip_hook_iff`, `C07_success_hook_iff`, `C09_never_success_again`, `C09_nothing_recorded`, `C09_success_iff`, `C51_error_hook_partial`, `CHook.C170_ensure_attr_violated`, `CHook.C170_get_violated`, `CHook.C170_own_violated`, `CHook.C170_remove_violated`, `Cfg.C45_restored`, `Cfg.C45_restored_exactly`, `Cfg.C45_restored_when_applying_fails`, `Ci.C158_default`, `Ci.C158_link`, `Ci.C158_no_build`, `Ci.C158_no_log_violated`, `Ci.C159_child`, `Ci.C159_fails`, `Ci.C159_files`, `Ci.C159_raises`, `Ci.C159_reports`, `Ci.C159_saved`, `Ci.C159_types`, `Cleanup.C01_complete`, `Cleanup.C01_lifo`, `Cleanup.C01_serial_is_registration_order`, `Cleanup.C02_errors_do_not_stop`, `Cleanup.C02_others_recorded`, `Cleanup.C02_recorded`, `Cleanup.C02_recorded_once`, `Cleanup.C02_results`, `Cleanup.C03_called_were_eligible`, `Cleanup.C03_flags`, `Cleanup.C03_flags_session`, `Cleanup.C03_passed_over_were_not`, `Cleanup.C04_conservation`, `Cleanup.C04_named_refused`, `Cleanup.C04_named_registration`, `Cleanup.C04_right_scope`, `Cleanup.C55_critical_runs_partial`, `Cleanup.C56_incorrect_scope_reported_partial`, `Cleanup.C56_open_accepted`, `Cleanup.C56_registers_nothing`, `Col.C150_error_stream_violated`, `Console.C120_duration`, `Console.C120_listed_partial`, `Console.C120_warnings`, `Console.C120_warnings_violated`, `Console.C121_box_violated`, `Console.C122_restored_violated`, `Console.C154_collected`, `Console.C154_context_partial`, `Console.C154_details`, `Console.C154_form_feed_violated`, `Console.C154_indent`, `Console.C154_reason_violated`, `Console.C154_skips_partial`, `Ctx.C156_attributes_partial`, `Ctx.C156_restored`, `Ctx.C156_values`, `Ctx.C156_written`, `Ctx.C46_bottom_is_permanent`, `Ctx.C46_bottom_refuses`, `Ctx.C46_own_globals`, `Ctx.C46_pushed_allows`, `Ctx.C58_session_context_partial`, `Ctx.C59_global_scope_closed`, `Ctx.C59_interrupt_hook`, `Ctx.C59_no_end_without_start`, `Ctx.C59_session_end_fires_partial`, `Deco.C178_apart_partial`, `Deco.C178_called`, `Deco.C178_generator_partial`, `Deco.C178_order`, `Deco.C178_seen`, `Deco.C178_twice`, `Discover.C181_file_violated`, `Discover.C181_installed_partial`, `Discover.C181_never_called_violated`, `Discover.C181_overlap_violated`, `Discover.C181_start_stops`, `Discover.C181_stops`, `ErrF.C171_empty_violated`, `ErrF.C171_lines_violated`, `ErrF.C171_logged_partial`, `Exc.C08_recorded_at_most_once`, `Exc.C08_recorded_exactly_once`, `Exc.C08_recorded_kind`, `Exc.C40_anticipated_never_handled`, `Exc.C40_caught_hook_at_most_once`, `Exc.C40_caught_hook_exactly_once`, `ExcMark.C54_class_marks_are_local_partial`, `ExcMark.C54_mark_is_seen`, `Exit.C47_zero_means_passed_partial`, `Ext.C139_broken`, `Ext.C139_failure_partial`, `Ext.C139_failure_violated`, `Ext.C139_first`, `Ext.C139_install`, `Ext.C139_within`, `FG.C18_terminates`, `FG.C19_dependencies_live_longer`, `FG.C19_narrower_rejected`, `Fix.C16_called_once_and_shared_partial`, `Fix.C17_dependents_first_partial`, `Fix.C17_reverse_order_partial`, `Fix.C17_scope_end_partial`, `Fix.C18_depth_irrelevant`, `Fix.C18_no_spurious_error`, `Fix.C23_reused_iff_same_variation`, `FixDeco.C97_use_fixtures_partial`, `Flags.C140_appended_partial`, `Flags.C140_argument_partial`, `Flags.C140_find_none`, `Flags.C140_independent`, `Flags.C140_last_wins_violated`, `Flags.C140_level_partial`, `Flags.C140_level_truth_partial`, `Flags.C140_names`, `Flags.C140_override`, `Flags.C140_refused_partial`, `Flags.C140_rest`, `Flags.C140_switch_partial`, `Flags.C140_unmentioned`, `Fmt.C115_lines`, `Fmt.C117_calls`, `Fmt.C117_copy_partial`, `Fmt.C117_values`, `Frames.C142_attribute_calls`, `Frames.C142_attributes`, `Frames.C142_calls`, `Frames.C142_globals`, `Frames.C142_listed_silent`, `Frames.C142_locals`, `Frames.C142_logged`, `Frames.C142_unrecorded`, `Front.C130_needed`, `Front.C133_partial`, `Front.C134_partial`, `IdSpace.C49_tests_get_distinct_ids`, `IdSpace.C49_unique`, `LC.C155_again_violated`, `LC.C155_fails_iff`, `LC.C155_files`, `LC.C155_nearest`, `LC.C155_once_partial`, `LC.C155_restored`, `LC.C155_shared`, `Load.C161_bound_partial`, `Load.C161_numbers`, `Load.C161_total_partial`, `Load.C163_collect`, `Load.C163_count`, `Load.C163_fails_iff`, `Load.C163_no_other`, `Load.C37_distinct`, `Load.C37_each_pass`, `Load.C37_passes_in_order`, `Load.C37_total`, `Load.C38_default_order`, `Load.C38_stable`, `Load.C73_listing_order`, `Log.C106_extra_violated`, `Log.C106_filter_violated`, `Log.C106_session_partial`, `Log.C106_test_partial`, `Log.C106_unified`, `Log.C107_closed`, `Log.C107_life`, `Log.C107_result`, `Log.C108_disabled`, `Log.C108_session_partial`, `Log.C108_test_partial`, `Log.C109_console`, `Log.C109_errors`, `Log.C109_extra`, `Log.C109_once_partial`, `Log.C109_warnings`, `Log.C110_lines`, `Log.C111_directories`, `Marks.C112_local_partial`, `Marks.C112_others`, `Marks.C112_set`, `Meta.C69_label_partial`, `Meta.C69_not_printable`, `Meta.C69_sorted`, `Meta.C70_declared_once_partial`, `NS.C174_file_partial`, `NS.C174_known_everywhere`, `NS.C174_slashconf_partial`, `NS.C174_stays`, `NS.C20_closest_definition_partial`, `NS.C20_names_in_fixtures_partial`, `NS.C20_names_stay`, `Notify.C153_body`, `Notify.C153_debugger_partial`, `Notify.C153_escapes_violated`, `Notify.C153_hook_violated`, `Notify.C153_names`, `Notify.C153_recipients_partial`, `Notify.C153_recipients_violated`, `Notify.C153_session_end_partial`, `Notify.C153_title_partial`, `Notify.C153_title_violated`, `PConf.C141_accepted`, `PConf.C141_clash_violated`, `PConf.C141_installed`, `PConf.C141_kept`, `PConf.C141_others_untouched`, `PConf.C141_refused`, `PConf.C141_removed`, `PConf.C141_replaced_violated`, `PConf.C141_sections_partial`, `PV.C145_argument`, `PV.C145_call_succeeds`, `PV.C145_generator_fixture`, `PV.C145_label_newline_violated`, `PV.C145_others`, `PV.C145_tuple_of_one_violated`, `Par.C167_zero_if`, `Par.C167_zero_iff`, `Par.C167_zero_says`, `Par.C173_failure_counts_partial`, `Par.C173_zero_if`, `Par.C173_zero_says_partial`, `Par.C179_found_partial`, `Par.C179_gives_up_in_time`, `Par.C179_in_time_partial`, `Par.C179_raised`, `Par.C179_reported`, `Par.C179_spared`, `Par.C29_handed_out_once`, `Par.C30_every_test_accounted_partial`, `Par.C31_calls`, `Par.C31_excluded_never_handed`, `Par.C31_run_excluded`, `Par.C31_run_forced`, `Par.C32_all_workers_agree_partial`, `Par.C32_served_after_validation`, `Par.C33_all_finished_partial`, `Par.C33_stopped_nothing_waits_partial`, `Par.C33_waits_iff_partial`, `Par.C64_interruption_stops`, `Par.C64_nothing_after_stop_partial`, `Par.C79_every_test_accounted`, `Par.C80_only_if_all_agree`, `Par.C80_right_tests_once`, `Par.C81_workers_survive`, `Par.C82_results_are_those_sent`, `Par.C83_all_tests_reported_partial`, `Par.C83_all_tests_run_partial`, `Par.C84_bounded`, `Par.C84_early_death_violated`, `Par.C84_ends_partial`, `Par.C84_no_deadlock_partial`, `Pat.C24_boolean_reading_partial`, `Pat.C24_rest_ignored_violated`, `Pat.C24_word_starting_with_not_violated`, `Plug.C138_active_partial`, `Plug.C138_arguments`, `Plug.C138_list_partial`, `Plug.C138_names_partial`, `Plug.C138_names_violated`, `Plug.C138_order_partial`, `Plug.C177_deactivated`, `Plug.C177_fires_partial`, `Plug.C177_first_partial`, `Plug.C177_incompatible_violated`, `Plug.C177_needs`, `Plug.C177_only_ends_violated`, `Plug.C177_providers_partial`, `Plug.C177_provides_partial`, `Plug.C185_clash_violated`, `Plug.C185_first`, `Plug.C185_found`, `Plug.C185_unknown_partial`, `Plug.C43_active_installed`, `Plug.C43_inactive_has_none`, `Plug.C43_noops_violated`, `Plug.C43_registered_once_partial`, `Plug.C43_replaced_violated`, `Plug.C43_toggle_violated`, `Plug.C43_twice_violated`, `Plug.C44_clash_violated`, `Plug.C44_requests`, `Plug.C44_succeeds_partial`, `Plug.C44_uninstalled_violated`, `Plug.C44_without_wins_partial`, `Plug.C76_helpers`, `Plug.C76_refused`, `Plug.C76_registers`, `Plug.C77_internal_violated`, `Plug.C77_pending_violated`, `Plug.C77_replaced_violated`, `Plug.C77_restored_partial`, `Rep.C125_frames`, `Rep.C125_user_partial`, `Rep.C125_values`, `Rep.C126_listed_partial`, `Rep.C126_no_params_violated`, `Rep.C126_relative_violated`, `Rep.C126_tests`, `Rep.C127_code`, `Rep.C160_caller_partial`, `Rep.C160_frames`, `Rep.C160_log_violated`, `Req.C28_unmet_partial`, `Req.C66_declared_partial`, `Resume.C146_one_query`, `Resume.C146_query`, `Resume.C162_chain_partial`, `Resume.C162_empty`, `Resume.C172_refused`, `Resume.C172_rerun_partial`, `Resume.C172_selected_partial`, `Resume.C172_times_partial`, `Resume.C35_only_reorders`, `Resume.C36_expires`, `Resume.C36_last`, `Resume.C36_previous_local`, `Resume.C36_previous_remote`, `Resume.C36_survives`, `Resume.C72_entry_partial`, `Resume.C72_session_partial`, `RunAll.C165_zero_iff`, `RunAll.C165_zero_means_run_partial`, `RunAll.C165_zero_nothing_raised`, `RunAll.C166_all_done_partial`, `RunAll.C166_done_means`, `RunAll.C166_zero_iff`, `Runner.C07_one_summary_per_test_partial`, `Runner.C12_all_have_results`, `Runner.C12_complete_only_if_all`, `Runner.C12_only_special_exceptions_escape`, `Runner.C12_prefix`, `Runner.C12_stop_reason`, `Runner.C12_stops`, `Runner.C13_start_end_paired`, `Runner.C14_files_partial`, `Runner.C28_avoided_not_run`, `Runner.C60_no_scope_left_open_partial`, `Runner.C61_interruption_ends_run_partial`, `Runner.C62_current_result_restored`, `Runner.C63_body_exception_in_result_partial`, `Runner.C63_success_means_it_ran_partial`, `Runner.C85_end_hook_exception_in_result_partial`, `Runner.C85_start_hook_exception_in_result_partial`, `Runner.C85_summary_exception_in_result_partial`, `SessionResults.C10_bad_event_is_final`, `SessionResults.C10_counts`, `SessionResults.C10_session_success_iff`, `SessionResults.C10_skips_and_fatal`, `SessionResults.C10_success_means_no_errors`, `SessionResults.C11_index`, `SessionResults.C11_lookup`, `SessionResults.C57_interrupted_session_partial`, `Shell.C157_goes_on_violated`, `Shell.C157_hook_violated`, `Shell.C157_no_session_deaf`, `Shell.C157_no_session_violated`, `Shell.C157_recorded_partial`, `Shell.C157_terminated_partial`, `Shell.C157_typed`, `Sig.C164_called_partial`, `Sig.C164_default_violated`, `Sig.C164_extra_violated`, `Sig.C164_positional_violated`, `Sig.C164_self_fails`, `Sig.C164_self_violated`, `Sig.C164_this_violated`, `Sig.C164_variadic_violated`, `Signals.C114_active`, `Signals.C114_restored_partial`, `Suite.C50_depth`, `Suite.C50_expansion_partial`, `Suite.C50_filter_with_comma_violated`, `Suite.C53_repeat_of_suite_partial`, `Suite.C53_repeat_of_suite_violated`, `Suite.C78_each_file_once_partial`, `Suite.C78_each_file_once_violated`, `Suite.C78_exact_multiplicity`, `TC.C148_tests`, `Tag.C26_conflict_only_if_partial`, `Tag.C26_conflict_raised`, `Tag.C26_keeps_everything`, `Tag.C26_set_up_partial`, `Tag.C65_history_partial`, `Tag.C65_others_untouched_partial`, `Tb.C149_complete_partial`, `TestRun.C93_class_partial`, `TestRun.C93_raises_partial`, `TestRun.C93_starts_partial`, `TestRun.C94_class_partial`, `TestRun.C94_ends_partial`, `Thr.C183_once_partial`, `ThrTests.C186_ends`, `ThrTests.C186_once`, `ThrTests.C186_waited_partial`, `Tmux.C168_file`, `Tmux.C168_foreign_session_violated`, `Tmux.C168_found`, `Tmux.C168_missing`, `Tmux.C168_moves_once`, `Tmux.C168_space_violated`, `Tmux.C168_started_partial`, `Tmux.C168_window`, `Tr.C135_same_partial`, `Tr.C136_extra`, `Tr.C137_ends`, `Tr.C137_fails_partial`, `Tr.C137_quick`, `Tr.C137_shown`, `Use.C188_called_partial`, `VN.C144_autouse_same_name_violated`, `VN.C144_distinct_partial`, `VN.C144_dump`, `VN.C144_each_parameter_named_partial`, `VN.C144_ends`, `VN.C144_function_distinct_partial`, `VN.C144_indices`, `VN.C144_inherited_before_violated`, `VN.C144_tuple_in_fixture_violated`, `Var.C21_dicts`, `Var.C21_each_combination_once`, `Var.C21_each_is_a_combination`, `Var.C21_transitive`, `Var.C22_wide_change_least_partial`, `WP.C151_dashes_violated`, `WP.C151_hooks`, `WP.C151_options_partial`, `WP.C151_process`, `WP.C151_tmux_partial`, `WP.C151_tmux_space_violated`, `WP.C152_ended_partial`, `WP.C152_hook_error_violated`, `WP.C152_interrupted_start_violated`, `WP.C152_second_interruption_violated`, `WP.C152_stopped_last`, `WP.C152_tmux_left_violated`, `WP.C152_tmux_unconnected_violated`, `Warn.C48_context_undone`, `Warn.C48_covers_matches`, `Warn.C48_in_force_inside`, `Warn.C48_recorded_exactly`, `Warn.C48_states`, `Warn.C52_restored_partial`, `Whole.C100_avoided`, `Whole.C102_in_order`, `Whole.C103_stop_partial`, `Whole.C104_hooks`, `Whole.C104_start_raises`, `Whole.C104_started`, `Whole.C105_interrupt_partial`, `Whole.C187_other_violated`, `Whole.C187_same_partial`, `Whole.C189_open`, `Whole.C189_same_session_partial`, `Whole.C189_tests`, `Whole.C86_body`, `Whole.C86_scopes_partial`, `Whole.C86_start`, `Whole.C87_shared_partial`, `Whole.C88_announced`, `Whole.C88_test_cleanups_done`, `Whole.C89_all_done_partial`, `Whole.C90_body`, `Whole.C90_teardown_after_cleanups`, `Whole.C91_no_error_lost`, `Whole.C92_success_means_run_partial`, `Whole.C98_none_left_partial`, `Whole.C98_nothing_else`, `Whole.C98_scope_end_partial`, `Whole.C98_test_fixtures_partial`, `Whole.C99_body`, `Whole.C99_body_after_start`, `Whole.C99_start`
