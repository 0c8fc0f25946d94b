import Verif.Model.App
import Verif.Model.CiPlugins
import Verif.Model.Cleanup
import Verif.Model.Collect
import Verif.Model.Colors
import Verif.Model.ConfigOverride
import Verif.Model.Console
import Verif.Model.Ctx
import Verif.Model.CtxProxy
import Verif.Model.CtxReuse
import Verif.Model.CurScope
import Verif.Model.CustomHooks
import Verif.Model.Decorators
import Verif.Model.Details
import Verif.Model.Discover
import Verif.Model.ErrorFiles
import Verif.Model.ErrorPos
import Verif.Model.Exc
import Verif.Model.ExcMark
import Verif.Model.ExclName
import Verif.Model.Exclusion
import Verif.Model.ExitCode
import Verif.Model.ExtHook
import Verif.Model.Fixture
import Verif.Model.FixtureArgs
import Verif.Model.FixtureDeco
import Verif.Model.FixtureGraph
import Verif.Model.Flags
import Verif.Model.Formatter
import Verif.Model.Frames
import Verif.Model.Frontend
import Verif.Model.HandlingArgs
import Verif.Model.IdSpace
import Verif.Model.Interactive
import Verif.Model.Loader
import Verif.Model.LocalConf
import Verif.Model.Log
import Verif.Model.Marks
import Verif.Model.Namespace
import Verif.Model.Notify
import Verif.Model.Override
import Verif.Model.ParRun
import Verif.Model.ParSend
import Verif.Model.Parallel
import Verif.Model.ParamValue
import Verif.Model.Pattern
import Verif.Model.Peekable
import Verif.Model.Phase
import Verif.Model.PluginCli
import Verif.Model.PluginConfig
import Verif.Model.PluginDeps
import Verif.Model.Plugins
import Verif.Model.Reports
import Verif.Model.Requirement
import Verif.Model.Result
import Verif.Model.Resume
import Verif.Model.ResumeChain
import Verif.Model.ResumeMany
import Verif.Model.ResumeRemote
import Verif.Model.RunAll
import Verif.Model.RunResume
import Verif.Model.Runner
import Verif.Model.Scope
import Verif.Model.Signals
import Verif.Model.Signature
import Verif.Model.SkipReg
import Verif.Model.SuiteFile
import Verif.Model.Tagging
import Verif.Model.TbProxy
import Verif.Model.TestClass
import Verif.Model.TestCount
import Verif.Model.TestMeta
import Verif.Model.TestRun
import Verif.Model.ThreadTests
import Verif.Model.Threads
import Verif.Model.Tmux
import Verif.Model.Toggles
import Verif.Model.Transfer
import Verif.Model.UseFixtures
import Verif.Model.VarNames
import Verif.Model.Variation
import Verif.Model.WarnPy
import Verif.Model.Warnings
import Verif.Model.Watchdog
import Verif.Model.Whole
import Verif.Model.WholeMany
import Verif.Model.WholeWorker
import Verif.Model.Worker
import Verif.Model.WorkerProc
import Verif.Lemmas.Cleanup
import Verif.Lemmas.CleanupRec
import Verif.Lemmas.Exc
import Verif.Lemmas.Fixture
import Verif.Lemmas.FixtureFuel
import Verif.Lemmas.FixtureLife
import Verif.Lemmas.FixtureOrder
import Verif.Lemmas.Flags
import Verif.Lemmas.Log
import Verif.Lemmas.Marks
import Verif.Lemmas.Namespace
import Verif.Lemmas.Parallel
import Verif.Lemmas.Pattern
import Verif.Lemmas.PluginConfig
import Verif.Lemmas.Result
import Verif.Lemmas.Runner
import Verif.Lemmas.RunnerStop
import Verif.Lemmas.Signals
import Verif.Lemmas.SkipReg
import Verif.Lemmas.TestRun
import Verif.Lemmas.Threads
import Verif.Lemmas.Util
import Verif.Lemmas.VarNames
import Verif.Lemmas.Watchdog
import Verif.Lemmas.Whole
import Verif.Lemmas.WholeDone
import Verif.Lemmas.WholeFx
import Verif.Lemmas.WholeImplicit
import Verif.Lemmas.WholeInterrupt
import Verif.Lemmas.WholeMark
import Verif.Lemmas.WholeOnly
import Verif.Lemmas.WholeParts
import Verif.Lemmas.WholeRefine
import Verif.Lemmas.WholeRefine2
import Verif.Lemmas.WholeRefine3
import Verif.Lemmas.WholeRefine4
import Verif.Lemmas.WholeResults
import Verif.Lemmas.WholeRun
import Verif.Lemmas.WholeSession
import Verif.Lemmas.WholeTrace
import Verif.Lemmas.WholeWorker
import Verif.Lemmas.Worker
import Verif.Lemmas.WorkerEnd
import Verif.Lemmas.WorkerGone
import Verif.Lemmas.WorkerLive
import Verif.Lemmas.WorkerTests
import Verif.Lemmas.WorkerWait
import Verif.Props.App
import Verif.Props.CiPlugins
import Verif.Props.Cleanup
import Verif.Props.Collect
import Verif.Props.Colors
import Verif.Props.ConfigOverride
import Verif.Props.Console
import Verif.Props.Ctx
import Verif.Props.CtxProxy
import Verif.Props.CtxReuse
import Verif.Props.CurScope
import Verif.Props.CustomHooks
import Verif.Props.Decorators
import Verif.Props.Details
import Verif.Props.Discover
import Verif.Props.ErrorFiles
import Verif.Props.ErrorPos
import Verif.Props.Exc
import Verif.Props.ExcMark
import Verif.Props.ExclName
import Verif.Props.Exclusion
import Verif.Props.ExitCode
import Verif.Props.ExtHook
import Verif.Props.Fixture
import Verif.Props.FixtureArgs
import Verif.Props.FixtureDeco
import Verif.Props.FixtureGraph
import Verif.Props.Flags
import Verif.Props.Formatter
import Verif.Props.Frames
import Verif.Props.Frontend
import Verif.Props.HandlingArgs
import Verif.Props.IdSpace
import Verif.Props.Interactive
import Verif.Props.Loader
import Verif.Props.LocalConf
import Verif.Props.Log
import Verif.Props.Marks
import Verif.Props.Namespace
import Verif.Props.Notify
import Verif.Props.Override
import Verif.Props.ParRun
import Verif.Props.ParSend
import Verif.Props.Parallel
import Verif.Props.ParamValue
import Verif.Props.Pattern
import Verif.Props.Peekable
import Verif.Props.Phase
import Verif.Props.PluginCli
import Verif.Props.PluginConfig
import Verif.Props.PluginDeps
import Verif.Props.PluginFind
import Verif.Props.Plugins
import Verif.Props.Reports
import Verif.Props.Requirement
import Verif.Props.Result
import Verif.Props.Resume
import Verif.Props.ResumeChain
import Verif.Props.ResumeMany
import Verif.Props.ResumeRemote
import Verif.Props.RunAll
import Verif.Props.RunResume
import Verif.Props.Runner
import Verif.Props.Scope
import Verif.Props.Signals
import Verif.Props.Signature
import Verif.Props.SkipReg
import Verif.Props.SuiteFile
import Verif.Props.Tagging
import Verif.Props.TbProxy
import Verif.Props.TestClass
import Verif.Props.TestCount
import Verif.Props.TestMeta
import Verif.Props.TestRun
import Verif.Props.ThreadTests
import Verif.Props.Threads
import Verif.Props.Tmux
import Verif.Props.Toggles
import Verif.Props.Transfer
import Verif.Props.UseFixtures
import Verif.Props.VarNames
import Verif.Props.Variation
import Verif.Props.WarnPy
import Verif.Props.Warnings
import Verif.Props.Watchdog
import Verif.Props.Whole
import Verif.Props.WholeFx
import Verif.Props.WholeMany
import Verif.Props.WholeSession
import Verif.Props.WholeWorker
import Verif.Props.Worker
import Verif.Props.WorkerProc
