import Verif.Actions.Model
import Verif.Actions.Props
import Verif.Actions.Spec
import Verif.Args.Model
import Verif.Args.Props
import Verif.Args.Spec
import Verif.Assert.Model
import Verif.Assert.Props
import Verif.Base.Model
import Verif.Base.Props
import Verif.Base.Spec
import Verif.Calls.BuiltIn
import Verif.Calls.Every
import Verif.Calls.EverySpec
import Verif.Calls.FnNames
import Verif.Calls.FnNamesProps
import Verif.Calls.FnNamesSpec
import Verif.Calls.Generators
import Verif.Calls.Interrupted
import Verif.Calls.InterruptedSpec
import Verif.Calls.Lemmas
import Verif.Calls.Lemmas2
import Verif.Calls.Lemmas3
import Verif.Calls.Mandatory
import Verif.Calls.Marks
import Verif.Calls.MarksProps
import Verif.Calls.MarksSpec
import Verif.Calls.MessageProps
import Verif.Calls.Model
import Verif.Calls.OwnExceptions
import Verif.Calls.OwnRecorded
import Verif.Calls.Plain
import Verif.Calls.PlainSpec
import Verif.Calls.Props
import Verif.Calls.Spec
import Verif.Calls.Tasks
import Verif.Calls.TasksProps
import Verif.Calls.Threads
import Verif.Calls.ThreadsExamples
import Verif.Calls.ThreadsProps
import Verif.Calls.ThreadsSpec
import Verif.Ctor.Model
import Verif.Ctor.Props
import Verif.Ctor.Spec
import Verif.Decorate.ClassLemmas
import Verif.Decorate.ClassProps
import Verif.Decorate.Exceptions
import Verif.Decorate.Lemmas
import Verif.Decorate.Minus
import Verif.Decorate.Model
import Verif.Decorate.Props
import Verif.Decorate.Spec
import Verif.Decorate.Unlog
import Verif.Decorate.UnlogProps
import Verif.Dict
import Verif.EndToEnd.Crash
import Verif.EndToEnd.CrashUnprintable
import Verif.EndToEnd.Lemmas
import Verif.EndToEnd.Model
import Verif.EndToEnd.PlainProps
import Verif.EndToEnd.Props
import Verif.EndToEnd.Spec
import Verif.EndToEnd.System
import Verif.EndToEnd.SystemCrash
import Verif.EndToEnd.SystemExamples
import Verif.EndToEnd.SystemKill
import Verif.EndToEnd.SystemProps
import Verif.EndToEnd.SystemSync
import Verif.EndToEnd.Unprintable
import Verif.Engine.Collect
import Verif.Engine.CollectProps
import Verif.Engine.CollectSpec
import Verif.Engine.Configured
import Verif.Engine.Exit
import Verif.Engine.ExitEnds
import Verif.Engine.Failure
import Verif.Engine.FailureLocks
import Verif.Engine.FailureProps
import Verif.Engine.FailureSpec
import Verif.Engine.Fork
import Verif.Engine.ForkChange
import Verif.Engine.ForkLemmas
import Verif.Engine.ForkProps
import Verif.Engine.Interrupt
import Verif.Engine.InterruptProps
import Verif.Engine.Kill
import Verif.Engine.Lemmas
import Verif.Engine.Logs
import Verif.Engine.Logs2
import Verif.Engine.Model
import Verif.Engine.Pool
import Verif.Engine.PoolLemmas
import Verif.Engine.PoolProps
import Verif.Engine.PoolSpec
import Verif.Engine.Progress
import Verif.Engine.Props
import Verif.Engine.Props2
import Verif.Engine.Spec
import Verif.Engine.Start
import Verif.Engine.Stuck
import Verif.Engine.Witness
import Verif.File.ByThread
import Verif.File.Count
import Verif.File.Crash
import Verif.File.CrashProps
import Verif.File.CrashSpec
import Verif.File.CrashThreads
import Verif.File.Cut
import Verif.File.CutLemmas
import Verif.File.CutLive
import Verif.File.CutProps
import Verif.File.CutSpec
import Verif.File.Emptied
import Verif.File.EmptiedProps
import Verif.File.EmptiedSpec
import Verif.File.Examples
import Verif.File.Full
import Verif.File.FullProps
import Verif.File.FullSpec
import Verif.File.Lemmas
import Verif.File.Model
import Verif.File.Multi
import Verif.File.MultiProps
import Verif.File.MultiSpec
import Verif.File.Nest
import Verif.File.NestProps
import Verif.File.NestSpec
import Verif.File.Outside
import Verif.File.OutsideLemmas
import Verif.File.OutsideProps
import Verif.File.OutsideSpec
import Verif.File.Procs
import Verif.File.ProcsLemmas
import Verif.File.ProcsProps
import Verif.File.ProcsSpec
import Verif.File.Progress
import Verif.File.Props
import Verif.File.Spec
import Verif.File.Trace
import Verif.File.Whole
import Verif.Format.Lemmas
import Verif.Format.Lemmas2
import Verif.Format.Lemmas3
import Verif.Format.Model
import Verif.Format.Props
import Verif.Format.Props2
import Verif.Format.Props3
import Verif.Format.Props4
import Verif.Format.Props5
import Verif.Format.Spec
import Verif.Format.Success
import Verif.Format.UsualProps
import Verif.Format.UsualSpec
import Verif.Handle.Lemmas
import Verif.Handle.Lemmas2
import Verif.Handle.Lemmas3
import Verif.Handle.Message
import Verif.Handle.MessageSpec
import Verif.Handle.Model
import Verif.Handle.Props
import Verif.Handle.Spec
import Verif.Handlers.DeleteSpec
import Verif.Handlers.Lemmas
import Verif.Handlers.Model
import Verif.Handlers.Props
import Verif.Handlers.Props2
import Verif.Levels.Lemmas
import Verif.Levels.Model
import Verif.Levels.Props
import Verif.Levels.Spec
import Verif.Live.Lemmas
import Verif.Live.Model
import Verif.Live.Props
import Verif.Live.Props2
import Verif.Live.Spec
import Verif.Locks.Failure
import Verif.Locks.Fork
import Verif.Locks.ForkDeath
import Verif.Locks.Model
import Verif.Locks.Props
import Verif.LogItem.Interrupt
import Verif.LogItem.InterruptMoments
import Verif.LogItem.InterruptProps
import Verif.LogItem.Lemmas
import Verif.LogItem.Model
import Verif.LogItem.Props
import Verif.LogItem.Reads
import Verif.LogItem.Spec
import Verif.Logging.Lemmas
import Verif.Logging.Lemmas2
import Verif.Logging.Model
import Verif.Logging.Props
import Verif.Logging.Spec
import Verif.Memory.Freed
import Verif.Memory.FreedProps
import Verif.Memory.FreedSpec
import Verif.Memory.Model
import Verif.Memory.Props
import Verif.Memory.Spec
import Verif.Nested.Change
import Verif.Nested.Lemmas
import Verif.Nested.Model
import Verif.Nested.Props
import Verif.Nested.Spec
import Verif.Ponies.Model
import Verif.Ponies.Props
import Verif.Ponies.Register
import Verif.Ponies.Spec
import Verif.Printer.Model
import Verif.Printer.Props
import Verif.Printer.Spec
import Verif.Projection.Errors
import Verif.Projection.Lemmas
import Verif.Projection.Lemmas2
import Verif.Projection.Lemmas3
import Verif.Projection.Lemmas4
import Verif.Projection.Lemmas5
import Verif.Projection.Made
import Verif.Projection.Model
import Verif.Projection.Props
import Verif.Projection.Props2
import Verif.Projection.Spec
import Verif.Py
import Verif.Registry.Binding
import Verif.Registry.BindingExact
import Verif.Registry.BindingLayers
import Verif.Registry.BindingProps
import Verif.Registry.BindingSpec
import Verif.Registry.BindingUnnamed
import Verif.Registry.Lemmas
import Verif.Registry.Lemmas2
import Verif.Registry.Lemmas3
import Verif.Registry.Model
import Verif.Registry.Props
import Verif.Registry.Spec
import Verif.Rotation.Lemmas
import Verif.Rotation.Model
import Verif.Rotation.Names
import Verif.Rotation.Props
import Verif.Rotation.Spec
import Verif.Router.Lemmas
import Verif.Router.Lemmas2
import Verif.Router.Lemmas3
import Verif.Router.Model
import Verif.Router.Props
import Verif.Router.Props2
import Verif.Router.Shared
import Verif.Router.Spec
import Verif.Settings.Lemmas
import Verif.Settings.Model
import Verif.Settings.Props
import Verif.Settings.Spec
import Verif.Signature.Model
import Verif.Signature.Props
import Verif.Signature.Props2
import Verif.Signature.Spec
import Verif.Singleton.Model
import Verif.Singleton.Props
import Verif.Singleton.Spec
import Verif.Smtp.Model
import Verif.Smtp.Props
import Verif.Smtp.Props2
import Verif.Smtp.Spec
import Verif.Texts.Model
import Verif.Texts.Props
import Verif.Texts.Spec
import Verif.TimeLimit.Model
import Verif.TimeLimit.Props
import Verif.TimeLimit.Spec
import Verif.Tokens.Classes
import Verif.Tokens.Model
import Verif.Tokens.Parse
import Verif.Tokens.Props
import Verif.Tokens.Spec
import Verif.Trace.Lemmas
import Verif.Trace.Model
import Verif.Trace.Props
import Verif.Trace.Spec
import Verif.Tree.Lemmas
import Verif.Tree.Lemmas2
import Verif.Tree.Model
import Verif.Tree.Props
import Verif.Tree.Spec
import Verif.Walk.Lemmas
import Verif.Walk.Lemmas2
import Verif.Walk.Model
import Verif.Walk.Props
import Verif.Walk.Props2
import Verif.Walk.Spec
import Verif.Weak.Model
import Verif.Weak.Props
import Verif.Weak.Spec
import Verif.Weak.Unweak
