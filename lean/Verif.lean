import Verif.Announce
import Verif.Api
import Verif.Archive
import Verif.Auth
import Verif.BrokerQueue
import Verif.BrokerTopic
import Verif.Cache
import Verif.CacheConc
import Verif.CacheLin
import Verif.Calls
import Verif.Calm
import Verif.CalmHandlers
import Verif.CalmWorld
import Verif.CancelRun
import Verif.Capacity
import Verif.Cleanup
import Verif.Clone
import Verif.CloneLemmas
import Verif.CloneSpec
import Verif.Closing
import Verif.Config
import Verif.CoordExec
import Verif.Copying
import Verif.CpuLimit
import Verif.Credentials
import Verif.Cron
import Verif.DS
import Verif.DSLemmas
import Verif.DockerLogs
import Verif.DockerRun
import Verif.Drive
import Verif.DriveM
import Verif.DriveOK
import Verif.DriveOrd
import Verif.EachTx
import Verif.Encrypt
import Verif.Engine
import Verif.Eval
import Verif.EvalLemmas
import Verif.EvalSpec
import Verif.ExecCancel
import Verif.ExecLemmas
import Verif.Flow
import Verif.FlowHandlers
import Verif.FlowHandlers2
import Verif.FlowHandlers3
import Verif.FlowOps
import Verif.FlowOps2
import Verif.FlowTasks
import Verif.FlowWorker
import Verif.FlowWorld
import Verif.FreshLemmas
import Verif.Frozen
import Verif.Handlers
import Verif.Health
import Verif.Heap
import Verif.HostEnv
import Verif.Images
import Verif.InOrder
import Verif.InOrderHandlers
import Verif.InOrderSpec
import Verif.InOrderWorld
import Verif.Input
import Verif.InterpSpec
import Verif.JobEvents
import Verif.Keeps
import Verif.LifecycleSpec
import Verif.Locker
import Verif.LogShipper
import Verif.Metrics
import Verif.Middleware
import Verif.Mounter
import Verif.NodeStore
import Verif.Once
import Verif.OnceComplete
import Verif.OnceEach
import Verif.OnceHandlers
import Verif.OnceJobs
import Verif.OnceLogic
import Verif.OnceOps
import Verif.OnceSchedule
import Verif.OnceSchedule2
import Verif.OnceWorker
import Verif.OnceWorld
import Verif.Origin
import Verif.OriginFixed
import Verif.OriginHandlers
import Verif.OriginOps
import Verif.OriginSpec
import Verif.OriginWorld
import Verif.Outcome
import Verif.PodmanRun
import Verif.Pool
import Verif.Prog
import Verif.Props.Archive
import Verif.Props.Auth
import Verif.Props.BrokerQueue
import Verif.Props.BrokerTopic
import Verif.Props.Cache
import Verif.Props.CacheConc
import Verif.Props.CancelRun
import Verif.Props.CancelTree
import Verif.Props.Capacity
import Verif.Props.Cleanup
import Verif.Props.Clone
import Verif.Props.Closing
import Verif.Props.Completion
import Verif.Props.Concurrency
import Verif.Props.Config
import Verif.Props.Context
import Verif.Props.Copying
import Verif.Props.CpuLimit
import Verif.Props.Credentials
import Verif.Props.Cron
import Verif.Props.DockerFiles
import Verif.Props.DockerLogs
import Verif.Props.DockerOutcome
import Verif.Props.DockerPolicy
import Verif.Props.DockerRun
import Verif.Props.Duplicates
import Verif.Props.EachRace
import Verif.Props.EachTx
import Verif.Props.Encrypt
import Verif.Props.Engine
import Verif.Props.Eval
import Verif.Props.Events
import Verif.Props.Fanout
import Verif.Props.Guards
import Verif.Props.Health
import Verif.Props.HostEnv
import Verif.Props.Images
import Verif.Props.Input
import Verif.Props.Interpreter
import Verif.Props.Join
import Verif.Props.Joins
import Verif.Props.Lifecycle
import Verif.Props.Limit
import Verif.Props.LimitCrash
import Verif.Props.Listing
import Verif.Props.Locker
import Verif.Props.LogShipper
import Verif.Props.Metrics
import Verif.Props.Middleware
import Verif.Props.Mounter
import Verif.Props.NoStuck
import Verif.Props.NoStuckAll
import Verif.Props.NodeStore
import Verif.Props.Origin
import Verif.Props.Podman
import Verif.Props.PodmanClean
import Verif.Props.PodmanOptions
import Verif.Props.PodmanResult
import Verif.Props.Pool
import Verif.Props.Progress
import Verif.Props.Query
import Verif.Props.Rabbit
import Verif.Props.RabbitTopic
import Verif.Props.Redact
import Verif.Props.Redelivery
import Verif.Props.Reference
import Verif.Props.Registry
import Verif.Props.Reports
import Verif.Props.Restart
import Verif.Props.Results
import Verif.Props.Retry
import Verif.Props.Roles
import Verif.Props.Schedule
import Verif.Props.Sequence
import Verif.Props.Serving
import Verif.Props.Shell
import Verif.Props.ShellEnv
import Verif.Props.Started
import Verif.Props.SubJobs
import Verif.Props.Ticks
import Verif.Props.Transactions
import Verif.Props.Wait
import Verif.Props.WaitWorld
import Verif.Props.Webhook
import Verif.Props.Wildcard
import Verif.Props.Worker
import Verif.Query
import Verif.Rabbit
import Verif.RabbitInv
import Verif.RabbitKept
import Verif.RabbitOnce
import Verif.RabbitTopic
import Verif.RabbitWhy
import Verif.Redact
import Verif.Reference
import Verif.Registry
import Verif.Rel
import Verif.Reports
import Verif.Roles
import Verif.Safe
import Verif.SafeEnv
import Verif.SafeFinish
import Verif.SafeHandlers
import Verif.SafeHandlers2
import Verif.SafeOps
import Verif.Serving
import Verif.ShellRun
import Verif.Ticks
import Verif.Trace
import Verif.Trim
import Verif.TwoPhase
import Verif.TxLink
import Verif.Types
import Verif.Wait
import Verif.Webhook
import Verif.Wildcard
import Verif.World
