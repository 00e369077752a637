import Verif.Props.EntityId
import Verif.Props.Entities
import Verif.Props.SparseArray
import Verif.Props.SparseSet
import Verif.Props.SparseSet2
import Verif.Props.Takeover
import Verif.Props.Scheduler
import Verif.Props.Workloads
import Verif.Props.Running
import Verif.Props.Conditions
import Verif.Props.Said
import Verif.Props.UniqueClears
import Verif.Props.TrackOn
import Verif.Props.DeleteComponents
import Verif.Props.Parallel
import Verif.Props.Borrow
import Verif.Props.BorrowViews
import Verif.Props.BorrowRace
import Verif.Props.Tracking
import Verif.Props.UniqueTracking
import Verif.Props.Unique
import Verif.Props.Iter
import Verif.Props.IterSteps
import Verif.Props.IterWorld
import Verif.Lemmas.World
import Verif.Lemmas.WorldEnts
import Verif.Lemmas.WorldOps
import Verif.Lemmas.WorldOps2
import Verif.Lemmas.WorldReach
import Verif.Lemmas.WorldRetain
import Verif.Props.World
import Verif.Model.Serde
import Verif.Lemmas.Serde
import Verif.Lemmas.SerdeWorld
import Verif.Props.Serde
import Verif.Model.Track
import Verif.Spec.Track
import Verif.Lemmas.Track
import Verif.Props.Track
import Verif.Props.WorldTracking
import Verif.Spec.WorldReports
import Verif.Lemmas.WorldReports
import Verif.Props.WorldReports
import Verif.Model.MutHandle
import Verif.Spec.MutHandle
import Verif.Props.MutHandle
import Verif.Model.Threads
import Verif.Spec.Threads
import Verif.Lemmas.Threads
import Verif.Props.Threads
import Verif.Model.Views
import Verif.Spec.Views
import Verif.Lemmas.Views
import Verif.Props.Views
import Verif.Model.Guards
import Verif.Spec.Guards
import Verif.Lemmas.Guards
import Verif.Props.Guards
import Verif.Model.GetComponent
import Verif.Spec.GetComponent
import Verif.Lemmas.GetComponent
import Verif.Props.GetComponent
import Verif.Model.UniqueOrInit
import Verif.Spec.UniqueOrInit
import Verif.Props.UniqueOrInit
import Verif.Model.Unwind
import Verif.Spec.Unwind
import Verif.Lemmas.Unwind
import Verif.Props.Unwind
import Verif.Model.WorldUnwind
import Verif.Spec.WorldUnwind
import Verif.Lemmas.WorldUnwind
import Verif.Lemmas.WorldUnwindPlain
import Verif.Props.WorldUnwind
import Verif.Props.StorageMap
import Verif.Model.StorageCond
import Verif.Lemmas.StorageCond
import Verif.Props.StorageCond
import Verif.Lemmas.Report
import Verif.Spec.WorkloadInfo
import Verif.Lemmas.WorkloadInfo
import Verif.Props.WorkloadInfo
import Verif.Lemmas.Isolate
import Verif.Model.Register
import Verif.Spec.Register
import Verif.Lemmas.Register
import Verif.Props.Register
import Verif.Props.Build
import Verif.Model.Label
import Verif.Props.Label
import Verif.Model.Ident
import Verif.Props.Ident
import Verif.Model.Memory
import Verif.Spec.Memory
import Verif.Lemmas.Memory
import Verif.Props.Memory
import Verif.Model.TrackedRun
import Verif.Spec.TrackedRun
import Verif.Lemmas.TrackedRun
import Verif.Props.TrackedRun
import Verif.Model.UniquePresence
import Verif.Spec.UniquePresence
import Verif.Props.UniquePresence
import Verif.Lemmas.TrackedSame
import Verif.Props.TrackedSame
import Verif.Spec.ParallelAny
import Verif.Lemmas.ParallelAny
import Verif.Lemmas.ParallelOwn
import Verif.Props.ParallelAny
import Verif.Spec.Lives
import Verif.Lemmas.Lives
import Verif.Spec.WorldIter
import Verif.Lemmas.WorldIter
import Verif.Props.WorldIter
import Verif.Model.CustomStorage
import Verif.Lemmas.CustomStorage
import Verif.Props.CustomStorage
import Verif.Model.LocalStorage
import Verif.Props.CloneTracking
import Verif.Props.Timestamps
import Verif.Props.ParStrip
import Verif.Props.MoveUnwind
import Verif.Props.CloneUnwind
import Verif.Spec.Lend
import Verif.Lemmas.Lend
import Verif.Props.Lend
import Verif.Model.CustomView
import Verif.Spec.CustomView
import Verif.Lemmas.CustomView
import Verif.Props.CustomView
import Verif.Lemmas.ParallelAsk
import Verif.Spec.Nested
import Verif.Lemmas.Nested
import Verif.Props.Nested
import Verif.Model.SchedulerShare
import Verif.Spec.SchedulerShare
import Verif.Lemmas.SchedulerShare
import Verif.Props.SchedulerShare
import Verif.Model.ParallelPanic
import Verif.Spec.ParallelPanic
import Verif.Props.ParallelPanic
import Verif.Spec.SeqTuple
import Verif.Lemmas.SeqTuple
import Verif.Props.SeqTuple
import Verif.Lemmas.Exhausted
import Verif.Props.Exhausted
import Verif.Model.CustomStorageView
import Verif.Lemmas.CustomStorageView
import Verif.Props.CustomStorageView
import Verif.Model.AddWorkload
import Verif.Spec.AddWorkload
import Verif.Props.AddWorkload
import Verif.Model.Worlds
import Verif.Spec.Worlds
import Verif.Props.Worlds
import Verif.Props.LogClears
import Verif.Lemmas.MoveOver
import Verif.Props.MoveOver
import Verif.Props.SailTime
import Verif.Props.SailWorld
import Verif.Props.IterAnywhere
import Verif.Props.Shortest
import Verif.Props.ShortestNest
import Verif.Props.IterNest
import Verif.Props.Mixed
import Verif.Props.MixedClone
import Verif.Props.MixedUnique
import Verif.Spec.ParamBorrow
import Verif.Props.OrInitBorrow
import Verif.Props.OrInitGranted
import Verif.Props.OrInitServed
