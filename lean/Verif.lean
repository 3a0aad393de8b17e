import Verif.Base.LTS
import Verif.Base.Count
import Verif.Base.View
import Verif.Props.SpinMutex
import Verif.Props.SharedSpinMutex
import Verif.Props.AutoEventFutex
import Verif.Props.ManualEventFutex
import Verif.Props.WinMutex
import Verif.Props.WinGetEvent
import Verif.Props.Emulation
import Verif.Props.EmulationFaults
import Verif.Props.AutoEventSem
import Verif.Props.WinCondVar
import Verif.Props.CondVarPosix
import Verif.Props.CvAny
import Verif.Props.PredLoops
import Verif.Props.OsSemaphore
import Verif.Props.Interrupted
import Verif.Props.Time
import Verif.Props.UserClock
import Verif.Props.WaitLoop
import Verif.Props.Locks
import Verif.Props.Guards
import Verif.Props.Tss
import Verif.Props.TssExit
import Verif.Props.OnceInit
import Verif.Props.SemName
import Verif.Props.TimerContext
import Verif.Props.TssRace
import Verif.Props.SpinProgress
import Verif.Props.SharedSpinProgress
import Verif.Props.AutoFutexProgress
import Verif.Props.ManualFutexProgress
import Verif.Props.WinMutexProgress
import Verif.Props.WinMutexDestroy
import Verif.Props.AutoSemProgress
import Verif.Props.CvAnyResults
import Verif.Props.WinCondVarResults
import Verif.Props.WinCondVarDestroy
import Verif.Props.LockEffects
import Verif.Props.TssEffects
import Verif.Props.WinEvent
import Verif.Props.Lifecycle
import Verif.Props.TssAlloc
import Verif.Props.TssProcess
import Verif.Props.TssHooks
import Verif.Props.AutoSemOrder
import Verif.Props.AutoFutexOrder
import Verif.Props.Returned
import Verif.Props.Failures
import Verif.Props.Outcome
import Verif.Props.Effort
import Verif.Props.WinCondVarFull
import Verif.Props.ConfigSelect
import Verif.Props.ConfigAbi
import Verif.Props.ConfigDiag
import Verif.Props.ConfigPromise
import Verif.Props.ConfigBuild
import Verif.Props.ConfigSpin
import Verif.Props.ManualFutexOrder
import Verif.Props.ResetKnows
import Verif.Props.WinCvOrder
import Verif.Props.ErrCode
import Verif.Props.TimePoint
import Verif.Props.Numbered
import Verif.Props.Instantiate
import Verif.Props.LockMembers
import Verif.Props.Alone
import Verif.Props.Newest
import Verif.Props.Held
import Verif.Props.WinCvFail
import Verif.Props.Starvation
import Verif.Props.StarvationSem
import Verif.Props.Notified
import Verif.Props.NotifiedWin
import Verif.Props.NotifiedPosix
import Verif.Props.OnceEnds
import Verif.Props.TimedEnds
import Verif.Props.TimedRetries
import Verif.Props.ClockEnds
import Verif.Props.LocksThrow
import Verif.Props.GuardsThrow
import Verif.Props.TimedWaits
import Verif.Audit
