import Verif.AppInfo.Mac
import Verif.AppInfo.Model
import Verif.AppInfo.Props
import Verif.AppInfo.PropsMac
import Verif.AppInfo.Spec
import Verif.Base
import Verif.BlockHeap
import Verif.Cache.Model
import Verif.Cache.Props
import Verif.Cache.Spec
import Verif.Client.EventCore
import Verif.Client.EventModel
import Verif.Client.JoinCore
import Verif.Client.JoinModel
import Verif.Client.JoinWin
import Verif.Client.MutexCore
import Verif.Client.MutexLemmas
import Verif.Client.MutexModel
import Verif.Client.MutexShort
import Verif.Client.MutexSpec
import Verif.Client.NestModel
import Verif.Client.NestWinModel
import Verif.Client.PropsEvent
import Verif.Client.PropsJoin
import Verif.Client.PropsMutex
import Verif.Client.PropsNest
import Verif.Client.PropsNestEnd
import Verif.Client.PropsNestWin
import Verif.Client.PropsOrder
import Verif.Client.PropsOrderMix
import Verif.Client.PropsOrderWin
import Verif.Client.PropsRw
import Verif.Client.PropsSem
import Verif.Client.PropsWin
import Verif.Client.RingCore
import Verif.Client.RwCore
import Verif.Client.RwModel
import Verif.Client.SemCore
import Verif.Client.SemModel
import Verif.Client.WinCore
import Verif.Client.WinModel
import Verif.ConvertInt.Lemmas
import Verif.ConvertInt.Model
import Verif.ConvertInt.Props
import Verif.ConvertInt.Spec
import Verif.Counts
import Verif.Crash.Lemmas
import Verif.Crash.LockLemmas
import Verif.Crash.LockModel
import Verif.Crash.Midway
import Verif.Crash.Model
import Verif.Crash.Props
import Verif.Crash.PropsLock
import Verif.Crash.PropsWin
import Verif.Crash.PropsWinRw
import Verif.Crash.RwLives
import Verif.Crash.WinModel
import Verif.Crash.WinSpec
import Verif.Csprng.Life
import Verif.Csprng.Model
import Verif.Csprng.Props
import Verif.Csprng.PropsLife
import Verif.DList.Lemmas
import Verif.DList.Model
import Verif.DList.Props
import Verif.DList.PropsSweep
import Verif.DList.Spec
import Verif.DList.Sweep
import Verif.Dir.ExactLemmas
import Verif.Dir.Lemmas
import Verif.Dir.MkLemmas
import Verif.Dir.Model
import Verif.Dir.Props
import Verif.Dir.PropsExact
import Verif.Dir.PropsMk
import Verif.Dir.Spec
import Verif.Dir.TreeLemmas
import Verif.DirList.Model
import Verif.DirList.Props
import Verif.DirList.Spec
import Verif.Event.Lemmas
import Verif.Event.Model
import Verif.Event.Props
import Verif.Event.PropsFail
import Verif.Event.Spec
import Verif.Event.Wake
import Verif.FastFind.Hand
import Verif.FastFind.Lemmas
import Verif.FastFind.Model
import Verif.FastFind.Props
import Verif.FastFind.PropsHand
import Verif.FastFind.PropsLimit
import Verif.FastFind.PropsOwn
import Verif.FastFind.PropsReplace
import Verif.FastFind.Spec
import Verif.File.Lemmas
import Verif.File.LineLemmas
import Verif.File.Model
import Verif.File.Props
import Verif.File.PropsCopy
import Verif.File.Spec
import Verif.FileOps.Model
import Verif.FileOps.Props
import Verif.FileOps.PropsMove
import Verif.FileSize.Lemmas
import Verif.FileSize.Model
import Verif.FileSize.Props
import Verif.FileSize.Spec
import Verif.Guard.Model
import Verif.Guard.Props
import Verif.Guard.PropsMutex
import Verif.Guard.PropsRw
import Verif.Guard.Rw
import Verif.HashFn.Model
import Verif.HashFn.Props
import Verif.HashFn.Spec
import Verif.Json.Doc
import Verif.Json.Lemmas
import Verif.Json.Model
import Verif.Json.Props
import Verif.Json.PropsUnique
import Verif.Json.Spec
import Verif.Json.Steps
import Verif.Json.Unique
import Verif.Links
import Verif.MixedVar.Model
import Verif.MixedVar.Props
import Verif.MixedVar.PropsValues
import Verif.MixedVar.Spec
import Verif.Mutex.FullLemmas
import Verif.Mutex.FullModel
import Verif.Mutex.Lemmas
import Verif.Mutex.Model
import Verif.Mutex.Props
import Verif.Mutex.PropsFull
import Verif.Mutex.Spec
import Verif.Mutex.Wrap
import Verif.NamedMem.Lemmas
import Verif.NamedMem.Model
import Verif.NamedMem.Props
import Verif.NamedMem.Spec
import Verif.OrderedHash.KeyMem
import Verif.OrderedHash.Lemmas
import Verif.OrderedHash.Model
import Verif.OrderedHash.Multi
import Verif.OrderedHash.MultiLemmas
import Verif.OrderedHash.Props
import Verif.OrderedHash.PropsAssign
import Verif.OrderedHash.PropsKeyMem
import Verif.OrderedHash.PropsLoad
import Verif.OrderedHash.PropsMulti
import Verif.OrderedHash.PropsSweep
import Verif.OrderedHash.Spec
import Verif.OrderedHash.Sweep
import Verif.PackedHash.CursorLemmas
import Verif.PackedHash.CursorModel
import Verif.PackedHash.CursorSpec
import Verif.PackedHash.Lemmas
import Verif.PackedHash.Lemmas2
import Verif.PackedHash.Life
import Verif.PackedHash.Model
import Verif.PackedHash.Props
import Verif.PackedHash.PropsCursor
import Verif.PackedHash.PropsLife
import Verif.PackedHash.PropsResize
import Verif.PackedHash.Spec
import Verif.Path.AbsLemmas
import Verif.Path.AbsWhole
import Verif.Path.Model
import Verif.Path.NameLemmas
import Verif.Path.PieceLemmas
import Verif.Path.Props
import Verif.Path.PropsAbs
import Verif.Path.Spec
import Verif.Progress.Event
import Verif.Progress.Mutex
import Verif.Progress.Props
import Verif.Progress.RwLock
import Verif.Progress.Sem
import Verif.Progress.Spec
import Verif.Queue.Model
import Verif.Queue.Props
import Verif.Queue.Spec
import Verif.Race.Lemmas
import Verif.Race.Model
import Verif.Race.Props
import Verif.Race.Spec
import Verif.RwLock.FullLemmas
import Verif.RwLock.FullModel
import Verif.RwLock.Lemmas
import Verif.RwLock.Live
import Verif.RwLock.Model
import Verif.RwLock.Prefer
import Verif.RwLock.Props
import Verif.RwLock.PropsFull
import Verif.RwLock.PropsStarve
import Verif.RwLock.Spec
import Verif.RwLock.Wrap
import Verif.Sem.Lemmas
import Verif.Sem.Model
import Verif.Sem.Props
import Verif.Sem.PropsFail
import Verif.Sem.Spec
import Verif.Sem.Wake
import Verif.SharedLib.Model
import Verif.SharedLib.Props
import Verif.SharedLife.Model
import Verif.SharedLife.Props
import Verif.ShmName.Lemmas
import Verif.ShmName.Model
import Verif.ShmName.Props
import Verif.ShmName.PropsLong
import Verif.ShmName.Spec
import Verif.Static2D.Model
import Verif.Static2D.Props
import Verif.Static2D.Spec
import Verif.StaticVector.Model
import Verif.StaticVector.Props
import Verif.StaticVector.Spec
import Verif.SyncLife.Layout
import Verif.SyncLife.Lemmas
import Verif.SyncLife.Model
import Verif.SyncLife.MutexModel
import Verif.SyncLife.MutexSpec
import Verif.SyncLife.Owned
import Verif.SyncLife.Props
import Verif.SyncLife.PropsMutex
import Verif.SyncLife.Spec
import Verif.Timing.Mac
import Verif.Timing.Model
import Verif.Timing.Props
import Verif.Timing.PropsMac
import Verif.Tls.Info
import Verif.Tls.Lemmas
import Verif.Tls.Model
import Verif.Tls.Props
import Verif.Tls.PropsInfo
import Verif.Tls.PropsScope
import Verif.Tls.PropsThreads
import Verif.Tls.Scope
import Verif.Tls.Spec
import Verif.Tls.Threads
import Verif.Tls.ThreadsLemmas
import Verif.TlsVar.Lemmas
import Verif.TlsVar.Model
import Verif.TlsVar.Props
import Verif.TlsVar.PropsReplace
import Verif.TlsVar.ReplaceLemmas
import Verif.TlsVar.Spec
import Verif.Utf8.Lemmas
import Verif.Utf8.Model
import Verif.Utf8.Props
import Verif.Utf8.PropsSearch
import Verif.Utf8.Search
import Verif.Utf8.Spec
import Verif.Utf8Var.Model
import Verif.Utf8Var.Props
import Verif.Utf8Var.PropsExact
import Verif.Utf8Var.Spec
import Verif.WinAbs.Lemmas
import Verif.WinAbs.Model
import Verif.WinAbs.Props
import Verif.WinAbs.Spec
import Verif.WinAbs.Tail
import Verif.WinAbs.Whole
import Verif.WinAppInfo.Lemmas
import Verif.WinAppInfo.Model
import Verif.WinAppInfo.Props
import Verif.WinAppInfo.Spec
import Verif.WinCsprng.Model
import Verif.WinCsprng.Props
import Verif.WinDir.AbsLemmas
import Verif.WinDir.Model
import Verif.WinDir.NameLemmas
import Verif.WinDir.Props
import Verif.WinDir.PropsCwd
import Verif.WinDir.PropsMk
import Verif.WinDir.RmLemmas
import Verif.WinDir.Spec
import Verif.WinDir.TreeLemmas
import Verif.WinFile.Model
import Verif.WinFile.Props
import Verif.WinFile.Spec
import Verif.WinLink.Model
import Verif.WinLink.Priv
import Verif.WinLink.PropsPriv
import Verif.WinLink.PropsRead
import Verif.WinLink.PropsSym
import Verif.WinLink.Spec
import Verif.WinList.Lemmas
import Verif.WinList.Model
import Verif.WinList.Props
import Verif.WinList.PropsOpen
import Verif.WinList.Spec
import Verif.WinMutex.Exec
import Verif.WinMutex.Lemmas
import Verif.WinMutex.Model
import Verif.WinMutex.Props
import Verif.WinMutex.Spec
import Verif.WinMutex.Steps
import Verif.WinMutex.Wrap
import Verif.WinOps.Copy
import Verif.WinOps.Lemmas
import Verif.WinOps.Model
import Verif.WinOps.NameLemmas
import Verif.WinOps.PropsCopy
import Verif.WinOps.PropsMode
import Verif.WinOps.PropsTimes
import Verif.WinOps.Spec
import Verif.WinOps.StatLemmas
import Verif.WinPath.Lemmas
import Verif.WinPath.Model
import Verif.WinPath.NameLemmas
import Verif.WinPath.Props
import Verif.WinPath.PropsInfo
import Verif.WinPath.Spec
import Verif.WinPath.Whole
import Verif.WinReal.Lemmas
import Verif.WinReal.Link
import Verif.WinReal.Model
import Verif.WinReal.Props
import Verif.WinReal.PropsLimit
import Verif.WinReal.PropsLink
import Verif.WinReal.Spec
import Verif.WinRwLock.Lemmas
import Verif.WinRwLock.Live
import Verif.WinRwLock.Model
import Verif.WinRwLock.Props
import Verif.WinSync.Core
import Verif.WinSync.Lemmas
import Verif.WinSync.Model
import Verif.WinSync.Names
import Verif.WinSync.PropsLife
import Verif.WinSync.PropsUse
import Verif.WinSync.Spec
import Verif.WinSync.Steps
import Verif.WinTiming.Model
import Verif.WinTiming.Props
import Verif.Axioms
