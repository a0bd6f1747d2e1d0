import Verif.Base
import Verif.Pipe
import Verif.PipeSpec
import Verif.PipeLemmas
import Verif.PipeProps
import Verif.AdvLock
import Verif.AdvLockProps
import Verif.DevNo
import Verif.DevNoProps
import Verif.Dispatch
import Verif.DispatchProps
import Verif.Sem
import Verif.SemProps
import Verif.Signal
import Verif.SignalProps
import Verif.Timer
import Verif.TimerProps
import Verif.Path
import Verif.PathProps
import Verif.Fs
import Verif.Getdents
import Verif.GetdentsProps
import Verif.FsLemmas
import Verif.FsTree
import Verif.FsInv
import Verif.FsOps
import Verif.Kernel
import Verif.KernelInv
import Verif.KernelStep
import Verif.PipeHist
import Verif.FdConcProps
import Verif.NsAnswersWitness
import Verif.IpTextProps
import Verif.SockAddrProps
import Verif.KernelInit
import Verif.FdProps
import Verif.IoProps
import Verif.NsProps
import Verif.NsCalls
import Verif.NsWitness
import Verif.HistLemmas
import Verif.HistProps
import Verif.NoPanic
import Verif.Ports
import Verif.PortsProps
import Verif.Shm
import Verif.ShmProps
import Verif.SockOpt
import Verif.SockOptProps
import Verif.UnixSock
import Verif.UnixSockLemmas
import Verif.UnixSockSpec
import Verif.UnixSockInv
import Verif.UnixSockProps
import Verif.UnixBindProps
import Verif.UnixWitness
import Verif.Select
import Verif.SelectLemmas
import Verif.SelectProps
import Verif.PollProps
import Verif.EpollProps
import Verif.SelectWitness
import Verif.LogFile
import Verif.LogFileLemmas
import Verif.LogFileProps
import Verif.Recovery
import Verif.RecoveryInv
import Verif.RecoverySync
import Verif.RecoverySess
import Verif.RecoveryProps
import Verif.RecoveryWitness
import Verif.Handles
import Verif.HandlesLemmas
import Verif.HandlesProps
import Verif.DirDevProps
import Verif.InetSock
import Verif.InetSockLemmas
import Verif.InetSockFrame
import Verif.InetSockProps
import Verif.InetSockWitness
import Verif.NameConc
import Verif.NameConcSolo
import Verif.NameConcAll
import Verif.NameConcWitness
import Verif.NameConcSpec
import Verif.NameConcWalk
import Verif.NameConcRel
import Verif.NameConcSame
import Verif.NameConcReach
import Verif.NameConcStep
import Verif.NameConcMake
import Verif.NameConcEdit
import Verif.NameConcEnd
import Verif.NameConcClose
import Verif.NameConcSim
import Verif.NameConcProps
import Verif.NameConcCheck
import Verif.SockOptAnswers
import Verif.ShmAnswers
import Verif.PortsAnswers
import Verif.UnixSockAnswers
import Verif.RecoverySocks
import Verif.LogFileMore
import Verif.FsTools
import Verif.FsToolsLemmas
import Verif.FsToolsCalls
import Verif.FsToolsSpec
import Verif.FsToolsProps
import Verif.FsToolsWitness
import Verif.FsToolsBig
import Verif.DataConc
import Verif.DataConcSpec
import Verif.DataConcLemmas
import Verif.DataConcSeq
import Verif.DataConcSim
import Verif.DataConcProgress
import Verif.DataConcProps
import Verif.DataConcWitness
import Verif.Misc
import Verif.MiscProps
import Verif.MiscWitness
import Verif.Ident
import Verif.IdentProps
import Verif.IdentWitness
import Verif.Power
import Verif.PowerProps
import Verif.Errnos
import Verif.ErrnosProps
import Verif.OpenTruncProps
import Verif.HostCopy
import Verif.HostCopySpec
import Verif.HostCopyLemmas
import Verif.HostCopyFile
import Verif.HostCopyProps
import Verif.HostCopyTree
import Verif.HostCopyUpdate
import Verif.HostCopyWitness
import Verif.FdAnswers
import Verif.FdAnswersWitness
import Verif.PipeCap
import Verif.UnixRefs
import Verif.UnixRefsStep
import Verif.UnixRefsProps
import Verif.UnixRefsWitness
import Verif.UnixCap
import Verif.InetSockHalf
import Verif.MidCrash
import Verif.MidCrashProps
import Verif.LogConc
import Verif.LogConcProps
import Verif.PortsConc
import Verif.PortsConcProps
import Verif.PortsConcWitness
import Verif.Rendezvous
import Verif.RendezvousProps
import Verif.ShmConc
import Verif.ShmConcLemmas
import Verif.ShmConcProps
import Verif.ShmConcWitness
import Verif.HostCopyUpdateTree
import Verif.PipeConc
import Verif.PipeConcLemmas
import Verif.PipeConcProps
import Verif.FdFork
import Verif.FdForkLemmas
import Verif.FdForkProps
import Verif.TimeArgs
import Verif.TimeArgsProps
import Verif.StatBuf
import Verif.StatBufProps
import Verif.EpollConc
import Verif.EpollConcSpec
import Verif.EpollConcLemmas
import Verif.EpollConcFrame
import Verif.EpollConcProps
import Verif.BlockMode
import Verif.BlockModeLemmas
import Verif.BlockModeProps
import Verif.Locks
import Verif.LocksLemmas
import Verif.LocksCalls
import Verif.LocksProps
import Verif.Life
import Verif.LifeLemmas
import Verif.LifeProps
import Verif.Duplex
import Verif.DuplexLemmas
import Verif.DuplexProps
import Verif.DirWalk
import Verif.DirWalkProps
import Verif.FlockConc
import Verif.FlockConcSpec
import Verif.FlockConcLemmas
import Verif.FlockConcProps
import Verif.SemShm
import Verif.SemShmSpec
import Verif.SemShmLemmas
import Verif.SemShmStep
import Verif.SemShmProps
import Verif.SemShmAnswers
import Verif.SemShmWitness
import Verif.ExitConc
import Verif.ExitConcSpec
import Verif.ExitConcLemmas
import Verif.ExitConcStep
import Verif.ExitConcFacts
import Verif.ExitConcProps
import Verif.ExitConcWitness
import Verif.NamesKept
import Verif.NamesKeptOps
import Verif.NamesKeptSpec
import Verif.NamesKeptProps
import Verif.NamesKeptWitness
import Verif.Touch
import Verif.TouchSpec
import Verif.TouchLemmas
import Verif.TouchArms
import Verif.TouchNull
import Verif.TouchProps
import Verif.TouchWitness
import Verif.ListStatProps
import Verif.Pipeline
import Verif.PipelineLemmas
import Verif.PipelineInv
import Verif.PipelineProps
import Verif.PipelineWitness
import Verif.FdBits
import Verif.FdBitsLemmas
import Verif.FdBitsProps
import Verif.Conform
import Verif.ConformFs1
import Verif.ConformFs2
import Verif.ConformFs3
import Verif.ConformFs4
import Verif.ConformIpc
import Verif.ConformUnix
import Verif.ConformNet
import Verif.SockNew
import Verif.SockNewSpec
import Verif.SockNewLemmas
import Verif.SockNewProps
import Verif.InetName
import Verif.InetNameLemmas
import Verif.InetNameRange
import Verif.InetNameProps
import Verif.Replace
import Verif.ReplaceLemmas
import Verif.ReplaceProps
import Verif.ReplaceCrash
import Verif.ReplaceWitness
import Verif.FsShow
import Verif.FsShowLemmas
import Verif.FsShowSpec
import Verif.FsShowProps
import Verif.LockFile
import Verif.LockFileProps
import Verif.Rlimit
import Verif.RlimitProps
import Verif.Confine
import Verif.ConfineLemmas
import Verif.ConfineProps
import Verif.Redirect
import Verif.RedirectProps
import Verif.RedirectPipe
import Verif.FsCmd
import Verif.FsCmdProps
import Verif.Follow
import Verif.FollowProps
import Verif.FollowWitness
import Verif.LockedAppend
import Verif.LockedAppendProps
import Verif.LockedAppendWitness
import Verif.Mailbox
import Verif.MailboxProps
import Verif.MailboxWitness
import Verif.Records
import Verif.RecordsProps
import Verif.RecordsConc
import Verif.RecordsWitness
import Verif.FollowConc
import Verif.AnyLock
import Verif.AnyLockProps
import Verif.AnyLockWitness
import Verif.Txn
import Verif.TxnProps
import Verif.TxnWitness
import Verif.LogCrash
import Verif.FsCmdRmdir
import Verif.Scratch
import Verif.ScratchProps
import Verif.ScratchWitness
import Verif.ScratchCrash
import Verif.Alias
import Verif.AliasProps
import Verif.AliasWitness
