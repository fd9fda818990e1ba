import Verif.Status
import Verif.Props.Status
import Verif.SList
import Verif.SListSpec
import Verif.SListProof
import Verif.Props.SList
import Verif.DList
import Verif.DListProof
import Verif.Props.DList
import Verif.Queue
import Verif.QueueProof
import Verif.Props.Queue
import Verif.Uuid
import Verif.UuidProof
import Verif.Props.Uuid
import Verif.Str
import Verif.StrProof
import Verif.Props.Str
import Verif.Bytes
import Verif.Props.Bytes
import Verif.Bump
import Verif.Props.Bump
import Verif.Bigint
import Verif.Props.Bigint
import Verif.Psock
import Verif.PsockSpec
import Verif.PsockProof
import Verif.PsockBuf
import Verif.Props.Psock
import Verif.PsockAsync
import Verif.PsockBr
import Verif.PsockLine
import Verif.Props.PsockStream
import Verif.Props.PsockLong
import Verif.Trigger
import Verif.Props.Trigger
import Verif.Fds
import Verif.Props.Fds
import Verif.Epoll
import Verif.Props.Epoll
import Verif.Poll
import Verif.Props.Poll
import Verif.Disc
import Verif.Props.Disc
import Verif.Fiber
import Verif.FiberSpec
import Verif.FiberProof
import Verif.FiberHist
import Verif.FiberAny
import Verif.FiberRun
import Verif.Props.Fiber
import Verif.Sched
import Verif.Props.Sched
import Verif.RBTree
import Verif.RBSpec
import Verif.RBRep
import Verif.RBInsert
import Verif.RBMap
import Verif.RBDelete
import Verif.RBWalk
import Verif.RBOrder
import Verif.RBClear
import Verif.RBRun
import Verif.RBShape
import Verif.RBGone
import Verif.RBUse
import Verif.RBRename
import Verif.RBSmall
import Verif.RBMin
import Verif.RBStack
import Verif.Props.RBTree
import Verif.Props.RBSmall
import Verif.Props.RBMin
import Verif.Props.RBStack
import Verif.Asm
import Verif.AsmProof
import Verif.AsmSwitch
import Verif.AsmMake
import Verif.AsmSys
import Verif.Props.Asm
import Verif.FiberReq
import Verif.Props.FiberReq
import Verif.Life
import Verif.LifeWp
import Verif.Props.Life
import Verif.Props.LifeHist
import Verif.Props.LifeRest
import Verif.MsgPay
import Verif.Props.MsgPay
import Verif.RBNode
import Verif.RBNodeProof
import Verif.Props.RBNode
import Verif.LifeSched
import Verif.LifeOwn
import Verif.LifeInv
import Verif.Props.LifeSched
import Verif.PsockMsg
import Verif.PsockMsgSpec
import Verif.PsockMsgLemmas
import Verif.Props.PsockMsg
import Verif.Vtable
import Verif.VtableSpec
import Verif.Props.Vtable
import Verif.Malloc
import Verif.MallocSpec
import Verif.Props.Malloc
import Verif.Thread
import Verif.ThreadSpec
import Verif.ThreadLemmas
import Verif.Props.Thread
import Verif.Monitor
import Verif.MonitorSpec
import Verif.MonitorLemmas
import Verif.Props.Monitor
import Verif.Props.MonitorBuffer
import Verif.MsgTree
import Verif.MsgTreeProof
import Verif.Props.MsgTree
import Verif.IoFiber
import Verif.IoSpec
import Verif.IoProof
import Verif.IoWait
import Verif.Props.Io
import Verif.Props.IoWait
import Verif.Net
import Verif.NetSpec
import Verif.NetKahn
import Verif.NetProof
import Verif.NetRun
import Verif.Props.Net
import Verif.MsgOwnSpec
import Verif.MsgOwnProof
import Verif.Props.MsgOwn
import Verif.FibTree
import Verif.FibTreeSpec
import Verif.FibTreeProof
import Verif.Props.FibTree
import Verif.PsockRaw
import Verif.Props.PsockRaw
import Verif.Echo
import Verif.Props.Echo
import Verif.EchoLife
import Verif.Props.EchoLife
import Verif.EchoMain
import Verif.Props.EchoMain
import Verif.ListMem
import Verif.FibMem
import Verif.FibMemSpec
import Verif.FibMemRel
import Verif.FibMemProof
import Verif.FibMemBox
import Verif.FibMemCond
import Verif.FibMemRun
import Verif.FibMemHist
import Verif.Props.FibMem
import Verif.Mandel
import Verif.MandelSpec
import Verif.MandelMove
import Verif.MandelInv
import Verif.MandelStage
import Verif.MandelSafe
import Verif.MandelLive
import Verif.MandelEnd
import Verif.MandelBound
import Verif.MandelHang
import Verif.Props.Mandel
import Verif.NetTalk
import Verif.NetTalkSpec
import Verif.NetTalkProof
import Verif.NetTalkRun
import Verif.NetTalkUse
import Verif.Props.NetTalk
import Verif.EchoStop
import Verif.EchoStopSpec
import Verif.EchoStopProof
import Verif.EchoStopRun
import Verif.Props.EchoStop
import Verif.Props.EchoDeaf
import Verif.MandelMain
import Verif.Props.MandelMain
import Verif.MandelFile
import Verif.Props.MandelFile
import Verif.Wrap
import Verif.Props.Wrap
import Verif.Control
import Verif.Props.Control
import Verif.PsockDuplex
import Verif.Props.PsockDuplex
import Verif.Props.Kqueue
import Verif.Connect
import Verif.Props.Connect
import Verif.MsgHeap
import Verif.Props.MsgHeap
