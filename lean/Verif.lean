import Verif.Lemmas.Accept
import Verif.Lemmas.Aoi
import Verif.Lemmas.Async
import Verif.Lemmas.Bytes
import Verif.Lemmas.Callbacks
import Verif.Lemmas.Chain
import Verif.Lemmas.ConnMgr
import Verif.Lemmas.Crc
import Verif.Lemmas.CrcDetect
import Verif.Lemmas.Decoder
import Verif.Lemmas.ExecOf
import Verif.Lemmas.Frame
import Verif.Lemmas.FrameLong
import Verif.Lemmas.FrameTotal
import Verif.Lemmas.HeartbeatConf
import Verif.Lemmas.KcpLive
import Verif.Lemmas.KcpSend
import Verif.Lemmas.Log
import Verif.Lemmas.LogWriter
import Verif.Lemmas.Login
import Verif.Lemmas.LoginFair
import Verif.Lemmas.LoginFlow
import Verif.Lemmas.LoginLive
import Verif.Lemmas.LoginMsgs
import Verif.Lemmas.LoginOps
import Verif.Lemmas.LoginOpsLive
import Verif.Lemmas.LoginPush
import Verif.Lemmas.LoginView
import Verif.Lemmas.Pack
import Verif.Lemmas.Pipe
import Verif.Lemmas.Race
import Verif.Lemmas.RaceOnce
import Verif.Lemmas.Request
import Verif.Lemmas.Router
import Verif.Lemmas.Send
import Verif.Lemmas.SendLive
import Verif.Lemmas.ShardMap
import Verif.Lemmas.Snowflake
import Verif.Lemmas.Timer
import Verif.Lemmas.TimerTick
import Verif.Lemmas.Wait
import Verif.Lemmas.Worker
import Verif.Lemmas.WorldConc
import Verif.Lemmas.WorldRun
import Verif.Lemmas.WsLive
import Verif.Lemmas.WsSend
import Verif.Model.Accept
import Verif.Model.AcceptDelay
import Verif.Model.Alive
import Verif.Model.Aoi
import Verif.Model.Async
import Verif.Model.AsyncHome
import Verif.Model.AsyncStart
import Verif.Model.AutoTimer
import Verif.Model.Basic
import Verif.Model.Bcast
import Verif.Model.Beats
import Verif.Model.Callbacks
import Verif.Model.Caller
import Verif.Model.Chain
import Verif.Model.ChainConc
import Verif.Model.Chat
import Verif.Model.Client
import Verif.Model.CloseCb
import Verif.Model.Conf
import Verif.Model.ConfJson
import Verif.Model.ConfLog
import Verif.Model.ConfPath
import Verif.Model.ConnLife
import Verif.Model.ConnMgr
import Verif.Model.Crc
import Verif.Model.Decoder
import Verif.Model.DelayConc
import Verif.Model.Device
import Verif.Model.Fair
import Verif.Model.FirstClient
import Verif.Model.Frame
import Verif.Model.Goexit
import Verif.Model.HandRead
import Verif.Model.Handshake
import Verif.Model.HbShare
import Verif.Model.HbStart
import Verif.Model.HeartbeatConf
import Verif.Model.HookBuf
import Verif.Model.IterChan
import Verif.Model.KcpSend
import Verif.Model.KeysChan
import Verif.Model.LastWords
import Verif.Model.Leaving
import Verif.Model.Log
import Verif.Model.LogClean
import Verif.Model.LogConc
import Verif.Model.LogFault
import Verif.Model.LogWriter
import Verif.Model.Login
import Verif.Model.Made
import Verif.Model.MapLeak
import Verif.Model.MapLock
import Verif.Model.NotifyOne
import Verif.Model.OneShot
import Verif.Model.Options
import Verif.Model.Pack
import Verif.Model.Pipe
import Verif.Model.PoolCycle
import Verif.Model.Property
import Verif.Model.Race
import Verif.Model.RaceCode
import Verif.Model.RawRead
import Verif.Model.ReadBuf
import Verif.Model.Recycle
import Verif.Model.Request
import Verif.Model.Robot
import Verif.Model.RouteConc
import Verif.Model.Router
import Verif.Model.Rpc
import Verif.Model.RpcAny
import Verif.Model.Screen
import Verif.Model.ScreenConc
import Verif.Model.Send
import Verif.Model.SendAlias
import Verif.Model.ServerCycle
import Verif.Model.ServerStop
import Verif.Model.Servers
import Verif.Model.ShardCount
import Verif.Model.ShardJson
import Verif.Model.ShardMap
import Verif.Model.Snowflake
import Verif.Model.Stations
import Verif.Model.Sys
import Verif.Model.Teardown
import Verif.Model.Timer
import Verif.Model.Unbuf
import Verif.Model.Unwind
import Verif.Model.Wait
import Verif.Model.Worker
import Verif.Model.WorldConc
import Verif.Model.WsFrames
import Verif.Model.WsMux
import Verif.Model.WsSend
import Verif.Props.Accept
import Verif.Props.AcceptBound
import Verif.Props.AcceptDelay
import Verif.Props.AcceptRefuse
import Verif.Props.Alive
import Verif.Props.Aoi
import Verif.Props.Async
import Verif.Props.AsyncHome
import Verif.Props.AsyncHomeBad
import Verif.Props.AsyncHomeLive
import Verif.Props.AsyncStart
import Verif.Props.AsyncStartLive
import Verif.Props.AutoTimer
import Verif.Props.Backlog
import Verif.Props.Bcast
import Verif.Props.Beats
import Verif.Props.Callbacks
import Verif.Props.Caller
import Verif.Props.Chain
import Verif.Props.ChainConc
import Verif.Props.Chat
import Verif.Props.Client
import Verif.Props.CloseCb
import Verif.Props.Conf
import Verif.Props.ConfJson
import Verif.Props.ConfLog
import Verif.Props.ConfPath
import Verif.Props.ConnLife
import Verif.Props.ConnMgr
import Verif.Props.CountRange
import Verif.Props.Crc
import Verif.Props.DelayConc
import Verif.Props.Device
import Verif.Props.Exact
import Verif.Props.Exact2
import Verif.Props.Exact3
import Verif.Props.Exact4
import Verif.Props.ExactAoi
import Verif.Props.FirstClient
import Verif.Props.Frame
import Verif.Props.FrameExact
import Verif.Props.FrameMem
import Verif.Props.Goexit
import Verif.Props.Goodbye
import Verif.Props.HandRead
import Verif.Props.Handshake
import Verif.Props.Hash
import Verif.Props.HbShare
import Verif.Props.HbStart
import Verif.Props.HeartbeatConf
import Verif.Props.HookBuf
import Verif.Props.InManager
import Verif.Props.IterChan
import Verif.Props.IterChanLive
import Verif.Props.IterCount
import Verif.Props.KcpSend
import Verif.Props.KeysChan
import Verif.Props.LastWords
import Verif.Props.Leaving
import Verif.Props.Log
import Verif.Props.LogClean
import Verif.Props.LogConc
import Verif.Props.LogExact
import Verif.Props.LogFault
import Verif.Props.LogFaultMore
import Verif.Props.LogTime
import Verif.Props.LogWriter
import Verif.Props.Login
import Verif.Props.LoginAnswered
import Verif.Props.LoginOrder
import Verif.Props.LoginRuns
import Verif.Props.Made
import Verif.Props.MapLeak
import Verif.Props.MapLock
import Verif.Props.Message
import Verif.Props.NotifyOne
import Verif.Props.OneShot
import Verif.Props.Options
import Verif.Props.Pack
import Verif.Props.Pipe
import Verif.Props.PipeBase
import Verif.Props.PipeWs
import Verif.Props.PoolCycle
import Verif.Props.PoolCycleLive
import Verif.Props.Property
import Verif.Props.Race
import Verif.Props.RaceOnce
import Verif.Props.RawRead
import Verif.Props.ReadBuf
import Verif.Props.Recycle
import Verif.Props.Request
import Verif.Props.Robot
import Verif.Props.RouteConc
import Verif.Props.Router
import Verif.Props.Rpc
import Verif.Props.RpcAny
import Verif.Props.RpcAnyLive
import Verif.Props.RpcKcp
import Verif.Props.RpcLive
import Verif.Props.RpcOnce
import Verif.Props.RpcOver
import Verif.Props.RpcOverLive
import Verif.Props.RpcWs
import Verif.Props.Screen
import Verif.Props.ScreenConc
import Verif.Props.Send
import Verif.Props.SendAlias
import Verif.Props.SendBroken
import Verif.Props.SendCalls
import Verif.Props.SendsDone
import Verif.Props.ServerCycle
import Verif.Props.ServerStop
import Verif.Props.ServerStopLive
import Verif.Props.Servers
import Verif.Props.ServersOwn
import Verif.Props.ShardCount
import Verif.Props.ShardJson
import Verif.Props.ShardMap
import Verif.Props.Snowflake
import Verif.Props.Stall
import Verif.Props.Stations
import Verif.Props.Teardown
import Verif.Props.Timer
import Verif.Props.Unbuf
import Verif.Props.UnbufLive
import Verif.Props.UnderLock
import Verif.Props.Unwind
import Verif.Props.Wait
import Verif.Props.Wire
import Verif.Props.Worker
import Verif.Props.WorkerExact
import Verif.Props.WorkerHang
import Verif.Props.WorkerLive
import Verif.Props.WorldConc
import Verif.Props.WriterEnd
import Verif.Props.WsFrames
import Verif.Props.WsMux
import Verif.Props.WsSend
import Verif.Spec.Chain
import Verif.Spec.Conf
import Verif.Spec.ConnMgr
import Verif.Spec.Crc
import Verif.Spec.Frame
import Verif.Spec.Log
import Verif.Spec.Property
import Verif.Spec.Request
import Verif.Spec.Router
import Verif.Spec.ShardMap
import Verif.Spec.Wire
import Verif.Spec.Worker
