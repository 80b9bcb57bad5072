import Verif.Model.Conf

/-!
# What merging configurations should do

A setting is named by `Field`; its value in a configuration is read by `get`. This file does not refer to `userConfToGlobal`.
-/

namespace Zinx.Conf

inductive Field where
  | host
  | tcpPort
  | wsPort
  | wsPath
  | name
  | kcpPort
  | kcpACKNoDelay
  | kcpStreamMode
  | kcpNoDelay
  | kcpInterval
  | kcpResend
  | kcpNc
  | kcpSendWindow
  | kcpRecvWindow
  | kcpFecDataShards
  | kcpFecParityShards
  | version
  | maxPacketSize
  | maxConn
  | workerPoolSize
  | maxWorkerTaskLen
  | workerMode
  | maxMsgChanLen
  | ioReadBuffSize
  | mode
  | routerSlicesMode
  | requestPoolMode
  | logDir
  | logFile
  | logSaveDays
  | logFileSize
  | logCons
  | logIsolationLevel
  | heartbeatMax
  | certFile
  | privateKeyFile
deriving DecidableEq, Repr

inductive Value where
  | str (s : String)
  | int (i : Int)
  | uint (u : UInt32)
  | bool (b : Bool)
deriving DecidableEq, Repr

/-- Go's zero values. -/
def Value.isZero : Value → Bool
  | .str s => s == ""
  | .int i => i == 0
  | .uint u => u == 0
  | .bool b => !b

def Config.get (c : Config) : Field → Value
  | .host => .str c.host
  | .tcpPort => .int c.tcpPort
  | .wsPort => .int c.wsPort
  | .wsPath => .str c.wsPath
  | .name => .str c.name
  | .kcpPort => .int c.kcpPort
  | .kcpACKNoDelay => .bool c.kcpACKNoDelay
  | .kcpStreamMode => .bool c.kcpStreamMode
  | .kcpNoDelay => .int c.kcpNoDelay
  | .kcpInterval => .int c.kcpInterval
  | .kcpResend => .int c.kcpResend
  | .kcpNc => .int c.kcpNc
  | .kcpSendWindow => .int c.kcpSendWindow
  | .kcpRecvWindow => .int c.kcpRecvWindow
  | .kcpFecDataShards => .int c.kcpFecDataShards
  | .kcpFecParityShards => .int c.kcpFecParityShards
  | .version => .str c.version
  | .maxPacketSize => .uint c.maxPacketSize
  | .maxConn => .int c.maxConn
  | .workerPoolSize => .uint c.workerPoolSize
  | .maxWorkerTaskLen => .uint c.maxWorkerTaskLen
  | .workerMode => .str c.workerMode
  | .maxMsgChanLen => .uint c.maxMsgChanLen
  | .ioReadBuffSize => .uint c.ioReadBuffSize
  | .mode => .str c.mode
  | .routerSlicesMode => .bool c.routerSlicesMode
  | .requestPoolMode => .bool c.requestPoolMode
  | .logDir => .str c.logDir
  | .logFile => .str c.logFile
  | .logSaveDays => .int c.logSaveDays
  | .logFileSize => .int c.logFileSize
  | .logCons => .bool c.logCons
  | .logIsolationLevel => .int c.logIsolationLevel
  | .heartbeatMax => .int c.heartbeatMax
  | .certFile => .str c.certFile
  | .privateKeyFile => .str c.privateKeyFile

/-- The settings which the code treats differently. -/
def exceptions : List Field := [.logIsolationLevel, .kcpStreamMode, .logSaveDays, .logFileSize, .logCons]

end Zinx.Conf
