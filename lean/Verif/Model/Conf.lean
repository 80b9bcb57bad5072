import Verif.Model.Basic

/-!
# Configuration merging (zconf/userconf.go)

`UserConfToGlobal` copies the settings of a user configuration into the global one, field by field, in the order of the source. Strings are Lean
strings, `int`/`int64` values are integers (no arithmetic is done on them), `uint32` values are `UInt32`. The calls into the logger are recorded as
effects; what they do is outside this module.
-/

namespace Zinx.Conf

/-- zconf/zconf.go:44-120, every field of `Config`. -/
structure Config where
  host : String
  tcpPort : Int
  wsPort : Int
  wsPath : String
  name : String
  kcpPort : Int
  kcpACKNoDelay : Bool
  kcpStreamMode : Bool
  kcpNoDelay : Int
  kcpInterval : Int
  kcpResend : Int
  kcpNc : Int
  kcpSendWindow : Int
  kcpRecvWindow : Int
  kcpFecDataShards : Int
  kcpFecParityShards : Int
  version : String
  maxPacketSize : UInt32
  maxConn : Int
  workerPoolSize : UInt32
  maxWorkerTaskLen : UInt32
  workerMode : String
  maxMsgChanLen : UInt32
  ioReadBuffSize : UInt32
  mode : String
  routerSlicesMode : Bool
  requestPoolMode : Bool
  logDir : String
  logFile : String
  logSaveDays : Int
  logFileSize : Int
  logCons : Bool
  logIsolationLevel : Int
  heartbeatMax : Int
  certFile : String
  privateKeyFile : String
deriving DecidableEq, Repr

/-- Calls into the logger: zconf/userconf.go:54 `SetLogLevel`, :65 `SetLogFile`. -/
inductive Effect where
  | setLogLevel (level : Int)
  | setLogFile (dir file : String)
deriving DecidableEq, Repr

/-- `if cond { GlobalObject.F = config.F }`. As in zconf/userconf.go:12-14. -/
def setIf (cond : Bool) (set : Config → Config) (g : Config) : Config := if cond then set g else g

/-- zconf/userconf.go:9-143. -/
def userConfToGlobal (u g : Config) : Config × List Effect :=
  let g := setIf (u.name != "") (fun g => { g with name := u.name }) g  -- userconf.go:12-14
  let g := setIf (u.host != "") (fun g => { g with host := u.host }) g  -- userconf.go:15-17
  let g := setIf (u.tcpPort != 0) (fun g => { g with tcpPort := u.tcpPort }) g  -- userconf.go:18-20
  let g := setIf (u.version != "") (fun g => { g with version := u.version }) g  -- userconf.go:23-25
  let g := setIf (u.maxPacketSize != 0) (fun g => { g with maxPacketSize := u.maxPacketSize }) g  -- userconf.go:26-28
  let g := setIf (u.maxConn != 0) (fun g => { g with maxConn := u.maxConn }) g  -- userconf.go:29-31
  let g := setIf (u.workerPoolSize != 0) (fun g => { g with workerPoolSize := u.workerPoolSize }) g  -- userconf.go:32-34
  let g := setIf (u.maxWorkerTaskLen != 0) (fun g => { g with maxWorkerTaskLen := u.maxWorkerTaskLen }) g  -- userconf.go:35-37
  let g := setIf (u.workerMode != "") (fun g => { g with workerMode := u.workerMode }) g  -- userconf.go:38-40
  let g := setIf (u.maxMsgChanLen != 0) (fun g => { g with maxMsgChanLen := u.maxMsgChanLen }) g  -- userconf.go:42-44
  let g := setIf (u.ioReadBuffSize != 0) (fun g => { g with ioReadBuffSize := u.ioReadBuffSize }) g  -- userconf.go:45-47
  let g := { g with logIsolationLevel := u.logIsolationLevel }  -- userconf.go:52
  let e1 := if g.logIsolationLevel > 0 then [Effect.setLogLevel g.logIsolationLevel] else []  -- userconf.go:53-55
  let g := setIf (u.logDir != "") (fun g => { g with logDir := u.logDir }) g  -- userconf.go:59-61
  let g := setIf (u.logFile != "") (fun g => { g with logFile := u.logFile }) g  -- userconf.go:63-65
  let e2 := if u.logFile != "" then [Effect.setLogFile g.logDir g.logFile] else []  -- userconf.go:65
  let g := setIf (u.heartbeatMax != 0) (fun g => { g with heartbeatMax := u.heartbeatMax }) g  -- userconf.go:69-71
  let g := setIf (u.certFile != "") (fun g => { g with certFile := u.certFile }) g  -- userconf.go:74-76
  let g := setIf (u.privateKeyFile != "") (fun g => { g with privateKeyFile := u.privateKeyFile }) g  -- userconf.go:77-79
  let g := setIf (u.mode != "") (fun g => { g with mode := u.mode }) g  -- userconf.go:81-83
  let g := setIf (u.wsPort != 0) (fun g => { g with wsPort := u.wsPort }) g  -- userconf.go:84-86
  let g := setIf (u.wsPath != "") (fun g => { g with wsPath := u.wsPath }) g  -- userconf.go:87-89
  let g := setIf (u.routerSlicesMode) (fun g => { g with routerSlicesMode := u.routerSlicesMode }) g  -- userconf.go:91-93
  let g := setIf (u.requestPoolMode) (fun g => { g with requestPoolMode := u.requestPoolMode }) g  -- userconf.go:95-97
  let g := setIf (u.kcpPort != 0) (fun g => { g with kcpPort := u.kcpPort }) g  -- userconf.go:99-101
  let g := setIf (u.kcpACKNoDelay) (fun g => { g with kcpACKNoDelay := u.kcpACKNoDelay }) g  -- userconf.go:103-105
  let g := setIf (!u.kcpStreamMode) (fun g => { g with kcpStreamMode := u.kcpStreamMode }) g  -- userconf.go:107-109
  let g := setIf (u.kcpNoDelay != 0) (fun g => { g with kcpNoDelay := u.kcpNoDelay }) g  -- userconf.go:111-113
  let g := setIf (u.kcpInterval != 0) (fun g => { g with kcpInterval := u.kcpInterval }) g  -- userconf.go:115-117
  let g := setIf (u.kcpResend != 0) (fun g => { g with kcpResend := u.kcpResend }) g  -- userconf.go:119-121
  let g := setIf (u.kcpNc != 0) (fun g => { g with kcpNc := u.kcpNc }) g  -- userconf.go:123-125
  let g := setIf (u.kcpSendWindow != 0) (fun g => { g with kcpSendWindow := u.kcpSendWindow }) g  -- userconf.go:127-129
  let g := setIf (u.kcpRecvWindow != 0) (fun g => { g with kcpRecvWindow := u.kcpRecvWindow }) g  -- userconf.go:131-133
  let g := setIf (u.kcpFecDataShards != 0) (fun g => { g with kcpFecDataShards := u.kcpFecDataShards }) g  -- userconf.go:135-137
  let g := setIf (u.kcpFecParityShards != 0) (fun g => { g with kcpFecParityShards := u.kcpFecParityShards }) g  -- userconf.go:139-141
  (g, e1 ++ e2)

/-- zconf/zconf.go:218-254, the global configuration before any file is read, `dir` being the working directory. -/
def defaults (dir : String) : Config where
  name := "ZinxServerApp"
  version := "V1.0"
  tcpPort := 8999
  wsPort := 9000
  wsPath := "/"
  kcpPort := 9001
  host := "0.0.0.0"
  maxConn := 12000
  maxPacketSize := 4096
  workerPoolSize := 10
  maxWorkerTaskLen := 1024
  workerMode := ""
  maxMsgChanLen := 1024
  logDir := dir ++ "/log"
  logFile := ""
  logIsolationLevel := 0
  heartbeatMax := 10
  ioReadBuffSize := 1024
  certFile := ""
  privateKeyFile := ""
  mode := "tcp"
  routerSlicesMode := false
  requestPoolMode := false
  kcpACKNoDelay := false
  kcpStreamMode := true
  kcpNoDelay := 1
  kcpInterval := 10
  kcpResend := 2
  kcpNc := 1
  kcpRecvWindow := 32
  kcpSendWindow := 32
  kcpFecDataShards := 0
  kcpFecParityShards := 0
  logSaveDays := 0
  logFileSize := 0
  logCons := false

/-- Go's zero value of `Config`. zconf/zconf.go:44-120. -/
def zero : Config :=
  ⟨"", 0, 0, "", "", 0, false, false, 0, 0, 0, 0, 0, 0, 0, 0, "", 0, 0, 0, 0, "", 0, 0, "", false, false, "", "", 0, 0, false, 0, 0, "", ""⟩

end Zinx.Conf
