import Verif.Spec.Conf

/-! # C59: configuration merging -/

namespace Zinx.Props

open Zinx Zinx.Conf

theorem setIf_get {α : Type} (f : Config → α) (c : Bool) (set : Config → Config) (g : Config) :
    f (setIf c set g) = if c then f (set g) else f g := by
  unfold setIf; split <;> rfl

/-- **C59 (31 of 36 settings).** Each setting not listed in `exceptions` ends up as the user's value if that is non-zero and as before otherwise.
Missing: the five exceptions, see `C59_exceptions` and `C59_refuted`. -/
theorem C59_partial (u g : Config) (f : Field) (hf : f ∉ exceptions) :
    (userConfToGlobal u g).1.get f = if (u.get f).isZero then g.get f else u.get f := by
  cases f with
  | host =>
    simp only [Config.get, Value.isZero, userConfToGlobal, setIf_get Config.host, ite_self]
    by_cases e : u.host = "" <;> simp [e]
  | tcpPort =>
    simp only [Config.get, Value.isZero, userConfToGlobal, setIf_get Config.tcpPort, ite_self]
    by_cases e : u.tcpPort = 0 <;> simp [e]
  | wsPort =>
    simp only [Config.get, Value.isZero, userConfToGlobal, setIf_get Config.wsPort, ite_self]
    by_cases e : u.wsPort = 0 <;> simp [e]
  | wsPath =>
    simp only [Config.get, Value.isZero, userConfToGlobal, setIf_get Config.wsPath, ite_self]
    by_cases e : u.wsPath = "" <;> simp [e]
  | name =>
    simp only [Config.get, Value.isZero, userConfToGlobal, setIf_get Config.name, ite_self]
    by_cases e : u.name = "" <;> simp [e]
  | kcpPort =>
    simp only [Config.get, Value.isZero, userConfToGlobal, setIf_get Config.kcpPort, ite_self]
    by_cases e : u.kcpPort = 0 <;> simp [e]
  | kcpACKNoDelay =>
    simp only [Config.get, Value.isZero, userConfToGlobal, setIf_get Config.kcpACKNoDelay, ite_self]
    by_cases e : u.kcpACKNoDelay = true <;> simp [e]
  | kcpStreamMode => exact absurd (by decide) hf
  | kcpNoDelay =>
    simp only [Config.get, Value.isZero, userConfToGlobal, setIf_get Config.kcpNoDelay, ite_self]
    by_cases e : u.kcpNoDelay = 0 <;> simp [e]
  | kcpInterval =>
    simp only [Config.get, Value.isZero, userConfToGlobal, setIf_get Config.kcpInterval, ite_self]
    by_cases e : u.kcpInterval = 0 <;> simp [e]
  | kcpResend =>
    simp only [Config.get, Value.isZero, userConfToGlobal, setIf_get Config.kcpResend, ite_self]
    by_cases e : u.kcpResend = 0 <;> simp [e]
  | kcpNc =>
    simp only [Config.get, Value.isZero, userConfToGlobal, setIf_get Config.kcpNc, ite_self]
    by_cases e : u.kcpNc = 0 <;> simp [e]
  | kcpSendWindow =>
    simp only [Config.get, Value.isZero, userConfToGlobal, setIf_get Config.kcpSendWindow, ite_self]
    by_cases e : u.kcpSendWindow = 0 <;> simp [e]
  | kcpRecvWindow =>
    simp only [Config.get, Value.isZero, userConfToGlobal, setIf_get Config.kcpRecvWindow, ite_self]
    by_cases e : u.kcpRecvWindow = 0 <;> simp [e]
  | kcpFecDataShards =>
    simp only [Config.get, Value.isZero, userConfToGlobal, setIf_get Config.kcpFecDataShards, ite_self]
    by_cases e : u.kcpFecDataShards = 0 <;> simp [e]
  | kcpFecParityShards =>
    simp only [Config.get, Value.isZero, userConfToGlobal, setIf_get Config.kcpFecParityShards, ite_self]
    by_cases e : u.kcpFecParityShards = 0 <;> simp [e]
  | version =>
    simp only [Config.get, Value.isZero, userConfToGlobal, setIf_get Config.version, ite_self]
    by_cases e : u.version = "" <;> simp [e]
  | maxPacketSize =>
    simp only [Config.get, Value.isZero, userConfToGlobal, setIf_get Config.maxPacketSize, ite_self]
    by_cases e : u.maxPacketSize = 0 <;> simp [e]
  | maxConn =>
    simp only [Config.get, Value.isZero, userConfToGlobal, setIf_get Config.maxConn, ite_self]
    by_cases e : u.maxConn = 0 <;> simp [e]
  | workerPoolSize =>
    simp only [Config.get, Value.isZero, userConfToGlobal, setIf_get Config.workerPoolSize, ite_self]
    by_cases e : u.workerPoolSize = 0 <;> simp [e]
  | maxWorkerTaskLen =>
    simp only [Config.get, Value.isZero, userConfToGlobal, setIf_get Config.maxWorkerTaskLen, ite_self]
    by_cases e : u.maxWorkerTaskLen = 0 <;> simp [e]
  | workerMode =>
    simp only [Config.get, Value.isZero, userConfToGlobal, setIf_get Config.workerMode, ite_self]
    by_cases e : u.workerMode = "" <;> simp [e]
  | maxMsgChanLen =>
    simp only [Config.get, Value.isZero, userConfToGlobal, setIf_get Config.maxMsgChanLen, ite_self]
    by_cases e : u.maxMsgChanLen = 0 <;> simp [e]
  | ioReadBuffSize =>
    simp only [Config.get, Value.isZero, userConfToGlobal, setIf_get Config.ioReadBuffSize, ite_self]
    by_cases e : u.ioReadBuffSize = 0 <;> simp [e]
  | mode =>
    simp only [Config.get, Value.isZero, userConfToGlobal, setIf_get Config.mode, ite_self]
    by_cases e : u.mode = "" <;> simp [e]
  | routerSlicesMode =>
    simp only [Config.get, Value.isZero, userConfToGlobal, setIf_get Config.routerSlicesMode, ite_self]
    by_cases e : u.routerSlicesMode = true <;> simp [e]
  | requestPoolMode =>
    simp only [Config.get, Value.isZero, userConfToGlobal, setIf_get Config.requestPoolMode, ite_self]
    by_cases e : u.requestPoolMode = true <;> simp [e]
  | logDir =>
    simp only [Config.get, Value.isZero, userConfToGlobal, setIf_get Config.logDir, ite_self]
    by_cases e : u.logDir = "" <;> simp [e]
  | logFile =>
    simp only [Config.get, Value.isZero, userConfToGlobal, setIf_get Config.logFile, ite_self]
    by_cases e : u.logFile = "" <;> simp [e]
  | logSaveDays => exact absurd (by decide) hf
  | logFileSize => exact absurd (by decide) hf
  | logCons => exact absurd (by decide) hf
  | logIsolationLevel => exact absurd (by decide) hf
  | heartbeatMax =>
    simp only [Config.get, Value.isZero, userConfToGlobal, setIf_get Config.heartbeatMax, ite_self]
    by_cases e : u.heartbeatMax = 0 <;> simp [e]
  | certFile =>
    simp only [Config.get, Value.isZero, userConfToGlobal, setIf_get Config.certFile, ite_self]
    by_cases e : u.certFile = "" <;> simp [e]
  | privateKeyFile =>
    simp only [Config.get, Value.isZero, userConfToGlobal, setIf_get Config.privateKeyFile, ite_self]
    by_cases e : u.privateKeyFile = "" <;> simp [e]

/-- **C59 (the other five).** The log level is always taken from the user, zero or not; KCP stream mode can only be turned off; the log retention,
log file size and console settings are never taken from the user. -/
theorem C59_exceptions (u g : Config) :
    (userConfToGlobal u g).1.logIsolationLevel = u.logIsolationLevel ∧
    (userConfToGlobal u g).1.kcpStreamMode = (g.kcpStreamMode && u.kcpStreamMode) ∧
    (userConfToGlobal u g).1.logSaveDays = g.logSaveDays ∧
    (userConfToGlobal u g).1.logFileSize = g.logFileSize ∧
    (userConfToGlobal u g).1.logCons = g.logCons := by
  refine ⟨?_, ?_, ?_, ?_, ?_⟩
  · simp only [userConfToGlobal, setIf_get Config.logIsolationLevel, ite_self]
  · simp only [userConfToGlobal, setIf_get Config.kcpStreamMode, ite_self]
    by_cases e : u.kcpStreamMode = true <;> simp [e]
  · simp only [userConfToGlobal, setIf_get Config.logSaveDays, ite_self]
  · simp only [userConfToGlobal, setIf_get Config.logFileSize, ite_self]
  · simp only [userConfToGlobal, setIf_get Config.logCons, ite_self]

/-- **C59 (logger calls).** The log level is set iff the user's is above debug. The log file is set iff the user names one, to that file in the
directory in force after the merge. -/
theorem C59_logger (u g : Config) :
    (∀ l, Effect.setLogLevel l ∈ (userConfToGlobal u g).2 ↔ 0 < u.logIsolationLevel ∧ l = u.logIsolationLevel) ∧
    (∀ d f, Effect.setLogFile d f ∈ (userConfToGlobal u g).2 ↔
      u.logFile ≠ "" ∧ f = u.logFile ∧ d = (userConfToGlobal u g).1.logDir) := by
  constructor
  · intro l
    simp only [userConfToGlobal, List.mem_append]
    by_cases h : 0 < u.logIsolationLevel <;> by_cases h2 : u.logFile = "" <;> simp [h, h2]
  · intro d f
    simp only [userConfToGlobal, setIf_get Config.logDir, setIf_get Config.logFile, ite_self, List.mem_append]
    by_cases h : 0 < u.logIsolationLevel <;> by_cases h2 : u.logFile = "" <;> simp [h, h2] <;> exact and_comm

/-- **C59 refuted.** A user configuration with only a name resets the log level and turns KCP stream mode off; one with a retention time has no
effect on the retention time. -/
theorem C59_refuted :
    (∃ u g : Config, (u.get .logIsolationLevel).isZero = true ∧ (userConfToGlobal u g).1.get .logIsolationLevel ≠ g.get .logIsolationLevel) ∧
    (∃ u g : Config, (u.get .kcpStreamMode).isZero = true ∧ (userConfToGlobal u g).1.get .kcpStreamMode ≠ g.get .kcpStreamMode) ∧
    (∃ u g : Config, (u.get .kcpStreamMode).isZero = false ∧ (userConfToGlobal u g).1.get .kcpStreamMode ≠ u.get .kcpStreamMode) ∧
    (∃ u g : Config, (u.get .logSaveDays).isZero = false ∧ (userConfToGlobal u g).1.get .logSaveDays ≠ u.get .logSaveDays) :=
  ⟨⟨{ zero with name := "x" }, { defaults "." with logIsolationLevel := 2 }, by decide⟩, ⟨{ zero with name := "x" }, defaults ".", by decide⟩,
   ⟨{ zero with kcpStreamMode := true }, { defaults "." with kcpStreamMode := false }, by decide⟩,
   ⟨{ zero with logSaveDays := 7 }, defaults ".", by decide⟩⟩

/-- **C59 (no settings).** A user configuration in which nothing is set, on top of the built-in one, leaves the documented values in every setting but
KCP stream mode, which it turns off. -/
theorem C59_defaults (dir : String) :
    (∀ f, (zero.get f).isZero = true) ∧
    userConfToGlobal zero (defaults dir) =
      ({ name := "ZinxServerApp", version := "V1.0", host := "0.0.0.0", tcpPort := 8999, wsPort := 9000, kcpPort := 9001, wsPath := "/", mode := "tcp",
         maxConn := 12000, maxPacketSize := 4096, workerPoolSize := 10, maxWorkerTaskLen := 1024, workerMode := "", maxMsgChanLen := 1024,
         ioReadBuffSize := 1024, heartbeatMax := 10, logDir := dir ++ "/log", logFile := "", logIsolationLevel := 0, logSaveDays := 0,
         logFileSize := 0, logCons := false, certFile := "", privateKeyFile := "", routerSlicesMode := false, requestPoolMode := false,
         kcpACKNoDelay := false, kcpStreamMode := false, kcpNoDelay := 1, kcpInterval := 10, kcpResend := 2, kcpNc := 1, kcpRecvWindow := 32,
         kcpSendWindow := 32, kcpFecDataShards := 0, kcpFecParityShards := 0 }, []) :=
  ⟨fun f => by cases f <;> decide, rfl⟩

/-- A port and a name are taken, the rest kept. -/
example : (userConfToGlobal { zero with name := "x", tcpPort := 7777 } (defaults ".")).1.get .tcpPort = .int 7777 ∧
    (userConfToGlobal { zero with name := "x", tcpPort := 7777 } (defaults ".")).1.get .wsPort = .int 9000 ∧ Field.tcpPort ∉ exceptions := by decide

end Zinx.Props
