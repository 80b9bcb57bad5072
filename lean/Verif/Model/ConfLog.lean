import Verif.Model.Conf
import Verif.Model.Sys

/-!
# The configuration and the standard logger (zconf/zconf.go, zlog/logger_core.go, zutils/witer.go)

The global configuration is filled when the process starts (`init`, zconf/zconf.go:206-259) and may be changed later by `Reload` and by `UserConfToGlobal`. Each of these also makes calls to the standard
logger. The state here is the global configuration and the settings of the logger.

* `json.Unmarshal` is any function on configurations: what a file does to the settings it mentions. A file that does not parse may have been applied in part.
* Where the configuration file is (zconf/env.go) is left out: `ConfFile` is what is found there.
* The path of the log file stays a pair of directory and file name (`filepath.Join`, zlog/logger_core.go:384).
* Direct calls of `zlog.SetLogFile` and so on by the application are left out.
-/

namespace Zinx.ConfLog

open Zinx.Conf

/-- The settings of a `zutils.Writer` with the values of `New` (zutils/witer.go:25-61). -/
structure Writer where
  dir : String
  file : String
  maxAge : Int := 31
  maxSize : Int := 1024 * 1024 * 64
  cons : Bool := false
deriving DecidableEq

/-- `fw` and `isolationLevel` of the logger (zlog/logger_core.go:67-93) with the values of `NewZinxLog` (:102-112). -/
structure Logger where
  fw : Option Writer := none
  level : Int := 0
deriving DecidableEq

/-- zlog/logger_core.go:380-385. -/
def Logger.setLogFile (l : Logger) (dir file : String) : Logger := { l with fw := some { dir := dir, file := file } }

/-- zlog/logger_core.go:388-395, zutils/witer.go:69-73. -/
def Logger.setMaxAge (l : Logger) (ma : Int) : Logger := { l with fw := l.fw.map fun w => { w with maxAge := ma } }

/-- zlog/logger_core.go:398-405, zutils/witer.go:76-83. -/
def Logger.setMaxSize (l : Logger) (ms : Int) : Logger := { l with fw := l.fw.map fun w => if ms < 1 then w else { w with maxSize := ms } }

/-- zlog/logger_core.go:408-415, zutils/witer.go:86-90. -/
def Logger.setCons (l : Logger) (b : Bool) : Logger := { l with fw := l.fw.map fun w => { w with cons := b } }

/-- zlog/logger_core.go:425-427. -/
def Logger.setLogLevel (l : Logger) (level : Int) : Logger := { l with level := level }

/-- `InitLogConfig` (zconf/zconf.go:187-201). -/
def initLogConfig (g : Config) (l : Logger) : Logger :=
  let l := if g.logFile ≠ "" then (l.setLogFile g.logDir g.logFile).setCons g.logCons else l
  let l := if g.logSaveDays > 0 then l.setMaxAge g.logSaveDays else l
  let l := if g.logFileSize > 0 then l.setMaxSize g.logFileSize else l
  if g.logIsolationLevel > 0 then l.setLogLevel g.logIsolationLevel else l

/-- What is found where the configuration file should be: nothing (or `os.Stat` fails otherwise, zconf/zconf.go:126-135), a file that cannot be read, one that is not valid, a valid one. -/
inductive ConfFile where
  | missing
  | unreadable
  | invalid (part : Config → Config)
  | valid (apply : Config → Config)

/-- `GlobalObject` (zconf/zconf.go:123) and `StdZinxLog` (zlog/stdzlog.go:25). -/
structure State where
  conf : Config
  log : Logger

/-- `Reload` (zconf/zconf.go:142-166), and whether it panics. -/
def reload (s : State) : ConfFile → State × Bool
  | .missing => ({ s with log := initLogConfig s.conf s.log }, false)
  | .unreadable => (s, true)
  | .invalid part => ({ s with conf := part s.conf }, true)
  | .valid apply => ({ conf := apply s.conf, log := initLogConfig (apply s.conf) s.log }, false)

/-- The calls to the logger in `UserConfToGlobal`. zconf/userconf.go:54, :65. -/
def effect (l : Logger) : Effect → Logger
  | .setLogLevel level => l.setLogLevel level
  | .setLogFile dir file => l.setLogFile dir file

/-- `UserConfToGlobal` (zconf/userconf.go:9-143), called by `NewUserConfServer` and `NewUserConfDefaultRouterSlicesServer`. -/
def userConf (s : State) (u : Config) : State :=
  { conf := (userConfToGlobal u s.conf).1, log := (userConfToGlobal u s.conf).2.foldl effect s.log }

/-- The state before the `Reload` of `init` (zconf/zconf.go:218-256), `dir` being the working directory. -/
def initial (dir : String) : State := { conf := defaults dir, log := {} }

/-- `Reload` (zconf/zconf.go:142-166), `UserConfToGlobal` (zconf/userconf.go:9-143). -/
inductive Label where
  | reload (f : ConfFile)
  | user (u : Config)

/-- What happens to configuration and logger once the process runs. A panic in `Reload` may be recovered from. zconf/zconf.go:142-166, zconf/userconf.go:9-143. -/
inductive Step : State → Label → State → Prop where
  | reload (s : State) (f : ConfFile) : Step s (.reload f) (reload s f).1
  | user (s : State) (u : Config) : Step s (.user u) (userConf s u)

end Zinx.ConfLog
