import Verif.Model.ConfLog

/-!
# Configuration files (zconf/zconf.go:142-166)

`Reload` reads the file, lets `encoding/json` store its members in the global configuration and sets up the logger (`Model/ConfLog`). The text of a file is either no JSON (the syntax is checked before
anything is stored) or a document; the members of an object are given in order, names and strings as decoded by `encoding/json`, names as lists of characters. What is inside arrays and nested objects
is left out, since no setting has such a type and they are skipped. `Config` has no tags, so a member belongs to the setting of its name, or else of its name up to upper and lower case (Unicode simple
folding; among other characters only the long s and the Kelvin sign fold to an ASCII letter).
-/

namespace Zinx.ConfJson

open Zinx.Conf Zinx.ConfLog

/-- A member's value, as the literals `encoding/json` distinguishes: `int` is a number without fraction and exponent, `real` any other number. Go's `encoding/json`, called in zconf/zconf.go:160. -/
inductive Value where
  | null
  | bool (b : Bool)
  | int (neg : Bool) (n : Nat)
  | real
  | str (s : String)
  | arr
  | obj
deriving DecidableEq

/-- A JSON document: an object with its members in order, `null`, or anything else. The file of zconf/zconf.go:155. -/
inductive Doc where
  | obj (members : List (List Char × Value))
  | null
  | other

/-- What becomes of zconf/zconf.go:144-163: the file is not there or cannot be examined (:144, the error of `PathExists` is dropped), it cannot be read (:155), it is not JSON (:160), or it is a document. -/
inductive File where
  | missing
  | unreadable
  | noJson
  | doc (d : Doc)

/-- The settings: the fields of `Config`, zconf/zconf.go:44-120. -/
inductive Setting where
  | host | tcpPort | wsPort | wsPath | name | kcpPort | kcpACKNoDelay | kcpStreamMode | kcpNoDelay | kcpInterval | kcpResend | kcpNc
  | kcpSendWindow | kcpRecvWindow | kcpFecDataShards | kcpFecParityShards | version | maxPacketSize | maxConn | workerPoolSize | maxWorkerTaskLen | workerMode | maxMsgChanLen | ioReadBuffSize
  | mode | routerSlicesMode | requestPoolMode | logDir | logFile | logSaveDays | logFileSize | logCons | logIsolationLevel | heartbeatMax | certFile | privateKeyFile
deriving DecidableEq

/-- All settings, in the order of zconf/zconf.go:44-120. -/
def settings : List Setting :=
  [.host, .tcpPort, .wsPort, .wsPath, .name, .kcpPort, .kcpACKNoDelay, .kcpStreamMode, .kcpNoDelay, .kcpInterval, .kcpResend, .kcpNc, .kcpSendWindow, .kcpRecvWindow, .kcpFecDataShards, .kcpFecParityShards, .version, .maxPacketSize, .maxConn, .workerPoolSize, .maxWorkerTaskLen, .workerMode, .maxMsgChanLen, .ioReadBuffSize, .mode, .routerSlicesMode, .requestPoolMode, .logDir, .logFile, .logSaveDays, .logFileSize, .logCons, .logIsolationLevel, .heartbeatMax, .certFile, .privateKeyFile]

/-- The names of the fields, zconf/zconf.go:44-120. -/
def Setting.fieldName : Setting → List Char
  | .host => ['H', 'o', 's', 't']  -- zconf.go:48
  | .tcpPort => ['T', 'C', 'P', 'P', 'o', 'r', 't']  -- zconf.go:49
  | .wsPort => ['W', 's', 'P', 'o', 'r', 't']  -- zconf.go:50
  | .wsPath => ['W', 's', 'P', 'a', 't', 'h']  -- zconf.go:51
  | .name => ['N', 'a', 'm', 'e']  -- zconf.go:52
  | .kcpPort => ['K', 'c', 'p', 'P', 'o', 'r', 't']  -- zconf.go:53
  | .kcpACKNoDelay => ['K', 'c', 'p', 'A', 'C', 'K', 'N', 'o', 'D', 'e', 'l', 'a', 'y']  -- zconf.go:58
  | .kcpStreamMode => ['K', 'c', 'p', 'S', 't', 'r', 'e', 'a', 'm', 'M', 'o', 'd', 'e']  -- zconf.go:59
  | .kcpNoDelay => ['K', 'c', 'p', 'N', 'o', 'D', 'e', 'l', 'a', 'y']  -- zconf.go:60
  | .kcpInterval => ['K', 'c', 'p', 'I', 'n', 't', 'e', 'r', 'v', 'a', 'l']  -- zconf.go:61
  | .kcpResend => ['K', 'c', 'p', 'R', 'e', 's', 'e', 'n', 'd']  -- zconf.go:62
  | .kcpNc => ['K', 'c', 'p', 'N', 'c']  -- zconf.go:63
  | .kcpSendWindow => ['K', 'c', 'p', 'S', 'e', 'n', 'd', 'W', 'i', 'n', 'd', 'o', 'w']  -- zconf.go:64
  | .kcpRecvWindow => ['K', 'c', 'p', 'R', 'e', 'c', 'v', 'W', 'i', 'n', 'd', 'o', 'w']  -- zconf.go:65
  | .kcpFecDataShards => ['K', 'c', 'p', 'F', 'e', 'c', 'D', 'a', 't', 'a', 'S', 'h', 'a', 'r', 'd', 's']  -- zconf.go:66
  | .kcpFecParityShards => ['K', 'c', 'p', 'F', 'e', 'c', 'P', 'a', 'r', 'i', 't', 'y', 'S', 'h', 'a', 'r', 'd', 's']  -- zconf.go:67
  | .version => ['V', 'e', 'r', 's', 'i', 'o', 'n']  -- zconf.go:72
  | .maxPacketSize => ['M', 'a', 'x', 'P', 'a', 'c', 'k', 'e', 't', 'S', 'i', 'z', 'e']  -- zconf.go:73
  | .maxConn => ['M', 'a', 'x', 'C', 'o', 'n', 'n']  -- zconf.go:74
  | .workerPoolSize => ['W', 'o', 'r', 'k', 'e', 'r', 'P', 'o', 'o', 'l', 'S', 'i', 'z', 'e']  -- zconf.go:75
  | .maxWorkerTaskLen => ['M', 'a', 'x', 'W', 'o', 'r', 'k', 'e', 'r', 'T', 'a', 's', 'k', 'L', 'e', 'n']  -- zconf.go:76
  | .workerMode => ['W', 'o', 'r', 'k', 'e', 'r', 'M', 'o', 'd', 'e']  -- zconf.go:77
  | .maxMsgChanLen => ['M', 'a', 'x', 'M', 's', 'g', 'C', 'h', 'a', 'n', 'L', 'e', 'n']  -- zconf.go:78
  | .ioReadBuffSize => ['I', 'O', 'R', 'e', 'a', 'd', 'B', 'u', 'f', 'f', 'S', 'i', 'z', 'e']  -- zconf.go:79
  | .mode => ['M', 'o', 'd', 'e']  -- zconf.go:83
  | .routerSlicesMode => ['R', 'o', 'u', 't', 'e', 'r', 'S', 'l', 'i', 'c', 'e', 's', 'M', 'o', 'd', 'e']  -- zconf.go:87
  | .requestPoolMode => ['R', 'e', 'q', 'u', 'e', 's', 't', 'P', 'o', 'o', 'l', 'M', 'o', 'd', 'e']  -- zconf.go:90
  | .logDir => ['L', 'o', 'g', 'D', 'i', 'r']  -- zconf.go:94
  | .logFile => ['L', 'o', 'g', 'F', 'i', 'l', 'e']  -- zconf.go:98
  | .logSaveDays => ['L', 'o', 'g', 'S', 'a', 'v', 'e', 'D', 'a', 'y', 's']  -- zconf.go:100
  | .logFileSize => ['L', 'o', 'g', 'F', 'i', 'l', 'e', 'S', 'i', 'z', 'e']  -- zconf.go:101
  | .logCons => ['L', 'o', 'g', 'C', 'o', 'n', 's']  -- zconf.go:102
  | .logIsolationLevel => ['L', 'o', 'g', 'I', 's', 'o', 'l', 'a', 't', 'i', 'o', 'n', 'L', 'e', 'v', 'e', 'l']  -- zconf.go:106
  | .heartbeatMax => ['H', 'e', 'a', 'r', 't', 'b', 'e', 'a', 't', 'M', 'a', 'x']  -- zconf.go:113
  | .certFile => ['C', 'e', 'r', 't', 'F', 'i', 'l', 'e']  -- zconf.go:118
  | .privateKeyFile => ['P', 'r', 'i', 'v', 'a', 't', 'e', 'K', 'e', 'y', 'F', 'i', 'l', 'e']  -- zconf.go:119

/-- Values of settings. The types of zconf/zconf.go:44-120. -/
inductive Val where
  | str (s : String)
  | int (i : Int)
  | u32 (u : UInt32)
  | bool (b : Bool)
deriving DecidableEq

/-- A setting of a configuration. The fields of zconf/zconf.go:44-120. -/
def Setting.get : Setting → Config → Val
  | .host, g => .str g.host
  | .tcpPort, g => .int g.tcpPort
  | .wsPort, g => .int g.wsPort
  | .wsPath, g => .str g.wsPath
  | .name, g => .str g.name
  | .kcpPort, g => .int g.kcpPort
  | .kcpACKNoDelay, g => .bool g.kcpACKNoDelay
  | .kcpStreamMode, g => .bool g.kcpStreamMode
  | .kcpNoDelay, g => .int g.kcpNoDelay
  | .kcpInterval, g => .int g.kcpInterval
  | .kcpResend, g => .int g.kcpResend
  | .kcpNc, g => .int g.kcpNc
  | .kcpSendWindow, g => .int g.kcpSendWindow
  | .kcpRecvWindow, g => .int g.kcpRecvWindow
  | .kcpFecDataShards, g => .int g.kcpFecDataShards
  | .kcpFecParityShards, g => .int g.kcpFecParityShards
  | .version, g => .str g.version
  | .maxPacketSize, g => .u32 g.maxPacketSize
  | .maxConn, g => .int g.maxConn
  | .workerPoolSize, g => .u32 g.workerPoolSize
  | .maxWorkerTaskLen, g => .u32 g.maxWorkerTaskLen
  | .workerMode, g => .str g.workerMode
  | .maxMsgChanLen, g => .u32 g.maxMsgChanLen
  | .ioReadBuffSize, g => .u32 g.ioReadBuffSize
  | .mode, g => .str g.mode
  | .routerSlicesMode, g => .bool g.routerSlicesMode
  | .requestPoolMode, g => .bool g.requestPoolMode
  | .logDir, g => .str g.logDir
  | .logFile, g => .str g.logFile
  | .logSaveDays, g => .int g.logSaveDays
  | .logFileSize, g => .int g.logFileSize
  | .logCons, g => .bool g.logCons
  | .logIsolationLevel, g => .int g.logIsolationLevel
  | .heartbeatMax, g => .int g.heartbeatMax
  | .certFile, g => .str g.certFile
  | .privateKeyFile, g => .str g.privateKeyFile

/-- The integer of a number without fraction and exponent. As `strconv.ParseInt`, called by `encoding/json` in zconf/zconf.go:160. -/
def signed (neg : Bool) (n : Nat) : Int := if neg then -(n : Int) else n

/-- `literalStore` of `encoding/json` into a `string`; `none`: `UnmarshalTypeError`. Called in zconf/zconf.go:160. -/
def asStr : Value → Option String
  | .str s => some s
  | _ => none

/-- The same into an `int` or `int64` (64 bits): numbers in range. Called in zconf/zconf.go:160. -/
def asInt : Value → Option Int
  | .int neg n => if -2 ^ 63 ≤ signed neg n ∧ signed neg n < 2 ^ 63 then some (signed neg n) else none
  | _ => none

/-- The same into a `uint32`; `strconv.ParseUint` takes no sign. Called in zconf/zconf.go:160. -/
def asU32 : Value → Option UInt32
  | .int false n => if n < 2 ^ 32 then some (UInt32.ofNat n) else none
  | _ => none

/-- The same into a `bool`. Called in zconf/zconf.go:160. -/
def asBool : Value → Option Bool
  | .bool b => some b
  | _ => none

/-- A member that is not `null` stored in the field; `none`: `UnmarshalTypeError`. `encoding/json` in zconf/zconf.go:160. -/
def Setting.put (v : Value) (g : Config) : Setting → Option Config
  | .host => (asStr v).map fun x => { g with host := x }
  | .tcpPort => (asInt v).map fun x => { g with tcpPort := x }
  | .wsPort => (asInt v).map fun x => { g with wsPort := x }
  | .wsPath => (asStr v).map fun x => { g with wsPath := x }
  | .name => (asStr v).map fun x => { g with name := x }
  | .kcpPort => (asInt v).map fun x => { g with kcpPort := x }
  | .kcpACKNoDelay => (asBool v).map fun x => { g with kcpACKNoDelay := x }
  | .kcpStreamMode => (asBool v).map fun x => { g with kcpStreamMode := x }
  | .kcpNoDelay => (asInt v).map fun x => { g with kcpNoDelay := x }
  | .kcpInterval => (asInt v).map fun x => { g with kcpInterval := x }
  | .kcpResend => (asInt v).map fun x => { g with kcpResend := x }
  | .kcpNc => (asInt v).map fun x => { g with kcpNc := x }
  | .kcpSendWindow => (asInt v).map fun x => { g with kcpSendWindow := x }
  | .kcpRecvWindow => (asInt v).map fun x => { g with kcpRecvWindow := x }
  | .kcpFecDataShards => (asInt v).map fun x => { g with kcpFecDataShards := x }
  | .kcpFecParityShards => (asInt v).map fun x => { g with kcpFecParityShards := x }
  | .version => (asStr v).map fun x => { g with version := x }
  | .maxPacketSize => (asU32 v).map fun x => { g with maxPacketSize := x }
  | .maxConn => (asInt v).map fun x => { g with maxConn := x }
  | .workerPoolSize => (asU32 v).map fun x => { g with workerPoolSize := x }
  | .maxWorkerTaskLen => (asU32 v).map fun x => { g with maxWorkerTaskLen := x }
  | .workerMode => (asStr v).map fun x => { g with workerMode := x }
  | .maxMsgChanLen => (asU32 v).map fun x => { g with maxMsgChanLen := x }
  | .ioReadBuffSize => (asU32 v).map fun x => { g with ioReadBuffSize := x }
  | .mode => (asStr v).map fun x => { g with mode := x }
  | .routerSlicesMode => (asBool v).map fun x => { g with routerSlicesMode := x }
  | .requestPoolMode => (asBool v).map fun x => { g with requestPoolMode := x }
  | .logDir => (asStr v).map fun x => { g with logDir := x }
  | .logFile => (asStr v).map fun x => { g with logFile := x }
  | .logSaveDays => (asInt v).map fun x => { g with logSaveDays := x }
  | .logFileSize => (asInt v).map fun x => { g with logFileSize := x }
  | .logCons => (asBool v).map fun x => { g with logCons := x }
  | .logIsolationLevel => (asInt v).map fun x => { g with logIsolationLevel := x }
  | .heartbeatMax => (asInt v).map fun x => { g with heartbeatMax := x }
  | .certFile => (asStr v).map fun x => { g with certFile := x }
  | .privateKeyFile => (asStr v).map fun x => { g with privateKeyFile := x }

/-- Simple folding of a character to lower case, as far as ASCII letters are reached. `encoding/json` in zconf/zconf.go:160. -/
def foldChar (c : Char) : Nat :=
  if c.toNat = 0x17f then 115 else if c.toNat = 0x212a then 107 else if 65 ≤ c.toNat ∧ c.toNat ≤ 90 then c.toNat + 32 else c.toNat

/-- The setting a member belongs to: that of the same name, else the first of the same name up to case. `encoding/json` in zconf/zconf.go:160. -/
def find (key : List Char) : Option Setting :=
  (settings.find? fun f => f.fieldName == key).or (settings.find? fun f => f.fieldName.map foldChar == key.map foldChar)

/-- One member stored, and whether an error was noted. `encoding/json` in zconf/zconf.go:160: unknown members are skipped, `null` has no effect, a value that does not fit is skipped and noted. -/
def member (g : Config) (m : List Char × Value) : Config × Bool :=
  match find m.1 with
  | none => (g, false)
  | some f =>
    match m.2 with
    | .null => (g, false)
    | v =>
      match f.put v g with
      | some g' => (g', false)
      | none => (g, true)

/-- `json.Unmarshal` of an object: all members in order; the first error noted is returned at the end. zconf/zconf.go:160. -/
def members (g : Config) : List (List Char × Value) → Config × Bool
  | [] => (g, false)
  | m :: ms => ((members (member g m).1 ms).1, (member g m).2 || (members (member g m).1 ms).2)

/-- `json.Unmarshal(data, g)` of a document and whether it returns an error; a document that is neither an object nor `null` is one. zconf/zconf.go:160. -/
def unmarshal (g : Config) : Doc → Config × Bool
  | .obj ms => members g ms
  | .null => (g, false)
  | .other => (g, true)

/-- What the file is for `Model/ConfLog`, given the configuration it is loaded into. zconf/zconf.go:142-166. -/
def File.toConfFile (g : Config) : File → ConfFile
  | .missing => .missing
  | .unreadable => .unreadable
  | .noJson => .invalid id
  | .doc d => if (unmarshal g d).2 then .invalid fun _ => (unmarshal g d).1 else .valid fun _ => (unmarshal g d).1

/-- `Reload` (zconf/zconf.go:142-166), and whether it panics. -/
def reload (s : ConfLog.State) (f : File) : ConfLog.State × Bool := ConfLog.reload s (f.toConfFile s.conf)

end Zinx.ConfJson
