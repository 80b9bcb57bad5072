import Verif.Model.Basic

/-! # Model of `zutils/snowflake_uuid.go` -/

namespace Zinx.Snowflake

open Zinx

/-- `maxWorker` (zutils/snowflake_uuid.go:19), `-1 ^ (-1 << 10)`. -/
def maxWorker : BitVec 64 := BitVec.ofInt 64 (-1) ^^^ (BitVec.ofInt 64 (-1) <<< 10)

/-- `sequenceMask` (zutils/snowflake_uuid.go:21), `-1 ^ (-1 << 12)`. -/
def sequenceMask : BitVec 64 := BitVec.ofInt 64 (-1) ^^^ (BitVec.ofInt 64 (-1) <<< 12)

/-- `IDWorker` (zutils/snowflake_uuid.go:26-31); the mutex makes calls sequential. -/
structure Worker where
  sequence : BitVec 64
  lastTimestamp : Int
  workerId : BitVec 64
  deriving DecidableEq

/-- `NewIDWorker` (zutils/snowflake_uuid.go:33-43); `none` is the error. -/
def newIDWorker (workerId : BitVec 64) : Option Worker :=
  if workerId.slt 0 || maxWorker.slt workerId then none
  else some { sequence := 0, lastTimestamp := -1, workerId := workerId }

/-- `time.Now().UnixNano() / 1000000` for a clock reading in nanoseconds; Go division truncates. zutils/snowflake_uuid.go:49, :71. -/
def millis (ns : Int) : Int := Int.tdiv ns 1000000

/-- `nextMillisecond` (zutils/snowflake_uuid.go:69-74): reads the clock until it is past `last`. `none`: still reading when the readings run
out. Gives the timestamp and the readings left. -/
def nextMillisecond (last : Int) : List Int → Option (Int × List Int)
  | [] => none
  | ns :: rest => if millis ns ≤ last then nextMillisecond last rest else some (millis ns, rest)

/-- The returned ID (zutils/snowflake_uuid.go:66): `(timestamp << 22) | (workerId << 12) | sequence` on int64. -/
def pack (timestamp : Int) (workerId sequence : BitVec 64) : BitVec 64 :=
  (BitVec.ofInt 64 timestamp <<< 22) ||| (workerId <<< 12) ||| sequence

/-- Result of a call. zutils/snowflake_uuid.go:45-74. -/
inductive Result where
  | id (i : BitVec 64)
  | backwards
  deriving DecidableEq

/-- `NextID` (zutils/snowflake_uuid.go:45-67) with the clock readings it may use; `none` when they run out. Gives result, new state and the
readings left. -/
def nextID (w : Worker) : List Int → Option (Result × Worker × List Int)
  | [] => none
  | ns :: rest =>
    let t := millis ns
    if t < w.lastTimestamp then some (.backwards, w, rest)
    else if t = w.lastTimestamp then
      let seq := (w.sequence + 1) &&& sequenceMask
      if seq = 0 then
        match nextMillisecond w.lastTimestamp rest with
        | none => none
        | some (t', rest') => some (.id (pack t' w.workerId seq), { w with sequence := seq, lastTimestamp := t' }, rest')
      else some (.id (pack t w.workerId seq), { w with sequence := seq, lastTimestamp := t }, rest)
    else some (.id (pack t w.workerId 0), { w with sequence := 0, lastTimestamp := t }, rest)

/-- Results of `n` calls in a row. Calls of zutils/snowflake_uuid.go:45-74. -/
def calls (w : Worker) (clock : List Int) : Nat → Option (List Result × Worker × List Int)
  | 0 => some ([], w, clock)
  | n + 1 =>
    match nextID w clock with
    | none => none
    | some (r, w', clock') =>
      match calls w' clock' n with
      | none => none
      | some (rs, w'', clock'') => some (r :: rs, w'', clock'')

/-- The IDs among results. Auxiliary; no code of zinx. -/
def idsOf (rs : List Result) : List (BitVec 64) := rs.filterMap fun
  | .id i => some i
  | .backwards => none

end Zinx.Snowflake
