import Verif.Model.RaceCode

/-!
# Goroutines that wait for each other's locks

On the executions of `Model/Race`. Waiting for channels is not modelled here (cf. C42, C85, C90).
-/

namespace Zinx.Race

variable {F L : Type} [DecidableEq F] [DecidableEq L]

/-- The goroutines in `group` wait for each other: each has come to a `Lock` or `RLock` (`wants`), and another one of them (or itself) holds that lock in a way that excludes it, or, as a waiting writer keeps
new readers out (`sync.RWMutex`), waits for it to write. Vocabulary; no code of zinx by itself. -/
structure CircularWait (code : Nat → Code F L) (tr : Trace F L) (group : List Nat) (wants : Nat → L × Bool) : Prop where
  nonempty : group ≠ []
  next : ∀ t ∈ group, ∃ rest, Lang (code t) (proj t tr ++ .acq (wants t).1 (wants t).2 :: rest)
  waits : ∃ h, locks {} tr = some h ∧ ∀ t ∈ group, ∃ u ∈ group,
    h.excl (wants t).1 = some u ∨ ((wants t).2 = true ∧ u ∈ h.shared (wants t).1) ∨ ((wants t).2 = false ∧ wants u = ((wants t).1, true))

/-- Goroutines that have come to a `Lock` or `RLock`. Vocabulary; no code of zinx by itself. -/
def Waiting (code : Nat → Code F L) (tr : Trace F L) (waiting : Nat → Option (L × Bool)) : Prop :=
  ∀ t p, waiting t = some p → ∃ rest, Lang (code t) (proj t tr ++ .acq p.1 p.2 :: rest)

/-- Goroutine `t` waits for `u`. Vocabulary; no code of zinx by itself. -/
def WaitsOn (h : Held L) (waiting : Nat → Option (L × Bool)) (t u : Nat) : Prop :=
  ∃ l x, waiting t = some (l, x) ∧ (h.excl l = some u ∨ (x = true ∧ u ∈ h.shared l) ∨ (x = false ∧ waiting u = some (l, true)))

/-- Goroutine `t` waits for one that waits for one that … waits for `u`. Vocabulary; no code of zinx by itself. -/
inductive WaitChain (h : Held L) (waiting : Nat → Option (L × Bool)) : Nat → Nat → Prop where
  | one {t u : Nat} : WaitsOn h waiting t u → WaitChain h waiting t u
  | more {t u v : Nat} : WaitsOn h waiting t u → WaitChain h waiting u v → WaitChain h waiting t v

/-! ## User code that keeps clear of some calls -/

/-- As `tcpCode`, but the functions given to `Range` do not use close callbacks. The functions given to `Range`: znet/connmanager.go:99-125. -/
def tcpCalm : Nat → ConnCode
  | _ + 7 => appCode tcpUser (.star (.any tcpApi))
  | n => tcpCode n

/-- The methods of websocket and KCP connections that do not take `msgLock`: no sends. znet/ws_connection.go:312-346, :463-495, :549-619. -/
def wsUnlocked : List ConnCode := stop :: wsAlive :: (getters ++ properties ++ around)
/-- znet/kcp_connection.go:314-348, :454-484, :535-614. -/
def kcpUnlocked : List ConnCode := stop :: kcpAlive :: (getters ++ properties ++ around)

/-- As `wsCode` and `kcpCode`, but the functions given to `Range` use neither sends nor close callbacks. The functions given to `Range`: znet/connmanager.go:99-125. -/
def wsCalm : Nat → ConnCode
  | _ + 7 => appCode wsUser (.star (.any wsUnlocked))
  | n => wsCode n
/-- The functions given to `Range`: znet/connmanager.go:99-125. -/
def kcpCalm : Nat → ConnCode
  | _ + 7 => appCode kcpUser (.star (.any kcpUnlocked))
  | n => kcpCode n

/-- As `tcpCode`, but the functions given to `Range` use neither direct sends nor close callbacks. znet/connection.go:329-371, :385-431, :456-492, :529-607. -/
def tcpUnlocked : List ConnCode := stop :: tcpQueue :: tcpBuffMsg :: tcpAlive :: (getters ++ properties ++ around)
/-- The functions given to `Range`: znet/connmanager.go:99-125. -/
def tcpQuiet : Nat → ConnCode
  | _ + 7 => appCode tcpUser (.star (.any tcpUnlocked))
  | n => tcpCode n

/-! ## Other objects with several locks -/

/-- The locks of a timer scheduler and its three wheels (ztimer/timerscheduler.go:27-34, 40-62; ztimer/timewheel.go:30-48). -/
inductive TimerLock where
  | scheduler | hour | minute | second
deriving DecidableEq

/-- `addTimer` and `AddTimer` of the three wheels (ztimer/timewheel.go:85-138): with its own lock held a wheel may pass a timer on to the next one. -/
def addSecond : Code Unit TimerLock := Code.within .second true .skip
/-- ztimer/timewheel.go:133-138 of the wheel of the minutes. -/
def addMinute : Code Unit TimerLock := Code.within .minute true (Code.opt addSecond)
/-- ztimer/timewheel.go:133-138 of the wheel of the hours. -/
def addHour : Code Unit TimerLock := Code.within .hour true (Code.opt addMinute)

/-- `CreateTimerAt`, `CreateTimerAfter`, `CancelTimer` (ztimer/timerscheduler.go:65-92), one turn of each wheel (`run`, ztimer/timewheel.go:161-188), `GetTimerWithIn` (ztimer/timewheel.go:197-223). -/
def timerMethods : List (Code Unit TimerLock) :=
  [Code.within .scheduler true addHour,
   Code.within .scheduler true (Code.all [Code.within .hour true .skip, Code.within .minute true .skip, Code.within .second true .skip]),
   Code.within .hour true (.star (Code.opt addMinute)), Code.within .minute true (.star (Code.opt addSecond)), Code.within .second true .skip]

/-- The locks of a logger and of its file writer (zlog/logger_core.go:67-93, zutils/witer.go:25-40). -/
inductive OutLock where
  | logger | writer
deriving DecidableEq

/-- `OutPut` (zlog/logger_core.go:197-240), with a hook that does not call the logger; `Flags`, … (348-376); `SetMaxAge`, `SetMaxSize`, `SetCons` (388-415), which lock the writer with the logger's lock held;
`SetLogFile` (380-385), which closes the old file without it; the writer's goroutine (zutils/witer.go:62-66). -/
def outMethods : List (Code Unit OutLock) :=
  [Code.within .logger true (.seq (Code.opt (.seq (.rel .logger true) (.acq .logger true))) (Code.opt (Code.within .writer true .skip))), Code.within .logger true .skip,
   Code.within .logger true (Code.within .writer true .skip), Code.within .writer true .skip, Code.within .writer true .skip]

end Zinx.Race
