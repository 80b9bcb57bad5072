import Verif.Model.Unwind

/-!
# Functions of the user that end their goroutine

A function given by the user may end its goroutine (`runtime.Goexit`, which `FailNow` of package testing calls) instead of returning or panicking. As with a panic, deferred calls run, and locks whose `Unlock` is not
deferred stay locked. Other than with a panic, `recover` returns nil and stops nothing: no deferred call keeps the goroutine alive, and the process goes on. The code of the goroutines is that of `Model/Unwind.lean`;
only what a run is changes. A run also has the list of calls of user functions, with how each of them ended.
-/

namespace Zinx.Goexit
open Zinx.Unwind

/-- How a call of a user's function ended. Calls at znet/msghandler.go:315, :340, :398, znet/connection.go:531, :539 and the other places cited in `Model/Unwind.lean`. -/
inductive End where
  | returned
  | panicked
  | exited
deriving DecidableEq

/-- How a run of a command ends. In the last case it panics, and if that panic is recovered the goroutine goes on ending. No code of zinx by itself. -/
inductive Out where
  | done
  | panic (f : Fun)
  | exit
  | panicExit (f : Fun)
deriving DecidableEq

/-- The goroutine is ending. No code of zinx by itself. -/
def Out.exiting : Out → Bool
  | .done | .panic _ => false
  | .exit | .panicExit _ => true

/-- Outcome of deferred code in a goroutine that is ending, and of a recovery of `panicExit`. No code of zinx by itself (runtime.Goexit of Go). -/
def Out.whileExiting : Out → Out
  | .done | .exit => .exit
  | .panic f | .panicExit f => .panicExit f

/-- Outcome of `defer b; a` from those of `a` and `b`: a panic in a deferred call takes the place of the one before, `Goexit` in a deferred call ends the panic before. No code of zinx by itself (runtime.Goexit of Go). -/
def Out.andThen (a b : Out) : Out := match b with
  | .done => a
  | .exit => .exit
  | .panic f => if a.exiting then .panicExit f else .panic f
  | .panicExit f => .panicExit f

/-- Outcome of a deferred call that recovers, from those of the code before and of the handler, where the handler is run. No code of zinx by itself. -/
def Out.recover (a h : Out) : Out := if a.exiting then h.whileExiting else h

/-- A run of a command: its outcome, the locks it has taken and not given back, the calls of user functions in their order. Only functions in `pan` panic, only functions in `ext` end the goroutine. No code of zinx by itself. -/
inductive Run (pan ext : Fun → Prop) : Cmd → Out → List Lock → List (Fun × End) → Prop where
  | skip : Run pan ext .skip .done [] []
  | ret (f : Fun) : Run pan ext (.user f) .done [] [(f, .returned)]
  | panic (f : Fun) : pan f → Run pan ext (.user f) (.panic f) [] [(f, .panicked)]
  | exit (f : Fun) : ext f → Run pan ext (.user f) .exit [] [(f, .exited)]
  | seq {a b : Cmd} {o : Out} {l k : List Lock} {t u : List (Fun × End)} : Run pan ext a .done l t → Run pan ext b o k u → Run pan ext (.seq a b) o (l ++ k) (t ++ u)
  | seqEnd {a b : Cmd} {o : Out} {l : List Lock} {t : List (Fun × End)} : Run pan ext a o l t → o ≠ .done → Run pan ext (.seq a b) o l t
  | left {a b : Cmd} {o : Out} {l : List Lock} {t : List (Fun × End)} : Run pan ext a o l t → Run pan ext (.alt a b) o l t
  | right {a b : Cmd} {o : Out} {l : List Lock} {t : List (Fun × End)} : Run pan ext b o l t → Run pan ext (.alt a b) o l t
  | stop {a : Cmd} : Run pan ext (.loop a) .done [] []
  | round {a : Cmd} {o : Out} {l k : List Lock} {t u : List (Fun × End)} : Run pan ext a .done l t → Run pan ext (.loop a) o k u → Run pan ext (.loop a) o (l ++ k) (t ++ u)
  | roundEnd {a : Cmd} {o : Out} {l : List Lock} {t : List (Fun × End)} : Run pan ext a o l t → o ≠ .done → Run pan ext (.loop a) o l t
  | under {x : Lock} {a : Cmd} {l : List Lock} {t : List (Fun × End)} : Run pan ext a .done l t → Run pan ext (.under x a) .done l t
  /-- the `Unlock` is not reached -/
  | underEnd {x : Lock} {a : Cmd} {o : Out} {l : List Lock} {t : List (Fun × End)} : Run pan ext a o l t → o ≠ .done → Run pan ext (.under x a) o (x :: l) t
  | guard {x : Lock} {a : Cmd} {o : Out} {l : List Lock} {t : List (Fun × End)} : Run pan ext a o l t → Run pan ext (.guard x a) o l t
  /-- `recover()` returns nil -/
  | noPanic {a h : Cmd} {o : Out} {l : List Lock} {t : List (Fun × End)} : Run pan ext a o l t → o = .done ∨ o = .exit → Run pan ext (.recovered a h) o l t
  | recovers {a h : Cmd} {f : Fun} {p o : Out} {l k : List Lock} {t u : List (Fun × End)} : Run pan ext a p l t → p = .panic f ∨ p = .panicExit f → Run pan ext h o k u →
      Run pan ext (.recovered a h) (p.recover o) (l ++ k) (t ++ u)
  | deferred {a b : Cmd} {o p : Out} {l k : List Lock} {t u : List (Fun × End)} : Run pan ext a o l t → Run pan ext b p k u → Run pan ext (.finally a b) (o.andThen p) (l ++ k) (t ++ u)

end Zinx.Goexit
