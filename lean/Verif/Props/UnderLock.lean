import Verif.Props.Unwind

/-! # C139: functions of the user are called without locks -/

namespace Zinx.Props
open Zinx.Unwind

/-- Which functions a command can call. -/
def Calls (may : Fun → Prop) : Cmd → Fun → Prop
  | .skip, _ => False
  | .user f, g => f = g
  | .seq a b, g => Calls may a g ∨ Calls may b g
  | .alt a b, g => Calls may a g ∨ Calls may b g
  | .loop a, g => Calls may a g
  | .under _ a, g => Calls may a g
  | .guard _ a, g => Calls may a g
  | .recovered a h, g => Calls may a g ∨ (∃ f, Pan may a f) ∧ Calls may h g
  | .finally a b, g => Calls may a g ∨ Calls may b g

/-- Which functions a command that leaves no lock locked can call with lock `x` held. -/
def Holds (may : Fun → Prop) : Cmd → Fun → Lock → Prop
  | .skip, _, _ => False
  | .user _, _, _ => False
  | .seq a b, g, x => Holds may a g x ∨ Holds may b g x
  | .alt a b, g, x => Holds may a g x ∨ Holds may b g x
  | .loop a, g, x => Holds may a g x
  | .under y a, g, x => Holds may a g x ∨ x = y ∧ Calls may a g
  | .guard y a, g, x => Holds may a g x ∨ x = y ∧ Calls may a g
  | .recovered a h, g, x => Holds may a g x ∨ (∃ f, Pan may a f) ∧ Holds may h g x
  | .finally a b, g, x => Holds may a g x ∨ Holds may b g x

/-- A lock left locked by a command is not counted on the way. -/
def NoLeak (may : Fun → Prop) : Cmd → Prop
  | .skip => True
  | .user _ => True
  | .seq a b => NoLeak may a ∧ NoLeak may b ∧ ∀ l, Run may a .done l → l = []
  | .alt a b => NoLeak may a ∧ NoLeak may b
  | .loop a => NoLeak may a ∧ ∀ l, Run may a .done l → l = []
  | .under _ a => NoLeak may a
  | .guard _ a => NoLeak may a
  | .recovered a h => NoLeak may a ∧ ((∃ f, Pan may a f) → NoLeak may h) ∧ ∀ f l, Run may a (.panic f) l → l = []
  | .finally a b => NoLeak may a ∧ NoLeak may b ∧ ∀ o l, Run may a o l → l = []

theorem calls_of_call {may : Fun → Prop} {c : Cmd} {f : Fun} {l : List Lock} (h : Call may c f l) : Calls may c f := by
  induction h with
  | user => rfl
  | first _ ih => exact .inl ih
  | second _ _ ih => exact .inr ih
  | left _ ih => exact .inl ih
  | right _ ih => exact .inr ih
  | round _ ih => exact ih
  | later _ _ ih => exact ih
  | under _ ih => exact ih
  | guard _ ih => exact ih
  | tried _ ih => exact .inl ih
  | handler h _ ih => exact .inr ⟨⟨_, pan_of_run h _ rfl⟩, ih⟩
  | body _ ih => exact .inl ih
  | deferred _ _ ih => exact .inr ih

theorem call_of_calls {may : Fun → Prop} : ∀ {c : Cmd} {f : Fun}, Calls may c f → ∃ l, Call may c f l
  | .skip, _, h => h.elim
  | .user _, _, h => ⟨[], h ▸ .user _⟩
  | .seq _ _, _, .inl h => let ⟨l, h⟩ := call_of_calls h; ⟨l, .first h⟩
  | .seq a _, _, .inr h => let ⟨l, h⟩ := call_of_calls h; ⟨[] ++ l, .second (run_done may a) h⟩
  | .alt _ _, _, .inl h => let ⟨l, h⟩ := call_of_calls h; ⟨l, .left h⟩
  | .alt _ _, _, .inr h => let ⟨l, h⟩ := call_of_calls h; ⟨l, .right h⟩
  | .loop a, _, h => let ⟨l, h⟩ := call_of_calls (c := a) h; ⟨l, .round h⟩
  | .under x a, _, h => let ⟨l, h⟩ := call_of_calls (c := a) h; ⟨x :: l, .under h⟩
  | .guard x a, _, h => let ⟨l, h⟩ := call_of_calls (c := a) h; ⟨x :: l, .guard h⟩
  | .recovered _ _, _, .inl h => let ⟨l, h⟩ := call_of_calls h; ⟨l, .tried h⟩
  | .recovered _ _, _, .inr ⟨⟨_, h1⟩, h⟩ => let ⟨k, h1⟩ := run_of_pan h1; let ⟨l, h⟩ := call_of_calls h; ⟨k ++ l, .handler h1 h⟩
  | .finally _ _, _, .inl h => let ⟨l, h⟩ := call_of_calls h; ⟨l, .body h⟩
  | .finally a _, _, .inr h => let ⟨l, h⟩ := call_of_calls h; ⟨[] ++ l, .deferred (run_done may a) h⟩

theorem holds_of_call {may : Fun → Prop} {c : Cmd} {f : Fun} {l : List Lock} (h : Call may c f l) (hn : NoLeak may c) : ∀ x, x ∈ l → Holds may c f x := by
  induction h with
  | user => intro x hx; cases hx
  | first _ ih => intro x hx; exact .inl (ih hn.1 x hx)
  | second h _ ih => intro x hx; rw [hn.2.2 _ h] at hx; exact .inr (ih hn.2.1 x hx)
  | left _ ih => intro x hx; exact .inl (ih hn.1 x hx)
  | right _ ih => intro x hx; exact .inr (ih hn.2 x hx)
  | round _ ih => intro x hx; exact ih hn.1 x hx
  | later h _ ih => intro x hx; rw [hn.2 _ h] at hx; exact ih hn x hx
  | under h ih => intro x hx; exact (List.mem_cons.1 hx).elim (fun e => .inr ⟨e, calls_of_call h⟩) (fun hx => .inl (ih hn x hx))
  | guard h ih => intro x hx; exact (List.mem_cons.1 hx).elim (fun e => .inr ⟨e, calls_of_call h⟩) (fun hx => .inl (ih hn x hx))
  | tried _ ih => intro x hx; exact .inl (ih hn.1 x hx)
  | handler h _ ih => intro x hx; rw [hn.2.2 _ _ h] at hx; exact .inr ⟨⟨_, pan_of_run h _ rfl⟩, ih (hn.2.1 ⟨_, pan_of_run h _ rfl⟩) x hx⟩
  | body _ ih => intro x hx; exact .inl (ih hn.1 x hx)
  | deferred h _ ih => intro x hx; rw [hn.2.2 _ _ h] at hx; exact .inr (ih hn.2.1 x hx)

theorem call_of_holds {may : Fun → Prop} : ∀ {c : Cmd} {f : Fun} {x : Lock}, Holds may c f x → ∃ l, Call may c f l ∧ x ∈ l
  | .skip, _, _, h => h.elim
  | .user _, _, _, h => h.elim
  | .seq _ _, _, _, .inl h => let ⟨l, h, hx⟩ := call_of_holds h; ⟨l, .first h, hx⟩
  | .seq a _, _, _, .inr h => let ⟨l, h, hx⟩ := call_of_holds h; ⟨[] ++ l, .second (run_done may a) h, hx⟩
  | .alt _ _, _, _, .inl h => let ⟨l, h, hx⟩ := call_of_holds h; ⟨l, .left h, hx⟩
  | .alt _ _, _, _, .inr h => let ⟨l, h, hx⟩ := call_of_holds h; ⟨l, .right h, hx⟩
  | .loop a, _, _, h => let ⟨l, h, hx⟩ := call_of_holds (c := a) h; ⟨l, .round h, hx⟩
  | .under y _, _, _, .inl h => let ⟨l, h, hx⟩ := call_of_holds h; ⟨y :: l, .under h, List.mem_cons_of_mem _ hx⟩
  | .under y _, _, _, .inr ⟨e, h⟩ => let ⟨l, h⟩ := call_of_calls h; ⟨y :: l, .under h, e ▸ List.mem_cons_self⟩
  | .guard y _, _, _, .inl h => let ⟨l, h, hx⟩ := call_of_holds h; ⟨y :: l, .guard h, List.mem_cons_of_mem _ hx⟩
  | .guard y _, _, _, .inr ⟨e, h⟩ => let ⟨l, h⟩ := call_of_calls h; ⟨y :: l, .guard h, e ▸ List.mem_cons_self⟩
  | .recovered _ _, _, _, .inl h => let ⟨l, h, hx⟩ := call_of_holds h; ⟨l, .tried h, hx⟩
  | .recovered _ _, _, _, .inr ⟨⟨_, h1⟩, h⟩ => let ⟨k, h1⟩ := run_of_pan h1; let ⟨l, h, hx⟩ := call_of_holds h; ⟨k ++ l, .handler h1 h, List.mem_append_right _ hx⟩
  | .finally _ _, _, _, .inl h => let ⟨l, h, hx⟩ := call_of_holds h; ⟨l, .body h, hx⟩
  | .finally a _, _, _, .inr h => let ⟨l, h, hx⟩ := call_of_holds h; ⟨[] ++ l, .deferred (run_done may a) h, hx⟩

theorem noLeak_of_free {may : Fun → Prop} : ∀ {c : Cmd}, (∀ x, ¬ Leak may c x) → NoLeak may c
  | .skip, _ => trivial
  | .user _, _ => trivial
  | .seq _ _, h => ⟨noLeak_of_free fun x hx => h x (.inl hx), noLeak_of_free fun x hx => h x (.inr hx),
      fun _ hr => List.eq_nil_iff_forall_not_mem.2 fun x hx => h x (.inl (leak_of_run hr x hx))⟩
  | .alt _ _, h => ⟨noLeak_of_free fun x hx => h x (.inl hx), noLeak_of_free fun x hx => h x (.inr hx)⟩
  | .loop a, h => ⟨noLeak_of_free (c := a) h, fun _ hr => List.eq_nil_iff_forall_not_mem.2 fun x hx => h x (leak_of_run (c := a) hr x hx)⟩
  | .under _ a, h => noLeak_of_free (c := a) fun x hx => h x (.inl hx)
  | .guard _ a, h => noLeak_of_free (c := a) h
  | .recovered _ _, h => ⟨noLeak_of_free fun x hx => h x (.inl hx), fun hp => noLeak_of_free fun x hx => h x (.inr ⟨hp, hx⟩),
      fun _ _ hr => List.eq_nil_iff_forall_not_mem.2 fun x hx => h x (.inl (leak_of_run hr x hx))⟩
  | .finally _ _, h => ⟨noLeak_of_free fun x hx => h x (.inl hx), noLeak_of_free fun x hx => h x (.inr hx),
      fun _ _ hr => List.eq_nil_iff_forall_not_mem.2 fun x hx => h x (.inl (leak_of_run hr x hx))⟩

theorem noLeak_under {may : Fun → Prop} {y : Lock} {a : Cmd} (h : ∀ x, ¬ Leak may a x) : NoLeak may (.loop (.under y a)) := by
  refine ⟨noLeak_of_free (c := a) h, ?_⟩
  intro l hr
  cases hr with
  | under hr => exact List.eq_nil_iff_forall_not_mem.2 fun x hx => h x (leak_of_run hr x hx)

/-- Goroutine `g` of the library can call function `f` of the user while it holds lock `x`. -/
def CallsUnder (may : Fun → Prop) (g : Go) (f : Fun) (x : Lock) : Prop := ∃ l, Call may (code g) f l ∧ x ∈ l

/-- **C139, exactly.** Which functions of the user the goroutines of the library call with which of its locks held, whatever panics: the hook of the logger with the logger's lock, with that of the extra workers, and on WebSocket and KCP connections with
`msgLock`; close callbacks with the lock of the close callbacks; `Pack` on WebSocket connections with `msgLock`. All others are called without a lock. -/
theorem C139_exact (may : Fun → Prop) (g : Go) (f : Fun) (x : Lock) : CallsUnder may g f x ↔ match g with
    | .worker | .direct | .reader | .readerWs | .logging => f = .hook ∧ x = .log
    | .startTcp => f = .hook ∧ (x = .log ∨ x = .workers)
    | .startKcp | .startWs => f = .hook ∧ (x = .log ∨ x = .workers ∨ x = .msg)
    | .writer => f = .hook ∧ (x = .log ∨ x = .msg)
    | .heartbeat => f = .hook ∧ (x = .log ∨ x = .msg) ∨ f = .pack ∧ x = .msg
    | .closer => f = .closeCb ∧ x = .callbacks ∨ may .closeCb ∧ f = .hook ∧ x = .log
    | .async => may .asyncOp ∧ f = .hook ∧ x = .log
    | .timer => may .timer ∧ f = .hook ∧ x = .log
    | .handshake => f = .hook ∧ x = .log := by
  have key : CallsUnder may g f x ↔ Holds may (code g) f x := by
    constructor
    · rintro ⟨l, h, hx⟩
      refine holds_of_call h (noLeak_of_free ?_) x hx
      intro y hy
      obtain ⟨o, k, hr, hk⟩ := run_of_leak hy
      rw [C125_locks may g o k hr] at hk
      cases hk
    · exact call_of_holds
  rw [key]
  cases g <;> simp [code, Pan, Holds, Calls, log, opt, doFunc, doMsg, doSlices, slices, execute, round, useWorker, freeWorker, callHook, finish, finalizerTcp, finalizer, start, sendMsg, sendMsgKcp, sendMsgWs, sendAny, Unwind.writer,
    or_and_right, exists_or] <;> grind

/-- The same for the calls of the library that take a callback, in the goroutine of the caller: the callbacks of `IterCb`, `Range`, `Range2` and `RemoveCb` are called with the lock of a shard held; `NotifyAll` calls the user's `Pack` with it, and so does
`SendMsg` of a WebSocket connection with `msgLock`. -/
theorem C139_api (may : Fun → Prop) (a : Api) (f : Fun) (x : Lock) : (∃ l, Call may (api a) f l ∧ x ∈ l) ↔ match a with
    | .iterCb => f = .iter ∧ x = .shard
    | .range => f = .iter ∧ x = .shard ∨ f = .hook ∧ (x = .shard ∨ x = .log)
    | .removeCb => f = .remove ∧ x = .shard
    | .notifyAll => f = .pack ∧ (x = .shard ∨ x = .msg) ∨ f = .hook ∧ (x = .shard ∨ x = .msg ∨ x = .log)
    | .sendMsg => f = .pack ∧ x = .msg ∨ f = .hook ∧ (x = .msg ∨ x = .log)
    | .log => f = .hook ∧ x = .log := by
  have hn : NoLeak may (api a) := by
    cases a with
    | iterCb => exact noLeak_under fun x h => by simp [Leak] at h
    | range => exact noLeak_under fun x h => by simp [Leak, log, opt] at h
    | removeCb => trivial
    | notifyAll => exact noLeak_under fun x h => by simp [Leak, log, opt, sendMsg, sendMsgKcp, sendMsgWs, sendAny] at h
    | sendMsg => exact noLeak_of_free fun x h => by simp [api, Leak, log, opt, sendMsg, sendMsgKcp, sendMsgWs, sendAny] at h
    | log => exact noLeak_of_free fun x h => by simp [api, Leak, log] at h
  have key : (∃ l, Call may (api a) f l ∧ x ∈ l) ↔ Holds may (api a) f x := ⟨fun ⟨_, h, hx⟩ => holds_of_call h hn x hx, call_of_holds⟩
  rw [key]
  cases a <;> simp [api, Holds, Calls, log, opt, sendMsg, sendMsgKcp, sendMsgWs, sendAny] <;> grind

/-- `SendMsg` by kind of connection: TCP and KCP call `Pack` without a lock, WebSocket with `msgLock`; KCP and WebSocket log with it. -/
theorem C139_send (may : Fun → Prop) (f : Fun) (x : Lock) :
    ((∃ l, Call may sendMsg f l ∧ x ∈ l) ↔ f = .hook ∧ x = .log) ∧
    ((∃ l, Call may sendMsgKcp f l ∧ x ∈ l) ↔ f = .hook ∧ (x = .msg ∨ x = .log)) ∧
    ((∃ l, Call may sendMsgWs f l ∧ x ∈ l) ↔ f = .pack ∧ x = .msg ∨ f = .hook ∧ (x = .msg ∨ x = .log)) := by
  have key : ∀ c, NoLeak may c → ((∃ l, Call may c f l ∧ x ∈ l) ↔ Holds may c f x) := fun c hn =>
    ⟨fun ⟨_, h, hx⟩ => holds_of_call h hn x hx, call_of_holds⟩
  refine ⟨?_, ?_, ?_⟩
  · rw [key _ (noLeak_of_free fun x h => by simp [Leak, log, opt, sendMsg] at h)]
    simp [Holds, Calls, log, opt, sendMsg] <;> grind
  · rw [key _ (noLeak_of_free fun x h => by simp [Leak, log, opt, sendMsgKcp] at h)]
    simp [Holds, Calls, log, opt, sendMsgKcp] <;> grind
  · rw [key _ (noLeak_of_free fun x h => by simp [Leak, log, opt, sendMsgWs] at h)]
    simp [Holds, Calls, log, opt, sendMsgWs] <;> grind

/-- Handlers, interceptors, connection hooks, the functions of the heartbeat other than `Pack`, asynchronous operations and their callbacks, timers and the WebSocket check are called by no goroutine of the library with a lock of it held: they may
use the library without waiting for their own goroutine. -/
theorem C139_partial (may : Fun → Prop) (g : Go) (f : Fun) (hf : f ≠ .hook) (hc : f ≠ .closeCb) (hp : f ≠ .pack) (l : List Lock) (h : Call may (code g) f l) : l = [] := by
  apply List.eq_nil_iff_forall_not_mem.2
  intro x hx
  have := (C139_exact may g f x).1 ⟨l, h, hx⟩
  cases g <;> simp_all

/-- The property as stated is false: the hook of the logger runs with the logger's lock held, so that a hook that logs waits for itself; likewise a close callback that adds a close callback, and a `Pack` that sends on its WebSocket connection. -/
theorem C139_refuted (may : Fun → Prop) : CallsUnder may .worker .hook .log ∧ CallsUnder may .closer .closeCb .callbacks ∧ CallsUnder may .heartbeat .pack .msg ∧
    ∃ l, Call may (api .range) .iter l ∧ .shard ∈ l :=
  ⟨(C139_exact ..).2 (by simp), (C139_exact ..).2 (by simp), (C139_exact ..).2 (by simp), (C139_api may .range .iter .shard).2 (by simp)⟩

/-- The stop hook is called by the goroutine of a WebSocket connection. -/
example (may : Fun → Prop) : ∃ l, Call may (code .startWs) .connStop l :=
  call_of_calls (by simp [code, Calls, start, finalizer, callHook, opt])

end Zinx.Props
