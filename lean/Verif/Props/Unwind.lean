import Verif.Model.Unwind

/-! # C125: a panic in a function of the user is contained -/

namespace Zinx.Props
open Zinx.Unwind

/-- Which panics can come out of a command. -/
def Pan (may : Fun → Prop) : Cmd → Fun → Prop
  | .skip, _ => False
  | .user f, g => f = g ∧ may g
  | .seq a b, g => Pan may a g ∨ Pan may b g
  | .alt a b, g => Pan may a g ∨ Pan may b g
  | .loop a, g => Pan may a g
  | .under _ a, g => Pan may a g
  | .guard _ a, g => Pan may a g
  | .recovered a h, g => (∃ f, Pan may a f) ∧ Pan may h g
  | .finally a b, g => Pan may a g ∨ Pan may b g

/-- Which locks a command can leave locked. -/
def Leak (may : Fun → Prop) : Cmd → Lock → Prop
  | .skip, _ => False
  | .user _, _ => False
  | .seq a b, x => Leak may a x ∨ Leak may b x
  | .alt a b, x => Leak may a x ∨ Leak may b x
  | .loop a, x => Leak may a x
  | .under y a, x => Leak may a x ∨ x = y ∧ ∃ f, Pan may a f
  | .guard _ a, x => Leak may a x
  | .recovered a h, x => Leak may a x ∨ (∃ f, Pan may a f) ∧ Leak may h x
  | .finally a b, x => Leak may a x ∨ Leak may b x

/-- Every command can run to its end without a panic, all locks given back. -/
theorem run_done (may : Fun → Prop) : ∀ c, Run may c .done []
  | .skip => .skip
  | .user f => .ret f
  | .seq a b => .seq (run_done may a) (run_done may b)
  | .alt a _ => .left (run_done may a)
  | .loop _ => .stop
  | .under _ a => .under (run_done may a)
  | .guard _ a => .guard (run_done may a)
  | .recovered a _ => .noPanic (run_done may a)
  | .finally a b => .deferred (run_done may a) (run_done may b)

theorem pan_of_run {may : Fun → Prop} {c : Cmd} {o : Out} {l : List Lock} (h : Run may c o l) : ∀ f, o = .panic f → Pan may c f := by
  induction h with
  | skip => intro f e; cases e
  | ret => intro f e; cases e
  | panic g hm => intro f e; cases e; exact ⟨rfl, hm⟩
  | seq _ _ _ ih => intro f e; exact .inr (ih f e)
  | seqPanic _ ih => intro f e; exact .inl (ih f e)
  | left _ ih => intro f e; exact .inl (ih f e)
  | right _ ih => intro f e; exact .inr (ih f e)
  | stop => intro f e; cases e
  | round _ _ _ ih => intro f e; exact ih f e
  | roundPanic _ ih => intro f e; exact ih f e
  | under _ _ => intro f e; cases e
  | underPanic _ ih => intro f e; exact ih f e
  | guard _ ih => intro f e; exact ih f e
  | noPanic _ _ => intro f e; cases e
  | recovers _ _ ih1 ih2 => intro f e; exact ⟨⟨_, ih1 _ rfl⟩, ih2 f e⟩
  | deferred _ _ ih _ => intro f e; exact .inl (ih f e)
  | deferredPanic _ _ _ ih => intro f e; exact .inr (ih f e)

theorem run_of_pan {may : Fun → Prop} : ∀ {c : Cmd} {f : Fun}, Pan may c f → ∃ l, Run may c (.panic f) l
  | .skip, _, h => h.elim
  | .user _, _, ⟨e, h⟩ => ⟨[], e ▸ .panic _ (e ▸ h)⟩
  | .seq _ _, _, .inl h => let ⟨l, h⟩ := run_of_pan h; ⟨l, .seqPanic h⟩
  | .seq a _, _, .inr h => let ⟨l, h⟩ := run_of_pan h; ⟨[] ++ l, .seq (run_done may a) h⟩
  | .alt _ _, _, .inl h => let ⟨l, h⟩ := run_of_pan h; ⟨l, .left h⟩
  | .alt _ _, _, .inr h => let ⟨l, h⟩ := run_of_pan h; ⟨l, .right h⟩
  | .loop a, _, h => let ⟨l, h⟩ := run_of_pan (c := a) h; ⟨l, .roundPanic h⟩
  | .under x a, _, h => let ⟨l, h⟩ := run_of_pan (c := a) h; ⟨x :: l, .underPanic h⟩
  | .guard _ a, _, h => let ⟨l, h⟩ := run_of_pan (c := a) h; ⟨l, .guard h⟩
  | .recovered _ _, _, ⟨⟨_, h1⟩, h2⟩ => let ⟨l, h1⟩ := run_of_pan h1; let ⟨k, h2⟩ := run_of_pan h2; ⟨l ++ k, .recovers h1 h2⟩
  | .finally _ b, _, .inl h => let ⟨l, h⟩ := run_of_pan h; ⟨l ++ [], .deferred h (run_done may b)⟩
  | .finally a _, _, .inr h => let ⟨l, h⟩ := run_of_pan h; ⟨[] ++ l, .deferredPanic (run_done may a) h⟩

theorem leak_of_run {may : Fun → Prop} {c : Cmd} {o : Out} {l : List Lock} (h : Run may c o l) : ∀ x, x ∈ l → Leak may c x := by
  induction h with
  | skip => intro x e; cases e
  | ret => intro x e; cases e
  | panic => intro x e; cases e
  | seq _ _ ih1 ih2 => intro x e; exact (List.mem_append.1 e).elim (fun e => .inl (ih1 x e)) (fun e => .inr (ih2 x e))
  | seqPanic _ ih => intro x e; exact .inl (ih x e)
  | left _ ih => intro x e; exact .inl (ih x e)
  | right _ ih => intro x e; exact .inr (ih x e)
  | stop => intro x e; cases e
  | round _ _ ih1 ih2 => intro x e; exact (List.mem_append.1 e).elim (ih1 x) (ih2 x)
  | roundPanic _ ih => intro x e; exact ih x e
  | under _ ih => intro x e; exact .inl (ih x e)
  | underPanic h ih =>
    intro x e
    rcases List.mem_cons.1 e with e | e
    · exact .inr ⟨e, _, pan_of_run h _ rfl⟩
    · exact .inl (ih x e)
  | guard _ ih => intro x e; exact ih x e
  | noPanic _ ih => intro x e; exact .inl (ih x e)
  | recovers h1 _ ih1 ih2 => intro x e; exact (List.mem_append.1 e).elim (fun e => .inl (ih1 x e)) (fun e => .inr ⟨⟨_, pan_of_run h1 _ rfl⟩, ih2 x e⟩)
  | deferred _ _ ih1 ih2 => intro x e; exact (List.mem_append.1 e).elim (fun e => .inl (ih1 x e)) (fun e => .inr (ih2 x e))
  | deferredPanic _ _ ih1 ih2 => intro x e; exact (List.mem_append.1 e).elim (fun e => .inl (ih1 x e)) (fun e => .inr (ih2 x e))

theorem run_of_leak {may : Fun → Prop} : ∀ {c : Cmd} {x : Lock}, Leak may c x → ∃ o l, Run may c o l ∧ x ∈ l
  | .skip, _, h => h.elim
  | .user _, _, h => h.elim
  | .seq _ b, _, .inl h => by
    obtain ⟨o, l, h, hx⟩ := run_of_leak h
    cases o with
    | done => exact ⟨.done, l ++ [], .seq h (run_done may b), by simpa using hx⟩
    | panic f => exact ⟨.panic f, l, .seqPanic h, hx⟩
  | .seq a _, _, .inr h => let ⟨o, l, h, hx⟩ := run_of_leak h; ⟨o, [] ++ l, .seq (run_done may a) h, hx⟩
  | .alt _ _, _, .inl h => let ⟨o, l, h, hx⟩ := run_of_leak h; ⟨o, l, .left h, hx⟩
  | .alt _ _, _, .inr h => let ⟨o, l, h, hx⟩ := run_of_leak h; ⟨o, l, .right h, hx⟩
  | .loop a, _, h => by
    obtain ⟨o, l, h, hx⟩ := run_of_leak (c := a) h
    cases o with
    | done => exact ⟨.done, l ++ [], .round h .stop, by simpa using hx⟩
    | panic f => exact ⟨.panic f, l, .roundPanic h, hx⟩
  | .under y _, _, .inl h => by
    obtain ⟨o, l, h, hx⟩ := run_of_leak h
    cases o with
    | done => exact ⟨.done, l, .under h, hx⟩
    | panic f => exact ⟨.panic f, y :: l, .underPanic h, List.mem_cons_of_mem _ hx⟩
  | .under y _, _, .inr ⟨e, f, h⟩ => let ⟨l, h⟩ := run_of_pan h; ⟨.panic f, y :: l, .underPanic h, e ▸ List.mem_cons_self⟩
  | .guard _ a, _, h => let ⟨o, l, h, hx⟩ := run_of_leak (c := a) h; ⟨o, l, .guard h, hx⟩
  | .recovered _ b, _, .inl h => by
    obtain ⟨o, l, h, hx⟩ := run_of_leak h
    cases o with
    | done => exact ⟨.done, l, .noPanic h, hx⟩
    | panic f => exact ⟨.done, l ++ [], .recovers h (run_done may b), by simpa using hx⟩
  | .recovered _ _, _, .inr ⟨⟨_, h1⟩, h2⟩ => let ⟨l, h1⟩ := run_of_pan h1; let ⟨o, k, h2, hx⟩ := run_of_leak h2; ⟨o, l ++ k, .recovers h1 h2, List.mem_append_right _ hx⟩
  | .finally _ b, _, .inl h => let ⟨o, l, h, hx⟩ := run_of_leak h; ⟨o, l ++ [], .deferred h (run_done may b), List.mem_append_left _ hx⟩
  | .finally a _, _, .inr h => by
    obtain ⟨o, l, h, hx⟩ := run_of_leak h
    cases o with
    | done => exact ⟨.done, [] ++ l, .deferred (run_done may a) h, hx⟩
    | panic f => exact ⟨.panic f, [] ++ l, .deferredPanic (run_done may a) h, hx⟩

/-- A run of goroutine `g` can end the process: a panic gets to the bottom of its stack. -/
def CanEnd (may : Fun → Prop) (g : Go) : Prop := ∃ f l, Run may (code g) (.panic f) l

theorem canEnd_iff (may : Fun → Prop) (g : Go) : CanEnd may g ↔ ∃ f, Pan may (code g) f :=
  ⟨fun ⟨f, _, h⟩ => ⟨f, pan_of_run h f rfl⟩, fun ⟨f, h⟩ => let ⟨l, h⟩ := run_of_pan h; ⟨f, l, h⟩⟩

/-- Exactly these panics end the process. The hook of the logger: wherever the library logs, also when it logs a panic it has recovered. Interceptors and connection hooks: on WebSocket connections. The functions of the heartbeat: always. -/
theorem C125_exact (may : Fun → Prop) (g : Go) : CanEnd may g ↔ match g with
    | .worker | .direct | .reader | .startTcp | .startKcp | .logging | .writer => may .hook
    | .readerWs => may .interceptor ∨ may .hook
    | .startWs => may .connStart ∨ may .connStop ∨ may .hook
    | .heartbeat => may .notAlive ∨ may .beat ∨ may .makeMsg ∨ may .pack ∨ may .hook
    | .closer => may .closeCb ∧ may .hook
    | .async => may .asyncOp ∧ may .hook
    | .timer => may .timer ∧ may .hook
    | .handshake => False := by
  rw [canEnd_iff]
  cases g <;> simp [code, Pan, log, opt, doFunc, doMsg, doSlices, slices, execute, round, useWorker, freeWorker, callHook, finish, finalizerTcp, finalizer, start, sendMsg, sendMsgKcp, sendMsgWs, sendAny, Unwind.writer,
    or_and_right, exists_or] <;> grind

/-- No goroutine of the library leaves a lock locked, whatever panics. -/
theorem C125_locks (may : Fun → Prop) (g : Go) (o : Out) (l : List Lock) (h : Run may (code g) o l) : l = [] := by
  apply List.eq_nil_iff_forall_not_mem.2
  intro x hx
  have := leak_of_run h x hx
  cases g <;> simp [code, Leak, log, opt, doFunc, doMsg, doSlices, slices, execute, round, useWorker, freeWorker, callHook, finish, finalizerTcp, finalizer, start, sendMsg, sendMsgKcp, sendMsgWs, sendAny, Unwind.writer] at this

/-- Exactly these calls leave a lock locked, that of a shard: iterating and `RemoveCb` if the callback panics, `Range` also if the hook of the logger does, telling everyone if the user's `Pack` or the hook does. -/
theorem C125_api (may : Fun → Prop) (a : Api) : (∃ o l, Run may (api a) o l ∧ l ≠ []) ↔ match a with
    | .iterCb => may .iter
    | .range => may .iter ∨ may .hook
    | .removeCb => may .remove
    | .notifyAll => may .pack ∨ may .hook
    | .sendMsg | .log => False := by
  have key : (∃ o l, Run may (api a) o l ∧ l ≠ []) ↔ ∃ x, Leak may (api a) x := by
    constructor
    · rintro ⟨o, l, h, hl⟩
      obtain ⟨x, hx⟩ := List.exists_mem_of_ne_nil l hl
      exact ⟨x, leak_of_run h x hx⟩
    · rintro ⟨x, h⟩
      obtain ⟨o, l, h, hx⟩ := run_of_leak h
      exact ⟨o, l, h, List.ne_nil_of_mem hx⟩
  rw [key]
  cases a <;> simp [api, Leak, Pan, log, opt, sendMsg, sendMsgKcp, sendMsgWs, sendAny, exists_or] <;> grind

/-- The same calls made by a handler: the worker recovers, and the process goes on with the lock locked. -/
theorem C125_handler (may : Fun → Prop) (a : Api) (f : Fun) (l : List Lock) (h : Run may (api a) (.panic f) l) : Run may (handlerCalls a) .done l := by
  have := Run.recovers (h := log) h (run_done may log)
  rwa [List.append_nil] at this

/-- If the hook of the logger does not panic and none of the functions of the heartbeat does, on TCP and KCP connections no panic of a function of the user ends the process, and no goroutine leaves a lock locked. On WebSocket connections
interceptors and connection hooks must not panic either. -/
theorem C125_partial (may : Fun → Prop) (hh : ¬ may .hook) (h1 : ¬ may .notAlive) (h2 : ¬ may .beat) (h3 : ¬ may .makeMsg) (h4 : ¬ may .pack) (g : Go)
    (hw : g = .readerWs → ¬ may .interceptor) (hs : g = .startWs → ¬ may .connStart ∧ ¬ may .connStop) (o : Out) (l : List Lock) (h : Run may (code g) o l) : o = .done ∧ l = [] := by
  refine ⟨?_, C125_locks may g o l h⟩
  cases o with
  | done => rfl
  | panic f =>
    exfalso
    have := (C125_exact may g).1 ⟨f, l, h⟩
    cases g <;> simp_all

/-- The property as stated is false: a heartbeat function that panics ends the process. -/
theorem C125_refuted : ∃ may g, ¬ may Fun.hook ∧ CanEnd may g :=
  ⟨(· = .beat), .heartbeat, by simp, (C125_exact _ _).2 (by simp)⟩

/-- So does a hook of a WebSocket connection, which on TCP and KCP connections does not. -/
theorem C125_refuted_ws : ∃ may : Fun → Prop, CanEnd may .startWs ∧ ¬ CanEnd may .startTcp ∧ ¬ CanEnd may .startKcp :=
  ⟨(· = .connStart), (C125_exact _ _).2 (by simp), fun h => by simpa using (C125_exact _ _).1 h, fun h => by simpa using (C125_exact _ _).1 h⟩

/-- And a handler that calls `Range` with a function that panics leaves a shard of the connection manager locked, with the process going on. -/
theorem C125_refuted_lock : ∃ (may : Fun → Prop) (l : List Lock), ¬ may .hook ∧ Run may (handlerCalls .range) .done l ∧ .shard ∈ l := by
  refine ⟨(· = .iter), [.shard], by simp, C125_handler _ .range .iter [.shard] ?_, by simp⟩
  exact .roundPanic (.underPanic (.roundPanic (.seqPanic (.panic _ rfl))))

/-- The hypotheses of `C125_partial` leave room: handlers, interceptors and connection hooks may panic on TCP connections. -/
example : ∃ (may : Fun → Prop) (o : Out) (l : List Lock), ¬ may .hook ∧ ¬ may .notAlive ∧ ¬ may .beat ∧ ¬ may .makeMsg ∧ ¬ may .pack ∧ may .interceptor ∧ Run may (code .reader) o l :=
  ⟨(· = .interceptor), .done, [], by simp, by simp, by simp, by simp, by simp, rfl, run_done _ _⟩

/-- An interceptor that panics does so in a run of the reader that ends well. -/
example : ∃ l, Run (· = .interceptor) (code .reader) .done l := by
  refine ⟨_, .seq (run_done _ _) (.deferred (.recovers (.roundPanic (.right (.seq (run_done _ _) (.roundPanic (.seq (run_done _ _) (.seqPanic (.roundPanic (.panic _ rfl)))))))) (run_done _ _)) (run_done _ _))⟩

end Zinx.Props
