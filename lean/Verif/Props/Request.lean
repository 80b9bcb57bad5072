import Verif.Lemmas.Request
import Verif.Model.Decoder

/-! # Requests: router stages (C20), handler lists (C21, C69), pooling (C24), `Copy` (C25) -/

namespace Zinx.Props

open Zinx Zinx.Request

variable {W : Type}

/-! ## C20 -/

/-- **C20.** For every behaviour of the stages of a router: the stages run by `Call` are always the beginning of the sequence that the
rule `nextStage` prescribes, starting with `PreHandle`; conversely `Call` gets arbitrarily far in it, and it ends when and only
when the rule says that no stage is next. The process state changes accordingly. -/
theorem C20_stages_follow_the_rule (r : Router W) (w : W) :
    (∀ n, ∃ m, m ≤ n ∧ (call (some r) n w).ran = (stages r m (some 0) w).1 ∧
      (call (some r) n w).world = (stages r m (some 0) w).2.2 ∧
      ((call (some r) n w).status ≠ .running → (stages r m (some 0) w).2.1 = none)) ∧
    (∀ m, ∃ n, (call (some r) n w).ran = (stages r m (some 0) w).1 ∧
      (call (some r) n w).world = (stages r m (some 0) w).2.2 ∧
      ((stages r m (some 0) w).2.1 = none → (call (some r) n w).status ≠ .running)) := by
  have hc : Corr (callStart w) (some 0) w [] := ⟨rfl, rfl, by omega, rfl, rfl, .inl rfl⟩
  refine ⟨fun n => ?_, fun m => ?_⟩
  · obtain ⟨m, hm, h⟩ := stages_sound r _ _ _ _ hc n
    refine ⟨m, hm, by simpa [call] using h.2.1, h.1, fun hs => ?_⟩
    cases hcur : (stages r m (some 0) w).2.1 with
    | none => rfl
    | some s => rw [hcur] at h; exact absurd h.2.2.2.1 hs
  · obtain ⟨n, h⟩ := stages_reached r m _ _ _ _ hc
    cases hcur : (stages r m (some 0) w).2.1 with
    | some s => exact ⟨n, by simpa [call] using h.2.1, h.1, fun h' => by simp at h'⟩
    | none =>
      rw [hcur] at h
      refine ⟨n + 1, ?_⟩
      show ((callIters r (n + 1) (callStart w)).ran = _) ∧ ((callIters r (n + 1) (callStart w)).world = _) ∧
        (_ → (callIters r (n + 1) (callStart w)).status ≠ _)
      rw [callIters_succ']
      obtain ⟨h1, h2, h3⟩ := h
      unfold callIter
      rcases h3 with ⟨h3, h4⟩ | ⟨h3, h4⟩ | h3
      · simp only [h3]; rw [if_neg (by omega)]; exact ⟨by simpa using h2, h1, by simp⟩
      · simp only [h3]; exact ⟨by simpa using h2, h1, by simp⟩
      · simp only [h3]; exact ⟨by simpa using h2, h1, by simp⟩

/-- **C20 (plain routers).** A router whose stages neither steer nor panic runs `PreHandle`, `Handle`, `PostHandle`, each exactly
once, and `Call` returns. -/
theorem C20_plain (r : Router W) (w : W) (h : ∀ s w', (r s w').ops = [] ∧ (r s w').panics = false) :
    ∃ n, ∀ k, (call (some r) (n + k) w).ran = [0, 1, 2] ∧ (call (some r) (n + k) w).status = .returned := by
  refine ⟨4, fun k => ?_⟩
  have step : ∀ (s : Nat) (w : W) (ran : List Nat), s < 3 →
      callIter r { steps := s, needNext := true, world := w, ran := ran, status := .running } =
        { steps := (s + 1 : Nat), needNext := true, world := (r s w).world, ran := ran ++ [s], status := .running } := by
    intro s w ran hs
    rw [callIter_stage r s hs, (h s w).1, if_neg (by rw [(h s w).2]; simp)]
    simp [next]
  have e : callIters r 4 (callStart w) =
      { steps := 0, needNext := true, world := (r 2 (r 1 (r 0 w).world).world).world, ran := [0, 1, 2], status := .returned } := by
    show callIter r (callIter r (callIter r (callIter r (callStart w)))) = _
    have s0 := step 0 w [] (by omega)
    have s1 := step 1 (r 0 w).world [0] (by omega)
    have s2 := step 2 (r 1 (r 0 w).world).world [0, 1] (by omega)
    have e0 : callStart w = { steps := ((0 : Nat) : Int), needNext := true, world := w, ran := [], status := .running } := rfl
    rw [e0, s0]
    simp only [List.nil_append, Nat.zero_add]
    rw [s1]
    simp only [List.cons_append, List.nil_append]
    rw [s2]
    rfl
  have stay : ∀ k (st : CallState W), st.status = .returned → callIters r k st = st := by
    intro k
    induction k with
    | zero => intro st _; rfl
    | succ k ih =>
      intro st hst
      show callIters r k (callIter r st) = st
      have : callIter r st = st := by unfold callIter; rw [hst]
      rw [this]; exact ih st hst
  have : call (some r) (4 + k) w = callIters r k (callIters r 4 (callStart w)) := callIters_add r 4 k _
  rw [this, e, stay k _ rfl]
  exact ⟨rfl, rfl⟩

/-- **C20 (abort, goto).** What the rule says about steering: after a stage whose last steering call is `Abort` no stage runs, after
`Goto(t)` with `t` one of the three stages the next stage is `t`. -/
theorem C20_abort_goto (s : Nat) (out : StageRun W) (hp : out.panics = false) :
    (out.ops.getLast? = some .abort → nextStage s out = none) ∧
    (∀ t : Nat, t < 3 → out.ops.getLast? = some (.goto t) → nextStage s out = some t) ∧
    (out.ops = [] → nextStage s out = if s + 1 < 3 then some (s + 1) else none) := by
  refine ⟨fun h => ?_, fun t ht h => ?_, fun h => ?_⟩
  · simp [nextStage, hp, h]
  · simp only [nextStage, hp, h]
    simp; omega
  · simp [nextStage, hp, h]

/-- **C20 (nil router).** -/
theorem C20_nil_router (n : Nat) (w : W) :
    (call (none : Option (Router W)) n w).ran = [] ∧ (call (none : Option (Router W)) n w).status = .returned ∧
      (call (none : Option (Router W)) n w).world = w := ⟨rfl, rfl, rfl⟩

/-- A router that counts stage runs in the world and jumps back from `PostHandle` to `Handle` once, then aborts in `Handle`. -/
def jumpy : Router Nat := fun s w =>
  if s = 2 ∧ w < 3 then { ops := [.goto 1], panics := false, world := w + 1 }
  else if s = 1 ∧ 3 ≤ w then { ops := [.goto 0, .abort], panics := false, world := w + 1 }
  else { ops := [], panics := false, world := w + 1 }

example : (call (some jumpy) 10 0).ran = [0, 1, 2, 1] ∧ (call (some jumpy) 10 0).status = .returned ∧
    (stages jumpy 10 (some 0) 0).1 = [0, 1, 2, 1] := by decide

/-- The hypothesis of `C20_plain` is met by a router doing work in each stage. -/
example : ∀ s w', ((fun s w => { ops := [], panics := false, world := w ++ [s] } : Router (List Nat)) s w').ops = [] ∧
    ((fun s w => { ops := [], panics := false, world := w ++ [s] } : Router (List Nat)) s w').panics = false := fun _ _ => ⟨rfl, rfl⟩

/-! ## C21 -/

theorem Runs.unique {hs : List (Handler W)} {w : W} {m m' : SlicesRun W} (h : Runs hs w m) (h' : Runs hs w m') : m = m' := by
  obtain ⟨n, hn⟩ := h
  obtain ⟨n', hn'⟩ := h'
  have h1 := slicesLoop_mono_le hs (Nat.le_max_left n n') _ _ _ hn
  have h2 := slicesLoop_mono_le hs (Nat.le_max_right n n') _ _ _ hn'
  rw [h1] at h2
  exact Option.some.inj h2

/-- **C21 (partial, refinement).** As long as the number of handlers plus the number of `Next` calls they make (plus one if
one of them aborts) is at most 127, running the handlers ends and does exactly what the list specification `specRun` says: same
events, same effects, same panic. What is missing for C21: longer lists or more `Next` calls (see the refutations). -/
theorem C21_partial (hs : List (Handler W)) (w : W)
    (hb : hs.length + nextCalls (specRun hs w).trace + (if HEvent.abort ∈ (specRun hs w).trace then 1 else 0) ≤ 127) :
    ∃ m, Runs hs w m ∧ m.trace = (specRun hs w).trace ∧ m.world = (specRun hs w).world ∧
      m.panicked = (specRun hs w).panicked := by
  have hp : pending hs (-1) = numbered 0 hs := rfl
  have key := loop_match hs (if HEvent.abort ∈ (specRun hs w).trace then 1 else 0) hs.length (-1) w 0 0 (by omega)
    (by simp) (by simp; omega) (by omega) (by rw [hp]; exact hb)
    (by rw [hp]; intro h; exact if_pos h)
  obtain ⟨m, h1, h2, _⟩ := key
  rw [hp] at h2
  exact ⟨m, ⟨hs.length + 1, by rw [runHandlers, routerSlicesNext]; exact h1⟩, h2.trace, h2.world, h2.panicked⟩

/-- **C21 (partial, in words).** Under the same bound: the handlers started are numbers 0, 1, 2, … in list order, each at most
once; all of them if nobody aborts and nothing panics; after an `Abort`, or once a `Next` call has returned regularly, no further
handler starts (so `Next` has run everything that was still to run). -/
theorem C21_order_partial (hs : List (Handler W)) (w : W) (m : SlicesRun W) (hm : Runs hs w m)
    (hb : hs.length + nextCalls (specRun hs w).trace + (if HEvent.abort ∈ (specRun hs w).trace then 1 else 0) ≤ 127) :
    (∃ k, k ≤ hs.length ∧ starts m.trace = List.range k ∧
      (HEvent.abort ∉ m.trace → m.panicked = false → k = hs.length)) ∧
    (∀ u v, m.trace = u ++ .abort :: v → starts v = []) ∧
    (∀ u v, m.trace = u ++ .resume false :: v → starts v = [] ∧ (HEvent.abort ∉ u → starts u = List.range hs.length)) := by
  obtain ⟨m', hm', ht, _, hpan⟩ := C21_partial hs w hb
  have := Runs.unique hm hm'
  subst this
  obtain ⟨h1, h2, _⟩ := loop_ordered hs.length (numbered 0 hs) w (by rw [numbered_length]; omega)
  change Ordered _ (specRun hs w) at h1
  change (specRun hs w).panicked = false → (specRun hs w).rest = [] at h2
  obtain ⟨k, hk, hst, hrest⟩ := h1.started
  rw [numbered_length] at hk
  have hrange : ((numbered 0 hs).take k).map Prod.fst = List.range k := by
    rw [List.map_take, numbered_fst, ← List.range_eq_range', List.take_range]
    congr 1; omega
  rw [ht, hpan]
  have hfull : (HEvent.abort ∉ (specRun hs w).trace → (specRun hs w).rest = [] → k = hs.length) := by
    intro ha hr
    have := hrest ha
    rw [hr] at this
    have := (List.drop_eq_nil_iff.mp this.symm)
    rw [numbered_length] at this
    omega
  refine ⟨⟨k, hk, by rw [hst, hrange], fun ha hp => hfull ha (h2 hp)⟩, fun u v h => (h1.mark _ (.inl rfl) u v h).1, fun u v h => ?_⟩
  obtain ⟨h3, h4⟩ := h1.mark _ (.inr rfl) u v h
  refine ⟨h3, fun ha => ?_⟩
  rw [h1.complete u v h ha, numbered_fst, List.range_eq_range']

/-- A handler that leaves its number. -/
def leaf (n : Nat) : Handler (List Nat) := .act (fun w => w ++ [n]) fun _ => .ret

/-- A handler that leaves its number, runs the rest, and leaves its number plus 100. It does not recover. -/
def around (n : Nat) : Handler (List Nat) := .act (fun w => w ++ [n]) fun _ => .next fun
  | true => .panic
  | false => .act (fun w => w ++ [n + 100]) fun _ => .ret

/-- A handler that leaves its number and aborts. -/
def aborting (n : Nat) : Handler (List Nat) := .act (fun w => w ++ [n]) fun _ => .abort .ret

/-- The bound of the C21 theorems is met by an ordinary list with nesting and an abort, and the effects are as expected. -/
example : [around 1, leaf 2, around 3, aborting 4, leaf 5].length +
      nextCalls (specRun [around 1, leaf 2, around 3, aborting 4, leaf 5] []).trace +
      (if HEvent.abort ∈ (specRun [around 1, leaf 2, around 3, aborting 4, leaf 5] []).trace then 1 else 0) ≤ 127 ∧
    (specRun [around 1, leaf 2, around 3, aborting 4, leaf 5] []).world = [1, 2, 3, 4, 103, 101] := by decide

/-- **C21 refuted (length).** With 128 to 255 handlers on a route no handler at all is run, whatever they are, and no error is
reported. -/
theorem C21_refuted_128 (hs : List (Handler W)) (w : W) (h1 : 128 ≤ hs.length) (h2 : hs.length ≤ 255) :
    Runs hs w ⟨false, 0, w, []⟩ := by
  refine ⟨1, ?_⟩
  have h3 : int8 hs.length = (hs.length : Int) - 256 := by
    unfold int8; rw [Int.bmod_def]; omega
  have h4 : int8 (-1 + 1) = 0 := by decide
  rw [runHandlers, routerSlicesNext, slicesLoop, h3, h4, if_neg (by omega)]

/-- **C21 refuted (length, witness).** A route with 128 handlers exists in the model. -/
theorem C21_refuted : ∃ (hs : List (Handler (List Nat))) (m : SlicesRun (List Nat)), Runs hs [] m ∧ m.panicked = false ∧
    HEvent.abort ∉ m.trace ∧ ¬ (starts m.trace = List.range hs.length) := by
  refine ⟨List.replicate 128 (leaf 1), _, C21_refuted_128 _ [] (by simp) (by simp), rfl, by simp, ?_⟩
  simp [starts, List.range_succ]

/-- The result of running a list, as Boolean facts for evaluation. -/
def outcome (hs : List (Handler (List Nat))) (fuel : Nat) : Option (Bool × List Nat) :=
  (runHandlers hs fuel []).map fun m => (m.panicked, starts m.trace)

/-- **C21 refuted (nesting).** 64 handlers each of which calls `Next` once and none of which panics: the index wraps around and the
framework itself panics while the handlers return. -/
theorem C21_refuted_nested : ∃ m, Runs (List.replicate 64 (around 1)) [] m ∧ m.panicked = true ∧
    starts m.trace = List.range 64 := by
  have h : outcome (List.replicate 64 (around 1)) 70 = some (true, List.range 64) := by decide +kernel
  unfold outcome at h
  cases hr : runHandlers (List.replicate 64 (around 1)) 70 [] with
  | none => rw [hr] at h; simp at h
  | some m =>
    rw [hr] at h
    simp only [Option.map_some, Option.some.injEq, Prod.mk.injEq] at h
    exact ⟨m, ⟨70, hr⟩, h.1, h.2⟩

/-- **C21 refuted (abort).** With 127 handlers an `Abort` in the first one makes the framework panic. -/
theorem C21_refuted_abort : ∃ m, Runs (aborting 0 :: List.replicate 126 (leaf 1)) [] m ∧ m.panicked = true := by
  have h : outcome (aborting 0 :: List.replicate 126 (leaf 1)) 5 = some (true, [0]) := by decide +kernel
  unfold outcome at h
  cases hr : runHandlers (aborting 0 :: List.replicate 126 (leaf 1)) 5 [] with
  | none => rw [hr] at h; simp at h
  | some m =>
    rw [hr] at h
    simp only [Option.map_some, Option.some.injEq, Prod.mk.injEq] at h
    exact ⟨m, ⟨5, hr⟩, h.1⟩

/-! ## C69: a panicking handler and the handlers after it -/

/-- **C69 (partial).** If no handler recovers, then after a handler panics no other handler starts and the whole run ends in that
panic (which the worker recovers, C26). Missing: lists with a recovering middleware, see the refutation. -/
theorem C69_partial (hs : List (Handler W)) (w : W) (m : SlicesRun W) (hm : Runs hs w m)
    (hb : hs.length + nextCalls (specRun hs w).trace + (if HEvent.abort ∈ (specRun hs w).trace then 1 else 0) ≤ 127)
    (hr : ∀ h ∈ hs, NonRecovering h) :
    ∀ u v, m.trace = u ++ .panic :: v → starts v = [] ∧ m.panicked = true := by
  obtain ⟨m', hm', ht, _, hpan⟩ := C21_partial hs w hb
  have := Runs.unique hm hm'
  subst this
  have hmem : ∀ (hs : List (Handler W)) (k : Nat) (x), x ∈ numbered k hs → x.2 ∈ hs := by
    intro hs
    induction hs with
    | nil => intro k x h; simp [numbered] at h
    | cons h hs ih =>
      intro k x hx
      simp only [numbered, List.mem_cons] at hx
      rcases hx with rfl | hx
      · simp
      · exact List.mem_cons_of_mem _ (ih _ x hx)
  have := (loop_panicEnds hs.length (numbered 0 hs) w (fun x hx => hr _ (hmem hs 0 x hx))).1
  intro u v h
  rw [ht] at h
  rw [hpan]
  exact this u v h

example : ∀ h ∈ [around 1, .act (fun w => w ++ [2]) (fun _ => .panic), leaf 3], NonRecovering h := by
  intro h hh
  simp only [List.mem_cons, List.not_mem_nil, or_false] at hh
  rcases hh with rfl | rfl | rfl
  · intro w; exact ⟨rfl, fun _ => trivial⟩
  · intro w; trivial
  · intro w; trivial

/-- **C69 refuted.** With the default recovery middleware in front (as `NewDefaultRouterSlicesServer` installs it) and a handler that
panics (say, a failed permission check), the next handler is run all the same and its effect `f` takes place. -/
theorem C69_refuted (f : W → W) (w : W) : ∃ m, Runs [routerRecovery, .panic, .act f fun _ => .ret] w m ∧
    (∃ u v, m.trace = u ++ .panic :: v ∧ 2 ∈ starts v) ∧ m.world = f w := by
  refine ⟨⟨false, 3, f w, [.start 0, .next, .start 1, .panic, .resume true, .start 2]⟩, ⟨5, ?_⟩, ⟨[.start 0, .next, .start 1],
    [.resume true, .start 2], rfl, by decide⟩, rfl⟩
  simp [runHandlers, routerSlicesNext, slicesLoop, execHandler, routerRecovery, int8, Int.bmod]

/-! ## C24 -/

/-- **C24 (partial).** Whatever state `r` an earlier request left in the pool (every history of handler calls is covered, since `r`
is arbitrary): the request handed out next, once its router or handlers are bound, equals a brand new request in connection,
message, user keys, stage, index, router and handlers — in every field except the response. Missing: the response, see
the refutation. -/
theorem C24_partial (pooled : Option Req) (conn msg : Option Nat) (x : Option Nat) (hs : List Nat) :
    let old := ((getRequest true pooled conn msg).bindRouter x).bindRouterSlices hs
    let new := ((newRequest conn msg).bindRouter x).bindRouterSlices hs
    old.setResponse none = new.setResponse none ∧
    (∀ h k, old.get h k = none) ∧ old.conn = conn ∧ old.msg = msg ∧ old.steps = 0 ∧ old.needNext = true ∧ old.index = -1 :=
  ⟨rfl, fun _ _ => rfl, rfl, rfl, rfl, rfl, rfl⟩

/-- **C24 (without pooling)** a request is new in every respect. -/
theorem C24_no_pool_partial (pooled : Option Req) (conn msg : Option Nat) : getRequest false pooled conn msg = newRequest conn msg := rfl

/-- **C24 refuted.** A handler of the first request calls `SetResponse(v)`; the request goes back to the pool; the handler of the
next request, for which nobody set a response, sees `v` of the first one, which may belong to another connection. -/
theorem C24_refuted : ∃ (r₁ r₂ : Req), r₁ = (getRequest true none (some 1) (some 10)).setResponse (some 5) ∧
    r₂ = getRequest true (some r₁) (some 2) (some 20) ∧ r₂.icResp = some 5 ∧ (newRequest (some 2) (some 20)).icResp = none :=
  ⟨_, _, rfl, rfl, rfl, rfl⟩

/-! ## C25 -/

/-- Pointers of a request are allocated. -/
def WellFormed (h : Heap) (r : Req) : Prop := (∀ a, r.keys = some a → a < h.nextMap) ∧ (∀ a, r.msg = some a → a < h.nextMsg)

/-- What may happen to the original after the copy was taken: handlers set keys or the response, the message is changed through its
setters (arbitrary new content), the request is recycled for another connection and message. -/
inductive Later where
  | set (k : String) (v : Val)
  | setResponse (v : Option Val)
  | changeMessage (m : Pack.Message)
  | recycle (conn : Option Nat) (m : Pack.Message)

def later : Heap × Req → Later → Heap × Req
  | (h, r), .set k v => r.set h k v
  | (h, r), .setResponse v => (h, r.setResponse v)
  | (h, r), .changeMessage m =>
    match r.msg with
    | none => (h, r)
    | some a => ({ h with msgs := fun b => if b = a then m else h.msgs b }, r)
  | (h, r), .recycle conn m =>
    ({ h with msgs := fun b => if b = h.nextMsg then m else h.msgs b, nextMsg := h.nextMsg + 1 }, r.reset conn (some h.nextMsg))

/-- What a user can read from a request: message ID, payload, response, and the value of every key. -/
def observe (h : Heap) (r : Req) : Option (UInt32 × Bytes) × Option Val × (String → Option Val) :=
  (r.msg.map fun a => ((h.msgs a).id, (h.msgs a).data), r.icResp, fun k => r.get h k)

/-- **C25 (partial, independence).** No later operation on the original, including recycling it for other requests, changes anything
that can be read from the copy. -/
theorem C25_independent_partial (h : Heap) (r : Req) (hwf : WellFormed h r) (h' : Heap) (c : Req) (hc : r.copy h = some (h', c))
    (ops : List Later) : observe (ops.foldl later (h', r)).1 c = observe h' c := by
  obtain ⟨mp, hm⟩ : ∃ a, r.msg = some a := by
    cases hr : r.msg with
    | none => simp [Req.copy, hr] at hc
    | some a => exact ⟨a, rfl⟩
  have hck : c.keys = some h.nextMap ∧ c.msg = some h.nextMsg ∧ h'.nextMap = h.nextMap + 1 ∧ h'.nextMsg = h.nextMsg + 1 := by
    simp only [Req.copy, hm, Option.some.injEq, Prod.mk.injEq] at hc
    obtain ⟨rfl, rfl⟩ := hc
    exact ⟨rfl, rfl, rfl, rfl⟩
  obtain ⟨hck, hcm, hn1, hn2⟩ := hck
  -- invariant: the original never points to the objects of the copy, and these objects keep their content
  let Inv : Heap × Req → Prop := fun p =>
    (∀ a, p.2.keys = some a → a ≠ h.nextMap) ∧ (∀ a, p.2.msg = some a → a ≠ h.nextMsg) ∧
    h.nextMap < p.1.nextMap ∧ h.nextMsg < p.1.nextMsg ∧
    p.1.maps h.nextMap = h'.maps h.nextMap ∧ p.1.msgs h.nextMsg = h'.msgs h.nextMsg
  have step : ∀ p o, Inv p → Inv (later p o) := by
    rintro ⟨g, q⟩ o ⟨i1, i2, i3, i4, i5, i6⟩
    dsimp only at i1 i2 i3 i4 i5 i6
    cases o with
    | set k v =>
      simp only [later, Req.set]
      cases hk : q.keys with
      | some a =>
        have hne := i1 a hk
        refine ⟨fun b hb => i1 b (by simpa using hb), i2, i3, i4, ?_, i6⟩
        dsimp only
        rw [if_neg (Ne.symm hne)]; exact i5
      | none =>
        refine ⟨fun b hb => ?_, i2, by dsimp only; omega, i4, ?_, i6⟩
        · simp only [Option.some.injEq] at hb; omega
        · dsimp only
          rw [if_neg (by omega)]; exact i5
    | setResponse v => exact ⟨i1, i2, i3, i4, i5, i6⟩
    | changeMessage m =>
      simp only [later]
      cases hq : q.msg with
      | none => exact ⟨i1, by simp [hq], i3, i4, i5, i6⟩
      | some a =>
        refine ⟨i1, fun b hb => i2 b (by simpa using hb), i3, i4, i5, ?_⟩
        dsimp only
        rw [if_neg (Ne.symm (i2 a hq))]; exact i6
    | recycle conn m =>
      refine ⟨fun b hb => by simp [later, Req.reset] at hb, fun b hb => ?_, i3, by simp only [later]; omega, i5, ?_⟩
      · simp only [later, Req.reset, Option.some.injEq] at hb; omega
      · simp only [later]
        rw [if_neg (by omega)]; exact i6
  have all : ∀ (ops : List Later) p, Inv p → Inv (ops.foldl later p) := by
    intro ops
    induction ops with
    | nil => intro p hp; exact hp
    | cons o ops ih => intro p hp; exact ih _ (step p o hp)
  have h0 : Inv (h', r) := by
    refine ⟨fun a ha => ?_, fun a ha => ?_, by dsimp only; omega, by dsimp only; omega, rfl, rfl⟩
    · have := hwf.1 a ha; omega
    · have := hwf.2 a ha; omega
  obtain ⟨_, _, _, _, j5, j6⟩ := all ops _ h0
  have hget : ∀ k, c.get (ops.foldl later (h', r)).1 k = c.get h' k := by
    intro k; simp only [Req.get, hck, j5]
  simp only [observe, hcm, Option.map_some, j6, hget]

/-- **C25 (partial, same values).** The copy has the message ID, the announced length, the raw bytes and all user keys of the original at copy
time, and no connection or router. Missing: payload and response, see the refutations. -/
theorem C25_same_partial (h : Heap) (r : Req) (hwf : WellFormed h r) (a : Nat) (hm : r.msg = some a) :
    ∃ h' c a', r.copy h = some (h', c) ∧ c.msg = some a' ∧ (h'.msgs a').id = (h.msgs a).id ∧
      (h'.msgs a').dataLen = (h.msgs a).dataLen ∧ (h'.msgs a').rawData = (h.msgs a).rawData ∧
      (∀ k, c.get h' k = r.get h k) ∧ c.conn = none ∧ c.router = none ∧
      (∀ k, r.get h' k = r.get h k) ∧ h'.msgs a = h.msgs a := by
  refine ⟨_, _, h.nextMsg, by simp only [Req.copy, hm]; rfl, rfl, by simp, by simp, by simp, ?_, rfl, rfl, ?_, ?_⟩
  · intro k
    simp only [Req.get, if_true]
    cases r.keys <;> rfl
  · intro k
    simp only [Req.get]
    cases hk : r.keys with
    | none => rfl
    | some b =>
      have := hwf.1 b hk
      simp only
      rw [if_neg (by omega)]
  · have := hwf.2 a hm
    simp only
    rw [if_neg (by omega)]

/-- **C25 refuted (response).** The copy of any request with a response has none. -/
theorem C25_refuted_response (h : Heap) (r : Req) (h' : Heap) (c : Req) (hc : r.copy h = some (h', c)) : c.icResp = none := by
  simp only [Req.copy] at hc
  split at hc
  · simp at hc
  · simp only [Option.some.injEq, Prod.mk.injEq] at hc
    obtain ⟨_, rfl⟩ := hc
    rfl

/-- A request of the shipped TLV protocol: the frame of message 7 with payload `[170, 187]` after the decoder has run. -/
def tlvExample : Option (Pack.Message × Option Decoder.Resp) :=
  (Decoder.intercept .tlv (Pack.newMessage 10 [0, 0, 0, 7, 0, 0, 0, 2, 170, 187])).toOption

/-- **C25 refuted (payload).** For a decoded TLV message the payload `GetData()` is the two bytes sent, but the copy's payload is the
whole frame including the header. -/
theorem C25_refuted_payload : ∃ m resp, tlvExample = some (m, resp) ∧ m.data = [170, 187] ∧
    ∀ (h h' : Heap) (r c : Req) (a : Nat), r.msg = some a → h.msgs a = m → r.copy h = some (h', c) →
      (observe h' c).1 = some (7, [0, 0, 0, 7, 0, 0, 0, 2, 170, 187]) ∧ (observe h r).1 = some (7, [170, 187]) := by
  refine ⟨⟨2, 7, [170, 187], [0, 0, 0, 7, 0, 0, 0, 2, 170, 187]⟩, some (.tlv 7 2 [170, 187]), by decide, rfl, ?_⟩
  intro h h' r c a hm ha hc
  simp only [Req.copy, hm, Option.some.injEq, Prod.mk.injEq] at hc
  obtain ⟨rfl, rfl⟩ := hc
  simp [observe, ha, hm]

/-- A concrete well-formed request with a key and a message. -/
example : WellFormed { maps := fun _ _ => none, msgs := fun _ => Pack.newMsgPackage 7 [1, 2], nextMap := 1, nextMsg := 1 }
    { newRequest (some 3) (some 0) with keys := some 0 } := by
  constructor <;> intro a h <;> simp [newRequest] at h <;> subst h <;> decide

/-- **C24 (partial, behaviour).** Whatever request was put back into the pool, the next one, once its router or its handlers are
bound, runs them as a new request does: `Call` passes the stages of C20 from the first one, `RouterSlicesNext` the handlers of
C21 from the first one. -/
theorem C24_runs_partial (pooled : Option Req) (conn msg : Option Nat) (x : Nat) (hs : List Nat) (routers : Nat → Router W)
    (table : Nat → Handler W) (n : Nat) (w : W) :
    (((getRequest true pooled conn msg).bindRouter (some x)).call routers n w) = call (some (routers x)) n w ∧
    (((getRequest true pooled conn msg).bindRouterSlices hs).slicesNext table n w) = runHandlers (hs.map table) n w :=
  ⟨rfl, rfl⟩

example : (((getRequest true (some { newRequest none none with steps := 2, needNext := false, index := 5 }) none none).bindRouter
    (some 0)).call (fun _ _ w => ⟨[], false, w⟩) 4 ()).ran = [0, 1, 2] := by
  rw [(C24_runs_partial _ _ _ 0 [] _ (fun _ => .ret) 4 ()).1]; rfl

/-! ## C79: running a copied request -/

/-- The full claim C79: `Call` and `RouterSlicesNext` on a copy run nothing, change nothing and return normally. -/
def CopyRunsNothing : Prop :=
  ∀ (h h' : Heap) (r c : Req), r.copy h = some (h', c) →
    ∀ (W : Type) (routers : Nat → Router W) (table : Nat → Handler W) (w : W),
      (∀ n, (c.call routers n w).ran = [] ∧ (c.call routers n w).world = w ∧ (c.call routers n w).status = .returned) ∧
      ∃ fuel m, c.slicesNext table fuel w = some m ∧ m.panicked = false ∧ m.world = w ∧ m.trace = []

theorem copy_fields {h h' : Heap} {r c : Req} (hc : r.copy h = some (h', c)) :
    c.router = none ∧ c.handlers = [] ∧ c.index = 127 ∧ c.needNext = false ∧ c.steps = r.steps ∧ c.conn = none := by
  simp only [Req.copy] at hc
  split at hc
  · simp at hc
  · simp only [Option.some.injEq, Prod.mk.injEq] at hc
    obtain ⟨_, rfl⟩ := hc
    exact ⟨rfl, rfl, rfl, rfl, rfl, rfl⟩

/-- **C79, partial.** `Call` on a copy returns at once and runs nothing; so does `RouterSlicesNext` when `Abort` was called on the copy
before. No router function ever runs through a copy. Missing: `RouterSlicesNext` on the fresh copy (it panics, see below). -/
theorem C79_partial (h h' : Heap) (r c : Req) (hc : r.copy h = some (h', c)) (routers : Nat → Router W) (table : Nat → Handler W)
    (w : W) :
    (∀ n, (c.call routers n w).ran = [] ∧ (c.call routers n w).world = w ∧ (c.call routers n w).status = .returned) ∧
    (∀ n, c.abortSlices.slicesNext table (n + 1) w = some ⟨false, 1, w, []⟩) ∧
    (∀ n m, c.slicesNext table n w = some m → m.world = w ∧ m.trace = []) := by
  obtain ⟨h1, h2, h3, -⟩ := copy_fields hc
  refine ⟨fun n => ?_, fun n => ?_, fun n m hm => ?_⟩
  · simp [Req.call, h1]
  · simp [Req.slicesNext, Req.abortSlices, h2, routerSlicesNext, slicesLoop, int8]
  · cases n with
    | zero => simp [Req.slicesNext, routerSlicesNext, slicesLoop] at hm
    | succ n =>
      simp [Req.slicesNext, h2, h3, routerSlicesNext, slicesLoop, int8, Int.bmod] at hm
      subst hm
      exact ⟨rfl, rfl⟩

/-- **C79 is false of the code.** `Copy` gives the copy the index 127, meant to be behind every handler, but `RouterSlicesNext` first
increments it: the `int8` wraps to -128, and reading the handler list at -128 panics. This happens for every copy. -/
theorem C79_refuted (h h' : Heap) (r c : Req) (hc : r.copy h = some (h', c)) (table : Nat → Handler W) (w : W) :
    (∀ n, c.slicesNext table (n + 1) w = some ⟨true, -128, w, []⟩) ∧ ¬ CopyRunsNothing := by
  have key : ∀ (V : Type) (tb : Nat → Handler V) (v : V) n, c.slicesNext tb (n + 1) v = some ⟨true, -128, v, []⟩ := by
    intro V tb v n
    obtain ⟨-, h2, h3, -⟩ := copy_fields hc
    simp [Req.slicesNext, h2, h3, routerSlicesNext, slicesLoop, int8, Int.bmod]
  refine ⟨key W table w, fun hall => ?_⟩
  obtain ⟨-, fuel, m, h1, h2, -⟩ := hall h h' r c hc W (fun _ _ w => ⟨[], false, w⟩) table w
  cases fuel with
  | zero => simp [Req.slicesNext, routerSlicesNext, slicesLoop] at h1
  | succ n =>
    rw [key W table w n] at h1
    simp only [Option.some.injEq] at h1
    subst h1
    cases h2

/-- **C79 (binding a router to a copy).** A user who binds a router to a copy taken during stage `s` and calls `Call` gets that stage
twice: the copy's `needNext` is false, so the first `next` does not advance. Shown for a copy taken in `Handle`. -/
theorem C79_bound_refuted (h h' : Heap) (r c : Req) (hc : r.copy h = some (h', c)) (hs : r.steps = 1) (w : W) :
    ((c.bindRouter (some 0)).call (fun _ _ w => ⟨[], false, w⟩) 4 w).ran = [1, 1, 2] ∧
    ((c.bindRouter (some 0)).call (fun _ _ w => ⟨[], false, w⟩) 4 w).status = .returned := by
  obtain ⟨-, -, -, h4, h5, -⟩ := copy_fields hc
  rw [hs] at h5
  simp [Req.call, Req.bindRouter, h4, h5, callIters, callIter, next]

/-- A copy exists for every request with a message. -/
example : ∃ h' c, ({ newRequest (some 3) (some 0) with steps := 1 } : Req).copy
    { maps := fun _ _ => none, msgs := fun _ => Pack.newMsgPackage 7 [1, 2], nextMap := 1, nextMsg := 1 } = some (h', c) ∧
    c.index = 127 := ⟨_, _, rfl, rfl⟩

/-! ## C73 -/

/-- Use of the key-value stores of any number of requests: `Set` on request `i`, or request object `i` is taken from the pool for another message. -/
inductive StoreOp where
  | set (i : Nat) (k : String) (v : Val)
  | recycle (i : Nat) (conn msg : Option Nat)

def storeStep : Heap × (Nat → Req) → StoreOp → Heap × (Nat → Req)
  | (h, rs), .set i k v => (((rs i).set h k v).1, fun j => if j = i then ((rs i).set h k v).2 else rs j)
  | (h, rs), .recycle i conn msg => (h, fun j => if j = i then (rs i).reset conn msg else rs j)

/-- The value last set for the key on request `i` since it was last taken from the pool. -/
def lastSet (i : Nat) (k : String) : Option Val → StoreOp → Option Val
  | old, .set j k' v => if j = i ∧ k' = k then some v else old
  | old, .recycle j _ _ => if j = i then none else old

structure StoreInv (h : Heap) (rs : Nat → Req) (m : Nat → String → Option Val) : Prop where
  alloc : ∀ i a, (rs i).keys = some a → a < h.nextMap
  apart : ∀ i j a, (rs i).keys = some a → (rs j).keys = some a → i = j
  val : ∀ i k, (rs i).get h k = m i k

theorem storeInv_step (h : Heap) (rs : Nat → Req) (m : Nat → String → Option Val) (hi : StoreInv h rs m) (o : StoreOp) :
    StoreInv (storeStep (h, rs) o).1 (storeStep (h, rs) o).2 (fun i k => lastSet i k (m i k) o) := by
  obtain ⟨h1, h2, h3⟩ := hi
  cases o with
  | set i k v =>
    cases hk : (rs i).keys with
    | some a =>
      have hset : (rs i).set h k v = ({ h with maps := fun b => if b = a then (fun k' => if k' = k then some v else h.maps a k') else h.maps b }, rs i) := by
        simp only [Req.set, hk]
      have hrs : (fun j => if j = i then rs i else rs j) = rs := by
        funext j; split
        · rename_i e; rw [e]
        · rfl
      simp only [storeStep, hset, hrs]
      refine ⟨h1, h2, fun j k' => ?_⟩
      have h4 := h3 j k'
      unfold Req.get at h4 ⊢
      by_cases e : j = i
      · subst e
        rw [hk] at h4 ⊢
        simp only [lastSet, if_true, true_and]
        by_cases e2 : k' = k
        · subst e2; simp
        · rw [if_neg e2, if_neg (fun h => e2 h.symm)]; exact h4
      · rw [lastSet, if_neg (fun h => e h.1.symm)]
        cases hj : (rs j).keys with
        | none => rw [hj] at h4; exact h4
        | some b =>
          rw [hj] at h4
          have : b ≠ a := fun hb => e (h2 j i b hj (hb ▸ hk))
          simp only [this, if_false]; exact h4
    | none =>
      have hset : (rs i).set h k v = ({ h with nextMap := h.nextMap + 1, maps := fun b => if b = h.nextMap then (fun k' => if k' = k then some v else none) else h.maps b },
          { rs i with keys := some h.nextMap }) := by
        simp only [Req.set, hk]
      simp only [storeStep, hset]
      refine ⟨fun j a hj => ?_, fun j j' a hj hj' => ?_, fun j k' => ?_⟩
      · show a < h.nextMap + 1
        split at hj
        · injection hj with hj; omega
        · have := h1 j a hj; omega
      · split at hj <;> split at hj'
        · rename_i e e'; rw [e, e']
        · injection hj with hj; have := h1 j' a hj'; omega
        · injection hj' with hj'; have := h1 j a hj; omega
        · exact h2 j j' a hj hj'
      · have h4 := h3 j k'
        by_cases e : j = i
        · subst e
          simp only [Req.get, hk] at h4
          simp only [Req.get, lastSet, if_true, true_and]
          by_cases e2 : k' = k
          · subst e2; simp
          · rw [if_neg e2, if_neg (fun h => e2 h.symm)]; exact h4
        · rw [if_neg e, lastSet, if_neg (fun h => e h.1.symm)]
          unfold Req.get at h4 ⊢
          cases hj : (rs j).keys with
          | none => rw [hj] at h4; exact h4
          | some b =>
            rw [hj] at h4
            have : b ≠ h.nextMap := by have := h1 j b hj; omega
            simp only [this, if_false]; exact h4
  | recycle i conn msg =>
    simp only [storeStep]
    refine ⟨fun j a hj => ?_, fun j j' a hj hj' => ?_, fun j k' => ?_⟩
    · split at hj
      · cases hj
      · exact h1 j a hj
    · split at hj
      · cases hj
      · split at hj'
        · cases hj'
        · exact h2 j j' a hj hj'
    · by_cases e : j = i
      · subst e; simp [lastSet, Req.get, Req.reset]
      · rw [if_neg e, lastSet, if_neg (fun h => e h.symm)]; exact h3 j k'

/-- **C73.** Whatever is set on whichever requests, `Get` on a request returns the value last set there for that key, or nothing; taking a request from the pool empties its store. -/
theorem C73_store (h : Heap) (rs : Nat → Req) (h0 : ∀ i, (rs i).keys = none) (ops : List StoreOp) (i : Nat) (k : String) :
    ((ops.foldl storeStep (h, rs)).2 i).get (ops.foldl storeStep (h, rs)).1 k = ops.foldl (lastSet i k) none := by
  have key : ∀ (ops : List StoreOp) (p : Heap × (Nat → Req)) (m : Nat → String → Option Val), StoreInv p.1 p.2 m →
      ((ops.foldl storeStep p).2 i).get (ops.foldl storeStep p).1 k = ops.foldl (lastSet i k) (m i k) := by
    intro ops
    induction ops with
    | nil => exact fun p m hi => hi.val i k
    | cons o ops ih => exact fun p m hi => ih _ _ (storeInv_step p.1 p.2 m hi o)
  refine key ops (h, rs) (fun _ _ => none) ⟨fun i a hi => ?_, fun i j a hi => ?_, fun i k => ?_⟩
  · rw [h0] at hi; cases hi
  · rw [h0] at hi; cases hi
  · unfold Req.get; rw [h0]

/-- Two requests with the same key. -/
example : (∀ i : Nat, ((fun _ => newRequest none none) i : Req).keys = none) ∧
    [StoreOp.set 0 "a" 1, .set 1 "a" 2, .set 0 "b" 3, .recycle 1 none none].foldl (lastSet 0 "a") none = some 1 ∧
    [StoreOp.set 0 "a" 1, .set 1 "a" 2, .set 0 "b" 3, .recycle 1 none none].foldl (lastSet 1 "a") none = none :=
  ⟨fun _ => rfl, by decide, by decide⟩

end Zinx.Props
