import Verif.Model.Pack

/-!
# Model of `znet/request.go`: stage machine of a router, handler slices, request pool and `Copy`
-/

namespace Zinx.Request

open Zinx Zinx.Pack

/-! ## Router mode: the stages of a router -/

/-- Calls of a handler that steer the stages in router mode: `Goto(s)` (`HandleStep` is an `int`, ziface/irequest.go:6) and
`Abort()`. -/
inductive Ctl where
  | goto (s : Int)
  | abort
deriving DecidableEq, Repr

/-- What one stage method (`PreHandle`, `Handle`, `PostHandle`) of a router does: the steering calls it makes in order, whether it
ends by a panic, and the state of the process it leaves. Calling `req.Call()` recursively from a stage is not modelled. ziface/irouter.go, called in znet/request.go:192-212. -/
structure StageRun (W : Type) where
  ops : List Ctl
  panics : Bool
  world : W

/-- A router (ziface/irouter.go): stage 0 is `PreHandle`, 1 `Handle`, 2 `PostHandle`; arbitrary behaviour. -/
abbrev Router (W : Type) := Nat → W → StageRun W

/-- How `Call` stands. znet/request.go:192-212. -/
inductive Status where
  | running
  | returned
  | panicked
deriving DecidableEq, Repr

/-- Fields `steps` and `needNext` of a request (znet/request.go:34-36), process state, stages run so far. -/
structure CallState (W : Type) where
  steps : Int
  needNext : Bool
  world : W
  ran : List Nat
  status : Status

/-- `Goto` (znet/request.go:185-190) and `Abort` in router mode (znet/request.go:214-222), `HANDLE_OVER = 3`
(znet/request.go:12-18). -/
def applyCtl : Int × Bool → Ctl → Int × Bool
  | (_, _), .goto s => (s, false)
  | (_, b), .abort => (3, b)

/-- `next` (znet/request.go:174-183). -/
def next : Int × Bool → Int × Bool
  | (s, b) => if b = false then (s, true) else (s + 1, b)

/-- One iteration of the loop of `Call` (znet/request.go:198-211), including leaving the loop. A `steps` value below zero matches no
case of the switch. -/
def callIter {W : Type} (r : Router W) (st : CallState W) : CallState W :=
  match st.status with
  | .returned => st
  | .panicked => st
  | .running =>
    if st.steps < 3 then
      if 0 ≤ st.steps then
        let out := r st.steps.toNat st.world
        let p := out.ops.foldl applyCtl (st.steps, st.needNext)
        let ran := st.ran ++ [st.steps.toNat]
        if out.panics then
          { steps := p.1, needNext := p.2, world := out.world, ran := ran, status := .panicked }
        else
          let p' := next p
          { steps := p'.1, needNext := p'.2, world := out.world, ran := ran, status := .running }
      else
        let p' := next (st.steps, st.needNext)
        { st with steps := p'.1, needNext := p'.2 }
    else { st with steps := 0, status := .returned }

/-- `n` iterations. znet/request.go:198-209. -/
def callIters {W : Type} (r : Router W) : Nat → CallState W → CallState W
  | 0, st => st
  | n + 1, st => callIters r n (callIter r st)

/-- The state in which `doMsgHandler` (znet/msghandler.go:320-344) calls `Call` on a new or reset request
(znet/request.go:51-60, :82-98). -/
def callStart {W : Type} (w : W) : CallState W :=
  { steps := 0, needNext := true, world := w, ran := [], status := .running }

/-- `Call` (znet/request.go:192-212), observed after at most `n` loop iterations: a nil router returns at once. -/
def call {W : Type} (r : Option (Router W)) (n : Nat) (w : W) : CallState W :=
  match r with
  | none => { callStart w with status := .returned }
  | some r => callIters r n (callStart w)

/-! ## Slice mode: handler lists -/

/-- The body of a `RouterHandler` as an interaction tree: it may change the process state, call `request.RouterSlicesNext()` (the
continuation learns whether that call panicked, which only a deferred `recover` can survive), call `request.Abort()`,
return or panic. `BindRouterSlices` from inside a handler is not modelled. ziface/irouter.go (`RouterHandler`), called in znet/request.go:229-235. -/
inductive Handler (W : Type) where
  | ret
  | panic
  | act (f : W → W) (k : W → Handler W)
  | next (k : Bool → Handler W)
  | abort (k : Handler W)

/-- Events: handler number `i` starts; the running handler calls `Next`; it gets control back from `Next` (`panicked`: by recovering);
it calls `Abort`; its own code panics. znet/request.go:214-235. -/
inductive HEvent where
  | start (i : Nat)
  | next
  | resume (panicked : Bool)
  | abort
  | panic
deriving DecidableEq, Repr

/-- Go `int8` conversion. As in znet/request.go:216, :231. -/
def int8 (x : Int) : Int := Int.bmod x 256

/-- Result of running handlers: did it panic, field `index` of the request, process state, events. znet/request.go:229-235. -/
structure SlicesRun (W : Type) where
  panicked : Bool
  index : Int
  world : W
  trace : List HEvent

/-- Runs the body of a handler; `nxt` is what `RouterSlicesNext` does, `len` is `len(r.handlers)`; `Abort` in slice mode sets
`index` to `int8(len)` (znet/request.go:214-216). `none`: the fuel of `nxt` did not suffice. -/
def execHandler {W : Type} (len : Nat) (nxt : Int → W → Option (SlicesRun W)) : Handler W → Int → W → Option (SlicesRun W)
  | .ret, i, w => some ⟨false, i, w, []⟩
  | .panic, i, w => some ⟨true, i, w, [.panic]⟩
  | .act f k, i, w => execHandler len nxt (k (f w)) i (f w)
  | .abort k, _, w =>
    match execHandler len nxt k (int8 len) w with
    | none => none
    | some r => some { r with trace := .abort :: r.trace }
  | .next k, i, w =>
    match nxt i w with
    | none => none
    | some a =>
      match execHandler len nxt (k a.panicked) a.index a.world with
      | none => none
      | some r => some { r with trace := .next :: (a.trace ++ .resume a.panicked :: r.trace) }

/-- The loop of `RouterSlicesNext` (znet/request.go:231-234) entered with `index = i`; the index is an `int8` and wraps, indexing
with a negative number panics. Fuel bounds the number of iterations and nested calls; it is a device of the model. -/
def slicesLoop {W : Type} (hs : List (Handler W)) : Nat → Int → W → Option (SlicesRun W)
  | 0, _, _ => none
  | fuel + 1, i, w =>
    if i < int8 hs.length then
      if i < 0 then some ⟨true, i, w, []⟩
      else
        match hs[i.toNat]? with
        | none => some ⟨true, i, w, []⟩
        | some h =>
          match execHandler hs.length (fun j w' => slicesLoop hs fuel (int8 (j + 1)) w') h i w with
          | none => none
          | some a =>
            if a.panicked then some { a with trace := .start i.toNat :: a.trace }
            else
              match slicesLoop hs fuel (int8 (a.index + 1)) a.world with
              | none => none
              | some b => some { b with trace := .start i.toNat :: (a.trace ++ b.trace) }
    else some ⟨false, i, w, []⟩

/-- `RouterSlicesNext` (znet/request.go:229-235) on a request with the given `index`. -/
def routerSlicesNext {W : Type} (hs : List (Handler W)) (fuel : Nat) (index : Int) (w : W) : Option (SlicesRun W) :=
  slicesLoop hs fuel (int8 (index + 1)) w

/-- The part of `doMsgHandlerSlices` that runs the handlers of a message (znet/msghandler.go:397-398): the request is new or reset, so
`index = -1`. -/
def runHandlers {W : Type} (hs : List (Handler W)) (fuel : Nat) (w : W) : Option (SlicesRun W) :=
  routerSlicesNext hs fuel (-1) w

/-- `RouterRecovery` (znet/defaultrouterfunc.go:32-47): calls `Next` and recovers its panic (logging omitted). -/
def routerRecovery {W : Type} : Handler W := .next fun _ => .ret

/-! ## The request object: pool and `Copy` -/

/-- Values stored by users under keys and as responses (opaque). As in znet/request.go:136-152. -/
abbrev Val := Nat

/-- The heap objects a request points to: key maps (`map[string]interface{}`) and messages (`*Message`), allocated at increasing
addresses. znet/request.go:29-41, zpack/message.go:4-9. -/
structure Heap where
  maps : Nat → String → Option Val
  msgs : Nat → Message
  nextMap : Nat
  nextMsg : Nat

/-- `Request` (znet/request.go:29-41). Connection, router and handlers are opaque numbers; `keys` is nil or the address of a map; the
lock is omitted (one goroutine uses the request at a time). -/
structure Req where
  conn : Option Nat
  msg : Option Nat
  router : Option Nat
  steps : Int
  needNext : Bool
  icResp : Option Val
  handlers : List Nat
  index : Int
  keys : Option Nat
deriving DecidableEq, Repr

/-- `NewRequest` (znet/request.go:51-60). -/
def newRequest (conn msg : Option Nat) : Req :=
  { conn := conn, msg := msg, router := none, steps := 0, needNext := true, icResp := none, handlers := [], index := -1,
    keys := none }

/-- `allocateRequest` (znet/request.go:82-88). -/
def allocateRequest : Req := newRequest none none

/-- `Reset` (znet/request.go:90-98). -/
def Req.reset (r : Req) (conn msg : Option Nat) : Req :=
  { r with steps := 0, conn := conn, msg := msg, needNext := true, index := -1, keys := none }

/-- `GetRequest` (znet/request.go:62-73): with pooling on, `sync.Pool` returns some object put back earlier (`some r`) or a new one
(`none`), which is then reset. -/
def getRequest (poolMode : Bool) (pooled : Option Req) (conn msg : Option Nat) : Req :=
  if poolMode then (pooled.getD allocateRequest).reset conn msg else newRequest conn msg

/-- `Set` (znet/request.go:136-144). -/
def Req.set (h : Heap) (r : Req) (k : String) (v : Val) : Heap × Req :=
  match r.keys with
  | some a => ({ h with maps := fun b => if b = a then (fun k' => if k' = k then some v else h.maps a k') else h.maps b }, r)
  | none =>
    ({ h with maps := fun b => if b = h.nextMap then (fun k' => if k' = k then some v else none) else h.maps b,
              nextMap := h.nextMap + 1 },
     { r with keys := some h.nextMap })

/-- `Get` (znet/request.go:147-152); reading a nil map gives nothing. -/
def Req.get (h : Heap) (r : Req) (k : String) : Option Val :=
  match r.keys with
  | some a => h.maps a k
  | none => none

/-- `SetResponse` (znet/request.go:47-49). -/
def Req.setResponse (r : Req) (v : Option Val) : Req := { r with icResp := v }

/-- `BindRouter` (znet/request.go:170-172) and `BindRouterSlices` (znet/request.go:225-227). -/
def Req.bindRouter (r : Req) (x : Option Nat) : Req := { r with router := x }

/-- znet/request.go:225-227. -/
def Req.bindRouterSlices (r : Req) (hs : List Nat) : Req := { r with handlers := hs }

/-- The copying of `icResp` inside `Copy` (znet/request.go:123-128): `copy` into a slice of length zero copies nothing, so the loop does
not run and the new field keeps its nil. -/
def copyIcResp (icResp : Option Val) : Option Val :=
  let copyResp := [icResp]
  let newIcResp : List (Option Val) := []
  let copied := copyResp.take newIcResp.length ++ newIcResp.drop copyResp.length
  copied.foldl (fun _ v => v) none

/-- `Copy` (znet/request.go:103-133). `none`: nil dereference when the request has no message. -/
def Req.copy (h : Heap) (r : Req) : Option (Heap × Req) :=
  match r.msg with
  | none => none
  | some m =>
    let old := h.msgs m
    let keys : String → Option Val := match r.keys with
      | some a => h.maps a
      | none => fun _ => none
    let msg : Message := { id := old.id, dataLen := old.dataLen, data := old.rawData, rawData := old.rawData }
    some
      ({ maps := fun b => if b = h.nextMap then keys else h.maps b,
         msgs := fun b => if b = h.nextMsg then msg else h.msgs b,
         nextMap := h.nextMap + 1, nextMsg := h.nextMsg + 1 },
       { conn := none, msg := some h.nextMsg, router := none, steps := r.steps, needNext := false, icResp := copyIcResp r.icResp,
         handlers := [], index := 127, keys := some h.nextMap })

/-- `Call` on a request object in any state (znet/request.go:192-212), observed after at most `n` loop iterations; `routers` says which
router each number stands for. -/
def Req.call {W : Type} (routers : Nat → Router W) (r : Req) (n : Nat) (w : W) : CallState W :=
  match r.router with
  | none => { steps := r.steps, needNext := r.needNext, world := w, ran := [], status := .returned }
  | some x => callIters (routers x) n { steps := r.steps, needNext := r.needNext, world := w, ran := [], status := .running }

/-- `RouterSlicesNext` on a request object in any state (znet/request.go:229-235); `table` says which handler each number stands for. -/
def Req.slicesNext {W : Type} (table : Nat → Handler W) (r : Req) (fuel : Nat) (w : W) : Option (SlicesRun W) :=
  routerSlicesNext (r.handlers.map table) fuel r.index w

/-- `Abort` in slice mode (znet/request.go:214-216). -/
def Req.abortSlices (r : Req) : Req := { r with index := int8 r.handlers.length }

end Zinx.Request
