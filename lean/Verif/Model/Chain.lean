import Verif.Model.Basic

/-!
# Model of the interceptor chain (`zinterceptor/chain.go`, `znet/chainbuilder.go`) and of how server and client set it up
-/

namespace Zinx.Chain

open Zinx

/-- `ziface.IcReq` / `ziface.IcResp` (both `interface{}`, ziface/iinterceptor.go): nil, a pointer to an `IRequest`, or any other
value. `ShouldIRequest` (zinterceptor/chain.go:79-90) distinguishes exactly these three cases. -/
inductive IcReq where
  | nil
  | request (ptr : Nat)
  | other (v : Nat)
deriving DecidableEq, Repr

/-- What the body of an `Intercept(chain)` method can do, as an interaction tree: return a response, panic, read and
change the state of the process, or call `chain.Proceed(q)` and continue with its response (`none`: the callee panicked;
an interceptor without `recover` then panics itself). It may do so any number of times. ziface/iinterceptor.go (`IInterceptor`), as called in zinterceptor/chain.go:28-36. -/
inductive Code (W : Type) where
  | ret (r : IcReq)
  | panic
  | act (f : W → W) (k : W → Code W)
  | proceed (q : IcReq) (k : Option IcReq → Code W)

/-- An interceptor (ziface/iinterceptor.go): its `Intercept` method applied to a chain whose `Request()` is the argument. A nil
interceptor in the list is `fun _ => .panic`. -/
abbrev Interceptor (W : Type) := IcReq → Code W

/-- Observable events of one execution of the chain: `enter p q w`: `Intercept` of interceptor number `p` is called with request
`q` while the process state is `w`; `proceed p q w`: interceptor number `p` calls `Proceed(q)` in state `w`. zinterceptor/chain.go:28-36. -/
inductive Event (W : Type) where
  | enter (pos : Nat) (req : IcReq) (w : W)
  | proceed (pos : Nat) (req : IcReq) (w : W)

/-- Result of an execution: the response (`none`: it panicked), the final state and the events in order. zinterceptor/chain.go:28-36. -/
structure Run (W : Type) where
  resp : Option IcReq
  world : W
  trace : List (Event W)

/-- Runs the body of interceptor number `pos`; `next` is what `chain.Proceed` does. The call of `Intercept` in zinterceptor/chain.go:32. -/
def exec {W : Type} (pos : Nat) (next : IcReq → W → Run W) : Code W → W → Run W
  | .ret r, w => ⟨some r, w, []⟩
  | .panic, w => ⟨none, w, []⟩
  | .act f k, w => exec pos next (k (f w)) (f w)
  | .proceed q k, w =>
    let a := next q w
    let b := exec pos next (k a.resp) a.world
    ⟨b.resp, b.world, .proceed pos q w :: (a.trace ++ b.trace)⟩

/-- `Chain.Proceed` (zinterceptor/chain.go:28-36) of a chain at position `pos`: calls interceptor `pos` with a new chain at
`pos+1`, or returns the request when there is none left. -/
def proceed {W : Type} (is : List (Interceptor W)) (pos : Nat) (req : IcReq) (w : W) : Run W :=
  if h : pos < is.length then
    let r := exec pos (fun q w' => proceed is (pos + 1) q w') (is[pos] req) w
    { r with trace := .enter pos req w :: r.trace }
  else ⟨some req, w, []⟩
termination_by is.length - pos

/-- `Chain.ProceedWithIMessage` (zinterceptor/chain.go:56-76) called by an interceptor whose chain carries `self`: `hasMessage` says
that the message argument is not nil, `setResponse` is `iRequest.SetResponse`. -/
def proceedWithIMessage {W : Type} (setResponse : Nat → IcReq → W → W) (self : IcReq) (hasMessage : Bool) (response : IcReq)
    (k : Option IcReq → Code W) : Code W :=
  if hasMessage = false ∨ response = .nil then .proceed self k
  else
    match self with
    | .nil => .proceed .nil k
    | .other v => .proceed (.other v) k
    | .request p => .act (setResponse p response) fun _ => .proceed (.request p) k

/-- `MsgHandle.Intercept` (znet/msghandler.go:255-280): hands an `IRequest` to the worker pool or to a new goroutine
(`dispatch`), then proceeds with the same request. -/
def msgHandleIntercept {W : Type} (dispatch : Nat → W → W) : Interceptor W
  | .request p => .act (dispatch p) fun _ => .proceed (.request p) fun
      | some r => .ret r
      | none => .panic
  | q => .proceed q fun
      | some r => .ret r
      | none => .panic

/-- `chainBuilder` (znet/chainbuilder.go:16-26). -/
structure Builder (W : Type) where
  head : Option (Interceptor W) := none
  body : List (Interceptor W) := []
  tail : Option (Interceptor W) := none

/-- `Head` (znet/chainbuilder.go:29-31). -/
def Builder.setHead {W : Type} (b : Builder W) (i : Option (Interceptor W)) : Builder W := { b with head := i }

/-- `Tail` (znet/chainbuilder.go:34-36). -/
def Builder.setTail {W : Type} (b : Builder W) (i : Option (Interceptor W)) : Builder W := { b with tail := i }

/-- `AddInterceptor` (znet/chainbuilder.go:39-41). -/
def Builder.add {W : Type} (b : Builder W) (i : Interceptor W) : Builder W := { b with body := b.body ++ [i] }

/-- The slice assembled by `Execute` (znet/chainbuilder.go:46-56). -/
def Builder.interceptors {W : Type} (b : Builder W) : List (Interceptor W) :=
  let l : List (Interceptor W) := []
  let l := match b.head with
    | some h => l ++ [h]
    | none => l
  let l := if b.body.length > 0 then l ++ b.body else l
  match b.tail with
  | some t => l ++ [t]
  | none => l

/-- `Execute` (znet/chainbuilder.go:44-63). -/
def Builder.execute {W : Type} (b : Builder W) (req : IcReq) (w : W) : Run W :=
  proceed b.interceptors 0 req w

/-- Calls on a builder. znet/chainbuilder.go:29-41. -/
inductive BuilderOp (W : Type) where
  | head (i : Option (Interceptor W))
  | tail (i : Option (Interceptor W))
  | add (i : Interceptor W)

/-- One call on a builder. znet/chainbuilder.go:29-41. -/
def Builder.step {W : Type} (b : Builder W) : BuilderOp W → Builder W
  | .head i => b.setHead i
  | .tail i => b.setTail i
  | .add i => b.add i

/-- Calls of the user on a server or client that concern the chain: `AddInterceptor`, `SetDecoder` (nil allowed), `Start`. znet/server.go:423-449, :588-601, znet/client.go:199-207, :301-307. -/
inductive ApiOp (W : Type) where
  | addInterceptor (i : Interceptor W)
  | setDecoder (d : Option (Interceptor W))
  | start

/-- The part of `Server` / `Client` that concerns the chain: decoder field and the builder of its message handler. znet/server.go:31-92 (`decoder`, `msgHandler`), znet/client.go:18-53, znet/msghandler.go:23-50 (`builder`). -/
structure Endpoint (W : Type) where
  decoder : Option (Interceptor W)
  builder : Builder W

/-- A new server or client: default decoder (znet/server.go:129-147, znet/client.go:55-111), the message handler is the tail of its
own chain (znet/msghandler.go:102 and :156). -/
def Endpoint.new {W : Type} (decoder handler : Interceptor W) : Endpoint W :=
  { decoder := some decoder, builder := { tail := some handler } }

/-- `Server.AddInterceptor` (znet/server.go:599-601), `Server.SetDecoder` (znet/server.go:588-590) and the chain part of
`Server.Start` (znet/server.go:428-430). -/
def Endpoint.serverStep {W : Type} (e : Endpoint W) : ApiOp W → Endpoint W
  | .addInterceptor i => { e with builder := e.builder.add i }
  | .setDecoder d => { e with decoder := d }
  | .start =>
    match e.decoder with
    | some d => { e with builder := e.builder.setHead (some d) }
    | none => e

/-- `Client.AddInterceptor` (znet/client.go:301-303), `Client.SetDecoder` (znet/client.go:305-307) and the chain part of
`Client.Start` (znet/client.go:199-204). -/
def Endpoint.clientStep {W : Type} (e : Endpoint W) : ApiOp W → Endpoint W
  | .addInterceptor i => { e with builder := e.builder.add i }
  | .setDecoder d => { e with decoder := d }
  | .start =>
    match e.decoder with
    | some d => { e with builder := e.builder.add d }
    | none => e

end Zinx.Chain
