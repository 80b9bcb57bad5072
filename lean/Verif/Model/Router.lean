import Verif.Model.Basic

/-!
# Model of `znet/router.go` (slice routers and groups) and of `MsgHandle.AddRouter`

Go slices are modelled with their backing arrays, so that sharing between routes would be visible.
-/

namespace Zinx.Router

open Zinx

/-- Backing arrays; the address is the index. Elements are handlers (`none`: nil function, the zero value). Address 0 is the
empty array of nil slices. As for `Handlers` in znet/router.go:42-46, :83-88. -/
abbrev Heap (H : Type) := List (List (Option H))

/-- A Go slice starting at the beginning of its backing array; the capacity is the length of the array. As for `Handlers` in znet/router.go:42-46, :83-88. -/
structure Slice where
  ptr : Nat
  len : Nat
deriving DecidableEq, Repr

/-- Elements of a slice. Auxiliary. -/
def read {H : Type} (h : Heap H) (s : Slice) : List (Option H) := ((h[s.ptr]?).getD []).take s.len

/-- The nil slice. No code of zinx by itself. -/
def nilSlice : Slice := { ptr := 0, len := 0 }

/-- `make([]T, len, cap)`. As in znet/router.go:51, :66, :94, :111. -/
def make {H : Type} (h : Heap H) (len cap : Nat) : Heap H × Slice :=
  (h ++ [List.replicate cap none], { ptr := h.length, len := len })

/-- Overwrites part of an array from index `off` on (as much as fits). Auxiliary. -/
def overwrite {α : Type} (a : List α) (off : Nat) (xs : List α) : List α :=
  a.take off ++ (xs.take (a.length - off) ++ a.drop (off + xs.length))

/-- `copy(s[off:], xs)`: copies as many elements as fit into the length of the destination. As in znet/router.go:67-68, :112-113. -/
def copyInto {H : Type} (h : Heap H) (s : Slice) (off : Nat) (xs : List (Option H)) : Heap H :=
  h.set s.ptr (overwrite ((h[s.ptr]?).getD []) off (xs.take (s.len - off)))

/-- `append(s, xs...)`: in place when the capacity suffices, otherwise into a new array whose spare capacity is whatever the runtime
chooses (`spare`). Appending nothing returns the slice itself. As in znet/router.go:56, :69, :97, :102. -/
def append {H : Type} (spare : Nat → Nat) (h : Heap H) (s : Slice) (xs : List (Option H)) : Heap H × Slice :=
  if s.len + xs.length ≤ ((h[s.ptr]?).getD []).length then
    (h.set s.ptr (overwrite ((h[s.ptr]?).getD []) s.len xs), { s with len := s.len + xs.length })
  else
    (h ++ [read h s ++ xs ++ List.replicate (spare (s.len + xs.length)) none],
     { ptr := h.length, len := s.len + xs.length })

/-- `GroupRouter` (znet/router.go:83-88). -/
structure Group where
  start : UInt32
  stop : UInt32
  handlers : Slice

/-- `RouterSlices` (znet/router.go:42-46) together with the heap and all groups made from it; `apis` is the map from message IDs. -/
structure State (H : Type) where
  heap : Heap H
  apis : UInt32 → Option Slice
  handlers : Slice
  groups : List Group

/-- `NewRouterSlices` (znet/router.go:48-53). -/
def State.new (H : Type) : State H :=
  let (h, s) := make ([[]] : Heap H) 0 6
  { heap := h, apis := fun _ => none, handlers := s, groups := [] }

/-- `Use` (znet/router.go:55-57). -/
def State.use {H : Type} (spare : Nat → Nat) (st : State H) (hs : List (Option H)) : State H :=
  let (h, s) := append spare st.heap st.handlers hs
  { st with heap := h, handlers := s }

/-- The merging code (znet/router.go:65-68 and :110-113): a new slice holding `a` then `b`. -/
def merge {H : Type} (h : Heap H) (a : Slice) (b : List (Option H)) : Heap H × Slice :=
  let finalSize := a.len + b.length
  let (h1, m) := make h finalSize finalSize
  let h2 := copyInto h1 m 0 (read h1 a)
  (copyInto h2 m a.len b, m)

/-- `RouterSlices.AddHandler` (znet/router.go:59-70). -/
def State.addHandler {H : Type} (spare : Nat → Nat) (st : State H) (msgId : UInt32) (hs : List (Option H)) :
    Except Panic (State H) :=
  match st.apis msgId with
  | some _ => .error .explicit
  | none =>
    let (h1, m) := merge st.heap st.handlers hs
    let (h2, s) := append spare h1 nilSlice (read h1 m)
    .ok { st with heap := h2, apis := fun i => if i = msgId then some s else st.apis i }

/-- `GetHandlers` (znet/router.go:72-77): the handlers in the slice stored for the message. -/
def State.getHandlers {H : Type} (st : State H) (msgId : UInt32) : Option (List (Option H)) :=
  (st.apis msgId).map (read st.heap)

/-- `Group` / `NewGroup` (znet/router.go:79-99). -/
def State.group {H : Type} (spare : Nat → Nat) (st : State H) (start stop : UInt32) (hs : List (Option H)) : State H :=
  let (h1, s) := make st.heap 0 hs.length
  let (h2, s') := append spare h1 s hs
  { st with heap := h2, groups := st.groups ++ [{ start := start, stop := stop, handlers := s' }] }

/-- `GroupRouter.Use` (znet/router.go:101-103) on group number `g`. -/
def State.groupUse {H : Type} (spare : Nat → Nat) (st : State H) (g : Nat) (hs : List (Option H)) : Except Panic (State H) :=
  match st.groups[g]? with
  | none => .error .nilDeref
  | some gr =>
    let (h, s) := append spare st.heap gr.handlers hs
    .ok { st with heap := h, groups := st.groups.set g { gr with handlers := s } }

/-- `GroupRouter.AddHandler` (znet/router.go:105-116). -/
def State.groupAdd {H : Type} (spare : Nat → Nat) (st : State H) (g : Nat) (msgId : UInt32) (hs : List (Option H)) :
    Except Panic (State H) :=
  match st.groups[g]? with
  | none => .error .nilDeref
  | some gr =>
    if msgId < gr.start ∨ msgId > gr.stop then .error .explicit
    else
      let (h1, m) := merge st.heap gr.handlers hs
      ({ st with heap := h1 } : State H).addHandler spare msgId (read h1 m)

/-- Registration calls. Group numbers count the `Group` calls from 0. znet/router.go:55-81, :101-116. -/
inductive Op (H : Type) where
  | use (hs : List (Option H))
  | addHandler (msgId : UInt32) (hs : List (Option H))
  | group (start stop : UInt32) (hs : List (Option H))
  | groupUse (g : Nat) (hs : List (Option H))
  | groupAdd (g : Nat) (msgId : UInt32) (hs : List (Option H))

/-- One registration call. znet/router.go:55-81, :101-116. -/
def State.step {H : Type} (spare : Nat → Nat) (st : State H) : Op H → Except Panic (State H)
  | .use hs => .ok (st.use spare hs)
  | .addHandler i hs => st.addHandler spare i hs
  | .group a b hs => .ok (st.group spare a b hs)
  | .groupUse g hs => st.groupUse spare g hs
  | .groupAdd g i hs => st.groupAdd spare g i hs

/-- A history of registration calls; after a panic (recovered by the caller) the next call finds the state as it was, up to
unreachable arrays. znet/router.go:55-116. -/
def State.run {H : Type} (spare : Nat → Nat) (st : State H) : List (Op H) → State H
  | [] => st
  | o :: os =>
    match st.step spare o with
    | .ok st' => st'.run spare os
    | .error _ => st.run spare os

/-! ## Router mode -/

/-- `MsgHandle.AddRouter` (znet/msghandler.go:354-365) on the map `Apis`. -/
def addRouter {R : Type} (apis : UInt32 → Option R) (msgId : UInt32) (r : R) : Except Panic (UInt32 → Option R) :=
  match apis msgId with
  | some _ => .error .explicit
  | none => .ok fun i => if i = msgId then some r else apis i

/-- A history of `AddRouter` calls (panics recovered by the caller). znet/msghandler.go:354-365. -/
def addRouters {R : Type} (apis : UInt32 → Option R) : List (UInt32 × R) → (UInt32 → Option R)
  | [] => apis
  | (i, r) :: l =>
    match addRouter apis i r with
    | .ok apis' => addRouters apis' l
    | .error _ => addRouters apis l

/-- `Server.AddRouter` (znet/server.go:473-478) and `Server.AddRouterSlices`, `Group`, `Use` (znet/server.go:480-499): is the call allowed in
the mode of the server? Otherwise it panics. -/
def modeAllows (routerSlicesMode callIsSlices : Bool) : Except Panic Unit :=
  if routerSlicesMode = callIsSlices then .ok () else .error .explicit

end Zinx.Router
