import Verif.Model.Pack

/-!
# Clients and servers of the examples that read with `io.ReadFull` and `Unpack`

Several examples do not use the connections of the library but read a header of eight bytes, unpack it, and read the data: examples/zinx_version_ex/datapackDemo/server/server.go:32-60 (a server),
examples/zinx_async_op/client/client.go:26-53, examples/zinx_new_router/client/client.go:33-63 and examples/zinx_kcp/client/kcp_client.go:30-67 (clients). What they write in between is left out. The
connection is a stream of bytes that become available in pieces; `Read` gives at most one piece.
-/

namespace Zinx.HandRead

open Zinx Zinx.Pack

/-- `io.ReadFull(conn, buf)` with `len(buf) = n` (standard library; examples/zinx_version_ex/datapackDemo/server/server.go:35, :51): `Read` is called until the buffer is full; what it does not take of a piece
stays. The bytes and what is left; `none`: the pieces do not suffice, and the call waits or returns an error. -/
def readFull : Nat → List Bytes → Option (Bytes × List Bytes)
  | 0, conn => some ([], conn)
  | _ + 1, [] => none
  | n + 1, c :: cs =>
    if c.length ≤ n + 1 then
      match readFull (n + 1 - c.length) cs with
      | some (d, r) => some (c ++ d, r)
      | none => none
    else some (c.take (n + 1), c.drop (n + 1) :: cs)

/-- What `readFull` gives and leaves is what there was. Auxiliary; used for the termination of `loop`. -/
theorem readFull_some : ∀ (n : Nat) (conn : List Bytes) (d : Bytes) (r : List Bytes), readFull n conn = some (d, r) → d.length = n ∧ d ++ r.flatten = conn.flatten
  | n, [], d, r, h => by
    cases n with
    | zero => simp only [readFull, Option.some.injEq, Prod.mk.injEq] at h; obtain ⟨rfl, rfl⟩ := h; exact ⟨rfl, rfl⟩
    | succ n => simp [readFull] at h
  | n, c :: cs, d, r, h => by
    cases n with
    | zero => simp only [readFull, Option.some.injEq, Prod.mk.injEq] at h; obtain ⟨rfl, rfl⟩ := h; exact ⟨rfl, rfl⟩
    | succ n =>
      rw [readFull] at h
      by_cases hc : c.length ≤ n + 1
      · rw [if_pos hc] at h
        cases hr : readFull (n + 1 - c.length) cs with
        | none => rw [hr] at h; cases h
        | some p =>
          obtain ⟨d', r'⟩ := p
          rw [hr] at h
          simp only [Option.some.injEq, Prod.mk.injEq] at h
          obtain ⟨rfl, rfl⟩ := h
          obtain ⟨h1, h2⟩ := readFull_some _ _ _ _ hr
          exact ⟨by rw [List.length_append]; omega, by rw [List.append_assoc, h2, List.flatten_cons]⟩
      · rw [if_neg hc] at h
        simp only [Option.some.injEq, Prod.mk.injEq] at h
        obtain ⟨rfl, rfl⟩ := h
        exact ⟨by simp; omega, by rw [List.flatten_cons, ← List.append_assoc, List.take_append_drop, List.flatten_cons]⟩

/-- How the loop stands: it waits for bytes, or it has returned because `Unpack` gave an error (examples/zinx_version_ex/datapackDemo/server/server.go:42-45). -/
inductive End where
  | waits
  | refused
deriving DecidableEq, Repr

/-- The loop (examples/zinx_version_ex/datapackDemo/server/server.go:32-60): the messages it shows, ID and data, and how it stands. A message without data is not shown (:47-60). `GetHeadLen` is eight
(zpack/datapack_tlv_bigendian.go:24-27, zpack/datapack_ltv_littleendian.go:25-28). -/
def loop (unpack : Bytes → Except UnpackErr Message) (conn : List Bytes) : List (UInt32 × Bytes) × End :=
  match _h : readFull 8 conn with
  | none => ([], .waits)
  | some (head, r) =>
    match unpack head with
    | .error _ => ([], .refused)
    | .ok m =>
      if 0 < m.dataLen.toNat then
        match _h' : readFull m.dataLen.toNat r with
        | none => ([], .waits)
        | some (data, r') =>
          let (ms, e) := loop unpack r'
          ((m.id, data) :: ms, e)
      else loop unpack r
termination_by conn.flatten.length
decreasing_by
  · have h1 := readFull_some _ _ _ _ _h
    have h2 := readFull_some _ _ _ _ _h'
    have e1 := congrArg List.length h1.2
    have e2 := congrArg List.length h2.2
    rw [List.length_append] at e1 e2
    omega
  · have h1 := readFull_some _ _ _ _ _h
    have e1 := congrArg List.length h1.2
    rw [List.length_append] at e1
    omega

end Zinx.HandRead
