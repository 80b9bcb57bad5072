import Verif.Props.Wait

/-!
# C102: a peer that does not read
-/

namespace Zinx.Props

open Zinx.Race

/-! ## What is true -/

/-- If the functions given to `Range` use no direct sends (with WebSocket and KCP: no sends) and no close callbacks: whoever waits for a lock of the connection manager waits, however indirectly, for nobody
who waits for the network. The accept loop is never kept waiting by a peer that does not read. -/
theorem C102_manager_partial (code : Nat → ConnCode) (hcode : code = tcpQuiet ∨ code = wsCalm ∨ code = kcpCalm) (tr : Trace ConnField ConnLock) (h : Held ConnLock) (hl : locks {} tr = some h)
    (waiting : Nat → Option (ConnLock × Bool)) (hw : Waiting code tr waiting) :
    (∀ t l x, waiting t = some (l, x) → l = .shard ∨ l = .other → ∀ u, WaitChain h waiting t u → ∀ y, waiting u ≠ some (.net, y)) ∧
    (∀ x, waiting 0 ≠ some (.net, x)) ∧ ∀ u, WaitChain h waiting 0 u → ∀ y, waiting u ≠ some (.net, y) := by
  let rank : ConnLock → Nat := fun
    | .callback => 0
    | .msg => 1
    | .net => 2
    | .shard | .other => 3
    | .property | .context => 4
  have ho : Ordered rank code := by
    rcases hcode with rfl | rfl | rfl
    all_goals
      intro t
      match t with
      | 0 => decide +kernel
      | 1 => decide +kernel
      | 2 => decide +kernel
      | 3 => decide +kernel
      | 4 => decide +kernel
      | 5 => decide +kernel
      | 6 => decide +kernel
      | _ + 7 => simp only [tcpQuiet, wsCalm, kcpCalm]; decide +kernel
  have h1 : ∀ t l x, waiting t = some (l, x) → l = .shard ∨ l = .other → ∀ u, WaitChain h waiting t u → ∀ y, waiting u ≠ some (.net, y) := by
    intro t l x ht hs u hc y hu
    have := chain_above ho hw hl (bar := 2) hc (fun p hp => by rw [ht] at hp; cases hp; rcases hs with rfl | rfl <;> exact Nat.lt_succ_self 2) _ hu
    exact Nat.lt_irrefl 2 this
  have h2 : ∀ l x, waiting 0 = some (l, x) → l = .shard ∨ l = .other := by
    intro l x h0
    obtain ⟨rest, hr⟩ := hw 0 _ h0
    have hm : l ∈ takes (code 0) := takes_sound hr (x := x) (by simp)
    have : ∀ l ∈ takes (code 0), l = ConnLock.shard ∨ l = ConnLock.other := by rcases hcode with rfl | rfl | rfl <;> decide +kernel
    exact this l hm
  refine ⟨h1, fun x h0 => ?_, fun u hc y hu => ?_⟩
  · rcases h2 _ _ h0 with h | h <;> cases h
  · have : ∃ l x, waiting 0 = some (l, x) := by
      cases hc with
      | one hs => obtain ⟨l, x, e, _⟩ := hs; exact ⟨l, x, e⟩
      | more hs _ => obtain ⟨l, x, e, _⟩ := hs; exact ⟨l, x, e⟩
    obtain ⟨l, x, e⟩ := this
    exact h1 0 l x e (h2 l x e) u hc y hu

/-! ## What is false -/

/-- An execution in which the goroutines in `group` have come to a lock, and as long as the peer (goroutine 6) does not read again they do nothing, whatever the others do. -/
def StallsUntilRead (code : Nat → ConnCode) (tr : Trace ConnField ConnLock) (group : List Nat) (wants : Nat → ConnLock × Bool) : Prop :=
  Execution code tr ∧ (∀ t ∈ group, ∃ rest, Lang (code t) (proj t tr ++ .acq (wants t).1 (wants t).2 :: rest)) ∧
  ∀ ext, Execution code (tr ++ ext) → (∀ t ∈ group, ∀ a w, proj t ext = a :: w → a = .acq (wants t).1 (wants t).2) → proj 6 ext = [] → ∀ t ∈ group, proj t ext = []

def stalls (tr : Trace ConnField ConnLock) (group : List Nat) (wants : Nat → ConnLock × Bool) : Bool :=
  match locks {} tr with
  | none => false
  | some h => group.all fun t => (group ++ [6]).any fun u => h.excl (wants t).1 = some u || (wants t).2 && decide (u ∈ h.shared (wants t).1)

theorem stalls_of {code : Nat → ConnCode} (hp : ∀ t, productive (code t) = true) {tr : Trace ConnField ConnLock} {group : List Nat} {wants : Nat → ConnLock × Bool}
    (h1 : runs code tr = true) (h3 : (group.all fun t => accepts (code t) (proj t tr ++ [.acq (wants t).1 (wants t).2])) = true) (h4 : stalls tr group wants = true) : StallsUntilRead code tr group wants := by
  refine ⟨runs_sound hp h1, fun t ht => ?_, fun ext hx hn h6 => ?_⟩
  · obtain ⟨rest, hr⟩ := accepts_sound (List.all_eq_true.1 h3 t ht)
    exact ⟨rest, by simpa using hr⟩
  · unfold stalls at h4
    split at h4
    · cases h4
    · rename_i h hl
      have hk : Locked h group [6] wants := by
        intro t ht
        obtain ⟨u, hu, hx⟩ := List.any_eq_true.1 (List.all_eq_true.1 h4 t ht)
        exact ⟨u, hu, by simpa using hx⟩
      obtain ⟨h', hl'⟩ := hx.locks
      rw [locks_append, hl] at hl'
      exact locked_forever hk hl' hn (fun t ht => by rw [List.mem_singleton.1 ht]; exact h6)

theorem calm_productive (code : Nat → ConnCode) (hcode : code = tcpQuiet ∨ code = wsCalm ∨ code = kcpCalm) (t : Nat) : productive (code t) = true := by
  rcases hcode with rfl | rfl | rfl
  all_goals
    match t with
    | 0 => decide +kernel
    | 1 => decide +kernel
    | 2 => decide +kernel
    | 3 => decide +kernel
    | 4 => decide +kernel
    | 5 => decide +kernel
    | 6 => decide +kernel
    | _ + 7 => simp only [tcpQuiet, wsCalm, kcpCalm]; decide +kernel

/-- `Start` up to the reader. -/
def tcpStarted : Trace ConnField ConnLock :=
  tcpAccepted ++ does 1 [.wr .ctx, .wr .cancel, .rd .onConnStart, .rd .hc, .rd .msgHandler, .rd .connID, .wr .workerID, .fork 2, .rd .ctx, .atom 1]
def wsStarted : Trace ConnField ConnLock :=
  wsAccepted ++ does 1 [.rd .ctx, .wr .ctx, .wr .cancel, .rd .onConnStart, .rd .hc, .rd .msgHandler, .rd .connID, .wr .workerID, .fork 2, .rd .ctx, .atom 1]
def kcpStarted : Trace ConnField ConnLock :=
  kcpAccepted ++ does 1 [.wr .ctx, .wr .cancel, .rd .onConnStart, .rd .hc, .rd .msgHandler, .rd .connID, .wr .workerID, .fork 2, .rd .ctx, .atom 1]

/-- The peer stops reading; a broadcast with `Range` (goroutine 8) comes to the connection and calls `SendMsg`. -/
def tcpSlow : Trace ConnField ConnLock := tcpStarted ++ [(6, .acq .net true)] ++ does 8 [.acq .shard false, .rd .table, .rd .ctx, .rd .packet, .rd .ctx, .rd .conn]
def wsSlow : Trace ConnField ConnLock := wsStarted ++ [(6, .acq .net true)] ++ does 8 [.acq .shard false, .rd .table, .acq .msg true, .rd .closed, .rd .packet, .rd .conn]
def kcpSlow : Trace ConnField ConnLock := kcpStarted ++ [(6, .acq .net true)] ++ does 8 [.acq .shard false, .rd .table, .atom 0, .rd .packet, .acq .msg false, .atom 0, .rd .conn]

/-- The accept loop, which has the next connection to add, waits for the broadcast, and the broadcast for the peer: one peer that does not read keeps the server from accepting connections.
(With WebSocket goroutine 0 is the handler of a further handshake; those wait whose connections fall into the shard.) -/
theorem C102_accept_refuted :
    StallsUntilRead tcpCode tcpSlow [0, 8] (fun t => if t = 0 then (.shard, true) else (.net, true)) ∧
    StallsUntilRead wsCode wsSlow [0, 8] (fun t => if t = 0 then (.shard, true) else (.net, true)) ∧
    StallsUntilRead kcpCode kcpSlow [0, 8] (fun t => if t = 0 then (.shard, true) else (.net, true)) := by
  refine ⟨?_, ?_, ?_⟩ <;> exact stalls_of (conn_productive _ (by simp)) (by decide +kernel) (by decide +kernel) (by decide +kernel)

/-- The peer stops reading, goroutine 8 calls `SendMsg`, goroutine 7 (or the heartbeat checker) stops the connection. -/
def wsHeld : Trace ConnField ConnLock :=
  wsStarted ++ finds 7 ++ finds 8 ++ [(6, .acq .net true)] ++ does 8 [.acq .msg true, .rd .closed, .rd .packet, .rd .conn] ++ does 7 [.rd .cancel, .acq .context true, .snd 0, .rel .context true] ++
    does 1 [.rcv 0, .rd .onConnStop]
def kcpHeld : Trace ConnField ConnLock :=
  kcpStarted ++ finds 7 ++ finds 8 ++ [(6, .acq .net true)] ++ does 8 [.atom 0, .rd .packet, .acq .msg false, .atom 0, .rd .conn] ++ does 7 [.rd .cancel, .acq .context true, .snd 0, .rel .context true] ++
    does 1 [.rcv 0, .atom 0, .atom 0, .rd .onConnStop]

/-- The finalizer of WebSocket and KCP connections waits for `msgLock` before it closes the socket, and the write that holds `msgLock` would end only if the socket were closed: a peer that does not read
cannot be thrown out. This needs no `Range`. -/
theorem C102_close_refuted :
    StallsUntilRead wsCalm wsHeld [1, 8] (fun t => if t = 1 then (.msg, true) else (.net, true)) ∧
    StallsUntilRead kcpCalm kcpHeld [1, 8] (fun t => if t = 1 then (.msg, true) else (.net, true)) := by
  refine ⟨?_, ?_⟩ <;> exact stalls_of (calm_productive _ (by simp)) (by decide +kernel) (by decide +kernel) (by decide +kernel)

/-- TCP: the finalizer takes no lock that is held during a write. From the moment the hook has returned it waits only for locks of the manager, and (by `C102_manager_partial`) for nobody who waits for the
network. -/
theorem C102_close_partial (w : List (Act ConnField ConnLock)) (l : ConnLock) (x : Bool) (rest : List (Act ConnField ConnLock))
    (h : Lang (Code.all [.rd .hc, Code.opt (Code.all [.rd .connID, .snd, .rcv]), .rd .conn, .rd .connManager, mgrRemove, .rd .connID, .go, .rd .connID]) (w ++ .acq l x :: rest)) : l = .shard := by
  have hm := takes_sound h (l := l) (x := x) (by simp)
  have : ∀ l ∈ takes (Code.all [.rd .hc, Code.opt (Code.all [.rd .connID, .snd, .rcv]), .rd .conn, .rd .connManager, mgrRemove, .rd .connID, .go, .rd .connID] : ConnCode), l = .shard := by decide +kernel
  exact this l hm

/-- That code is the end of the finalizer. -/
example : tcpFinalizer = .seq (.rd .onConnStop) (.seq tcpUser (Code.all [.rd .hc, Code.opt (Code.all [.rd .connID, .snd, .rcv]), .rd .conn, .rd .connManager, mgrRemove, .rd .connID, .go, .rd .connID])) := rfl

/-- A goroutine that sends waits for the peer, and the accept loop for a lookup that is under way. -/
example :
    let tr : Trace ConnField ConnLock := tcpStarted ++ [(6, .acq .net true)] ++ finds 8 ++ does 8 [.rd .ctx, .rd .packet, .rd .ctx, .rd .conn] ++ does 7 [.acq .shard false]
    Execution tcpQuiet tr ∧ Waiting tcpQuiet tr fun t => if t = 8 then some (.net, true) else if t = 0 then some (.shard, true) else none := by
  refine ⟨runs_sound (calm_productive _ (by simp)) (by decide +kernel), fun t p hp => ?_⟩
  by_cases h8 : t = 8
  · subst h8
    simp at hp; subst hp
    obtain ⟨rest, hr⟩ := accepts_sound (c := tcpQuiet 8) (w := proj 8 (tcpStarted ++ [(6, .acq .net true)] ++ finds 8 ++ does 8 [.rd .ctx, .rd .packet, .rd .ctx, .rd .conn] ++ does 7 [.acq .shard false]) ++ [.acq .net true]) (by decide +kernel)
    exact ⟨rest, by simpa using hr⟩
  · by_cases h0 : t = 0
    · subst h0
      simp at hp; subst hp
      obtain ⟨rest, hr⟩ := accepts_sound (c := tcpQuiet 0) (w := proj 0 (tcpStarted ++ [(6, .acq .net true)] ++ finds 8 ++ does 8 [.rd .ctx, .rd .packet, .rd .ctx, .rd .conn] ++ does 7 [.acq .shard false]) ++ [.acq .shard true]) (by decide +kernel)
      exact ⟨rest, by simpa using hr⟩
    · simp [h8, h0] at hp

end Zinx.Props
