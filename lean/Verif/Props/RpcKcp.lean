import Verif.Props.RpcAny

/-!
# C148: KCP carries the replies of one handler after the other
-/

namespace Zinx.RpcAny

open Rpc (Bytes Msg packed Hand key)

/-! ## Direct sends -/

structure KcpDir (s : KcpSend.State) (bu : Option (Nat × Bytes)) (oks : List Bytes) (e : Option Bytes) (w : Bytes) : Prop where
  free : e = none
  idle : ∀ i, (∀ m, bu ≠ some (i, m)) → s.s i = .idle
  busy : ∀ i m, bu = some (i, m) → s.s i = .mcheck m ∨ s.s i = .swant m ∨ s.s i = .write m
  writers : ∀ j, s.w j = .none
  wire : w = oks.flatten

/-- `SendMsg` or `Send`. -/
def kcpDirect (cc : Nat) (kind : KcpSend.Kind) (hk : kind = .msg ∨ kind = .send) : Carrier (kcp cc kind) where
  I := KcpDir
  init := ⟨rfl, fun _ _ => rfl, nofun, fun _ => rfl, rfl⟩
  call := by
    intro s t oks e w i m h hs
    cases hs with
    | call _ _ _ hi =>
      refine ⟨h.free, fun j hj => ?_, fun j m' hj => ?_, h.writers, h.wire⟩
      · have : j ≠ i := fun e => hj m (by rw [e])
        simp only [KcpSend.set, this, if_false]
        exact h.idle j nofun
      · cases hj
        rcases hk with rfl | rfl
        · exact .inl (by simp [KcpSend.set, KcpSend.entry])
        · exact .inr (.inl (by simp [KcpSend.set, KcpSend.entry]))
  retOk := by
    intro s t oks e w i m l h hs hr hok
    have hb := h.busy i m rfl
    have hidle : ∀ j, KcpSend.set s.s i .idle j = .idle := by
      intro j
      simp only [KcpSend.set]
      split
      · rfl
      · rename_i hne; exact h.idle j fun m' e => by cases e; exact hne rfl
    cases hs <;> simp only [kcp, Bool.false_eq_true, decide_eq_true_eq] at hr hok <;> subst hr
    · rename_i m' hw _
      rw [hw] at hb
      have hm : m' = m := by rcases hb with hb | hb | hb <;> cases hb; rfl
      subst hm
      exact ⟨h.free, rfl, fun j _ => hidle j, nofun, h.writers, by rw [h.wire]; simp [kcp, Pipe.kcpWritten]⟩
    · rename_i hw _ _
      rw [hw] at hb
      rcases hb with hb | hb | hb <;> cases hb
  retErr := by
    intro s t oks e w i m l h hs hr hok
    have hidle : ∀ j, KcpSend.set s.s i .idle j = .idle := by
      intro j
      simp only [KcpSend.set]
      split
      · rfl
      · rename_i hne; exact h.idle j fun m' e => by cases e; exact hne rfl
    refine ⟨e, .inl rfl, ?_⟩
    cases hs <;> simp only [kcp, Bool.false_eq_true, decide_eq_true_eq, reduceCtorEq] at hr hok <;> subst hr <;>
      exact ⟨h.free, fun j _ => hidle j, nofun, h.writers, by rw [h.wire]; simp [kcp, Pipe.kcpWritten]⟩
  other := by
    intro s t bu oks e w l h hs hc hr
    have hsome : ∀ i, s.s i ≠ .idle → ∃ m, bu = some (i, m) := fun i hi => Classical.byContradiction fun hn => hi (h.idle i fun m e => hn ⟨m, e⟩)
    have same : t.s = s.s → t.w = s.w → Pipe.kcpWritten l = [] → KcpDir t bu oks e (w ++ Pipe.kcpWritten l) := by
      intro e1 e2 e5
      rw [e5, List.append_nil]
      exact ⟨h.free, e1 ▸ h.idle, e1 ▸ h.busy, e2 ▸ h.writers, h.wire⟩
    have no : ∀ i, (∀ m, s.s i ≠ .mcheck m) → (∀ m, s.s i ≠ .swant m) → (∀ m, s.s i ≠ .write m) → s.s i ≠ .idle → KcpDir t bu oks e (w ++ Pipe.kcpWritten l) := by
      intro i h1 h2 h3 h4
      obtain ⟨m, rfl⟩ := hsome i h4
      rcases h.busy i m rfl with hb | hb | hb
      · exact absurd hb (h1 m)
      · exact absurd hb (h2 m)
      · exact absurd hb (h3 m)
    have now : ∀ i m p, (∀ m', s.s i = .mcheck m' ∨ s.s i = .swant m' ∨ s.s i = .write m' → m' = m) → s.s i ≠ .idle → p = .swant m ∨ p = .write m → t.s = KcpSend.set s.s i p → t.w = s.w → Pipe.kcpWritten l = [] →
        KcpDir t bu oks e (w ++ Pipe.kcpWritten l) := by
      intro i m p h1 h2 h3 e1 e2 e5
      obtain ⟨m', rfl⟩ := hsome i h2
      have hm := h1 m' (h.busy i m' rfl)
      subst hm
      rw [e5, List.append_nil]
      refine ⟨h.free, fun j hj => ?_, fun j m hj => ?_, e2 ▸ h.writers, h.wire⟩
      · have : j ≠ i := fun e => hj m' (by rw [e])
        rw [e1]
        simp only [KcpSend.set, this, if_false]
        exact h.idle j hj
      · cases hj
        rw [e1]
        simp only [KcpSend.set, if_true]
        exact .inr h3
    cases hs with
    | stop => exact same rfl rfl rfl
    | netFail => exact same rfl rfl rfl
    | finStart => exact same rfl rfl rfl
    | hookDone => exact same rfl rfl rfl
    | finLock => exact same rfl rfl rfl
    | finSock => exact same rfl rfl rfl
    | finNoChan => exact same rfl rfl rfl
    | finChan => exact same rfl rfl rfl
    | finPanic => exact same rfl rfl rfl
    | msgOpen i m hi => exact now i m _ (fun m' h => by rw [hi] at h; rcases h with h | h | h <;> cases h; rfl) (by rw [hi]; nofun) (.inl rfl) rfl rfl rfl
    | sendOpen i m hi => exact now i m _ (fun m' h => by rw [hi] at h; rcases h with h | h | h <;> cases h; rfl) (by rw [hi]; nofun) (.inr rfl) rfl rfl rfl
    | buffOpen i m hi => exact no i (by rw [hi]; nofun) (by rw [hi]; nofun) (by rw [hi]; nofun) (by rw [hi]; nofun)
    | queueLock i m hi => exact no i (by rw [hi]; nofun) (by rw [hi]; nofun) (by rw [hi]; nofun) (by rw [hi]; nofun)
    | isNil i m r hi => exact no i (by rw [hi]; nofun) (by rw [hi]; nofun) (by rw [hi]; nofun) (by rw [hi]; nofun)
    | notNil i m r c hi => exact no i (by rw [hi]; nofun) (by rw [hi]; nofun) (by rw [hi]; nofun) (by rw [hi]; nofun)
    | make i m r hi => exact no i (by rw [hi]; nofun) (by rw [hi]; nofun) (by rw [hi]; nofun) (by rw [hi]; nofun)
    | queueOpen i m hi => exact no i (by rw [hi]; nofun) (by rw [hi]; nofun) (by rw [hi]; nofun) (by rw [hi]; nofun)
    | eval i m r c hi => exact no i (by rw [hi]; nofun) (by rw [hi]; nofun) (by rw [hi]; nofun) (by rw [hi]; nofun)
    | call => simp [kcp] at hc
    | msgClosed i => simpa [kcp] using hr i
    | sendClosed i => simpa [kcp] using hr i
    | write i => simpa [kcp] using hr i
    | writeFail i => simpa [kcp] using hr i
    | buffClosed i => simpa [kcp] using hr i
    | queueClosed i => simpa [kcp] using hr i
    | enq i => simpa [kcp] using hr i
    | enqPanic i => simpa [kcp] using hr i
    | timeout i => simpa [kcp] using hr i
    | weval j _ h1 => rw [h.writers] at h1; cases h1
    | recv j _ _ _ h1 => rw [h.writers] at h1; cases h1
    | recvClosed j _ h1 => rw [h.writers] at h1; cases h1
    | ctxDone j _ h1 => rw [h.writers] at h1; cases h1
    | wClosed j _ h1 => rw [h.writers] at h1; cases h1
    | wOpen j _ h1 => rw [h.writers] at h1; cases h1
    | wwrite j _ h1 => rw [h.writers] at h1; cases h1
    | wfail j _ h1 => rw [h.writers] at h1; cases h1
  wire h := by
    rw [h.wire, List.flatten_append]
    exact List.prefix_append _ _

/-! ## Buffered sends -/

/-- The message the writer has. -/
def kcpHas : KcpSend.WPc → List Bytes
  | .want m | .write m => [m]
  | _ => []

/-- In `SendBuffMsg` or `SendToQueue` with `m`, on channel 0. -/
def kcpIn (m : Bytes) (field : Option Nat) : KcpSend.SPc → Prop
  | .bcheck m' | .qwant m' | .nil m' _ => m' = m
  | .qcheck m' | .eval m' _ => m' = m ∧ field = some 0
  | .make m' _ => m' = m ∧ field = none
  | .sel m' _ c => m' = m ∧ c = 0 ∧ field = some 0
  | _ => False

structure KcpBuf (s : KcpSend.State) (bu : Option (Nat × Bytes)) (oks : List Bytes) (e : Option Bytes) (w : Bytes) : Prop where
  free : e = none
  idle : ∀ i, (∀ m, bu ≠ some (i, m)) → s.s i = .idle
  busy : ∀ i m, bu = some (i, m) → kcpIn m s.field (s.s i)
  new : s.field = none → s.nch = 0 ∧ (∀ j, s.w j = .none) ∧ (s.chan 0).items = []
  old : ∀ c, s.field = some c → c = 0 ∧ s.nch = 1
  writers : ∀ j, j ≠ 0 → s.w j = .none
  reads : ∀ c, s.w 0 = .sel c → c = 0
  good : s.broken = false → s.closed = false ∨ (∃ m, s.w 0 = .write m) → ∃ done, oks = done ++ (kcpHas (s.w 0) ++ (s.chan 0).items) ∧ w = done.flatten
  wire : w <+: oks.flatten

/-- `SendBuffMsg` or `SendToQueue`. -/
def kcpBuffered (cc : Nat) (kind : KcpSend.Kind) (hk : kind = .buff ∨ kind = .queue) : Carrier (kcp cc kind) where
  I := KcpBuf
  init := ⟨rfl, fun _ _ => rfl, nofun, fun _ => ⟨rfl, fun _ => rfl, rfl⟩, nofun, fun _ _ => rfl, nofun, fun _ _ => ⟨[], rfl, rfl⟩, List.prefix_rfl⟩
  call := by
    intro s t oks e w i m h hs
    cases hs with
    | call _ _ _ hi =>
      refine ⟨h.free, fun j hj => ?_, fun j m' hj => ?_, h.new, h.old, h.writers, h.reads, h.good, h.wire⟩
      · have : j ≠ i := fun e => hj m (by rw [e])
        simp only [KcpSend.set, this, if_false]
        exact h.idle j nofun
      · cases hj
        rcases hk with rfl | rfl <;> simp [KcpSend.set, KcpSend.entry, kcpIn]
  retOk := by
    intro s t oks e w i m l h hs hr hok
    have hb := h.busy i m rfl
    have hidle : ∀ j, KcpSend.set s.s i .idle j = .idle := by
      intro j
      simp only [KcpSend.set]
      split
      · rfl
      · rename_i hne; exact h.idle j fun m' e => by cases e; exact hne rfl
    cases hs <;> simp only [kcp, Bool.false_eq_true, decide_eq_true_eq] at hr hok <;> subst hr
    · rename_i hw _
      rw [hw] at hb
      cases hb
    · rename_i m' r c hw hcl hlt
      rw [hw] at hb
      obtain ⟨rfl, rfl, hf⟩ := hb
      refine ⟨h.free, rfl, fun j _ => hidle j, nofun, (fun hx => by dsimp only at hx; rw [hf] at hx; cases hx), h.old, h.writers, h.reads, fun h1 h2 => ?_, ?_⟩
      · obtain ⟨d, g1, g2⟩ := h.good h1 h2
        exact ⟨d, by rw [g1]; simp [KcpSend.set], by simpa [kcp, Pipe.kcpWritten] using g2⟩
      · simpa [kcp, Pipe.kcpWritten] using h.wire.trans (List.prefix_append _ _)
  retErr := by
    intro s t oks e w i m l h hs hr hok
    have hidle : ∀ j, KcpSend.set s.s i .idle j = .idle := by
      intro j
      simp only [KcpSend.set]
      split
      · rfl
      · rename_i hne; exact h.idle j fun m' e => by cases e; exact hne rfl
    refine ⟨e, .inl rfl, ?_⟩
    cases hs <;> simp only [kcp, Bool.false_eq_true, decide_eq_true_eq, reduceCtorEq] at hr hok <;> subst hr <;>
      (simp only [kcp, Pipe.kcpWritten, List.append_nil]; exact ⟨h.free, fun j _ => hidle j, nofun, h.new, h.old, h.writers, h.reads, h.good, h.wire⟩)
  other := by
    intro s t bu oks e w l h hs hc hr
    have hsome : ∀ i, s.s i ≠ .idle → ∃ m, bu = some (i, m) := fun i hi => Classical.byContradiction fun hn => hi (h.idle i fun m e => hn ⟨m, e⟩)
    have quiet : Pipe.kcpWritten l = [] → KcpBuf t bu oks e w → KcpBuf t bu oks e (w ++ Pipe.kcpWritten l) := fun e1 h => by rw [e1, List.append_nil]; exact h
    have same : t.s = s.s → t.w = s.w → t.field = s.field → t.nch = s.nch → (∀ j, (t.chan j).items = (s.chan j).items) → (t.broken = false → s.broken = false) → (t.closed = false → s.closed = false) →
        KcpBuf t bu oks e w := by
      intro e1 e2 e3 e4 e5 e6 e7
      refine ⟨h.free, e1 ▸ h.idle, by rw [e1, e3]; exact h.busy, by rw [e2, e3, e4, e5]; exact h.new, by rw [e3, e4]; exact h.old, e2 ▸ h.writers, e2 ▸ h.reads, fun h1 h2 => ?_, h.wire⟩
      rw [e2, e5]
      rw [e2] at h2
      exact h.good (e6 h1) (h2.imp e7 id)
    -- a step of the sender
    have now : ∀ i p, s.s i ≠ .idle → (∀ m, kcpIn m s.field (s.s i) → kcpIn m s.field p) → t = { s with s := KcpSend.set s.s i p } → KcpBuf t bu oks e w := by
      intro i p h1 h2 e1
      obtain ⟨m, rfl⟩ := hsome i h1
      subst e1
      refine ⟨h.free, fun j hj => ?_, fun j m hj => ?_, h.new, h.old, h.writers, h.reads, h.good, h.wire⟩
      · have : j ≠ i := fun e => hj m (by rw [e])
        simp only [KcpSend.set, this, if_false]
        exact h.idle j hj
      · cases hj
        simp only [KcpSend.set, if_true]
        exact h2 m (h.busy i m rfl)
    -- a step of the writer
    have wr : ∀ j p, s.w j ≠ .none → (∀ c, p = .sel c → c = 0) → t = { s with w := KcpSend.set s.w j p } →
        (j = 0 → s.broken = false → s.closed = false ∨ (∃ m, p = .write m) → (s.closed = false ∨ ∃ m, s.w 0 = .write m) ∧ kcpHas p = kcpHas (s.w 0)) → KcpBuf t bu oks e w := by
      intro j p h1 h2 e1 h3
      have hj : j = 0 := Classical.byContradiction fun hne => h1 (h.writers j hne)
      subst hj e1
      refine ⟨h.free, h.idle, h.busy, fun hx => absurd ((h.new hx).2.1 0) h1, h.old, fun j hj => ?_, fun c hx => ?_, fun g1 g2 => ?_, h.wire⟩
      · simp only [KcpSend.set, hj, if_false]; exact h.writers j hj
      · simp only [KcpSend.set, if_true] at hx; exact h2 c hx
      · simp only [KcpSend.set, if_true] at g2 ⊢
        obtain ⟨g3, g4⟩ := h3 rfl g1 g2
        rw [g4]
        exact h.good g1 g3
    cases hs with
    | stop => exact quiet rfl (same rfl rfl rfl rfl (fun _ => rfl) id id)
    | netFail => exact quiet rfl (same rfl rfl rfl rfl (fun _ => rfl) nofun id)
    | finStart => exact quiet rfl (same rfl rfl rfl rfl (fun _ => rfl) id nofun)
    | hookDone => exact quiet rfl (same rfl rfl rfl rfl (fun _ => rfl) id id)
    | finLock => exact quiet rfl (same rfl rfl rfl rfl (fun _ => rfl) id id)
    | finSock => exact quiet rfl (same rfl rfl rfl rfl (fun _ => rfl) nofun id)
    | finNoChan => exact quiet rfl (same rfl rfl rfl rfl (fun _ => rfl) id id)
    | finPanic => exact quiet rfl (same rfl rfl rfl rfl (fun _ => rfl) id id)
    | finChan c =>
      refine quiet rfl (same rfl rfl rfl rfl (fun j => ?_) id id)
      simp only [KcpSend.set]
      split
      · rename_i e; rw [e]
      · rfl
    | msgOpen i m hi => exact quiet rfl (now i _ (by rw [hi]; nofun) (fun m' h => by rw [hi] at h; cases h) rfl)
    | sendOpen i m hi => exact quiet rfl (now i _ (by rw [hi]; nofun) (fun m' h => by rw [hi] at h; cases h) rfl)
    | buffOpen i m hi => exact quiet rfl (now i _ (by rw [hi]; nofun) (fun m' h => by rw [hi] at h; exact h) rfl)
    | queueLock i m hi => exact quiet rfl (now i _ (by rw [hi]; nofun) (fun m' h => by rw [hi] at h; exact h) rfl)
    | isNil i m r hi hf => exact quiet rfl (now i _ (by rw [hi]; nofun) (fun m' h => by rw [hi] at h; exact ⟨h, hf⟩) rfl)
    | notNil i m r c hi hf =>
      obtain ⟨rfl, _⟩ := h.old c hf
      exact quiet rfl (now i _ (by rw [hi]; nofun) (fun m' h => by rw [hi] at h; split <;> exact ⟨h, hf⟩) rfl)
    | queueOpen i m hi => exact quiet rfl (now i _ (by rw [hi]; nofun) (fun m' h => by rw [hi] at h; exact h) rfl)
    | eval i m r c hi hf =>
      obtain ⟨rfl, _⟩ := h.old c hf
      exact quiet rfl (now i _ (by rw [hi]; nofun) (fun m' h => by rw [hi] at h; exact ⟨h.1, rfl, h.2⟩) rfl)
    | make i m r hi =>
      obtain ⟨m', rfl⟩ := hsome i (by rw [hi]; nofun)
      have hb := h.busy i m' rfl
      rw [hi] at hb
      obtain ⟨rfl, hf⟩ := hb
      obtain ⟨g1, g2, g3⟩ := h.new hf
      refine quiet rfl ⟨h.free, fun j hj => ?_, fun j m' hj => ?_, nofun, fun c hx => ?_, fun j hj => ?_, fun c hx => ?_, fun h1 h2 => ?_, h.wire⟩
      · have : j ≠ i := fun e => hj m (by rw [e])
        simp only [KcpSend.set, this, if_false]
        exact h.idle j hj
      · cases hj
        simp only [KcpSend.set, if_true, g1]
        split <;> exact ⟨rfl, rfl⟩
      · dsimp only at hx ⊢; rw [g1] at hx; cases hx; exact ⟨rfl, by rw [g1]⟩
      · simp only [KcpSend.set, g1, hj, if_false]; exact h.writers j hj
      · simp [KcpSend.set, g1] at hx
      · have h2' : s.closed = false ∨ ∃ m, s.w 0 = .write m := by
          rcases h2 with h2 | ⟨m, h2⟩
          · exact .inl h2
          · simp [KcpSend.set, g1] at h2
        obtain ⟨d, k1, k2⟩ := h.good h1 h2'
        rw [g2, g3] at k1
        exact ⟨d, by simpa [KcpSend.set, g1, kcpHas] using k1, k2⟩
    | call => simp [kcp] at hc
    | msgClosed i => simpa [kcp] using hr i
    | sendClosed i => simpa [kcp] using hr i
    | write i => simpa [kcp] using hr i
    | writeFail i => simpa [kcp] using hr i
    | buffClosed i => simpa [kcp] using hr i
    | queueClosed i => simpa [kcp] using hr i
    | enq i => simpa [kcp] using hr i
    | enqPanic i => simpa [kcp] using hr i
    | timeout i => simpa [kcp] using hr i
    | weval j c hw hf =>
      obtain ⟨rfl, _⟩ := h.old c hf
      refine quiet rfl (wr j _ (by rw [hw]; nofun) (fun c e => by cases e; rfl) rfl fun hj _ h2 => ?_)
      subst hj
      rw [hw]
      exact ⟨.inl (h2.resolve_right (by rintro ⟨m, h⟩; cases h)), rfl⟩
    | recv j c m ms hw hi =>
      have hj : j = 0 := Classical.byContradiction fun hne => by rw [h.writers j hne] at hw; cases hw
      subst hj
      have hc0 := h.reads c hw
      subst hc0
      refine quiet rfl ⟨h.free, h.idle, h.busy, fun hx => ?_, h.old, fun j hj => ?_, fun c hx => ?_, fun g1 g2 => ?_, h.wire⟩
      · have := (h.new hx).2.1 0; rw [hw] at this; cases this
      · simp only [KcpSend.set, hj, if_false]; exact h.writers j hj
      · simp [KcpSend.set] at hx
      · have g2' : s.closed = false := g2.resolve_right (by rintro ⟨m, h⟩; simp [KcpSend.set] at h)
        obtain ⟨d, k1, k2⟩ := h.good g1 (.inl g2')
        rw [hw, hi] at k1
        exact ⟨d, by simpa [KcpSend.set, kcpHas] using k1, k2⟩
    | recvClosed j c hw =>
      refine quiet rfl (wr j _ (by rw [hw]; nofun) (fun c e => by cases e) rfl fun hj _ h2 => ?_)
      subst hj
      rw [hw]
      exact ⟨.inl (h2.resolve_right (by rintro ⟨m, h⟩; cases h)), rfl⟩
    | ctxDone j c hw =>
      refine quiet rfl (wr j _ (by rw [hw]; nofun) (fun c e => by cases e) rfl fun hj _ h2 => ?_)
      subst hj
      rw [hw]
      exact ⟨.inl (h2.resolve_right (by rintro ⟨m, h⟩; cases h)), rfl⟩
    | wClosed j m hw _ hcl =>
      refine quiet rfl (wr j _ (by rw [hw]; nofun) (fun c e => by cases e) rfl fun hj _ h2 => ?_)
      rcases h2 with h2 | ⟨m, h2⟩
      · rw [hcl] at h2; cases h2
      · cases h2
    | wOpen j m hw _ hcl =>
      refine quiet rfl (wr j _ (by rw [hw]; nofun) (fun c e => by cases e) rfl fun hj _ h2 => ?_)
      subst hj
      rw [hw]
      exact ⟨.inl hcl, rfl⟩
    | wwrite j m hw hbr =>
      have hj : j = 0 := Classical.byContradiction fun hne => by rw [h.writers j hne] at hw; cases hw
      subst hj
      obtain ⟨d, k1, k2⟩ := h.good hbr (.inr ⟨m, hw⟩)
      rw [hw] at k1
      show KcpBuf _ _ _ _ (w ++ m)
      refine ⟨h.free, h.idle, h.busy, fun hx => ?_, h.old, fun j hj => ?_, fun c hx => ?_, fun g1 g2 => ?_, ?_⟩
      · have := (h.new hx).2.1 0; rw [hw] at this; cases this
      · simp only [KcpSend.set, hj, if_false]; exact h.writers j hj
      · simp [KcpSend.set] at hx
      · exact ⟨d ++ [m], by rw [k1]; simp [KcpSend.set, kcpHas], by rw [k2]; simp⟩
      · rw [k1, k2]; simp [kcpHas]
    | wfail j m hw hbr =>
      refine quiet rfl (wr j _ (by rw [hw]; nofun) (fun c e => by cases e) rfl fun hj h1 h2 => ?_)
      rw [hbr] at h1; cases h1
  wire h := by
    rw [h.free]
    exact h.wire.trans (by rw [List.flatten_append]; exact List.prefix_append _ _)

end Zinx.RpcAny
