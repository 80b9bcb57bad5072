import Verif.Props.RpcAny

/-!
# C148: WebSocket and KCP carry the replies of one handler after the other
-/

namespace Zinx.RpcAny

open Rpc (Bytes Msg packed Hand key)

/-! ## WebSocket, direct sends -/

/-- Worker `i` sends `m`, nobody else sends; `out` of it has gone out. -/
structure WsDir (s : WsSend.State) (bu : Option (Nat × Bytes)) (oks : List Bytes) (e : Option Bytes) (w : Bytes) : Prop where
  idle : ∀ i, (∀ m, bu ≠ some (i, m)) → s.s i = .idle
  busy : ∀ i m, bu = some (i, m) → s.s i = .want m false ∨ ∃ o r, s.s i = .write o r ∧ o ++ r = m
  chan : s.chan = none ∧ s.writer = .none
  good : s.broken = false → e = none ∧ ∃ o, w = oks.flatten ++ o ∧ (o ≠ [] → ∃ i m, bu = some (i, m)) ∧ (∀ i m, bu = some (i, m) → s.s i = .want m false ∧ o = [] ∨ ∃ r, s.s i = .write o r)
  wire : w <+: (oks ++ last e bu).flatten

theorem last_none_of {e : Option Bytes} {oks : List Bytes} {w : Bytes} {p : Nat × Bytes} (h : w <+: (oks ++ last e none).flatten) : w <+: (oks ++ last e (some p)).flatten := by
  cases e with
  | some => exact h
  | none => simp [last] at h ⊢; exact h.trans (List.prefix_append _ _)

def wsDirect (cc : Nat) : Carrier (ws cc false) where
  I := WsDir
  init := ⟨fun _ _ => rfl, nofun, ⟨rfl, rfl⟩, fun _ => ⟨rfl, [], rfl, nofun, nofun⟩, List.prefix_rfl⟩
  call := by
    intro s t oks e w i m h hs
    cases hs with
    | call _ _ hi =>
      refine ⟨fun j hj => ?_, fun j m' hj => ?_, h.chan, fun hb => ?_, last_none_of h.wire⟩
      · have : j ≠ i := fun e => hj m (by rw [e])
        simp only [WsSend.set, this, if_false]
        exact h.idle j nofun
      · cases hj; exact .inl (by simp [WsSend.set])
      · obtain ⟨h1, o, h2, h3, _⟩ := h.good hb
        have ho : o = [] := Classical.byContradiction fun hne => by obtain ⟨_, _, h⟩ := h3 hne; cases h
        exact ⟨h1, o, h2, fun hne => absurd ho hne, fun j m' hj => by cases hj; exact .inl ⟨by simp [WsSend.set], ho⟩⟩
  retOk := by
    intro s t oks e w i m l h hs hr hok
    have hb := h.busy i m rfl
    cases hs <;> simp only [ws, Bool.false_eq_true, decide_eq_true_eq] at hr hok
    · -- writeEnd
      subst hr
      rename_i m' hw hbr
      obtain ⟨h1, o, h2, _, h4⟩ := h.good hbr
      rw [hw] at hb
      have hm : m' = m := by rcases hb with hb | ⟨o, r, hb, e⟩ <;> cases hb; simpa using e
      subst hm
      have ho : o = m' := by
        rcases h4 _ _ rfl with ⟨h, _⟩ | ⟨r, h⟩
        · rw [hw] at h; cases h
        · rw [hw] at h; cases h; rfl
      subst ho
      have e1 : ∀ i, w ++ Pipe.wsWritten (.ret i o) = (oks ++ [o]).flatten := by intro i; rw [h2]; simp [Pipe.wsWritten]
      refine ⟨h1, fun j _ => ?_, nofun, h.chan, fun _ => ⟨rfl, [], by simpa [ws] using e1 _, fun h => absurd rfl h, nofun⟩, ?_⟩
      · simp only [WsSend.set]
        split
        · rfl
        · rename_i hne; exact h.idle j fun m' e => by cases e; exact hne rfl
      · simp only [ws]; rw [e1]; simp [last]
    · -- enq
      subst hr
      rename_i hw _ _ _
      rw [hw] at hb
      rcases hb with hb | ⟨o, r, hb, e⟩ <;> cases hb
  retErr := by
    intro s t oks e w i m l h hs hr hok
    have hb := h.busy i m rfl
    have keep : t.s = WsSend.set s.s i .idle → t.chan = s.chan → t.writer = s.writer → t.broken = s.broken → Pipe.wsWritten l = [] → (s.broken = false → s.s i = .want m false) →
        ∃ e', (e' = e ∨ e = none ∧ e' = some m) ∧ WsDir t none oks e' (w ++ Pipe.wsWritten l) := by
      intro e1 e2 e3 e4 e5 e6
      have hidle : ∀ j, t.s j = .idle := by
        intro j
        rw [e1]
        simp only [WsSend.set]
        split
        · rfl
        · rename_i hne; exact h.idle j fun m' e => by cases e; exact hne rfl
      have hch : t.chan = none ∧ t.writer = .none := by rw [e2, e3]; exact h.chan
      rw [e5, List.append_nil]
      cases hbr : s.broken with
      | true =>
        cases e with
        | some m' => exact ⟨some m', .inl rfl, fun j _ => hidle j, nofun, hch, (fun hx => by rw [e4, hbr] at hx; cases hx), h.wire⟩
        | none => exact ⟨some m, .inr ⟨rfl, rfl⟩, fun j _ => hidle j, nofun, hch, (fun hx => by rw [e4, hbr] at hx; cases hx), h.wire⟩
      | false =>
        obtain ⟨h1, o, h2, _, h4⟩ := h.good hbr
        subst h1
        have ho : o = [] := by
          rcases h4 _ _ rfl with ⟨_, h⟩ | ⟨r, h⟩
          · exact h
          · rw [e6 hbr] at h; cases h
        subst ho
        exact ⟨none, .inl rfl, fun j _ => hidle j, nofun, hch, fun _ => ⟨rfl, [], h2, fun h => absurd rfl h, nofun⟩, by rw [h2]; simp [last]⟩
    cases hs <;> simp only [ws, Bool.false_eq_true, decide_eq_true_eq, reduceCtorEq] at hr hok <;> subst hr
    · rename_i m' hw _ _
      rw [hw] at hb
      rcases hb with hb | ⟨o, r, hb, e⟩ <;> cases hb
      exact keep rfl rfl rfl rfl rfl fun _ => hw
    · rename_i o r hw hbr
      exact keep rfl rfl rfl rfl rfl fun hx => by rw [hbr] at hx; cases hx
    · rename_i hw _ _
      rw [hw] at hb
      rcases hb with hb | ⟨o, r, hb, e⟩ <;> cases hb
    · rename_i hw _ _
      rw [hw] at hb
      rcases hb with hb | ⟨o, r, hb, e⟩ <;> cases hb
    · rename_i hw
      rw [hw] at hb
      rcases hb with hb | ⟨o, r, hb, e⟩ <;> cases hb
  other := by
    intro s t bu oks e w l h hs hc hr
    obtain ⟨hch, hwr⟩ := h.chan
    have same : t.s = s.s → t.chan = s.chan → t.writer = s.writer → (t.broken = false → s.broken = false) → Pipe.wsWritten l = [] → WsDir t bu oks e (w ++ Pipe.wsWritten l) := by
      intro e1 e2 e3 e4 e5
      rw [e5, List.append_nil]
      exact ⟨e1 ▸ h.idle, e1 ▸ h.busy, by rw [e2, e3]; exact h.chan, fun hx => e1 ▸ h.good (e4 hx), h.wire⟩
    have hsome : ∀ i, s.s i ≠ .idle → ∃ m, bu = some (i, m) := fun i hi => Classical.byContradiction fun hn => hi (h.idle i fun m e => hn ⟨m, e⟩)
    cases hs with
    | directOpen i m hi hl hcl =>
      obtain ⟨m', rfl⟩ := hsome i (by rw [hi]; nofun)
      have hm : m' = m := by rcases h.busy i m' rfl with hb | ⟨o, r, hb, e⟩ <;> rw [hi] at hb <;> cases hb; rfl
      subst hm
      show WsDir _ _ _ _ (w ++ [])
      rw [List.append_nil]
      refine ⟨fun j hj => ?_, fun j m hj => ?_, h.chan, fun hb => ?_, h.wire⟩
      · have : j ≠ i := fun e => hj m' (by rw [e])
        simp only [WsSend.set, this, if_false]
        exact h.idle j hj
      · cases hj; exact .inr ⟨[], m', by simp [WsSend.set], rfl⟩
      · obtain ⟨h1, o, h2, h3, h4⟩ := h.good hb
        refine ⟨h1, o, h2, h3, fun j m hj => ?_⟩
        cases hj
        rcases h4 _ _ rfl with ⟨_, h⟩ | ⟨r, h⟩
        · subst h; exact .inr ⟨m', by simp [WsSend.set]⟩
        · rw [hi] at h; cases h
    | write i out y rest hi hy hbr =>
      obtain ⟨m', rfl⟩ := hsome i (by rw [hi]; nofun)
      have hm : out ++ (y ++ rest) = m' := by rcases h.busy i m' rfl with hb | ⟨o, r, hb, e⟩ <;> rw [hi] at hb <;> cases hb; exact e
      obtain ⟨h1, o, h2, h3, h4⟩ := h.good hbr
      have ho : o = out := by
        rcases h4 _ _ rfl with ⟨h, _⟩ | ⟨r, h⟩
        · rw [hi] at h; cases h
        · rw [hi] at h; cases h; rfl
      subst ho h1
      show WsDir _ _ _ _ (w ++ y)
      refine ⟨fun j hj => ?_, fun j m hj => ?_, h.chan, fun _ => ⟨rfl, o ++ y, by rw [h2]; simp, fun _ => ⟨_, _, rfl⟩, fun j m hj => ?_⟩, ?_⟩
      · have : j ≠ i := fun e => hj m' (by rw [e])
        simp only [WsSend.set, this, if_false]
        exact h.idle j hj
      · cases hj; exact .inr ⟨o ++ y, rest, by simp [WsSend.set], by rw [← hm]; simp⟩
      · cases hj; exact .inr ⟨rest, by simp [WsSend.set]⟩
      · rw [h2, ← hm]; simp [last]
    | buffOpen i m hi =>
      obtain ⟨m', rfl⟩ := hsome i (by rw [hi]; nofun)
      rcases h.busy i m' rfl with hb | ⟨o, r, hb, e⟩ <;> rw [hi] at hb <;> cases hb
    | stop => exact same rfl rfl rfl id rfl
    | netFail => exact same rfl rfl rfl nofun rfl
    | finStart => exact same rfl rfl rfl id rfl
    | hookDone => exact same rfl rfl rfl id rfl
    | finLock => exact same rfl rfl rfl id rfl
    | finLockClosed => exact same rfl rfl rfl id rfl
    | finSock => exact same rfl rfl rfl nofun rfl
    | finNoChan => exact same rfl rfl rfl id rfl
    | call => simp [ws] at hc
    | directClosed i => simpa [ws] using hr i
    | writeEnd i => simpa [ws] using hr i
    | writeFail i => simpa [ws] using hr i
    | buffClosed i => simpa [ws] using hr i
    | enq i => simpa [ws] using hr i
    | enqPanic i => simpa [ws] using hr i
    | timeout i => simpa [ws] using hr i
    | finChan c _ h1 => rw [hch] at h1; cases h1
    | finPanic c _ h1 => rw [hch] at h1; cases h1
    | recv _ _ _ h1 => rw [hwr] at h1; cases h1
    | recvClosed h1 => rw [hwr] at h1; cases h1
    | ctxDone h1 => rw [hwr] at h1; cases h1
    | wClosed _ h1 => rw [hwr] at h1; cases h1
    | wOpen _ h1 => rw [hwr] at h1; cases h1
    | wwrite _ _ _ h1 => rw [hwr] at h1; cases h1
    | wend _ h1 => rw [hwr] at h1; cases h1
    | wfail _ _ h1 => rw [hwr] at h1; cases h1
  wire h := h.wire

/-! ## WebSocket, buffered sends -/

/-- The message the writer has. -/
def wsHas : WsSend.WPc → List Bytes
  | .want m => [m]
  | .write o r => [o ++ r]
  | _ => []

/-- What has gone out of it. -/
def wsOut : WsSend.WPc → Bytes
  | .write o _ => o
  | _ => []

def wsItems : Option WsSend.Chan → List Bytes
  | some c => c.items
  | none => []

structure WsBuf (s : WsSend.State) (bu : Option (Nat × Bytes)) (oks : List Bytes) (e : Option Bytes) (w : Bytes) : Prop where
  free : e = none
  idle : ∀ i, (∀ m, bu ≠ some (i, m)) → s.s i = .idle
  busy : ∀ i m, bu = some (i, m) → s.s i = .want m true ∨ s.s i = .sel m
  chan : s.chan = .none → s.writer = .none
  closed : s.closed = true → s.broken = true
  fin : s.fin = .close → s.broken = true
  good : s.broken = false → ∃ done, oks = done ++ (wsHas s.writer ++ wsItems s.chan) ∧ w = done.flatten ++ wsOut s.writer
  wire : w <+: oks.flatten

theorem WsBuf.same {s t : WsSend.State} {bu : Option (Nat × Bytes)} {oks : List Bytes} {e : Option Bytes} {w : Bytes} (h : WsBuf s bu oks e w) (e1 : t.s = s.s) (e2 : t.chan = s.chan) (e3 : t.writer = s.writer)
    (e4 : t.broken = false → s.broken = false) (e5 : t.closed = true → t.broken = true) (e6 : t.fin = .close → t.broken = true) : WsBuf t bu oks e w :=
  ⟨h.free, e1 ▸ h.idle, e1 ▸ h.busy, by rw [e2, e3]; exact h.chan, e5, e6, fun hx => by rw [e2, e3]; exact h.good (e4 hx), h.wire⟩

/-- A send ends without success. -/
theorem WsBuf.gone {s t : WsSend.State} {i : Nat} {m : Bytes} {oks : List Bytes} {e : Option Bytes} {w : Bytes} (h : WsBuf s (some (i, m)) oks e w) (e1 : t.s = WsSend.set s.s i .idle)
    (e2 : t.chan = s.chan ∧ t.writer = s.writer ∨ s.chan = .none ∧ t.chan = some ⟨[], false⟩ ∧ t.writer = .select) (e4 : t.broken = s.broken) (e5 : t.closed = s.closed) (e6 : t.fin = s.fin) : WsBuf t none oks e w := by
  refine ⟨h.free, fun j _ => ?_, nofun, ?_, by rw [e4, e5]; exact h.closed, by rw [e4, e6]; exact h.fin, fun hx => ?_, h.wire⟩
  · rw [e1]
    simp only [WsSend.set]
    split
    · rfl
    · rename_i hne; exact h.idle j fun m' e => by cases e; exact hne rfl
  · rcases e2 with ⟨e2, e3⟩ | ⟨_, e2, _⟩
    · rw [e2, e3]; exact h.chan
    · rw [e2]; nofun
  · rw [e4] at hx
    obtain ⟨d, h1, h2⟩ := h.good hx
    rcases e2 with ⟨e2, e3⟩ | ⟨e0, e2, e3⟩
    · rw [e2, e3]; exact ⟨d, h1, h2⟩
    · rw [h.chan e0, e0] at h1
      rw [h.chan e0] at h2
      exact ⟨d, by rw [e2, e3]; exact h1, by rw [e3]; exact h2⟩

theorem withChan_cases (s : WsSend.State) : (s.withChan.chan = s.chan ∧ s.withChan.writer = s.writer ∨ s.chan = .none ∧ s.withChan.chan = some ⟨[], false⟩ ∧ s.withChan.writer = .select) ∧
    s.withChan.s = s.s ∧ s.withChan.broken = s.broken ∧ s.withChan.closed = s.closed ∧ s.withChan.fin = s.fin := by
  unfold WsSend.State.withChan
  cases h : s.chan with
  | none => exact ⟨.inr ⟨rfl, rfl, rfl⟩, rfl, rfl, rfl, rfl⟩
  | some c => exact ⟨.inl ⟨h, rfl⟩, rfl, rfl, rfl, rfl⟩

def wsBuffered (cc : Nat) : Carrier (ws cc true) where
  I := WsBuf
  init := ⟨rfl, fun _ _ => rfl, nofun, fun _ => rfl, nofun, nofun, fun _ => ⟨[], rfl, rfl⟩, List.prefix_rfl⟩
  call := by
    intro s t oks e w i m h hs
    cases hs with
    | call _ _ hi =>
      refine ⟨h.free, fun j hj => ?_, fun j m' hj => ?_, h.chan, h.closed, h.fin, h.good, h.wire⟩
      · have : j ≠ i := fun e => hj m (by rw [e])
        simp only [WsSend.set, this, if_false]
        exact h.idle j nofun
      · cases hj; exact .inl (by simp [WsSend.set])
  retOk := by
    intro s t oks e w i m l h hs hr hok
    have hb := h.busy i m rfl
    cases hs <;> simp only [ws, Bool.false_eq_true, decide_eq_true_eq] at hr hok
    · subst hr
      rename_i hw _
      rw [hw] at hb
      rcases hb with hb | hb <;> cases hb
    · subst hr
      rename_i m' c hw hc hcl hlt
      rw [hw] at hb
      have hm : m' = m := by rcases hb with hb | hb <;> cases hb; rfl
      subst hm
      refine ⟨h.free, rfl, fun j _ => ?_, nofun, nofun, h.closed, h.fin, fun hx => ?_, ?_⟩
      · simp only [WsSend.set]
        split
        · rfl
        · rename_i hne; exact h.idle j fun m' e => by cases e; exact hne rfl
      · obtain ⟨d, h1, h2⟩ := h.good hx
        exact ⟨d, by rw [h1, hc]; simp [wsItems], by simpa [ws, Pipe.wsWritten] using h2⟩
      · simpa [ws, Pipe.wsWritten] using h.wire.trans (List.prefix_append _ _)
  retErr := by
    intro s t oks e w i m l h hs hr hok
    have hb := h.busy i m rfl
    refine ⟨e, .inl rfl, ?_⟩
    cases hs <;> simp only [ws, Bool.false_eq_true, decide_eq_true_eq, reduceCtorEq] at hr hok <;> subst hr
    · rename_i hw _ _
      rw [hw] at hb
      rcases hb with hb | hb <;> cases hb
    · rename_i hw _
      rw [hw] at hb
      rcases hb with hb | hb <;> cases hb
    · obtain ⟨g1, g2, g3, g4, g5⟩ := withChan_cases s
      show WsBuf _ _ _ _ (w ++ [])
      rw [List.append_nil]
      exact h.gone rfl g1 g3 g4 g5
    · show WsBuf _ _ _ _ (w ++ [])
      rw [List.append_nil]
      exact h.gone rfl (.inl ⟨rfl, rfl⟩) rfl rfl rfl
    · show WsBuf _ _ _ _ (w ++ [])
      rw [List.append_nil]
      exact h.gone rfl (.inl ⟨rfl, rfl⟩) rfl rfl rfl
  other := by
    intro s t bu oks e w l h hs hc hr
    have hsome : ∀ i, s.s i ≠ .idle → ∃ m, bu = some (i, m) := fun i hi => Classical.byContradiction fun hn => hi (h.idle i fun m e => hn ⟨m, e⟩)
    have quiet : Pipe.wsWritten l = [] → WsBuf t bu oks e w → WsBuf t bu oks e (w ++ Pipe.wsWritten l) := fun e1 h => by rw [e1, List.append_nil]; exact h
    cases hs with
    | buffOpen i m hi hl hcl =>
      obtain ⟨m', rfl⟩ := hsome i (by rw [hi]; nofun)
      have hm : m' = m := by rcases h.busy i m' rfl with hb | hb <;> rw [hi] at hb <;> cases hb; rfl
      subst hm
      obtain ⟨g1, g2, g3, g4, g5⟩ := withChan_cases s
      have hg := h.gone (t := { s.withChan with s := WsSend.set s.s i .idle, lock := some (.sender i) }) rfl g1 g3 g4 g5
      refine quiet rfl ⟨h.free, fun j hj => ?_, fun j m hj => ?_, hg.chan, hg.closed, hg.fin, hg.good, h.wire⟩
      · have : j ≠ i := fun e => hj m' (by rw [e])
        simp only [WsSend.set, this, if_false]
        exact h.idle j hj
      · cases hj; exact .inr (by simp [WsSend.set])
    | directOpen i m hi =>
      obtain ⟨m', rfl⟩ := hsome i (by rw [hi]; nofun)
      rcases h.busy i m' rfl with hb | hb <;> rw [hi] at hb <;> cases hb
    | write i _ _ _ hi =>
      obtain ⟨m', rfl⟩ := hsome i (by rw [hi]; nofun)
      rcases h.busy i m' rfl with hb | hb <;> rw [hi] at hb <;> cases hb
    | stop => exact quiet rfl (h.same rfl rfl rfl id h.closed h.fin)
    | netFail => exact quiet rfl (h.same rfl rfl rfl nofun (fun _ => rfl) fun _ => rfl)
    | finStart => exact quiet rfl (h.same rfl rfl rfl id h.closed nofun)
    | hookDone => exact quiet rfl (h.same rfl rfl rfl id h.closed nofun)
    | finLock => exact quiet rfl (h.same rfl rfl rfl id h.closed nofun)
    | finLockClosed => exact quiet rfl (h.same rfl rfl rfl id h.closed nofun)
    | finSock => exact quiet rfl (h.same rfl rfl rfl nofun (fun _ => rfl) fun _ => rfl)
    | finNoChan hf => exact quiet rfl (h.same rfl rfl rfl id (fun _ => h.fin hf) nofun)
    | finChan c hf hch =>
      refine quiet rfl ⟨h.free, h.idle, h.busy, nofun, fun _ => h.fin hf, nofun, fun hx => ?_, h.wire⟩
      have := h.fin hf
      dsimp only at hx
      rw [this] at hx; cases hx
    | finPanic c hf => exact quiet rfl (h.same rfl rfl rfl id h.closed nofun)
    | call => simp [ws] at hc
    | directClosed i => simpa [ws] using hr i
    | writeEnd i => simpa [ws] using hr i
    | writeFail i => simpa [ws] using hr i
    | buffClosed i => simpa [ws] using hr i
    | enq i => simpa [ws] using hr i
    | enqPanic i => simpa [ws] using hr i
    | timeout i => simpa [ws] using hr i
    | recv m ms c hw hch =>
      refine quiet rfl ⟨h.free, h.idle, h.busy, nofun, h.closed, h.fin, fun hx => ?_, h.wire⟩
      obtain ⟨d, h1, h2⟩ := h.good hx
      rw [hw] at h1 h2
      rw [hch] at h1
      exact ⟨d, h1, h2⟩
    | recvClosed => exact quiet rfl h
    | ctxDone hw =>
      refine quiet rfl ⟨h.free, h.idle, h.busy, fun hx => ?_, h.closed, h.fin, fun hx => ?_, h.wire⟩
      · have := h.chan hx; rw [hw] at this; cases this
      · obtain ⟨d, h1, h2⟩ := h.good hx
        rw [hw] at h1 h2
        exact ⟨d, h1, h2⟩
    | wClosed m hw _ hcl =>
      refine quiet rfl ⟨h.free, h.idle, h.busy, fun hx => ?_, h.closed, h.fin, fun hx => ?_, h.wire⟩
      · have := h.chan hx; rw [hw] at this; cases this
      · have := h.closed hcl
        dsimp only at hx
        rw [this] at hx; cases hx
    | wOpen m hw =>
      refine quiet rfl ⟨h.free, h.idle, h.busy, fun hx => ?_, h.closed, h.fin, fun hx => ?_, h.wire⟩
      · have := h.chan hx; rw [hw] at this; cases this
      · obtain ⟨d, h1, h2⟩ := h.good hx
        rw [hw] at h1 h2
        exact ⟨d, h1, h2⟩
    | wwrite out y rest hw hy hbr =>
      obtain ⟨d, h1, h2⟩ := h.good hbr
      rw [hw] at h1 h2
      show WsBuf _ _ _ _ (w ++ y)
      refine ⟨h.free, h.idle, h.busy, fun hx => ?_, h.closed, h.fin, fun hx => ⟨d, by rw [h1]; simp [wsHas], by rw [h2]; simp [wsOut]⟩, ?_⟩
      · have := h.chan hx; rw [hw] at this; cases this
      · rw [h1, h2]; simp [wsHas, wsOut]
    | wend m hw hbr =>
      obtain ⟨d, h1, h2⟩ := h.good hbr
      rw [hw] at h1 h2
      refine quiet rfl ⟨h.free, h.idle, h.busy, fun hx => ?_, h.closed, h.fin, fun hx => ⟨d ++ [m], by rw [h1]; simp [wsHas], by rw [h2]; simp [wsOut]⟩, h.wire⟩
      have := h.chan hx; rw [hw] at this; cases this
    | wfail _ _ hw hbr =>
      refine quiet rfl ⟨h.free, h.idle, h.busy, fun hx => ?_, h.closed, h.fin, fun hx => ?_, h.wire⟩
      · have := h.chan hx; rw [hw] at this; cases this
      · dsimp only at hx
        rw [hbr] at hx; cases hx
  wire h := by
    rw [h.free]
    exact h.wire.trans (by rw [List.flatten_append]; exact List.prefix_append _ _)

end Zinx.RpcAny
