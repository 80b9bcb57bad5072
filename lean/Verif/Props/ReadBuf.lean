import Verif.Model.ReadBuf
import Verif.Model.Fair
import Verif.Lemmas.ExecOf
import Verif.Props.Wire

/-! # C124: the read buffer may have any size -/

namespace Zinx.Props
open Zinx Zinx.ReadBuf Zinx.Pack Zinx.Frame

/-- What is read and what is still to be read make up what has arrived; every piece fits into the buffer; the heartbeat hears of each piece that is not empty. -/
structure ReadInv (b : Nat) (s : ReadBuf.State) : Prop where
  all : s.got.flatten ++ s.flight = s.arrived
  fits : ∀ x ∈ s.got, x.length ≤ b
  some : 0 < b → ∀ x ∈ s.got, x ≠ []
  active : s.active = (s.got.filter fun x => 0 < x.length).length
  ended : s.pc = .ended → s.closed = true

theorem readInv_step {k : ReadBuf.Kind} {b : Nat} {s : ReadBuf.State} {l : ReadBuf.Label} {t : ReadBuf.State} (h : ReadInv b s) (hs : ReadBuf.Step k b s l t) : ReadInv b t := by
  cases hs with
  | arrive x _ => exact ⟨by simp [← h.all], h.fits, h.some, h.active, h.ended⟩
  | hangUp _ => exact ⟨h.all, h.fits, h.some, h.active, h.ended⟩
  | stop => exact ⟨h.all, h.fits, h.some, h.active, fun _ => rfl⟩
  | go _ _ => exact ⟨h.all, h.fits, h.some, h.active, fun e => by cases e⟩
  | quit _ hc => exact ⟨h.all, h.fits, h.some, h.active, fun _ => hc⟩
  | fail _ _ => exact ⟨h.all, h.fits, h.some, h.active, fun _ => rfl⟩
  | read x hp hc =>
    have hx : x ++ s.flight.drop x.length = s.flight := by
      generalize s.flight = f at hc
      cases hc with
      | some _ _ => simp
      | tcpEmpty _ => simp
      | kcpEmpty _ _ => simp
    refine ⟨?_, ?_, ?_, ?_, fun e => by cases e⟩
    · show (s.got ++ [x]).flatten ++ s.flight.drop x.length = s.arrived
      rw [← h.all, List.flatten_append]
      simp [hx]
    · intro y hy
      rcases List.mem_append.1 hy with hy | hy
      · exact h.fits y hy
      · obtain rfl := List.mem_singleton.1 hy
        generalize s.flight = f at hc
        cases hc with
        | some _ h2 => exact h2
        | tcpEmpty _ => exact Nat.zero_le _
        | kcpEmpty _ _ => exact Nat.zero_le _
    · intro hb y hy
      rcases List.mem_append.1 hy with hy | hy
      · exact h.some hb y hy
      · obtain rfl := List.mem_singleton.1 hy
        generalize s.flight = f at hc
        cases hc with
        | some h1 _ => exact h1
        | tcpEmpty e => omega
        | kcpEmpty e _ => omega
    · show s.active + _ = _
      rw [h.active, List.filter_append, List.length_append]
      by_cases hx : 0 < x.length <;> simp [hx]

theorem readInv_init (b : Nat) : ReadInv b ReadBuf.init := ⟨rfl, fun x hx => (by cases hx), fun _ x hx => (by cases hx), rfl, fun e => (by cases e)⟩

/-- Whatever the size of the buffer and whoever does what when: the pieces read are a prefix of what arrived, cut up but neither lost, repeated nor reordered; no piece is longer than the buffer, and with a
buffer that is not empty no piece is empty. -/
theorem C124_prefix (k : ReadBuf.Kind) (b : Nat) (ls : List ReadBuf.Label) (s : ReadBuf.State) (h : Steps (ReadBuf.Step k b) ReadBuf.init ls s) :
    s.got.flatten <+: s.arrived ∧ (∀ x ∈ s.got, x.length ≤ b) ∧ (0 < b → ∀ x ∈ s.got, x ≠ [] ) := by
  have hI := h.invariant (P := ReadInv b) (fun _ _ _ h hs => readInv_step h hs) (readInv_init b)
  exact ⟨⟨s.flight, hI.all⟩, hI.fits, hI.some⟩

/-- The bytes that have arrived stay, and more are added behind them. -/
theorem read_arrived {k : ReadBuf.Kind} {b : Nat} {s : ReadBuf.State} {l : ReadBuf.Label} {t : ReadBuf.State} (hs : ReadBuf.Step k b s l t) : s.arrived <+: t.arrived := by
  cases hs with
  | arrive x _ => exact ⟨x, rfl⟩
  | _ => exact List.prefix_refl _

theorem canRead_some {k : ReadBuf.Kind} {b : Nat} (hb : 0 < b) {f : ReadBuf.Bytes} (hf : f ≠ []) : ∃ x, CanRead b k f x := by
  cases f with
  | nil => exact absurd rfl hf
  | cons a f => exact ⟨[a], CanRead.some (x := [a]) (rest := f) (by simp) hb⟩

theorem canRead_pos {k : ReadBuf.Kind} {b : Nat} (hb : 0 < b) {f x : ReadBuf.Bytes} (h : CanRead b k f x) : 0 < x.length ∧ x.length ≤ f.length := by
  cases h with
  | some h1 _ => exact ⟨List.length_pos_iff.2 h1, by simp⟩
  | tcpEmpty e => omega
  | kcpEmpty e _ => omega

/-- With room for one byte or more, everything that has arrived is read in the end, unless the connection is stopped first. -/
theorem C124_partial (k : ReadBuf.Kind) (b : Nat) (hb : 0 < b) (e : Exec (ReadBuf.Step k b)) (h0 : e.run 0 = ReadBuf.init) (hf : e.WeakFair ReadBuf.Label.reader) (n : Nat) :
    ∃ m, n ≤ m ∧ ((e.run n).arrived <+: (e.run m).got.flatten ∨ (e.run m).closed = true) := by
  have hI : ∀ m, ReadInv b (e.run m) := fun m => e.invariant (P := ReadInv b) (fun _ _ _ h hs => readInv_step h hs) (n := 0) (by rw [h0]; exact readInv_init b) m (Nat.zero_le _)
  have hA : ∀ m, n ≤ m → (e.run n).arrived <+: (e.run m).arrived := fun m hm =>
    e.invariant (P := fun s => (e.run n).arrived <+: s.arrived) (fun _ _ _ h hs => h.trans (read_arrived hs)) (List.prefix_refl _) m hm
  suffices H : ∃ m, n ≤ m ∧ ((e.run n).arrived.length ≤ (e.run m).got.flatten.length ∨ (e.run m).closed = true) by
    obtain ⟨m, hm, h | h⟩ := H
    · exact ⟨m, hm, .inl (List.prefix_of_prefix_length_le (hA m hm) ⟨_, (hI m).all⟩ h)⟩
    · exact ⟨m, hm, .inr h⟩
  obtain ⟨K, hk⟩ : ∃ K, (e.run n).arrived.length = K := ⟨_, rfl⟩
  have hK : K ≤ (e.run n).arrived.length := Nat.le_of_eq hk.symm
  rw [hk]
  by_cases hnow : K ≤ (e.run n).got.flatten.length ∨ (e.run n).closed = true
  · exact ⟨n, Nat.le_refl _, hnow⟩
  refine e.leads_weak_dec hf (P := fun s => ReadInv b s ∧ s.closed = false ∧ s.got.flatten.length < K ∧ K ≤ s.arrived.length) (Q := fun s => K ≤ s.got.flatten.length ∨ s.closed = true)
    (fun s => 2 * (K - s.got.flatten.length) + if s.pc = .top then 1 else 0) (fun s l t hp hs => ?_) (fun s l t hp hs hl => ?_) (fun s hp => ?_) ⟨hI n, by simpa using fun h => hnow (.inr h), by omega, hK⟩
  · have hI' := readInv_step hp.1 hs
    obtain ⟨h1, h2, h3, h4⟩ := hp
    cases hs with
    | arrive x _ => exact .inl ⟨⟨hI', h2, h3, by simp; omega⟩, Nat.le_refl _⟩
    | hangUp _ => exact .inl ⟨⟨hI', h2, h3, h4⟩, Nat.le_refl _⟩
    | stop => exact .inr (.inr rfl)
    | go hp _ => exact .inl ⟨⟨hI', h2, h3, h4⟩, by simp [hp]⟩
    | quit _ hc => rw [h2] at hc; cases hc
    | fail _ _ => exact .inr (.inr rfl)
    | read x hp hc =>
      have hx := canRead_pos hb hc
      have hl : (s.got ++ [x]).flatten.length = s.got.flatten.length + x.length := by rw [List.flatten_append, List.length_append]; simp
      by_cases hd : K ≤ (s.got ++ [x]).flatten.length
      · exact .inr (.inl hd)
      · refine .inl ⟨⟨hI', h2, by simpa using hd, h4⟩, ?_⟩
        show 2 * (K - (s.got ++ [x]).flatten.length) + 1 ≤ _
        rw [hl] at hd ⊢
        omega
  · have hI' := readInv_step hp.1 hs
    obtain ⟨h1, h2, h3, h4⟩ := hp
    cases hs with
    | arrive x _ => cases hl
    | hangUp _ => cases hl
    | stop => cases hl
    | go hp _ => exact .inl ⟨⟨hI', h2, h3, h4⟩, by simp [hp]⟩
    | quit _ hc => rw [h2] at hc; cases hc
    | fail _ _ => exact .inr (.inr rfl)
    | read x hp hc =>
      have hx := canRead_pos hb hc
      have hl : (s.got ++ [x]).flatten.length = s.got.flatten.length + x.length := by rw [List.flatten_append, List.length_append]; simp
      by_cases hd : K ≤ (s.got ++ [x]).flatten.length
      · exact .inr (.inl hd)
      · refine .inl ⟨⟨hI', h2, by simpa using hd, h4⟩, ?_⟩
        show 2 * (K - (s.got ++ [x]).flatten.length) + 1 < _
        rw [hl] at hd ⊢
        omega
  · obtain ⟨h1, h2, h3, h4⟩ := hp
    cases hpc : s.pc with
    | top => exact ⟨.go, _, trivial, .go s hpc h2⟩
    | ended => have := h1.ended hpc; rw [h2] at this; cases this
    | reading =>
      have hne : s.flight ≠ [] := by
        intro h
        have := h1.all
        rw [h, List.append_nil] at this
        rw [this] at h3
        omega
      obtain ⟨x, hx⟩ := canRead_some (k := k) hb hne
      exact ⟨.read x, _, trivial, .read s x hpc hx⟩

/-- With room for one byte or more, a TCP reader notices that its peer has gone, and stops. -/
theorem C124_notices (b : Nat) (hb : 0 < b) (e : Exec (ReadBuf.Step .tcp b)) (h0 : e.run 0 = ReadBuf.init) (hf : e.WeakFair ReadBuf.Label.reader) (n : Nat) (hn : (e.run n).eof = true) :
    ∃ m, n ≤ m ∧ (e.run m).pc = .ended ∧ (e.run m).closed = true := by
  have hI : ∀ m, ReadInv b (e.run m) := fun m => e.invariant (P := ReadInv b) (fun _ _ _ h hs => readInv_step h hs) (n := 0) (by rw [h0]; exact readInv_init b) m (Nat.zero_le _)
  by_cases hnow : (e.run n).pc = .ended
  · exact ⟨n, Nat.le_refl _, hnow, (hI n).ended hnow⟩
  obtain ⟨m, hm, h⟩ := e.leads_weak_dec hf (P := fun s => s.eof = true ∧ s.pc ≠ .ended) (Q := fun s => s.pc = .ended)
    (fun s => 2 * s.flight.length + if s.pc = .top then 1 else 0)
    (fun s l t hp hs => by
      obtain ⟨h1, h2⟩ := hp
      cases hs with
      | arrive x h => rw [h1] at h; cases h
      | hangUp h => rw [h1] at h; cases h
      | stop => exact .inl ⟨⟨h1, h2⟩, Nat.le_refl _⟩
      | go hp _ => exact .inl ⟨⟨h1, by simp⟩, by simp [hp]⟩
      | quit _ hc => exact .inr rfl
      | fail _ _ => exact .inr rfl
      | read x hp hc =>
        have hx := canRead_pos hb hc
        refine .inl ⟨⟨h1, by simp⟩, ?_⟩
        show 2 * (s.flight.drop x.length).length + 1 ≤ _
        rw [List.length_drop]
        omega)
    (fun s l t hp hs hl => by
      obtain ⟨h1, h2⟩ := hp
      cases hs with
      | arrive x _ => cases hl
      | hangUp _ => cases hl
      | stop => cases hl
      | go hp _ => exact .inl ⟨⟨h1, by simp⟩, by simp [hp]⟩
      | quit _ hc => exact .inr rfl
      | fail _ _ => exact .inr rfl
      | read x hp hc =>
        have hx := canRead_pos hb hc
        refine .inl ⟨⟨h1, by simp⟩, ?_⟩
        show 2 * (s.flight.drop x.length).length + 1 < _
        rw [List.length_drop]
        omega)
    (fun s hp => by
      obtain ⟨h1, h2⟩ := hp
      cases hpc : s.pc with
      | top =>
        cases hc : s.closed with
        | false => exact ⟨.go, _, trivial, .go s hpc hc⟩
        | true => exact ⟨.quit, _, trivial, .quit s hpc hc⟩
      | ended => exact absurd hpc h2
      | reading =>
        by_cases hf : s.flight = []
        · exact ⟨.fail, _, trivial, .fail s hpc (.inr ⟨rfl, hb, h1, hf⟩)⟩
        · obtain ⟨x, hx⟩ := canRead_some (k := .tcp) hb hf
          exact ⟨.read x, _, trivial, .read s x hpc hx⟩)
    (n := n) ⟨hn, hnow⟩
  exact ⟨m, hm, h, (hI m).ended h⟩

/-- The messages do not depend on the size of the buffer: when everything that arrived has been read, the decoder of the default protocol has delivered exactly the messages that were sent. -/
theorem C124_messages (k : ReadBuf.Kind) (b : Nat) (ls : List ReadBuf.Label) (s : ReadBuf.State) (h : Steps (ReadBuf.Step k b) ReadBuf.init ls s) (hall : s.flight = [])
    (msgs : List (UInt32 × ReadBuf.Bytes)) (hm : ∀ m ∈ msgs, m.2.length < 2 ^ 32 - 8) (ha : s.arrived = (msgs.map fun m => packTlv (newMsgPackage m.1 m.2)).flatten) :
    (Decoder.receiveNew .tlv s.got).1.map (fun r => (r.1.id, r.1.data)) = msgs := by
  have hI := h.invariant (P := ReadInv b) (fun _ _ _ h hs => readInv_step h hs) (readInv_init b)
  have hr : s.got.flatten = (msgs.map fun m => packTlv (newMsgPackage m.1 m.2)).flatten ++ [] := by
    have := hI.all
    rw [hall, List.append_nil] at this
    rw [this, ha, List.append_nil]
  exact (C11_tlv_end_to_end msgs hm (0, []) (by simp) [] (packTlv (newMsgPackage 0 [])) rfl (by decide) s.got hr).1

/-- With an empty buffer nothing is ever read: every piece passed on is empty, all that arrived is still there, the heartbeat hears nothing, and the reader ends only after somebody else has stopped the connection; the
peer's going is not noticed. -/
theorem C124_zero (k : ReadBuf.Kind) (ls : List ReadBuf.Label) (s : ReadBuf.State) (h : Steps (ReadBuf.Step k 0) ReadBuf.init ls s) :
    s.flight = s.arrived ∧ (∀ x ∈ s.got, x = []) ∧ s.active = 0 ∧ (s.pc = .ended → ReadBuf.Label.stop ∈ ls) := by
  have hI := h.invariant (P := ReadInv 0) (fun _ _ _ h hs => readInv_step h hs) (readInv_init 0)
  have he : ∀ x ∈ s.got, x = [] := fun x hx => List.eq_nil_of_length_eq_zero (Nat.le_zero.1 (hI.fits x hx))
  have hst : s.closed = true → ReadBuf.Label.stop ∈ ls := by
    refine h.invariant_trace (P := fun ls s => s.closed = true → ReadBuf.Label.stop ∈ ls) (fun ls s l t ih hs => ?_) (fun e => by cases e)
    intro hc
    cases hs with
    | stop => simp
    | fail _ h =>
      rcases h with h | ⟨_, h, _⟩
      · exact List.mem_append_left _ (ih h)
      · omega
    | _ => exact List.mem_append_left _ (ih hc)
  refine ⟨?_, he, ?_, fun e => hst (hI.ended e)⟩
  · have := hI.all
    rw [List.flatten_eq_nil_iff.2 he] at this
    simpa using this
  · rw [hI.active, List.filter_eq_nil_iff.2 (fun x hx => by simp [he x hx])]
    rfl

/-- With an empty buffer a TCP reader never waits, whether or not the peer sends anything: it goes round its loop for ever and passes on an empty piece each time, which without a frame decoder is a message for the
handlers. It does so again and again until the connection is stopped. -/
theorem C124_spins (e : Exec (ReadBuf.Step .tcp 0)) (h0 : e.run 0 = ReadBuf.init) (hf : e.WeakFair ReadBuf.Label.reader) (N : Nat) : ∃ m, N ≤ (e.run m).got.length ∨ (e.run m).closed = true := by
  have hI : ∀ m, ReadInv 0 (e.run m) := fun m => e.invariant (P := ReadInv 0) (fun _ _ _ h hs => readInv_step h hs) (n := 0) (by rw [h0]; exact readInv_init 0) m (Nat.zero_le _)
  by_cases hN : N = 0
  · exact ⟨0, .inl (by omega)⟩
  obtain ⟨m, _, h⟩ := e.leads_weak_dec hf (n := 0) (P := fun s => ReadInv 0 s ∧ s.closed = false ∧ s.got.length < N) (Q := fun s => N ≤ s.got.length ∨ s.closed = true)
    (fun s => 2 * (N - s.got.length) + if s.pc = .top then 1 else 0)
    (fun s l t hp hs => by
      have hI' := readInv_step hp.1 hs
      obtain ⟨h1, h2, h3⟩ := hp
      cases hs with
      | arrive x h => exact .inl ⟨⟨hI', h2, h3⟩, Nat.le_refl _⟩
      | hangUp h => exact .inl ⟨⟨hI', h2, h3⟩, Nat.le_refl _⟩
      | stop => exact .inr (.inr rfl)
      | go hp _ => exact .inl ⟨⟨hI', h2, h3⟩, by simp [hp]⟩
      | quit _ hc => rw [h2] at hc; cases hc
      | fail _ _ => exact .inr (.inr rfl)
      | read x hp hc =>
        by_cases hd : N ≤ (s.got ++ [x]).length
        · exact .inr (.inl hd)
        · refine .inl ⟨⟨hI', h2, Nat.lt_of_not_le hd⟩, ?_⟩
          show 2 * (N - (s.got ++ [x]).length) + 1 ≤ _
          rw [List.length_append, List.length_singleton] at hd ⊢
          omega)
    (fun s l t hp hs hl => by
      have hI' := readInv_step hp.1 hs
      obtain ⟨h1, h2, h3⟩ := hp
      cases hs with
      | arrive x _ => cases hl
      | hangUp _ => cases hl
      | stop => cases hl
      | go hp _ => exact .inl ⟨⟨hI', h2, h3⟩, by simp [hp]⟩
      | quit _ hc => rw [h2] at hc; cases hc
      | fail _ _ => exact .inr (.inr rfl)
      | read x hp hc =>
        by_cases hd : N ≤ (s.got ++ [x]).length
        · exact .inr (.inl hd)
        · refine .inl ⟨⟨hI', h2, Nat.lt_of_not_le hd⟩, ?_⟩
          show 2 * (N - (s.got ++ [x]).length) + 1 < _
          rw [List.length_append, List.length_singleton] at hd ⊢
          omega)
    (fun s hp => by
      obtain ⟨h1, h2, h3⟩ := hp
      cases hpc : s.pc with
      | top => exact ⟨.go, _, trivial, .go s hpc h2⟩
      | ended => have := h1.ended hpc; rw [h2] at this; cases this
      | reading => exact ⟨.read [], _, trivial, .read s [] hpc (.tcpEmpty rfl)⟩)
    (by rw [h0]; exact ⟨readInv_init 0, rfl, by show 0 < N; omega⟩)
  exact ⟨m, h⟩

/-- A byte arrives and the reader goes round and round. -/
def spinState : Nat → ReadBuf.State
  | 0 => {}
  | n + 1 => { pc := if n % 2 = 0 then .top else .reading, arrived := [7], flight := [7], got := List.replicate (n / 2) [] }

def spinAct : Nat → ReadBuf.Label
  | 0 => .arrive [7]
  | n + 1 => if n % 2 = 0 then .go else .read []

theorem spin_step (k : ReadBuf.Kind) : ∀ n, ReadBuf.Step k 0 (spinState n) (spinAct n) (spinState (n + 1)) := by
  intro n
  cases n with
  | zero => exact .arrive _ [7] rfl
  | succ n =>
    by_cases h : n % 2 = 0
    · have h1 : spinState (n + 1) = { pc := .top, arrived := [7], flight := [7], got := List.replicate (n / 2) [] } := by simp [spinState, h]
      have h2 : spinState (n + 2) = { pc := .reading, arrived := [7], flight := [7], got := List.replicate (n / 2) [] } := by
        have e1 : (n + 1) % 2 = 1 := by omega
        have e2 : (n + 1) / 2 = n / 2 := by omega
        simp [spinState, e1, e2]
      have h3 : spinAct (n + 1) = .go := by simp [spinAct, h]
      rw [h1, h2, h3]
      exact .go _ rfl rfl
    · have h1 : spinState (n + 1) = { pc := .reading, arrived := [7], flight := [7], got := List.replicate (n / 2) [] } := by simp [spinState, h]
      have h2 : spinState (n + 2) = { pc := .top, arrived := [7], flight := [7], got := List.replicate (n / 2) [] ++ [[]] } := by
        have e1 : (n + 1) % 2 = 0 := by omega
        have e2 : (n + 1) / 2 = n / 2 + 1 := by omega
        simp [spinState, e1, e2, List.replicate_succ']
      have h3 : spinAct (n + 1) = .read [] := by simp [spinAct, h]
      rw [h1, h2, h3]
      refine .read { pc := .reading, arrived := [7], flight := [7], got := List.replicate (n / 2) [] } [] rfl ?_
      cases k with
      | tcp => exact .tcpEmpty rfl
      | kcp => exact .kcpEmpty rfl (by simp)

/-- The endless execution of a reader whose buffer is empty. -/
def spinExec (k : ReadBuf.Kind) : Exec (ReadBuf.Step k 0) where
  run := spinState
  act n := some (spinAct n)
  next := spin_step k

theorem spin_fair (k : ReadBuf.Kind) : (spinExec k).WeakFair ReadBuf.Label.reader := by
  intro n _
  refine ⟨n + 1, spinAct (n + 1), by omega, rfl, ?_⟩
  unfold spinAct
  by_cases h : n % 2 = 0 <;> simp [h, ReadBuf.Label.reader]

/-- The property as stated is false of an empty buffer: a byte arrives, the connection is never stopped, the reader is busy all the time, and the byte is never read. -/
theorem C124_refuted (k : ReadBuf.Kind) : ∃ e : Exec (ReadBuf.Step k 0), e.run 0 = ReadBuf.init ∧ e.WeakFair ReadBuf.Label.reader ∧ (e.run 1).arrived = [7] ∧
    (∀ n, (e.run n).closed = false ∧ (e.run n).got.flatten = []) ∧ ∀ N, ∃ n, N ≤ (e.run n).got.length := by
  refine ⟨spinExec k, rfl, spin_fair k, rfl, fun n => ?_, fun N => ⟨2 * N + 1, ?_⟩⟩
  · cases n with
    | zero => exact ⟨rfl, rfl⟩
    | succ n => exact ⟨rfl, List.flatten_eq_nil_iff.2 fun x hx => (List.mem_replicate.1 hx).2⟩
  · show N ≤ (List.replicate (2 * N / 2) []).length
    rw [List.length_replicate]
    omega

/-- The sizes that will do are exactly those above zero. -/
theorem C124_exact (k : ReadBuf.Kind) (b : Nat) : (∀ e : Exec (ReadBuf.Step k b), e.run 0 = ReadBuf.init → e.WeakFair ReadBuf.Label.reader → ∀ n, ∃ m, n ≤ m ∧ ((e.run n).arrived <+: (e.run m).got.flatten ∨ (e.run m).closed = true)) ↔
    0 < b := by
  refine ⟨fun h => ?_, fun hb e h0 hf n => C124_partial k b hb e h0 hf n⟩
  apply Nat.pos_of_ne_zero
  rintro rfl
  obtain ⟨e, h0, hf, h1, h2, _⟩ := C124_refuted k
  obtain ⟨m, _, h | h⟩ := h e h0 hf 1
  · rw [h1, (h2 m).2] at h
    cases List.prefix_nil.1 h
  · rw [(h2 m).1] at h
    cases h

/-- A connection that goes on without its peer: with an empty buffer the end of the stream is there and the reader does not see it. -/
def zeroBuf : ReadBuf.State := { pc := .top, arrived := [7], flight := [7], got := [[], []], active := 0, eof := true, closed := false }

theorem zero_run : Steps (ReadBuf.Step .tcp 0) ReadBuf.init [.go, .arrive [7], .read [], .go, .hangUp, .read []] zeroBuf := by
  refine .cons (.go _ rfl rfl) (.cons (.arrive _ [7] rfl) (.cons (.read _ [] rfl (.tcpEmpty rfl)) (.cons (.go _ rfl rfl) (.cons (.hangUp _ rfl) ?_))))
  have h : ReadBuf.Step .tcp 0 { pc := .reading, arrived := [7], flight := [7], got := [[]], active := 0, eof := true, closed := false } (.read []) zeroBuf := .read _ [] rfl (.tcpEmpty rfl)
  exact .cons h (.nil _)

/-- Hypotheses of `C124_zero` and `C124_spins` are met. -/
example : zeroBuf.flight = zeroBuf.arrived ∧ (∀ x ∈ zeroBuf.got, x = []) ∧ zeroBuf.active = 0 ∧ (zeroBuf.pc = .ended → ReadBuf.Label.stop ∈ [ReadBuf.Label.go, .arrive [7], .read [], .go, .hangUp, .read []]) :=
  C124_zero .tcp _ _ zero_run

example : ∃ m, 100 ≤ ((spinExec .tcp).run m).got.length ∨ ((spinExec .tcp).run m).closed = true := C124_spins (spinExec .tcp) rfl (spin_fair .tcp) 100

/-- Three bytes and a buffer of two: read in two pieces, then the peer is seen to have gone. -/
def twoBuf : ReadBuf.State := { pc := .ended, arrived := [1, 2, 3], flight := [], got := [[1, 2], [3]], active := 2, eof := true, closed := true }

theorem two_run : Steps (ReadBuf.Step .tcp 2) ReadBuf.init [.arrive [1, 2, 3], .go, .read [1, 2], .hangUp, .go, .read [3], .go, .fail] twoBuf := by
  refine .cons (.arrive _ [1, 2, 3] rfl) (.cons (.go _ rfl rfl) ?_)
  refine .cons (.read _ [1, 2] rfl (CanRead.some (x := [1, 2]) (rest := [3]) (by simp) (by simp))) ?_
  refine .cons (t := { pc := .top, arrived := [1, 2, 3], flight := [3], got := [[1, 2]], active := 1, eof := true, closed := false }) (.hangUp _ rfl) (.cons (.go _ rfl rfl) ?_)
  refine .cons (.read _ [3] rfl (CanRead.some (x := [3]) (rest := []) (by simp) (by simp))) ?_
  refine .cons (t := { pc := .reading, arrived := [1, 2, 3], flight := [], got := [[1, 2], [3]], active := 2, eof := true, closed := false }) (.go _ rfl rfl) ?_
  exact .cons (.fail _ rfl (.inr ⟨rfl, by omega, rfl, rfl⟩)) (.nil _)

/-- A fair execution with a buffer of two bytes meets the hypotheses of `C124_partial` and `C124_notices`. -/
example : ∃ (e : Exec (ReadBuf.Step .tcp 2)) (n : Nat), e.run 0 = ReadBuf.init ∧ e.WeakFair ReadBuf.Label.reader ∧ (e.run n).arrived = [1, 2, 3] ∧ (e.run n).eof = true := by
  obtain ⟨e, h1, _, _, h4⟩ := Exec.ofSteps two_run
  refine ⟨e, 8, h1, Exec.weakFair_of_end (N := 8) (t := twoBuf) h4 ?_, by rw [h4 8 (by decide)]; rfl, by rw [h4 8 (by decide)]; rfl⟩
  rintro ⟨l, t, hA, hs⟩
  generalize hz : twoBuf = z at hs
  cases hs with
  | arrive _ _ => cases hA
  | hangUp _ => cases hA
  | stop => cases hA
  | go h _ => rw [← hz] at h; cases h
  | quit h _ => rw [← hz] at h; cases h
  | read _ h _ => rw [← hz] at h; cases h
  | fail h _ => rw [← hz] at h; cases h

/-- The reader takes one byte. -/
theorem one_byte (a : UInt8) (rest : ReadBuf.Bytes) (s : ReadBuf.State) (hp : s.pc = .top) (hc : s.closed = false) (hf : s.flight = a :: rest) :
    Steps (ReadBuf.Step .tcp 1) s [.go, .read [a]] { s with pc := .top, flight := rest, got := s.got ++ [[a]], active := s.active + 1 } := by
  refine .cons (.go s hp hc) ?_
  have h := ReadBuf.Step.read (k := .tcp) (b := 1) { s with pc := .reading } [a] rfl (by
    show CanRead 1 .tcp s.flight [a]
    rw [hf]
    exact CanRead.some (x := [a]) (rest := rest) (by simp) (by simp))
  have e : ({ s with pc := .top, flight := s.flight.drop [a].length, got := s.got ++ [[a]], active := s.active + if 0 < [a].length then 1 else 0 } : ReadBuf.State) =
      { s with pc := .top, flight := rest, got := s.got ++ [[a]], active := s.active + 1 } := by rw [hf]; rfl
  rw [← e]
  exact .cons h (.nil _)

/-- The reader takes all there is, a byte at a time. -/
theorem one_by_one (x : ReadBuf.Bytes) : ∀ s : ReadBuf.State, s.pc = .top → s.closed = false → s.flight = x →
    ∃ ls, Steps (ReadBuf.Step .tcp 1) s ls { s with flight := [], got := s.got ++ x.map fun a => [a], active := s.active + x.length } := by
  induction x with
  | nil =>
    intro s hp hc hf
    refine ⟨[], ?_⟩
    have e : ({ s with flight := [], got := s.got ++ List.map (fun a => [a]) ([] : ReadBuf.Bytes), active := s.active + ([] : ReadBuf.Bytes).length } : ReadBuf.State) = s := by
      cases s; simp only at hf; simp [hf]
    rw [e]
    exact .nil _
  | cons a x ih =>
    intro s hp hc hf
    obtain ⟨ls, h⟩ := ih { s with pc := .top, flight := x, got := s.got ++ [[a]], active := s.active + 1 } rfl hc rfl
    refine ⟨[.go, .read [a]] ++ ls, (one_byte a x s hp hc hf).append ?_⟩
    · have e : ({ s with flight := [], got := s.got ++ List.map (fun a => [a]) (a :: x), active := s.active + (a :: x).length } : ReadBuf.State) =
          { s with pc := .top, flight := [], got := s.got ++ [[a]] ++ List.map (fun a => [a]) x, active := s.active + 1 + x.length } := by
        cases s; simp only at hp; simp [hp]; omega
      rw [e]
      exact h

/-- The hypotheses of `C124_messages` are met by every list of messages, with a buffer of one byte. -/
example (msgs : List (UInt32 × ReadBuf.Bytes)) : ∃ ls s, Steps (ReadBuf.Step .tcp 1) ReadBuf.init ls s ∧ s.flight = [] ∧ s.arrived = (msgs.map fun m => packTlv (newMsgPackage m.1 m.2)).flatten := by
  generalize (msgs.map fun m => packTlv (newMsgPackage m.1 m.2)).flatten = w
  obtain ⟨ls, h⟩ := one_by_one w { arrived := w, flight := w } rfl rfl rfl
  exact ⟨_, _, .cons (.arrive ReadBuf.init w rfl) h, rfl, rfl⟩

end Zinx.Props
