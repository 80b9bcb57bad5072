import Verif.Model.WsSend

/-! Lemmas about sending on a WebSocket connection. -/

namespace Zinx.WsSend

/-! ## Who holds the lock -/

def SPc.holds : SPc → Bool
  | .write _ _ | .sel _ => true
  | _ => false

def WPc.holds : WPc → Bool
  | .write _ _ => true
  | _ => false

def FPc.holds : FPc → Bool
  | .sock | .close => true
  | _ => false

structure Inv (s : State) : Prop where
  sender : ∀ i, (s.s i).holds = true → s.lock = some (.sender i)
  sender' : ∀ i, s.lock = some (.sender i) → (s.s i).holds = true
  writer : s.writer.holds = true → s.lock = some .writer
  writer' : s.lock = some .writer → s.writer.holds = true
  fin : s.fin.holds = true → s.lock = some .fin
  fin' : s.lock = some .fin → s.fin.holds = true
  /-- whoever holds the lock has found the connection open -/
  opened : s.lock ≠ none → s.closed = false
  done : s.closed = true → s.fin = .done ∧ s.broken = true
  chan : ∀ c, s.chan = some c → c.closed = true → s.closed = true
  sel : ∀ i m, s.s i = .sel m → s.chan ≠ none
  nochan : s.chan = none → s.writer = .none
  made : s.writer = .none → s.chan = none
  close : s.fin = .close → s.broken = true
  running : s.cancelled = false → s.fin = .waiting ∧ s.closed = false
  gone : s.writer = .gone → s.cancelled = true
  over : s.fin = .done → s.closed = true

theorem inv_init : Inv {} := by constructor <;> simp [SPc.holds, WPc.holds, FPc.holds]

theorem withChan_eq (s : State) : s.withChan = (if s.chan = none then { s with chan := some ⟨[], false⟩, writer := .select } else s) := by
  unfold State.withChan
  split <;> simp_all

set_option maxHeartbeats 2000000 in
theorem inv_step {cc s l t} (h : Inv s) (hs : Step cc s l t) : Inv t := by
  obtain ⟨h1, h2, h3, h4, h5, h6, h7, h8, h9, h10, h11, h12, h13, h14, h15, h16⟩ := h
  cases hs
  case buffClosed i m a b c =>
    rw [withChan_eq]
    split <;> constructor <;> simp [set] at * <;> grind [SPc.holds, WPc.holds, FPc.holds]
  case buffOpen i m a b c =>
    rw [withChan_eq]
    split <;> constructor <;> simp [set] at * <;> grind [SPc.holds, WPc.holds, FPc.holds]
  all_goals (constructor <;> simp [set] at * <;> grind [SPc.holds, WPc.holds, FPc.holds])

theorem inv_steps {cc ls t} (h : Steps (Step cc) {} ls t) : Inv t := h.invariant (P := Inv) (fun _ _ _ h hs => inv_step h hs) inv_init

theorem no_panic {cc s l t} (h : Inv s) (hs : Step cc s l t) : l ≠ .finPanic ∧ ∀ i, l ≠ .panic i := by
  obtain ⟨h1, h2, h3, h4, h5, h6, h7, h8, h9, h10, h11, h12, h13, h14, h15, h16⟩ := h
  cases hs <;> simp <;> grind [SPc.holds, WPc.holds, FPc.holds]

/-! ## After closure -/

/-- Goroutine `i` holds no lock; the connection is closed. -/
def Late (i : Nat) (s : State) : Prop := s.closed = true ∧ (s.s i).holds = false

theorem late_step {cc i s l t} (h : Late i s) (hs : Step cc s l t) : Late i t ∧ (∀ x, l ≠ .write i x) ∧ (∀ m, l ≠ .ret i m) ∧ (∀ m, l ≠ .enq i m) ∧ l ≠ .panic i := by
  obtain ⟨h1, h2⟩ := h
  cases hs <;> simp [Late, set, withChan_eq] at * <;> grind [SPc.holds]

theorem broken_step {cc s l t} (h : s.broken = true) (hs : Step cc s l t) : t.broken = true ∧ (∀ i x, l ≠ .write i x) ∧ (∀ i m, l ≠ .ret i m) ∧ (∀ x, l ≠ .wwrite x) ∧ ∀ m, l ≠ .wend m := by
  cases hs <;> simp [withChan_eq] at * <;> grind

/-! ## What the labels tell -/

/-- The bytes on the wire. -/
def wire : List Label → Bytes
  | [] => []
  | .write _ x :: ls => x ++ wire ls
  | .wwrite x :: ls => x ++ wire ls
  | _ :: ls => wire ls

/-- The messages whose sending is complete, in order. -/
def sent : List Label → List Bytes
  | [] => []
  | .ret _ m :: ls => m :: sent ls
  | .wend m :: ls => m :: sent ls
  | _ :: ls => sent ls

/-- The messages queued, in order. -/
def enqOf : List Label → List Bytes
  | [] => []
  | .enq _ m :: ls => m :: enqOf ls
  | _ :: ls => enqOf ls

/-- The messages written by the writer, in order. -/
def wends : List Label → List Bytes
  | [] => []
  | .wend m :: ls => m :: wends ls
  | _ :: ls => wends ls

/-- The messages of all calls. -/
def called : List Label → List Bytes
  | [] => []
  | .call _ m _ :: ls => m :: called ls
  | _ :: ls => called ls

theorem wire_append (a b : List Label) : wire (a ++ b) = wire a ++ wire b := by
  induction a with
  | nil => rfl
  | cons l a ih => cases l <;> simp [wire, ih]

theorem sent_append (a b : List Label) : sent (a ++ b) = sent a ++ sent b := by
  induction a with
  | nil => rfl
  | cons l a ih => cases l <;> simp [sent, ih]

theorem enqOf_append (a b : List Label) : enqOf (a ++ b) = enqOf a ++ enqOf b := by
  induction a with
  | nil => rfl
  | cons l a ih => cases l <;> simp [enqOf, ih]

theorem wends_append (a b : List Label) : wends (a ++ b) = wends a ++ wends b := by
  induction a with
  | nil => rfl
  | cons l a ih => cases l <;> simp [wends, ih]

theorem called_append (a b : List Label) : called (a ++ b) = called a ++ called b := by
  induction a with
  | nil => rfl
  | cons l a ih => cases l <;> simp [called, ih]

theorem mem_called {m : Bytes} {ls : List Label} : m ∈ called ls ↔ ∃ i b, Label.call i m b ∈ ls := by
  induction ls with
  | nil => simp [called]
  | cons l ls ih => cases l <;> simp [called, ih] <;> grind

/-! ## Messages come from calls -/

/-- The message a goroutine is sending. -/
def SPc.msg : SPc → Option Bytes
  | .want m _ | .sel m => some m
  | .write o r => some (o ++ r)
  | .idle => none

def WPc.msg : WPc → Option Bytes
  | .want m => some m
  | .write o r => some (o ++ r)
  | _ => Option.none

def State.items (s : State) : List Bytes := match s.chan with
  | none => []
  | some c => c.items

structure Origin (ls : List Label) (s : State) : Prop where
  snd : ∀ i m, (s.s i).msg = some m → m ∈ called ls
  wr : ∀ m, s.writer.msg = some m → m ∈ called ls
  items : ∀ m, m ∈ s.items → m ∈ called ls
  sent : ∀ m, m ∈ sent ls → m ∈ called ls

set_option maxHeartbeats 2000000 in
theorem origin_step {cc ls s l t} (h : Origin ls s) (hs : Step cc s l t) : Origin (ls ++ [l]) t := by
  obtain ⟨h1, h2, h3, h4⟩ := h
  cases hs <;> constructor <;> simp [called_append, sent_append, called, sent, set, withChan_eq, State.items] at * <;> grind [SPc.msg, WPc.msg]

theorem origin_init : Origin [] {} := by constructor <;> simp [SPc.msg, WPc.msg, State.items, sent]

/-! ## Whole messages -/

/-- What is on the wire of the message being written. -/
def State.cur (s : State) : Bytes := match s.lock with
  | some (.sender i) => (match s.s i with
    | .write o _ => o
    | _ => [])
  | some .writer => (match s.writer with
    | .write o _ => o
    | _ => [])
  | _ => []

/-- The wire carries the messages sent, then the torn end `p` of the last one (only if the network failed), or what is out of the current one. -/
structure Wire (ls : List Label) (s : State) : Prop where
  inv : Inv s
  org : Origin ls s
  wire : ∃ p, wire ls = (sent ls).flatten ++ p ++ s.cur ∧ (p ≠ [] → s.broken = true ∧ s.cur = [] ∧ ∃ m, m ∈ called ls ∧ p <+: m)

theorem cur_step_quiet {cc ls s l t} (hs : Step cc s l t) (h : Wire ls s) (hw : ∀ i x, l ≠ .write i x) (hr : ∀ i m, l ≠ .ret i m) (he : ∀ i, l ≠ .retErr i)
    (hww : ∀ x, l ≠ .wwrite x) (hwe : ∀ m, l ≠ .wend m) (hwf : l ≠ .wfail) : t.cur = s.cur ∧ wire [l] = [] ∧ sent [l] = [] := by
  obtain ⟨⟨h1, h2, h3, h4, h5, h6, h7, h8, h9, h10, h11, h12, h13, h14, h15, h16⟩, -, -⟩ := h
  cases hs <;> simp [wire, sent, State.cur, set, withChan_eq] at * <;> grind [SPc.holds, WPc.holds, FPc.holds]

theorem cur_sender {s : State} {i : Nat} (h : Inv s) (hi : (s.s i).holds = true) : s.cur = (match s.s i with
    | .write o _ => o
    | _ => []) := by
  simp [State.cur, h.sender i hi]

theorem cur_writer {s : State} (h : Inv s) (hi : s.writer.holds = true) : s.cur = (match s.writer with
    | .write o _ => o
    | _ => []) := by
  simp [State.cur, h.writer hi]

set_option maxHeartbeats 1000000 in
theorem wire_step {cc ls s l t} (h : Wire ls s) (hs : Step cc s l t) : Wire (ls ++ [l]) t := by
  refine ⟨inv_step h.inv hs, origin_step h.org hs, ?_⟩
  have hq := cur_step_quiet hs h
  have hlock := h.inv.sender
  have hlockw := h.inv.writer
  obtain ⟨p, hp, hb⟩ := h.wire
  have hi := h.inv
  have ho := h.org
  have quiet : t.cur = s.cur ∧ wire [l] = [] ∧ sent [l] = [] → t.broken = s.broken ∨ t.broken = true →
      ∃ p, wire (ls ++ [l]) = (sent (ls ++ [l])).flatten ++ p ++ t.cur ∧ (p ≠ [] → t.broken = true ∧ t.cur = [] ∧ ∃ m, m ∈ called (ls ++ [l]) ∧ p <+: m) := by
    rintro ⟨q1, q2, q3⟩ hbr
    refine ⟨p, ?_, fun hne => ?_⟩
    · rw [wire_append, sent_append, q1, q2, q3, hp]; simp
    · obtain ⟨b1, b2, m, b3, b4⟩ := hb hne
      exact ⟨by rcases hbr with hbr | hbr <;> simp [hbr, b1], by rw [q1]; exact b2, m, by rw [called_append]; exact List.mem_append_left _ b3, b4⟩
  have fail : ∀ {out : Bytes} (rest : Bytes), s.cur = out → s.broken = true → out ++ rest ∈ called ls → t.cur = [] → wire [l] = [] → sent [l] = [] → t.broken = true →
      ∃ p, wire (ls ++ [l]) = (sent (ls ++ [l])).flatten ++ p ++ t.cur ∧ (p ≠ [] → t.broken = true ∧ t.cur = [] ∧ ∃ m, m ∈ called (ls ++ [l]) ∧ p <+: m) := by
    intro out rest hc b hm q1 q2 q3 hbt
    by_cases hne : p = []
    · subst hne
      refine ⟨out, ?_, fun _ => ⟨hbt, q1, out ++ rest, ?_, List.prefix_append _ _⟩⟩
      · rw [wire_append, sent_append, hp, hc, q1, q2, q3]; simp
      · rw [called_append]; exact List.mem_append_left _ hm
    · obtain ⟨b1, b2, m, b3, b4⟩ := hb hne
      refine ⟨p, ?_, fun _ => ⟨hbt, q1, m, ?_, b4⟩⟩
      · rw [wire_append, sent_append, hp, b2, q1, q2, q3]; simp
      · rw [called_append]; exact List.mem_append_left _ b3
  cases hs
  case write i out x rest a b c =>
    have hpn : p = [] := by
      apply Classical.byContradiction
      intro hne; have := (hb hne).1; rw [c] at this; cases this
    subst hpn
    have hl := hlock i (by rw [a]; rfl)
    refine ⟨[], ?_, fun hne => absurd rfl hne⟩
    rw [wire_append, sent_append, hp, cur_sender hi (by rw [a]; rfl), a]
    simp [wire, sent, State.cur, hl, set]
  case writeEnd i m a c =>
    have hpn : p = [] := by
      apply Classical.byContradiction
      intro hne; have := (hb hne).1; rw [c] at this; cases this
    subst hpn
    refine ⟨[], ?_, fun hne => absurd rfl hne⟩
    rw [wire_append, sent_append, hp, cur_sender hi (by rw [a]; rfl), a]
    simp [wire, sent, State.cur]
  case wwrite out x rest a b c =>
    have hpn : p = [] := by
      apply Classical.byContradiction
      intro hne; have := (hb hne).1; rw [c] at this; cases this
    subst hpn
    have hl := hlockw (by rw [a]; rfl)
    refine ⟨[], ?_, fun hne => absurd rfl hne⟩
    rw [wire_append, sent_append, hp, cur_writer hi (by rw [a]; rfl), a]
    simp [wire, sent, State.cur, hl]
  case wend m a c =>
    have hpn : p = [] := by
      apply Classical.byContradiction
      intro hne; have := (hb hne).1; rw [c] at this; cases this
    subst hpn
    refine ⟨[], ?_, fun hne => absurd rfl hne⟩
    rw [wire_append, sent_append, hp, cur_writer hi (by rw [a]; rfl), a]
    simp [wire, sent, State.cur]
  case writeFail i out rest a b =>
    have hc := cur_sender hi (i := i) (by rw [a]; rfl)
    rw [a] at hc
    exact fail rest hc b (ho.snd i _ (by rw [a]; rfl)) rfl rfl rfl b
  case wfail out rest a b =>
    have hc := cur_writer hi (by rw [a]; rfl)
    rw [a] at hc
    exact fail rest hc b (ho.wr _ (by rw [a]; rfl)) rfl rfl rfl b
  case timeout i m a =>
    have hc := cur_sender hi (i := i) (by rw [a]; rfl)
    rw [a] at hc
    exact quiet ⟨by rw [hc]; rfl, rfl, rfl⟩ (.inl rfl)
  all_goals first
    | exact quiet (hq nofun nofun nofun nofun nofun nofun) (.inl rfl)
    | exact quiet (hq nofun nofun nofun nofun nofun nofun) (.inr rfl)
    | exact quiet (hq nofun nofun nofun nofun nofun nofun) (.inl (by simp only [withChan_eq]; split <;> rfl))

theorem wire_init : Wire [] {} := ⟨inv_init, origin_init, [], rfl, fun h => absurd rfl h⟩

theorem wire_steps {cc ls t} (h : Steps (Step cc) {} ls t) : Wire ls t :=
  h.invariant_trace (P := Wire) (fun _ _ _ _ h hs => wire_step h hs) wire_init

/-! ## The order of buffered messages -/

def WPc.pend : WPc → List Bytes
  | .want m => [m]
  | .write o r => [o ++ r]
  | _ => []

structure Order (ls : List Label) (s : State) : Prop where
  inv : Inv s
  live : s.broken = false → enqOf ls = wends ls ++ s.writer.pend ++ s.items
  pre : wends ls <+: enqOf ls

set_option maxHeartbeats 1000000 in
theorem order_step {cc ls s l t} (h : Order ls s) (hs : Step cc s l t) : Order (ls ++ [l]) t := by
  have hb := fun h => broken_step (cc := cc) (l := l) (t := t) h hs
  have hinv := inv_step h.inv hs
  obtain ⟨⟨h1, h2, h3, h4, h5, h6, h7, h8, h9, h10, h11, h12, h13, h14, h15, h16⟩, hl, hp⟩ := h
  have live : t.broken = false → enqOf (ls ++ [l]) = wends (ls ++ [l]) ++ t.writer.pend ++ t.items := by
    cases hs <;> simp [enqOf_append, wends_append, enqOf, wends, withChan_eq, State.items] at * <;> grind [WPc.pend]
  refine ⟨hinv, live, ?_⟩
  by_cases hbr : t.broken = true
  · rw [enqOf_append, wends_append]
    have : wends [l] = [] ∨ s.broken = false := by
      by_cases hs : s.broken = true
      · have := (hb hs).2.2.2.2
        left; cases l <;> simp [wends] at *
      · exact .inr (by simpa using hs)
    rcases this with h | h
    · rw [h, List.append_nil]; exact hp.trans (List.prefix_append _ _)
    · cases hs <;> simp [enqOf, wends] at * <;> first | exact hp | simp_all
  · rw [live (by simpa using hbr), List.append_assoc]; exact List.prefix_append _ _

theorem order_init : Order [] {} := ⟨inv_init, fun _ => rfl, List.prefix_refl _⟩

theorem order_steps {cc ls t} (h : Steps (Step cc) {} ls t) : Order ls t :=
  h.invariant_trace (P := Order) (fun _ _ _ _ h hs => order_step h hs) order_init

end Zinx.WsSend
