import Verif.Model.KcpSend

/-! Lemmas about sending on a KCP connection. -/

namespace Zinx.KcpSend

/-- The finalizer has not got the write lock yet. -/
def FPc.early : FPc → Bool
  | .waiting | .hook | .lock => true
  | _ => false

/-- A send with the read lock that has found the connection open. -/
def SPc.passed : SPc → Bool
  | .write _ => true
  | .eval _ r | .sel _ r _ => r
  | _ => false

/-- Channels and writers. -/
structure InvC (s : State) : Prop where
  field : ∀ c, s.field = some c → c < s.nch
  nofield : s.field = none → s.nch = 0
  sel : ∀ i m r c, s.s i = .sel m r c → c < s.nch
  eval : ∀ i m r, s.s i = .eval m r → s.field ≠ none
  qcheck : ∀ i m, s.s i = .qcheck m → s.field ≠ none
  wr : ∀ k, k < s.nch → s.w k ≠ .none
  nowr : ∀ k, s.nch ≤ k → s.w k = .none
  wsel : ∀ k c, s.w k = .sel c → c < s.nch
  items : ∀ c, s.nch ≤ c → (s.chan c).items = []

/-- The teardown. -/
structure InvF (s : State) : Prop where
  running : s.cancelled = false → s.fin = .waiting
  waiting : s.fin = .waiting → s.closed = false
  started : s.fin ≠ .waiting → s.closed = true
  excl : s.fin.locks = true → ∀ i, (s.s i).reads = false
  wexcl : s.fin.locks = true → ∀ k, (s.w k).reads = false
  chan : ∀ c, (s.chan c).closed = true → s.fin = .done
  passed : ∀ i, (s.s i).passed = true → s.fin.early = true
  gone : ∀ k, s.w k = .gone → s.cancelled = true
  closing : s.fin = .close → s.broken = true
  done : s.fin = .done → s.broken = true

theorem entry_ne_sel (m : Bytes) (k : Kind) (x r c) : entry m k ≠ .sel x r c := by cases k <;> nofun
theorem entry_ne_eval (m : Bytes) (k : Kind) (x r) : entry m k ≠ .eval x r := by cases k <;> nofun
theorem entry_ne_qcheck (m : Bytes) (k : Kind) (x) : entry m k ≠ .qcheck x := by cases k <;> nofun
theorem entry_reads (m : Bytes) (k : Kind) : (entry m k).reads = false := by cases k <;> rfl
theorem entry_passed (m : Bytes) (k : Kind) : (entry m k).passed = false := by cases k <;> rfl

theorem passed_reads {p : SPc} (h : p.passed = true) : p.reads = true := by cases p <;> simp_all [SPc.passed, SPc.reads]

theorem invC_init : InvC {} := by constructor <;> simp

theorem invF_init : InvF {} := by constructor <;> simp [SPc.reads, WPc.reads, FPc.locks, SPc.passed, FPc.early]

set_option maxHeartbeats 4000000 in
theorem invC_step {cc s l t} (h : InvC s) (hs : Step cc s l t) : InvC t := by
  obtain ⟨h1, h2, h3, h4, h5, h6, h7, h8, h9⟩ := h
  cases hs <;> constructor <;> simp [set, -Bool.forall_bool] at * <;> grind [entry_ne_sel, entry_ne_eval, entry_ne_qcheck]

set_option maxHeartbeats 4000000 in
theorem invF_step {cc s l t} (h : InvF s) (hs : Step cc s l t) : InvF t := by
  obtain ⟨h1, h2, h3, h4, h5, h6, h7, h8, h9, h10⟩ := h
  cases hs <;> constructor <;> simp [set, -Bool.forall_bool] at * <;> grind [SPc.reads, WPc.reads, FPc.locks, SPc.passed, FPc.early, entry_reads, entry_passed, passed_reads]

theorem invC_steps {cc ls t} (h : Steps (Step cc) {} ls t) : InvC t := h.invariant (P := fun s => InvC s) (fun _ _ _ h hs => invC_step h hs) invC_init

theorem invF_steps {cc ls t} (h : Steps (Step cc) {} ls t) : InvF t := h.invariant (P := fun s => InvF s) (fun _ _ _ h hs => invF_step h hs) invF_init

/-! ## After close -/

/-- A send that has not got past its check. -/
def SPc.before : SPc → Bool
  | .idle | .mcheck _ | .swant _ | .bcheck _ | .qwant _ | .qcheck _ => true
  | .nil _ r | .make _ r => r
  | _ => false

/-- The connection is closed, and goroutine `i` is not past the check. -/
structure Late (i : Nat) (s : State) : Prop where
  closed : s.closed = true
  before : (s.s i).before = true

theorem late_step {cc i s l t} (h : Late i s) (hs : Step cc s l t) : Late i t ∧ (∀ m, l ≠ .write i m) ∧ (∀ m c, l ≠ .enq i m c) ∧ l ≠ .panic i := by
  obtain ⟨h1, h2⟩ := h
  cases hs
  case call j m k hj =>
    refine ⟨⟨h1, ?_⟩, nofun, nofun, nofun⟩
    by_cases e : i = j
    · subst e; cases k <;> simp [set, entry, SPc.before]
    · simp [set, e, h2]
  all_goals
    refine ⟨⟨?_, ?_⟩, ?_, ?_, ?_⟩ <;> simp [set] at * <;> grind [SPc.before]

/-- Once writes fail, nothing is written any more. -/
theorem broken_step {cc s l t} (h : s.broken = true) (hs : Step cc s l t) : t.broken = true ∧ (∀ i m, l ≠ .write i m) ∧ ∀ k m, l ≠ .wwrite k m := by
  cases hs <;> simp_all

/-! ## What is written -/

/-- The messages on the wire. -/
def wire : List Label → List Bytes
  | [] => []
  | .write _ m :: ls => m :: wire ls
  | .wwrite _ m :: ls => m :: wire ls
  | _ :: ls => wire ls

/-- The messages queued. -/
def queued : List Label → List Bytes
  | [] => []
  | .enq _ m _ :: ls => m :: queued ls
  | _ :: ls => queued ls

/-- The messages written by writers. -/
def written : List Label → List Bytes
  | [] => []
  | .wwrite _ m :: ls => m :: written ls
  | _ :: ls => written ls

theorem wire_append (a b : List Label) : wire (a ++ b) = wire a ++ wire b := by
  induction a with
  | nil => rfl
  | cons l ls ih => cases l <;> simp [wire, ih]

theorem queued_append (a b : List Label) : queued (a ++ b) = queued a ++ queued b := by
  induction a with
  | nil => rfl
  | cons l ls ih => cases l <;> simp [queued, ih]

theorem written_append (a b : List Label) : written (a ++ b) = written a ++ written b := by
  induction a with
  | nil => rfl
  | cons l ls ih => cases l <;> simp [written, ih]

/-- The message a writer is about to write. -/
def WPc.pend : WPc → List Bytes
  | .want m | .write m => [m]
  | _ => []

/-- The messages given to sends. -/
def called : List Label → List Bytes
  | [] => []
  | .call _ m _ :: ls => m :: called ls
  | _ :: ls => called ls

theorem called_append (a b : List Label) : called (a ++ b) = called a ++ called b := by
  induction a with
  | nil => rfl
  | cons l ls ih => cases l <;> simp [called, ih]

theorem mem_called {ls : List Label} {m : Bytes} : m ∈ called ls ↔ ∃ i k, .call i m k ∈ ls := by
  induction ls with
  | nil => simp [called]
  | cons l ls ih => cases l <;> simp [called, ih] <;> grind

def SPc.from (ms : List Bytes) : SPc → Prop
  | .idle => True
  | .mcheck m | .swant m | .write m | .bcheck m | .qwant m | .nil m _ | .make m _ | .qcheck m | .eval m _ | .sel m _ _ => m ∈ ms

def WPc.from (ms : List Bytes) : WPc → Prop
  | .want m | .write m => m ∈ ms
  | _ => True

/-- Every message in the system was given to a send. -/
structure Origin (ms ws : List Bytes) (s : State) : Prop where
  snd : ∀ i, (s.s i).from ms
  ch : ∀ c, ∀ m ∈ (s.chan c).items, m ∈ ms
  wr : ∀ k, (s.w k).from ms
  wire : ∀ m ∈ ws, m ∈ ms

theorem entry_from {ms : List Bytes} {m : Bytes} (k : Kind) (h : m ∈ ms) : (entry m k).from ms := by cases k <;> exact h

theorem SPc.from.mono {ms ms' : List Bytes} {p : SPc} (h : p.from ms) : p.from (ms ++ ms') := by cases p <;> simp_all [SPc.from]

theorem WPc.from.mono {ms ms' : List Bytes} {p : WPc} (h : p.from ms) : p.from (ms ++ ms') := by cases p <;> simp_all [WPc.from]

set_option maxHeartbeats 4000000 in
theorem origin_step {cc ms ws s l t} (h : Origin ms ws s) (hs : Step cc s l t) : Origin (ms ++ called [l]) (ws ++ KcpSend.wire [l]) t := by
  obtain ⟨h1, h2, h3, h4⟩ := h
  cases hs
  case call j m k hj =>
    refine ⟨fun i => ?_, fun c m hm => by simp [h2 c m hm], fun k => (h3 k).mono, fun m hm => by simp [h4 m (by simpa [KcpSend.wire] using hm)]⟩
    by_cases e : i = j
    · subst e; simp only [set, if_true]; exact entry_from k (by simp [called])
    · simp only [set, if_neg e]; exact (h1 i).mono
  all_goals
    constructor <;> simp [set, KcpSend.wire, called] at * <;> grind [SPc.from, WPc.from]

theorem origin_steps {cc ls t} (h : Steps (Step cc) {} ls t) : Origin (called ls) (wire ls) t :=
  h.invariant_trace (P := fun ls s => Origin (called ls) (wire ls) s) (fun ls s l t h hs => by rw [called_append, wire_append]; exact origin_step h hs)
    (by constructor <;> simp [SPc.from, WPc.from, KcpSend.wire])

/-! ## One channel -/

theorem nch_step {cc s l t} (hs : Step cc s l t) : s.nch ≤ t.nch := by cases hs <;> simp

/-- In a buffered send. -/
def SPc.buffered : SPc → Bool
  | .bcheck _ | .qwant _ | .nil _ _ | .make _ _ | .qcheck _ | .eval _ _ | .sel _ _ _ => true
  | _ => false

def SPc.making : SPc → Bool
  | .make _ _ => true
  | _ => false

/-- All buffered sends so far were by goroutine `i`. -/
def OneCaller (i : Nat) (ls : List Label) : Prop := ∀ j m k, .call j m k ∈ ls → k = .buff ∨ k = .queue → j = i

structure Alone (i : Nat) (s : State) : Prop where
  others : ∀ j, j ≠ i → (s.s j).buffered = false
  one : s.nch ≤ 1
  making : (s.s i).making = true → s.field = none

theorem alone_step {cc i s l t} (hi : InvC s) (h : Alone i s) (hs : Step cc s l t) (hl : ∀ j m k, l = .call j m k → k = .buff ∨ k = .queue → j = i) : Alone i t := by
  obtain ⟨h1, h2, h3⟩ := h
  have h4 := hi.nofield
  cases hs
  case call j m k hj =>
    refine ⟨fun j' hj' => ?_, h2, fun hm => ?_⟩
    · have := hl j m k rfl
      by_cases e : j' = j
      · subst e; cases k <;> simp [set, entry, SPc.buffered] at * <;> exact absurd this hj'
      · simp [set, e, h1 j' hj']
    · by_cases e : i = j
      · subst e; cases k <;> simp [set, entry, SPc.making] at hm
      · simp [set, e] at hm; exact h3 hm
  all_goals
    refine ⟨?_, ?_, ?_⟩ <;> simp [set] at * <;> grind [SPc.buffered, SPc.making]

/-- There is one channel, and it stays so. -/
structure Settled (s : State) : Prop where
  one : s.nch = 1
  field : s.field ≠ none
  making : ∀ i, (s.s i).making = false

theorem settled_step {cc s l t} (h : Settled s) (hs : Step cc s l t) : Settled t := by
  obtain ⟨h1, h2, h3⟩ := h
  cases hs
  case call j m k hj =>
    refine ⟨h1, h2, fun i => ?_⟩
    by_cases e : i = j
    · subst e; cases k <;> simp [set, entry, SPc.making]
    · simp [set, e, h3 i]
  all_goals
    refine ⟨?_, ?_, ?_⟩ <;> simp [set] at * <;> grind [SPc.making]

theorem alone_settled {i s} (hi : InvC s) (h : Alone i s) (hn : 0 < s.nch) : Settled s := by
  have hf : s.field ≠ none := fun e => by have := hi.nofield e; omega
  refine ⟨by have := h.one; omega, hf, fun j => ?_⟩
  by_cases e : j = i
  · cases hm : (s.s j).making with
    | false => rfl
    | true => exact absurd (h.making (e ▸ hm)) hf
  · have := h.others j e
    cases hp : s.s j <;> simp_all [SPc.buffered, SPc.making]

theorem alone_steps {cc i ls t} (h : Steps (Step cc) {} ls t) (ho : OneCaller i ls) : Alone i t := by
  have key : InvC t ∧ (OneCaller i ls → Alone i t) := h.invariant_trace (P := fun ls s => InvC s ∧ (OneCaller i ls → Alone i s))
    (fun ls s l t hp hs => ⟨invC_step hp.1 hs, fun ho => alone_step hp.1 (hp.2 (fun j m k hm => ho j m k (by simp [hm]))) hs (fun j m k e => ho j m k (by simp [e]))⟩)
    ⟨invC_init, fun _ => ⟨fun _ _ => rfl, Nat.zero_le _, nofun⟩⟩
  exact key.2 ho

/-- Something was queued, so there is a channel. -/
theorem queued_nch {cc ls t} (h : Steps (Step cc) {} ls t) : queued ls ≠ [] → 0 < t.nch := by
  have key : InvC t ∧ (queued ls ≠ [] → 0 < t.nch) := h.invariant_trace (P := fun ls s => InvC s ∧ (queued ls ≠ [] → 0 < s.nch))
    (fun ls s l t hp hs => ⟨invC_step hp.1 hs, fun ho => by
      have hn := nch_step hs
      by_cases hq : queued ls = []
      · have h3 := hp.1.sel
        cases hs <;> simp [queued_append, hq, queued] at ho <;> grind
      · have := hp.2 hq; omega⟩)
    ⟨invC_init, fun h => absurd rfl h⟩
  exact key.2

end Zinx.KcpSend
