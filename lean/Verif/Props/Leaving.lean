import Verif.Model.Leaving
import Verif.Lemmas.ExecOf
import Verif.Props.AsyncHomeLive

/-! # C116: what becomes of the goroutines and the messages of a connection that ends -/

namespace Zinx.Props.Leave
open Zinx Zinx.Leaving

/-! ## What happened -/

/-- The messages of the connection put on the queue, in order. -/
def handed (tr : List Label) : List Nat := tr.filterMap fun | .hand m => some m | _ => none

/-- Those the worker took. -/
def taken (tr : List Label) : List Nat := tr.filterMap fun | .take m => m | _ => none

/-- Those the handler of which has returned. -/
def handled (tr : List Label) : List Nat := tr.filterMap fun | .finish m => m | _ => none

/-- Those thrown away by a panic. -/
def lost (tr : List Label) : List Nat := tr.flatMap fun | .panic ms => ms | _ => []

/-- The messages the reader is still to hand over. -/
def inHand : Reader → List Nat
  | .handing ms => ms
  | _ => []

def inWork : Worker → List Nat
  | .busy (some m) => [m]
  | _ => []

def mine (q : List (Option Nat)) : List Nat := q.filterMap id

/-! ## Invariants -/

structure Inv (cfg : Cfg) (tr : List Label) (s : State) : Prop where
  read : handed tr ++ lost tr ++ inHand s.reader = List.range s.count
  one : s.reader ≠ .gone → lost tr = []
  queue : taken tr ++ mine s.queue = handed tr
  work : handled tr ++ inWork s.worker = taken tr
  closed : s.closed = true ↔ cfg.own = true ∧ s.main = .done
  gone : s.worker = .gone → s.queue = [] ∧ s.closed = true
  sock : s.sockOpen = false ↔ s.main = .freeing ∨ s.main = .done
  main : s.main ≠ .waiting → s.cancelled = true
  reader : s.reader = .gone → s.cancelled = true
  down : s.down = true → cfg.recovers = false ∧ (lost tr ≠ [] ∨ s.main = .panicked)
  lost : lost tr ≠ [] → s.closed = true
  hook : Label.hookPanic ∈ tr ↔ s.main = .panicked
  own : cfg.own = true → ∀ m ∈ s.queue, m ≠ none
  room : s.queue.length ≤ max cfg.cap 1

theorem mine_none {q : List (Option Nat)} (h : ∀ m ∈ q, m = none) : mine q = [] := by
  induction q with
  | nil => rfl
  | cons m q ih => rw [h m (by simp)]; exact ih (fun x hx => h x (by simp [hx]))

theorem inv_init {cfg : Cfg} {s : State} (h : Init cfg s) : Inv cfg [] s where
  read := by simp [handed, lost, h.reader, inHand, h.count]
  one _ := rfl
  queue := by simp [taken, handed, mine_none h.others]
  work := by rcases h.worker with h | h <;> simp [handled, taken, h, inWork]
  closed := by simp [h.closed, h.main]
  gone hw := by rcases h.worker with h | h <;> simp [h] at hw
  sock := by simp [h.sockOpen, h.main]
  main hm := absurd h.main hm
  reader hr := by rw [h.reader] at hr; cases hr
  down hd := by rw [h.down] at hd; cases hd
  lost hl := absurd rfl hl
  hook := by simp [h.main]
  own ho := by simp [h.fresh ho]
  room := h.room

theorem handed_snoc (tr : List Label) (l : Label) : handed (tr ++ [l]) = handed tr ++ (match l with | .hand m => [m] | _ => []) := by
  cases l <;> simp [handed]

theorem taken_snoc (tr : List Label) (l : Label) : taken (tr ++ [l]) = taken tr ++ (match l with | .take (some m) => [m] | _ => []) := by
  cases l with
  | take m => cases m <;> simp [taken]
  | _ => simp [taken]

theorem handled_snoc (tr : List Label) (l : Label) : handled (tr ++ [l]) = handled tr ++ (match l with | .finish (some m) => [m] | _ => []) := by
  cases l with
  | finish m => cases m <;> simp [handled]
  | _ => simp [handled]

theorem lost_snoc (tr : List Label) (l : Label) : lost (tr ++ [l]) = lost tr ++ (match l with | .panic ms => ms | _ => []) := by
  cases l <;> simp [lost]

theorem mine_snoc (q : List (Option Nat)) (m : Option Nat) : mine (q ++ [m]) = mine q ++ m.toList := by
  cases m <;> simp [mine]

theorem mine_cons (q : List (Option Nat)) (m : Option Nat) : mine (m :: q) = m.toList ++ mine q := by
  cases m <;> simp [mine]

theorem inv_step {cfg : Cfg} (tr : List Label) (s : State) (l : Label) (t : State) (h : Inv cfg tr s) (hs : Step cfg s l t) : Inv cfg (tr ++ [l]) t := by
  obtain ⟨h1, h2, h3, h4, h5, h6, h7, h8, h9, h10, h11, h12, h13, h14⟩ := h
  cases hs with
  | stop hd => constructor <;> simp_all [handed_snoc, lost_snoc, taken_snoc, handled_snoc]
  | enter hd hr hc => constructor <;> simp_all [handed_snoc, lost_snoc, taken_snoc, handled_snoc, inHand]
  | leave hd hr hc => constructor <;> simp_all [handed_snoc, lost_snoc, taken_snoc, handled_snoc, inHand]
  | read k hd hr ho =>
    constructor <;> try simp_all [handed_snoc, lost_snoc, taken_snoc, handled_snoc, inHand]
    have := List.range'_append_1 (s := 0) (m := s.count) (n := k)
    rw [Nat.zero_add] at this
    rw [List.range_eq_range', List.range_eq_range', this]
  | fail hd hr => constructor <;> simp_all [handed_snoc, lost_snoc, taken_snoc, handled_snoc, inHand]
  | shut hd hr ho => constructor <;> simp_all [handed_snoc, lost_snoc, taken_snoc, handled_snoc, inHand]
  | next hd hr => constructor <;> simp_all [handed_snoc, lost_snoc, taken_snoc, handled_snoc, inHand]
  | hand m ms hd hr hc hq =>
    constructor <;> try simp_all [handed_snoc, lost_snoc, taken_snoc, handled_snoc, inHand, mine_snoc]
    · rw [← List.append_assoc, h3]
    · intro ho x hx
      rcases hx with hx | hx
      · exact h13 ho x hx
      · rw [hx]; simp
    · omega
  | panic m ms hd hr hc => constructor <;> simp_all [handed_snoc, lost_snoc, taken_snoc, handled_snoc, inHand]
  | other hd ho hq =>
    constructor <;> try simp_all [handed_snoc, lost_snoc, taken_snoc, handled_snoc, mine_snoc]
    omega
  | finalize hd hm hc => constructor <;> simp_all [handed_snoc, lost_snoc, taken_snoc, handled_snoc]
  | hookPanic hd hm hc => constructor <;> simp_all [handed_snoc, lost_snoc, taken_snoc, handled_snoc]
  | free hd hm => constructor <;> simp_all [handed_snoc, lost_snoc, taken_snoc, handled_snoc]
  | take m q hd hw hq =>
    constructor <;> cases m <;> try simp_all [handed_snoc, lost_snoc, taken_snoc, handled_snoc, mine_cons, inWork]
    all_goals omega
  | finish m hd hw => constructor <;> cases m <;> simp_all [handed_snoc, lost_snoc, taken_snoc, handled_snoc, inWork]
  | quit hd hw hq hc => constructor <;> simp_all [handed_snoc, lost_snoc, taken_snoc, handled_snoc, inWork]

/-! ## Fair executions -/

/-- The scheduler lets every goroutine run; reading from a closed socket returns; whoever waits for room in a queue in which there is room again and again gets it; handlers and the finalizer return. -/
structure Fair {cfg : Cfg} (e : Exec (Step cfg)) : Prop where
  main : e.WeakFair fun l => l = .finalize ∨ l = .hookPanic ∨ l = .free
  reader : e.WeakFair fun l => l = .enter ∨ l = .leave ∨ l = .next ∨ ∃ ms, l = .panic ms
  shut : e.WeakFair fun l => l = .shut
  hand : e.StrongFair fun l => ∃ m, l = .hand m
  worker : e.WeakFair fun l => (∃ m, l = .take m) ∨ (∃ m, l = .finish m) ∨ l = .quit

theorem inv_at {cfg : Cfg} {e : Exec (Step cfg)} (h0 : Init cfg (e.run 0)) (n : Nat) : Inv cfg (e.trace n) (e.run n) :=
  (e.steps n).invariant_trace inv_step (inv_init h0)

theorem never_mem {S L : Type} {step : S → L → S → Prop} (e : Exec step) {l : L} (h : ∀ n, e.act n ≠ some l) (n : Nat) : l ∉ e.trace n :=
  fun hm => let ⟨m, _, ha⟩ := e.mem_trace hm; h m ha

/-- The process goes down only by a panic of a WebSocket connection. -/
theorem stays_up {cfg : Cfg} {e : Exec (Step cfg)} (h0 : Init cfg (e.run 0)) (hno : ∀ n, e.act n ≠ some .hookPanic) (h : cfg.recovers = true ∨ cfg.own = false) (n : Nat) : (e.run n).down = false := by
  have hi := inv_at h0 n
  apply Bool.eq_false_iff.2
  intro hd
  obtain ⟨h1, h2⟩ := hi.down hd
  rcases h2 with h2 | h2
  · rcases h with h | h
    · rw [h] at h1; cases h1
    · have := (hi.closed.1 (hi.lost h2)).1
      rw [h] at this; cases this
  · exact never_mem e hno n (hi.hook.2 h2)

theorem cancelled_stays {cfg : Cfg} {e : Exec (Step cfg)} {n : Nat} (h : (e.run n).cancelled = true) : ∀ m, n ≤ m → (e.run m).cancelled = true :=
  e.invariant (P := fun s => s.cancelled = true) (fun s l t hp hs => by cases hs <;> simp_all) h

theorem main_done_stays {cfg : Cfg} {e : Exec (Step cfg)} {n : Nat} (h : (e.run n).main = .done) : ∀ m, n ≤ m → (e.run m).main = .done :=
  e.invariant (P := fun s => s.main = .done) (fun s l t hp hs => by cases hs <;> simp_all) h

theorem gone_stays {cfg : Cfg} {e : Exec (Step cfg)} {n : Nat} (h : (e.run n).reader = .gone) : ∀ m, n ≤ m → (e.run m).reader = .gone :=
  e.invariant (P := fun s => s.reader = .gone) (fun s l t hp hs => by cases hs <;> simp_all) h

/-- `Start` returns. -/
theorem main_done {cfg : Cfg} {e : Exec (Step cfg)} (hf : e.WeakFair fun l => l = .finalize ∨ l = .hookPanic ∨ l = .free) (h0 : Init cfg (e.run 0)) (hno : ∀ n, e.act n ≠ some .hookPanic)
    (hup : ∀ n, (e.run n).main ≠ .done → (e.run n).down = false) {n : Nat}
    (hc : (e.run n).cancelled = true) : ∃ m, n ≤ m ∧ (e.run m).main = .done := by
  have h2 : ∀ n, (e.run n).main = .freeing → ∃ m, n ≤ m ∧ (e.run m).main = .done := by
    intro n hn
    refine leads_on e hf (P := fun s => s.main = .freeing) (Q := fun m => (e.run m).main = .done) (fun m l hm ha hs hp => ?_) (fun m hm hp => ?_) hn
    · generalize e.run m = s at hs hp
      generalize e.run (m + 1) = t at hs
      cases hs <;> simp_all
    · exact ⟨.free, _, .inr (.inr rfl), .free _ (hup m (by rw [hp]; simp)) hp⟩
  have h1 : ∀ n, (e.run n).main = .waiting → (e.run n).cancelled = true → ∃ m, n ≤ m ∧ (e.run m).main = .freeing := by
    intro n hn hc
    refine leads_on e hf (P := fun s => s.main = .waiting) (Q := fun m => (e.run m).main = .freeing) (fun m l hm ha hs hp => ?_) (fun m hm hp => ?_) hn
    · have hno := hno m
      rw [ha] at hno
      generalize e.run m = s at hs hp
      generalize e.run (m + 1) = t at hs
      cases hs <;> simp_all
    · exact ⟨.finalize, _, .inl rfl, .finalize _ (hup m (by rw [hp]; simp)) hp (cancelled_stays hc m hm)⟩
  cases hm : (e.run n).main with
  | done => exact ⟨n, Nat.le_refl _, hm⟩
  | freeing => exact h2 n hm
  | waiting =>
    obtain ⟨m, hm, h⟩ := h1 n hm hc
    obtain ⟨k, hk, h⟩ := h2 m h
    exact ⟨k, by omega, h⟩
  | panicked => exact absurd ((inv_at h0 n).hook.2 hm) (never_mem e hno n)

/-- In the queue of a pool worker there is room again and again. -/
theorem room_again {cfg : Cfg} {e : Exec (Step cfg)} (hf : Fair e) (h0 : Init cfg (e.run 0)) (hup : ∀ n, (e.run n).down = false) (ho : cfg.own = false) (n : Nat) :
    ∃ m, n ≤ m ∧ (e.run m).queue.length < max cfg.cap 1 := by
  apply Classical.byContradiction
  intro hno
  have hfull : ∀ m, n ≤ m → max cfg.cap 1 ≤ (e.run m).queue.length := fun m hm => Nat.le_of_not_lt fun h => hno ⟨m, hm, h⟩
  have hne : ∀ m, n ≤ m → (e.run m).queue ≠ [] := fun m hm h => by have := hfull m hm; rw [h] at this; simp at this
  have hng : ∀ m, (e.run m).worker ≠ .gone := fun m h => by
    have := ((inv_at h0 m).closed.1 ((inv_at h0 m).gone h).2).1
    rw [ho] at this; cases this
  have h2 : ∀ m, n ≤ m → (e.run m).worker = .idle → False := by
    intro m hm hw
    obtain ⟨k, hk, hq⟩ := leads_on e hf.worker (P := fun s => s.worker = .idle) (Q := fun k => (e.run k).queue.length < max cfg.cap 1) (n := m)
      (fun k l hk ha hs hp => by
        have hr := (inv_at h0 k).room
        generalize e.run k = s at hs hp hr
        generalize e.run (k + 1) = t at hs
        cases hs with
        | take x q hd hw hq =>
          rw [hq] at hr
          simp only [List.length_cons] at hr
          exact .inr (by show q.length < _; omega)
        | quit hd hw hq => exact .inr (by show s.queue.length < _; rw [hq, List.length_nil]; omega)
        | _ => simp_all)
      (fun k hk hp => by
        obtain ⟨x, q, hq⟩ := List.exists_cons_of_ne_nil (hne k (by omega))
        exact ⟨.take x, _, .inl ⟨x, rfl⟩, .take _ x q (hup k) hp hq⟩) hw
    exact hno ⟨k, by omega, hq⟩
  cases hw : (e.run n).worker with
  | gone => exact hng n hw
  | idle => exact h2 n (Nat.le_refl _) hw
  | busy x =>
    obtain ⟨m, hm, h⟩ := leads_on e hf.worker (P := fun s => s.worker = .busy x) (Q := fun k => (e.run k).worker = .idle) (n := n)
      (fun k l hk ha hs hp => by
        generalize e.run k = s at hs hp
        generalize e.run (k + 1) = t at hs
        cases hs <;> simp_all)
      (fun k hk hp => ⟨.finish x, _, .inr (.inl ⟨x, rfl⟩), .finish _ x (hup k) hp⟩) hw
    exact h2 m hm h

/-- The reader ends, once `Start` has returned. -/
theorem reader_gone {cfg : Cfg} {e : Exec (Step cfg)} (hr : e.WeakFair fun l => l = .enter ∨ l = .leave ∨ l = .next ∨ ∃ ms, l = .panic ms) (hsh : e.WeakFair fun l => l = .shut) (h0 : Init cfg (e.run 0))
    (hup : ∀ n, (e.run n).down = false)
    (hh : cfg.own = true ∨ ∀ n m ms, (e.run n).reader = .handing (m :: ms) → ∃ k, n ≤ k ∧ ((e.run k).reader = .handing ms ∨ (e.run k).reader = .gone))
    {n : Nat} (hm : (e.run n).main = .done) : ∃ m, n ≤ m ∧ (e.run m).reader = .gone := by
  have hc : ∀ m, n ≤ m → (e.run m).cancelled = true := fun m hnm => (inv_at h0 m).main (by rw [main_done_stays hm m hnm]; simp)
  have hso : ∀ m, n ≤ m → (e.run m).sockOpen = false := fun m hnm => (inv_at h0 m).sock.2 (.inr (main_done_stays hm m hnm))
  have htop : ∀ m, n ≤ m → (e.run m).reader = .top → ∃ k, m ≤ k ∧ (e.run k).reader = .gone := by
    intro m hnm hw
    refine leads_on e hr (P := fun s => s.reader = .top) (Q := fun k => (e.run k).reader = .gone) (n := m) (fun k l hk ha hs hp => ?_) (fun k hk hp => ?_) hw
    · have := hc k (by omega)
      generalize e.run k = s at hs hp this
      generalize e.run (k + 1) = t at hs
      cases hs <;> simp_all
    · exact ⟨.leave, _, .inr (.inl rfl), .leave _ (hup k) hp (hc k (by omega))⟩
  have hnil : ∀ m, n ≤ m → (e.run m).reader = .handing [] → ∃ k, m ≤ k ∧ (e.run k).reader = .gone := by
    intro m hnm hw
    obtain ⟨k, hk, h⟩ := leads_on e hr (P := fun s => s.reader = .handing []) (Q := fun k => (e.run k).reader = .top) (n := m)
      (fun k l hk ha hs hp => by
        generalize e.run k = s at hs hp
        generalize e.run (k + 1) = t at hs
        cases hs <;> simp_all)
      (fun k hk hp => ⟨.next, _, .inr (.inr (.inl rfl)), .next _ (hup k) hp⟩) hw
    obtain ⟨j, hj, h⟩ := htop k (by omega) h
    exact ⟨j, by omega, h⟩
  have hcons : ∀ ms m, n ≤ m → (e.run m).reader = .handing ms → ∃ k, m ≤ k ∧ (e.run k).reader = .gone := by
    intro ms
    induction ms with
    | nil => exact hnil
    | cons x ms ih =>
      intro m hnm hw
      by_cases ho : cfg.own = true
      · have hcl : ∀ k, n ≤ k → (e.run k).closed = true := fun k hk => (inv_at h0 k).closed.2 ⟨ho, main_done_stays hm k hk⟩
        refine leads_on e hr (P := fun s => s.reader = .handing (x :: ms)) (Q := fun k => (e.run k).reader = .gone) (n := m) (fun k l hk ha hs hp => ?_) (fun k hk hp => ?_) hw
        · have := hcl k (by omega)
          generalize e.run k = s at hs hp this
          generalize e.run (k + 1) = t at hs
          cases hs <;> simp_all
        · exact ⟨.panic (x :: ms), _, .inr (.inr (.inr ⟨_, rfl⟩)), .panic _ x ms (hup k) hp (hcl k (by omega))⟩
      · rcases hh with hh | hh
        · exact absurd hh ho
        · obtain ⟨k, hk, h⟩ := hh m x ms hw
          rcases h with h | h
          · obtain ⟨j, hj, h⟩ := ih k (by omega) h
            exact ⟨j, by omega, h⟩
          · exact ⟨k, hk, h⟩
  cases hw : (e.run n).reader with
  | gone => exact ⟨n, Nat.le_refl _, hw⟩
  | top => exact htop n (Nat.le_refl _) hw
  | handing ms => exact hcons ms n (Nat.le_refl _) hw
  | reading =>
    refine leads_on e hsh (P := fun s => s.reader = .reading) (Q := fun k => (e.run k).reader = .gone) (n := n) (fun k l hk ha hs hp => ?_) (fun k hk hp => ?_) hw
    · have := hso k hk
      generalize e.run k = s at hs hp this
      generalize e.run (k + 1) = t at hs
      cases hs <;> simp_all
    · exact ⟨.shut, _, rfl, .shut _ (hup k) hp (hso k hk)⟩

/-- Handing over to a worker of the pool succeeds. -/
theorem hands_over {cfg : Cfg} {e : Exec (Step cfg)} (hf : Fair e) (h0 : Init cfg (e.run 0)) (hup : ∀ n, (e.run n).down = false) (ho : cfg.own = false) (n m : Nat) (ms : List Nat)
    (hw : (e.run n).reader = .handing (m :: ms)) : ∃ k, n ≤ k ∧ ((e.run k).reader = .handing ms ∨ (e.run k).reader = .gone) := by
  refine e.leads_strong hf.hand (P := fun s => s.reader = .handing (m :: ms)) (Q := fun s => s.reader = .handing ms ∨ s.reader = .gone) (fun s l t hp hs => ?_) (fun s l t hp hs hA => ?_) (fun k hk => ?_) hw
  · cases hs <;> simp_all
  · obtain ⟨x, rfl⟩ := hA
    cases hs
    simp_all
  · obtain ⟨j, hj, hroom⟩ := room_again hf h0 hup ho k
    have hc : (e.run j).closed = false := Bool.eq_false_iff.2 fun h => by
      have := ((inv_at h0 j).closed.1 h).1
      rw [ho] at this; cases this
    exact ⟨j, hj, .hand m, _, ⟨m, rfl⟩, .hand _ m ms (hup j) (hk j hj) hc hroom⟩

/-! ## The worker -/

/-- How many messages are on the queue up to the last one of this connection. -/
def depth : List (Option Nat) → Nat
  | [] => 0
  | m :: q => if mine (m :: q) = [] then 0 else depth q + 1

theorem depth_zero {q : List (Option Nat)} (h : depth q = 0) : mine q = [] := by
  cases q with
  | nil => rfl
  | cons m q =>
    unfold depth at h
    split at h
    · assumption
    · simp at h

theorem depth_snoc (q : List (Option Nat)) : depth (q ++ [none]) = depth q := by
  induction q with
  | nil => rfl
  | cons m q ih =>
    have : mine (m :: (q ++ [none])) = mine (m :: q) := by simp [mine_cons, mine_snoc]
    show (if mine (m :: (q ++ [none])) = [] then 0 else depth (q ++ [none]) + 1) = if mine (m :: q) = [] then 0 else depth q + 1
    rw [this, ih]

def work : Worker → Nat
  | .busy _ => 1
  | _ => 0

/-- A worker of the pool deals with everything the connection has left on its queue. -/
theorem pool_handles {cfg : Cfg} {e : Exec (Step cfg)} (hf : Fair e) (h0 : Init cfg (e.run 0)) (hup : ∀ n, (e.run n).down = false) (ho : cfg.own = false) {n : Nat} (hr : (e.run n).reader = .gone)
    (hm : (e.run n).main = .done) :
    ∃ m, n ≤ m ∧ mine (e.run m).queue = [] ∧ inWork (e.run m).worker = [] := by
  have hc : (e.run n).closed = false := Bool.eq_false_iff.2 fun h => by
    have := ((inv_at h0 n).closed.1 h).1
    rw [ho] at this; cases this
  have hg : (e.run n).worker ≠ .gone := fun h => by
    have := ((inv_at h0 n).gone h).2
    rw [hc] at this; cases this
  by_cases hq : mine (e.run n).queue = [] ∧ inWork (e.run n).worker = []
  · exact ⟨n, Nat.le_refl _, hq⟩
  have hstep : ∀ s l t, (s.reader = .gone ∧ s.main = .done ∧ s.closed = false ∧ s.down = false ∧ s.worker ≠ .gone ∧ ¬ (mine s.queue = [] ∧ inWork s.worker = [])) → Step cfg s l t →
      (t.reader = .gone ∧ t.main = .done ∧ t.closed = false ∧ t.down = false ∧ t.worker ≠ .gone ∧ ¬ (mine t.queue = [] ∧ inWork t.worker = [])) ∧
        2 * depth t.queue + work t.worker ≤ 2 * depth s.queue + work s.worker ∧
        (((∃ m, l = .take m) ∨ (∃ m, l = .finish m) ∨ l = .quit) → 2 * depth t.queue + work t.worker < 2 * depth s.queue + work s.worker) ∨
      mine t.queue = [] ∧ inWork t.worker = [] := by
    intro s l t ⟨h1, h2, h3, h4, h5, h6⟩ hs
    by_cases hq : mine t.queue = [] ∧ inWork t.worker = []
    · exact .inr hq
    refine .inl ?_
    cases hs with
    | stop hd => exact ⟨⟨h1, h2, h3, h4, h5, h6⟩, Nat.le_refl _, by simp⟩
    | other hd ho hr => exact ⟨⟨h1, h2, h3, h4, h5, hq⟩, by rw [depth_snoc]; exact Nat.le_refl _, by simp⟩
    | take m q hd hw hqq =>
      have hne : mine (m :: q) ≠ [] := fun h => h6 ⟨by rw [hqq]; exact h, by rw [hw]; rfl⟩
      have hdep : depth s.queue = depth q + 1 := by rw [hqq]; exact if_neg hne
      refine ⟨⟨h1, h2, h3, h4, by simp, hq⟩, ?_, fun _ => ?_⟩ <;> simp only [hdep, hw, work] <;> omega
    | finish m hd hw => exact ⟨⟨h1, h2, h3, h4, by simp, hq⟩, by simp only [hw, work]; omega, fun _ => by simp only [hw, work]; omega⟩
    | quit hd hw hqq hc => rw [h3] at hc; cases hc
    | _ => simp_all
  refine e.leads_weak_dec hf.worker (P := fun s => s.reader = .gone ∧ s.main = .done ∧ s.closed = false ∧ s.down = false ∧ s.worker ≠ .gone ∧ ¬ (mine s.queue = [] ∧ inWork s.worker = []))
    (Q := fun s => mine s.queue = [] ∧ inWork s.worker = []) (fun s => 2 * depth s.queue + work s.worker) (fun s l t hp hs => ?_) (fun s l t hp hs hA => ?_) (fun s hp => ?_) ⟨hr, hm, hc, hup n, hg, hq⟩
  · rcases hstep s l t hp hs with ⟨h1, h2, _⟩ | h
    · exact .inl ⟨h1, h2⟩
    · exact .inr h
  · rcases hstep s l t hp hs with ⟨h1, _, h2⟩ | h
    · exact .inl ⟨h1, h2 hA⟩
    · exact .inr h
  · obtain ⟨_, _, _, hd, hg, hn⟩ := hp
    cases hw : s.worker with
    | gone => exact absurd hw hg
    | busy m => exact ⟨.finish m, _, .inr (.inl ⟨m, rfl⟩), .finish s m hd hw⟩
    | idle =>
      cases hqq : s.queue with
      | nil => exact absurd ⟨by rw [hqq]; rfl, by rw [hw]; rfl⟩ hn
      | cons m q => exact ⟨.take m, _, .inl ⟨m, rfl⟩, .take s m q hd hw hqq⟩

/-- The worker made for the connection ends. -/
theorem own_ends {cfg : Cfg} {e : Exec (Step cfg)} (hf : e.WeakFair fun l => (∃ m, l = .take m) ∨ (∃ m, l = .finish m) ∨ l = .quit) (h0 : Init cfg (e.run 0)) (hup : ∀ n, (e.run n).down = false)
    (ho : cfg.own = true) {n : Nat} (hm : (e.run n).main = .done) : ∃ m, n ≤ m ∧ (e.run m).worker = .gone := by
  have hcl : (e.run n).closed = true := (inv_at h0 n).closed.2 ⟨ho, hm⟩
  by_cases hq : (e.run n).worker = .gone
  · exact ⟨n, Nat.le_refl _, hq⟩
  have hstep : ∀ s l t, (s.closed = true ∧ s.main = .done ∧ s.down = false ∧ s.worker ≠ .gone) → Step cfg s l t →
      (t.closed = true ∧ t.main = .done ∧ t.down = false ∧ t.worker ≠ .gone) ∧ 2 * t.queue.length + work t.worker ≤ 2 * s.queue.length + work s.worker ∧
        (((∃ m, l = .take m) ∨ (∃ m, l = .finish m) ∨ l = .quit) → 2 * t.queue.length + work t.worker < 2 * s.queue.length + work s.worker) ∨
      t.worker = .gone ∨ t.down = true := by
    intro s l t ⟨h1, h2, h3, h4⟩ hs
    by_cases hq : t.worker = .gone ∨ t.down = true
    · exact .inr hq
    refine .inl ?_
    cases hs with
    | take m q hd hw hqq =>
      refine ⟨⟨h1, h2, h3, by simp⟩, ?_, fun _ => ?_⟩ <;> simp only [hqq, hw, work, List.length_cons] <;> omega
    | finish m hd hw => exact ⟨⟨h1, h2, h3, by simp⟩, by simp only [hw, work]; omega, fun _ => by simp only [hw, work]; omega⟩
    | _ => simp_all
  obtain ⟨m, hm, h⟩ := e.leads_weak_dec hf (P := fun s => s.closed = true ∧ s.main = .done ∧ s.down = false ∧ s.worker ≠ .gone)
    (Q := fun s => s.worker = .gone ∨ s.down = true) (fun s => 2 * s.queue.length + work s.worker) (fun s l t hp hs => by
      rcases hstep s l t hp hs with ⟨h1, h2, _⟩ | h
      · exact .inl ⟨h1, h2⟩
      · exact .inr h) (fun s l t hp hs hA => by
      rcases hstep s l t hp hs with ⟨h1, _, h2⟩ | h
      · exact .inl ⟨h1, h2 hA⟩
      · exact .inr h) (fun s hp => by
      obtain ⟨hc, _, hd, hg⟩ := hp
      cases hw : s.worker with
      | gone => exact absurd hw hg
      | busy m => exact ⟨.finish m, _, .inr (.inl ⟨m, rfl⟩), .finish s m hd hw⟩
      | idle =>
        cases hqq : s.queue with
        | nil => exact ⟨.quit, _, .inr (.inr rfl), .quit s hd hw hqq hc⟩
        | cons m q => exact ⟨.take m, _, .inl ⟨m, rfl⟩, .take s m q hd hw hqq⟩) ⟨hcl, hm, hup n, hq⟩
  rcases h with h | h
  · exact ⟨m, hm, h⟩
  · rw [hup m] at h; cases h

/-! ## C116 -/

/-- Everything that served the connection has ended, and every message that was read has been handled, in order, but for those of `l`. -/
structure Ended (cfg : Cfg) (tr : List Label) (s : State) (l : List Nat) : Prop where
  main : s.main = .done
  reader : s.reader = .gone
  worker : cfg.own = true → s.worker = .gone
  up : s.down = false
  handled : handled tr ++ l = List.range s.count

theorem ended_of {cfg : Cfg} {tr : List Label} {s : State} (h : Inv cfg tr s) (hm : s.main = .done) (hr : s.reader = .gone) (hw : cfg.own = true → s.worker = .gone) (hu : s.down = false)
    (hq : mine s.queue = []) (hi : inWork s.worker = []) : Ended cfg tr s (lost tr) where
  main := hm
  reader := hr
  worker := hw
  up := hu
  handled := by
    have h1 := h.read
    have h2 := h.queue
    have h3 := h.work
    rw [hi, List.append_nil] at h3
    rw [hq, List.append_nil] at h2
    rw [h3, h2, ← h1, hr]
    simp [inHand]

theorem all_ended {cfg : Cfg} {e : Exec (Step cfg)} (hf : Fair e) (h0 : Init cfg (e.run 0)) (hup : ∀ n, (e.run n).down = false) {n : Nat} (hm : (e.run n).main = .done) :
    ∃ m, n ≤ m ∧ ∀ k, m ≤ k → Ended cfg (e.trace k) (e.run k) (lost (e.trace k)) := by
  obtain ⟨m, hnm, hr⟩ := reader_gone hf.reader hf.shut h0 hup
    (by cases ho : cfg.own with
      | true => exact .inl rfl
      | false => exact .inr (hands_over hf h0 hup ho)) hm
  cases ho : cfg.own with
  | true =>
    obtain ⟨k, hk, hw⟩ := own_ends hf.worker h0 hup ho (main_done_stays hm m hnm)
    refine ⟨k, by omega, fun j hj => ?_⟩
    have hwj : (e.run j).worker = .gone := e.invariant (P := fun s => s.worker = .gone) (fun s l t hp hs => by cases hs <;> simp_all) hw j hj
    exact ended_of (inv_at h0 j) (main_done_stays hm j (by omega)) (gone_stays hr j (by omega)) (fun _ => hwj) (hup j) (by rw [((inv_at h0 j).gone hwj).1]; rfl) (by rw [hwj]; rfl)
  | false =>
    obtain ⟨k, hk, hq, hw⟩ := pool_handles hf h0 hup ho hr (main_done_stays hm m hnm)
    refine ⟨k, by omega, fun j hj => ?_⟩
    have hj2 := e.invariant (n := k) (P := fun s => s.reader = .gone ∧ mine s.queue = [] ∧ inWork s.worker = []) (fun s l t hp hs => by
      obtain ⟨h1, h2, h3⟩ := hp
      cases hs with
      | take m q hd hw hq =>
        rw [hq] at h2
        cases m with
        | none => exact ⟨h1, by simpa [mine_cons] using h2, rfl⟩
        | some m => simp [mine_cons] at h2
      | finish m hd hw => exact ⟨h1, h2, rfl⟩
      | quit hd hw hq hc => exact ⟨h1, h2, rfl⟩
      | other hd ho hr => exact ⟨h1, by rw [mine_snoc, h2]; rfl, h3⟩
      | _ => simp_all) ⟨gone_stays hr k hk, hq, hw⟩ j hj
    exact ended_of (inv_at h0 j) (main_done_stays hm j (by omega)) hj2.1 (fun h => by rw [ho] at h; cases h) (hup j) hj2.2.1 hj2.2.2

/-- After a connection has been stopped, its `Start` goroutine, its reader and a worker made for it end, and every message that was read is handled, but for those thrown away by a panic; with a worker of the
pool there is none. (Partial: for WebSocket connections only with a worker of the pool, see `C116_process`; and the finalizer does not panic, see `C116_worker_exact`.) -/
theorem C116_partial {cfg : Cfg} {e : Exec (Step cfg)} (hf : Fair e) (h0 : Init cfg (e.run 0)) (hno : ∀ n, e.act n ≠ some .hookPanic) (hk : cfg.recovers = true ∨ cfg.own = false) {n : Nat}
    (hc : (e.run n).cancelled = true) :
    ∃ m, n ≤ m ∧ ∀ k, m ≤ k → Ended cfg (e.trace k) (e.run k) (lost (e.trace k)) ∧ (cfg.own = false → lost (e.trace k) = []) := by
  have hup := stays_up h0 hno hk
  obtain ⟨m, hm, hd⟩ := main_done hf.main h0 hno (fun n _ => hup n) hc
  obtain ⟨k, hk, h⟩ := all_ended hf h0 hup hd
  refine ⟨k, by omega, fun j hj => ⟨h j hj, fun ho => ?_⟩⟩
  apply Classical.byContradiction
  intro hl
  have := ((inv_at h0 j).closed.1 ((inv_at h0 j).lost hl)).1
  rw [ho] at this; cases this

/-- What the reader has in hand when its queue is closed is what is lost, at once or later. -/
theorem lost_inv {cfg : Cfg} (ho : cfg.own = true) {e : Exec (Step cfg)} (h0 : Init cfg (e.run 0)) {n : Nat} (hn : e.act n = some .free) :
    ∀ m, n < m → lost (e.trace m) = [] ∧ inHand (e.run m).reader = inHand (e.run n).reader ∨ (e.run m).reader = .gone ∧ lost (e.trace m) = inHand (e.run n).reader := by
  intro m hm
  induction m with
  | zero => omega
  | succ m ih =>
    have hs := e.next m
    have hi := inv_at h0 m
    show lost (e.trace m ++ (e.act m).toList) = [] ∧ _ ∨ _ ∧ lost (e.trace m ++ (e.act m).toList) = _
    by_cases hmn : m = n
    · subst hmn
      rw [hn] at hs ⊢
      have hl : lost (e.trace m) = [] := Classical.byContradiction fun h => by
        have := (hi.closed.1 (hi.lost h)).2
        generalize e.run m = s at hs this
        generalize e.run (m + 1) = t at hs
        cases hs
        simp_all
      left
      generalize e.run m = s at hs
      generalize e.run (m + 1) = t at hs
      cases hs
      exact ⟨by rw [Option.toList_some, lost_snoc, hl]; rfl, rfl⟩
    · have ih := ih (by omega)
      have hd : (e.run m).main = .done := by
        have h1 : (e.run (n + 1)).main = .done := by
          have := e.next n
          rw [hn] at this
          generalize e.run n = s at this
          generalize e.run (n + 1) = t at this
          cases this; rfl
        exact main_done_stays h1 m (by omega)
      have hcl := hi.closed.2 ⟨ho, hd⟩
      have hso := hi.sock.2 (.inr hd)
      cases ha : e.act m with
      | none => rw [ha] at hs; rw [hs]; simpa using ih
      | some l =>
        rw [ha] at hs
        rw [Option.toList_some, lost_snoc]
        generalize e.run m = s at hs ih hd hcl hso
        generalize e.run (m + 1) = t at hs
        generalize inHand (e.run n).reader = H at ih ⊢
        cases hs with
        | panic x ms h1 h2 h3 =>
          rw [h2] at ih
          rcases ih with ⟨h, h'⟩ | ⟨h, _⟩
          · right; exact ⟨rfl, by rw [h]; exact h'⟩
          · cases h
        | _ => simp_all [inHand]

/-- With a worker made for the connection, the messages lost are exactly those the reader has in hand when the queue is closed; all others are handled. -/
theorem C116_exact {cfg : Cfg} (ho : cfg.own = true) (hrec : cfg.recovers = true) {e : Exec (Step cfg)} (hf : Fair e) (h0 : Init cfg (e.run 0)) {n : Nat} (hn : e.act n = some .free) :
    ∃ m, n ≤ m ∧ ∀ k, m ≤ k → Ended cfg (e.trace k) (e.run k) (inHand (e.run n).reader) := by
  have hd : (e.run (n + 1)).main = .done := by
    have := e.next n
    rw [hn] at this
    generalize e.run n = s at this
    generalize e.run (n + 1) = t at this
    cases this; rfl
  have hup : ∀ k, (e.run k).down = false := fun k => Bool.eq_false_iff.2 fun h => by
    have := ((inv_at h0 k).down h).1
    rw [hrec] at this; cases this
  obtain ⟨m, hm, h⟩ := all_ended hf h0 hup hd
  refine ⟨m, by omega, fun k hk => ?_⟩
  have hE := h k hk
  rcases lost_inv ho h0 hn k (by omega) with ⟨h1, h2⟩ | ⟨_, h1⟩
  · rw [hE.reader] at h2
    rw [← h2]
    rw [h1] at hE
    exact hE
  · rw [h1] at hE; exact hE

/-- With a WebSocket connection and such a worker, the process ends exactly if the reader has a message in hand when the queue is closed. -/
theorem C116_process {cfg : Cfg} (ho : cfg.own = true) (hrec : cfg.recovers = false) {e : Exec (Step cfg)} (hf : Fair e) (h0 : Init cfg (e.run 0)) {n : Nat} (hn : e.act n = some .free) :
    (∃ m, (e.run m).down = true) ↔ inHand (e.run n).reader ≠ [] := by
  have hs := e.next n
  rw [hn] at hs
  have hd : (e.run (n + 1)).main = .done := by
    generalize e.run n = s at hs
    generalize e.run (n + 1) = t at hs
    cases hs; rfl
  have hdn : (e.run n).down = false := by
    generalize e.run n = s at hs
    generalize e.run (n + 1) = t at hs
    cases hs; assumption
  constructor
  · rintro ⟨m, hm⟩ hnil
    have hi := inv_at h0 m
    have hmn : n < m := by
      apply Classical.byContradiction
      intro h
      have := e.invariant (P := fun s => s.down = true) (fun s l t hp hs => by cases hs <;> simp_all) hm n (by omega)
      rw [hdn] at this; cases this
    rcases (hi.down hm).2 with h | h
    · rcases lost_inv ho h0 hn m hmn with ⟨h1, _⟩ | ⟨_, h1⟩
      · exact h h1
      · rw [hnil] at h1; exact h h1
    · rw [main_done_stays hd m (by omega)] at h; cases h
  · intro hne
    apply Classical.byContradiction
    intro hno
    have hup : ∀ k, (e.run k).down = false := fun k => Bool.eq_false_iff.2 fun h => hno ⟨k, h⟩
    obtain ⟨m, hm, h⟩ := all_ended hf h0 hup hd
    have hl : lost (e.trace m) = inHand (e.run n).reader := by
      rcases lost_inv ho h0 hn m (by omega) with ⟨h1, h2⟩ | ⟨_, h1⟩
      · rw [(h m (Nat.le_refl _)).reader] at h2
        rw [h1]; exact h2
      · exact h1
    -- a message was lost, so that the process is down
    have hall : ∀ k, lost (e.trace k) = [] := by
      intro k
      induction k with
      | zero => rfl
      | succ k ih =>
        show lost (e.trace k ++ (e.act k).toList) = []
        have hs := e.next k
        cases ha : e.act k with
        | none => simpa using ih
        | some l =>
          rw [ha] at hs
          rw [Option.toList_some, lost_snoc, ih]
          have := hup (k + 1)
          generalize e.run k = s at hs
          generalize e.run (k + 1) = t at hs this
          cases hs <;> simp_all
    exact hne (by rw [← hl, hall])

/-- A worker made for a connection that has been stopped ends exactly if the stop hook does not panic. -/
theorem C116_worker_exact {cfg : Cfg} (ho : cfg.own = true) (hrec : cfg.recovers = true) {e : Exec (Step cfg)} (hf : Fair e) (h0 : Init cfg (e.run 0)) {n : Nat} (hc : (e.run n).cancelled = true) :
    (∃ m, (e.run m).worker = .gone) ↔ ∀ m, e.act m ≠ some .hookPanic := by
  constructor
  · rintro ⟨m, hm⟩ k hk
    have hi := inv_at h0 m
    have hd := (hi.closed.1 (hi.gone hm).2).2
    have hs := e.next k
    rw [hk] at hs
    by_cases h : m ≤ k
    · have := main_done_stays hd k h
      generalize e.run k = s at hs this
      generalize e.run (k + 1) = t at hs
      cases hs
      simp_all
    · have hp : (e.run (k + 1)).main = .panicked := by
        generalize e.run k = s at hs
        generalize e.run (k + 1) = t at hs
        cases hs; rfl
      have := e.invariant (P := fun s => s.main = .panicked) (fun s l t hp hs => by cases hs <;> simp_all) hp m (by omega)
      rw [hd] at this; cases this
  · intro hno
    obtain ⟨m, _, h⟩ := C116_partial hf h0 hno (.inl hrec) hc
    exact ⟨m, (h m (Nat.le_refl _)).1.worker ho⟩

/-- The reader of a connection with a worker made for it ends even if no handler ever returns. -/
theorem C116_reader {cfg : Cfg} (ho : cfg.own = true) (hrec : cfg.recovers = true) {e : Exec (Step cfg)} (hm : e.WeakFair fun l => l = .finalize ∨ l = .hookPanic ∨ l = .free)
    (hr : e.WeakFair fun l => l = .enter ∨ l = .leave ∨ l = .next ∨ ∃ ms, l = .panic ms) (hs : e.WeakFair fun l => l = .shut) (h0 : Init cfg (e.run 0)) (hno : ∀ n, e.act n ≠ some .hookPanic) {n : Nat}
    (hc : (e.run n).cancelled = true) : ∃ m, n ≤ m ∧ (e.run m).reader = .gone := by
  have hup := stays_up h0 hno (.inl hrec)
  obtain ⟨m, hm, hd⟩ := main_done hm h0 hno (fun n _ => hup n) hc
  obtain ⟨k, hk, h⟩ := reader_gone hr hs h0 hup (.inl ho) hd
  exact ⟨k, by omega, h⟩

/-! ## Where it fails -/

def start : State := {}

theorem start_init (own rec : Bool) (cap : Nat) : Init ⟨own, rec, cap⟩ start where
  cancelled := rfl
  sockOpen := rfl
  main := rfl
  reader := rfl
  count := rfl
  others := by simp [start]
  fresh _ := rfl
  room := Nat.zero_le _
  closed := rfl
  worker := .inl rfl
  down := rfl

/-- A run in which nothing fails: two messages come with one read, the first is put on the queue, the connection is stopped, and its queue is closed before the second one is put there. -/
def cutOff : List Label := [.enter, .read 2, .hand 0, .stop, .finalize, .free, .panic [1], .take (some 0), .finish (some 0), .quit]

theorem cutOff_runs (rec : Bool) (hrec : rec = true) (cap : Nat) : ∃ t, Steps (Step ⟨true, rec, cap⟩) start cutOff t ∧ t.reader = .gone ∧ t.main = .done ∧ t.worker = .gone := by
  subst hrec
  refine ⟨_, .cons (.enter _ rfl rfl rfl) (.cons (.read _ 2 rfl rfl rfl) (.cons (.hand _ 0 [1] rfl rfl rfl ?_) (.cons (.stop _ rfl) (.cons (.finalize _ rfl rfl rfl) (.cons (.free _ rfl rfl)
    (.cons (.panic _ 1 [] rfl rfl rfl) (.cons (.take _ (some 0) [] rfl rfl rfl) (.cons (.finish _ (some 0) rfl rfl) (.cons (.quit _ rfl rfl rfl rfl) (.nil _)))))))))), rfl, rfl, rfl⟩
  show 0 < max cap 1
  omega

/-- With a worker made for the connection (TCP and KCP), a message that has been received is not handled, though nothing fails and every goroutine gets to run. -/
theorem C116_refuted (cap : Nat) : ∃ e : Exec (Step ⟨true, true, cap⟩), Fair e ∧ Init ⟨true, true, cap⟩ (e.run 0) ∧ (∀ n, e.act n ≠ some .hookPanic ∧ e.act n ≠ some .fail) ∧
    (∃ n, e.act n = some (.read 2)) ∧ ∀ n, 1 ∉ handled (e.trace n) := by
  obtain ⟨t, hst, h1, h2, h3⟩ := cutOff_runs true rfl cap
  obtain ⟨e, he0, hact, htr, hend⟩ := Exec.ofSteps hst
  refine ⟨e, ⟨?_, ?_, ?_, ?_, ?_⟩, he0 ▸ start_init _ _ _, fun n => ?_, ⟨1, by rw [hact]; rfl⟩, fun n hn => ?_⟩
  · exact Exec.weakFair_of_end hend (by rintro ⟨l, u, hA, hs⟩; cases hs <;> simp_all)
  · exact Exec.weakFair_of_end hend (by rintro ⟨l, u, hA, hs⟩; cases hs <;> simp_all)
  · exact Exec.weakFair_of_end hend (by rintro ⟨l, u, hA, hs⟩; cases hs <;> simp_all)
  · exact Exec.strongFair_of_end hend (by rintro ⟨l, u, hA, hs⟩; cases hs <;> simp_all)
  · exact Exec.weakFair_of_end hend (by rintro ⟨l, u, hA, hs⟩; cases hs <;> simp_all)
  · rw [hact]
    constructor
    · intro h; exact absurd (List.mem_of_getElem? h) (by decide)
    · intro h; exact absurd (List.mem_of_getElem? h) (by decide)
  · rw [htr] at hn
    have : 1 ∈ handled cutOff := (List.Sublist.filterMap _ (List.take_sublist n cutOff)).subset hn
    exact absurd this (by decide)

/-- **C116** (after the end of the process): nothing more happens. -/
theorem C116_down {cfg : Cfg} {s t : State} {ls : List Label} (hd : s.down = true) (h : Steps (Step cfg) s ls t) : ls = [] ∧ t = s := by
  cases h with
  | nil => exact ⟨rfl, rfl⟩
  | cons hs _ => cases hs <;> simp_all

/-- With a WebSocket connection the same takes the process down, and with it every other connection. -/
theorem C116_refuted_process (cap : Nat) : ∃ t, Steps (Step ⟨true, false, cap⟩) start [.enter, .read 1, .stop, .finalize, .free, .panic [0]] t ∧ t.down = true :=
  ⟨_, .cons (.enter _ rfl rfl rfl) (.cons (.read _ 1 rfl rfl rfl) (.cons (.stop _ rfl) (.cons (.finalize _ rfl rfl rfl) (.cons (.free _ rfl rfl) (.cons (.panic _ 0 [] rfl rfl rfl) (.nil _)))))), rfl⟩

/-- If the stop hook panics (TCP and KCP), the reader waits for a peer that need not say anything any more, and a worker made for the connection waits for ever. -/
theorem C116_refuted_hook (cap : Nat) : ∃ e : Exec (Step ⟨true, true, cap⟩), Fair e ∧ Init ⟨true, true, cap⟩ (e.run 0) ∧
    ∀ n, 3 ≤ n → (e.run n).cancelled = true ∧ (e.run n).reader = .reading ∧ (e.run n).worker = .idle := by
  have hst : Steps (Step ⟨true, true, cap⟩) start [.enter, .stop, .hookPanic] { cancelled := true, reader := .reading, main := .panicked } :=
    .cons (.enter _ rfl rfl rfl) (.cons (.stop _ rfl) (.cons (.hookPanic _ rfl rfl rfl) (.nil _)))
  obtain ⟨e, he0, hact, htr, hend⟩ := Exec.ofSteps hst
  refine ⟨e, ⟨?_, ?_, ?_, ?_, ?_⟩, he0 ▸ start_init _ _ _, fun n hn => ?_⟩
  · exact Exec.weakFair_of_end hend (by rintro ⟨l, u, hA, hs⟩; cases hs <;> simp_all)
  · exact Exec.weakFair_of_end hend (by rintro ⟨l, u, hA, hs⟩; cases hs <;> simp_all)
  · exact Exec.weakFair_of_end hend (by rintro ⟨l, u, hA, hs⟩; cases hs <;> simp_all)
  · exact Exec.strongFair_of_end hend (by rintro ⟨l, u, hA, hs⟩; cases hs <;> simp_all)
  · exact Exec.weakFair_of_end hend (by rintro ⟨l, u, hA, hs⟩; cases hs <;> simp_all)
  · rw [hend n (by simpa using hn)]
    exact ⟨rfl, rfl, rfl⟩

/-- A queue full of messages of others, the worker being in a handler. -/
def crowded (cap : Nat) : State := { queue := List.replicate (max cap 1) none, worker := .busy none }

theorem crowded_init (rec : Bool) (cap : Nat) : Init ⟨false, rec, cap⟩ (crowded cap) where
  cancelled := rfl
  sockOpen := rfl
  main := rfl
  reader := rfl
  count := rfl
  others := by simp [crowded, List.mem_replicate]
  fresh h := by cases h
  room := by simp [crowded]
  closed := rfl
  worker := .inr ⟨rfl, rfl⟩
  down := rfl

/-- With a worker of the pool, a handler that does not return keeps the reader of a connection that has ended, even if it is a handler of another connection. -/
theorem C116_refuted_hang (rec : Bool) (cap : Nat) : ∃ e : Exec (Step ⟨false, rec, cap⟩), Init ⟨false, rec, cap⟩ (e.run 0) ∧
    (e.WeakFair fun l => l = .finalize ∨ l = .hookPanic ∨ l = .free) ∧ (e.WeakFair fun l => l = .enter ∨ l = .leave ∨ l = .next ∨ ∃ ms, l = .panic ms) ∧ (e.WeakFair fun l => l = .shut) ∧
    (e.StrongFair fun l => ∃ m, l = .hand m) ∧ (e.WeakFair fun l => (∃ m, l = .take m) ∨ l = .quit) ∧
    ∀ n, 5 ≤ n → (e.run n).main = .done ∧ (e.run n).reader = .handing [0] := by
  have hst : Steps (Step ⟨false, rec, cap⟩) (crowded cap) [.enter, .read 1, .stop, .finalize, .free]
      { crowded cap with cancelled := true, reader := .handing [0], count := 1, main := .done, sockOpen := false } :=
    .cons (.enter _ rfl rfl rfl) (.cons (.read _ 1 rfl rfl rfl) (.cons (.stop _ rfl) (.cons (.finalize _ rfl rfl rfl) (.cons (.free _ rfl rfl) (.nil _)))))
  obtain ⟨e, he0, hact, htr, hend⟩ := Exec.ofSteps hst
  refine ⟨e, he0 ▸ crowded_init _ _, ?_, ?_, ?_, ?_, ?_, fun n hn => ?_⟩
  · exact Exec.weakFair_of_end hend (by rintro ⟨l, u, hA, hs⟩; cases hs <;> simp_all [crowded])
  · exact Exec.weakFair_of_end hend (by rintro ⟨l, u, hA, hs⟩; cases hs <;> simp_all [crowded])
  · exact Exec.weakFair_of_end hend (by rintro ⟨l, u, hA, hs⟩; cases hs <;> simp_all [crowded])
  · exact Exec.strongFair_of_end hend (by rintro ⟨l, u, hA, hs⟩; cases hs <;> simp_all [crowded])
  · exact Exec.weakFair_of_end hend (by rintro ⟨l, u, hA, hs⟩; cases hs <;> simp_all [crowded])
  · rw [hend n (by simpa using hn)]
    exact ⟨rfl, rfl⟩

/-! The hypotheses can be met: a run of a connection with a worker of its own that meets those of `C116_partial`, `C116_exact` and `C116_worker_exact` (the run of `C116_refuted`), and one with a worker of the pool. -/

example : ∃ e : Exec (Step ⟨false, false, 4⟩), Fair e ∧ Init ⟨false, false, 4⟩ (e.run 0) ∧ (∀ n, e.act n ≠ some .hookPanic) ∧ ∃ n, (e.run n).cancelled = true := by
  have hst : ∃ t, Steps (Step ⟨false, false, 4⟩) start [.enter, .read 2, .hand 0, .other, .stop, .hand 1, .next, .leave, .finalize, .free, .take (some 0), .finish (some 0), .take none, .finish none,
      .take (some 1), .finish (some 1)] t ∧ t = { cancelled := true, sockOpen := false, main := .done, reader := .gone, count := 2 } :=
    ⟨_, .cons (.enter _ rfl rfl rfl) (.cons (.read _ 2 rfl rfl rfl) (.cons (.hand _ 0 [1] rfl rfl rfl (by decide)) (.cons (.other _ rfl rfl (by decide)) (.cons (.stop _ rfl)
      (.cons (.hand _ 1 [] rfl rfl rfl (by decide)) (.cons (.next _ rfl rfl) (.cons (.leave _ rfl rfl rfl) (.cons (.finalize _ rfl rfl rfl) (.cons (.free _ rfl rfl)
      (.cons (.take _ (some 0) _ rfl rfl rfl) (.cons (.finish _ _ rfl rfl) (.cons (.take _ none _ rfl rfl rfl) (.cons (.finish _ _ rfl rfl) (.cons (.take _ (some 1) _ rfl rfl rfl) (.cons (.finish _ _ rfl rfl)
      (.nil _)))))))))))))))), rfl⟩
  obtain ⟨t, hst, rfl⟩ := hst
  obtain ⟨e, he0, hact, htr, hend⟩ := Exec.ofSteps hst
  refine ⟨e, ⟨?_, ?_, ?_, ?_, ?_⟩, he0 ▸ start_init _ _ _, fun n => ?_, 16, by rw [hend 16 (by decide)]⟩
  · exact Exec.weakFair_of_end hend (by rintro ⟨l, u, hA, hs⟩; cases hs <;> simp_all)
  · exact Exec.weakFair_of_end hend (by rintro ⟨l, u, hA, hs⟩; cases hs <;> simp_all)
  · exact Exec.weakFair_of_end hend (by rintro ⟨l, u, hA, hs⟩; cases hs <;> simp_all)
  · exact Exec.strongFair_of_end hend (by rintro ⟨l, u, hA, hs⟩; cases hs <;> simp_all)
  · exact Exec.weakFair_of_end hend (by rintro ⟨l, u, hA, hs⟩; cases hs <;> simp_all)
  · rw [hact]
    intro h; exact absurd (List.mem_of_getElem? h) (by decide)

end Zinx.Props.Leave
