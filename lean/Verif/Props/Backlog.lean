import Verif.Model.Worker
import Verif.Props.Frame

/-! # C135: a peer cannot pile up work -/

namespace Zinx.Props

open Zinx Zinx.Worker Zinx.Spec

/-- How many requests of connection `c` have been made of what was read, according to a trace. -/
def arrivedOf (c : Nat) : List Act → Nat
  | [] => 0
  | .arrive c' rs :: ls => (if c' = c then rs.length else 0) + arrivedOf c ls
  | _ :: ls => arrivedOf c ls

/-- How many requests of connection `c` the workers are through with, according to a trace. -/
def doneOf (c : Nat) : List Act → Nat
  | [] => 0
  | .finish _ r _ :: ls => (if r.conn = some c then 1 else 0) + doneOf c ls
  | _ :: ls => doneOf c ls

/-- No read gives more than `N` requests. -/
def ReadsUpTo (N : Nat) (ls : List Act) : Prop := ∀ c rs, .arrive c rs ∈ ls → rs.length ≤ N

def isOf (c : Nat) (r : Req) : Bool := decide (r.conn = some c)

/-- 1 if the worker is at a request of connection `c`. -/
def atWork (c : Nat) : Status → Nat
  | .busy r => if isOf c r then 1 else 0
  | _ => 0

/-- The requests of connection `c` that are waiting or being handled. -/
def pendingOf (wid : Nat → Nat) (c : Nat) (s : Worker.State) : Nat := (s.todo c).length + (s.queue (wid c)).countP (isOf c) + atWork c (s.worker (wid c))

/-- Requests are where their connection's worker is, and no queue is too long. -/
structure BackInv (wid : Nat → Nat) (cap N : Nat) (s : Worker.State) : Prop where
  todo : ∀ c r, r ∈ s.todo c → r.conn = some c
  queue : ∀ w c r, r ∈ s.queue w → r.conn = some c → w = wid c
  busy : ∀ w c r, s.worker w = .busy r → r.conn = some c → w = wid c
  long : ∀ w, (s.queue w).length ≤ max cap 1
  read : ∀ c, (s.todo c).length ≤ N

theorem back_self {α : Type} (f : Nat → α) (i : Nat) (a : α) : Worker.upd f i a i = a := by simp [Worker.upd]
theorem back_other {α : Type} (f : Nat → α) {i j : Nat} (a : α) (h : j ≠ i) : Worker.upd f i a j = f j := by simp [Worker.upd, h]

theorem backInv_step {m : Bool} {wid : Nat → Nat} {cap N : Nat} {s t : Worker.State} {l : Act} (hi : BackInv wid cap N s) (hl : ReadsUpTo N [l]) (h : Worker.Step m wid cap s l t) :
    BackInv wid cap N t ∧ ∀ c, pendingOf wid c t + doneOf c [l] = pendingOf wid c s + arrivedOf c [l] := by
  cases h with
  | arrive c rs h0 h =>
    refine ⟨⟨fun c' r hr => ?_, hi.queue, hi.busy, hi.long, fun c' => ?_⟩, fun c' => ?_⟩
    · dsimp only at hr
      by_cases e : c' = c
      · subst e; rw [back_self] at hr; exact h r hr
      · rw [back_other _ _ e] at hr; exact hi.todo c' r hr
    · dsimp only
      by_cases e : c' = c
      · subst e; rw [back_self]; exact hl c' rs (by simp)
      · rw [back_other _ _ e]; exact hi.read c'
    · by_cases e : c = c'
      · subst e; simp [pendingOf, doneOf, arrivedOf, back_self, h0]; omega
      · simp [pendingOf, doneOf, arrivedOf, back_other _ _ (Ne.symm e), e]
  | deliver c r rest h hq =>
    have hr : r.conn = some c := hi.todo c r (by rw [h]; simp)
    refine ⟨⟨fun c' r' hr' => ?_, fun w c' r' hr' hc' => ?_, hi.busy, fun w => ?_, fun c' => ?_⟩, fun c' => ?_⟩
    · dsimp only at hr'
      by_cases e : c' = c
      · subst e; rw [back_self] at hr'; exact hi.todo c' r' (by rw [h]; simp [hr'])
      · rw [back_other _ _ e] at hr'; exact hi.todo c' r' hr'
    · dsimp only at hr'
      by_cases e : w = wid c
      · subst e
        rw [back_self, List.mem_append, List.mem_singleton] at hr'
        rcases hr' with hr' | rfl
        · exact hi.queue _ c' r' hr' hc'
        · rw [hr] at hc'; cases hc'; rfl
      · rw [back_other _ _ e] at hr'; exact hi.queue w c' r' hr' hc'
    · dsimp only
      by_cases e : w = wid c
      · subst e; rw [back_self]; simp; omega
      · rw [back_other _ _ e]; exact hi.long w
    · dsimp only
      by_cases e : c' = c
      · subst e; rw [back_self]; have := hi.read c'; rw [h] at this; simp at this; omega
      · rw [back_other _ _ e]; exact hi.read c'
    · simp only [pendingOf, doneOf, arrivedOf, Nat.add_zero]
      by_cases e : c' = c
      · subst e
        rw [back_self, back_self, h, List.countP_append]
        simp [isOf, hr]
        omega
      · rw [back_other _ _ e]
        by_cases ew : wid c' = wid c
        · rw [ew, back_self, List.countP_append]
          have : r.conn ≠ some c' := by rw [hr]; simp; exact Ne.symm e
          simp [isOf, this]
        · rw [back_other _ _ ew]
  | external w r h hq =>
    refine ⟨⟨hi.todo, fun w' c' r' hr' hc' => ?_, hi.busy, fun w' => ?_, hi.read⟩, fun c' => ?_⟩
    · dsimp only at hr'
      by_cases e : w' = w
      · subst e
        rw [back_self, List.mem_append, List.mem_singleton] at hr'
        rcases hr' with hr' | rfl
        · exact hi.queue _ c' r' hr' hc'
        · rw [h] at hc'; cases hc'
      · rw [back_other _ _ e] at hr'; exact hi.queue w' c' r' hr' hc'
    · dsimp only
      by_cases e : w' = w
      · subst e; rw [back_self]; simp; omega
      · rw [back_other _ _ e]; exact hi.long w'
    · simp only [pendingOf, doneOf, arrivedOf, Nat.add_zero]
      by_cases ew : wid c' = w
      · subst ew
        rw [back_self, List.countP_append]
        simp [isOf, h]
      · rw [back_other _ _ ew]
  | take w r rest h1 h2 =>
    refine ⟨⟨hi.todo, fun w' c' r' hr' hc' => ?_, fun w' c' r' hw' hc' => ?_, fun w' => ?_, hi.read⟩, fun c' => ?_⟩
    · dsimp only at hr'
      by_cases e : w' = w
      · subst e; rw [back_self] at hr'; exact hi.queue _ c' r' (by rw [h2]; simp [hr']) hc'
      · rw [back_other _ _ e] at hr'; exact hi.queue w' c' r' hr' hc'
    · dsimp only at hw'
      by_cases e : w' = w
      · subst e; rw [back_self] at hw'; cases hw'; exact hi.queue _ c' r (by rw [h2]; simp) hc'
      · rw [back_other _ _ e] at hw'; exact hi.busy w' c' r' hw' hc'
    · dsimp only
      by_cases e : w' = w
      · subst e; rw [back_self]; have := hi.long w'; rw [h2] at this; simp at this ⊢; omega
      · rw [back_other _ _ e]; exact hi.long w'
    · simp only [pendingOf, doneOf, arrivedOf, Nat.add_zero]
      by_cases ew : wid c' = w
      · subst ew
        rw [back_self, back_self, h1, h2]
        simp [atWork, List.countP_cons]
        omega
      · rw [back_other _ _ ew, back_other _ _ ew]
  | finish w r o h =>
    refine ⟨⟨hi.todo, hi.queue, fun w' c' r' hw' hc' => ?_, hi.long, hi.read⟩, fun c' => ?_⟩
    · dsimp only at hw'
      by_cases e : w' = w
      · subst e
        rw [back_self] at hw'
        cases hx : handle m r.kind o <;> rw [hx] at hw' <;> cases hw'
      · rw [back_other _ _ e] at hw'; exact hi.busy w' c' r' hw' hc'
    · simp only [pendingOf, doneOf, arrivedOf, Nat.add_zero]
      by_cases ew : wid c' = w
      · subst ew
        rw [back_self, h]
        cases hx : handle m r.kind o <;> simp [atWork, isOf]
      · rw [back_other _ _ ew]
        have : r.conn ≠ some c' := fun e => ew (hi.busy w c' r h e).symm
        simp [this]

theorem arrivedOf_append (c : Nat) : ∀ (a b : List Act), arrivedOf c (a ++ b) = arrivedOf c a + arrivedOf c b
  | [], b => by simp [arrivedOf]
  | l :: a, b => by cases l <;> simp [arrivedOf, arrivedOf_append c a b] <;> omega

theorem doneOf_append (c : Nat) : ∀ (a b : List Act), doneOf c (a ++ b) = doneOf c a + doneOf c b
  | [], b => by simp [doneOf]
  | l :: a, b => by cases l <;> simp [doneOf, doneOf_append c a b] <;> omega

theorem back_steps {m : Bool} {wid : Nat → Nat} {cap N : Nat} {s t : Worker.State} {ls : List Act} (h : Steps (Worker.Step m wid cap) s ls t) (hi : BackInv wid cap N s) (hl : ReadsUpTo N ls) :
    BackInv wid cap N t ∧ ∀ c, pendingOf wid c t + doneOf c ls = pendingOf wid c s + arrivedOf c ls := by
  induction h with
  | nil => exact ⟨hi, fun c => rfl⟩
  | @cons s u t l ls hs _ ih =>
    obtain ⟨h1, h2⟩ := backInv_step hi (fun c rs hm => hl c rs (by simp at hm; simp [hm])) hs
    obtain ⟨h3, h4⟩ := ih h1 (fun c rs hm => hl c rs (by simp [hm]))
    refine ⟨h3, fun c => ?_⟩
    have e1 := arrivedOf_append c [l] ls
    have e2 := doneOf_append c [l] ls
    have := h2 c
    have := h4 c
    simp only [List.cons_append, List.nil_append] at e1 e2
    omega

/-- **C135 (with a worker pool).** However much a peer sends and however slow the handlers are: the requests of a connection that are waiting or being handled are never more than those of one read, one
queue and one worker. And no queue ever has more than `MaxWorkerTaskLen` requests (one, if that is 0). -/
theorem C135_pool {m : Bool} {wid : Nat → Nat} {cap N : Nat} {t : Worker.State} {ls : List Act} (h : Steps (Worker.Step m wid cap) (Worker.initial fun _ => []) ls t) (hl : ReadsUpTo N ls) :
    (∀ c, doneOf c ls ≤ arrivedOf c ls ∧ arrivedOf c ls ≤ doneOf c ls + (N + max cap 1 + 1)) ∧ ∀ w, (t.queue w).length ≤ max cap 1 := by
  obtain ⟨h1, h2⟩ := back_steps (N := N) h ⟨by simp [Worker.initial], by simp [Worker.initial], by simp [Worker.initial], by simp [Worker.initial], by simp [Worker.initial]⟩ hl
  refine ⟨fun c => ?_, h1.long⟩
  have := h2 c
  have h0 : pendingOf wid c (Worker.initial fun _ => []) = 0 := by simp [pendingOf, Worker.initial, atWork]
  have hb : pendingOf wid c t ≤ N + max cap 1 + 1 := by
    have a1 := h1.read c
    have a2 := h1.long (wid c)
    have a3 : (t.queue (wid c)).countP (isOf c) ≤ (t.queue (wid c)).length := List.countP_le_length
    have a4 : atWork c (t.worker (wid c)) ≤ 1 := by unfold atWork; split <;> (try split) <;> simp
    unfold pendingOf
    omega
  omega

/-- **C135 (the bound is reached).** One connection, queue of length `cap`, reads of `N` requests each, a handler that does not return: so many requests are pending. -/
theorem C135_reached {m : Bool} {cap N : Nat} : ∃ ls t, Steps (Worker.Step m (fun _ => 0) cap) (Worker.initial fun _ => []) ls t ∧ ReadsUpTo N ls ∧
    (0 < N → arrivedOf 0 ls = doneOf 0 ls + (N + max cap 1 + 1)) := by
  -- `k` requests one at a time, the first is taken by the worker
  let q : Req := ⟨some 0, 0, .message⟩
  by_cases hN : 0 < N
  case neg => exact ⟨[], _, .nil _, fun _ _ h => by simp at h, fun h => absurd h hN⟩
  -- state with the worker busy and `k` requests in the queue
  let st (k : Nat) : Worker.State := { queue := Worker.upd (fun _ => []) 0 (List.replicate k q), worker := Worker.upd (fun _ => .idle) 0 (.busy q), todo := fun _ => [] }
  have h0 : ∃ t, t = st 0 ∧ Steps (Worker.Step m (fun _ => 0) cap) (Worker.initial fun _ => []) [.arrive 0 [q], .submit 0 q, .start 0 q] t := by
    refine ⟨_, ?_, .cons (.arrive _ 0 [q] rfl (by simp [q])) (.cons (.deliver _ 0 q [] (by simp [back_self]) (by simp [Worker.initial]; omega))
      (.cons (.take _ 0 q [] (by simp [Worker.initial]) (by simp [back_self, Worker.initial])) (.nil _)))⟩
    simp only [st, Worker.initial]
    congr 1
    · funext j; by_cases e : j = 0 <;> simp [Worker.upd, e]
    · funext j; by_cases e : j = 0 <;> simp [Worker.upd, e]
  have h1 : ∀ k, k ≤ max cap 1 → ∃ ls, Steps (Worker.Step m (fun _ => 0) cap) (st 0) ls (st k) ∧ ReadsUpTo N ls ∧ arrivedOf 0 ls = k ∧ doneOf 0 ls = 0 := by
    intro k
    induction k with
    | zero => intro _; exact ⟨[], .nil _, fun _ _ h => by simp at h, rfl, rfl⟩
    | succ k ih =>
      intro hk
      obtain ⟨ls, h1, h2, h3, h4⟩ := ih (by omega)
      have hstep : ∃ t, t = st (k + 1) ∧ Steps (Worker.Step m (fun _ => 0) cap) (st k) [.arrive 0 [q], .submit 0 q] t := by
        refine ⟨_, ?_, .cons (.arrive _ 0 [q] rfl (by simp [q])) (.cons (.deliver _ 0 q [] (by simp [back_self]) (by simp [st, back_self]; omega)) (.nil _))⟩
        simp only [st]
        congr 1
        · funext j; by_cases e : j = 0 <;> simp [Worker.upd, e, List.replicate_succ']
        · funext j; by_cases e : j = 0 <;> simp [Worker.upd, e]
      obtain ⟨t, rfl, hs⟩ := hstep
      refine ⟨ls ++ [.arrive 0 [q], .submit 0 q], h1.append hs, fun c rs hm => ?_, ?_, ?_⟩
      · rw [List.mem_append] at hm
        rcases hm with hm | hm
        · exact h2 c rs hm
        · simp at hm; rw [hm.2]; simp; omega
      · rw [arrivedOf_append, h3]; simp [arrivedOf]
      · rw [doneOf_append, h4]; simp [doneOf]
  obtain ⟨t, rfl, hs0⟩ := h0
  obtain ⟨ls, h2, h3, h4, h5⟩ := h1 (max cap 1) (Nat.le_refl _)
  refine ⟨[.arrive 0 [q], .submit 0 q, .start 0 q] ++ (ls ++ [.arrive 0 (List.replicate N q)]), _,
    hs0.append (h2.append (.cons (.arrive _ 0 (List.replicate N q) rfl (fun r hr => by rw [List.eq_of_mem_replicate hr])) (.nil _))), fun c rs hm => ?_, fun _ => ?_⟩
  · simp only [List.mem_append, List.mem_cons, List.not_mem_nil, or_false, Act.arrive.injEq, reduceCtorEq] at hm
    rcases hm with hm | hm | hm
    · rw [hm.2]; simp; omega
    · exact h3 c rs hm
    · rw [hm.2]; simp
  · rw [arrivedOf_append, arrivedOf_append, doneOf_append, doneOf_append, h4, h5]
    simp [arrivedOf, doneOf]
    omega

/-! ### How many requests one read gives -/

theorem kind_starts8 {k : Decoder.Kind} (hk : k ≠ .htlv) {s : Bytes} {n : Nat} (h : (kindFormat k).Starts s n) : 8 ≤ n := by
  have h1 := h.length
  have h2 := h.nonneg
  cases k with
  | htlv => exact absurd rfl hk
  | tlv => simp only [FrameFormat.announced, kindFormat, tlvFormat] at h1 h2; omega
  | ltv => simp only [FrameFormat.announced, kindFormat, ltvFormat] at h1 h2; omega

theorem spells_count {k : Decoder.Kind} (hk : k ≠ .htlv) {s : Bytes} {fs : List Bytes} {t : Bytes} (h : (kindFormat k).Spells s fs t) : fs.length * 8 ≤ s.length := by
  induction h with
  | wait => simp
  | @frame s n fs t hs hle _ ih =>
    have := kind_starts8 hk hs
    simp at ih ⊢
    omega

open Zinx.Frame in
/-- **C135 (what one read gives).** With the shipped TLV and LTV decoders a read of `n` bytes gives at most `(n + 7) / 8` requests, whatever was read before. So `N` of `C135_pool` can be
`(IOReadBuffSize + 7) / 8`. -/
theorem C135_read (k : Decoder.Kind) (hk : k ≠ .htlv) (reads : List Bytes) (buff : Bytes) :
    ∃ fs d fs' d', decodeReads (newFrameDecoder (Decoder.lengthField k)) reads = .ret fs d ∧ Decode d buff = .ret fs' d' ∧ fs'.length ≤ (buff.length + 7) / 8 := by
  have hv := kindFormat_valid k
  have hm := (kindConfigures k).matches hv
  have hall : ∀ s, ∃ fs t, (kindFormat k).Spells s fs t := by
    cases k with
    | htlv => exact absurd rfl hk
    | tlv | ltv => exact spells_all (kindFormat_safe _) (by simp [kindFormat, tlvFormat, ltvFormat])
  obtain ⟨fs, t, hs⟩ := hall reads.flatten
  have h1 := (C01_chunking_independent (kindFormat k) hv _ (kindConfigures k) _ fs t hs reads rfl).1
  have hi := spells_rest_incomplete hs
  obtain ⟨fs', t', hs'⟩ := hall (t ++ buff)
  refine ⟨_, _, _, _, h1, Decode_spells hv (hm.setBuf t) hs', ?_⟩
  have hc : fs'.length * 8 ≤ buff.length + 7 := by
    rcases hi with hlt | ⟨n, hn, hlt⟩
    · have := spells_count hk hs'
      have : t.length < 8 := by
        cases k with
        | htlv => exact absurd rfl hk
        | tlv => simpa [kindFormat, tlvFormat] using hlt
        | ltv => have : t.length < 4 := by simpa [kindFormat, ltvFormat] using hlt
                 omega
      rw [List.length_append] at *
      omega
    · cases hs' with
      | wait => simp
      | @frame _ m fs2 _ hs2 hle hr =>
        have hnm : n = m := starts_unique ((starts_append hn.header buff n).2 hn) hs2
        have := spells_count hk hr
        simp at this hle ⊢
        omega
  omega

/-- **C135 fails without a worker pool** (`WorkerPoolSize` 0, and every client): as many handlers as the peer likes are running at the same time, each in a goroutine of its own. -/
theorem C135_nopool_refuted (n : Nat) : ∃ ls running, Steps NoPoolStep ([], []) ls ([], running) ∧ running.length = n ∧ (∀ w r o, .finish w r o ∉ ls) ∧ ls.length = 2 * n := by
  induction n with
  | zero => exact ⟨[], [], .nil _, rfl, by simp, rfl⟩
  | succ n ih =>
    obtain ⟨ls, running, h1, h2, h3, h4⟩ := ih
    have e : ([⟨some 0, n, .message⟩] : List Req).erase ⟨some 0, n, .message⟩ = [] := by simp
    refine ⟨ls ++ [.submit 0 ⟨some 0, n, .message⟩, .start 0 ⟨some 0, n, .message⟩], running ++ [⟨some 0, n, .message⟩],
      h1.append (.cons (.deliver [] running _) (.cons ?_ (.nil _))), by simp [h2], fun w r o hm => ?_, by simp [h4]; omega⟩
    · have := NoPoolStep.start ([] ++ [⟨some 0, n, .message⟩]) running ⟨some 0, n, .message⟩ (by simp)
      rw [List.nil_append, e] at this
      exact this
    · simp at hm
      exact h3 w r o hm

/-- The hypotheses of `C135_pool` are met, and the first bound is not trivial: queue length 2, reads of up to 3 requests, 6 requests pending. -/
example : ∃ ls t, Steps (Worker.Step false (fun _ => 0) 2) (Worker.initial fun _ => []) ls t ∧ ReadsUpTo 3 ls ∧ arrivedOf 0 ls = doneOf 0 ls + 6 := by
  obtain ⟨ls, t, h1, h2, h3⟩ := C135_reached (m := false) (cap := 2) (N := 3)
  exact ⟨ls, t, h1, h2, h3 (by decide)⟩

end Zinx.Props
